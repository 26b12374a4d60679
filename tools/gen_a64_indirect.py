#!/usr/bin/env python3
"""Translates the inline assembly of core/indirect_bgemm/kernel_8x4x{1,2,4}_aarch64.h (directory given as argument) into the Lean
instruction lists of Model/IndirectA64Code.lean; prints that file. Fails on any instruction it does not know."""
import re, sys, textwrap

DIR = sys.argv[1]
XN = {'x0': 0, 'x1': 1, 'x2': 2, 'x3': 3, 'w_ptr': 20, 'indirection_ptr': 21, 'clamp_min_addr': 22, 'clamp_max_addr': 23,
      'multiplier_addr': 24, 'bias_addr': 25, 'output_transform_addr': 26}
for k in range(4): XN['a_ptr_%d' % k] = 10 + k

def V(n):
    m = re.fullmatch(r'v(\d+)', n)
    if m: assert int(m[1]) < 16; return int(m[1])
    m = re.fullmatch(r'%\[(\w+)\]', n)
    n = m[1]
    m = re.fullmatch(r'a_([0-3])', n)
    if m: return 16 + int(m[1])
    m = re.fullmatch(r'w_([0-7])', n)
    if m: return 20 + int(m[1])
    m = re.fullmatch(r'accum_([0-3])', n)
    if m: return 28 + int(m[1])
    m = re.fullmatch(r'result_([0-3])([01])', n)
    return 32 + 2 * int(m[1]) + int(m[2])

def Q(n):
    m = re.fullmatch(r'q(\d+)', n)
    if m: return int(m[1])
    return V('%[' + re.fullmatch(r'%q\[(\w+)\]', n)[1] + ']')

def X(n):
    m = re.fullmatch(r'%\[(\w+)\]', n)
    return XN[m[1] if m else n]

VR = r'(v\d+|%\[\w+\])'
QR = r'(q\d+|%q\[\w+\])'
XR = r'(x\d|%\[\w+\])'

def tr(l):
    l = re.sub(r'\s+', ' ', l.strip())
    m = re.fullmatch(r'(eor|addp) %s\.16b, %s\.16b, %s\.16b' % (VR, VR, VR), l)
    if m: return ['.%s %d %d %d' % (m[1], V(m[2]), V(m[3]), V(m[4]))]
    m = re.fullmatch(r'cnt %s\.16b, %s\.16b' % (VR, VR), l)
    if m: return ['.cnt %d %d' % (V(m[1]), V(m[2]))]
    m = re.fullmatch(r'uadalp %s\.8h, %s\.16b' % (VR, VR), l)
    if m: return ['.uadalp %d %d' % (V(m[1]), V(m[2]))]
    m = re.fullmatch(r'movi %s\.8h, #0' % VR, l)
    if m: return ['.movi0 %d' % V(m[1])]
    m = re.fullmatch(r'ushll %s\.4s, %s\.4h, #1' % (VR, VR), l)
    if m: return ['.ushll %d %d' % (V(m[1]), V(m[2]))]
    m = re.fullmatch(r'ushll2 %s\.4s, %s\.8h, #1' % (VR, VR), l)
    if m: return ['.ushll2 %d %d' % (V(m[1]), V(m[2]))]
    m = re.fullmatch(r'(smax|smin|fmul|fadd) %s\.4s, %s\.4s, %s\.4s' % (VR, VR, VR), l)
    if m: return ['.%s %d %d %d' % (m[1], V(m[2]), V(m[3]), V(m[4]))]
    m = re.fullmatch(r'(scvtf|fcvtns) %s\.4s, %s\.4s' % (VR, VR), l)
    if m: return ['.%s %d %d' % (m[1], V(m[2]), V(m[3]))]
    m = re.fullmatch(r'sqxtn %s\.4h, %s\.4s' % (VR, VR), l)
    if m: return ['.sqxtnH %d %d' % (V(m[1]), V(m[2]))]
    m = re.fullmatch(r'sqxtn2 %s\.8h, %s\.4s' % (VR, VR), l)
    if m: return ['.sqxtn2H %d %d' % (V(m[1]), V(m[2]))]
    m = re.fullmatch(r'sqxtn %s\.8b, %s\.8h' % (VR, VR), l)
    if m: return ['.sqxtnB %d %d' % (V(m[1]), V(m[2]))]
    m = re.fullmatch(r'ldr %s, \[%s(?:, #(\d+))?\]' % (QR, XR), l)
    if m: return ['.ldrq %d %d %d' % (Q(m[1]), X(m[2]), int(m[3] or 0))]
    m = re.fullmatch(r'ldr %s, \[%s, #-(\d+)\]' % (QR, XR), l)
    if m: return ['.ldrqNeg %d %d %d' % (Q(m[1]), X(m[2]), int(m[3]))]
    m = re.fullmatch(r'ldr %s, \[%s, %%\[input_depth_offset_bytes\]\]' % (QR, XR), l)
    if m: return ['.ldrqOff %d %d' % (Q(m[1]), X(m[2]))]
    m = re.fullmatch(r'ldp %s, %s, \[%s\]' % (QR, QR, XR), l)
    if m: return ['.ldrq %d %d 0' % (Q(m[1]), X(m[3])), '.ldrq %d %d 16' % (Q(m[2]), X(m[3]))]
    m = re.fullmatch(r'ld1r \{%s\.4s\}, \[%s\](?:, #(\d+))?' % (VR, XR), l)
    if m: return ['.ld1r %d %d %d' % (V(m[1]), X(m[2]), int(m[3] or 0))]
    m = re.fullmatch(r'ld1 \{%s\.d\}\[([01])\], \[%s\](?:, #(\d+))?' % (VR, XR), l)
    if m: return ['.ld1d %d %s %d %d' % (V(m[1]), m[2], X(m[3]), int(m[4] or 0))]
    m = re.fullmatch(r'ld1 \{%s\.4s\}, \[%s\], #(\d+)' % (VR, XR), l)
    if m: return ['.ld1q %d %d %d' % (V(m[1]), X(m[2]), int(m[3]))]
    m = re.fullmatch(r'ldp %s, %s, \[%s(?:, #(\d+))?\]' % (XR, XR, XR), l)
    if m:
        assert X(m[3]) not in (X(m[1]), X(m[2]))
        return ['.ldpx %d %d %d %d' % (X(m[1]), X(m[2]), X(m[3]), int(m[4] or 0))]
    m = re.fullmatch(r'ldr %s, \[%s(?:, #(\d+))?\]' % (XR, XR), l)
    if m: return ['.ldrx %d %d %d' % (X(m[1]), X(m[2]), int(m[3] or 0))]
    m = re.fullmatch(r'add %s, %s, #(\d+)' % (XR, XR), l)
    if m: return ['.addi %d %d %d' % (X(m[1]), X(m[2]), int(m[3]))]
    m = re.fullmatch(r'add %s, %s, %%\[input_depth_offset\], lsl #2' % (XR, XR), l)
    if m: return ['.addOff %d %d' % (X(m[1]), X(m[2]))]
    m = re.fullmatch(r'add %s, %s, %%\[c_out_index\], lsl #2' % (XR, XR), l)
    if m: return ['.addC %d %d' % (X(m[1]), X(m[2]))]
    if l == 'sub w1, %w[depth], #1': return ['.subDepth']
    if l == 'subs w1, w1, #1': return ['.subsW1']
    if l == 'subs %w[fs_index], %w[fs_index], #1': return ['.subsFs']
    raise SystemExit('cannot translate: ' + l)

def strip_comments(s):
    return re.sub(r'//[^\n]*', '', s)

def lineno(src, pos): return src.count('\n', 0, pos) + 1

def emit(name, doc, parts):
    """parts: list of (grouped?, [instr])"""
    body = []
    for g, ins in parts:
        if not ins: continue
        t = '[' + ', '.join(ins) + ']'
        body.append('(if g then ' + t + ' else [])' if g else t)
    txt = ' ++ '.join(body)
    print('/-- ' + doc + ' -/')
    print('def %s (g : Bool) : List NInstr :=' % name if any(g for g, _ in parts) else 'def %s : List NInstr :=' % name)
    print('\n'.join(textwrap.wrap(txt, 124, initial_indent='  ', subsequent_indent='   ', break_long_words=False, break_on_hyphens=False)))
    print()

def asm_tokens(s):
    """the template part of an asm statement -> list of (grouped, line | BLOCK)"""
    out, i, g = [], 0, False
    while i < len(s):
        c = s[i]
        if s.startswith('IF_IS_GROUPED(', i): g = True; i += len('IF_IS_GROUPED('); continue
        if c == ')':
            if g: g = False; i += 1; continue
            raise SystemExit('unexpected )')
        m = re.match(r'XOR_POPCOUNT_ACCUM_LOAD_BLOCK_\d+', s[i:])
        if m: out.append((g, 'BLOCK')); i += m.end(); continue
        if c == '"':
            j = s.index('"', i + 1)
            out.append((g, s[i + 1:j].replace('\\n', '').replace('\\t', '').strip())); i = j + 1; continue
        if c.isspace(): i += 1; continue
        raise SystemExit('unexpected ' + s[i:i + 40])
    return out

def group(toks):
    parts = []
    for g, l in toks:
        t = tr(l)
        if parts and parts[-1][0] == g: parts[-1][1].extend(t)
        else: parts.append((g, list(t)))
    return parts

print('''import Verif.Model.NeonA64

/-!
The inline assembly of `/repo/larq_compute_engine/core/indirect_bgemm/kernel_8x4x{1,2,4}_aarch64.h` as instruction lists.
Generated by `tools/gen_a64_indirect.py`; do not edit. `g` is `%c[is_grouped]`; register numbers as in Model/NeonA64.lean.
-/

namespace Verif
''')

for bd in (1, 2, 4):
    fn = 'kernel_8x4x%d_aarch64.h' % bd
    raw = open(DIR + '/' + fn).read()
    # keep positions: blank out // comments
    src = re.sub(r'//[^\n]*', lambda m: ' ' * len(m[0]), raw)
    k = 'x%d' % bd
    m = re.search(r'#define XOR_POPCOUNT_ACCUM_LOAD_BLOCK_\d+((?:[^\n]*\\\n)*[^\n]*\n)', src)
    mac = m[1].replace('\\\n', '\n')
    lines = [l for _, l in asm_tokens(mac)]
    emit(k + 'Block', '`XOR_POPCOUNT_ACCUM_LOAD_BLOCK_%d` (%s:%d-%d).' % (32 * bd, fn, lineno(src, m.start()), lineno(src, m.end()) - 1),
         [(False, sum((tr(l) for l in lines), []))])
    asms = []
    for m in re.finditer(r'asm(?: volatile)?\(', src):
        # template ends at the first ':' outside strings
        i = m.end(); j = i; instr = False
        while True:
            if src[j] == '"': instr = not instr
            if src[j] == ':' and not instr: break
            j += 1
        asms.append((lineno(src, m.start()), lineno(src, j), asm_tokens(src[i:j])))
    assert len(asms) == 4
    # Depth2OrMore
    a, b, t = asms[0]
    i0 = [i for i, (g, l) in enumerate(t) if l == '0:']; assert len(i0) == 1
    br = [i for i, (g, l) in enumerate(t) if l == 'bgt 0b']; assert len(br) == 2 and br[1] == len(t) - 1
    inner = t[i0[0] + 1:br[0]]
    assert [l for _, l in inner] == ['subs w1, w1, #1', 'BLOCK']
    mid = t[br[0] + 1:br[1]]
    assert mid[-1] == (False, 'BLOCK')
    pro = t[:i0[0]]
    pre = []
    if bd != 4:
        # the C++ code before the asm statement: a_ptr_k = indirection_ptr[k] (+ input_depth_offset) + bd
        s = raw[:raw.index('asm volatile(')]
        for q in range(4):
            assert 'a_ptr_%d = indirection_ptr[%d] + input_depth_offset + %d;' % (q, q, bd) in s
            assert 'a_ptr_%d = indirection_ptr[%d] + %d;' % (q, q, bd) in s
        pre = [(False, ['.ldpx 10 11 21 0', '.ldpx 12 13 21 16']),
               (True, ['.addOff %d %d' % (10 + q, 10 + q) for q in range(4)]),
               (False, ['.addi %d %d %d' % (10 + q, 10 + q, 4 * bd) for q in range(4)])]
    emit(k + 'Pro2', '`AccumulationLoop_Depth2OrMore` before the loop (%s:%d-%d)%s.' % (fn, a, b,
         ', with the C++ initialisation of `a_ptr_0..3` above it' if pre else ''), pre + group(pro))
    emit(k + 'Mid2', '`AccumulationLoop_Depth2OrMore` between the inner loop and the last block (%s:%d-%d).' % (fn, a, b), group(mid[:-1]))
    # Depth1
    a, b, t = asms[1]
    i0 = [i for i, (g, l) in enumerate(t) if l == '0:']; assert len(i0) == 1
    br = [i for i, (g, l) in enumerate(t) if l == 'bgt 0b']; assert br == [len(t) - 1]
    body = t[i0[0] + 1:br[0]]
    assert body[-1] == (False, 'BLOCK')
    emit(k + 'Pro1', '`AccumulationLoop_Depth1` before the loop (%s:%d-%d).' % (fn, a, b), group(t[:i0[0]]))
    emit(k + 'Body1', '`AccumulationLoop_Depth1`, loop body before the block (%s:%d-%d).' % (fn, a, b), group(body[:-1]))
    for nm, (a, b, t), ty in (('OtF', asms[2], 'float'), ('OtI', asms[3], 'int8')):
        emit(k + nm, 'The %s `OutputTransformAndLoadNextAndStore` (%s:%d-%d).' % (ty, fn, a, b), group(t))
    # preload (C++)
    run = raw[raw.index('// Pre-load weights and activations.'):]
    pl = ['.ldrq %d 20 %d' % (20 + q, 16 * q) for q in range(2 * bd)]
    for q in range(2 * bd):
        assert re.search(r'vld1q_s32\(weights_ptr%s\)' % (r' \+ %d' % (4 * q) if q else ''), run)
    assert 'weights_ptr += %d;' % (8 * bd) in run
    pl += ['.addi 20 20 %d' % (32 * bd), '.ldpx 0 1 21 0', '.ldpx 2 3 21 16']
    for q in range(4):
        if bd == 1: assert 'vld1q_dup_s32(indirection_ptr[%d])' % q in run; pl.append('.ld1r %d %d 0' % (16 + q, q))
        elif bd == 4: assert 'vld1q_s32(indirection_ptr[%d])' % q in run; pl.append('.ld1q %d %d 0' % (16 + q, q))
        else: pl += ['.ld1d %d 0 %d 0' % (16 + q, q), '.ld1d %d 1 %d 0' % (16 + q, q)]
    ln = lineno(raw, raw.index('// Pre-load weights and activations.'))
    emit(k + 'Preload', 'The pre-loading of weights and activations by intrinsics in `Run` (%s:%d-%d), as instructions.' % (fn, ln,
         lineno(raw, raw.index('std::size_t input_depth_offset = 0;')) - 2), [(False, pl)])
print('end Verif')
