#!/usr/bin/env python3
"""Translates the inline assembly of core/bgemm/kernels_aarch64.h (path given as argument) into the Lean instruction lists of
Model/GemmA64Code.lean; prints that file. Fails on any instruction it does not know, and if the instructions that are not part of
a list (branches, scalar arithmetic, stores; transcribed by hand in Model/GemmA64.lean) are not exactly those written below."""
import re, sys, textwrap

RAW = open(sys.argv[1]).read()
SRC = re.sub(r'//[^\n]*', lambda m: ' ' * len(m[0]), RAW)
OFF = {m[1]: int(m[2]) for m in re.finditer(r'#define (RUY_OFFSET_\w+) (\d+)', SRC)}
MAC = {}
for m in re.finditer(r'#define (LCE_\w+)\(([^)]*)\)((?:[^\n]*\\\n)*[^\n]*)', SRC):
    MAC[m[1]] = ([a.strip() for a in m[2].split(',')], m[3].replace('\\\n', ' '))
IFS = {'IF_FLOAT_OUTPUT': 'f', 'IF_INT8_OUTPUT': 'i', 'IF_BITPACKED_OUTPUT': 'b'}

def args(s, i):
    """s[i] is just after '('; returns the top-level comma separated arguments and the position after ')'"""
    out, d, cur, q = [], 0, '', False
    while True:
        c = s[i]
        if c == '"': q = not q
        if not q and c == '(': d += 1
        if not q and c == ')':
            if d == 0: return out + [cur], i + 1
            d -= 1
        if not q and d == 0 and c == ',': out.append(cur); cur = ''
        else: cur += c
        i += 1

def expand(s, kind):
    """asm text -> one string of assembly"""
    out, i = '', 0
    while i < len(s):
        c = s[i]
        if c.isspace(): i += 1; continue
        if c == '"':
            j = s.index('"', i + 1); out += s[i + 1:j].replace('\\n', '\n'); i = j + 1; continue
        if s.startswith('#if RUY_OPT(MAX_STREAMING)', i): i += len('#if RUY_OPT(MAX_STREAMING)'); continue
        if s.startswith('#endif', i): i += 6; continue
        if c == '#':
            m = re.match(r'#(\w+)', s[i:]); out += m[1]; i += m.end(); continue
        m = re.match(r'\w+', s[i:])
        name = m[0]; i += m.end()
        while s[i].isspace(): i += 1
        assert s[i] == '(', name
        a, i = args(s, i + 1)
        if name == 'MAKE_ZERO': out += 'movi %s.16b, #0\n' % a[0]
        elif name == 'RUY_STR': out += str(OFF[a[0].strip()])
        elif name in IFS: out += expand(','.join(a), kind) if kind == IFS[name] else ''
        elif name == 'IF_FLOAT_OR_INT8_OUTPUT': out += expand(','.join(a), kind) if kind in 'fi' else ''
        elif name == 'IF_FLOAT_ELIF_INT8_OUTPUT': out += expand(a['fi'.index(kind)], kind)
        elif name == 'IF_FLOAT_ELIF_INT8_ELIF_BITPACKED_OUTPUT': out += expand(a['fib'.index(kind)], kind)
        elif name in MAC:
            ps, body = MAC[name]
            assert len(ps) == len(a), name
            for p_, v in zip(ps, a): body = re.sub(r'#%s\b' % p_, '"' + v.strip() + '"', body)
            out += expand(body, kind)
        else: raise SystemExit('unknown macro ' + name)
    return out

def lines(fn, kind):
    i = SRC.index('void %s(' % fn)
    a = SRC.index('asm volatile(', i) + len('asm volatile(')
    b = SRC.index(': [lhs_col_ptr] "+r"', a)
    return [re.sub(r'\s+', ' ', l.strip()) for l in expand(SRC[a:b], kind).split('\n') if l.strip()]

XN = {'%[lhs_ptr]': 10, '%[rhs_ptr]': 11, '%[params]': 14, 'x1': 1, 'x14': 2, 'x15': 3}
VR = r'v(\d+)'
XR = r'(%\[(?:lhs_ptr|rhs_ptr|params)\]|x1|x14|x15)'

def tr(l):
    def F(p): return re.fullmatch(p.replace('VR', VR).replace('XR', XR), l)
    m = F(r'(eor|addp) VR\.16b, VR\.16b, VR\.16b')
    if m: return ['.%s %s %s %s' % m.groups()]
    m = F(r'and VR\.16b, VR\.16b, VR\.16b')
    if m: return ['.andv %s %s %s' % m.groups()]
    m = F(r'cnt VR\.16b, VR\.16b')
    if m: return ['.cnt %s %s' % m.groups()]
    m = F(r'uadalp VR\.8h, VR\.16b')
    if m: return ['.uadalp %s %s' % m.groups()]
    m = F(r'uadalp VR\.4s, VR\.8h')
    if m: return ['.uadalpS %s %s' % m.groups()]
    m = F(r'uaddlp VR\.8h, VR\.16b')
    if m: return ['.uaddlpH %s %s' % m.groups()]
    m = F(r'movi VR\.16b, #0')
    if m: return ['.movi0 %s' % m.groups()]
    m = F(r'shl VR\.4s, VR\.4s, #1')
    if m: return ['.shlS %s %s' % m.groups()]
    m = F(r'ushll VR\.4s, VR\.4h, #1')
    if m: return ['.ushll %s %s' % m.groups()]
    m = F(r'ushll2 VR\.4s, VR\.8h, #1')
    if m: return ['.ushll2 %s %s' % m.groups()]
    m = F(r'uxtl VR\.4s, VR\.4h')
    if m: return ['.uxtl %s %s' % m.groups()]
    m = F(r'uxtl2 VR\.4s, VR\.8h')
    if m: return ['.uxtl2 %s %s' % m.groups()]
    m = F(r'xtn VR\.4h, VR\.4s')
    if m: return ['.xtn %s %s' % m.groups()]
    m = F(r'xtn2 VR\.8h, VR\.4s')
    if m: return ['.xtn2 %s %s' % m.groups()]
    m = F(r'addv h(\d+), VR\.8h')
    if m: return ['.addvH %s %s' % m.groups()]
    m = F(r'(smax|smin|fmul|fadd|cmgt) VR\.4s, VR\.4s, VR\.4s')
    if m: return ['.%s %s %s %s' % m.groups()]
    m = F(r'(scvtf|fcvtns) VR\.4s, VR\.4s')
    if m: return ['.%s %s %s' % m.groups()]
    m = F(r'sqxtn VR\.4h, VR\.4s')
    if m: return ['.sqxtnH %s %s' % m.groups()]
    m = F(r'sqxtn2 VR\.8h, VR\.4s')
    if m: return ['.sqxtn2H %s %s' % m.groups()]
    m = F(r'sqxtn VR\.8b, VR\.8h')
    if m: return ['.sqxtnB %s %s' % m.groups()]
    m = F(r'ld1r \{VR\.4s\}, \[XR\]')
    if m: return ['.ld1r %s %d 0' % (m[1], XN[m[2]])]
    m = re.fullmatch(r'ld1 \{((?:v\d+\.4s(?:, )?)+)\}, \[%s\](?:, #(\d+))?' % XR, l)
    if m:
        rs = re.findall(r'v(\d+)\.4s', m[1])
        if m[3]:
            assert int(m[3]) == 16 * len(rs), l
            return ['.ld1q %s %d 16' % (r, XN[m[2]]) for r in rs]
        return ['.ldrq %s %d %d' % (r, XN[m[2]], 16 * k) for k, r in enumerate(rs)]
    m = F(r'ldr (x1|x14|x15), \[%\[params\], #(\d+)\]')
    if m: return ['.ldrx %d 14 %s' % (XN[m[1]], m[2])]
    m = F(r'add (x14|x15), %\[params\], #(\d+)')
    if m: return ['.addi %d 14 %s' % (XN[m[1]], m[2])]
    m = F(r'add (x1|x14|x15), (x1|x14|x15), %x\[row\], lsl #2')
    if m: return ['.addC %d %d' % (XN[m[1]], XN[m[2]])]
    m = F(r'ldr (w[23]), \[%\[params\], #(\d+)\]')
    if m: return ['PEND %s %s' % m.groups()]
    m = F(r'dup VR\.4s, (w[23])')
    if m: return ['DUP %s %s' % m.groups()]
    raise SystemExit('cannot translate: ' + l)

def trs(ls):
    out, pend = [], {}
    for l in ls:
        for t in tr(l):
            w = t.split()
            if w[0] == 'PEND': pend[w[1]] = w[2]
            elif w[0] == 'DUP': out.append('.ldrDup %s 14 %s' % (w[1], pend.pop(w[2])))
            else: out.append(t)
    assert not pend
    return out

def emit(name, doc, ls):
    print('/-- ' + doc + ' -/')
    print('def %s : List NInstr :=' % name)
    print('\n'.join(textwrap.wrap('[' + ', '.join(trs(ls)) + ']', 124, initial_indent='  ', subsequent_indent='   ',
                                  break_long_words=False, break_on_hyphens=False)))
    print()

class Cur:
    def __init__(self, ls): self.l, self.i = ls, 0
    def expect(self, *xs):
        for x in xs:
            if self.l[self.i] != x: raise SystemExit('expected %r, found %r' % (x, self.l[self.i]))
            self.i += 1
    def until(self, x):
        j = self.l.index(x, self.i); r = self.l[self.i:j]; self.i = j; return r
    def end(self): assert self.i == len(self.l), self.l[self.i:]

LOADS = ['ldr x5, [%[params], #0]', 'ldr w6, [%[params], #24]', 'movi v24.16b, #0', 'ldr w7, [%[params], #32]',
         'ldr w8, [%[params], #36]', 'movi v25.16b, #0', 'ldr w9, [%[params], #48]', 'ldr w10, [%[params], #52]',
         'movi v26.16b, #0', 'ldr w11, [%[params], #56]', 'ldr w12, [%[params], #60]', 'movi v27.16b, #0']
ZERO = [l for l in LOADS if l.startswith('movi')]
ADV = lambda k: ['cmp %w[row], w7', 'bge 4f', 'add %[lhs_col_ptr], %[lhs_col_ptr], x9, lsl #' + k, 'b 5f', '4:',
       'mov %[lhs_col_ptr], x5', 'cmp %w[col], w8', 'bge 5f', 'add %[rhs_col_ptr], %[rhs_col_ptr], x10, lsl #2', '5:',
       'mov %[lhs_ptr], %[lhs_col_ptr]', 'mov %[rhs_ptr], %[rhs_col_ptr]']
MASK = ['mov x2, 1', 'add x2, x2, x2, lsl #17', 'add x2, x2, x2, lsl #34', 'lsl x3, x2, #4', 'ins v31.d[0], x2', 'ins v31.d[1], x3']
COPY = lambda f, st: ['beq 41f', 'mov x3, %[dst_tmp_buf]', 'mov x4, %[dst_ptr]', 'mov w14, #0', '50:', 'mov w15, #0', '51:'] + (
    ['ldr w13, [x3, x15, lsl #2]', 'str w13, [x4, x15, lsl #2]'] if f else ['ldrb w13, [x3, x15]', 'strb w13, [x4, x15]']) + [
    'add w15, w15, #1', 'cmp w15, w1', 'blt 51b', 'add w14, w14, #1', 'add x3, x3, #' + st, 'add x4, x4, x11', 'cmp w14, w2',
    'blt 50b', '41:']
END = ['b 21f', '20:', 'mov %w[row], w6', 'add %w[col], %w[col], #4', 'add %[dst_col_ptr], %[dst_col_ptr], x11, lsl #2',
       'mov %[dst_ptr], %[dst_col_ptr]', '21:', 'cmp %w[col], w8', 'mov w1, #4', 'ble 1b']

print('''import Verif.Model.NeonA64

/-!
The straight-line parts of the inline assembly of `/repo/larq_compute_engine/core/bgemm/kernels_aarch64.h` as instruction lists.
Generated by `tools/gen_a64_bgemm.py`; do not edit. Register numbers as in Model/NeonA64.lean; the other instructions (branches,
scalar arithmetic, stores) are in Model/GemmA64.lean, the generator checks that they are the expected ones.
-/

namespace Verif
''')

# ---- 8x4
segs = {}
for kind in 'fib':
    c = Cur(lines('BinaryKernelNeon8x4', kind))
    c.expect(*LOADS)
    if kind == 'b': c.expect(*MASK)
    s = {'pre': ZERO + c.until('mov w1, #4')}
    c.expect('mov w1, #4', '1:'); s['xor'] = c.until('cmp w1, w12')
    c.expect('cmp w1, w12', 'beq 79f', '2:')
    a = c.until('add w1, w1, #4'); c.expect('add w1, w1, #4', 'cmp w1, w12'); s['loop'] = a + c.until('blt 2b')
    c.expect('blt 2b', '79:'); s['tail'] = c.until('cmp %w[row], w7')
    c.expect(*ADV('3'))
    c.expect('sub w1, %w[dst_rows], %w[row]', 'sub w2, %w[dst_cols], %w[col]', 'mov w3, #8', 'mov w4, #4', 'cmp w1, #8',
             'csel w1, w1, w3, le', 'cmp w2, #4', 'csel w2, w2, w4, le')
    s['ot'] = c.until('cmp w1, w3')
    c.expect('cmp w1, w3', 'ccmp w2, w4, 0, eq')
    if kind == 'b':
        c.expect('beq 60f', 'mov w15, #1', 'lsl w15, w15, w1', 'sub w15, w15, #1', 'mov v30.b[0], w15', 'mov w14, w2',
                 'mov x3, %[dst_ptr]')
        for r in '012': c.expect('and v2%s.8b, v2%s.8b, v30.8b' % (r, r), 'subs w14, w14, #1', 'st1 {v2%s.b}[0], [x3], x11' % r, 'ble 61f')
        c.expect('and v23.8b, v23.8b, v30.8b', 'st1 {v23.b}[0], [x3]', 'b 61f', '60:', 'mov x3, %[dst_ptr]')
        for r in '012': c.expect('st1 {v2%s.b}[0], [x3], x11' % r)
        c.expect('st1 {v23.b}[0], [x3]', '61:')
    else:
        c.expect('beq 30f', 'mov x3, %[dst_tmp_buf]', 'mov x4, #' + {'f': '32', 'i': '8'}[kind], 'b 31f', '30:',
                 'mov x3, %[dst_ptr]', 'mov x4, x11', '31:')
        for r in range(4):
            if kind == 'f': c.expect('str q%d, [x3]' % (20 + 2 * r), 'str q%d, [x3, #16]' % (21 + 2 * r))
            else: c.expect('str d%d, [x3]' % (20 + r))
            if r < 3: c.expect('add x3, x3, x4')
        c.expect(*COPY(kind == 'f', {'f': '32', 'i': '8'}[kind]))
    s['zero'] = c.until('cmp %w[row], w7')
    c.expect('cmp %w[row], w7', 'beq 20f', 'add %w[row], %w[row], #8', 'add %[dst_ptr], %[dst_ptr], #' + {'f': '32', 'i': '8', 'b': '1'}[kind])
    c.expect(*END); c.end()
    segs[kind] = s
for k in ('pre', 'xor', 'loop', 'tail', 'zero'): assert segs['f'][k] == segs['i'][k] == segs['b'][k]
s = segs['f']
emit('g8Pre', 'BinaryKernelNeon8x4 before the main loop (kernels_aarch64.h:721-755), without the mask of the bitpacked version.', s['pre'])
emit('g8Xor', '`LCE_XOR` at the beginning of the main loop (kernels_aarch64.h:581-589, 761).', s['xor'])
emit('g8Loop', 'The accumulation loop (kernels_aarch64.h:767-778; macros 592-669).', s['loop'])
emit('g8Tail', 'After the accumulation loop (kernels_aarch64.h:780-785).', s['tail'])
emit('g8OtF', 'Output transform for float and loads for the next block (kernels_aarch64.h:944-1026).', segs['f']['ot'])
emit('g8OtI', 'The same for int8 (kernels_aarch64.h:944-1054).', segs['i']['ot'])
emit('g8OtB', 'The same for bitpacked output (kernels_aarch64.h:838-894).', segs['b']['ot'])
emit('g8Zero', '`Clear accumulators` (kernels_aarch64.h:1129-1133).', s['zero'])

# ---- 4x4
segs = {}
for kind in 'fi':
    c = Cur(lines('BinaryKernelNeon4x4', kind))
    c.expect(*LOADS)
    s = {'pre': ZERO + c.until('mov w1, #4')}
    c.expect('mov w1, #4', '1:'); s['first'] = c.until('cmp w12, #8')
    c.expect('cmp w12, #8', 'blt 78f', 'and w2, w12, #-4'); s['load'] = c.until('mov w1, #8')
    c.expect('mov w1, #8', '80:'); s['stream'] = c.until('add w1, w1, #8')
    c.expect('add w1, w1, #8', 'cmp w1, w2', 'blt 80b'); s['streamTail'] = c.until('78:')
    c.expect('78:', 'cmp w1, w12', 'beq 79f', '2:'); a = c.until('add w1, w1, #4')
    c.expect('add w1, w1, #4', 'cmp w1, w12'); s['loop'] = a + c.until('blt 2b')
    c.expect('blt 2b', '79:'); s['tail'] = c.until('cmp %w[row], w7')
    c.expect(*ADV('2'))
    s['ot'] = c.until('sub w1, %w[dst_rows], %w[row]')
    c.expect('sub w1, %w[dst_rows], %w[row]', 'sub w2, %w[dst_cols], %w[col]', 'mov w3, #4', 'cmp w1, #4', 'csel w1, w1, w3, le',
             'cmp w2, #4', 'csel w2, w2, w3, le', 'cmp w1, w3', 'ccmp w2, w3, 0, eq', 'beq 30f', 'mov x3, %[dst_tmp_buf]',
             'mov x4, #' + {'f': '16', 'i': '4'}[kind], 'b 31f', '30:', 'mov x3, %[dst_ptr]', 'mov x4, x11', '31:')
    for r in range(4):
        if kind == 'f': c.expect('str q2%d, [x3, #0]' % (4 + r), 'add x3, x3, x4', 'movi v2%d.16b, #0' % (4 + r))
        else:
            c.expect('str s2%d, [x3]' % (4 + r))
            if r < 3: c.expect('add x3, x3, x4')
    if kind == 'i': c.expect(*['movi v2%d.16b, #0' % (4 + r) for r in range(4)])
    s['zero'] = ZERO
    c.expect(*COPY(kind == 'f', {'f': '16', 'i': '4'}[kind]))
    c.expect('add %[dst_ptr], %[dst_ptr], #' + {'f': '16', 'i': '4'}[kind], 'cmp %w[row], w7', 'beq 20f', 'add %w[row], %w[row], #4')
    c.expect(*END); c.end()
    segs[kind] = s
for k in ('pre', 'first', 'load', 'stream', 'streamTail', 'loop', 'tail', 'zero'): assert segs['f'][k] == segs['i'][k]
s = segs['f']
emit('g4Pre', 'BinaryKernelNeon4x4 before the main loop (kernels_aarch64.h:207-224).', s['pre'])
emit('g4First', '`LCE_BMLA` at the beginning of the main loop (kernels_aarch64.h:105-118, 234).', s['first'])
emit('g4Load', 'Loads of the second block (kernels_aarch64.h:242-243).', s['load'])
emit('g4Stream', 'The MAX_STREAMING loop (kernels_aarch64.h:247-260; macros 121-158).', s['stream'])
emit('g4StreamTail', 'After the MAX_STREAMING loop (kernels_aarch64.h:266-269).', s['streamTail'])
emit('g4Loop', 'The accumulation loop (kernels_aarch64.h:278-292).', s['loop'])
emit('g4Tail', 'After the accumulation loop (kernels_aarch64.h:294-298).', s['tail'])
emit('g4OtF', 'Output transform for float and loads for the next block (kernels_aarch64.h:336-398).', segs['f']['ot'])
emit('g4OtI', 'The same for int8 (kernels_aarch64.h:336-417).', segs['i']['ot'])
emit('g4Zero', '`MAKE_ZERO` of the accumulators (kernels_aarch64.h:458-483; between the stores in the float version).', s['zero'])
print('end Verif')
