#!/usr/bin/env python3
"""Translates the inline assembly of core/bgemm/kernels_arm32.h (path given as argument) into the Lean instruction lists of
Model/GemmA32Code.lean; prints that file. Fails on any instruction it does not know, and if the instructions that are not part of
a list (branches, scalar arithmetic, stack accesses, stores; transcribed by hand in Model/GemmA32.lean) are not exactly those
written below."""
import re, sys, textwrap

RAW = open(sys.argv[1]).read()
SRC = re.sub(r'//[^\n]*', lambda m: ' ' * len(m[0]), RAW)
OFF = {m[1]: int(m[2]) for m in re.finditer(r'#define (RUY_(?:STACK_)?OFFSET_\w+) (\d+)', SRC)}
MAC = {}
for m in re.finditer(r'#define (LCE_\w+)\(([^)]*)\)((?:[^\n]*\\\n)*[^\n]*)', SRC):
    MAC[m[1]] = ([a.strip() for a in m[2].split(',')], m[3].replace('\\\n', ' '))

def args(s, i):
    out, d, cur, q = [], 0, '', False
    while True:
        c = s[i]
        if c == '"': q = not q
        if not q and c == '(': d += 1
        if not q and c == ')':
            if d == 0: return out + [cur], i + 1
            d -= 1
        if not q and d == 0 and c == ',': out.append(cur); cur = ''
        else: cur += c
        i += 1

def expand(s, kind):
    out, i = '', 0
    while i < len(s):
        c = s[i]
        if c.isspace(): i += 1; continue
        if c == '"':
            j = s.index('"', i + 1); out += s[i + 1:j].replace('\\n', '\n'); i = j + 1; continue
        m = re.match(r'\w+', s[i:])
        name = m[0]; i += m.end()
        while s[i].isspace(): i += 1
        assert s[i] == '(', name
        a, i = args(s, i + 1)
        if name == 'MAKE_ZERO': out += 'vmov.s8 %s, #0\n' % a[0]
        elif name == 'RUY_STR': out += str(OFF[a[0].strip()])
        elif name == 'IF_INT8_OUTPUT': out += expand(','.join(a), kind) if kind == 'i' else ''
        elif name == 'IF_FLOAT_ELIF_INT8_OUTPUT': out += expand(a['fi'.index(kind)], kind)
        elif name in MAC:
            ps, body = MAC[name]
            assert len(ps) == len(a), name
            for p_, v in zip(ps, a): body = re.sub(r'#%s\b' % p_, '"' + v.strip() + '"', body)
            out += expand(body, kind)
        else: raise SystemExit('unknown macro ' + name)
    return out

def lines(kind):
    i = SRC.index('void BinaryKernelNeon4x4(')
    a = SRC.index('asm volatile(', i) + len('asm volatile(')
    b = SRC.index(': [lhs_ptr] "+r"', a)
    # the float branch of IF_FLOAT_ELIF_INT8_OUTPUT contains commas only inside strings
    return [re.sub(r'\s+', ' ', l.strip()).replace(' ,', ',') for l in expand(SRC[a:b], kind).split('\n') if l.strip()]

XN = {'%[lhs_ptr]': 10, '%[rhs_ptr]': 11, '%[params]': 14, 'r1': 1}
ALU = {'vmax.s32': 'smax', 'vmin.s32': 'smin', 'vmul.f32': 'fmul', 'vadd.f32': 'fadd', 'veor.s8': 'eor'}

def trs(ls):
    out, i = [], 0
    while i < len(ls):
        l = ls[i]; i += 1
        m = re.fullmatch(r'(v\w+\.\w+) q(\d+), q(\d+), q(\d+)', l)
        if m: out.append('.%s %s %s %s' % (ALU[m[1]], m[2], m[3], m[4])); continue
        m = re.fullmatch(r'vcnt\.s8 q(\d+), q(\d+)', l)
        if m: out.append('.cnt %s %s' % m.groups()); continue
        m = re.fullmatch(r'vpadd\.i8 d(\d+), d(\d+), d(\d+)', l)
        if m: out.append('.vpadd %s %s %s' % m.groups()); continue
        m = re.fullmatch(r'vpaddl\.u8 q(\d+), q(\d+)', l)
        if m: out.append('.uaddlpH %s %s' % m.groups()); continue
        m = re.fullmatch(r'vpadal\.u16 q(\d+), q(\d+)', l)
        if m: out.append('.uadalpS %s %s' % m.groups()); continue
        m = re.fullmatch(r'vmov\.s8 q(\d+), #0', l)
        if m: out.append('.movi0 %s' % m[1]); continue
        m = re.fullmatch(r'vshl\.s32 q(\d+), q(\d+), #1', l)
        if m: out.append('.shlS %s %s' % m.groups()); continue
        m = re.fullmatch(r'vcvt\.f32\.s32 q(\d+), q(\d+)', l)
        if m: out.append('.scvtf %s %s' % m.groups()); continue
        m = re.fullmatch(r'vcvt\.s32\.f32 q(\d+), q(\d+), #8', l)
        if m: out.append('.vcvtFix8 %s %s' % m.groups()); continue
        m = re.fullmatch(r'vqrshrn\.s32 d(\d+), q(\d+), #8', l)
        if m:
            assert int(m[1]) % 2 == 0
            out.append('.vqrshrn8 %d %s' % (int(m[1]) // 2, m[2])); continue
        m = re.fullmatch(r'vqmovn\.s16 d(\d+), q(\d+)', l)
        if m:
            assert int(m[1]) % 2 == 0
            out.append('.vqmovnB %d %s' % (int(m[1]) // 2, m[2])); continue
        m = re.fullmatch(r'vld1\.32 \{((?:d\d+(?:, )?)+)\}, \[(%\[lhs_ptr\]|%\[rhs_ptr\]|r1)\]!', l)
        if m:
            ds = [int(d) for d in re.findall(r'd(\d+)', m[1])]
            assert ds[0] % 2 == 0 and len(ds) % 2 == 0 and ds == list(range(ds[0], ds[0] + len(ds)))
            for d in ds[::2]: out.append('.ld1q %d %d 16' % (d // 2, XN[m[2]]))
            continue
        m = re.fullmatch(r'ldr r1, \[%\[params\], #(60|64)\]', l)
        if m: out.append('.ldrp 1 14 ' + m[1]); continue
        if l == 'ldr r8, [sp, #32]': assert ls[i] == 'add r1, r1, r8, lsl #2'; continue   # r8 = row
        if l == 'add r1, r1, r8, lsl #2': out.append('.addC 1 1'); continue
        m = re.fullmatch(r'ldr (r[12]), \[%\[params\], #(52|56)\]', l)
        if m:
            j = i
            while not ls[j].startswith('vdup.32'): assert ls[j].startswith('vshl'); j += 1
            n = re.fullmatch(r'vdup\.32 q(\d+), (r[12])', ls[j])
            assert n[2] == m[1]
            ls = ls[:j] + ls[j + 1:]
            out.append('.ldrDup %s 14 %s' % (n[1], m[2])); continue
        raise SystemExit('cannot translate: ' + l)
    return out

def emit(name, doc, ls):
    print('/-- ' + doc + ' -/')
    print('def %s : List NInstr :=' % name)
    print('\n'.join(textwrap.wrap('[' + ', '.join(trs(ls)) + ']', 124, initial_indent='  ', subsequent_indent='   ',
                                  break_long_words=False, break_on_hyphens=False)))
    print()

class Cur:
    def __init__(self, ls): self.l, self.i = ls, 0
    def expect(self, *xs):
        for x in xs:
            if self.l[self.i] != x: raise SystemExit('expected %r, found %r' % (x, self.l[self.i]))
            self.i += 1
    def until(self, x):
        j = self.l.index(x, self.i); r = self.l[self.i:j]; self.i = j; return r
    def end(self): assert self.i == len(self.l), self.l[self.i:]

P = lambda r, o: 'ldr %s, [%%[params], #%d]' % (r, o)
L = lambda r, o: 'ldr %s, [sp, #%d]' % (r, o)
S = lambda r, o: 'str %s, [sp, #%d]' % (r, o)
# stack: 0 dst_col_ptr, 16 dst_ptr, 32 row, 48 col, 64 lhs_col_ptr, 80 rhs_col_ptr
segs = {}
for kind in 'fi':
    c = Cur(lines(kind))
    c.expect('sub sp, sp, #96', P('r1', 8), S('r1', 0), P('r2', 8), S('r2', 16), P('r1', 12), S('r1', 32), P('r3', 16), S('r3', 48),
             P('r1', 0), S('r1', 64), P('r2', 4), S('r2', 80))
    s = {'pre': c.until('mov r1, #4')}
    c.expect('mov r1, #4', '1:'); s['first'] = c.until(P('r2', 48))
    c.expect(P('r2', 48), 'cmp r1, r2', 'beq 79f', '2:'); a = c.until('add r1, r1, #4')
    c.expect('add r1, r1, #4', P('r2', 48), 'cmp r1, r2'); s['loop'] = a + c.until('blt 2b')
    c.expect('blt 2b', '79:', P('r3', 20), L('r1', 32), 'cmp r1, r3', 'bge 4f', P('r1', 36), L('r4', 64), 'add r4, r4, r1, lsl #2',
             S('r4', 64), 'b 5f', '4:', P('r5', 0), S('r5', 64), P('r4', 24), L('r8', 48), 'cmp r8, r4', 'bge 5f', P('r1', 40),
             L('r10', 80), 'add r10, r10, r1, lsl #2', S('r10', 80), '5:', L('r4', 64), 'mov %[lhs_ptr], r4', L('r5', 80),
             'mov %[rhs_ptr], r5')
    s['ot'] = c.until(P('r1', 28))
    c.expect(P('r1', 28), L('r8', 32), 'sub r1, r1, r8', P('r2', 32), L('r4', 48), 'sub r2, r2, r4', 'mov r3, #4', 'mov r5, #4',
             'cmp r1, #4', 'it gt', 'movgt r1, r3', 'cmp r2, #4', 'it gt', 'movgt r2, r5', 'cmp r1, r3', 'it eq', 'cmpeq r2, r5',
             'beq 30f', 'mov r3, %[dst_tmp_buf]', 'mov r4, #' + {'f': '16', 'i': '4'}[kind], 'b 31f', '30:', L('r3', 16),
             P('r4', 44), '31:')
    z = []
    for q in range(8, 12):
        st = '{d%d, d%d}' % (2 * q, 2 * q + 1) if kind == 'f' else '{d%d[0]}' % (2 * q)
        c.expect('vst1.32 %s, [r3]' % st + (', r4' if q < 11 else ''))
        if q in (9, 11):
            for y in (q - 1, q): c.expect('vmov.s8 q%d, #0' % y); z.append('vmov.s8 q%d, #0' % y)
    s['zero'] = z
    c.expect('beq 41f', P('r8', 44), 'mov r3, %[dst_tmp_buf]', L('r4', 16), 'mov r6, #0', '50:', 'mov r5, #0', '51:')
    if kind == 'f': c.expect('ldr r10, [r3, r5, lsl #2]', 'str r10, [r4, r5, lsl #2]')
    else: c.expect('ldrb r10, [r3, r5]', 'strb r10, [r4, r5]')
    st = {'f': '16', 'i': '4'}[kind]
    c.expect('add r5, r5, #1', 'cmp r5, r1', 'blt 51b', 'add r6, r6, #1', 'add r3, r3, #' + st, 'add r4, r4, r8', 'cmp r6, r2',
             'blt 50b', '41:', L('r4', 16), 'add r4, r4, #' + st, S('r4', 16), P('r5', 0), P('r6', 12), P('r3', 20), L('r8', 32),
             'cmp r8, r3', 'beq 20f', 'add r8, r8, #4', S('r8', 32), 'b 21f', '20:', S('r6', 32), L('r4', 48), 'add r4, r4, #4',
             S('r4', 48), P('r8', 44), L('r1', 0), 'add r1, r1, r8, lsl #2', S('r1', 0), S('r1', 16), '21:', P('r4', 24), L('r8', 48),
             'cmp r8, r4', 'mov r1, #4', 'ble 1b', 'add sp, sp, #96')
    c.end()
    segs[kind] = s
for k in ('pre', 'first', 'loop', 'zero'): assert segs['f'][k] == segs['i'][k]
s = segs['f']
print('''import Verif.Model.NeonA64

/-!
The straight-line parts of the inline assembly of `/repo/larq_compute_engine/core/bgemm/kernels_arm32.h` as instruction lists.
Generated by `tools/gen_a32_bgemm.py`; do not edit. Register numbers as in Model/NeonA64.lean; the other instructions (branches,
scalar arithmetic, stack accesses, stores) are in Model/GemmA32.lean, the generator checks that they are the expected ones.
-/

namespace Verif
''')
emit('a4Pre', 'BinaryKernelNeon4x4 before the main loop (kernels_arm32.h:197-207).', s['pre'])
emit('a4First', '`LCE_BMLA` of the four columns at the beginning of the main loop (kernels_arm32.h:97-113, 218-221).', s['first'])
emit('a4Loop', 'The accumulation loop (kernels_arm32.h:228-244).', s['loop'])
emit('a4OtF', 'Output transform for float and loads for the next block (kernels_arm32.h:302-367).', segs['f']['ot'])
emit('a4OtI', 'The same for int8 (kernels_arm32.h:302-395).', segs['i']['ot'])
emit('a4Zero', '`MAKE_ZERO` of the accumulators (kernels_arm32.h:450-469; between the stores).', s['zero'])
print('end Verif')
