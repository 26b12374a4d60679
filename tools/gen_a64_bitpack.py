#!/usr/bin/env python3
"""Translates the inline assembly of core/bitpacking/bitpack_aarch64.h (read from the file given as argument) into the Lean
instruction lists of Model/BitpackA64.lean; prints them."""
import re, sys
src = open(sys.argv[1]).read()
blocks = src.split('asm volatile(')[1:]
names = ['f32', 'i8']
for nm, b in zip(names, blocks):
    lines = re.findall(r'^\s*"([^"\n]*)\\n"', b, re.M)
    first = None
    sect, cur = {'pro': [], 'loop': [], 'tail': []}, 'pro'
    for l in lines:
        l = l.strip()
        if l == '2:': cur = 'loop'; continue
        if l == '1:': cur = 'tail'; continue
        if l in ('beq 1f', 'bge 2b'): sect[cur].append('--' + l); continue
        m = re.fullmatch(r'ld2 \{v(\d+)\.(8h|16b), v(\d+)\.(8h|16b)\}, \[%\[in_ptr\]\], #32', l)
        if m: assert m[2] == m[4]; sect[cur].append('.ld2%s %s %s' % ('h' if m[2] == '8h' else 'b', m[1], m[3])); continue
        m = re.fullmatch(r'(uzp1|uzp2|sqsub) v(\d+)\.16b, v(\d+)\.16b, v(\d+)\.16b', l)
        if m: sect[cur].append('.%s %s %s %s' % m.groups()); continue
        m = re.fullmatch(r'sri v(\d+)\.16b, v(\d+)\.16b, #(\d+)', l)
        if m: sect[cur].append('.sri %s %s %s' % m.groups()); continue
        m = re.fullmatch(r'st1 \{v(\d+)\.4s\}, \[%\[out_ptr\]\], #16', l)
        if m: sect[cur].append('.st1 %s' % m[1]); continue
        m = re.fullmatch(r'sub %\[n\], %\[n\], #(\d+)', l)
        if m: sect[cur].append('.subN %s' % m[1]); continue
        m = re.fullmatch(r'cmp %\[n\], #(\d+)', l)
        if m: sect[cur].append('.cmpN %s' % m[1]); continue
        m = re.fullmatch(r'dup v(\d+)\.16b, %w\[zero_byte\]', l)
        if m: sect[cur].append('.dup %s' % m[1]); continue
        raise SystemExit('cannot translate: ' + l)
    for k, v in sect.items():
        br = [x for x in v if x.startswith('--')]
        v = [x for x in v if not x.startswith('--')]
        print('def %s_%s := [' % (nm, k), ', '.join(v), ']', br, len(v))
