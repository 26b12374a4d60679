#!/usr/bin/env python3
"""Generates Proof/IndirectA64Code{1,2,4}.lean: the facts of Proof/IndirectA64Facts.lean for the instruction lists in
Model/IndirectA64Code.lean. The lists of bounds conditions are obtained by following the address registers."""
import re, sys
LEAN = sys.argv[1]
code = open(LEAN + '/Model/IndirectA64Code.lean').read()
defs = {}
for m in re.finditer(r'^def (\w+)(?: \(g : Bool\))? : List NInstr :=\n(.*?)\n\n', code, re.M | re.S):
    txt = re.sub(r'\s+', ' ', m[2]).strip()
    parts = []
    for q in re.finditer(r'\(if g then \[([^\]]*)\] else \[\]\)|\[([^\]]*)\]', txt):
        g = q[1] is not None
        ins = [x.strip() for x in (q[1] if g else q[2]).split(',')]
        parts.append((g, ins))
    defs[m[1]] = parts

def conds(name, g, X0, special):
    """bounds conditions of the loads, in order; X0: name of the register function; special: fixed registers"""
    x = {}
    def get(r):
        r = int(r)
        if r in x: return x[r]
        if r in special: return special[r]
        return ('(%s %d).obj' % (X0, r), '(%s %d).off' % (X0, r))
    def ptr(b, imm):
        if int(b) == 21: return ('(nInd m %s %d).obj' % (X0, imm // 8), '(nInd m %s %d).off' % (X0, imm // 8))
        o, f = get(b)
        assert o == '6' and f == '0'
        return ('(m.ptr 6 %d).obj' % imm, '(m.ptr 6 %d).off' % imm)
    out = []
    for pg, ins in defs[name]:
        if pg and not g: continue
        for i in ins:
            t = i.split()
            n, a = t[0], t[1:]
            if n in ('.ldrq',):
                o, f = get(a[1]); out.append('%s + %s + 16 ≤ m.size %s' % (f, a[2], o))
            elif n == '.ldrqNeg':
                o, f = get(a[1]); out.append('%s ≤ %s ∧ %s - %s + 16 ≤ m.size %s' % (a[2], f, f, a[2], o))
            elif n == '.ldrqOff':
                o, f = get(a[1]); out.append('%s + 4 * o.off + 16 ≤ m.size %s' % (f, o))
            elif n in ('.ld1r', '.ld1q', '.ld1d'):
                r, post, sz = (a[1], a[2], 4 if n == '.ld1r' else 16) if n != '.ld1d' else (a[2], a[3], 8)
                o, f = get(r); out.append('%s + %d ≤ m.size %s' % (f, sz, o))
                if post != '0': x[int(r)] = (o, '%s + %s' % (f, post))
            elif n == '.ldrx':
                o, f = get(a[1]); out.append('%s + %s + 8 ≤ m.size %s' % (f, a[2], o)); x[int(a[0])] = ptr(a[1], int(a[2]))
            elif n == '.ldpx':
                o, f = get(a[2]); imm = int(a[3])
                out.append('%s + %d + 16 ≤ m.size %s' % (f, imm, o))
                p, q = ptr(a[2], imm), ptr(a[2], imm + 8)
                x[int(a[0])] = p; x[int(a[1])] = q
            elif n == '.addi':
                o, f = get(a[1]); x[int(a[0])] = (o, '%s + %s' % (f, a[2]))
            elif n == '.addOff':
                o, f = get(a[1]); x[int(a[0])] = (o, '%s + 4 * o.off' % f)
            elif n == '.addC':
                o, f = get(a[1]); x[int(a[0])] = (o, '%s + 4 * o.cIdx' % f)
    return out

def oklist(cs, ind):
    pad = ' ' * ind
    return '[' + (',\n' + pad + ' ').join('decide (%s)' % c for c in cs) + '].foldl (fun b p => b && p) s.ok'

TREE = {1: 'laneAddp (xc (s.v (16 + k)) (s.v 20)) (xc (s.v (16 + k)) (s.v 21))',
        2: '''laneAddp (laneAddp (xc (s.v (16 + k)) (s.v 20)) (xc (s.v (16 + k)) (s.v 21)))
          (laneAddp (xc (s.v (16 + k)) (s.v 22)) (xc (s.v (16 + k)) (s.v 23)))''',
        4: '''laneAddp
          (laneAddp (laneAddp (xc (s.v (16 + k)) (s.v 20)) (xc (s.v (16 + k)) (s.v 21)))
            (laneAddp (xc (s.v (16 + k)) (s.v 22)) (xc (s.v (16 + k)) (s.v 23))))
          (laneAddp (laneAddp (xc (s.v (16 + k)) (s.v 24)) (xc (s.v (16 + k)) (s.v 25)))
            (laneAddp (xc (s.v (16 + k)) (s.v 26)) (xc (s.v (16 + k)) (s.v 27))))'''}

def aload(bd, obj, off, old):
    """the raw content of an activation register after loading"""
    if bd == 1: return 'fun j => m.byte %s (%s + j %% 4)' % (obj, off)
    if bd == 2: return ('fun j => if j / 8 = 1 then m.byte %s (%s + j %% 8) else if j / 8 = 0 then m.byte %s (%s + j %% 8) else %s j'
                        % (obj, off, obj, off, old))
    return 'fun j => m.byte %s (%s + j)' % (obj, off)

def afin(bd, obj, off):
    if bd == 1: return 'rfl'
    f = '(fun i => m.byte %s (%s + i))' % (obj, off)
    if bd == 2: return 'load2 %s _ j hj' % f
    return 'load4 %s j hj' % f

def simp_ok(K):
    return '''    simp only [%s] at *
    rw [e, h]
    simp only [List.foldl_cons, List.foldl_nil, Bool.and_eq_true, decide_eq_true_eq, true_and]
    omega
''' % K

ABNDS = '''    have a0 := ha 0 (by omega)
    have a1 := ha 1 (by omega)
    have a2 := ha 2 (by omega)
    have a3 := ha 3 (by omega)
    try simp only [Nat.reduceAdd] at a0 a1 a2 a3
'''

for bd in (1, 2, 4):
    k, K = 'x%d' % bd, 'kernelX%d' % bd
    W = ['import Verif.Proof.IndirectA64Facts', '',
         '/-! The facts of Proof/IndirectA64Facts.lean for the 8x4x%d kernel. Generated by `tools/gen_a64_facts.py`. -/' % bd, '',
         'namespace Verif', '', 'variable (F : FOps) (m : NMem) (o : NOps) (s : NState)', '']
    E = W.append
    blk = '(nExecs F m o %sBlock s)' % k
    E('theorem %s_block : %s.BlockFacts F m o s %s where' % (k, K, blk))
    E('''  a := by
    intro k j hk hj
    have e : %s.v (16 + k) = %s := by
      interval_cases k <;> kernel_rfl
    rw [e]
    exact %s''' % (blk, aload(bd, '(s.x (10 + k)).obj', '(s.x (10 + k)).off', 's.v (16 + k)'), afin(bd, '(s.x (10 + k)).obj', '(s.x (10 + k)).off')))
    E('''  w := by
    intro q j hq hj
    have hq : q < %d := hq
    refine congrFun (g := fun j => m.byte (s.x 20).obj ((s.x 20).off + 16 * q + j)) ?_ j
    interval_cases q <;> kernel_rfl
  acc := by
    intro k h hk hh
    have e : %s.v (28 + k)
        = laneUadalp (s.v (28 + k)) (%s) := by
      interval_cases k <;> kernel_rfl
    rw [e, laneHalf_uadalp]
    exact congrArg (fun n => laneHalf (s.v (28 + k)) h + BitVec.ofNat 16 n)
      (tree%d (s.v (16 + k)) (fun q => s.v (20 + q)) h hh)
  xa := fin4 (by kernel_rfl) (by kernel_rfl) (by kernel_rfl) (by kernel_rfl)
  xw := by kernel_rfl
  xi := by kernel_rfl
  w1 := by kernel_rfl
  fs := by kernel_rfl
  gt := by kernel_rfl
  ok := by
    intro h ha hw
    have e : %s.ok =
        %s := by
      kernel_rfl
%s%s''' % (2 * bd, blk, TREE[bd], bd, blk, oklist(conds(k + 'Block', False, 's.x', {}), 8), ABNDS, simp_ok(K)))
    # sequences with g
    def gok(name, hyps, special={}, X0='s.x', st='s', bn='', extra=''):
        r = ''
        for g in (False, True):
            gb = 'true' if g else 'false'
            r += '''    · have e : (nExecs F m o (%s %s) %s).ok =
          %s := by
        kernel_rfl
      rw [e, h]
%s      simp only [List.foldl_cons, List.foldl_nil, Bool.and_eq_true, decide_eq_true_eq, true_and]
%s      omega
''' % (name, gb, st, oklist(conds(name, g, X0, special), 10), extra, bn)
        return r
    E('theorem %s_pro2 (g : Bool) : %s.Pro2Facts m g o s (nExecs F m o (%sPro2 g) s) where' % (k, K, k))
    E('''  a := by cases g <;> exact fin4 (by kernel_rfl) (by kernel_rfl) (by kernel_rfl) (by kernel_rfl)
  w := by
    intro q hq
    have hq : q < %d := hq
    cases g <;> interval_cases q <;> kernel_rfl
  acc := by cases g <;> exact fin4 (by kernel_rfl) (by kernel_rfl) (by kernel_rfl) (by kernel_rfl)
  xa := by cases g <;> exact fin4 (by kernel_rfl) (by kernel_rfl) (by kernel_rfl) (by kernel_rfl)
  xw := by cases g <;> kernel_rfl
  xi := by cases g <;> kernel_rfl
  w1 := by cases g <;> kernel_rfl
  fs := by cases g <;> kernel_rfl
  ok := by
    intro h hi
    unfold nIndOk at hi
    cases g
%s''' % (2 * bd, gok(k + 'Pro2', '')))
    E('theorem %s_mid2 (g : Bool) : NKernel.Mid2Facts m g o s (nExecs F m o (%sMid2 g) s) where' % (k, k))
    E('''  v := by cases g <;> kernel_rfl
  xa := by cases g <;> exact fin4 (by kernel_rfl) (by kernel_rfl) (by kernel_rfl) (by kernel_rfl)
  xw := by cases g <;> kernel_rfl
  xi := by cases g <;> kernel_rfl
  w1 := by cases g <;> kernel_rfl
  fs := by cases g <;> kernel_rfl
  gt := by cases g <;> kernel_rfl
  ok := by
    intro h hi
    unfold nIndOk at hi
    cases g
%s''' % gok(k + 'Mid2', ''))
    E('theorem %s_pro1 : %s.Pro1Facts s (nExecs F m o %sPro1 s) where' % (k, K, k))
    E('''  a := fin4 (by kernel_rfl) (by kernel_rfl) (by kernel_rfl) (by kernel_rfl)
  w := by
    intro q hq
    have hq : q < %d := hq
    interval_cases q <;> kernel_rfl
  acc := fin4 (by kernel_rfl) (by kernel_rfl) (by kernel_rfl) (by kernel_rfl)
  xw := by kernel_rfl
  xi := by kernel_rfl
  fs := by kernel_rfl
  ok := by kernel_rfl
''' % (2 * bd))
    E('theorem %s_body1 (g : Bool) : NKernel.Body1Facts m g o s (nExecs F m o (%sBody1 g) s) where' % (k, k))
    E('''  v := by cases g <;> kernel_rfl
  xa := by cases g <;> exact fin4 (by kernel_rfl) (by kernel_rfl) (by kernel_rfl) (by kernel_rfl)
  xw := by cases g <;> kernel_rfl
  xi := by cases g <;> kernel_rfl
  fs := by cases g <;> kernel_rfl
  gt := by cases g <;> kernel_rfl
  ok := by
    intro h hi
    unfold nIndOk at hi
    cases g
%s''' % gok(k + 'Body1', ''))
    pre = '(nExecs F m o %sPreload s)' % k
    E('theorem %s_pre : %s.PreFacts m s %s where' % (k, K, pre))
    E('''  a := by
    intro k j hk hj
    have e : %s.v (16 + k) = %s := by
      interval_cases k <;> kernel_rfl
    rw [e]
    exact %s
  w := by
    intro q j hq hj
    have hq : q < %d := hq
    refine congrFun (g := fun j => m.byte (s.x 20).obj ((s.x 20).off + 16 * q + j)) ?_ j
    interval_cases q <;> kernel_rfl
  xw := by kernel_rfl
  xi := by kernel_rfl
  ok := by
    intro h hi ha hw
    unfold nIndOk at hi
    have e : %s.ok =
        %s := by
      kernel_rfl
%s%s''' % (pre, aload(bd, '(nInd m s.x k).obj', '(nInd m s.x k).off', 's.v (16 + k)'), afin(bd, '(nInd m s.x k).obj', '(nInd m s.x k).off'), 2 * bd, pre,
           oklist(conds(k + 'Preload', False, 's.x', {}), 8), ABNDS, simp_ok(K)))
    for T, thm in (('OtF', 'otF'), ('OtI', 'otI')):
        g_dep = bd != 4
        nm = '%s%s' % (k, T)
        app = '(%s %%s)' % nm if g_dep else nm
        X0 = 'x'
        st = '{ s with x := nOtRegs o.cIdx x }'
        ex = '(nExecs F m o (%s) %s)' % (nm + ' g' if g_dep else nm, st)
        E('theorem %s_%s (g : Bool) (x : Nat → NAddr) (hg : g = false → o.off = 0) (p8 : m.ptr 6 8 = ⟨4, 0⟩)\n    (p16 : m.ptr 6 16 = ⟨5, 0⟩) : %s.OtFacts m g o %s\n    %s where'
          % (k, thm, K, st, ex))
        ind = '(nInd m x k)'
        if g_dep:
            E('''  a := by
    intro k j hk hj
    have e : %s.v (16 + k)
        = %s := by
      cases g <;> interval_cases k <;> kernel_rfl
    have hgo : (if g = true then o.off else 0) = o.off := by
      cases g
      · rw [hg rfl]; rfl
      · rfl
    rw [hgo] at e
    rw [e]
    exact %s''' % (ex, aload(bd, ind + '.obj', ind + '.off + 4 * (if g = true then o.off else 0)', 's.v (16 + k)'), afin(bd, ind + '.obj', ind + '.off + 4 * o.off')))
        else:
            E('''  a := by
    intro k j hk hj
    have e : %s.v (16 + k)
        = %s := by
      interval_cases k <;> kernel_rfl
    rw [e]
    exact %s''' % (ex, aload(bd, ind + '.obj', ind + '.off + 4 * o.off', 's.v (16 + k)'), afin(bd, ind + '.obj', ind + '.off + 4 * o.off')))
        E('''  w := by
    intro q j hq hj hw
    have hq : q < %d := hq
    have hw : %d ≤ (x 20).off := hw
    have e : %s.v (20 + q) = fun j => m.byte (x 20).obj ((x 20).off - (%d - 16 * q) + j) := by
      %sinterval_cases q <;> kernel_rfl
    rw [e]
    have e2 : (x 20).off - (%d - 16 * q) + j = (x 20).off - %d + 16 * q + j := by omega
    exact congrArg (m.byte (x 20).obj) e2
  xw := by %skernel_rfl
  xi := by %skernel_rfl
  ok := by
    intro h hi ha h1 h2 h3 h4 h5
    unfold nIndOk at hi
    change (x 21).off + 32 ≤ m.size (x 21).obj at hi
    change ∀ k, k < 4 → (nInd m x k).off + 4 * o.off + %d ≤ m.size (nInd m x k).obj at ha
    change %d ≤ (x 20).off at h1
    change (x 20).off ≤ m.size (x 20).obj at h2
    change s.ok = true at h
%s''' % (2 * bd, 32 * bd, ex, 32 * bd, 'cases g <;> ' if g_dep else '', 32 * bd, 32 * bd, 'cases g <;> ' if g_dep else '',
         'cases g <;> ' if g_dep else '', 4 * bd, 32 * bd, ABNDS.rstrip('\n')))
        special = {22: ('6', '0'), 23: ('6', '4'), 24: ('4', '4 * o.cIdx'), 25: ('5', '4 * o.cIdx'), 26: ('6', '0')}
        if g_dep:
            r = ''
            for g in (False, True):
                r += '''    · %shave e : (nExecs F m o (%s %s) %s).ok =
          %s := by
        kernel_rfl
      rw [e, h]
      simp only [List.foldl_cons, List.foldl_nil, Bool.and_eq_true, decide_eq_true_eq, true_and]
      omega
''' % ('' if g else 'have h0 := hg rfl\n      ', nm, 'true' if g else 'false', st, oklist(conds(nm, g, X0, special), 10))
            E('    cases g\n' + r)
        else:
            cs = conds(nm, False, X0, special)
            E('''    have e : %s.ok =
        %s := by
      kernel_rfl
    rw [e, h]
    simp only [p8, p16, List.foldl_cons, List.foldl_nil, Bool.and_eq_true, decide_eq_true_eq, true_and]
    omega
''' % (ex, oklist(cs, 8)))
        # results
        if bd != 4: mu, bi, mun, bin_, rw = '(⟨4, 4 * o.cIdx⟩ : NAddr)', '(⟨5, 4 * o.cIdx⟩ : NAddr)', '', '', ''
        else: mu, bi, rw = '((m.ptr 6 8).add (4 * o.cIdx))', '((m.ptr 6 16).add (4 * o.cIdx))', ', p8, p16, addr0, addr0'
        vec = lambda e, hs: '''otVec F (fun j => m.byte 6 (0 + j %% 4)) (fun j => m.byte 6 (4 + j %% 4))
          (fun j => m.byte %s.obj (%s.off + %d + j)) (fun j => m.byte %s.obj (%s.off + %d + j))
          (fun l => laneHalf (s.v (28 + p)) %s)''' % (mu, mu, 16 * e, bi, bi, 16 * e, hs)
        lo, hi = vec(0, 'l'), vec(1, '(l + 4)')
        R = 'OtFloatRes' if T == 'OtF' else 'OtInt8Res'
        E('theorem %s_res%s (g : Bool) (x : Nat → NAddr) (p8 : m.ptr 6 8 = ⟨4, 0⟩) (p16 : m.ptr 6 16 = ⟨5, 0⟩) :\n    %s F m o s %s := by'
          % (k, T[-1], R, ex))
        cg = 'cases g <;> ' if g_dep else ''
        MUA = '(⟨4, 4 * o.cIdx⟩ : NAddr)'
        BIA = '(⟨5, 4 * o.cIdx⟩ : NAddr)'
        fin = '''    have hl := otVec_lane F m ⟨6, 0⟩ ⟨6, 4⟩ ⟨4, 4 * o.cIdx⟩ ⟨5, 4 * o.cIdx⟩ %d %d (fun l => laneHalf (s.v (28 + p)) %s) %s
'''
        if T == 'OtF':
            E('''  intro p j hp hj
  unfold resF
  by_cases h4 : j < 4
  · have e : %s.v (32 + 2 * p)
        = %s := by
      %sinterval_cases p <;> kernel_rfl
    rw [show j / 4 = 0 by omega, show j %% 4 = j by omega, Nat.add_zero, e%s]
    exact otVec_lane F m ⟨6, 0⟩ ⟨6, 4⟩ ⟨4, 4 * o.cIdx⟩ ⟨5, 4 * o.cIdx⟩ 0 0 (fun l => laneHalf (s.v (28 + p)) l) j
  · have e : %s.v (32 + 2 * p + 1)
        = %s := by
      %sinterval_cases p <;> kernel_rfl
    rw [show j / 4 = 1 by omega, show j %% 4 = j - 4 by omega, e%s]
    refine Eq.trans (otVec_lane F m ⟨6, 0⟩ ⟨6, 4⟩ ⟨4, 4 * o.cIdx⟩ ⟨5, 4 * o.cIdx⟩ 16 16
      (fun l => laneHalf (s.v (28 + p)) (l + 4)) (j - 4)) ?_
    have e1 : j - 4 + 4 = j := by omega
    have e2 : 4 * o.cIdx + 16 + 4 * (j - 4) = 4 * o.cIdx + 4 * j := by omega
    simp only [e1, e2]
''' % (ex, lo, cg, rw, ex, hi, cg, rw))
        else:
            vF = lambda v: '(ofWords fun l => F.fcvtns (laneWord (%s) l))' % v
            E('''  intro p j hp hj
  unfold resI
  have e : %s.v (32 + 2 * p)
      = narrow (ofWords fun l => F.fcvtns (laneWord (%s) l))
        (ofWords fun l => F.fcvtns (laneWord (%s) l)) := by
    %sinterval_cases p <;> kernel_rfl
  rw [e, narrow_eq _ _ j hj%s]
  by_cases h4 : j < 4
  · rw [if_pos h4, show j %% 4 = j by omega, laneWord_ofWords]
    exact congrArg (fun w => sat8 (sat16 (F.fcvtns w)))
      (otVec_lane F m ⟨6, 0⟩ ⟨6, 4⟩ ⟨4, 4 * o.cIdx⟩ ⟨5, 4 * o.cIdx⟩ 0 0 (fun l => laneHalf (s.v (28 + p)) l) j)
  · rw [if_neg h4, show j %% 4 = j - 4 by omega, laneWord_ofWords]
    refine congrArg (fun w => sat8 (sat16 (F.fcvtns w))) (Eq.trans
      (otVec_lane F m ⟨6, 0⟩ ⟨6, 4⟩ ⟨4, 4 * o.cIdx⟩ ⟨5, 4 * o.cIdx⟩ 16 16
        (fun l => laneHalf (s.v (28 + p)) (l + 4)) (j - 4)) ?_)
    have e1 : j - 4 + 4 = j := by omega
    have e2 : 4 * o.cIdx + 16 + 4 * (j - 4) = 4 * o.cIdx + 4 * j := by omega
    simp only [e1, e2]
''' % (ex, lo, hi, cg, rw))
    E('''theorem %s_facts : %s.Facts where
  bd := by decide
  block := fun F m o s => %s_block F m o s
  pro2 := fun F m g o s => %s_pro2 F m o s g
  mid2 := fun F m g o s => %s_mid2 F m o s g
  pro1 := fun F m o s => %s_pro1 F m o s
  body1 := fun F m g o s => %s_body1 F m o s g
  pre := fun F m o s => %s_pre F m o s
  otF := fun F m g o s x hg p8 p16 => %s_otF F m o s g x hg p8 p16
  otI := fun F m g o s x hg p8 p16 => %s_otI F m o s g x hg p8 p16
  resF := fun F m g o s x p8 p16 => %s_resF F m o s g x p8 p16
  resI := fun F m g o s x p8 p16 => %s_resI F m o s g x p8 p16

end Verif''' % ((k, K) + (k,) * 10))
    if bd == 4: W = [w.replace('(hg :', '(_hg :').replace('_resF (g ', '_resF (_g ').replace('_resI (g ', '_resI (_g ') for w in W]
    if bd != 4: W = [w.replace('(p8 :', '(_p8 :').replace('(p16 :', '(_p16 :') for w in W]
    open(LEAN + '/Proof/IndirectA64Code%d.lean' % bd, 'w').write('\n'.join(W) + '\n')
