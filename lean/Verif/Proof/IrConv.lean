import Verif.Proof.IrRules
import Verif.Props.FuseAffine
import Verif.Props.FuseAct
import Verif.Props.Thresholds
import Mathlib.Tactic.FieldSimp

/-! Soundness of the patterns of the optimization pass that involve binary convolutions. -/

namespace Verif.Ir

open Finset

/-! ### The sizes of a convolution -/

/-- What `geom` returns. -/
structure Geo (a : ConvAttrs) (pv n h w cin co fh fw ci : Nat) (p : BConv) : Prop where
  pos : 0 < a.strideH ∧ 0 < a.strideW ∧ 0 < a.dilH ∧ 0 < a.dilW ∧ 0 < fh ∧ 0 < fw ∧ 0 < ci ∧ 0 < cin
  coPos : 0 < co
  div : cin % ci = 0 ∧ co % (cin / ci) = 0
  batches : p.batches = n
  inH : p.inH = h
  inW : p.inW = w
  cinE : p.cin = cin
  filtH : p.filtH = fh
  filtW : p.filtW = fw
  cout : p.cout = co
  groups : p.groups = cin / ci
  strideH : p.strideH = a.strideH
  strideW : p.strideW = a.strideW
  dilH : p.dilH = a.dilH
  dilW : p.dilW = a.dilW
  padding : p.padding = a.padding
  outH : (p.outH : Int) = computeOutSize a.padding h fh a.strideH a.dilH
  outW : (p.outW : Int) = computeOutSize a.padding w fw a.strideW a.dilW
  padH : p.padH = computePadding a.strideH a.dilH h fh p.outH
  padW : p.padW = computePadding a.strideW a.dilW w fw p.outW

theorem geom_some {a : ConvAttrs} {pv n h w cin co fh fw ci : Nat} {p : BConv}
    (e : geom a pv n h w cin co fh fw ci = some p) : Geo a pv n h w cin co fh fw ci p := by
  unfold geom at e
  simp only at e
  split at e
  · rename_i hc
    simp only [Option.some.injEq] at e
    subst e
    obtain ⟨h1, h2, h3, h4, h5, h6, h7, h8, hco, h9, h10, h11, h12⟩ := hc
    have e1 : (((computeOutSize a.padding h fh a.strideH a.dilH).toNat : Nat) : Int) = _ := Int.toNat_of_nonneg h11
    have e2 : (((computeOutSize a.padding w fw a.strideW a.dilW).toNat : Nat) : Int) = _ := Int.toNat_of_nonneg h12
    exact ⟨⟨h1, h2, h3, h4, h5, h6, h7, h8⟩, hco, ⟨h9, h10⟩, rfl, rfl, rfl, rfl, rfl, rfl, rfl, rfl, rfl, rfl, rfl, rfl, rfl,
      e1, e2, by simp only [e1], by simp only [e2]⟩
  · cases e

theorem Geo.cinG {a : ConvAttrs} {pv n h w cin co fh fw ci : Nat} {p : BConv} (g : Geo a pv n h w cin co fh fw ci p) :
    p.cinG = ci := by
  unfold BConv.cinG
  rw [g.cinE, g.groups]
  obtain ⟨k, hk⟩ := Nat.dvd_of_mod_eq_zero g.div.1
  have hk0 : 0 < k := Nat.pos_of_ne_zero (by rintro rfl; have := g.pos; omega)
  have hci : 0 < ci := g.pos.2.2.2.2.2.2.1
  rw [hk, Nat.mul_div_cancel_left _ hci, Nat.mul_div_cancel _ hk0]

/-- The input channel that output channel `oc` reads exists. -/
theorem Geo.chan_lt {a : ConvAttrs} {pv n h w cin co fh fw ci : Nat} {p : BConv} (g : Geo a pv n h w cin co fh fw ci p)
    {oc c : Nat} (hoc : oc < co) (hc : c < p.cinG) : oc / (p.cout / p.groups) * p.cinG + c < p.cin := by
  rw [g.cinG] at hc ⊢
  rw [g.cinE, g.groups, g.cout]
  obtain ⟨k, hk⟩ := Nat.dvd_of_mod_eq_zero g.div.1
  have hci : 0 < ci := g.pos.2.2.2.2.2.2.1
  have hk0 : 0 < k := Nat.pos_of_ne_zero (by rintro rfl; have := g.pos; omega)
  have e : cin / ci = k := by rw [hk, Nat.mul_div_cancel_left _ hci]
  have hd := g.div.2
  rw [e] at hd ⊢
  obtain ⟨q, hq⟩ := Nat.dvd_of_mod_eq_zero hd
  have hq0 : 0 < q := Nat.pos_of_ne_zero (by rintro rfl; omega)
  rw [hq, Nat.mul_div_cancel_left _ hk0]
  have h1 : oc / q < k := (Nat.div_lt_iff_lt_mul hq0).2 (by omega)
  have : (oc / q + 1) * ci ≤ k * ci := Nat.mul_le_mul_right _ h1
  rw [hk, Nat.mul_comm ci k]
  rw [Nat.add_mul, Nat.one_mul] at this
  omega

/-! ### Convolution sums -/

theorem convAt_congr {p : BConv} {pad pad' : Rat} {x x' : Nat → Rat} {wt wt' : Nat → Nat → Nat → Nat → Rat}
    {b oy ox oc : Nat}
    (h : ∀ fy fx c, fy < p.filtH → fx < p.filtW → c < p.cinG →
      (let iy : Int := (oy : Int) * p.strideH - p.padH + p.dilH * fy
       let ix : Int := (ox : Int) * p.strideW - p.padW + p.dilW * fx
       if 0 ≤ iy ∧ iy < p.inH ∧ 0 ≤ ix ∧ ix < p.inW then
         x (((b * p.inH + iy.toNat) * p.inW + ix.toNat) * p.cin + (oc / (p.cout / p.groups) * p.cinG + c)) * wt fy fx c oc =
         x' (((b * p.inH + iy.toNat) * p.inW + ix.toNat) * p.cin + (oc / (p.cout / p.groups) * p.cinG + c)) * wt' fy fx c oc
       else pad * wt fy fx c oc = pad' * wt' fy fx c oc)) :
    convAt p pad x wt b oy ox oc = convAt p pad' x' wt' b oy ox oc := by
  unfold convAt
  apply Finset.sum_congr rfl
  intro fy hfy
  apply Finset.sum_congr rfl
  intro fx hfx
  apply Finset.sum_congr rfl
  intro c hc
  have := h fy fx c (mem_range.1 hfy) (mem_range.1 hfx) (mem_range.1 hc)
  simp only at this ⊢
  split
  · rename_i hh
    rw [if_pos hh] at this
    exact this
  · rename_i hh
    rw [if_neg hh] at this
    exact this

theorem convAt_scale (p : BConv) (pad s : Rat) (x : Nat → Rat) (wt : Nat → Nat → Nat → Nat → Rat) (b oy ox oc : Nat) :
    convAt p pad x (fun fy fx c o => s * wt fy fx c o) b oy ox oc = s * convAt p pad x wt b oy ox oc := by
  unfold convAt
  rw [Finset.mul_sum]
  apply Finset.sum_congr rfl
  intro fy _
  rw [Finset.mul_sum]
  apply Finset.sum_congr rfl
  intro fx _
  rw [Finset.mul_sum]
  apply Finset.sum_congr rfl
  intro c _
  simp only
  ring

/-- `v` is a sum of `k` numbers that are -1 or 1. -/
def SumPm (k : Nat) (v : Rat) : Prop := ∃ a : Int, 0 ≤ a ∧ a ≤ k ∧ v = ((k - 2 * a : Int) : Rat)

theorem SumPm.sum {k : Nat} {f : Nat → Rat} : ∀ {N : Nat}, (∀ i, i < N → SumPm k (f i)) →
    SumPm (N * k) (∑ i ∈ range N, f i)
  | 0, _ => ⟨0, le_refl _, by simp, by simp⟩
  | N + 1, h => by
    obtain ⟨a, h1, h2, h3⟩ := SumPm.sum (N := N) fun i hi => h i (by omega)
    obtain ⟨a', h4, h5, h6⟩ := h N (by omega)
    refine ⟨a + a', by omega, by push_cast at h2 ⊢; linarith, ?_⟩
    rw [Finset.sum_range_succ, h3, h6]
    push_cast
    ring

theorem convAt_pm {p : BConv} {x : Nat → Rat} {wt : Nat → Nat → Nat → Nat → Rat} {b oy ox oc : Nat}
    (hx : ∀ k, x k = 1 ∨ x k = -1)
    (hw : ∀ fy fx c, fy < p.filtH → fx < p.filtW → c < p.cinG → wt fy fx c oc = 1 ∨ wt fy fx c oc = -1) :
    SumPm (p.filtH * (p.filtW * (p.cinG * 1))) (convAt p 1 x wt b oy ox oc) := by
  unfold convAt
  refine SumPm.sum fun fy hfy => SumPm.sum fun fx hfx => SumPm.sum fun c hc => ?_
  have h1 := hw fy fx c hfy hfx hc
  simp only
  split
  · rcases hx (((b * p.inH + ((oy : Int) * p.strideH - p.padH + p.dilH * fy).toNat) * p.inW +
        ((ox : Int) * p.strideW - p.padW + p.dilW * fx).toNat) * p.cin + (oc / (p.cout / p.groups) * p.cinG + c))
      with h2 | h2 <;> rcases h1 with h1 | h1 <;> rw [h1, h2]
    · exact ⟨0, by norm_num, by norm_num, by norm_num⟩
    · exact ⟨1, by norm_num, by norm_num, by norm_num⟩
    · exact ⟨1, by norm_num, by norm_num, by norm_num⟩
    · exact ⟨0, by norm_num, by norm_num, by norm_num⟩
  · rcases h1 with h1 | h1 <;> rw [h1]
    · exact ⟨0, by norm_num, by norm_num, by norm_num⟩
    · exact ⟨1, by norm_num, by norm_num, by norm_num⟩

/-! ### Binary convolutions -/

/-- The binary convolution of an input with a filter given by its signs. -/
def bcv (a : BConvAttrs) (p : BConv) (x : TensOf Bool) (ws : List Rat) (fh fw ci : Nat) : Nat → Nat → Nat → Nat → Rat :=
  convAt p (if a.padding = .same ∧ a.padValue = 0 then 0 else 1)
    (fun k => bitVal (x.data.getD k false)) (fun fy fx c oc => ws.getD (((oc * fh + fy) * fw + fx) * ci + c) 0)

/-- The operands of a binary convolution that has a value. -/
structure BIn (a : BConvAttrs) (vx vf : Val) (x : TensOf Bool) (n h w cin co fh fw ci : Nat) (ws : List Rat) (p : BConv) :
    Prop where
  xE : vx = .s x
  xs : x.shape = [n, h, w, cin]
  fs : vf.shape = [co, fh, fw, ci]
  wsE : vf.signs = some ws
  ok : cin = a.cin ∧ (ci = cin ∨ ci % 32 = 0) ∧ 2 * (fh * fw * ci) < 2147483648
  geom : geom a.toConvAttrs a.padValue n h w cin co fh fw ci = some p

/-- The result of a binary convolution. -/
def BOut (a : BConvAttrs) (n co K : Nat) (p : BConv) (cv : Nat → Nat → Nat → Nat → Rat) (vm vb vt r : Val) : Prop :=
  (a.outBits = false ∧ ∃ m bi : Tens, vm = .f m ∧ vb = .f bi ∧ vt = .none ∧ m.shape = [co] ∧ bi.shape = [co] ∧
    r = .f (mk4 n p.outH p.outW co fun b y x c => a.act.real (cv b y x c) * m.data.getD c 0 + bi.data.getD c 0)) ∨
  (a.outBits = true ∧ ∃ t : TensOf Int, vt = .i t ∧ t.shape = [co] ∧
    r = .s (mk4 n p.outH p.outW co fun b y x c => decide (((K : Nat) - cv b y x c) / 2 > (t.data.getD c 0 : Rat))))

theorem bconv_some {a : BConvAttrs} {vx vf vm vb vt r : Val} (h : bconvEval a [vx, vf, vm, vb, vt] = some r) :
    ∃ x n h w cin co fh fw ci ws p, BIn a vx vf x n h w cin co fh fw ci ws p ∧
      BOut a n co (fh * fw * ci) p (bcv a p x ws fh fw ci) vm vb vt r := by
  cases vx with
  | s x =>
    simp only [bconvEval] at h
    split at h
    · rename_i n hh w cin co fh fw ci ws h1 h2 h3
      split at h
      · rename_i hok
        rw [Option.bind_eq_some_iff] at h
        obtain ⟨p, hp, h⟩ := h
        refine ⟨x, n, hh, w, cin, co, fh, fw, ci, ws, p, ⟨rfl, h1, h2, h3, hok, hp⟩, ?_⟩
        split at h
        · rename_i m bi hob
          split at h
          · rename_i hsh
            simp only [Option.some.injEq] at h
            exact Or.inl ⟨by assumption, _, _, rfl, rfl, rfl, hsh.1, hsh.2, h.symm⟩
          · cases h
        · split at h
          · rename_i hsh
            simp only [Option.some.injEq] at h
            exact Or.inr ⟨by assumption, _, rfl, hsh, h.symm⟩
          · cases h
        · cases h
      · cases h
    · cases h
  | _ => simp [bconvEval] at h

theorem bconv_intro {a : BConvAttrs} {vx vf vm vb vt r : Val} {x : TensOf Bool} {n h w cin co fh fw ci : Nat} {ws : List Rat}
    {p : BConv} (hi : BIn a vx vf x n h w cin co fh fw ci ws p)
    (ho : BOut a n co (fh * fw * ci) p (bcv a p x ws fh fw ci) vm vb vt r) : bconvEval a [vx, vf, vm, vb, vt] = some r := by
  obtain ⟨rfl, h1, h2, h3, hok, hp⟩ := hi
  simp only [bconvEval, h1, h2, h3]
  rw [if_pos hok, hp, Option.bind_some]
  rcases ho with ⟨e, m, bi, rfl, rfl, rfl, hm, hb, rfl⟩ | ⟨e, t, rfl, ht, rfl⟩
  · simp only [e]
    rw [if_pos ⟨hm, hb⟩]
    rfl
  · simp only [e]
    rw [if_pos ht]
    rfl

/-- A binary convolution depends on its filter only through shape and signs. -/
theorem bconv_filter {a : BConvAttrs} {vx vf vf' vm vb vt : Val} (hs : vf'.shape = vf.shape) (hw : vf'.signs = vf.signs) :
    bconvEval a [vx, vf', vm, vb, vt] = bconvEval a [vx, vf, vm, vb, vt] := by
  cases vx <;> simp only [bconvEval]
  rw [hs, hw]

theorem signs_len {v : Val} {ws : List Rat} (h : v.signs = some ws) (hw : v.wf = true) : ws.length = v.shape.prod := by
  cases v with
  | f t =>
    simp only [Val.signs] at h
    split at h
    · cases h; simpa [Val.shape] using wfF.1 hw
    · cases h
  | s t =>
    simp only [Val.signs, Option.some.injEq] at h
    subst h
    simpa [Val.shape] using wfS.1 hw
  | _ => simp [Val.signs] at h

/-! ### Bitpacking the filter -/

theorem ruleBitpackWeights_inv {c : Ctx} {n : Node} {t : Rhs} (h : ruleBitpackWeights.apply c n = some t) :
    ∃ nm a x f m b th ty ft, n = ⟨nm, .bconv a, [x, f, m, b, th], ty⟩ ∧ c.constOf f = some (.f ft) ∧
      t = .op (.bconv a) ty [.var x, .op (.const (.s (ft.map fun v => decide (v < 0)))) none [], .var m, .var b, .var th] := by
  unfold ruleBitpackWeights at h
  simp only at h
  split at h
  · split at h
    · split at h
      · cases h
        rename_i h1 _
        exact ⟨_, _, _, _, _, _, _, _, _, rfl, h1, rfl⟩
      · cases h
    · cases h
  · cases h

theorem ruleBitpackWeights_local : ruleBitpackWeights.Local := by
  intro c n t h x hx
  obtain ⟨nm, a, x', f, m, b, th, ty, ft, rfl, hc, rfl⟩ := ruleBitpackWeights_inv h
  refine Or.inl ?_
  simp only [Rhs.vars, Rhs.varsL, List.cons_append, List.nil_append, List.mem_cons, List.not_mem_nil, or_false] at hx ⊢
  tauto

theorem bitVal_sign (v : Rat) : bitVal (decide (v < 0)) = signR v := by
  unfold bitVal signR
  by_cases h : v < 0 <;> simp [h]

theorem ruleBitpackWeights_sound : ruleBitpackWeights.Sound := by
  intro ins env c n t hd h _ _ v hv
  obtain ⟨nm, a, x, f, m, b, th, ty, ft, rfl, hc, rfl⟩ := ruleBitpackWeights_inv h
  obtain ⟨vx, vf, vm, vb, vt, e1, e2, e3, e4, e5, he, hw, hty⟩ := eval5 hv
  have := hd.const hc e2
  subst this
  have hwf := wfF.1 (hd.wf _ _ e2)
  have hpk : (Rhs.op (.const (.s (ft.map fun v => decide (v < 0)))) none []).eval ins env =
      some (.s (ft.map fun v => decide (v < 0))) :=
    rhs_const (wfS.2 (by rw [map_wf.1, map_wf.2, hwf]))
  refine rhs_op (evalL_cons (rhs_var e1) (evalL_cons hpk (evalL_cons (rhs_var e3) (evalL_cons (rhs_var e4)
      (evalL_cons (rhs_var e5) evalL_nil))))) ?_ hw hty
  simp only [Op.eval] at he ⊢
  rw [← he]
  apply bconv_filter
  · rfl
  · obtain ⟨_, _, _, _, _, _, _, _, _, ws, _, hi, _⟩ := bconv_some he
    have hws := hi.wsE
    simp only [Val.signs] at hws ⊢
    split at hws
    · rename_i h0
      rw [if_pos h0]
      simp only [TensOf.map, List.map_map]
      refine congrArg some (List.map_congr_left fun u _ => ?_)
      exact bitVal_sign u
    · cases hws

/-! ### Activation functions -/

theorem ruleFuseAct_inv {ac : Act} {c : Ctx} {n : Node} {t : Rhs} (h : (ruleFuseAct ac).apply c n = some t) :
    ∃ nm y ty yn a x f m b th yty mt bt, n = ⟨nm, .act ac, [y], ty⟩ ∧
      c.look y = some ⟨yn, .bconv a, [x, f, m, b, th], yty⟩ ∧ c.constOf m = some (.f mt) ∧ c.constOf b = some (.f bt) ∧
      isConstantValue mt.data 1 = true ∧ isConstantValue bt.data 0 = true ∧ a.act = .none ∧
      t = .op (.bconv { a with act := ac }) ty [.var x, .var f, .constF mt, .constF bt, .var th] := by
  unfold ruleFuseAct at h
  simp only at h
  split at h
  · split at h
    · split at h
      · split at h
        · rename_i hl _ _ _ _ hm hb hc
          obtain ⟨rfl, h1, h2, h3, h4⟩ := hc
          cases h
          exact ⟨_, _, _, _, _, _, _, _, _, _, _, _, _, rfl, hl, hm, hb, h1, h2, h3, rfl⟩
        · cases h
      · cases h
    · cases h
  · cases h

theorem ruleFuseAct_local (ac : Act) : (ruleFuseAct ac).Local := by
  intro c n t h x hx
  obtain ⟨nm, y, ty, yn, a, x', f, m, b, th, yty, mt, bt, rfl, hl, hm, hb, h1, h2, h3, rfl⟩ := ruleFuseAct_inv h
  refine Or.inr ⟨y, _, hl, ?_⟩
  simp only [Rhs.vars, Rhs.varsL, Rhs.constF, List.cons_append, List.nil_append, List.mem_cons, List.not_mem_nil,
    or_false] at hx ⊢
  tauto

theorem act_some {ac : Act} {v r : Val} (h : actEval ac [v] = some r) : ∃ x, v = .f x ∧ r = .f (x.map ac.real) := by
  cases v <;> simp only [actEval, reduceCtorEq, Option.some.injEq] at h
  exact ⟨_, rfl, h.symm⟩

theorem ruleFuseAct_sound (ac : Act) : (ruleFuseAct ac).Sound := by
  intro ins env c n t hd h _ _ v hv
  obtain ⟨nm, y, ty, yn, a, x, f, m, b, th, yty, mt, bt, rfl, hl, hm, hb, hm1, hb0, hact, rfl⟩ := ruleFuseAct_inv h
  obtain ⟨vy, h1, h2, h3, h4⟩ := eval1 hv
  obtain ⟨vx, vf, vm, vb, vt, e1, e2, e3, e4, e5, he, hw, hty⟩ := eval5 (hd.val hl h1)
  have := hd.const hm e3
  subst this
  have := hd.const hb e4
  subst this
  simp only [Op.eval] at h2 he
  obtain ⟨u, rfl, rfl⟩ := act_some h2
  obtain ⟨xt, N, H, W, cin, co, fh, fw, ci, ws, p, hi, ho⟩ := bconv_some he
  have w1 := hd.wf _ _ e3
  have w2 := hd.wf _ _ e4
  refine rhs_op (evalL_cons (rhs_var e1) (evalL_cons (rhs_var e2) (evalL_cons (rhs_constF w1) (evalL_cons (rhs_constF w2)
      (evalL_cons (rhs_var e5) evalL_nil))))) ?_ h3 h4
  refine bconv_intro (x := xt) (n := N) (h := H) (w := W) (cin := cin) (co := co) (fh := fh) (fw := fw) (ci := ci)
    (ws := ws) (p := p) ⟨hi.xE, hi.xs, hi.fs, hi.wsE, hi.ok, hi.geom⟩ ?_
  rcases ho with ⟨hob, m', b', q1, q2, q3, q4, q5, q6⟩ | ⟨hob, t, q1, q2, q3⟩
  · refine Or.inl ⟨hob, m', b', q1, q2, q3, q4, q5, ?_⟩
    simp only [Val.f.injEq] at q1 q2 q6
    subst q1; subst q2; subst q6
    rw [mk4_map]
    refine congrArg Val.f (mk4_congr fun i j k c _ _ _ hc => ?_)
    rw [isConst_getD hm1 (by rw [wfF.1 w1, q4]; simpa using hc), isConst_getD hb0 (by rw [wfF.1 w2, q5]; simpa using hc),
      hact]
    simp only [Act.real, mul_one, add_zero]
    rfl
  · cases q3

/-! ### Operators with constants -/

theorem ruleFuseAddSub_inv {sub : Bool} {c : Ctx} {n : Node} {t : Rhs} (h : (ruleFuseAddSub sub).apply c n = some t) :
    ∃ nm y v ty yn a x f m b th yty bt vt op, op = (if sub then BinOp.sub else .add) ∧ n = ⟨nm, .bin op .none, [y, v], ty⟩ ∧
      c.look y = some ⟨yn, .bconv a, [x, f, m, b, th], yty⟩ ∧ c.constOf b = some (.f bt) ∧ c.constOf v = some (.f vt) ∧
      t = .op (.bconv a) ty [.var x, .var f, .var m, .op (.bin op .none) none [.constF bt, .constF vt], .var th] := by
  unfold ruleFuseAddSub at h
  simp only at h
  split at h
  · split at h
    · split at h
      · rename_i hl _ _ _ _ hb hv
        simp only [Option.ite_none_right_eq_some, Option.some.injEq] at h
        obtain ⟨hc, rfl⟩ := h
        exact ⟨_, _, _, _, _, _, _, _, _, _, _, _, _, _, _, hc.1, rfl, hl, hb, hv, rfl⟩
      · cases h
    · cases h
  · cases h

theorem ruleFuseAddSub_local (sub : Bool) : (ruleFuseAddSub sub).Local := by
  intro c n t h x hx
  obtain ⟨nm, y, v, ty, yn, a, x', f, m, b, th, yty, bt, vt, op, hop, rfl, hl, hb, hv, rfl⟩ := ruleFuseAddSub_inv h
  refine Or.inr ⟨y, _, hl, ?_⟩
  simp only [Rhs.vars, Rhs.varsL, Rhs.constF, List.cons_append, List.nil_append, List.mem_cons, List.not_mem_nil,
    or_false] at hx ⊢
  tauto

theorem ruleFuseMulDiv_inv {dv : Bool} {c : Ctx} {n : Node} {t : Rhs} (h : (ruleFuseMulDiv dv).apply c n = some t) :
    ∃ nm y v ty yn a x f m b th yty mt bt vt op, op = (if dv then BinOp.div else .mul) ∧
      n = ⟨nm, .bin op .none, [y, v], ty⟩ ∧
      c.look y = some ⟨yn, .bconv a, [x, f, m, b, th], yty⟩ ∧ c.constOf m = some (.f mt) ∧ c.constOf b = some (.f bt) ∧
      c.constOf v = some (.f vt) ∧
      t = .op (.bconv a) ty [.var x, .var f, .op (.bin op .none) none [.constF mt, .constF vt],
        .op (.bin op .none) none [.constF bt, .constF vt], .var th] := by
  unfold ruleFuseMulDiv at h
  simp only at h
  split at h
  · split at h
    · split at h
      · rename_i hl _ _ _ _ _ _ hm hb hv
        simp only [Option.ite_none_right_eq_some, Option.some.injEq] at h
        obtain ⟨hc, rfl⟩ := h
        exact ⟨_, _, _, _, _, _, _, _, _, _, _, _, _, _, _, _, hc.1, rfl, hl, hm, hb, hv, rfl⟩
      · cases h
    · cases h
  · cases h

theorem ruleFuseMulDiv_local (dv : Bool) : (ruleFuseMulDiv dv).Local := by
  intro c n t h x hx
  obtain ⟨nm, y, v, ty, yn, a, x', f, m, b, th, yty, mt, bt, vt, op, hop, rfl, hl, hm, hb, hv, rfl⟩ := ruleFuseMulDiv_inv h
  refine Or.inr ⟨y, _, hl, ?_⟩
  simp only [Rhs.vars, Rhs.varsL, Rhs.constF, List.cons_append, List.nil_append, List.mem_cons, List.not_mem_nil,
    or_false] at hx ⊢
  tauto

theorem bin_some {op : BinOp} {v w r : Val} (h : binEval op .none [v, w] = some r) :
    ∃ x y t, v = .f x ∧ w = .f y ∧ (op = .div → y.data.all (fun v => v != 0) = true) ∧ broadcastOp op.fn x y = some t ∧
      r = .f t := by
  cases v <;> cases w <;> simp only [binEval] at h <;> try cases h
  rename_i x y
  split at h
  · cases h
  · rename_i hc
    rw [Option.map_eq_some_iff] at h
    obtain ⟨t, h1, h2⟩ := h
    refine ⟨x, y, t, rfl, rfl, ?_, h1, ?_⟩
    · intro e
      by_contra hn
      exact hc ⟨e, hn⟩
    · rw [bin_none_map] at h2; exact h2.symm

theorem bin_intro {op : BinOp} {x y t : Tens} (h0 : op = .div → y.data.all (fun v => v != 0) = true)
    (h : broadcastOp op.fn x y = some t) : binEval op .none [.f x, .f y] = some (.f t) := by
  simp only [binEval]
  rw [if_neg (fun hc => hc.2 (h0 hc.1)), h, Option.map_some, bin_none_map]

theorem perChannel_of_shape {v : Tens} {s : List Nat} {co : Nat} (h : perChannelShape v.shape s = true) (hs : s = [co]) :
    PerChannel co v := by
  unfold perChannelShape at h
  simp only [Bool.or_eq_true, beq_iff_eq] at h
  unfold PerChannel
  rw [hs] at h
  tauto

/-- The fused constant of shape `[co]`. -/
theorem fold_const {ins : List Val} {env : Env} {op : BinOp} {co : Nat} {bt vt : Tens} (hb : bt.shape = [co])
    (hpc : PerChannel co vt) (hwb : (Val.f bt).wf = true) (hwv : (Val.f vt).wf = true)
    (h0 : op = .div → vt.data.all (fun v => v != 0) = true) :
    (Rhs.op (.bin op .none) none [.constF bt, .constF vt]).eval ins env =
      some (.f ⟨[co], (List.range co).map fun i => op.fn (bt.data.getD i 0) (chanVal co vt (i % co))⟩) := by
  refine rhs_op (evalL_cons (rhs_constF hwb) (evalL_cons (rhs_constF hwv) evalL_nil)) ?_ (wfF.2 (by simp)) (Or.inl rfl)
  simp only [Op.eval]
  refine bin_intro h0 ?_
  rw [broadcast_chan hpc (rs := []) (by rw [hb]; rfl), hb]
  simp

theorem range_getD {g : Nat → Rat} {n i : Nat} (h : i < n) : ((List.range n).map g).getD i 0 = g i := by
  simp [h]

/-- An operator with a per-channel constant, on a tensor given by its elements. -/
theorem bin_mk4 {op : BinOp} {co n h w : Nat} {vt t : Tens} {g : Nat → Nat → Nat → Nat → Rat} (hpc : PerChannel co vt)
    (hb : broadcastOp op.fn (mk4 n h w co g) vt = some t) :
    t = mk4 n h w co fun b y x c => op.fn (g b y x c) (chanVal co vt c) := by
  rw [broadcast_chan hpc (rs := [w, h, n]) (by rfl)] at hb
  simp only [Option.some.injEq] at hb
  subst hb
  unfold mk4
  refine congrArg (fun l => (⟨[n, h, w, co], l⟩ : Tens)) ?_
  rw [prod4]
  apply List.map_congr_left
  intro i hi
  rw [List.mem_range] at hi
  rw [range_getD hi]

theorem ruleFuseAddSub_sound (sub : Bool) : (ruleFuseAddSub sub).Sound := by
  intro ins env c n t hd h hex _ v hv
  obtain ⟨nm, y, vv, ty, yn, a, x, f, m, b, th, yty, bt, vt, op, hop, rfl, hl, hb, hcv, rfl⟩ := ruleFuseAddSub_inv h
  obtain ⟨vy, vc, h1, h1', h2, h3, h4⟩ := eval2 hv
  obtain ⟨vx, vf, vm, vb, vth, e1, e2, e3, e4, e5, he, hw, hty⟩ := eval5 (hd.val hl h1)
  have := hd.const hb e4
  subst this
  have := hd.const hcv h1'
  subst this
  simp only [Op.eval] at h2 he
  obtain ⟨yt, vt', r, rfl, e, h0, hbr, rfl⟩ := bin_some h2
  cases e
  obtain ⟨xt, N, H, W, cin, co, fh, fw, ci, ws, p, hi, ho⟩ := bconv_some he
  rcases ho with ⟨hob, m', b', q1, q2, q3, q4, q5, q6⟩ | ⟨hob, t, q1, q2, q3⟩
  · simp only [Val.f.injEq] at q2 q6
    subst q2; subst q6
    have hpc : PerChannel co vt := by
      unfold ruleFuseAddSub at hex
      simp only [hl, hb, hcv, Bool.not_eq_false'] at hex
      exact perChannel_of_shape hex q5
    have w2 := hd.wf _ _ e4
    have w3 := hd.wf _ _ h1'
    refine rhs_op (evalL_cons (rhs_var e1) (evalL_cons (rhs_var e2) (evalL_cons (rhs_var e3)
      (evalL_cons (fold_const q5 hpc w2 w3 h0) (evalL_cons (rhs_var e5) evalL_nil))))) ?_ h3 h4
    refine bconv_intro hi (Or.inl ⟨hob, m', _, q1, rfl, q3, q4, rfl, ?_⟩)
    rw [bin_mk4 hpc hbr]
    refine congrArg Val.f (mk4_congr fun i j k c _ _ _ hc => ?_)
    simp only
    rw [range_getD hc, Nat.mod_eq_of_lt hc]
    cases sub
    · simp only [Bool.false_eq_true, if_false] at hop
      subst hop
      simp only [BinOp.fn]; ring
    · simp only [if_true] at hop
      subst hop
      simp only [BinOp.fn]; ring
  · cases q3

theorem ruleFuseMulDiv_sound (dv : Bool) : (ruleFuseMulDiv dv).Sound := by
  intro ins env c n t hd h hex _ v hv
  obtain ⟨nm, y, vv, ty, yn, a, x, f, m, b, th, yty, mt, bt, vt, op, hop, rfl, hl, hm, hb, hcv, rfl⟩ := ruleFuseMulDiv_inv h
  obtain ⟨vy, vc, h1, h1', h2, h3, h4⟩ := eval2 hv
  obtain ⟨vx, vf, vm, vb, vth, e1, e2, e3, e4, e5, he, hw, hty⟩ := eval5 (hd.val hl h1)
  have := hd.const hb e4
  subst this
  have := hd.const hm e3
  subst this
  have := hd.const hcv h1'
  subst this
  simp only [Op.eval] at h2 he
  obtain ⟨yt, vt', r, rfl, e, h0, hbr, rfl⟩ := bin_some h2
  cases e
  obtain ⟨xt, N, H, W, cin, co, fh, fw, ci, ws, p, hi, ho⟩ := bconv_some he
  rcases ho with ⟨hob, m', b', q1, q2, q3, q4, q5, q6⟩ | ⟨hob, t, q1, q2, q3⟩
  · simp only [Val.f.injEq] at q1 q2 q6
    subst q1; subst q2; subst q6
    have hpc : PerChannel co vt := by
      unfold ruleFuseMulDiv at hex
      simp only [hl, hb, hcv, Bool.not_eq_false'] at hex
      exact perChannel_of_shape hex q5
    have w1 := hd.wf _ _ e3
    have w2 := hd.wf _ _ e4
    have w3 := hd.wf _ _ h1'
    refine rhs_op (evalL_cons (rhs_var e1) (evalL_cons (rhs_var e2) (evalL_cons (fold_const q4 hpc w1 w3 h0)
      (evalL_cons (fold_const q5 hpc w2 w3 h0) (evalL_cons (rhs_var e5) evalL_nil))))) ?_ h3 h4
    refine bconv_intro hi (Or.inl ⟨hob, _, _, rfl, rfl, q3, rfl, rfl, ?_⟩)
    rw [bin_mk4 hpc hbr]
    refine congrArg Val.f (mk4_congr fun i j k c _ _ _ hc => ?_)
    simp only
    rw [range_getD hc, range_getD hc, Nat.mod_eq_of_lt hc]
    cases dv
    · simp only [Bool.false_eq_true, if_false] at hop
      subst hop
      simp only [BinOp.fn]; ring
    · simp only [if_true] at hop
      subst hop
      simp only [BinOp.fn]; ring
  · cases q3

/-! ### Bitpacked activations -/

theorem ruleBitpackActivations_inv {same : Bool} {c : Ctx} {n : Node} {t : Rhs}
    (h : (ruleBitpackActivations same).apply c n = some t) :
    ∃ nm y ty yn a x f m b th yty ft mt bt, n = ⟨nm, .lquant, [y], ty⟩ ∧
      c.look y = some ⟨yn, .bconv a, [x, f, m, b, th], yty⟩ ∧ c.constOf f = some (.f ft) ∧ c.constOf m = some (.f mt) ∧
      c.constOf b = some (.f bt) ∧ c.constOf th = some .none ∧
      a.padding = (if same then .same else .valid) ∧ a.padValue = (if same then 1 else 0) ∧
      t = .op (.bconv { a with outBits := true }) ty [.var x,
              .op (.bin .mul .none) none [.constF ft, .constF ⟨[mt.shape.getD 0 0, 1, 1, 1], signsOf mt.data⟩],
              .op (.const .none) none [], .op (.const .none) none [],
              .op (.const (.i ⟨[min mt.data.length bt.data.length],
                bitpackedThresholds id (ft.shape.getD 1 0) (ft.shape.getD 2 0) (ft.shape.getD 3 0) a.act mt.data bt.data⟩))
                none []] := by
  unfold ruleBitpackActivations at h
  simp only at h
  split at h
  · split at h
    · split at h
      · rename_i hl _ _ _ _ _ _ _ hf hm hb ht
        simp only [Option.ite_none_right_eq_some, Option.some.injEq] at h
        obtain ⟨hc, rfl⟩ := h
        exact ⟨_, _, _, _, _, _, _, _, _, _, _, _, _, _, rfl, hl, hf, hm, hb, ht, hc.1, hc.2.1, rfl⟩
      · cases h
    · cases h
  · cases h

theorem ruleBitpackActivations_local (same : Bool) : (ruleBitpackActivations same).Local := by
  intro c n t h x hx
  obtain ⟨nm, y, ty, yn, a, x', f, m, b, th, yty, ft, mt, bt, rfl, hl, _, _, _, _, _, _, rfl⟩ := ruleBitpackActivations_inv h
  refine Or.inr ⟨y, _, hl, ?_⟩
  simp only [Rhs.vars, Rhs.varsL, Rhs.constF, List.append_nil, List.mem_cons, List.not_mem_nil, or_false] at hx ⊢
  exact Or.inl hx

theorem signsOf_getD {l : List Rat} {i : Nat} (h : i < l.length) :
    (signsOf l).getD i 0 = if 0 ≤ l.getD i 0 then 1 else -1 := by
  simp [signsOf, h]

theorem signR_mul {f s : Rat} (hf : f ≠ 0) (hs : s = 1 ∨ s = -1) : signR (f * s) = s * signR f := by
  unfold signR
  rcases hs with rfl | rfl
  · simp
  · rcases lt_or_gt_of_ne hf with h | h
    · have h1 : ¬ f * -1 < 0 := by linarith
      rw [if_neg h1, if_pos h]; norm_num
    · have h1 : f * -1 < 0 := by linarith
      have h2 : ¬ f < 0 := by linarith
      rw [if_pos h1, if_neg h2]; norm_num

theorem idx4 {co fh fw ci oc fy fx c : Nat} (h1 : oc < co) (h2 : fy < fh) (h3 : fx < fw) (h4 : c < ci) :
    ((oc * fh + fy) * fw + fx) * ci + c < co * fh * fw * ci ∧
      (((oc * fh + fy) * fw + fx) * ci + c) / ci / fw / fh = oc := by
  constructor
  · exact row_lt (row_lt (row_lt h1 h2) h3) h4
  · rw [(div_mod_row h4).1, (div_mod_row h3).1, (div_mod_row h2).1]

/-- The filter times the signs of the multiplier. -/
theorem mul_signs {co fh fw ci : Nat} {ft : Tens} {sg : List Rat} (hs : ft.shape = [co, fh, fw, ci]) :
    broadcastOp BinOp.mul.fn ft ⟨[co, 1, 1, 1], sg⟩ = some ⟨[co, fh, fw, ci], (List.range (co * fh * fw * ci)).map fun i =>
      ft.data.getD i 0 * sg.getD (i / ci / fw / fh) 0⟩ := by
  have hd : ∀ d, bdim d 1 = some d := by
    intro d
    by_cases h : d = 1 <;> simp [bdim, h]
  unfold broadcastOp broadcastG
  rw [hs]
  simp only [List.reverse_cons, List.reverse_nil, List.nil_append, List.cons_append, bshapeR, hd, bdim_self,
    Option.bind_some, Option.map_some, Option.some.injEq, TensOf.mk.injEq, true_and]
  rw [prod4]
  apply List.map_congr_left
  intro i hi
  rw [List.mem_range] at hi
  have hfull := bidxR_self [ci, fw, fh, co] i (by rw [prod4]; exact hi)
  rw [hfull]
  have hci : 0 < ci := Nat.pos_of_ne_zero (by rintro rfl; simp at hi)
  have hfw : 0 < fw := Nat.pos_of_ne_zero (by rintro rfl; simp at hi)
  have hfh : 0 < fh := Nat.pos_of_ne_zero (by rintro rfl; simp at hi)
  have h1 : i / ci < co * fh * fw := (Nat.div_lt_iff_lt_mul hci).2 hi
  have h2 : i / ci / fw < co * fh := (Nat.div_lt_iff_lt_mul hfw).2 h1
  have h3 : i / ci / fw / fh < co := (Nat.div_lt_iff_lt_mul hfh).2 h2
  have e : bidxR [ci, fw, fh, co] [1, 1, 1, co] i = i / ci / fw / fh := by
    simp only [bidxR, if_true, Nat.zero_add, Nat.one_mul]
    generalize i / ci / fw / fh = q at *
    split
    · rename_i hco; omega
    · rw [Nat.mod_eq_of_lt h3]; omega
  rw [e]
  rfl

theorem ruleBitpackActivations_sound (same : Bool) : (ruleBitpackActivations same).Sound := by
  intro ins env c n t hd h _ _ v hv
  obtain ⟨nm, y, ty, yn, a, x, f, m, b, th, yty, ft, mt, bt, rfl, hl, hf, hm, hb, hth, hpad, hpv, rfl⟩ :=
    ruleBitpackActivations_inv h
  obtain ⟨vy, h1, h2, h3, h4⟩ := eval1 hv
  obtain ⟨vx, vf, vm, vb, vth, e1, e2, e3, e4, e5, he, hw, hty⟩ := eval5 (hd.val hl h1)
  have := hd.const hf e2
  subst this
  have := hd.const hm e3
  subst this
  have := hd.const hb e4
  subst this
  have := hd.const hth e5
  subst this
  simp only [Op.eval] at h2 he
  obtain ⟨xt, N, H, W, cin, co, fh, fw, ci, ws, p, hi, ho⟩ := bconv_some he
  have g := geom_some hi.geom
  rcases ho with ⟨hob, m', b', q1, q2, q3, q4, q5, q6⟩ | ⟨hob, t, q1, q2, q3⟩
  · simp only [Val.f.injEq] at q1 q2
    subst q1; subst q2; subst q6
    obtain ⟨_, rfl⟩ := lquant_f h2
    have wf' := wfF.1 (hd.wf _ _ e2)
    have wm := wfF.1 (hd.wf _ _ e3)
    have wb := wfF.1 (hd.wf _ _ e4)
    have hfs : ft.shape = [co, fh, fw, ci] := hi.fs
    rw [q4] at wm; rw [q5] at wb; rw [hfs] at wf'
    simp only [List.prod_cons, List.prod_nil, mul_one, ← mul_assoc] at wm wb wf'
    -- the signs of the new filter
    have hws : ft.data.all (fun x => x != 0) = true ∧ ws = ft.data.map signR := by
      have := hi.wsE
      simp only [Val.signs] at this
      split at this
      · rename_i h0
        exact ⟨h0, by simpa using this.symm⟩
      · cases this
    have hnz : ∀ i, i < co * fh * fw * ci → ft.data.getD i 0 ≠ 0 := by
      intro i hi'
      have h0 := List.all_eq_true.1 hws.1 _ (List.getElem_mem (l := ft.data) (n := i) (by omega))
      rw [getD_of_lt 0 (by omega)]
      simpa using h0
    have hsg : ∀ i, i < co * fh * fw * ci → (signsOf mt.data).getD (i / ci / fw / fh) 0 =
        (if 0 ≤ mt.data.getD (i / ci / fw / fh) 0 then 1 else -1) := by
      intro i hi'
      apply signsOf_getD
      have hci : 0 < ci := Nat.pos_of_ne_zero (by rintro rfl; simp at hi')
      have hfw : 0 < fw := Nat.pos_of_ne_zero (by rintro rfl; simp at hi')
      have hfh : 0 < fh := Nat.pos_of_ne_zero (by rintro rfl; simp at hi')
      have h1 : i / ci < co * fh * fw := (Nat.div_lt_iff_lt_mul hci).2 hi'
      have h2 : i / ci / fw < co * fh := (Nat.div_lt_iff_lt_mul hfw).2 h1
      have h3 : i / ci / fw / fh < co := (Nat.div_lt_iff_lt_mul hfh).2 h2
      omega
    let nf : Tens := ⟨[co, fh, fw, ci], (List.range (co * fh * fw * ci)).map fun i =>
      ft.data.getD i 0 * (signsOf mt.data).getD (i / ci / fw / fh) 0⟩
    have hmul : (Rhs.op (.bin .mul .none) none [.constF ft, .constF ⟨[mt.shape.getD 0 0, 1, 1, 1], signsOf mt.data⟩]).eval
        ins env = some (.f nf) := by
      rw [q4]
      refine rhs_op (evalL_cons (rhs_constF (hd.wf _ _ e2)) (evalL_cons (rhs_constF (wfF.2 ?_)) evalL_nil)) ?_
        (wfF.2 (by simp [nf, mul_assoc])) (Or.inl rfl)
      · simp [signsOf, wm]
      · simp only [Op.eval]
        exact bin_intro (by simp) (mul_signs hfs)
    have hsign : Val.signs (.f nf) = some (nf.data.map signR) := by
      simp only [Val.signs]
      rw [if_pos]
      rw [List.all_eq_true]
      intro u hu
      simp only [nf, List.mem_map, List.mem_range] at hu
      obtain ⟨i, hi', rfl⟩ := hu
      rw [hsg i hi']
      have := hnz i hi'
      split <;> simpa using this
    have hlen : (bitpackedThresholds id (ft.shape.getD 1 0) (ft.shape.getD 2 0) (ft.shape.getD 3 0) a.act mt.data
        bt.data).length = co := by
      unfold bitpackedThresholds
      simp [wm, wb]
    refine rhs_op (evalL_cons (rhs_var e1) (evalL_cons hmul (evalL_cons (rhs_const rfl) (evalL_cons (rhs_const rfl)
      (evalL_cons (rhs_const (wfI.2 (by rw [hlen, wm, wb]; simp))) evalL_nil))))) ?_ h3 h4
    refine bconv_intro (x := xt) (n := N) (h := H) (w := W) (cin := cin) (co := co) (fh := fh) (fw := fw) (ci := ci)
      (ws := nf.data.map signR) (p := p) ⟨hi.xE, hi.xs, rfl, hsign, hi.ok, hi.geom⟩
      (Or.inr ⟨rfl, _, rfl, by simp [wm, wb], ?_⟩)
    rw [mk4_map]
    refine congrArg Val.s (mk4_congr fun bb oy ox oc _ _ _ hoc => ?_)
    have hpad1 : (if a.padding = .same ∧ a.padValue = 0 then (0 : Rat) else 1) = 1 := by
      rw [if_neg]
      rintro ⟨z1, z2⟩
      rw [hpad] at z1; rw [hpv] at z2
      cases same <;> simp at z1 z2
    -- the new convolution is the old one times the sign of the multiplier
    have hcv : bcv { a with outBits := true } p xt (nf.data.map signR) fh fw ci bb oy ox oc =
        (if 0 ≤ mt.data.getD oc 0 then 1 else -1) * bcv a p xt ws fh fw ci bb oy ox oc := by
      unfold bcv
      rw [← convAt_scale]
      apply convAt_congr
      intro fy fx c' hfy hfx hc'
      rw [g.filtH] at hfy; rw [g.filtW] at hfx; rw [g.cinG] at hc'
      obtain ⟨i1, i2⟩ := idx4 hoc hfy hfx hc'
      have hw' : (nf.data.map signR).getD (((oc * fh + fy) * fw + fx) * ci + c') 0 =
          (if 0 ≤ mt.data.getD oc 0 then 1 else -1) * ws.getD (((oc * fh + fy) * fw + fx) * ci + c') 0 := by
        rw [hws.2, getD_of_lt (l := nf.data.map signR) 0 (by simpa [nf] using i1),
          getD_of_lt (l := ft.data.map signR) 0 (by simpa [wf'] using i1), List.getElem_map, List.getElem_map]
        simp only [nf, List.getElem_map, List.getElem_range]
        rw [hsg _ i1, i2, getD_of_lt (l := ft.data) 0 (by rw [wf']; exact i1)]
        apply signR_mul
        · have := hnz _ i1
          rw [getD_of_lt 0 (by rw [wf']; exact i1)] at this
          exact this
        · split <;> simp
      simp only
      split
      · rw [hw']
      · rw [hw']
    have hpm : SumPm (fh * (fw * (ci * 1))) (bcv { a with outBits := true } p xt (nf.data.map signR) fh fw ci bb oy ox oc) := by
      unfold bcv
      simp only [hpad1]
      have := convAt_pm (p := p) (x := fun k => bitVal (xt.data.getD k false))
        (wt := fun fy fx c oc => (nf.data.map signR).getD (((oc * fh + fy) * fw + fx) * ci + c) 0) (b := bb) (oy := oy)
        (ox := ox) (oc := oc) ?_ ?_
      · rw [g.filtH, g.filtW, g.cinG] at this
        exact this
      · intro k
        simp only [bitVal]
        split <;> simp
      · intro fy fx c' hfy hfx hc'
        rw [g.filtH] at hfy; rw [g.filtW] at hfx; rw [g.cinG] at hc'
        obtain ⟨i1, i2⟩ := idx4 hoc hfy hfx hc'
        rw [getD_of_lt 0 (by simpa [nf] using i1), List.getElem_map]
        unfold signR
        split <;> simp
    obtain ⟨A, hA0, hA1, hA2⟩ := hpm
    have hK : fh * (fw * (ci * 1)) = fh * fw * ci := by ring
    rw [hK] at hA1 hA2
    have hbt : (bitpackedThresholds id (ft.shape.getD 1 0) (ft.shape.getD 2 0) (ft.shape.getD 3 0) a.act mt.data
        bt.data).getD oc 0 =
        thresholdOf id ((fh * fw * ci : Nat) : Int) (thresholdClamp a.act ((fh * fw * ci : Nat) : Int)).1
          (thresholdClamp a.act ((fh * fw * ci : Nat) : Int)).2 (mt.data.getD oc 0) (bt.data.getD oc 0) := by
      simp only [hfs]
      rw [bitpackedThresholds_getD (by omega) (by omega)]
      rfl
    simp only
    rw [hbt, hA2]
    rw [hcv] at hA2
    have hcast : ((((fh * fw * ci : Nat) : Nat) : Rat) - (((fh * fw * ci : Nat) - 2 * A : Int) : Rat)) / 2 = (A : Rat) := by
      push_cast; ring
    rw [hcast, Bool.eq_iff_iff, decide_eq_true_eq, decide_eq_true_eq]
    -- the old convolution is an integer in the range
    obtain ⟨z, hz1, hz2, hz3⟩ : ∃ z : Int, bcv a p xt ws fh fw ci bb oy ox oc = z ∧
        -((fh * fw * ci : Nat) : Int) ≤ z ∧ z ≤ ((fh * fw * ci : Nat) : Int) := by
      by_cases hs : 0 ≤ mt.data.getD oc 0
      · rw [if_pos hs, one_mul] at hA2
        exact ⟨_, hA2, by omega, by omega⟩
      · rw [if_neg hs] at hA2
        refine ⟨-((fh * fw * ci : Nat) - 2 * A), ?_, by omega, by omega⟩
        push_cast at hA2 ⊢
        linarith
    obtain ⟨hlh, happ⟩ := thresholdClamp_apply a.act (a := ((fh * fw * ci : Nat) : Int)) (v := z) (by omega) hz2 hz3
    have hok := hi.ok.2.2
    have := thresholdOf_exact (a := (((fh * fw * ci : Nat) : Int) : Rat))
      (lo := ((thresholdClamp a.act ((fh * fw * ci : Nat) : Int)).1 : Rat))
      (hi := ((thresholdClamp a.act ((fh * fw * ci : Nat) : Int)).2 : Rat)) (mult := mt.data.getD oc 0)
      (bias := bt.data.getD oc 0) (by exact_mod_cast hlh) (x := A) hA0 (by omega) (v := (z : Rat))
      (by rw [hz1] at hA2; rw [mul_comm, hA2]; push_cast; ring)
    rw [hz1, Act.real_cast, ← happ]
    push_cast at this ⊢
    rw [← this]
    exact_mod_cast Iff.rfl
  · cases q1

end Verif.Ir
