import Verif.Proof.IrConv
import Verif.Props.Padding
import Verif.Props.BinaryFilter

/-! Soundness of the patterns of the preparation pass. -/

namespace Verif.Ir

open Finset

/-! ### Sign -/

theorem ruleSign_inv {swap : Bool} {c : Ctx} {n : Node} {t : Rhs} (h : (ruleSign swap).apply c n = some t) :
    ∃ nm s ty sn u v sty xn x xty, n = ⟨nm, .sign, [s], ty⟩ ∧ c.look s = some ⟨sn, .bin .add .none, [u, v], sty⟩ ∧
      c.look (if swap then v else u) = some ⟨xn, .sign, [x], xty⟩ ∧
      t = .op .ldequant ty [.op .lquant none [.var x]] := by
  unfold ruleSign at h
  simp only at h
  split at h
  · split at h
    · split at h
      · cases h
        rename_i h1 _ _ _ _ h2
        exact ⟨_, _, _, _, _, _, _, _, _, _, rfl, h1, h2, rfl⟩
      · cases h
    · cases h
  · cases h

theorem ruleSign_local (swap : Bool) : (ruleSign swap).Local := by
  intro c n t h x hx
  obtain ⟨nm, s, ty, sn, u, v, sty, xn, x', xty, rfl, h1, h2, rfl⟩ := ruleSign_inv h
  refine Or.inr ⟨_, _, h2, ?_⟩
  simpa [Rhs.vars, Rhs.varsL] using hx

theorem sign_some {v r : Val} (h : signEval [v] = some r) : ∃ x, v = .f x ∧ r = .f (x.map tfSign) := by
  cases v <;> simp only [signEval, reduceCtorEq, Option.some.injEq] at h
  exact ⟨_, rfl, h.symm⟩

theorem sign_add_small {x k : Rat} (h0 : 0 < k) (h1 : k < 1) : tfSign (tfSign x + k) = bitVal (decide (x < 0)) := by
  rcases tfSign_cases x with ⟨h, e⟩ | ⟨h, e⟩ | ⟨h, e⟩
  · rw [e]
    simp only [h, decide_true, bitVal, if_true]
    unfold tfSign
    rw [if_pos (by linarith)]
  · subst h
    rw [e]
    simp only [lt_self_iff_false, decide_false, bitVal, Bool.false_eq_true, if_false, zero_add]
    unfold tfSign
    rw [if_neg (by linarith), if_neg h0.ne']
  · rw [e]
    have : ¬ x < 0 := by linarith
    simp only [this, decide_false, bitVal, Bool.false_eq_true, if_false]
    unfold tfSign
    rw [if_neg (by linarith), if_neg (by intro h; linarith)]

/-- A sum with broadcasting whose result has the shape of the first operand. -/
theorem add_same_shape {x k r : Tens} {g : Rat → Rat} (hr : broadcastOp (fun a b => a + b) (x.map tfSign) k = some r)
    (hs : r.shape = x.shape) (hwx : x.data.length = x.shape.prod) (hwk : k.data.length = k.shape.prod)
    (hk : ∀ e ∈ k.data, 0 < e ∧ e < 1) (hg : ∀ a e, 0 < e → e < 1 → tfSign (tfSign a + e) = g a) :
    r.map tfSign = x.map g := by
  unfold broadcastOp broadcastG at hr
  rw [Option.map_eq_some_iff] at hr
  obtain ⟨rs, hrs, rfl⟩ := hr
  simp only at hs
  have hsh : rs = x.shape.reverse := by rw [← hs]; simp
  subst hsh
  unfold TensOf.map
  simp only [List.reverse_reverse, TensOf.mk.injEq, true_and, List.map_map]
  conv_rhs => rw [← range_map_getD x.data 0 (N := x.shape.reverse.prod) (by rw [hwx, List.prod_reverse])]
  rw [List.map_map]
  apply List.map_congr_left
  intro i hi
  rw [List.mem_range] at hi
  have hc := bidxR_lt (bshapeR_compat hrs).2 hi
  rw [List.prod_reverse] at hc
  simp only [Function.comp_apply]
  rw [bidxR_full _ _ hi, show (0 : Rat) = tfSign 0 by rfl, map_getD, ← show (0 : Rat) = tfSign 0 by rfl]
  have hm : k.data.getD (bidxR x.shape.reverse k.shape.reverse i) 0 ∈ k.data := by
    rw [getD_of_lt 0 (by rw [hwk]; exact hc)]
    exact List.getElem_mem _
  exact hg _ _ (hk _ hm).1 (hk _ hm).2

theorem broadcast_add_comm (x y : Tens) :
    broadcastOp (fun a b => a + b) x y = broadcastOp (fun a b => a + b) y x := by
  unfold broadcastOp broadcastG
  rw [bshapeR_comm]
  congr 1
  funext rs
  simp only [TensOf.mk.injEq, true_and]
  apply List.map_congr_left
  intro i _
  rw [add_comm]

theorem ruleSign_sound (swap : Bool) : (ruleSign swap).Sound := by
  intro ins env c n t hd h hex _ w hv
  obtain ⟨nm, s, ty, sn, u, v, sty, xn, x, xty, rfl, hl, hl2, rfl⟩ := ruleSign_inv h
  obtain ⟨vs, h1, h2, h3, h4⟩ := eval1 hv
  obtain ⟨vu, vv, h5, h6, h7, h8, _⟩ := eval2 (hd.val hl h1)
  simp only [Op.eval] at h2 h7
  obtain ⟨r, rfl, rfl⟩ := sign_some h2
  obtain ⟨tu, tv, r', rfl, rfl, _, hbr, e⟩ := bin_some h7
  cases e
  -- the side conditions
  unfold ruleSign at hex
  simp only [hl, hl2, Bool.not_eq_false', Bool.and_eq_true] at hex
  obtain ⟨⟨⟨hsome, hty⟩, hne⟩, hk⟩ := hex
  rw [Option.isSome_iff_exists] at hsome
  obtain ⟨sh, hsh⟩ := hsome
  rw [hsh] at hty hne
  simp only [beq_iff_eq] at hty
  simp only [bne_iff_ne, ne_eq, Option.some.injEq] at hne
  rw [← hty] at h4
  simp only [reduceCtorEq, Option.some.injEq, false_or] at h4
  rw [Option.any_eq_true] at hk
  obtain ⟨kv, hkv, hk⟩ := hk
  -- the operands
  obtain ⟨vx, tx, hx, hvx, ku, hku, hkall, hbr'⟩ : ∃ vx tx, env x = some vx ∧ vx = .f tx ∧ ∃ ku : Tens,
      (∃ z, env z = some (.f ku)) ∧
      (∀ e ∈ ku.data, 0 < e ∧ e < 1) ∧ broadcastOp (fun a b => a + b) (tx.map tfSign) ku = some r := by
    cases swap
    · simp only [Bool.false_eq_true, if_false] at hl2 hkv
      obtain ⟨vx, h9, h10, _, _⟩ := eval1 (hd.val hl2 h5)
      simp only [Op.eval] at h10
      obtain ⟨tx, rfl, e⟩ := sign_some h10
      cases e
      have := hd.const hkv h6
      subst this
      refine ⟨_, tx, h9, rfl, tv, ⟨_, h6⟩, ?_, hbr⟩
      simpa [List.all_eq_true] using hk
    · simp only [if_true] at hl2 hkv
      obtain ⟨vx, h9, h10, _, _⟩ := eval1 (hd.val hl2 h6)
      simp only [Op.eval] at h10
      obtain ⟨tx, rfl, e⟩ := sign_some h10
      cases e
      have := hd.const hkv h5
      subst this
      refine ⟨_, tx, h9, rfl, tu, ⟨_, h5⟩, ?_, ?_⟩
      · simpa [List.all_eq_true] using hk
      · rw [broadcast_add_comm]; exact hbr
  subst hvx
  obtain ⟨z, hz⟩ := hku
  have hxs : tx.shape = sh := hd.shape hsh hx
  have hrs : r.shape = tx.shape := by rw [hxs]; exact h4.symm
  have wx := wfF.1 (hd.wf _ _ hx)
  have heq := add_same_shape hbr' hrs wx (wfF.1 (hd.wf _ _ hz)) hkall
    (g := fun a => bitVal (decide (a < 0))) (fun a e h0 h1 => sign_add_small h0 h1)
  have hq : (Rhs.op .lquant none [.var x]).eval ins env = some (.s (tx.map fun u => decide (u < 0))) := by
    refine rhs_op (evalL_cons (rhs_var hx) evalL_nil) ?_ (wfS.2 (by rw [map_wf.1, map_wf.2, wx])) (Or.inl rfl)
    simp only [Op.eval, lquantEval]
    rw [if_neg (by rw [hxs]; exact hne)]
  refine rhs_op (evalL_cons hq evalL_nil) ?_ h3 (Or.inr ?_)
  · simp only [Op.eval, ldequantEval]
    rw [heq, map_map]
    rfl
  · rw [← hty, h4]

/-! ### Select -/

theorem ruleSelect_inv {neg : Bool} {c : Ctx} {n : Node} {t : Rhs} (h : (ruleSelect neg).apply c n = some t) :
    ∃ nm k x y shape xt yt, n = ⟨nm, .select, [k, x, y], some shape⟩ ∧ c.constOf x = some (.f xt) ∧
      c.constOf y = some (.f yt) ∧ isConstantValue xt.data (if neg then -1 else 1) = true ∧
      isConstantValue yt.data (if neg then 1 else -1) = true ∧
      t = .op .ldequant (some shape) [.op .lquant none [.op (.broadcastTo shape) none
            [if neg then .op .not none [.var k] else .var k]]] := by
  unfold ruleSelect at h
  simp only at h
  split at h
  · split at h
    · rename_i h1 h2
      simp only [Option.ite_none_right_eq_some, Option.some.injEq] at h
      obtain ⟨hc, rfl⟩ := h
      exact ⟨_, _, _, _, _, _, _, rfl, h1, h2, hc.1, hc.2, rfl⟩
    · cases h
  · cases h

theorem ruleSelect_local (neg : Bool) : (ruleSelect neg).Local := by
  intro c n t h x hx
  obtain ⟨nm, k, x', y, shape, xt, yt, rfl, _, _, _, _, rfl⟩ := ruleSelect_inv h
  refine Or.inl ?_
  cases neg <;> simp [Rhs.vars, Rhs.varsL] at hx ⊢ <;> exact Or.inl hx

theorem bshapeR_of_compat : ∀ {rs a : List Nat}, bcompat rs a → bshapeR a rs = some rs
  | rs, [], _ => rfl
  | [], _ :: _, h => h.elim
  | r :: rs, d :: a, h => by
    have hd : bdim d r = some r := by
      unfold bdim
      rcases h.1 with e | e
      · rw [if_pos e, e]
      · by_cases e' : d = r
        · rw [if_pos e', e']
        · rw [if_neg e', if_pos e]
    simp only [bshapeR, hd, Option.bind_some, bshapeR_of_compat h.2, Option.map_some]

theorem select_some {u v w r : Val} (h : selectEval [u, v, w] = some r) :
    ∃ c x y t, u = .b c ∧ v = .f x ∧ w = .f y ∧ selectV2 c x y = some t ∧ r = .f t := by
  cases u <;> cases v <;> cases w <;> simp only [selectEval, Option.map_eq_some_iff] at h <;> try cases h
  rename_i c x y t h
  exact ⟨c, x, y, t, rfl, rfl, rfl, h.1, h.2.symm⟩

theorem ruleSelect_sound (neg : Bool) : (ruleSelect neg).Sound := by
  intro ins env c n t hd h hex _ w hv
  obtain ⟨nm, k, x, y, shape, xt, yt, rfl, hx, hy, hxc, hyc, rfl⟩ := ruleSelect_inv h
  obtain ⟨vk, vx, vy, h1, h2, h3, h4, h5, h6⟩ := eval3 hv
  have := hd.const hx h2
  subst this
  have := hd.const hy h3
  subst this
  simp only [Op.eval] at h4
  obtain ⟨ct, xt', yt', r, rfl, e1, e2, hsel, rfl⟩ := select_some h4
  cases e1; cases e2
  simp only [reduceCtorEq, Option.some.injEq, false_or] at h6
  have hne : shape ≠ [] := by
    unfold ruleSelect at hex
    simpa using hex
  have wc := wfB.1 (hd.wf _ _ h1)
  have wx := wfF.1 (hd.wf _ _ h2)
  have wy := wfF.1 (hd.wf _ _ h3)
  unfold selectV2 at hsel
  simp only [Option.bind_eq_some_iff, Option.map_eq_some_iff] at hsel
  obtain ⟨s, hs1, rs, hrs, rfl⟩ := hsel
  obtain ⟨k1, k2⟩ := bshapeR_compat hs1
  obtain ⟨k3, k4⟩ := bshapeR_compat hrs
  have kc := bcompat_trans k3 k1
  have kx := bcompat_trans k3 k2
  simp only [Val.shape] at h6
  have hrs' : shape.reverse = rs := by rw [h6]; simp
  -- the condition given to BroadcastTo
  let ct' : TensOf Bool := if neg then ct.map (!·) else ct
  have hct : (if neg then Rhs.op .not none [.var k] else .var k : Rhs).eval ins env = some (.b ct') := by
    cases neg
    · exact rhs_var h1
    · exact rhs_op (evalL_cons (rhs_var h1) evalL_nil) rfl (wfB.2 (by simp [ct', TensOf.map, wc])) (Or.inl rfl)
  have hcs : ct'.shape = ct.shape := by
    simp only [ct']; split <;> rfl
  have hbt : (Rhs.op (.broadcastTo shape) none [if neg then .op .not none [.var k] else .var k]).eval ins env =
      some (.b (broadcastTo false ct' shape)) := by
    refine rhs_op (evalL_cons hct evalL_nil) ?_ (wfB.2 (by simp [broadcastTo])) (Or.inl rfl)
    simp only [Op.eval, broadcastToEval]
    rw [if_pos]
    rw [hcs, hrs']
    exact bshapeR_of_compat kc
  have hq : (Rhs.op .lquant none [.op (.broadcastTo shape) none [if neg then .op .not none [.var k] else .var k]]).eval ins
      env = some (.s ((broadcastTo false ct' shape).map fun u => !u)) := by
    refine rhs_op (evalL_cons hbt evalL_nil) ?_ (wfS.2 (by simp [broadcastTo, TensOf.map])) (Or.inl rfl)
    simp only [Op.eval, lquantEval]
    rw [if_neg (show ¬ (broadcastTo false ct' shape).shape = [] from hne)]
  refine rhs_op (evalL_cons hq evalL_nil) ?_ h5 (Or.inr (by rw [h6]; rfl))
  simp only [Op.eval, ldequantEval]
  refine congrArg (fun w => some (Val.f w)) ?_
  unfold TensOf.map broadcastTo
  simp only [List.map_map]
  rw [hrs', ← h6]
  refine congrArg (fun l => (⟨shape, l⟩ : Tens)) ?_
  rw [← List.prod_reverse shape, hrs']
  apply List.map_congr_left
  intro i hi
  rw [List.mem_range] at hi
  have ic := bidxR_lt kc hi
  have ix := bidxR_lt kx hi
  have iy := bidxR_lt k4 hi
  rw [List.prod_reverse] at ic ix iy
  simp only [Function.comp_apply]
  rw [isConst_getD hxc (by rw [wx]; exact ix), isConst_getD hyc (by rw [wy]; exact iy), hcs,
    getD_of_lt (l := ct.data) false (by rw [wc]; exact ic)]
  cases neg
  · simp only [Bool.false_eq_true, if_false, ct']
    rw [getD_of_lt (l := ct.data) false (by rw [wc]; exact ic)]
    cases ct.data[bidxR rs ct.shape.reverse i] <;> simp [bitVal]
  · simp only [if_true, ct', TensOf.map]
    rw [getD_of_lt (l := ct.data.map _) false (by rw [List.length_map, wc]; exact ic), List.getElem_map]
    cases ct.data[bidxR rs ct.shape.reverse i] <;> simp [bitVal]

/-! ### BroadcastTo -/

theorem ruleBroadcast_inv {c : Ctx} {n : Node} {t : Rhs} (h : ruleBroadcast.apply c n = some t) :
    ∃ nm shape x ty, n = ⟨nm, .broadcastTo shape, [x], ty⟩ ∧ c.shapeOf x = some shape ∧ t = .var x := by
  unfold ruleBroadcast at h
  simp only at h
  split at h
  · simp only [Option.ite_none_right_eq_some, Option.some.injEq] at h
    exact ⟨_, _, _, _, rfl, h.1, h.2.symm⟩
  · cases h

theorem ruleBroadcast_local : ruleBroadcast.Local := by
  intro c n t h x hx
  obtain ⟨nm, shape, y, ty, rfl, _, rfl⟩ := ruleBroadcast_inv h
  refine Or.inl ?_
  simpa [Rhs.vars, Rhs.varsL] using hx

theorem ruleBroadcast_sound : ruleBroadcast.Sound := by
  intro ins env c n t hd h _ _ v hv
  obtain ⟨nm, shape, y, ty, rfl, hs, rfl⟩ := ruleBroadcast_inv h
  obtain ⟨a, h1, h2, h3, h4⟩ := eval1 hv
  have ha := hd.shape hs h1
  have wa := hd.wf _ _ h1
  simp only [Op.eval] at h2
  cases a <;> simp only [broadcastToEval, reduceCtorEq] at h2
  rename_i ct
  simp only [Option.ite_none_right_eq_some, Option.some.injEq] at h2
  rw [← h2.2]
  rw [wfB] at wa
  simp only [Val.shape] at ha
  have : broadcastTo false ct shape = ct := by
    unfold broadcastTo
    rw [← ha]
    obtain ⟨sh, d⟩ := ct
    simp only at wa ⊢
    refine congrArg (fun l => (⟨sh, l⟩ : TensOf Bool)) ?_
    refine Eq.trans (List.map_congr_left fun i hi => ?_) (Eq.trans (congrArg (fun k => (List.range k).map fun i => d.getD i false) wa.symm) ?_)
    · rw [List.mem_range] at hi
      rw [bidxR_full _ _ (by rw [List.prod_reverse]; exact hi)]
    · exact range_map_getD d false rfl
  rw [this]
  exact rhs_var h1

/-! ### Convolutions -/

/-- A VALID convolution reads only the image. -/
theorem valid_reads {i f s d o fy : Nat} {out : Nat} (hs : 0 < s) (hf : fy < f)
    (ho : (out : Int) = computeOutSize .valid i f s d) (hlt : o < out) :
    0 ≤ (o : Int) * s - computePadding s d i f out + d * fy ∧ (o : Int) * s - computePadding s d i f out + d * fy < i ∧
      computePadding s d i f out = 0 ∧ effSize f d ≤ i := by
  unfold computeOutSize at ho
  simp only at ho
  have hpos : (0 : Int) < ((i : Int) + s - effSize f d).tdiv s := by omega
  have hnn : 0 ≤ (i : Int) + s - effSize f d := by
    by_contra hneg
    have h1 : ((i : Int) + s - effSize f d).tdiv s ≤ 0 := by
      have := Int.tdiv_nonneg (a := -((i : Int) + s - effSize f d)) (b := (s : Int)) (by omega) (by omega)
      rw [Int.neg_tdiv] at this
      omega
    omega
  rw [Int.tdiv_eq_ediv_of_nonneg hnn] at ho
  have h1 : (out : Int) * s ≤ (i : Int) + s - effSize f d := by
    rw [ho]; exact Int.ediv_mul_le _ (by omega)
  have hp : computePadding s d i f out = 0 := by
    unfold computePadding
    simp only
    have : ((out : Int) - 1) * s + effSize f d - i ≤ 0 := by
      have e : ((out : Int) - 1) * s = out * s - s := by ring
      rw [e]; omega
    rw [max_eq_right this]
    rfl
  rw [hp]
  have h2 : (o : Int) * s ≤ ((out : Int) - 1) * s := Int.mul_le_mul_of_nonneg_right (by omega) (by omega)
  have h3 : d * fy ≤ (f - 1) * d := by rw [Nat.mul_comm]; exact Nat.mul_le_mul_right _ (by omega)
  have h4 : ((d * fy : Nat) : Int) ≤ ((f - 1) * d : Nat) := by exact_mod_cast h3
  have e : ((out : Int) - 1) * s = out * s - s := by ring
  have e2 : effSize f d = (f - 1) * d + 1 := rfl
  push_cast at h4
  have h5 : (0 : Int) ≤ (o : Int) * s := by positivity
  have h6 : (0 : Int) ≤ (d : Int) * fy := by positivity
  have h7 : (s : Int) ≤ out * s := by
    have : (1 : Int) * s ≤ out * s := Int.mul_le_mul_of_nonneg_right (by omega) (by omega)
    omega
  refine ⟨by omega, ?_, rfl, by omega⟩
  rw [e2] at h1
  push_cast at h1 h4 ⊢
  omega

/-- What is needed of a filter: the scale of its channels is its magnitude. -/
theorem filter_facts {fh fw ci co : Nat} {fd : List Rat} (hpos : 0 < fh ∧ 0 < fw ∧ 0 < ci)
    (hb : isBinaryFilter fh fw ci co fd = true) (hm : sameMagnitudes fh fw ci co fd = true) :
    ∀ o, o < co → 0 < (scaleVector fw ci co fd).getD o 0 ∧ ∀ y x i, y < fh → x < fw → i < ci →
      fd.getD (((y * fw + x) * ci + i) * co + o) 0 =
        (scaleVector fw ci co fd).getD o 0 * signR (fd.getD (((y * fw + x) * ci + i) * co + o) 0) := by
  intro o ho
  rw [scaleVector_getD ho]
  have h0 := (isBinaryFilter_iff.1 hb) 0 0 0 o hpos.1 hpos.2.1 hpos.2.2 ho
  refine ⟨lt_trans (by norm_num [floatEpsilon]) h0.1, ?_⟩
  intro y x i hy hx hi
  unfold sameMagnitudes at hm
  rw [List.all_eq_true] at hm
  have hlt : ((y * fw + x) * ci + i) * co + o < fh * fw * ci * co := row_lt (row_lt (row_lt hy hx) hi) ho
  have := hm _ (List.mem_range.2 hlt)
  simp only [beq_iff_eq] at this
  rw [(div_mod_row ho).2] at this
  rw [← this]
  unfold signR
  split
  · rename_i h; rw [abs_of_neg h]; ring
  · rename_i h; rw [abs_of_nonneg (not_lt.1 h)]; ring

/-- Division of the filter by the scale, and transposition. -/
theorem prepared_filter {ins : List Val} {env : Env} {fh fw ci co : Nat} {fd : List Rat} (hpos : 0 < fh ∧ 0 < fw ∧ 0 < ci)
    (hb : isBinaryFilter fh fw ci co fd = true) (hm : sameMagnitudes fh fw ci co fd = true)
    (hw : fd.length = fh * fw * ci * co) :
    ∃ v ws, (Rhs.op .transpose none [.op (.bin .div .none) none [.constF ⟨[fh, fw, ci, co], fd⟩,
        .constF ⟨[co], scaleVector fw ci co fd⟩]]).eval ins env = some v ∧ v.shape = [co, fh, fw, ci] ∧
      v.signs = some ws ∧ ∀ o y x i, o < co → y < fh → x < fw → i < ci →
        ws.getD (((o * fh + y) * fw + x) * ci + i) 0 = signR (fd.getD (((y * fw + x) * ci + i) * co + o) 0) := by
  have hff := filter_facts hpos hb hm
  have hsl : (scaleVector fw ci co fd).length = co := by simp [scaleVector]
  have hpc : PerChannel co ⟨[co], scaleVector fw ci co fd⟩ := Or.inr (Or.inr rfl)
  have hch : ∀ o, o < co → chanVal co ⟨[co], scaleVector fw ci co fd⟩ o = (scaleVector fw ci co fd).getD o 0 := by
    intro o ho
    unfold chanVal
    by_cases h1 : co = 1
    · subst h1
      rw [if_neg (by simp)]
      congr 1
      omega
    · rw [if_pos ⟨rfl, h1⟩]
  let dv : Tens := ⟨[fh, fw, ci, co], (List.range [co, ci, fw, fh].prod).map fun n =>
    BinOp.div.fn (fd.getD n 0) (chanVal co ⟨[co], scaleVector fw ci co fd⟩ (n % co))⟩
  have hdv : (Rhs.op (.bin .div .none) none [.constF ⟨[fh, fw, ci, co], fd⟩, .constF ⟨[co], scaleVector fw ci co fd⟩]).eval
      ins env = some (.f dv) := by
    refine rhs_op (evalL_cons (rhs_constF (wfF.2 (by simp [hw, mul_assoc]))) (evalL_cons (rhs_constF (wfF.2 (by simp [hsl])))
      evalL_nil)) ?_ (wfF.2 ?_) (Or.inl rfl)
    · simp only [Op.eval]
      refine bin_intro ?_ (broadcast_chan hpc (rs := [ci, fw, fh]) (by rfl))
      intro _
      rw [List.all_eq_true]
      intro u hu
      simp only [scaleVector, List.mem_map, List.mem_range] at hu
      obtain ⟨o, ho, rfl⟩ := hu
      have := (hff o ho).1
      rw [scaleVector_getD ho] at this
      simpa using this.ne'
    · simp only [dv, List.length_map, List.length_range]
      rw [prod4]
      simp [mul_assoc]
  have hdg : ∀ o y x i, o < co → y < fh → x < fw → i < ci → dv.data.getD (((y * fw + x) * ci + i) * co + o) 0 =
      fd.getD (((y * fw + x) * ci + i) * co + o) 0 / (scaleVector fw ci co fd).getD o 0 := by
    intro o y x i ho hy hx hi
    have hlt : ((y * fw + x) * ci + i) * co + o < fh * fw * ci * co := row_lt (row_lt (row_lt hy hx) hi) ho
    simp only [dv]
    rw [range_getD (by rw [prod4]; exact hlt), (div_mod_row ho).2, hch o ho]
    rfl
  let tr : Tens := mk4 co fh fw ci fun o y k c => dv.data.getD (((y * fw + k) * ci + c) * co + o) 0
  have htr : ∀ o y x i, o < co → y < fh → x < fw → i < ci → tr.data.getD (((o * fh + y) * fw + x) * ci + i) 0 =
      fd.getD (((y * fw + x) * ci + i) * co + o) 0 / (scaleVector fw ci co fd).getD o 0 := by
    intro o y x i ho hy hx hi
    have hlt : ((o * fh + y) * fw + x) * ci + i < co * fh * fw * ci := row_lt (row_lt (row_lt ho hy) hx) hi
    simp only [tr, mk4]
    rw [range_getD hlt, (div_mod_row hi).1, (div_mod_row hi).2, (div_mod_row hx).1, (div_mod_row hx).2,
      (div_mod_row hy).1, (div_mod_row hy).2, hdg o y x i ho hy hx hi]
  have hnz : ∀ o y x i, o < co → y < fh → x < fw → i < ci →
      fd.getD (((y * fw + x) * ci + i) * co + o) 0 / (scaleVector fw ci co fd).getD o 0 ≠ 0 := by
    intro o y x i ho hy hx hi
    obtain ⟨h1, h2⟩ := hff o ho
    apply div_ne_zero _ h1.ne'
    rw [h2 y x i hy hx hi]
    apply mul_ne_zero h1.ne'
    unfold signR; split <;> norm_num
  refine ⟨.f tr, tr.data.map signR, ?_, rfl, ?_, ?_⟩
  · exact rhs_op (evalL_cons hdv evalL_nil) rfl (wfF.2 mk4_wf) (Or.inl rfl)
  · simp only [Val.signs]
    rw [if_pos]
    rw [List.all_eq_true]
    intro u hu
    obtain ⟨k, hk, rfl⟩ := List.getElem_of_mem hu
    have hk' : k < co * fh * fw * ci := by simpa [tr, mk4] using hk
    have hci : 0 < ci := hpos.2.2
    have h1 : k / ci < co * fh * fw := (Nat.div_lt_iff_lt_mul hci).2 hk'
    have h2 : k / ci / fw < co * fh := (Nat.div_lt_iff_lt_mul hpos.2.1).2 h1
    have h3 : k / ci / fw / fh < co := (Nat.div_lt_iff_lt_mul hpos.1).2 h2
    have e : ((k / ci / fw / fh * fh + k / ci / fw % fh) * fw + k / ci % fw) * ci + k % ci = k := by
      rw [Nat.div_add_mod', Nat.div_add_mod', Nat.div_add_mod']
    have := htr _ _ _ _ h3 (Nat.mod_lt (k / ci / fw) hpos.1) (Nat.mod_lt (k / ci) hpos.2.1) (Nat.mod_lt k hci)
    rw [e, getD_of_lt 0 hk] at this
    rw [this]
    simpa using hnz _ _ _ _ h3 (Nat.mod_lt (k / ci / fw) hpos.1) (Nat.mod_lt (k / ci) hpos.2.1) (Nat.mod_lt k hci)
  · intro o y x i ho hy hx hi
    have hlt : ((o * fh + y) * fw + x) * ci + i < tr.data.length := by
      simp only [tr, mk4, List.length_map, List.length_range]
      exact row_lt (row_lt (row_lt ho hy) hx) hi
    have := htr o y x i ho hy hx hi
    rw [getD_of_lt 0 hlt] at this
    rw [getD_of_lt 0 (by simpa using hlt), List.getElem_map, this]
    unfold signR
    have hs := (hff o ho).1
    by_cases h : fd.getD (((y * fw + x) * ci + i) * co + o) 0 < 0
    · rw [if_pos h, if_pos ((sign_div hs).2 h)]
    · rw [if_neg h, if_neg (fun h' => h ((sign_div hs).1 h'))]

theorem conv2d_some {a : ConvAttrs} {v w r : Val} (h : conv2dEval a [v, w] = some r) :
    ∃ x f n hh wd cin fh fw ci co p, v = .f x ∧ w = .f f ∧ x.shape = [n, hh, wd, cin] ∧ f.shape = [fh, fw, ci, co] ∧
      geom a 0 n hh wd cin co fh fw ci = some p ∧
      r = .f (mk4 n p.outH p.outW co
        (convAt p 0 (fun k => x.data.getD k 0) (fun fy fx c oc => f.data.getD (((fy * fw + fx) * ci + c) * co + oc) 0))) := by
  cases v <;> cases w <;> simp only [conv2dEval, reduceCtorEq] at h
  rename_i x f
  split at h
  · rename_i n hh wd cin fh fw ci co h1 h2
    rw [Option.map_eq_some_iff] at h
    obtain ⟨p, h3, h4⟩ := h
    exact ⟨x, f, n, hh, wd, cin, fh, fw, ci, co, p, rfl, rfl, h1, h2, h3, h4.symm⟩
  · cases h

theorem geom_padValue {a : ConvAttrs} {pv pv' n h w cin co fh fw ci : Nat} {p : BConv}
    (e : geom a pv n h w cin co fh fw ci = some p) :
    geom a pv' n h w cin co fh fw ci = some { p with padValue := pv' } := by
  unfold geom at e ⊢
  simp only at e ⊢
  split at e
  · rename_i hc
    rw [if_pos hc]
    simp only [Option.some.injEq] at e
    subst e
    rfl
  · cases e

theorem valid_shape {cin ci : Nat} (h : hasValidFilterShape cin ci = true) (hci : 0 < ci) (hc : 0 < cin) :
    ci = cin ∨ ci % 32 = 0 := by
  unfold hasValidFilterShape at h
  simp only [ne_eq, ite_not] at h
  split at h
  · rename_i hm
    split at h
    · cases h
    · rename_i hg
      by_cases h32 : ci % 32 = 0
      · exact Or.inr h32
      · left
        obtain ⟨k, hk⟩ := Nat.dvd_of_mod_eq_zero hm
        have : ¬ cin / ci > 1 := fun hgt => hg ⟨hgt, h32⟩
        rw [hk, Nat.mul_div_cancel_left _ hci] at this
        have hk0 : 0 < k := Nat.pos_of_ne_zero (by rintro rfl; omega)
        have : k = 1 := by omega
        rw [hk, this]; omega
  · cases h

theorem rulePrepare_inv {same : Bool} {c : Ctx} {n : Node} {t : Rhs} (h : (rulePrepare same).apply c n = some t) :
    ∃ nm a y f ty yn x d0 d1 d2 cin fh fw ci co fd, n = ⟨nm, .conv2d a, [y, f], ty⟩ ∧
      c.look y = some ⟨yn, .ldequant, [x], some [d0, d1, d2, cin]⟩ ∧ c.constOf f = some (.f ⟨[fh, fw, ci, co], fd⟩) ∧
      a.padding = (if same then .same else .valid) ∧ isBinaryFilter fh fw ci co fd = true ∧
      hasValidFilterShape cin ci = true ∧ t = prepared a 0 cin ty x fh fw ci co fd := by
  unfold rulePrepare at h
  simp only at h
  split at h
  · split at h
    · rename_i h1 h2
      simp only [Option.ite_none_right_eq_some, Option.some.injEq] at h
      obtain ⟨hc, rfl⟩ := h
      exact ⟨_, _, _, _, _, _, _, _, _, _, _, _, _, _, _, _, rfl, h1, h2, hc.1, hc.2.1, hc.2.2, rfl⟩
    · cases h
  · cases h

theorem prepared_vars {a : ConvAttrs} {pv cin : Nat} {ty : Option (List Nat)} {x fh fw ci co : Nat} {fd : List Rat} :
    (prepared a pv cin ty x fh fw ci co fd).vars = [x] := by
  simp [prepared, Rhs.vars, Rhs.varsL, Rhs.constF]

theorem rulePrepare_local (same : Bool) : (rulePrepare same).Local := by
  intro c n t h x hx
  obtain ⟨nm, a, y, f, ty, yn, x', d0, d1, d2, cin, fh, fw, ci, co, fd, rfl, h1, _, _, _, _, rfl⟩ := rulePrepare_inv h
  rw [prepared_vars] at hx
  exact Or.inr ⟨y, _, h1, hx⟩

/-- The value of the new BConv2D. -/
theorem prepared_eval {ins : List Val} {env : Env} {a : ConvAttrs} {pv : Nat} {ty : Option (List Nat)}
    {x n h w cin fh fw ci co : Nat} {fd : List Rat} {xt : TensOf Bool} {p : BConv} {v : Val}
    (hx : env x = some (.s xt)) (hxs : xt.shape = [n, h, w, cin]) (hp : geom a pv n h w cin co fh fw ci = some p)
    (hb : isBinaryFilter fh fw ci co fd = true) (hm : sameMagnitudes fh fw ci co fd = true)
    (hK : 2 * (fh * fw * ci) < 2147483648) (hvs : hasValidFilterShape cin ci = true)
    (hw : fd.length = fh * fw * ci * co) (hvw : v.wf = true) (hty : ty = none ∨ ty = some v.shape)
    (hv : v = .f (mk4 n p.outH p.outW co fun b oy ox oc =>
      convAt p (if a.padding = .same ∧ pv = 0 then 0 else 1) (fun k => bitVal (xt.data.getD k false))
        (fun fy fx c oc => fd.getD (((fy * fw + fx) * ci + c) * co + oc) 0) b oy ox oc)) :
    (prepared a pv cin ty x fh fw ci co fd).eval ins env = some v := by
  have g := geom_some hp
  have hpos : 0 < fh ∧ 0 < fw ∧ 0 < ci := ⟨g.pos.2.2.2.2.1, g.pos.2.2.2.2.2.1, g.pos.2.2.2.2.2.2.1⟩
  obtain ⟨vf, ws, hf, hfs, hsg, hws⟩ := prepared_filter (ins := ins) (env := env) hpos hb hm hw
  have hff := filter_facts hpos hb hm
  have hsl : (scaleVector fw ci co fd).length = co := by simp [scaleVector]
  unfold prepared
  refine rhs_op (evalL_cons (rhs_var hx) (evalL_cons hf (evalL_cons (rhs_constF (wfF.2 (by simp [hsl])))
    (evalL_cons (rhs_constF (wfF.2 (by simp))) (evalL_cons (rhs_const rfl) evalL_nil))))) ?_ hvw hty
  refine bconv_intro (x := xt) (n := n) (h := h) (w := w) (cin := cin) (co := co) (fh := fh) (fw := fw) (ci := ci)
    (ws := ws) (p := p) ⟨rfl, hxs, hfs, hsg, ⟨rfl, valid_shape hvs hpos.2.2 g.pos.2.2.2.2.2.2.2, hK⟩, hp⟩
    (Or.inl ⟨rfl, _, _, rfl, rfl, rfl, rfl, rfl, ?_⟩)
  rw [hv]
  refine congrArg Val.f (mk4_congr fun b oy ox oc _ _ _ hoc => ?_)
  simp only [Act.real]
  have e0 : (List.replicate co (0 : Rat)).getD oc 0 = 0 := by simp [hoc]
  rw [e0, add_zero, mul_comm]
  unfold bcv
  rw [← convAt_scale]
  apply convAt_congr
  intro fy fx c hfy hfx hc
  rw [g.filtH] at hfy; rw [g.filtW] at hfx; rw [g.cinG] at hc
  have h1 := (hff oc hoc).2 fy fx c hfy hfx hc
  have h2 := hws oc fy fx c hoc hfy hfx hc
  simp only
  split
  · rw [h2]; rw [← h1]
  · rw [h2]; rw [← h1]

theorem rulePrepare_sound (same : Bool) : (rulePrepare same).Sound := by
  intro ins env c n t hd h hex _ v hv
  obtain ⟨nm, a, y, f, ty, yn, x, d0, d1, d2, cin, fh, fw, ci, co, fd, rfl, hl, hf, hpad, hb, hvs, rfl⟩ := rulePrepare_inv h
  obtain ⟨vy, vf, h1, h2, h3, h4, h5⟩ := eval2 hv
  obtain ⟨vx, h6, h7, h8, h9⟩ := eval1 (hd.val hl h1)
  have := hd.const hf h2
  subst this
  simp only [Op.eval] at h3 h7
  obtain ⟨xt, rfl, rfl⟩ := ldequant_some h7
  obtain ⟨xx, ff, N, H, W, cin', fh', fw', ci', co', p, e1, e2, hxs, hfs, hp, rfl⟩ := conv2d_some h3
  cases e1; cases e2
  simp only [List.cons.injEq, and_true] at hfs
  obtain ⟨rfl, rfl, rfl, rfl⟩ := hfs
  have hxs' : xt.shape = [N, H, W, cin'] := hxs
  simp only [reduceCtorEq, Option.some.injEq, Val.shape, TensOf.map, false_or] at h9
  rw [hxs'] at h9
  simp only [List.cons.injEq, and_true] at h9
  obtain ⟨_, _, _, rfl⟩ := h9
  unfold rulePrepare at hex
  simp only [hf, Bool.or_eq_false_iff, Bool.not_eq_false', decide_eq_true_eq] at hex
  have g := geom_some hp
  have wf' := wfF.1 (hd.wf _ _ h2)
  simp only [List.prod_cons, List.prod_nil, mul_one, ← mul_assoc] at wf'
  have wx := wfS.1 (hd.wf _ _ h6)
  rw [hxs'] at wx
  simp only [List.prod_cons, List.prod_nil, mul_one, ← mul_assoc] at wx
  refine prepared_eval h6 hxs' hp hb hex.1 hex.2 hvs wf' h4 h5 ?_
  refine congrArg Val.f (mk4_congr fun b oy ox oc hbb hoy hox hoc => ?_)
  apply convAt_congr
  intro fy fx cc hfy hfx hcc
  simp only
  split
  · rename_i hin
    refine congrArg (· * _) ?_
    have hlt : ((b * p.inH + ((oy : Int) * p.strideH - p.padH + p.dilH * fy).toNat) * p.inW +
        ((ox : Int) * p.strideW - p.padW + p.dilW * fx).toNat) * p.cin + (oc / (p.cout / p.groups) * p.cinG + cc) <
        xt.data.length := by
      rw [wx]
      have hch := g.chan_lt hoc hcc
      have := row_lt (row_lt (row_lt hbb (show ((oy : Int) * p.strideH - p.padH + p.dilH * fy).toNat < p.inH by omega))
        (show ((ox : Int) * p.strideW - p.padW + p.dilW * fx).toNat < p.inW by omega)) hch
      rw [g.inH, g.inW, g.cinE] at this ⊢
      exact this
    simp only [TensOf.map]
    rw [getD_of_lt 0 (by rw [List.length_map]; exact hlt), List.getElem_map, getD_of_lt false hlt]
  · rename_i hout
    cases same
    · simp only [Bool.false_eq_true, if_false] at hpad
      exfalso
      apply hout
      have hH := g.outH
      have hW := g.outW
      rw [hpad] at hH hW
      have r1 := valid_reads g.pos.1 (by rw [g.filtH] at hfy; exact hfy) hH hoy
      have r2 := valid_reads g.pos.2.1 (by rw [g.filtW] at hfx; exact hfx) hW hox
      rw [g.padH, g.padW, g.strideH, g.strideW, g.dilH, g.dilW, g.inH, g.inW]
      exact ⟨r1.1, r1.2.1, r2.1, r2.2.1⟩
    · simp only [if_true] at hpad
      rw [if_pos ⟨hpad, trivial⟩]

/-! ### Padding -/

theorem rulePadConv_inv {c : Ctx} {n : Node} {t : Rhs} (h : rulePadConv.apply c n = some t) :
    ∃ nm a z f oshape zn y pd pv zty fh fw ci co fd yn x d0 d1 d2 cin pt vt pads ishape,
      n = ⟨nm, .conv2d a, [z, f], some oshape⟩ ∧ c.look z = some ⟨zn, .pad, [y, pd, pv], zty⟩ ∧
      c.constOf f = some (.f ⟨[fh, fw, ci, co], fd⟩) ∧ c.look y = some ⟨yn, .ldequant, [x], some [d0, d1, d2, cin]⟩ ∧
      c.constOf pd = some (.i pt) ∧ c.constOf pv = some (.f vt) ∧ padsOf pt = some pads ∧ c.shapeOf x = some ishape ∧
      a.padding = .valid ∧ isBinaryFilter fh fw ci co fd = true ∧ vt.data = [1] ∧
      isSamePadding pads (ishape.map fun d => (d : Int)) (oshape.map fun d => (d : Int)) a.strideH a.strideW = true ∧
      hasValidFilterShape cin ci = true ∧
      t = prepared { a with padding := .same } 1 cin (some oshape) x fh fw ci co fd := by
  unfold rulePadConv at h
  simp only at h
  split at h
  · split at h
    · split at h
      · split at h
        · rename_i h1 h2 _ _ _ _ _ _ _ _ _ _ _ h3 h4 h5 _ _ _ _ h6 h7
          simp only [Option.ite_none_right_eq_some, Option.some.injEq] at h
          obtain ⟨hc, rfl⟩ := h
          exact ⟨_, _, _, _, _, _, _, _, _, _, _, _, _, _, _, _, _, _, _, _, _, _, _, _, _, rfl, h1, h2, h3, h4, h5, h6, h7,
            hc.1, hc.2.1, hc.2.2.1, hc.2.2.2.1, hc.2.2.2.2, rfl⟩
        · cases h
      · cases h
    · cases h
  · cases h

theorem rulePadConv_local : rulePadConv.Local := by
  intro c n t h x hx
  obtain ⟨nm, a, z, f, oshape, zn, y, pd, pv, zty, fh, fw, ci, co, fd, yn, x', d0, d1, d2, cin, pt, vt, pads, ishape,
    rfl, h1, h2, h3, _, _, _, _, _, _, _, _, _, rfl⟩ := rulePadConv_inv h
  rw [prepared_vars] at hx
  exact Or.inr ⟨y, _, h3, hx⟩

theorem mk4_getD {n h w c : Nat} {g : Nat → Nat → Nat → Nat → Rat} {b y x k : Nat} (hb : b < n) (hy : y < h)
    (hx : x < w) (hk : k < c) : (mk4 n h w c g).data.getD (((b * h + y) * w + x) * c + k) 0 = g b y x k := by
  unfold mk4
  rw [range_getD (row_lt (row_lt (row_lt hb hy) hx) hk), (div_mod_row hk).1, (div_mod_row hk).2, (div_mod_row hx).1,
    (div_mod_row hx).2, (div_mod_row hy).1, (div_mod_row hy).2]

/-- One dimension of a padded VALID convolution that the check accepts. -/
theorem pad_dim {pad : Nat × Nat} {n out f s d : Nat} (hs : 0 < s) (hn : n + s < 2147483648) (ho : out < 2147483648)
    (hval : (out : Int) = computeOutSize .valid (pad.1 + n + pad.2) f s d)
    (hsame : isSamePadding1D pad n out s = true) (hst : s = 1 ∨ pad.1 = computePadding s d n f out) :
    (out : Int) = computeOutSize .same n f s d ∧
      ∀ o fy, o < out → fy < f → ∃ i : Nat, i < pad.1 + n + pad.2 ∧
        (o : Int) * s - computePadding s d (pad.1 + n + pad.2) f out + d * fy = i ∧
        (o : Int) * s - computePadding s d n f out + d * fy = (i : Int) - pad.1 := by
  have hall := hsame
  unfold isSamePadding1D at hsame
  simp only [Bool.and_eq_true, decide_eq_true_eq] at hsame
  obtain ⟨⟨h1, _⟩, _⟩ := hsame
  rw [toCInt_eq ho, toCInt_eq (by omega)] at h1
  refine ⟨h1, ?_⟩
  intro o fy hlt hfy
  obtain ⟨r1, r2, r3, r4⟩ := valid_reads hs hfy hval hlt
  have hpad : computePadding s d n f out = pad.1 := by
    rcases hst with h | h
    · have hv : IsValidOut n pad.1 pad.2 f s d out := by
        unfold IsValidOut
        have e : n + pad.1 + pad.2 = pad.1 + n + pad.2 := by omega
        rw [e]
        exact ⟨r4, hval⟩
      obtain ⟨_, q2, q3, q4⟩ := isSame1D_facts hs hn ho hv hall
      exact (same_pad_iff hs q2 q3 q4).1 h
    · exact h.symm
  rw [r3] at r1 r2 ⊢
  rw [hpad]
  refine ⟨((o : Int) * s - (0 : Nat) + d * fy).toNat, by omega, by omega, by omega⟩

theorem padCore_some {x : Tens} {p : TensOf Int} {e : Rat} {r : Val} (h : padCore x p e = some r) :
    ∃ n hh wd c n0 n1 h0 h1 w0 w1 c0 c1, x.shape = [n, hh, wd, c] ∧
      p.data = [n0, n1, h0, h1, w0, w1, c0, c1] ∧
      (0 ≤ n0 ∧ 0 ≤ n1 ∧ 0 ≤ h0 ∧ 0 ≤ h1 ∧ 0 ≤ w0 ∧ 0 ≤ w1 ∧ 0 ≤ c0 ∧ 0 ≤ c1 ∧ p.shape = [4, 2]) ∧
      r = .f (mk4 (n0.toNat + n + n1.toNat) (h0.toNat + hh + h1.toNat) (w0.toNat + wd + w1.toNat)
          (c0.toNat + c + c1.toNat) fun b y z k =>
            if n0.toNat ≤ b ∧ b < n0.toNat + n ∧ h0.toNat ≤ y ∧ y < h0.toNat + hh ∧ w0.toNat ≤ z ∧ z < w0.toNat + wd ∧
                c0.toNat ≤ k ∧ k < c0.toNat + c then
              x.data.getD ((((b - n0.toNat) * hh + (y - h0.toNat)) * wd + (z - w0.toNat)) * c + (k - c0.toNat)) 0
            else e) := by
  unfold padCore at h
  split at h
  · rename_i n hh wd c n0 n1 h0 h1 w0 w1 c0 c1 q1 q2
    simp only [Option.ite_none_right_eq_some, Option.some.injEq] at h
    exact ⟨n, hh, wd, c, n0, n1, h0, h1, w0, w1, c0, c1, q1, q2, h.1, h.2.symm⟩
  · cases h

theorem pad_some {u v w r : Val} (h : padEval [u, v, w] = some r) :
    ∃ x p pv e, u = .f x ∧ v = .i p ∧ w = .f pv ∧ pv.data = [e] ∧ padCore x p e = some r := by
  cases u <;> cases v <;> cases w <;> simp only [padEval, reduceCtorEq] at h
  rename_i x p pv
  split at h
  · rename_i e q
    exact ⟨x, p, pv, e, rfl, rfl, rfl, q, h⟩
  · cases h

theorem pad0_some {u v r : Val} (h : padEval [u, v] = some r) :
    ∃ x p, u = .f x ∧ v = .i p ∧ padCore x p 0 = some r := by
  cases u <;> cases v <;> simp only [padEval, reduceCtorEq] at h
  exact ⟨_, _, rfl, rfl, h⟩

/-- A VALID convolution of a padded image is the SAME convolution of the image. -/
theorem padded_conv {a : ConvAttrs} {pv N H W cin co fh fw ci : Nat} {ph pw : Nat × Nat} {p q : BConv} {e : Rat}
    {xd : List Rat} {img : Nat → Rat} {wt : Nat → Nat → Nat → Nat → Rat} {b oy ox oc : Nat}
    (gp : Geo a 0 N (ph.1 + H + ph.2) (pw.1 + W + pw.2) cin co fh fw ci p)
    (gq : Geo { a with padding := .same } pv N H W cin co fh fw ci q)
    (hH : ∀ o fy, o < p.outH → fy < fh → ∃ i : Nat, i < ph.1 + H + ph.2 ∧
        (o : Int) * a.strideH - p.padH + a.dilH * fy = i ∧
        (o : Int) * a.strideH - q.padH + a.dilH * fy = (i : Int) - ph.1)
    (hW : ∀ o fy, o < p.outW → fy < fw → ∃ i : Nat, i < pw.1 + W + pw.2 ∧
        (o : Int) * a.strideW - p.padW + a.dilW * fy = i ∧
        (o : Int) * a.strideW - q.padW + a.dilW * fy = (i : Int) - pw.1)
    (himg : ∀ k, k < N * H * W * cin → img k = xd.getD k 0) (hb : b < N) (hoy : oy < p.outH) (hox : ox < p.outW)
    (hoc : oc < co) :
    convAt p 0 (fun k => (mk4 N (ph.1 + H + ph.2) (pw.1 + W + pw.2) cin fun b y z k =>
        if ph.1 ≤ y ∧ y < ph.1 + H ∧ pw.1 ≤ z ∧ z < pw.1 + W then
          xd.getD (((b * H + (y - ph.1)) * W + (z - pw.1)) * cin + k) 0 else e).data.getD k 0)
      wt b oy ox oc = convAt q e img wt b oy ox oc := by
  unfold convAt
  have e1 : q.filtH = p.filtH := by rw [gp.filtH, gq.filtH]
  have e2 : q.filtW = p.filtW := by rw [gp.filtW, gq.filtW]
  have e3 : q.cinG = p.cinG := by rw [gp.cinG, gq.cinG]
  rw [e1, e2, e3]
  refine sum_congr rfl fun fy hfy => sum_congr rfl fun fx hfx => sum_congr rfl fun c hc => ?_
  rw [mem_range] at hfy hfx hc
  rw [gp.filtH] at hfy; rw [gp.filtW] at hfx
  refine congrArg (· * _) ?_
  obtain ⟨i, hi, i1, i2⟩ := hH oy fy hoy hfy
  obtain ⟨j, hj, j1, j2⟩ := hW ox fx hox hfx
  have hch := gp.chan_lt hoc hc
  simp only
  have eg : q.groups = p.groups := by rw [gp.groups, gq.groups]
  have ec : q.cout = p.cout := by rw [gp.cout, gq.cout]
  rw [eg, ec]
  generalize oc / (p.cout / p.groups) * p.cinG + c = ch at hch ⊢
  rw [gq.strideH, gq.strideW, gq.dilH, gq.dilW, gq.inH, gq.inW, gq.cinE, gp.strideH, gp.strideW, gp.dilH, gp.dilW, gp.inH,
    gp.inW, gp.cinE]
  rw [gp.cinE] at hch
  simp only
  rw [i1, i2, j1, j2]
  rw [if_pos ⟨by omega, by omega, by omega, by omega⟩, Int.toNat_natCast, Int.toNat_natCast,
    mk4_getD hb hi hj hch]
  by_cases hin : ph.1 ≤ i ∧ i < ph.1 + H ∧ pw.1 ≤ j ∧ j < pw.1 + W
  · rw [if_pos hin, if_pos ⟨by omega, by omega, by omega, by omega⟩]
    have t1 : ((i : Int) - ph.1).toNat = i - ph.1 := by omega
    have t2 : ((j : Int) - pw.1).toNat = j - pw.1 := by omega
    rw [t1, t2]
    exact (himg _ (row_lt (row_lt (row_lt hb (by omega)) (by omega)) hch)).symm
  · rw [if_neg hin, if_neg (by omega)]

/-- No padding of batch and channels. -/
theorem padded_mk4 {n0 n1 c0 c1 N H W C h0 h1 w0 w1 : Nat} {xd : List Rat} {e : Rat} (z1 : n0 = 0) (z2 : n1 = 0) (z3 : c0 = 0)
    (z4 : c1 = 0) :
    (mk4 (n0 + N + n1) (h0 + H + h1) (w0 + W + w1) (c0 + C + c1) fun b y z k =>
      if n0 ≤ b ∧ b < n0 + N ∧ h0 ≤ y ∧ y < h0 + H ∧ w0 ≤ z ∧ z < w0 + W ∧ c0 ≤ k ∧ k < c0 + C then
        xd.getD ((((b - n0) * H + (y - h0)) * W + (z - w0)) * C + (k - c0)) 0 else e) =
    (mk4 N (h0 + H + h1) (w0 + W + w1) C fun b y z k =>
      if h0 ≤ y ∧ y < h0 + H ∧ w0 ≤ z ∧ z < w0 + W then
        xd.getD (((b * H + (y - h0)) * W + (z - w0)) * C + k) 0 else e) := by
  rw [z1, z2, z3, z4, Nat.zero_add, Nat.zero_add, Nat.add_zero, Nat.add_zero]
  refine mk4_congr fun b y z k hb hy hz hk => ?_
  by_cases hin : h0 ≤ y ∧ y < h0 + H ∧ w0 ≤ z ∧ z < w0 + W
  · rw [if_pos hin, if_pos ⟨by omega, by omega, hin.1, hin.2.1, hin.2.2.1, hin.2.2.2, by omega, by omega⟩]
    rfl
  · rw [if_neg hin, if_neg (by omega)]

theorem rulePadConv_sound : rulePadConv.Sound := by
  intro ins env c n t hd h hex _ v hv
  obtain ⟨nm, a, z, f, oshape, zn, y, pd, pv, zty, fh, fw, ci, co, fd, yn, x, d0, d1, d2, cin, pt, vt, pads, ishape,
    rfl, hlz, hf, hly, hpd, hpv, hpads, hish, hpad, hb, hone, hsame, hvs, rfl⟩ := rulePadConv_inv h
  obtain ⟨vz, vf, h1, h2, h3, h4, h5⟩ := eval2 hv
  obtain ⟨vy, vpd, vpv, k1, k2, k3, k4, k5, k6⟩ := eval3 (hd.val hlz h1)
  obtain ⟨vx, m1, m2, m3, m4⟩ := eval1 (hd.val hly k1)
  have := hd.const hf h2
  subst this
  have := hd.const hpd k2
  subst this
  have := hd.const hpv k3
  subst this
  simp only [Op.eval] at h3 k4 m2
  obtain ⟨xt, rfl, rfl⟩ := ldequant_some m2
  obtain ⟨x', p', pv', e, e1, e2, e3, hpvd, k7⟩ := pad_some k4
  cases e1; cases e2; cases e3
  obtain ⟨N, H, W, C, n0, n1, ph0, ph1, pw0, pw1, c0, c1, hxs, hpdat, hnn, rfl⟩ := padCore_some k7
  obtain ⟨xx, ff, N', H', W', cin', fh', fw', ci', co', p, e1, e2, hzs, hfs, hp, rfl⟩ := conv2d_some h3
  cases e1; cases e2
  rw [hone] at hpvd
  simp only [List.cons.injEq, and_true] at hpvd
  subst hpvd
  simp only [List.cons.injEq, and_true] at hfs
  obtain ⟨rfl, rfl, rfl, rfl⟩ := hfs
  have hxs' : xt.shape = [N, H, W, C] := hxs
  simp only [reduceCtorEq, Option.some.injEq, Val.shape, TensOf.map, false_or] at m4
  rw [hxs'] at m4
  simp only [List.cons.injEq, and_true] at m4
  obtain ⟨_, _, _, rfl⟩ := m4
  -- the paddings
  have hpads' : pads = ⟨(n0.toNat, n1.toNat), (ph0.toNat, ph1.toNat), (pw0.toNat, pw1.toNat), (c0.toNat, c1.toNat)⟩ := by
    unfold padsOf at hpads
    rw [hnn.2.2.2.2.2.2.2.2, hpdat] at hpads
    simp only [Option.ite_none_right_eq_some, Option.some.injEq] at hpads
    exact hpads.2.symm
  have hish' := hd.shape hish m1
  simp only [Val.shape] at hish'
  rw [hxs'] at hish'
  subst hish'
  simp only [reduceCtorEq, Option.some.injEq, Val.shape, false_or] at h5
  have h5' : oshape = [N', p.outH, p.outW, co] := h5
  subst h5'
  subst hpads'
  unfold rulePadConv at hex
  simp only [hlz, hf, hly, hpd, hpads, hish, Bool.not_eq_false', Bool.and_eq_true, decide_eq_true_eq] at hex
  obtain ⟨hmag, hK, hsH, hsW, hb1, hb2, hb3, hb4⟩ := hex
  replace hsame : (isNoPadding (n0.toNat, n1.toNat) &&
      isSamePadding1D (ph0.toNat, ph1.toNat) (H : Int) (p.outH : Int) (a.strideH : Int) &&
      isSamePadding1D (pw0.toNat, pw1.toNat) (W : Int) (p.outW : Int) (a.strideW : Int) &&
      isNoPadding (c0.toNat, c1.toNat)) = true := hsame
  simp only [Bool.and_eq_true] at hsame
  obtain ⟨⟨⟨hn0, hsame1⟩, hsame2⟩, hc0⟩ := hsame
  unfold isNoPadding at hn0 hc0
  simp only [Bool.and_eq_true, decide_eq_true_eq] at hn0 hc0
  obtain ⟨z1, z2⟩ := hn0
  obtain ⟨z3, z4⟩ := hc0
  have hzs' : [n0.toNat + N + n1.toNat, ph0.toNat + H + ph1.toNat, pw0.toNat + W + pw1.toNat, c0.toNat + cin + c1.toNat] =
      [N', H', W', cin'] := hzs
  simp only [List.cons.injEq, and_true] at hzs'
  obtain ⟨q1, q2, q3, q4⟩ := hzs'
  rw [z1, z2, Nat.zero_add, Nat.add_zero] at q1
  rw [z3, z4, Nat.zero_add, Nat.add_zero] at q4
  subst q1; subst q2; subst q3; subst q4
  have g := geom_some hp
  obtain ⟨s1, s2⟩ := pad_dim (pad := (ph0.toNat, ph1.toNat)) (n := H) (out := p.outH) (f := fh) (s := a.strideH) (d := a.dilH)
    g.pos.1 hb1 hb3 (by have := g.outH; rw [hpad] at this; exact this) hsame1 hsH
  obtain ⟨s3, s4⟩ := pad_dim (pad := (pw0.toNat, pw1.toNat)) (n := W) (out := p.outW) (f := fw) (s := a.strideW) (d := a.dilW)
    g.pos.2.1 hb2 hb4 (by have := g.outW; rw [hpad] at this; exact this) hsame2 hsW
  have wf' := wfF.1 (hd.wf _ _ h2)
  simp only [List.prod_cons, List.prod_nil, mul_one, ← mul_assoc] at wf'
  have wx := wfS.1 (hd.wf _ _ m1)
  rw [hxs'] at wx
  simp only [List.prod_cons, List.prod_nil, mul_one, ← mul_assoc] at wx
  -- the geometry of the SAME convolution
  obtain ⟨q, hq⟩ : ∃ q, geom { a with padding := .same } 1 N H W cin co fh fw ci = some q := by
    unfold geom
    simp only
    rw [← s1, ← s3, if_pos ⟨g.pos.1, g.pos.2.1, g.pos.2.2.1, g.pos.2.2.2.1, g.pos.2.2.2.2.1, g.pos.2.2.2.2.2.1,
      g.pos.2.2.2.2.2.2.1, g.pos.2.2.2.2.2.2.2, g.coPos, g.div.1, g.div.2, by omega, by omega⟩]
    exact ⟨_, rfl⟩
  have gq := geom_some hq
  have oH : q.outH = p.outH := by
    have := gq.outH
    simp only at this
    rw [← s1] at this
    exact_mod_cast this
  have oW : q.outW = p.outW := by
    have := gq.outW
    simp only at this
    rw [← s3] at this
    exact_mod_cast this
  refine prepared_eval m1 hxs' hq hb hmag hK hvs wf' h4 (Or.inr rfl) ?_
  rw [oH, oW]
  refine congrArg Val.f (mk4_congr fun b oy ox oc hbb hoy hox hoc => ?_)
  rw [if_neg (by simp)]
  rw [← padded_conv (ph := (ph0.toNat, ph1.toNat)) (pw := (pw0.toNat, pw1.toNat)) (p := p) (q := q)
    (xd := xt.data.map bitVal) (e := 1) g gq ?_ ?_ ?_ hbb hoy hox hoc]
  · exact congrArg (fun (w : Tens) => convAt p 0 (fun k => w.data.getD k 0)
      (fun fy fx c oc => fd.getD (((fy * fw + fx) * ci + c) * co + oc) 0) b oy ox oc) (padded_mk4 z1 z2 z3 z4)
  · intro o fy ho hfy
    have e1 := g.padH
    have e2 := gq.padH
    rw [oH] at e2
    rw [e1, e2]
    exact s2 o fy ho hfy
  · intro o fy ho hfy
    have e1 := g.padW
    have e2 := gq.padW
    rw [oW] at e2
    rw [e1, e2]
    exact s4 o fy ho hfy
  · intro k hk
    rw [← wx] at hk
    rw [getD_of_lt false hk, getD_of_lt (l := xt.data.map bitVal) 0 (by simpa using hk), List.getElem_map]

end Verif.Ir
