import Verif.Proof.IrTerm

/-! Termination of the rewriting: every pattern decreases the measure. -/

namespace Verif.Ir

/-- The pattern decreases the weight: that of the root, or that of the root and of one matched operation that the root
alone uses. -/
def Rule.Dec (r : Rule) : Prop :=
  ∀ c n t, r.apply c n = some t → (∀ v, n.op ≠ .const v) ∧
    (t.weight c.constOf < opW n.op (n.args.map c.constOf) ∨
      ∃ y m, c.look y = some m ∧ c.uses y = 1 ∧ y ∈ n.args ∧ (∀ x ∈ t.vars, x ∈ m.args ∨ x ∈ n.args.erase y) ∧
        t.weight c.constOf < opW n.op (n.args.map c.constOf) + opW m.op (m.args.map c.constOf))

/-- The pattern requires that the root's first operand has one use. -/
def Rule.One (r : Rule) : Prop := ∀ c n t, r.apply c n = some t → ∀ y, n.args.head? = some y → c.uses y = 1

theorem one_of {c : Ctx} {y y' : Nat} {P : Prop} (h : P ∧ c.uses y = 1) (e : some y = some y') : c.uses y' = 1 := by
  cases e; exact h.2

theorem ruleGeZero_one : ruleGeZero.One := by
  intro c n t h y hy
  unfold ruleGeZero at h
  simp only at h
  split at h
  · split at h
    · split at h
      · simp only [Option.ite_none_right_eq_some] at h
        cases hy; exact h.1.2
      · cases h
    · cases h
  · cases h

theorem ruleGe_one : ruleGe.One := by
  intro c n t h y hy
  unfold ruleGe at h
  simp only at h
  split at h
  · split at h
    · simp only [Option.ite_none_right_eq_some] at h
      cases hy; exact h.1
    · cases h
  · cases h

theorem ruleLe_one : ruleLe.One := by
  intro c n t h y hy
  unfold ruleLe at h
  simp only at h
  split at h
  · split at h
    · simp only [Option.ite_none_right_eq_some] at h
      cases hy; exact h.1
    · cases h
  · cases h

theorem ruleFuseAddSub_one (b : Bool) : (ruleFuseAddSub b).One := by
  intro c n t h y hy
  unfold ruleFuseAddSub at h
  simp only at h
  split at h
  · split at h
    · split at h
      · simp only [Option.ite_none_right_eq_some] at h
        cases hy; exact h.1.2
      · cases h
    · cases h
  · cases h

theorem ruleFuseMulDiv_one (b : Bool) : (ruleFuseMulDiv b).One := by
  intro c n t h y hy
  unfold ruleFuseMulDiv at h
  simp only at h
  split at h
  · split at h
    · split at h
      · simp only [Option.ite_none_right_eq_some] at h
        cases hy; exact h.1.2
      · cases h
    · cases h
  · cases h

theorem ruleFuseAct_one (a : Act) : (ruleFuseAct a).One := by
  intro c n t h y hy
  unfold ruleFuseAct at h
  simp only at h
  split at h
  · split at h
    · split at h
      · simp only [Option.ite_none_right_eq_some] at h
        cases hy; exact h.1.2.2.2.2.2
      · cases h
    · cases h
  · cases h

theorem ruleMaxPool_one : ruleMaxPool.One := by
  intro c n t h y hy
  unfold ruleMaxPool at h
  simp only at h
  split at h
  · split at h
    · simp only [Option.ite_none_right_eq_some] at h
      cases hy; exact h.1
    · cases h
  · cases h

theorem ruleBitpackActivations_one (b : Bool) : (ruleBitpackActivations b).One := by
  intro c n t h y hy
  unfold ruleBitpackActivations at h
  simp only at h
  split at h
  · split at h
    · split at h
      · simp only [Option.ite_none_right_eq_some] at h
        cases hy; exact h.1.2.2
      · cases h
    · cases h
  · cases h

theorem ruleDequantInt8_one : ruleDequantInt8.One := by
  intro c n t h y hy
  unfold ruleDequantInt8 at h
  simp only at h
  split at h
  · split at h
    · simp only [Option.ite_none_right_eq_some] at h
      cases hy; exact h.1
    · cases h
  · cases h

theorem ruleQuantInt8_one : ruleQuantInt8.One := by
  intro c n t h y hy
  unfold ruleQuantInt8 at h
  simp only at h
  split at h
  · split at h
    · simp only [Option.ite_none_right_eq_some] at h
      cases hy; exact h.1
    · cases h
  · cases h

/-! ### Each pattern -/

theorem constOf_none {c : Ctx} {y : Nat} {m : Node} (h : c.look y = some m) (hm : ∀ v, m.op ≠ .const v) :
    c.constOf y = none := by
  unfold Ctx.constOf
  split
  · rename_i v _ h'
    rw [h] at h'
    cases h'
    exact absurd rfl (hm v)
  · rfl

theorem ruleGeZero_dec : ruleGeZero.Dec := by
  intro c n t h
  have h1 := ruleGeZero_one c n t h
  obtain ⟨nm, g, ty, gn, x, z, gty, zt, rfl, hl, _, _, rfl⟩ := ruleGeZero_inv h
  refine ⟨by simp, Or.inr ⟨g, _, hl, h1 g rfl, by simp, by simp [Rhs.vars, Rhs.varsL], ?_⟩⟩
  simp [Rhs.weight, Rhs.weightL, opW]

theorem ruleGe_dec : ruleGe.Dec := by
  intro c n t h
  have h1 := ruleGe_one c n t h
  obtain ⟨nm, g, ty, gn, x, z, gty, rfl, hl, rfl⟩ := ruleGe_inv h
  refine ⟨by simp, Or.inr ⟨g, _, hl, h1 g rfl, by simp, by simp [Rhs.vars, Rhs.varsL], ?_⟩⟩
  simp only [Rhs.weight, Rhs.weightL, opW, List.map_cons, List.map_nil, Rhs.cst]
  cases c.constOf x <;> simp [opW]

theorem ruleLe_dec : ruleLe.Dec := by
  intro c n t h
  have h1 := ruleLe_one c n t h
  obtain ⟨nm, g, ty, gn, x, z, gty, rfl, hl, rfl⟩ := ruleLe_inv h
  refine ⟨by simp, Or.inr ⟨g, _, hl, h1 g rfl, by simp, ?_, ?_⟩⟩
  · intro u hu
    simp only [Rhs.vars, Rhs.varsL, List.append_nil, List.cons_append, List.nil_append, List.mem_cons,
      List.not_mem_nil, or_false] at hu
    simp only [List.mem_cons, List.not_mem_nil, or_false]
    tauto
  · simp [Rhs.weight, Rhs.weightL, opW]

theorem ruleFuseAddSub_dec (b : Bool) : (ruleFuseAddSub b).Dec := by
  intro c n t h
  have h1 := ruleFuseAddSub_one b c n t h
  obtain ⟨nm, y, v, ty, yn, a, x, f, m, b', th, yty, bt, vt, op, rfl, rfl, hl, hb, hv, rfl⟩ := ruleFuseAddSub_inv h
  refine ⟨by simp, Or.inr ⟨y, _, hl, h1 y rfl, by simp, ?_, ?_⟩⟩
  · intro u hu
    simp only [Rhs.vars, Rhs.varsL, Rhs.constF, List.append_nil, List.cons_append, List.nil_append, List.mem_cons,
      List.not_mem_nil, or_false] at hu
    simp only [List.mem_cons, List.not_mem_nil, or_false]
    tauto
  · simp only [Rhs.weight, Rhs.weightL, opW, List.map_cons, List.map_nil, Rhs.cst, Rhs.constF,
      constOf_none hl (by simp)]
    cases c.constOf f with
    | none => simp [opW]
    | some w => cases w <;> simp [opW]

theorem ruleFuseMulDiv_dec (b : Bool) : (ruleFuseMulDiv b).Dec := by
  intro c n t h
  have h1 := ruleFuseMulDiv_one b c n t h
  obtain ⟨nm, y, v, ty, yn, a, x, f, m, b', th, yty, mt, bt, vt, op, rfl, rfl, hl, hm, hb, hv, rfl⟩ := ruleFuseMulDiv_inv h
  refine ⟨by simp, Or.inr ⟨y, _, hl, h1 y rfl, by simp, ?_, ?_⟩⟩
  · intro u hu
    simp only [Rhs.vars, Rhs.varsL, Rhs.constF, List.append_nil, List.cons_append, List.nil_append, List.mem_cons,
      List.not_mem_nil, or_false] at hu
    simp only [List.mem_cons, List.not_mem_nil, or_false]
    tauto
  · simp only [Rhs.weight, Rhs.weightL, opW, List.map_cons, List.map_nil, Rhs.cst, Rhs.constF,
      constOf_none hl (by simp)]
    cases c.constOf f with
    | none => simp [opW]
    | some w => cases w <;> simp [opW]

theorem ruleFuseAct_dec (ac : Act) : (ruleFuseAct ac).Dec := by
  intro c n t h
  have h1 := ruleFuseAct_one ac c n t h
  obtain ⟨nm, y, ty, yn, a, x, f, m, b', th, yty, mt, bt, rfl, hl, hm, hb, _, _, _, rfl⟩ := ruleFuseAct_inv h
  refine ⟨by simp, Or.inr ⟨y, _, hl, h1 y rfl, by simp, ?_, ?_⟩⟩
  · intro u hu
    simp only [Rhs.vars, Rhs.varsL, Rhs.constF, List.append_nil, List.cons_append, List.nil_append, List.mem_cons,
      List.not_mem_nil, or_false] at hu
    simp only [List.mem_cons, List.not_mem_nil, or_false]
    tauto
  · simp only [Rhs.weight, Rhs.weightL, opW, List.map_cons, List.map_nil, Rhs.cst, Rhs.constF]
    cases c.constOf f with
    | none => simp [opW]
    | some w => cases w <;> simp [opW]

theorem ruleMaxPool_dec : ruleMaxPool.Dec := by
  intro c n t h
  have h1 := ruleMaxPool_one c n t h
  obtain ⟨nm, y, ty, yn, pa, fa, x, yty, rfl, hl, rfl⟩ := ruleMaxPool_inv h
  refine ⟨by simp, Or.inr ⟨y, _, hl, h1 y rfl, by simp, by simp [Rhs.vars, Rhs.varsL], ?_⟩⟩
  simp [Rhs.weight, Rhs.weightL, opW]

theorem ruleBitpackActivations_dec (b : Bool) : (ruleBitpackActivations b).Dec := by
  intro c n t h
  have h1 := ruleBitpackActivations_one b c n t h
  obtain ⟨nm, y, ty, yn, a, x, f, m, b', th, yty, ft, mt, bt, rfl, hl, hf, hm, hb, hth, _, _, rfl⟩ :=
    ruleBitpackActivations_inv h
  refine ⟨by simp, Or.inr ⟨y, _, hl, h1 y rfl, by simp, ?_, ?_⟩⟩
  · intro u hu
    simp only [Rhs.vars, Rhs.varsL, Rhs.constF, List.append_nil, List.mem_cons,
      List.not_mem_nil, or_false] at hu
    simp only [List.mem_cons, List.not_mem_nil, or_false]
    tauto
  · simp only [Rhs.weight, Rhs.weightL, opW, List.map_cons, List.map_nil, Rhs.cst, Rhs.constF, hf]
    simp [opW]

theorem ruleDequantInt8_dec : ruleDequantInt8.Dec := by
  intro c n t h
  have h1 := ruleDequantInt8_one c n t h
  obtain ⟨nm, s, z, y, ty, yn, x, yty, rfl, hl, rfl⟩ := ruleDequantInt8_inv h
  refine ⟨by simp, Or.inr ⟨y, _, hl, h1 y rfl, by simp, by simp [Rhs.vars, Rhs.varsL], ?_⟩⟩
  simp [Rhs.weight, Rhs.weightL, opW]

theorem ruleFuseQuantize_dec : ruleFuseQuantize.Dec := by
  intro c n t h
  obtain ⟨nm, s, z, y, ty, yn, a, x, f, m, b, th, yty, rfl, hl, hu, rfl⟩ := ruleFuseQuantize_inv h
  refine ⟨by simp, Or.inr ⟨y, _, hl, hu, by simp, by simp [Rhs.vars, Rhs.varsL], ?_⟩⟩
  simp only [Rhs.weight, Rhs.weightL, Nat.add_zero]
  have h1 : 0 < opW (.bconv a) (List.map c.constOf [x, f, m, b, th]) := opW_pos (by simp) (by simp)
  simp only [opW] at h1 ⊢
  omega

theorem ruleQuantInt8_dec : ruleQuantInt8.Dec := by
  intro c n t h
  have h1 := ruleQuantInt8_one c n t h
  obtain ⟨nm, y, ty, yn, x, yty, rfl, hl, rfl⟩ := ruleQuantInt8_inv h
  refine ⟨by simp, Or.inr ⟨y, _, hl, h1 y rfl, by simp, by simp [Rhs.vars, Rhs.varsL], ?_⟩⟩
  simp [Rhs.weight, Rhs.weightL, opW]

theorem ruleBitpackWeights_dec : ruleBitpackWeights.Dec := by
  intro c n t h
  obtain ⟨nm, a, x, f, m, b, th, ty, ft, rfl, hf, rfl⟩ := ruleBitpackWeights_inv h
  refine ⟨by simp, Or.inl ?_⟩
  simp only [Rhs.weight, Rhs.weightL, opW, List.map_cons, List.map_nil, Rhs.cst, hf]
  simp [opW]

theorem rulePass_dec : rulePass.Dec := by
  intro c n t h
  obtain ⟨nm, x, ty, rfl, rfl⟩ := rulePass_inv h
  refine ⟨by simp, Or.inl ?_⟩
  simp [Rhs.weight, Rhs.weightL, opW]

theorem ruleIdentity_dec : ruleIdentity.Dec := by
  intro c n t h
  obtain ⟨nm, x, ty, rfl, rfl⟩ := ruleIdentity_inv h
  refine ⟨by simp, Or.inl ?_⟩
  simp [Rhs.weight, opW]

theorem ruleBroadcast_dec : ruleBroadcast.Dec := by
  intro c n t h
  obtain ⟨nm, sh, x, ty, rfl, _, rfl⟩ := ruleBroadcast_inv h
  refine ⟨by simp, Or.inl ?_⟩
  simp [Rhs.weight, opW]

theorem ruleFold_dec : ruleFold.Dec := by
  intro c n t h
  obtain ⟨h1, h2, l, v, h3, h4, rfl⟩ := ruleFold_inv h
  refine ⟨h2, Or.inl ?_⟩
  simp only [Rhs.weight, Rhs.weightL, opW, Nat.add_zero]
  exact opW_pos h1 h2

theorem prepared_weight {c : Nat → Option Val} {a : ConvAttrs} {pv cin : Nat} {ty : Option (List Nat)} {x fh fw ci co : Nat}
    {fd : List Rat} : (prepared a pv cin ty x fh fw ci co fd).weight c = 4 := by
  simp only [prepared, Rhs.weight, Rhs.weightL, List.map_cons, List.map_nil, Rhs.cst, Rhs.constF]
  simp [opW]

theorem rulePrepare_dec (b : Bool) : (rulePrepare b).Dec := by
  intro c n t h
  obtain ⟨nm, a, y, f, ty, yn, x', d0, d1, d2, cin, fh, fw, ci, co, fd, rfl, h1, _, _, _, _, rfl⟩ := rulePrepare_inv h
  refine ⟨by simp, Or.inl ?_⟩
  rw [prepared_weight]
  simp [opW]

theorem rulePadConv_dec : rulePadConv.Dec := by
  intro c n t h
  obtain ⟨nm, a, z, f, oshape, zn, y, pd, pv, zty, fh, fw, ci, co, fd, yn, x', d0, d1, d2, cin, pt, vt, pads, ishape,
    rfl, h1, h2, h3, _, _, _, _, _, _, _, _, _, rfl⟩ := rulePadConv_inv h
  refine ⟨by simp, Or.inl ?_⟩
  rw [prepared_weight]
  simp [opW]

theorem ruleSign_dec (b : Bool) : (ruleSign b).Dec := by
  intro c n t h
  obtain ⟨nm, s, ty, sn, u, v, sty, xn, x, xty, rfl, _, _, rfl⟩ := ruleSign_inv h
  refine ⟨by simp, Or.inl ?_⟩
  simp [Rhs.weight, Rhs.weightL, opW]

theorem ruleSelect_dec (b : Bool) : (ruleSelect b).Dec := by
  intro c n t h
  obtain ⟨nm, k, x, y, shape, xt, yt, rfl, _, _, _, _, rfl⟩ := ruleSelect_inv h
  refine ⟨by simp, Or.inl ?_⟩
  cases b <;> simp [Rhs.weight, Rhs.weightL, opW]

theorem ruleFusePad_dec (v2 dw : Bool) : (ruleFusePad v2 dw).Dec := by
  intro c n t h
  obtain ⟨nm, a, act, z, f, b, oshape, zn, y, pd, rest, zty, pt, pads, ishape, rfl, hl, _, _, _, _, _, hu, _, rfl⟩ :=
    ruleFusePad_inv h
  refine ⟨by simp, Or.inr ⟨z, _, hl, hu, by simp, ?_, ?_⟩⟩
  · intro u hu
    simp only [Rhs.vars, Rhs.varsL, List.append_nil, List.cons_append, List.nil_append, List.mem_cons,
      List.not_mem_nil, or_false] at hu
    simp only [List.mem_cons, List.not_mem_nil, or_false, List.erase_cons_head]
    tauto
  · simp [Rhs.weight, Rhs.weightL, opW]

end Verif.Ir
