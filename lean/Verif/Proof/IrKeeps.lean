import Verif.Proof.IrConst
import Verif.Props.IrSound

/-! Every pattern keeps the parameters of convolutions independent of the arguments. -/

namespace Verif.Ir

set_option linter.unusedSimpArgs false

/-- Case analysis for `Rule.Keeps`. -/
macro "keeps_bash" h:ident h1:ident h2:ident : tactic => `(tactic| (
  repeat' split at $h:ident
  all_goals first
    | (cases $h:ident; done)
    | skip
  all_goals
    cases $h:ident
    try (rename Ctx.look _ _ = some _ => hl; have := $h1 _ _ hl; have := $h2 _ _ hl; revert hl)
    try (rename Ctx.look _ _ = some _ => hl; have := $h1 _ _ hl; have := $h2 _ _ hl; revert hl)
    try (rename Ctx.look _ _ = some _ => hl; have := $h1 _ _ hl; have := $h2 _ _ hl; revert hl)
    try (rename Ctx.look _ _ = some _ => hl; have := $h1 _ _ hl; have := $h2 _ _ hl; revert hl)
    intros
    simp_all [Rhs.good, Rhs.goodL, Rhs.closed, Rhs.closedL, Op.isBConv, Rhs.constF, prepared]))

theorem ruleGeZero_keeps : ruleGeZero.Keeps := by
  intro c n t C h h1 h2 h3
  simp only [ruleGeZero] at h
  keeps_bash h h1 h2

theorem ruleGe_keeps : ruleGe.Keeps := by
  intro c n t C h h1 h2 h3
  simp only [ruleGe] at h
  keeps_bash h h1 h2

theorem ruleLe_keeps : ruleLe.Keeps := by
  intro c n t C h h1 h2 h3
  simp only [ruleLe] at h
  keeps_bash h h1 h2

theorem ruleFuseAddSub_keeps (b : Bool) : (ruleFuseAddSub b).Keeps := by
  intro c n t C h h1 h2 h3
  simp only [ruleFuseAddSub] at h
  keeps_bash h h1 h2

theorem ruleFuseMulDiv_keeps (b : Bool) : (ruleFuseMulDiv b).Keeps := by
  intro c n t C h h1 h2 h3
  simp only [ruleFuseMulDiv] at h
  keeps_bash h h1 h2

theorem ruleFuseAct_keeps (ac : Act) : (ruleFuseAct ac).Keeps := by
  intro c n t C h h1 h2 h3
  simp only [ruleFuseAct] at h
  keeps_bash h h1 h2

theorem ruleMaxPool_keeps : ruleMaxPool.Keeps := by
  intro c n t C h h1 h2 h3
  simp only [ruleMaxPool] at h
  keeps_bash h h1 h2

theorem ruleBitpackActivations_keeps (b : Bool) : (ruleBitpackActivations b).Keeps := by
  intro c n t C h h1 h2 h3
  simp only [ruleBitpackActivations] at h
  keeps_bash h h1 h2

theorem ruleBitpackWeights_keeps : ruleBitpackWeights.Keeps := by
  intro c n t C h h1 h2 h3
  simp only [ruleBitpackWeights] at h
  keeps_bash h h1 h2

theorem rulePass_keeps : rulePass.Keeps := by
  intro c n t C h h1 h2 h3
  simp only [rulePass] at h
  keeps_bash h h1 h2

theorem ruleIdentity_keeps : ruleIdentity.Keeps := by
  intro c n t C h h1 h2 h3
  simp only [ruleIdentity] at h
  keeps_bash h h1 h2

theorem rulePrepare_keeps (b : Bool) : (rulePrepare b).Keeps := by
  intro c n t C h h1 h2 h3
  simp only [rulePrepare] at h
  keeps_bash h h1 h2

theorem rulePadConv_keeps : rulePadConv.Keeps := by
  intro c n t C h h1 h2 h3
  simp only [rulePadConv] at h
  keeps_bash h h1 h2

theorem ruleSign_keeps (b : Bool) : (ruleSign b).Keeps := by
  intro c n t C h h1 h2 h3
  cases b <;> simp only [ruleSign] at h <;> keeps_bash h h1 h2

theorem ruleBroadcast_keeps : ruleBroadcast.Keeps := by
  intro c n t C h h1 h2 h3
  simp only [ruleBroadcast] at h
  keeps_bash h h1 h2

theorem ruleFusePad_keeps (b d : Bool) : (ruleFusePad b d).Keeps := by
  intro c n t C h h1 h2 h3
  simp only [ruleFusePad] at h
  keeps_bash h h1 h2

theorem ruleStripQdq_keeps : ruleStripQdq.Keeps := by
  intro c n t C h h1 h2 h3
  simp only [ruleStripQdq] at h
  repeat' split at h
  all_goals first
    | (cases h; done)
    | skip
  rename_i ho _ _ _ _ _ _ _ _ e1 e2 _ _ _ _ _ _ _ _ _ _ _ _ e3 e4
  cases h
  have k1 := h1 _ _ e1
  have k2 := h1 _ _ e2
  have k3 := h1 _ _ e3
  have k4 := h1 _ _ e4
  have k5 := h3 ho
  simp only [List.mem_singleton, forall_eq, List.tail_cons, List.forall_mem_cons, List.not_mem_nil, false_imp_iff, implies_true, and_true] at k1 k2 k3 k4 k5
  refine ⟨⟨fun _ => ⟨k5.1, k3 (k1 k5.2.1), k4 (k2 k5.2.2.1), k5.2.2.2, trivial⟩, trivial, trivial, trivial, trivial, trivial, trivial⟩,
    fun hx => ⟨?_, hx _ (by simp), k5.1, k3 (k1 k5.2.1), k4 (k2 k5.2.2.1), k5.2.2.2, trivial⟩⟩
  rintro k rfl
  cases ho

theorem ruleFuseQuantize_keeps : ruleFuseQuantize.Keeps := by
  intro c n t C h h1 h2 h3
  simp only [ruleFuseQuantize] at h
  keeps_bash h h1 h2

theorem ruleDequantInt8_keeps : ruleDequantInt8.Keeps := by
  intro c n t C h h1 h2 h3
  simp only [ruleDequantInt8] at h
  keeps_bash h h1 h2

theorem ruleQuantInt8_keeps : ruleQuantInt8.Keeps := by
  intro c n t C h h1 h2 h3
  simp only [ruleQuantInt8] at h
  keeps_bash h h1 h2

theorem ruleSelect_keeps (b : Bool) : (ruleSelect b).Keeps := by
  intro c n t C h h1 h2 h3
  simp only [ruleSelect] at h
  repeat' split at h
  all_goals first
    | (cases h; done)
    | skip
  all_goals
    cases h
    simp +contextual [Rhs.good, Rhs.goodL, Rhs.closed, Rhs.closedL, Op.isBConv]

theorem ruleFold_keeps : ruleFold.Keeps := by
  intro c n t C h h1 h2 h3
  have : ∃ v, t = .op (.const v) n.ty [] := by
    unfold ruleFold at h
    simp only at h
    split at h
    · cases h
    · cases h
    · rw [Option.map_eq_some_iff] at h
      obtain ⟨v, _, rfl⟩ := h
      exact ⟨v, rfl⟩
  obtain ⟨v, rfl⟩ := this
  exact ⟨⟨fun h => (by cases h), trivial⟩, fun _ => ⟨fun k h => (by cases h), trivial⟩⟩

theorem allRules_keeps (arm : Bool) : ∀ r ∈ allRules arm, r.Keeps :=
  allRules_cases ruleSelect_keeps ruleSign_keeps rulePrepare_keeps rulePadConv_keeps rulePass_keeps ruleIdentity_keeps
    ruleGeZero_keeps ruleGe_keeps ruleLe_keeps ruleFuseAddSub_keeps ruleFuseMulDiv_keeps ruleFuseAct_keeps
    ruleBitpackActivations_keeps ruleMaxPool_keeps ruleBitpackWeights_keeps ruleStripQdq_keeps ruleDequantInt8_keeps
    ruleQuantInt8_keeps ruleFold_keeps ruleBroadcast_keeps ruleFusePad_keeps ruleFuseQuantize_keeps

end Verif.Ir
