import Verif.Proof.IrChain

/-! Every pattern keeps the filters of BConv2Ds computed from float constants, or bitpacked constants. -/

namespace Verif.Ir

set_option linter.unusedSimpArgs false

/-- A float constant, or an operator that computes filters. -/
def FloatOp : Op → Prop
  | .const (.f _) => True
  | .bin _ _ => True
  | .transpose => True
  | _ => False

/-- A bitpacked constant with four dimensions. -/
def BitOp : Op → Prop
  | .const (.s t) => t.shape.length = 4
  | _ => False

/-- One of the two. -/
def AnyOp (o : Op) : Prop := FloatOp o ∨ BitOp o

/-- A float constant. -/
def FloatConst : Op → Prop
  | .const (.f _) => True
  | _ => False

/-- The combinations of padding and pad value, and a supported activation. -/
def padKinds (arm : Bool) (a : BConvAttrs) : Prop :=
  a.act ≠ .other ∧ ((a.padding = .valid ∧ a.padValue = 0) ∨ (a.padding = .same ∧ a.padValue = 1) ∨
    (arm = true ∧ a.padding = .same ∧ a.padValue = 0))

/-- See `padKinds`; `i8`: BConv2Ds may write int8. -/
def PadOk (arm i8 : Bool) : Op → Prop
  | .bconv a => padKinds arm a
  | .bconvI8 a _ _ => i8 = true ∧ padKinds arm a
  | _ => True

/-- Case analysis for `Rule.KeepsF`. -/
macro "filters_bash" h:ident h1:ident h2:ident : tactic => `(tactic| (
  repeat' split at $h:ident
  all_goals first
    | (cases $h:ident; done)
    | skip
  all_goals
    cases $h:ident
    try (rename Ctx.look _ _ = some _ => hl; have := $h1 _ _ hl; have := $h2 _ _ hl; revert hl)
    try (rename Ctx.look _ _ = some _ => hl; have := $h1 _ _ hl; have := $h2 _ _ hl; revert hl)
    try (rename Ctx.look _ _ = some _ => hl; have := $h1 _ _ hl; have := $h2 _ _ hl; revert hl)
    try (rename Ctx.look _ _ = some _ => hl; have := $h1 _ _ hl; have := $h2 _ _ hl; revert hl)
    intros
    simp_all [Rhs.filt, Rhs.filtL, Rhs.chained, Rhs.chainedL, second, Op.isBConv, Rhs.constF, prepared, FloatOp, BitOp, AnyOp,
      PadOk, padKinds]))

variable (arm : Bool)

/-- The patterns that make filters. -/
abbrev Rule.KeepsFloat (r : Rule) : Prop := r.KeepsF FloatOp (PadOk arm false)

theorem ruleGeZero_float : ruleGeZero.KeepsFloat arm := by
  intro c n t C h h1 h2 h3
  simp only [ruleGeZero] at h
  filters_bash h h1 h2

theorem ruleGe_float : ruleGe.KeepsFloat arm := by
  intro c n t C h h1 h2 h3
  simp only [ruleGe] at h
  filters_bash h h1 h2

theorem ruleLe_float : ruleLe.KeepsFloat arm := by
  intro c n t C h h1 h2 h3
  simp only [ruleLe] at h
  filters_bash h h1 h2

theorem ruleFuseAddSub_float (b : Bool) : (ruleFuseAddSub b).KeepsFloat arm := by
  intro c n t C h h1 h2 h3
  simp only [ruleFuseAddSub] at h
  filters_bash h h1 h2

theorem ruleFuseMulDiv_float (b : Bool) : (ruleFuseMulDiv b).KeepsFloat arm := by
  intro c n t C h h1 h2 h3
  simp only [ruleFuseMulDiv] at h
  filters_bash h h1 h2

theorem ruleFuseAct_float {ac : Act} (hac : ac ≠ .other) : (ruleFuseAct ac).KeepsFloat arm := by
  intro c n t C h h1 h2 h3
  simp only [ruleFuseAct] at h
  filters_bash h h1 h2

theorem ruleMaxPool_float : ruleMaxPool.KeepsFloat arm := by
  intro c n t C h h1 h2 h3
  simp only [ruleMaxPool] at h
  filters_bash h h1 h2

theorem ruleBitpackActivations_float (b : Bool) : (ruleBitpackActivations b).KeepsFloat arm := by
  intro c n t C h h1 h2 h3
  simp only [ruleBitpackActivations] at h
  filters_bash h h1 h2

theorem rulePass_float : rulePass.KeepsFloat arm := by
  intro c n t C h h1 h2 h3
  simp only [rulePass] at h
  filters_bash h h1 h2

theorem ruleIdentity_float : ruleIdentity.KeepsFloat arm := by
  intro c n t C h h1 h2 h3
  simp only [ruleIdentity] at h
  filters_bash h h1 h2

theorem rulePrepareValid_float : (rulePrepare false).KeepsFloat arm := by
  intro c n t C h h1 h2 h3
  obtain ⟨nm, a, y, f, ty, yn, x, d0, d1, d2, cin, fh, fw, ci, co, fd, rfl, _, _, hp, _, _, rfl⟩ := rulePrepare_inv h
  replace hp : a.padding = .valid := hp
  simp [Rhs.filt, Rhs.filtL, Rhs.chained, Rhs.chainedL, second, Op.isBConv, Rhs.constF, prepared, FloatOp, PadOk, padKinds, hp]

theorem rulePrepareSame_float : (rulePrepare true).KeepsFloat true := by
  intro c n t C h h1 h2 h3
  obtain ⟨nm, a, y, f, ty, yn, x, d0, d1, d2, cin, fh, fw, ci, co, fd, rfl, _, _, hp, _, _, rfl⟩ := rulePrepare_inv h
  replace hp : a.padding = .same := hp
  simp [Rhs.filt, Rhs.filtL, Rhs.chained, Rhs.chainedL, second, Op.isBConv, Rhs.constF, prepared, FloatOp, PadOk, padKinds, hp]

theorem rulePadConv_float : rulePadConv.KeepsFloat arm := by
  intro c n t C h h1 h2 h3
  obtain ⟨nm, a, z, f, oshape, zn, y, pd, pv, zty, fh, fw, ci, co, fd, yn, x', d0, d1, d2, cin, pt, vt, pads, ishape,
    rfl, _, _, _, _, _, _, _, _, _, _, _, _, rfl⟩ := rulePadConv_inv h
  simp [Rhs.filt, Rhs.filtL, Rhs.chained, Rhs.chainedL, second, Op.isBConv, Rhs.constF, prepared, FloatOp, PadOk, padKinds]

theorem ruleSign_float (b : Bool) : (ruleSign b).KeepsFloat arm := by
  intro c n t C h h1 h2 h3
  cases b <;> simp only [ruleSign] at h <;> filters_bash h h1 h2

theorem ruleSelect_float (b : Bool) : (ruleSelect b).KeepsFloat arm := by
  intro c n t C h h1 h2 h3
  obtain ⟨nm, k, x', y, shape, xt, yt, rfl, _, _, _, _, rfl⟩ := ruleSelect_inv h
  cases b <;> simp [Rhs.filt, Rhs.filtL, Op.isBConv, FloatOp]

theorem ruleBroadcast_float : ruleBroadcast.KeepsFloat arm := by
  intro c n t C h h1 h2 h3
  simp only [ruleBroadcast] at h
  filters_bash h h1 h2

theorem ruleBitpackWeights_any : ruleBitpackWeights.KeepsF AnyOp (PadOk arm false) := by
  intro c n t C h h1 h2 h3
  simp only [ruleBitpackWeights] at h
  filters_bash h h1 h2
  assumption

theorem floatOp_run {o : Op} (h : FloatOp o) (hc : ∀ v, o ≠ .const v) {ins : List Val} {ty : Option (List Nat)} {l : List Val}
    {v : Val} (hr : o.run ins ty l = some v) : ∃ t, v = .f t := by
  have he : o.eval ins l = some v := by
    unfold Op.run at hr
    rw [Option.bind_eq_some_iff] at hr
    obtain ⟨w, h1, h2⟩ := hr
    split at h2
    · cases h2; exact h1
    · cases h2
  cases o with
  | const v => exact absurd rfl (hc v)
  | bin op a =>
    replace he : binEval op a l = some v := he
    unfold binEval at he
    split at he
    · split at he
      · cases he
      · rw [Option.map_eq_some_iff] at he
        obtain ⟨t, _, rfl⟩ := he
        exact ⟨_, rfl⟩
    · cases he
  | transpose =>
    replace he : transposeEval l = some v := he
    unfold transposeEval at he
    split at he
    · split at he
      · cases he; exact ⟨_, rfl⟩
      · cases he
    · cases he
  | _ => exact h.elim

theorem ruleFold_float : ruleFold.KeepsFloat arm := by
  intro c n t C h h1 h2 h3
  obtain ⟨_, hc, l, v, _, hr, rfl⟩ := ruleFold_inv h
  refine ⟨⟨fun h => (by cases h), trivial⟩, fun hp _ => ⟨?_, trivial⟩⟩
  obtain ⟨t, rfl⟩ := floatOp_run hp hc hr
  trivial

theorem ruleFold_any : ruleFold.KeepsF AnyOp (PadOk arm false) := by
  intro c n t C h h1 h2 h3
  obtain ⟨_, hc, l, v, _, hr, rfl⟩ := ruleFold_inv h
  refine ⟨⟨fun h => (by cases h), trivial⟩, fun hp _ => ⟨?_, trivial⟩⟩
  rcases hp with hp | hp
  · obtain ⟨t, rfl⟩ := floatOp_run hp hc hr
    exact Or.inl trivial
  · unfold BitOp at hp
    split at hp
    · rename_i e
      exact absurd e (hc _)
    · exact hp.elim

theorem ruleFold_bit : ruleFold.KeepsF BitOp (PadOk arm true) := by
  intro c n t C h h1 h2 h3
  obtain ⟨_, hc, l, v, _, hr, rfl⟩ := ruleFold_inv h
  refine ⟨⟨fun h => (by cases h), trivial⟩, fun hp _ => ?_⟩
  unfold BitOp at hp
  split at hp
  · rename_i e
    exact absurd e (hc _)
  · exact hp.elim

theorem ruleBroadcast_bit : ruleBroadcast.KeepsF BitOp (PadOk arm true) := by
  intro c n t C h h1 h2 h3
  simp only [ruleBroadcast] at h
  filters_bash h h1 h2

theorem ruleFusePad_bit (b d : Bool) : (ruleFusePad b d).KeepsF BitOp (PadOk arm true) := by
  intro c n t C h h1 h2 h3
  simp only [ruleFusePad] at h
  filters_bash h h1 h2

theorem ruleFuseQuantize_bit : ruleFuseQuantize.KeepsF BitOp (PadOk arm true) := by
  intro c n t C h h1 h2 h3
  simp only [ruleFuseQuantize] at h
  filters_bash h h1 h2

theorem ruleDequantInt8_bit : ruleDequantInt8.KeepsF BitOp (PadOk arm true) := by
  intro c n t C h h1 h2 h3
  simp only [ruleDequantInt8] at h
  filters_bash h h1 h2

theorem ruleQuantInt8_bit : ruleQuantInt8.KeepsF BitOp (PadOk arm true) := by
  intro c n t C h h1 h2 h3
  simp only [ruleQuantInt8] at h
  filters_bash h h1 h2

theorem ruleStripQdq_bit : ruleStripQdq.KeepsF BitOp (PadOk arm true) := by
  intro c n t C h h1 h2 h3
  simp only [ruleStripQdq] at h
  repeat' split at h
  all_goals first
    | (cases h; done)
    | skip
  rename_i ho _ _ _ _ _ _ _ _ e1 e2 _ _ _ _ _ _ _ _ _ _ _ _ e3 e4
  cases h
  refine ⟨⟨fun hb => ⟨(h3 ho).1, ?_⟩, trivial, trivial, trivial, trivial, trivial, trivial⟩, fun hp _ => ?_⟩
  · obtain ⟨f, hf, hC⟩ := (h3 ho).2
    cases hf
    exact hC
  exfalso
  simp only at hp ho
  unfold BitOp at hp
  split at hp
  · cases ho
  · exact hp

end Verif.Ir
