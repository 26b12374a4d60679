import Verif.Proof.IrSmall
import Verif.Props.IrSound

/-!
C62: the converter's rewriting terminates, whatever the order in which the patterns of all passes are applied, constants
are folded, unused operations erased and equal operations merged, exceptional matches included.
-/

namespace Verif.Ir

theorem allRules_dec (arm : Bool) : ∀ r ∈ allRules arm, r.DecOr :=
  allRules_cases (fun b => Or.inl (ruleSelect_dec b)) (fun b => Or.inl (ruleSign_dec b)) (fun b => Or.inl (rulePrepare_dec b))
    (Or.inl rulePadConv_dec) (Or.inl rulePass_dec) (Or.inl ruleIdentity_dec) (Or.inl ruleGeZero_dec) (Or.inl ruleGe_dec)
    (Or.inl ruleLe_dec) (fun b => Or.inl (ruleFuseAddSub_dec b)) (fun b => Or.inl (ruleFuseMulDiv_dec b))
    (fun b => Or.inl (ruleFuseAct_dec b)) (fun b => Or.inl (ruleBitpackActivations_dec b)) (Or.inl ruleMaxPool_dec)
    (Or.inl ruleBitpackWeights_dec) (Or.inr rfl) (Or.inl ruleDequantInt8_dec) (Or.inl ruleQuantInt8_dec)
    (Or.inl ruleFold_dec) (Or.inl ruleBroadcast_dec) (fun b d => Or.inl (ruleFusePad_dec b d))
    (Or.inl ruleFuseQuantize_dec)

/-- There is no infinite sequence of steps from a well-formed graph. -/
theorem C62_terminates (arm : Bool) (safe : List Val → Prop) (f : Nat → Graph) (h0 : (f 0).Ssa) :
    ¬ ∀ i, Step (allRules arm) safe (f i) (f (i + 1)) := by
  intro h
  have hssa : ∀ i, (f i).Ssa := by
    intro i
    induction i with
    | zero => exact h0
    | succ i ih => exact step_ssa (allRules_local arm) ih (h i)
  have : ∀ g, Acc Below g → ∀ i, f i = g → False := by
    intro g hg
    induction hg with
    | intro g _ ih =>
      intro i e
      exact ih (f (i + 1)) (e ▸ step_below (allRules_local arm) (allRules_dec arm) (hssa i) (h i)) (i + 1) rfl
  exact this (f 0) (below_wf.apply _) 0 rfl

/-- From every well-formed graph a graph is reached to which no pattern applies, in which no operation is unused and
no two operations are equal. -/
theorem C62_normal_form (arm : Bool) (safe : List Val → Prop) (g : Graph) (hg : g.Ssa) :
    ∃ g', Steps (allRules arm) safe g g' ∧ ∀ g'', ¬ Step (allRules arm) safe g' g'' := by
  have : ∀ k, Acc Below k → k.Ssa → Steps (allRules arm) safe g k →
      ∃ g', Steps (allRules arm) safe g g' ∧ ∀ g'', ¬ Step (allRules arm) safe g' g'' := by
    intro k hk
    induction hk with
    | intro k _ ih =>
      intro hs hgk
      by_cases hn : ∃ g'', Step (allRules arm) safe k g''
      · obtain ⟨g'', h⟩ := hn
        exact ih g'' (step_below (allRules_local arm) (allRules_dec arm) hs h) (step_ssa (allRules_local arm) hs h) (hgk.step h)
      · exact ⟨k, hgk, fun g'' h => hn ⟨g'', h⟩⟩
  exact this g (below_wf.apply g) hg (.refl g)

/-- Any number of steps can be continued to a graph without further steps, which computes what the first graph did. -/
theorem C62_converts (arm : Bool) (safe : List Val → Prop) (g g₁ : Graph) (hg : g.Ssa) (h : Steps (allRules arm) safe g g₁) :
    ∃ g', Steps (allRules arm) safe g₁ g' ∧ (∀ g'', ¬ Step (allRules arm) safe g' g'') ∧
      ∀ ins vs, safe ins → g.eval ins = some vs → g'.eval ins = some vs := by
  have h1 := C61_well_formed arm safe hg h
  obtain ⟨g', h2, h3⟩ := C62_normal_form arm safe g₁ h1
  exact ⟨g', h2, h3, fun ins vs hi hv =>
    C61_rewriting_preserves_partial arm safe h1 h2 ins vs hi (C61_rewriting_preserves_partial arm safe hg h ins vs hi hv)⟩

/-! ### How many steps -/

/-- `k` steps. -/
inductive StepsN (rules : List Rule) (safe : List Val → Prop) : Nat → Graph → Graph → Prop
  | refl (g : Graph) : StepsN rules safe 0 g g
  | step {k : Nat} {g g' g'' : Graph} (h : StepsN rules safe k g g') (s : Step rules safe g' g'') :
      StepsN rules safe (k + 1) g g''

theorem allRules_small (arm : Bool) : ∀ r ∈ allRules arm, r.Small :=
  allRules_cases ruleSelect_small ruleSign_small rulePrepare_small rulePadConv_small rulePass_small ruleIdentity_small
    ruleGeZero_small ruleGe_small ruleLe_small ruleFuseAddSub_small ruleFuseMulDiv_small ruleFuseAct_small
    ruleBitpackActivations_small ruleMaxPool_small ruleBitpackWeights_small ruleStripQdq_small ruleDequantInt8_small
    ruleQuantInt8_small ruleFold_small ruleBroadcast_small ruleFusePad_small ruleFuseQuantize_small

theorem plainRules_dec (arm : Bool) : ∀ r ∈ prepareRules arm ++ [ruleBroadcast] ++ optimizeRules arm ++ [ruleBitpackWeights] ++
    fusePadRules ++ [ruleFold], r.Dec := by
  intro r hr
  have h1 := ruleSelect_dec
  have h2 := ruleSign_dec
  have h3 := rulePrepare_dec
  have h4 := rulePadConv_dec
  have h5 := rulePass_dec
  have h6 := ruleIdentity_dec
  have h7 := ruleGeZero_dec
  have h8 := ruleGe_dec
  have h9 := ruleLe_dec
  have h10 := ruleFuseAddSub_dec
  have h11 := ruleFuseMulDiv_dec
  have h12 := ruleFuseAct_dec
  have h13 := ruleBitpackActivations_dec
  have h14 := ruleMaxPool_dec
  have h15 := ruleBitpackWeights_dec
  have h16 := ruleFold_dec
  have h17 := ruleBroadcast_dec
  have h18 := ruleFusePad_dec
  cases arm <;>
    simp only [prepareRules, optimizeRules, fusePadRules, if_true, Bool.false_eq_true, if_false, List.mem_append,
      List.mem_cons, List.not_mem_nil, or_false] at hr <;>
    aesop

/-- Before the quantization passes, a graph of `L` operations is converted in at most `49 * L` steps, whichever steps are
chosen, and has at most `49 * L` operations at any time. -/
theorem C62_linear_bound (arm : Bool) (safe : List Val → Prop) {k : Nat} {g g' : Graph} (hg : g.Ssa)
    (h : StepsN (prepareRules arm ++ [ruleBroadcast] ++ optimizeRules arm ++ [ruleBitpackWeights] ++ fusePadRules ++ [ruleFold])
      safe k g g') : k + g'.nodes.length ≤ 49 * g.nodes.length := by
  have hsub : ∀ r ∈ prepareRules arm ++ [ruleBroadcast] ++ optimizeRules arm ++ [ruleBitpackWeights] ++ fusePadRules ++ [ruleFold],
      r ∈ allRules arm ∧ r.Dec := by
    intro r hr
    have hm : r ∈ allRules arm := by
      simp only [allRules, List.mem_append, List.mem_singleton] at hr ⊢
      tauto
    exact ⟨hm, plainRules_dec arm r hr⟩
  have : g'.Ssa ∧ k + g'.pot ≤ g.pot := by
    induction h with
    | refl => exact ⟨hg, by omega⟩
    | step _ s ih =>
      obtain ⟨h1, h2⟩ := ih hg
      have h3 := step_pot (fun r hr => allRules_local arm r (hsub r hr).1) (fun r hr => (hsub r hr).2)
        (fun r hr => allRules_small arm r (hsub r hr).1) h1 s
      exact ⟨step_ssa (fun r hr => allRules_local arm r (hsub r hr).1) h1 s, by omega⟩
  have h1 := pot_le g
  have h2 : g'.nodes.length ≤ g'.pot := by unfold Graph.pot; omega
  omega

/-- With all passes interleaved, a graph of `L` operations is converted in at most `(49 * L + 1) ^ 3` steps. -/
theorem C62_bound (arm : Bool) (safe : List Val → Prop) {k : Nat} {g g' : Graph} (hg : g.Ssa) (h : StepsN (allRules arm) safe k g g') :
    k ≤ (49 * g.nodes.length + 1) ^ 3 := by
  have : g'.Ssa ∧ g'.pot ≤ g.pot ∧ k + g'.pot2 (g.pot * g.pot) ≤ g.pot2 (g.pot * g.pot) := by
    induction h with
    | refl => exact ⟨hg, le_refl _, by omega⟩
    | step _ s ih =>
      obtain ⟨h1, h2, h3⟩ := ih hg
      obtain ⟨h4, h5⟩ := step_pot2 (allRules_local arm) (allRules_dec arm) (allRules_small arm) h1 s (Nat.mul_le_mul h2 h2)
      exact ⟨step_ssa (allRules_local arm) h1 s, le_trans h4 h2, by omega⟩
  have h1 := pot_le g
  have h2 : g.nodes.length ≤ g.pot := by unfold Graph.pot; omega
  have h3 := le_trans (depth_le g) (Nat.mul_le_mul h2 h2)
  refine le_trans (show k ≤ g.pot * (g.pot * g.pot + 1) + g.pot * g.pot from ?_) ?_
  · have := this.2.2
    unfold Graph.pot2 at this
    omega
  · have h4 := Nat.pow_le_pow_left (show g.pot + 1 ≤ 49 * g.nodes.length + 1 by omega) 3
    refine le_trans ?_ h4
    generalize g.pot = p
    nlinarith [Nat.zero_le p, sq_nonneg p]

/-! ### Examples -/

theorem exBlock_ssa : exBlock.Ssa := ssa_of_check (by decide +kernel) (by decide +kernel)

/-- A step is possible from the example graph: it is not a normal form. -/
example : ∃ g', Step (allRules false) (fun _ => True) exBlock g' := by
  obtain ⟨g', h⟩ := Option.isSome_iff_exists.1 (show (exBlock.move true (.rewrite (ruleSelect false) 5)).isSome = true by
    decide +kernel)
  exact ⟨g', move_step (exScript_rules (ruleSelect false) 5 (by simp [exScript])).1 (fun _ _ => ⟨rfl, atB_static rfl _ _⟩) h⟩

/-- The example graph has a normal form that computes what it computes. -/
example : ∃ g', Steps (allRules false) (fun _ => True) exBlock g' ∧
    (∀ g'', ¬ Step (allRules false) (fun _ => True) g' g'') ∧
    ∀ ins vs, True → exBlock.eval ins = some vs → g'.eval ins = some vs :=
  C62_converts false (fun _ => True) exBlock exBlock exBlock_ssa (.refl _)

end Verif.Ir
