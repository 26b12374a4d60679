import Verif.Spec.PipelineRel
import Verif.Proof.IrFilters
import Verif.Proof.IrFolded
import Verif.Props.IrTerm
import Verif.Props.Session

/-! The passes of the converter, one after the other. -/

namespace Verif.Ir

variable {arm : Bool} {F : Foreign} {safe : List Val → Prop}

theorem Rhs.noBConv_filt {P B : Op → Prop} {C : Nat → Prop} : ∀ {t : Rhs}, t.noBConv → t.filt P B C := by
  intro t
  refine Rhs.rec (motive_1 := fun t => t.noBConv → t.filt P B C)
    (motive_2 := fun l => Rhs.noBConvL l → Rhs.filtL P B C l) ?_ ?_ ?_ ?_ t
  · intro x _; trivial
  · intro o ty args ih h
    exact ⟨fun hb => (by rw [h.1] at hb; cases hb), ih h.2⟩
  · intro _; trivial
  · intro a as h1 h2 h
    exact ⟨h1 h.1, h2 h.2⟩

theorem Rhs.noBConv_good {C : Nat → Prop} : ∀ {t : Rhs}, t.noBConv → t.good C := by
  intro t
  refine Rhs.rec (motive_1 := fun t => t.noBConv → t.good C)
    (motive_2 := fun l => Rhs.noBConvL l → Rhs.goodL C l) ?_ ?_ ?_ ?_ t
  · intro x _; trivial
  · intro o ty args ih h
    exact ⟨fun hb => (by rw [h.1] at hb; cases hb), ih h.2⟩
  · intro _; trivial
  · intro a as h1 h2 h
    exact ⟨h1 h.1, h2 h.2⟩

theorem Rhs.from_closed {C : Nat → Prop} : ∀ {t : Rhs}, t.from C → t.closed C := by
  intro t
  refine Rhs.rec (motive_1 := fun t => t.from C → t.closed C)
    (motive_2 := fun l => Rhs.fromL C l → Rhs.closedL C l) ?_ ?_ ?_ ?_ t
  · intro x h; exact h
  · intro o ty args ih h
    exact ⟨h.1, ih h.2⟩
  · intro _; trivial
  · intro a as h1 h2 h
    exact ⟨h1 h.1, h2 h.2⟩

theorem Neutral.local {r : Rule} (h : Neutral r) : r.Local := h.uses

theorem Neutral.keepsF {r : Rule} (h : Neutral r) {P B : Op → Prop} (hP : ∀ o, P o → ∃ v, o = .const v) : r.KeepsF P B := by
  intro c n t C ha _ _ _
  refine ⟨Rhs.noBConv_filt (h.noBConv c n t ha), fun hp _ => ?_⟩
  obtain ⟨v, hv⟩ := hP _ hp
  rw [h.consts c n v hv] at ha
  cases ha

theorem Faithful.sound {r : Rule} (h : Faithful r) : r.Sound :=
  fun ins env c n t hd ha h1 h2 v hv => h.value ins env c n t hd.defs hd.wf ha h1 h2 v hv

theorem Faithful.keeps {r : Rule} (h : Faithful r) : r.Keeps :=
  fun c n t C ha h1 _ _ => ⟨Rhs.noBConv_good (h.noBConv c n t ha), fun hx => Rhs.from_closed (h.depends c n t C ha h1 hx)⟩

theorem floatConst_const {o : Op} (h : FloatConst o) : ∃ v, o = .const v := by
  unfold FloatConst at h
  split at h
  · exact ⟨_, rfl⟩
  · exact h.elim

theorem bitOp_const {o : Op} (h : BitOp o) : ∃ v, o = .const v := by
  unfold BitOp at h
  split at h
  · exact ⟨_, rfl⟩
  · exact h.elim

theorem floatConst_float {o : Op} (h : FloatConst o) : FloatOp o := by
  unfold FloatConst at h
  split at h
  · trivial
  · exact h.elim

theorem Graph.Chained.mono {P P' B : Op → Prop} (hP : ∀ o, P o → P' o) {g : Graph} (h : g.Chained P B) : g.Chained P' B := by
  obtain ⟨C, h1, h2⟩ := h
  refine ⟨C, fun x hx => ?_, h2⟩
  obtain ⟨m, e1, e2, e3, e4⟩ := h1 x hx
  exact ⟨m, e1, e2, hP _ e3, e4⟩

/-! ### Runs -/

theorem steps_ssa {rules : List Rule} (hl : ∀ r ∈ rules, r.Local) {g g' : Graph} (h : Steps rules safe g g')
    (hg : g.Ssa) : g'.Ssa := by
  induction h with
  | refl => exact hg
  | step _ s ih => exact step_ssa hl ih s

theorem steps_eval {rules : List Rule} (hl : ∀ r ∈ rules, r.Local) (hs : ∀ r ∈ rules, r.Sound) {g g' : Graph}
    (h : Steps rules safe g g') (hg : g.Ssa) {ins vs : List Val} (hi : safe ins) (hv : g.eval ins = some vs) :
    g'.eval ins = some vs := by
  have : g'.Ssa ∧ g'.eval ins = some vs := by
    induction h with
    | refl => exact ⟨hg, hv⟩
    | step _ s ih => exact ⟨step_ssa hl ih.1 s, step_eval hl hs ih.1 s hi ih.2⟩
  exact this.2

theorem steps_closed {rules : List Rule} (hl : ∀ r ∈ rules, r.Local) (hk : ∀ r ∈ rules, r.Keeps) {g g' : Graph}
    (h : Steps rules safe g g') (hg : g.Ssa) (hc : g.ClosedParams) : g'.ClosedParams := by
  have : g'.Ssa ∧ g'.ClosedParams := by
    induction h with
    | refl => exact ⟨hg, hc⟩
    | step _ s ih => exact ⟨step_ssa hl ih.1 s, step_closed hl hk ih.1 s ih.2⟩
  exact this.2

theorem steps_chained {rules : List Rule} {P B : Op → Prop} (hl : ∀ r ∈ rules, r.Local) (hk : ∀ r ∈ rules, r.KeepsF P B)
    {g g' : Graph} (h : Steps rules safe g g') (hg : g.Ssa) (hc : g.Chained P B) : g'.Chained P B := by
  have : g'.Ssa ∧ g'.Chained P B := by
    induction h with
    | refl => exact ⟨hg, hc⟩
    | step _ s ih => exact ⟨step_ssa hl ih.1 s, step_chained hl hk ih.1 s ih.2⟩
  exact this.2

/-! ### The patterns of the passes -/

/-- The patterns of a pass of `/repo` are among all patterns. -/
theorem pass_all {p : PassKind} (hp : p.isForeign = false) : ∀ r ∈ p.rules arm F, r ∈ allRules arm := by
  intro r hr
  have hA : ∀ x ∈ [prepareRules arm, [ruleBroadcast], optimizeRules arm, [ruleBitpackWeights], fusePadRules, quantizeRules,
      [ruleFold]], ∀ r ∈ x, r ∈ allRules arm := by
    intro x hx r hr
    have : allRules arm = List.flatten [prepareRules arm, [ruleBroadcast], optimizeRules arm, [ruleBitpackWeights],
        fusePadRules, quantizeRules, [ruleFold]] := by
      simp [allRules]
    rw [this]
    exact List.mem_flatten.2 ⟨x, hx, hr⟩
  have hfold : ruleFold ∈ allRules arm := hA [ruleFold] (by simp) _ (by simp)
  have happ : ∀ l ∈ [prepareRules arm, [ruleBroadcast], optimizeRules arm, [ruleBitpackWeights], fusePadRules, quantizeRules],
      r ∈ l ++ [ruleFold] → r ∈ allRules arm := by
    intro l hl h
    rcases List.mem_append.1 h with h | h
    · exact hA l (List.mem_append_left [[ruleFold]] hl) r h
    · rw [List.mem_singleton] at h
      rw [h]; exact hfold
  cases p with
  | foreign => cases hp
  | quantForeign => cases hp
  | optimize => exact happ (optimizeRules arm) (by simp) hr
  | bitpackWeights => exact happ [ruleBitpackWeights] (by simp) hr
  | fusePadding => exact happ fusePadRules (by simp) hr
  | lceQuantize => exact happ quantizeRules (by simp) hr
  | canonicalize => exact happ [ruleBroadcast] (by simp) hr
  | opRemoval =>
    refine happ (prepareRules arm) (by simp) ?_
    simp only [PassKind.rules, List.mem_cons, List.not_mem_nil, or_false] at hr
    rcases hr with rfl | rfl | rfl <;> simp [prepareRules]
  | prepare =>
    refine happ (prepareRules arm) (by simp) ?_
    simp only [PassKind.rules, List.mem_cons, List.mem_append, List.not_mem_nil, or_false] at hr
    rcases hr with (rfl | rfl | rfl | rfl | rfl | rfl | rfl) | hr
    all_goals first
      | (simp [prepareRules]; done)
      | skip
    cases arm
    · simp at hr
    · simp only [if_true, List.mem_singleton] at hr
      subst hr
      simp [prepareRules]

theorem pass_local (hF : ForeignOk F) (p : PassKind) : ∀ r ∈ p.rules arm F, r.Local := by
  intro r hr
  by_cases hp : p.isForeign = false
  · exact allRules_local arm r (pass_all hp r hr)
  · cases p with
    | foreign => exact (hF.faithful r hr).toNeutral.local
    | quantForeign => exact (hF.neutral r hr).local
    | _ => exact absurd rfl hp

theorem pass_sound (hF : ForeignOk F) {p : PassKind} (hq : p ≠ .quantForeign) : ∀ r ∈ p.rules arm F, r.Sound := by
  intro r hr
  by_cases hp : p.isForeign = false
  · exact allRules_sound arm r (pass_all hp r hr)
  · cases p with
    | foreign => exact (hF.faithful r hr).sound
    | quantForeign => exact absurd rfl hq
    | _ => exact absurd rfl hp

theorem pass_keeps (hF : ForeignOk F) {p : PassKind} (hq : p ≠ .quantForeign) : ∀ r ∈ p.rules arm F, r.Keeps := by
  intro r hr
  by_cases hp : p.isForeign = false
  · exact allRules_keeps arm r (pass_all hp r hr)
  · cases p with
    | foreign => exact (hF.faithful r hr).keeps
    | quantForeign => exact absurd rfl hq
    | _ => exact absurd rfl hp

/-- The passes before the weights are packed. -/
def PassKind.early : PassKind → Bool
  | .foreign | .opRemoval | .canonicalize | .prepare | .optimize => true
  | _ => false

/-- The passes that may run after the weights are packed. -/
def PassKind.late : PassKind → Bool
  | .foreign | .canonicalize | .fusePadding | .quantForeign | .lceQuantize => true
  | _ => false

theorem early_float {p : PassKind} (hp : p.early = true) (hf : p.isForeign = false) :
    ∀ r ∈ p.rules arm F, r.KeepsF FloatOp (PadOk arm false) := by
  intro r hr
  have h1 := ruleSelect_float arm
  have h2 := ruleSign_float arm
  have h3 := rulePrepareValid_float arm
  have h3' := rulePrepareSame_float
  have h4 := rulePadConv_float arm
  have h5 := rulePass_float arm
  have h6 := ruleIdentity_float arm
  have h7 := ruleGeZero_float arm
  have h8 := ruleGe_float arm
  have h9 := ruleLe_float arm
  have h10 := ruleFuseAddSub_float arm
  have h11 := ruleFuseMulDiv_float arm
  have h12 := ruleFuseAct_float arm (show Act.relu ≠ .other by simp)
  have h12' := ruleFuseAct_float arm (show Act.reluN1To1 ≠ .other by simp)
  have h12'' := ruleFuseAct_float arm (show Act.relu6 ≠ .other by simp)
  have h13 := ruleBitpackActivations_float arm
  have h14 := ruleMaxPool_float arm
  have h15 := ruleFold_float arm
  have h16 := ruleBroadcast_float arm
  cases p <;> first
    | (cases hp; done)
    | (cases hf; done)
    | skip
  all_goals
    cases arm <;>
    simp only [PassKind.rules, prepareRules, optimizeRules, if_true, Bool.false_eq_true, if_false, List.mem_append,
      List.mem_cons, List.not_mem_nil, or_false] at hr <;>
    aesop

theorem late_bit (hF : ForeignOk F) {p : PassKind} (hp : p.late = true) :
    ∀ r ∈ p.rules arm F, r.KeepsF BitOp (PadOk arm true) := by
  intro r hr
  have h1 := ruleFold_bit arm
  have h2 := ruleBroadcast_bit arm
  have h3 := ruleFusePad_bit arm
  have h4 := ruleFuseQuantize_bit arm
  have h5 := ruleDequantInt8_bit arm
  have h6 := ruleQuantInt8_bit arm
  have h7 := ruleStripQdq_bit arm
  cases p with
  | foreign => exact (hF.faithful r hr).toNeutral.keepsF fun o ho => bitOp_const ho
  | quantForeign => exact (hF.neutral r hr).keepsF fun o ho => bitOp_const ho
  | canonicalize =>
    simp only [PassKind.rules, List.mem_cons, List.not_mem_nil, or_false] at hr
    aesop
  | fusePadding =>
    simp only [PassKind.rules, fusePadRules, List.mem_append, List.mem_cons, List.not_mem_nil, or_false] at hr
    aesop
  | lceQuantize =>
    simp only [PassKind.rules, quantizeRules, List.mem_append, List.mem_cons, List.not_mem_nil, or_false] at hr
    aesop
  | _ => cases hp

/-! ### Invariants -/

/-- Before the weights are packed. -/
structure Early (arm : Bool) (ins vs : List Val) (g : Graph) : Prop where
  ssa : g.Ssa
  value : g.eval ins = some vs
  closed : g.ClosedParams
  chained : g.Chained FloatConst (PadOk arm false)

/-- In a finished graph with a value, what is computed by `P` is constant. -/
theorem finished_chained {rules : List Rule} {g : Graph} (hg : g.Ssa) (hfin : g.Finished rules) (hfold : ruleFold ∈ rules)
    {ins vs : List Val} (hv : g.eval ins = some vs) {P Q B : Op → Prop} (hP : ∀ o, P o → ∀ k, o ≠ .arg k)
    (hQ : ∀ v, P (.const v) → Q (.const v)) (h : g.Chained P B) : g.Chained Q B := by
  obtain ⟨C, hC, hB⟩ := h
  have hcl : ClosedSet g.nodes C := by
    intro x hx
    obtain ⟨m, h1, h2, h3, h4⟩ := hC x hx
    exact ⟨m, h1, h2, hP _ h3, h4⟩
  have hf : g.Folded := fun pre n post he => hfin.2 ruleFold hfold pre n post he
  refine ⟨C, fun x hx => ?_, hB⟩
  obtain ⟨m, h1, h2, h3, h4⟩ := hC x hx
  obtain ⟨pre, post, he⟩ := List.append_of_mem h1
  subst h2
  obtain ⟨e1, v, e2, _⟩ := folded_const hg hf (all_defined hg hfin.1 hv g.nodes [] rfl) hcl pre.length pre post m rfl he hx
  exact ⟨m, h1, rfl, by rw [e2] at h3 ⊢; exact hQ v h3, h4⟩

theorem floatOp_arg {o : Op} (h : FloatOp o) : ∀ k, o ≠ .arg k := by
  rintro k rfl
  exact h

theorem floatOp_const {v : Val} (h : FloatOp (.const v)) : FloatConst (.const v) := by
  cases v <;> first
    | exact h
    | exact h.elim

theorem fold_mem {p : PassKind} (hp : p.isForeign = false) : ruleFold ∈ p.rules arm F := by
  cases p <;> first
    | (cases hp; done)
    | simp [PassKind.rules]

theorem pass_early (hF : ForeignOk F) {p : PassKind} (hp : p.early = true) {g g' : Graph} (h : PassRun arm F safe p g g')
    {ins vs : List Val} (hi : safe ins) (hg : Early arm ins vs g) : Early arm ins vs g' := by
  have hq : p ≠ .quantForeign := by rintro rfl; cases hp
  obtain ⟨hs, hfin⟩ := h
  rw [if_neg hq] at hs
  have h1 := steps_ssa (pass_local hF p) hs hg.ssa
  have h2 := steps_eval (pass_local hF p) (pass_sound hF hq) hs hg.ssa hi hg.value
  have h3 := steps_closed (pass_local hF p) (pass_keeps hF hq) hs hg.ssa hg.closed
  refine ⟨h1, h2, h3, ?_⟩
  by_cases hf : p.isForeign = false
  · have h4 := steps_chained (pass_local hF p) (early_float hp hf) hs hg.ssa (hg.chained.mono fun o ho => floatConst_float ho)
    exact finished_chained h1 (hfin hf) (fold_mem hf) h2 (fun o ho => floatOp_arg ho) (fun v hv => floatOp_const hv) h4
  · have : p = .foreign := by
      cases p <;> first
        | rfl
        | (cases hp; done)
        | exact absurd rfl hf
    subst this
    exact steps_chained (pass_local hF .foreign)
      (fun r hr => (hF.faithful r hr).toNeutral.keepsF fun o ho => floatConst_const ho) hs hg.ssa hg.chained

theorem passes_early (hF : ForeignOk F) {ins vs : List Val} (hi : safe ins) : ∀ {ps : List PassKind} {g g' : Graph},
    (∀ p ∈ ps, p.early = true) → PassRuns arm F safe ps g g' → Early arm ins vs g → Early arm ins vs g'
  | [], _, _, _, .nil _, hg => hg
  | p :: ps, _, _, hp, .cons h hs, hg =>
    passes_early hF hi (fun q hq => hp q (by simp [hq])) hs (pass_early hF (hp p (by simp)) h hi hg)

/-- After the weights are packed. -/
structure Late (arm : Bool) (g : Graph) : Prop where
  ssa : g.Ssa
  chained : g.Chained BitOp (PadOk arm true)

theorem pass_late (hF : ForeignOk F) {p : PassKind} (hp : p.late = true) {g g' : Graph} (h : PassRun arm F safe p g g')
    (hg : Late arm g) : Late arm g' :=
  ⟨steps_ssa (pass_local hF p) h.1 hg.ssa, steps_chained (pass_local hF p) (late_bit hF hp) h.1 hg.ssa hg.chained⟩

theorem passes_late (hF : ForeignOk F) : ∀ {ps : List PassKind} {g g' : Graph},
    (∀ p ∈ ps, p.late = true) → PassRuns arm F safe ps g g' → Late arm g → Late arm g'
  | [], _, _, _, .nil _, hg => hg
  | p :: ps, _, _, hp, .cons h hs, hg =>
    passes_late hF (fun q hq => hp q (by simp [hq])) hs (pass_late hF (hp p (by simp)) h hg)

theorem passRuns_append {ps qs : List PassKind} : ∀ {g g' : Graph}, PassRuns arm F safe (ps ++ qs) g g' →
    ∃ k, PassRuns arm F safe ps g k ∧ PassRuns arm F safe qs k g' := by
  induction ps with
  | nil => exact fun h => ⟨_, .nil _, h⟩
  | cons p ps ih =>
    intro g g' h
    cases h with
    | cons h hs =>
      obtain ⟨k, h1, h2⟩ := ih hs
      exact ⟨k, .cons h h1, h2⟩

/-- The operands of a BConv2D that has a value. -/
theorem bconv_args {g : Graph} (hg : g.Ssa) {ins : List Val} {n : Node} (hn : n ∈ g.nodes) {a : BConvAttrs} (ho : n.op = .bconv a)
    {v : Val} (hv : runNodes ins g.nodes (fun _ => Option.none) n.name = some v) :
    ∃ x f m b t vx vf vm vb vt, n.args = [x, f, m, b, t] ∧ bconvEval a [vx, vf, vm, vb, vt] = some v ∧
      runNodes ins g.nodes (fun _ => Option.none) x = some vx ∧ runNodes ins g.nodes (fun _ => Option.none) f = some vf ∧
      runNodes ins g.nodes (fun _ => Option.none) m = some vm ∧ runNodes ins g.nodes (fun _ => Option.none) b = some vb ∧
      runNodes ins g.nodes (fun _ => Option.none) t = some vt := by
  rw [hg.scoped.defs ins hn] at hv
  obtain ⟨nm, o, args, ty⟩ := n
  simp only at ho
  subst ho
  have hlen : ∃ x f m b t, args = [x, f, m, b, t] := by
    obtain ⟨l, hl, hr, _⟩ := node_eval hv
    replace hl : args.mapM _ = some l := hl
    replace hr : bconvEval a l = some v := hr
    have hl5 : ∃ vx vf vm vb vt, l = [vx, vf, vm, vb, vt] := by
      unfold bconvEval at hr
      split at hr
      · exact ⟨_, _, _, _, _, rfl⟩
      · cases hr
    obtain ⟨vx, vf, vm, vb, vt, rfl⟩ := hl5
    rcases args with _ | ⟨x, _ | ⟨f, _ | ⟨m, _ | ⟨b, _ | ⟨t, _ | ⟨u, r⟩⟩⟩⟩⟩⟩
    case cons.cons.cons.cons.cons.nil => exact ⟨x, f, m, b, t, rfl⟩
    all_goals
      exfalso
      simp only [mapM_cons', mapM_nil', Option.bind_eq_some_iff, Option.map_eq_some_iff] at hl
      simp at hl
  obtain ⟨x, f, m, b, t, rfl⟩ := hlen
  obtain ⟨vx, vf, vm, vb, vt, h1, h2, h3, h4, h5, h6, _⟩ := eval5 hv
  exact ⟨x, f, m, b, t, vx, vf, vm, vb, vt, rfl, h6, h1, h2, h3, h4, h5⟩

theorem anyOp_const {v : Val} (h : AnyOp (.const v)) : (∃ t, v = .f t) ∨ BitOp (.const v) := by
  rcases h with h | h
  · cases v <;> first
      | exact Or.inl ⟨_, rfl⟩
      | exact (h : False).elim
  · exact Or.inr h

theorem anyOp_arg {o : Op} (h : AnyOp o) : ∀ k, o ≠ .arg k := by
  rintro k rfl
  rcases h with h | h <;> exact h

/-- After the pass that packs weights, all filters are packed. -/
theorem pass_bitpack (hF : ForeignOk F) {g g' : Graph} (h : PassRun arm F safe .bitpackWeights g g') {ins vs : List Val}
    (hi : safe ins) (hg : Early arm ins vs g) : g'.eval ins = some vs ∧ Late arm g' := by
  obtain ⟨hs, hfin⟩ := h
  rw [if_neg (by decide)] at hs
  replace hfin := hfin rfl
  have h1 := steps_ssa (pass_local hF _) hs hg.ssa
  have h2 := steps_eval (pass_local hF _) (pass_sound hF (by decide)) hs hg.ssa hi hg.value
  have h4 : g'.Chained AnyOp (PadOk arm false) := by
    refine steps_chained (pass_local hF _) ?_ hs hg.ssa (hg.chained.mono fun o ho => Or.inl (floatConst_float ho))
    intro r hr
    simp only [PassKind.rules, List.mem_cons, List.not_mem_nil, or_false] at hr
    rcases hr with rfl | rfl
    · exact ruleBitpackWeights_any arm
    · exact ruleFold_any arm
  obtain ⟨C, hC, hB⟩ := h4
  have hcl : ClosedSet g'.nodes C := by
    intro x hx
    obtain ⟨m, h1, h2, h3, h4⟩ := hC x hx
    exact ⟨m, h1, h2, anyOp_arg h3, h4⟩
  have hf : g'.Folded := fun pre n post he => hfin.2 ruleFold (fold_mem rfl) pre n post he
  have hdef := all_defined h1 hfin.1 h2 g'.nodes [] rfl
  refine ⟨h2, h1, fun x => ∃ n ∈ g'.nodes, n.op.isBConv = true ∧ n.args[1]? = some x, ?_, ?_⟩
  · rintro f ⟨n, hn, hb, hx⟩
    obtain ⟨hpad, f', hf', hCf⟩ := hB n hn hb
    rw [hx] at hf'
    cases hf'
    obtain ⟨m, m1, m2, m3, m4⟩ := hC f hCf
    obtain ⟨pre, post, he⟩ := List.append_of_mem m1
    subst m2
    obtain ⟨e1, v, e2, _⟩ := folded_const h1 hf hdef hcl pre.length pre post m rfl he hCf
    rw [e2] at m3
    refine ⟨m, m1, rfl, ?_, by rw [e1]; simp⟩
    rcases anyOp_const m3 with ⟨t, rfl⟩ | hb'
    · exfalso
      have ho : ∃ a, n.op = .bconv a := by
        cases hop : n.op <;> rw [hop] at hb hpad <;> first
          | (cases hb; done)
          | exact ⟨_, rfl⟩
          | (exact absurd hpad.1 (by decide))
      obtain ⟨a, ho⟩ := ho
      obtain ⟨v, hv⟩ := hdef n hn
      obtain ⟨x, f, mu, b, th, vx, vf, vm, vb, vt, ha, hev, _, hvf, _⟩ := bconv_args h1 hn ho hv
      rw [ha] at hx
      simp only [List.getElem?_cons_succ, List.getElem?_cons_zero, Option.some.injEq] at hx
      subst hx
      have hmv : vf = .f t := by
        rw [h1.scoped.defs ins m1] at hvf
        obtain ⟨l, k1, k2, _⟩ := node_eval hvf
        rw [e1] at k1
        rw [e2] at k2
        rw [mapM_nil'] at k1
        cases k1
        exact (Option.some.inj k2).symm
      subst hmv
      obtain ⟨q, q', hn'⟩ := List.append_of_mem hn
      have happ := hfin.2 ruleBitpackWeights (by simp [PassKind.rules]) q n q' hn'
      have hlook : lookIn q m.name = some m := by
        have hq := h1.scoped.args q n q' hn' m.name (by rw [ha]; simp)
        obtain ⟨m', hm', hmm⟩ := List.mem_map.1 hq
        have hnd : (q.map (·.name)).Nodup := by
          have := h1.1
          rw [hn', List.map_append] at this
          exact (List.nodup_append.1 this).1
        have e := lookIn_mem hnd hm'
        rw [hmm] at e
        rw [e]
        have e3 := lookIn_mem h1.1 (show m' ∈ g'.nodes by rw [hn']; simp [hm'])
        rw [hmm, lookIn_mem h1.1 m1] at e3
        exact e3.symm
      have hco : Ctx.constOf ⟨lookIn q, g'.uses⟩ m.name = some (.f t) := by
        unfold Ctx.constOf
        simp only
        rw [hlook]
        obtain ⟨nm, o, as, ty⟩ := m
        simp only at e1 e2
        subst e1 e2
        rfl
      obtain ⟨nm, o, as, ty⟩ := n
      simp only at ho ha
      subst ho ha
      have hlen : t.shape.length = 4 := by
        unfold bconvEval at hev
        split at hev
        · rename_i heq
          cases heq
          split at hev
          · rename_i hs _
            replace hs : t.shape = _ := hs
            rw [hs]; rfl
          · cases hev
        · cases hev
      simp only [ruleBitpackWeights] at happ
      rw [hco] at happ
      simp only [hlen, if_true] at happ
      cases happ
    · rw [e2]; exact hb'
  · intro n hn hb
    obtain ⟨hpad, f, hf', _⟩ := hB n hn hb
    refine ⟨?_, f, hf', n, hn, hb, hf'⟩
    cases hop : n.op <;> rw [hop] at hpad <;> first
      | exact hpad
      | exact ⟨rfl, hpad.2⟩

theorem act_supported_cases {a : Act} (h : a ≠ .other) : a = .none ∨ a = .relu ∨ a = .reluN1To1 ∨ a = .relu6 := by
  cases a <;> simp at h ⊢

/-- The properties of the graph that `Late` means. -/
theorem Late.packed {g : Graph} (h : Late arm g) : g.PackedFilters ∧ g.PaddingOk arm ∧ g.ActivationsOk := by
  obtain ⟨hs, C, hC, hB⟩ := h
  rw [← and_assoc]
  refine ⟨⟨fun n hn hb => ?_, fun n hn a ha => ?_⟩, fun n hn a ha => ?_⟩
  · obtain ⟨_, f, hf, hCf⟩ := hB n hn hb
    obtain ⟨m, m1, m2, m3, _⟩ := hC f hCf
    rcases hargs : n.args with _ | ⟨x, _ | ⟨f', rest⟩⟩
    · rw [hargs] at hf; cases hf
    · rw [hargs] at hf; cases hf
    · rw [hargs] at hf
      simp only [List.getElem?_cons_succ, List.getElem?_cons_zero, Option.some.injEq] at hf
      subst hf
      refine ⟨x, f', rest, rfl, m, m1, m2, ?_⟩
      unfold BitOp at m3
      split at m3
      · rename_i t ht
        exact ⟨t, ht, m3⟩
      · exact m3.elim
  · cases hop : n.op <;> rw [hop] at ha <;> simp only [Op.bconvAttrs, Option.some.injEq, reduceCtorEq] at ha
    · subst ha
      have := (hB n hn (by rw [hop]; rfl)).1
      rw [hop] at this
      exact this.2
    · subst ha
      have := (hB n hn (by rw [hop]; rfl)).1
      rw [hop] at this
      exact this.2.2
  · cases hop : n.op <;> rw [hop] at ha <;> simp only [Op.bconvAttrs, Option.some.injEq, reduceCtorEq] at ha
    · subst ha
      have := (hB n hn (by rw [hop]; rfl)).1
      rw [hop] at this
      exact act_supported_cases this.1
    · subst ha
      have := (hB n hn (by rw [hop]; rfl)).1
      rw [hop] at this
      exact act_supported_cases this.2.1

/-! ### Looking at nodes -/

/-- A node whose name is defined in a prefix is found there. -/
theorem look_in {g : Graph} (hg : g.Ssa) {pre post : List Node} (he : g.nodes = pre ++ post) {m : Node} (hm : m ∈ g.nodes)
    (hp : m.name ∈ pre.map (·.name)) : lookIn pre m.name = some m := by
  obtain ⟨m', hm', hmm⟩ := List.mem_map.1 hp
  have hnd : (pre.map (·.name)).Nodup := by
    have := hg.1
    rw [he, List.map_append] at this
    exact (List.nodup_append.1 this).1
  have e := lookIn_mem hnd hm'
  rw [hmm] at e
  rw [e]
  have e3 := lookIn_mem hg.1 (show m' ∈ g.nodes by rw [he]; simp [hm'])
  rw [hmm, lookIn_mem hg.1 hm] at e3
  exact e3.symm

/-- An operand is found before the node. -/
theorem look_arg {g : Graph} (hg : g.Ssa) {pre post : List Node} {n : Node} (he : g.nodes = pre ++ n :: post) {m : Node}
    (hm : m ∈ g.nodes) (hx : m.name ∈ n.args) : lookIn pre m.name = some m :=
  look_in hg he hm (hg.scoped.args pre n post he _ hx)

/-- An operand of an operand is found before the node. -/
theorem look_arg2 {g : Graph} (hg : g.Ssa) {pre post : List Node} {n : Node} (he : g.nodes = pre ++ n :: post) {y m : Node}
    (hy : y ∈ g.nodes) (hyn : y.name ∈ n.args) (hm : m ∈ g.nodes) (hx : m.name ∈ y.args) : lookIn pre m.name = some m := by
  obtain ⟨hl, _⟩ := lookIn_some (look_arg hg he hy hyn)
  obtain ⟨q, q', hq⟩ := List.append_of_mem hl
  refine look_in hg he hm ?_
  rw [hq, List.map_append]
  exact List.mem_append_left _ (hg.scoped.args q y (q' ++ n :: post) (by rw [he, hq]; simp) _ hx)

theorem const_of_look {c : Ctx} {m : Node} {v : Val} (h : c.look m.name = some m) (ha : m.args = []) (ho : m.op = .const v) :
    c.constOf m.name = some v := by
  unfold Ctx.constOf
  rw [h]
  obtain ⟨nm, o, as, ty⟩ := m
  simp only at ha ho
  subst ha ho
  rfl

/-- The value of a constant. -/
theorem const_run {g : Graph} (hg : g.Ssa) {ins : List Val} {m : Node} (hm : m ∈ g.nodes) {v w : Val} (ha : m.args = [])
    (ho : m.op = .const v) (hv : runNodes ins g.nodes (fun _ => Option.none) m.name = some w) : w = v := by
  rw [hg.scoped.defs ins hm] at hv
  obtain ⟨l, k1, k2, _⟩ := node_eval hv
  rw [ha, mapM_nil'] at k1
  cases k1
  rw [ho] at k2
  exact (Option.some.inj k2).symm

/-! ### Runs exist -/

theorem finished_of_no_step {rules : List Rule} {g : Graph} (h : ∀ g'', ¬ Step rules (fun _ => False) g g'') :
    g.Finished rules := by
  have hu : ∀ n ∈ g.nodes, 0 < g.uses n.name := by
    intro n hn
    obtain ⟨pre, post, he⟩ := List.append_of_mem hn
    by_contra h0
    exact h _ (.erase he (by omega))
  refine ⟨hu, fun r hr pre n post he => ?_⟩
  cases ha : r.apply ⟨lookIn pre, g.uses⟩ n with
  | none => rfl
  | some t => exact absurd (.rewrite r hr he (hu n (by rw [he]; simp)) ha fun _ hi => hi.elim) (h _)

theorem pass_exists (arm : Bool) (F : Foreign) (p : PassKind) {g : Graph} (hg : g.Ssa) :
    ∃ g', PassRun arm F (fun _ => False) p g g' ∧ g'.Ssa := by
  by_cases hp : p.isForeign = true
  · refine ⟨g, ⟨.refl g, fun h => ?_⟩, hg⟩
    rw [hp] at h; cases h
  · replace hp : p.isForeign = false := by simpa using hp
    have hl : ∀ r ∈ p.rules arm F, r.Local := fun r hr => allRules_local arm r (pass_all hp r hr)
    have hd := fun r hr => allRules_dec arm r (pass_all (F := F) hp r hr)
    have : ∀ k, Acc Below k → k.Ssa → Steps (p.rules arm F) (fun _ => False) g k →
        ∃ g', Steps (p.rules arm F) (fun _ => False) g g' ∧ g'.Ssa ∧ ∀ g'', ¬ Step (p.rules arm F) (fun _ => False) g' g'' := by
      intro k hk
      induction hk with
      | intro k _ ih =>
        intro hs hgk
        by_cases hn : ∃ g'', Step (p.rules arm F) (fun _ => False) k g''
        · obtain ⟨g'', h⟩ := hn
          exact ih g'' (step_below hl hd hs h) (step_ssa hl hs h) (hgk.step h)
        · exact ⟨k, hgk, hs, fun g'' h => hn ⟨g'', h⟩⟩
    obtain ⟨g', h1, h2, h3⟩ := this g (below_wf.apply g) hg (.refl g)
    refine ⟨g', ⟨?_, fun _ => finished_of_no_step h3⟩, h2⟩
    split <;> exact h1

end Verif.Ir
