import Verif.Proof.SessionFlGraph
import Verif.Props.Session
import Verif.Props.ExecFl

/-!
C75: an interpreter gives the same results over its whole lifetime, in floating-point arithmetic: any history of inferences,
resizes and failed resizes leaves a state in which the next inference writes, bit for bit, what a new interpreter writes on the
same target, hence (C74) results within the tolerances of the original graph.
-/

namespace Verif.Ir

/-- **C75, state.** On a target with any arithmetic (no accuracy is assumed here): whatever happened to an interpreter before, the
next inference has exactly the outcome it has in a new interpreter. The earlier inferences may have had any arguments, orders of
writes, roundings to integers and TFLite kernels. For the indirect kernel the input tensors of its nodes must be at the same place
with the same shape in all inferences. -/
theorem C75_history (R : FlEnv) (kt : KernelType) {g : Graph} (hg : g.Ssa) (hc : g.ConstParams) (D : Nat → InputDesc)
    {es : List EventFl} {st : State} (h : g.sessionFl R kt es State.new = some st)
    (hes : ∀ F cfg k ins, EventFl.infer F cfg k ins ∈ es → kt = .indirect →
      g.InputsAtFl { F with R := R } { cfg with kt := kt } ins D)
    {F : FlCfg} (hR : F.R = R) {cfg : Cfg} (hkt : cfg.kt = kt) (k : Calls) (ins : List MVal)
    (hlast : kt = .indirect → g.InputsAtFl F cfg ins D) :
    (g.stepFl F cfg k ins st).1 = g.execFl F cfg ins := by
  subst hkt hR
  exact (stepFl_spec hg hc hlast (sessionFl_inv hg hc es hes (SInvFl.new F.R cfg.kt g D) h)).1

/-- **C75, no undefined behaviour.** If `Prepare` is defined for all nodes and no inference reaches undefined behaviour in
a new interpreter, then no history of these inferences and of `Prepare` calls does. -/
theorem C75_history_defined {R : FlEnv} {kt : KernelType} {g : Graph} (hg : g.Ssa) (hc : g.ConstParams) (D : Nat → InputDesc)
    (hprep : ∀ nm nd i, g.convNode kt nm = some nd → prepare nd i ≠ .ub) (es : List EventFl)
    (hes : ∀ F cfg k ins, EventFl.infer F cfg k ins ∈ es → g.execFl { F with R := R } { cfg with kt := kt } ins ≠ .ub ∧
      (kt = .indirect → g.InputsAtFl { F with R := R } { cfg with kt := kt } ins D)) :
    ∃ st, g.sessionFl R kt es State.new = some st := by
  have key : ∀ (es : List EventFl) (st : State), SInvFl R kt g D st →
      (∀ F cfg k ins, EventFl.infer F cfg k ins ∈ es → g.execFl { F with R := R } { cfg with kt := kt } ins ≠ .ub ∧
        (kt = .indirect → g.InputsAtFl { F with R := R } { cfg with kt := kt } ins D)) →
      ∃ st', g.sessionFl R kt es st = some st' := by
    intro es
    induction es with
    | nil => intro st _ _; exact ⟨st, rfl⟩
    | cons e es ih =>
      intro st hs hes
      have hes' := fun F cfg k ins hm => hes F cfg k ins (List.mem_cons_of_mem _ hm)
      cases e with
      | prepare nm i left =>
        unfold Graph.sessionFl
        split
        · exact ih st hs hes'
        · rename_i nd hnd
          have hi := (hs nm nd hnd).callPrepare (i := i) left (convNode_type hnd)
          have hne : (callPrepare nd i left (st nm)).1 ≠ .ub := by
            have := hprep nm nd i hnd
            unfold callPrepare
            split <;> simp_all
          generalize callPrepare nd i left (st nm) = w at hi hne
          obtain ⟨o, s⟩ := w
          have hup : SInvFl R kt g D fun x => if x = nm then s else st x := hs.update (by
            intro nd' hnd'
            rw [hnd] at hnd'
            cases hnd'
            exact hi)
          cases o with
          | ub => exact absurd rfl hne
          | error => exact ih _ hup hes'
          | ok _ => exact ih _ hup hes'
      | infer F cfg k ins =>
        obtain ⟨h1, h2⟩ := hes F cfg k ins (by simp)
        have hst := stepFl_spec (F := { F with R := R }) (cfg := { cfg with kt := kt }) (k := k) hg hc h2 hs
        unfold Graph.sessionFl
        generalize Graph.stepFl { F with R := R } { cfg with kt := kt } k g ins st = w at hst
        obtain ⟨o, s⟩ := w
        obtain ⟨h3, h4⟩ := hst
        simp only at h3
        rw [← h3] at h1
        cases o with
        | ub => exact absurd rfl h1
        | error => exact ih _ h4 hes'
        | ok _ => exact ih _ h4 hes'
  exact key es State.new (SInvFl.new R kt g D) hes

/-- **C75.** The original graph `g` is converted to `g'`. An interpreter with any of the three kernels, on a target whose float and
double arithmetic rounds to nearest, loads `g'` and goes through any history of inferences (each with its own tolerances) and
`Prepare` calls. No undefined behaviour is reached, and the next inference is refused exactly in the listed cases; otherwise each
output tensor is within its tolerance of the result of `g`. -/
theorem C75_lifetime_partial (arm : Bool) {R : FlEnv} {kt : KernelType} {g g' : Graph} (hg : g.Ssa) {safe : List Val → Prop}
    (hconv : Steps (allRules arm) safe g g') (hu : ∀ n ∈ g'.nodes, 0 < g'.uses n.name) (hc : g'.ConstParams)
    (D : Nat → InputDesc) (es : List EventFl)
    (hes : ∀ F cfg k mins, EventFl.infer F cfg k mins ∈ es → ∃ T ins vs, InScopeFl R kt g g' safe D F T cfg ins mins vs)
    {F : FlCfg} {T : Nat → Rat} {cfg : Cfg} {ins vs : List Val} {mins : List MVal}
    (h : InScopeFl R kt g g' safe D F T cfg ins mins vs) (k : Calls) :
    ∃ st, g'.sessionFl R kt es State.new = some st ∧
      (g'.Rejected cfg ins → (g'.stepFl F cfg k mins st).1 = .error) ∧
      (¬ g'.Rejected cfg ins → ∃ ms, (g'.stepFl F cfg k mins st).1 = .ok ms ∧
        List.Forall₂ (fun p m => RepNear p.2 p.1 m) (vs.zip (g'.outs.map T)) ms) := by
  have hg' := C61_well_formed arm safe hg hconv
  have hrun : ∀ {F T cfg ins mins vs}, InScopeFl R kt g g' safe D F T cfg ins mins vs →
      (g'.Rejected cfg ins → g'.execFl F cfg mins = .error) ∧
      (¬ g'.Rejected cfg ins → ∃ ms, g'.execFl F cfg mins = .ok ms ∧
        List.Forall₂ (fun p m => RepNear p.2 p.1 m) (vs.zip (g'.outs.map T)) ms) := by
    intro F T cfg ins mins vs h
    exact C74_inference h.proper hg' hu h.scheduled (h.kernel ▸ h.tame) h.tolerances h.tensors
      (C61_rewriting_preserves_partial arm safe hg hconv ins vs h.safe h.results)
  have hes' : ∀ F cfg k mins, EventFl.infer F cfg k mins ∈ es → g'.execFl { F with R := R } { cfg with kt := kt } mins ≠ .ub ∧
      (kt = .indirect → g'.InputsAtFl { F with R := R } { cfg with kt := kt } mins D) := by
    intro F cfg k mins hm
    obtain ⟨T, ins, vs, h⟩ := hes F cfg k mins hm
    have e : { cfg with kt := kt } = cfg := by rw [← h.kernel]
    have e' : { F with R := R } = F := by rw [← h.arith]
    rw [e, e']
    refine ⟨?_, h.inputs⟩
    obtain ⟨h1, h2⟩ := hrun h
    by_cases hr : g'.Rejected cfg ins
    · rw [h1 hr]; intro hc; cases hc
    · obtain ⟨ms, h3, _⟩ := h2 hr
      rw [h3]; intro hc; cases hc
  have hprep : ∀ nm nd i, g'.convNode kt nm = some nd → prepare nd i ≠ .ub := by
    intro nm nd i hnd
    have hk := h.kernel
    subst hk
    exact prepare_defined hg' hu h.scheduled h.tame (C61_rewriting_preserves_partial arm safe hg hconv ins vs h.safe h.results) hnd i
  obtain ⟨st, hst⟩ := C75_history_defined hg' hc D hprep es hes'
  refine ⟨st, hst, ?_⟩
  rw [C75_history R kt hg' hc D hst (fun F cfg k ins hm => (hes' F cfg k ins hm).2) h.arith h.kernel k mins h.inputs]
  exact hrun h

/-- **C75 for converted models.** As `C75_lifetime_partial`, with no condition on the parameters: the original graph has no
BConv2D (`noBConv_paramsFixed`), and nothing is left to fold in the converted one. -/
theorem C75_converted_lifetime_partial (arm : Bool) {R : FlEnv} {kt : KernelType} {g g' : Graph} (hg : g.Ssa) (hp : g.ParamsFixed)
    {safe : List Val → Prop} (hconv : Steps (allRules arm) safe g g') (hu : ∀ n ∈ g'.nodes, 0 < g'.uses n.name)
    (hf : g'.Folded) (D : Nat → InputDesc) (es : List EventFl)
    (hes : ∀ F cfg k mins, EventFl.infer F cfg k mins ∈ es → ∃ T ins vs, InScopeFl R kt g g' safe D F T cfg ins mins vs)
    {F : FlCfg} {T : Nat → Rat} {cfg : Cfg} {ins vs : List Val} {mins : List MVal}
    (h : InScopeFl R kt g g' safe D F T cfg ins mins vs) (k : Calls) :
    ∃ st, g'.sessionFl R kt es State.new = some st ∧
      (g'.Rejected cfg ins → (g'.stepFl F cfg k mins st).1 = .error) ∧
      (¬ g'.Rejected cfg ins → ∃ ms, (g'.stepFl F cfg k mins st).1 = .ok ms ∧
        List.Forall₂ (fun p m => RepNear p.2 p.1 m) (vs.zip (g'.outs.map T)) ms) :=
  C75_lifetime_partial arm hg hconv hu (C64_params_constant arm hg hp hconv hu hf h.safe h.results) D es hes h k

/-- **C75, inferences do not influence each other**: after two different histories the same inference writes the same tensors, bit
for bit. -/
theorem C75_histories_agree (R : FlEnv) (kt : KernelType) {g : Graph} (hg : g.Ssa) (hc : g.ConstParams) (D : Nat → InputDesc)
    {es es' : List EventFl} {st st' : State} (h : g.sessionFl R kt es State.new = some st)
    (h' : g.sessionFl R kt es' State.new = some st')
    (hes : ∀ F cfg k ins, EventFl.infer F cfg k ins ∈ es ++ es' → kt = .indirect →
      g.InputsAtFl { F with R := R } { cfg with kt := kt } ins D)
    {F : FlCfg} (hR : F.R = R) {cfg : Cfg} (hkt : cfg.kt = kt) (k k' : Calls) (ins : List MVal)
    (hlast : kt = .indirect → g.InputsAtFl F cfg ins D) :
    (g.stepFl F cfg k ins st).1 = (g.stepFl F cfg k' ins st').1 := by
  rw [C75_history R kt hg hc D h (fun F cfg k ins hm => hes F cfg k ins (by simp [hm])) hR hkt k ins hlast,
    C75_history R kt hg hc D h' (fun F cfg k ins hm => hes F cfg k ins (by simp [hm])) hR hkt k' ins hlast]

/-! ### The hypotheses are needed -/

/-- Arithmetic that does not round. -/
def exactEnv : FlEnv := ⟨id, id, false⟩

/-- A configuration of the arithmetic for the witnesses. -/
def witF (R : FlEnv) : FlCfg := ⟨R, roundHalfAway, fun _ _ l => l, fun _ _ _ => Option.none⟩

/-- As `C64_variable_multiplier_witness`, even in an arithmetic without rounding: a multiplier that is not a constant is read in
the first inference only. -/
theorem C75_variable_multiplier_witness :
    ((varMultiplier.sessionFl exactEnv .bgemm [.infer (witF exactEnv) (exCfg .bgemm false) noCalls
        [.plain (.f ⟨[1, 1, 1, 1], [1]⟩), .plain (.f ⟨[1], [1]⟩)]] State.new).map fun st =>
      (varMultiplier.stepFl (witF exactEnv) (exCfg .bgemm false) noCalls
        [.plain (.f ⟨[1, 1, 1, 1], [1]⟩), .plain (.f ⟨[1], [2]⟩)] st).1)
        = some (.ok [.plain (.f ⟨[1, 1, 1, 1], [1]⟩)]) ∧
    varMultiplier.execFl (witF exactEnv) (exCfg .bgemm false) [.plain (.f ⟨[1, 1, 1, 1], [1]⟩), .plain (.f ⟨[1], [2]⟩)]
        = .ok [.plain (.f ⟨[1, 1, 1, 1], [2]⟩)] := by
  refine ⟨?_, ?_⟩
  · kernel_rfl
  · kernel_rfl

/-- The condition on the indirect kernel is needed: after an inference with one pixel, an inference with two pixels at the
same address leaves the second pixel of the output (here 9, 10, 11, 12) as it was. -/
theorem C75_indirect_resize_witness : fixedMultiplier.ConstParams ∧
    ((fixedMultiplier.sessionFl exactEnv .indirect [.infer (witF exactEnv) (exCfg .indirect false) noCalls
        [.plain (.f ⟨[1, 1, 1, 1], [1]⟩)]] State.new).map fun st =>
      (fixedMultiplier.stepFl (witF exactEnv) (exCfg .indirect false) noCalls [.plain (.f ⟨[1, 1, 2, 1], [1, -1]⟩)] st).1)
        = some (.ok [.plain (.f ⟨[1, 1, 2, 4], [1, -1, 1, -1, 9, 10, 11, 12]⟩)]) ∧
    fixedMultiplier.execFl (witF exactEnv) (exCfg .indirect false) [.plain (.f ⟨[1, 1, 2, 1], [1, -1]⟩)]
        = .ok [.plain (.f ⟨[1, 1, 2, 4], [1, -1, 1, -1, -1, 1, -1, 1]⟩)] := by
  refine ⟨Graph.constParamsB_iff (by decide +kernel), ?_, ?_⟩
  · kernel_rfl
  · kernel_rfl

/-! ### Non-vacuity -/

/-- In the example of C74 the input of the convolution is always at the same place. -/
theorem exFl_inputs (F : FlCfg) (kt : KernelType) :
    exFl.InputsAtFl F (exCfg kt false) (exFlArg.map .plain) (fun nm => ⟨[1, 1, 2, 1], (exCfg kt false).dyn nm, (exCfg kt false).loc nm⟩) := by
  intro pre n post he hb env x m hpre hx hm
  have hi : exFl.nodes[pre.length]? = some n := by rw [he]; simp
  have hl : pre.length < 9 := by
    have := congrArg List.length he
    simp [exFl] at this
    omega
  have ht : pre = exFl.nodes.take pre.length := by rw [he]; simp
  have h6 : pre.length = 6 := by
    revert hi hb
    generalize pre.length = c at hl
    intro hb hi
    match c, hl with
    | 0, _ => cases hi; cases hb
    | 1, _ => cases hi; cases hb
    | 2, _ => cases hi; cases hb
    | 3, _ => cases hi; cases hb
    | 4, _ => cases hi; cases hb
    | 5, _ => cases hi; cases hb
    | 6, _ => rfl
    | 7, _ => cases hi; cases hb
    | 8, _ => cases hi; cases hb
  rw [h6] at ht hi
  cases hi
  cases hx
  have hn : execNodesFl F (exCfg kt false) (exFlArg.map .plain) (exFl.nodes.take 6) (fun _ => none)
      = .ok fun x => if x = 5 then some (.plain .none) else if x = 4 then some (.plain (.f ⟨[1], [13421773 / 134217728]⟩))
          else if x = 3 then some (.plain (.f ⟨[1], [11184811 / 33554432]⟩)) else if x = 2 then some (.words [1, 1, 1, 1] [1#32])
          else if x = 1 then some (.words [1, 1, 2, 1] [2#32, 1#32])
          else if x = 0 then some (.plain (.f ⟨[1, 1, 2, 2], [3, -1 / 2, -2, 7]⟩)) else none := by kernel_rfl
  rw [ht, hn] at hpre
  cases hpre
  cases hm
  rfl

/-- The hypotheses of C75 are met by the example of C74 on all three kernels, with an arithmetic that rounds; the history has a
`Prepare` that fails, two inferences and a `Prepare` for another shape. -/
example : ∃ F : FlCfg, F.Proper ∧ ∀ kt, ∃ st m,
    exFl.sessionFl F.R kt [.prepare 6 ⟨[1, 2, 2], false, 0⟩ OpData.new.p, .infer F (exCfg kt false) noCalls (exFlArg.map .plain),
      .prepare 6 ⟨[1, 5, 5, 1], false, 8⟩ OpData.new.p, .infer F (exCfg kt false) noCalls (exFlArg.map .plain)] State.new = some st ∧
    (exFl.stepFl F (exCfg kt false) noCalls (exFlArg.map .plain) st).1 = .ok [m, .words [1, 1, 2, 1] [1#32, 0#32]] ∧
    RepNear (1 / 5000) (.f ⟨[1, 1, 2, 1], [0, 2 * (11184811 / 33554432) + 13421773 / 134217728]⟩) m := by
  obtain ⟨R, h1, h2, _⟩ := exists_flEnv false
  obtain ⟨hF, hs, hu, ht, htol, hr⟩ := exFl_hyps R h1 h2
  refine ⟨_, hF, fun kt => ?_⟩
  have hv : exFl.eval exFlArg = some [.f ⟨[1, 1, 2, 1], [0, 2 * (11184811 / 33554432) + 13421773 / 134217728]⟩,
      .s ⟨[1, 1, 2, 1], [true, false]⟩] := by decide +kernel
  have hsc := fun kt => (⟨rfl, hF, rfl, hv, trivial, exCfg_scheduled kt false, ht kt, htol, .cons rfl .nil,
    fun _ => exFl_inputs _ kt⟩ : InScopeFl R kt exFl exFl (fun _ => True) (fun nm => ⟨[1, 1, 2, 1], (exCfg kt false).dyn nm, (exCfg kt false).loc nm⟩)
      _ exFlTol (exCfg kt false) exFlArg (exFlArg.map .plain) _)
  obtain ⟨st, h3, _, h4⟩ := C75_lifetime_partial false hs (.refl _) hu (Graph.constParamsB_iff (by decide +kernel)) _
    [.prepare 6 ⟨[1, 2, 2], false, 0⟩ OpData.new.p, .infer _ (exCfg kt false) noCalls (exFlArg.map .plain),
      .prepare 6 ⟨[1, 5, 5, 1], false, 8⟩ OpData.new.p, .infer _ (exCfg kt false) noCalls (exFlArg.map .plain)]
    (by
      intro F cfg k mins hm
      simp only [List.mem_cons, List.not_mem_nil, or_false, reduceCtorEq, false_or, EventFl.infer.injEq, or_self] at hm
      rcases hm with ⟨rfl, rfl, rfl, rfl⟩ | ⟨rfl, rfl, rfl, rfl⟩
      · exact ⟨_, _, _, hsc kt⟩
      · exact ⟨_, _, _, hsc kt⟩) (hsc kt) noCalls
  obtain ⟨ms, e1, e2⟩ := h4 (hr kt)
  cases e2 with | cons a1 e2 => cases e2 with | cons a2 e2 => cases e2 with
  | nil =>
    obtain ⟨v', q1, q2⟩ := a2
    cases q1
    rename_i m m'
    refine ⟨st, m, h3, ?_, a1⟩
    rw [e1]
    rw [rep_unique q2 exFl_bits]

end Verif.Ir
