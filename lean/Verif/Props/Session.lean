import Verif.Proof.SessionGraph
import Verif.Proof.IrFolded

/-!
C64: an interpreter gives the same results over its whole lifetime: any history of inferences, resizes and failed resizes
leaves a state in which the next inference computes what a new interpreter, and the original graph, computes.
-/

namespace Verif.Ir

/-- **C64, state.** Whatever happened to an interpreter before (any number of inferences with any arguments, calls of
`Prepare` for any input descriptions, successful or not, errors), the next inference has exactly the outcome it has in a
new interpreter: the same tensors, or the same error. For the indirect kernel the input tensors of its nodes must be at the
same place with the same shape in all inferences (not in the other `Prepare` calls). -/
theorem C64_history (kt : KernelType) {g : Graph} (hg : g.Ssa) (hc : g.ConstParams) (D : Nat → InputDesc) {es : List Event}
    {st : State} (h : g.session kt es State.new = some st)
    (hes : ∀ cfg k ins, Event.infer cfg k ins ∈ es → kt = .indirect → g.InputsAt { cfg with kt := kt } ins D)
    {cfg : Cfg} (hkt : cfg.kt = kt) (k : Calls) (ins : List MVal) (hlast : kt = .indirect → g.InputsAt cfg ins D) :
    (g.step cfg k ins st).1 = g.exec cfg ins := by
  subst hkt
  exact (step_spec hg hc hlast (session_inv hg hc es hes (SInv.new cfg.kt g D) h)).1

/-! ### No undefined behaviour -/

/-- Whether `Prepare` reaches undefined behaviour does not depend on the input's shape, if it has rank 4. -/
theorem prepare_ub {nd : Verif.Node} {i j : InputDesc} (h : prepare nd i = .ub) (hj : j.dims.length = 4) :
    prepare nd j = .ub := by
  unfold prepare at h ⊢
  cases ha : nd.attrs with
  | none => rw [ha] at h; cases h
  | some a =>
    rw [ha] at h
    simp only at h ⊢
    rw [ensure_then] at h ⊢
    by_cases h1 : nd.nInputs = 5
    · rw [if_pos (by simpa using h1), ensure_then] at h ⊢
      rw [if_pos (by simpa using hj), ensure_then]
      by_cases h2 : i.dims.length = 4
      · rw [if_pos (by simpa using h2), ensure_then] at h
        by_cases h3 : nd.filter.dims.length = 4
        · rw [if_pos (by simpa using h3), ensure_then] at h ⊢
          by_cases h4 : nd.inType = .int32
          · rw [if_pos (by simpa using h4), ensure_then] at h ⊢
            by_cases h5 : nd.filter.type = .int32
            · rw [if_pos (by simpa using h5), ensure_then] at h ⊢
              by_cases h6 : nd.outType = .int32 ∨ nd.outType = .int8 ∨ nd.outType = .float32
              · rw [if_pos (by simpa using h6)] at h ⊢
                cases hgr : prepGroups nd.kt a.cin (nd.filter.dims.getD 0 0) (nd.filter.dims.getD 3 0) with
                | ub => rfl
                | error => rw [hgr] at h; cases h
                | ok gr =>
                  rw [hgr] at h
                  simp only [bind, Outcome.bind] at h ⊢
                  by_cases h7 : prepZeroPad nd.kt a nd.outType = true
                  · simp only [Outcome.ensure, h7, if_true] at h ⊢
                    cases hp : prepParams nd (nd.filter.dims.getD 0 0) with
                    | ub => rfl
                    | error => rw [hp] at h; cases h
                    | ok u =>
                      rw [hp] at h
                      simp only at h
                      exfalso
                      revert h
                      repeat' split
                      all_goals
                        simp_all <;> (rename_i hh; split at hh <;> cases hh)
                  · simp only [Outcome.ensure, h7] at h
                    cases h
              · rw [if_neg (by simpa using h6)] at h; cases h
            · rw [if_neg (by simpa using h5)] at h; cases h
          · rw [if_neg (by simpa using h4)] at h; cases h
        · rw [if_neg (by simpa using h3)] at h; cases h
      · rw [if_neg (by simpa using h2)] at h; cases h
    · rw [if_neg (by simpa using h1)] at h; cases h

theorem const_value {g : Graph} (hg : g.Ssa) {ins : List Val} {x : Nat} {m : MVal} {v : Val} (h : g.constOf x = some m)
    (hv : runNodes ins g.nodes (fun _ => Option.none) x = some v) : Rep v m := by
  unfold Graph.constOf at h
  split at h
  · rename_i nm v' args ty hl
    obtain ⟨h1, h2⟩ := lookIn_some hl
    simp only at h2
    subst h2
    have hwf := runNodes_wf ins g.nodes (fun _ => Option.none) (by simp) _ _ hv
    have hd := hg.scoped.defs ins h1
    simp only at hd
    rw [hd] at hv
    unfold Node.eval at hv
    rw [Option.bind_eq_some_iff] at hv
    obtain ⟨l, _, hv⟩ := hv
    obtain ⟨he, _⟩ := run_some_iff.1 hv
    have hvv : v' = v := by
      cases l with
      | nil => cases he; rfl
      | cons _ _ => cases he
    subst hvv
    unfold constTensor at h
    split at h
    · rename_i m' hm
      cases h
      rcases exec_const (cfg := ⟨.reference, fun _ => true, fun _ _ _ _ => [], fun _ => false, fun _ => 0, fun _ _ => 0#32,
        fun _ _ => 0, fun _ _ => 0#8, fun _ => 0#32⟩) (nm := 0) hwf with ⟨_, _, _, h3⟩ | ⟨_, m2, h4, h5⟩
      · rw [hm] at h3; cases h3
      · rw [hm] at h4; cases h4; exact h5
    · cases h
  · cases h

theorem convNode_inv {kt : KernelType} {g : Graph} {nm : Nat} {nd : Verif.Node} (h : g.convNode kt nm = some nd) :
    ∃ n q a x f m b t mf mm mb mt, n ∈ g.nodes ∧ n.name = nm ∧ n.op.ConvWith q a ∧ n.args = [x, f, m, b, t] ∧
      g.constOf f = some mf ∧ g.constOf m = some mm ∧ g.constOf b = some mb ∧ g.constOf t = some mt ∧
      nd = bconvNode kt q a (.words [] []) mf mm mb mt := by
  unfold Graph.convNode at h
  simp only at h
  split at h
  · rename_i nm' a x f m b t ty hl
    obtain ⟨h1, h2⟩ := lookIn_some hl
    simp only [Option.bind_eq_bind, Option.bind_eq_some_iff, Option.some.injEq] at h
    obtain ⟨mf, e1, mm, e2, mb, e3, mt, e4, rfl⟩ := h
    exact ⟨_, _, a, x, f, m, b, t, mf, mm, mb, mt, h1, h2, Or.inl ⟨rfl, rfl⟩, rfl, e1, e2, e3, e4, rfl⟩
  · rename_i nm' a sc z x f m b t ty hl
    obtain ⟨h1, h2⟩ := lookIn_some hl
    simp only [Option.bind_eq_bind, Option.bind_eq_some_iff, Option.some.injEq] at h
    obtain ⟨mf, e1, mm, e2, mb, e3, mt, e4, rfl⟩ := h
    exact ⟨_, _, a, x, f, m, b, t, mf, mm, mb, mt, h1, h2, Or.inr ⟨sc, z, rfl, rfl⟩, rfl, e1, e2, e3, e4, rfl⟩
  · cases h

/-- The input of a BConv2D that has a value is a binary tensor of rank 4. -/
theorem conv_input {o : Op} {q : Option (Rat × Int)} {a : BConvAttrs} (ho : o.ConvWith q a) {ins : List Val} {l : List Val} {v : Val}
    (h : o.eval ins l = some v) : ∃ x f m b t, l = [Val.s x, f, m, b, t] ∧ x.shape.length = 4 := by
  have key : ∀ u, bconvEval a l = some u → ∃ x f m b t, l = [Val.s x, f, m, b, t] ∧ x.shape.length = 4 := by
    intro u hu
    have hu' := hu
    unfold bconvEval at hu'
    split at hu'
    · rename_i x f m b t
      obtain ⟨n, h, w, _, _, _, _, _, _, hx, _⟩ := bconvEval_cases hu
      exact ⟨x, f, m, b, t, rfl, by rw [hx]; rfl⟩
    · cases hu'
  rcases ho with ⟨rfl, _⟩ | ⟨sc, z, rfl, _⟩
  · exact key v h
  · replace h : bconvI8Eval a sc z l = some v := h
    unfold bconvI8Eval at h
    split at h
    · rename_i t ht
      exact key _ ht
    · cases h

theorem mapM5 {α β : Type} {F : α → Option β} {x1 x2 x3 x4 x5 : α} {v1 v2 v3 v4 v5 : β}
    (h : [x1, x2, x3, x4, x5].mapM F = some [v1, v2, v3, v4, v5]) :
    F x1 = some v1 ∧ F x2 = some v2 ∧ F x3 = some v3 ∧ F x4 = some v4 ∧ F x5 = some v5 := by
  simp only [mapM_cons'] at h
  cases h1 : F x1 with
  | none => rw [h1] at h; cases h
  | some u1 => cases h2 : F x2 with
    | none => rw [h1, h2] at h; cases h
    | some u2 => cases h3 : F x3 with
      | none => rw [h1, h2, h3] at h; cases h
      | some u3 => cases h4 : F x4 with
        | none => rw [h1, h2, h3, h4] at h; cases h
        | some u4 => cases h5 : F x5 with
          | none => rw [h1, h2, h3, h4, h5] at h; cases h
          | some u5 =>
            rw [h1, h2, h3, h4, h5] at h
            cases h
            exact ⟨rfl, rfl, rfl, rfl, rfl⟩

/-- `Prepare` of a node of a graph that has a value does not reach undefined behaviour, for any shape. -/
theorem prepare_defined {cfg : Cfg} {g : Graph} {ins vs : List Val} (hg : g.Ssa) (hu : ∀ n ∈ g.nodes, 0 < g.uses n.name)
    (hsch : cfg.Scheduled) (htame : g.Tame cfg.kt ins) (hv : g.eval ins = some vs) {nm : Nat} {nd : Verif.Node}
    (hnd : g.convNode cfg.kt nm = some nd) (i : InputDesc) : prepare nd i ≠ .ub := by
  intro hub
  obtain ⟨n, q, a, x, f, m, b, t, mf, mm, mb, mt, hn, rfl, ho, hargs, ef, em, eb, et, rfl⟩ := convNode_inv hnd
  obtain ⟨v, hvn⟩ := all_defined hg hu hv g.nodes [] rfl n hn
  rw [hg.scoped.defs ins hn] at hvn
  unfold Node.eval at hvn
  rw [Option.bind_eq_some_iff] at hvn
  obtain ⟨l, hl, hrun⟩ := hvn
  have ht := htame n hn l hl
  obtain ⟨he, _⟩ := run_some_iff.1 hrun
  obtain ⟨vx, vf, vm, vb, vt, rfl, hx4⟩ := conv_input ho he
  rw [hargs] at hl
  obtain ⟨hx, hf, hm, hb, ht'⟩ := mapM5 hl
  have wf : ∀ {y u}, runNodes ins g.nodes (fun _ => Option.none) y = some u → u.wf = true :=
    fun h => runNodes_wf ins g.nodes (fun _ => Option.none) (by simp) _ _ h
  have hxs : vx.shape ≠ [] := by intro e; rw [e] at hx4; cases hx4
  rcases exec_const (cfg := cfg) (nm := 0) (wf hx) with ⟨t', e1, e2, _⟩ | ⟨_, mx, _, hrx⟩
  · cases e1; exact hxs e2
  have hop := exec_op (cfg := cfg) (ins := []) (mins := []) (nm := n.name) (ty := n.ty) (o := n.op) (v := v) hsch .nil
    (.cons hrx (.cons (const_value hg ef hf) (.cons (const_value hg em hm) (.cons (const_value hg eb hb)
      (.cons (const_value hg et ht') .nil)))))
    (by
      intro u hu'
      simp only [List.mem_cons, List.not_mem_nil, or_false] at hu'
      rcases hu' with rfl | rfl | rfl | rfl | rfl
      · exact wf hx
      · exact wf hf
      · exact wf hm
      · exact wf hb
      · exact wf ht')
    (by
      have : n.op.run [] n.ty [Val.s vx, vf, vm, vb, vt] = n.op.run ins n.ty [Val.s vx, vf, vm, vb, vt] := by
        rcases ho with ⟨h, _⟩ | ⟨_, _, h, _⟩ <;> rw [h] <;> rfl
      rw [this]; exact hrun) ht
  have hex := (stepOp_conv (cfg := cfg) (k := ⟨fun _ => true, fun _ => OpData.new.p⟩) (ins := []) (nm := n.name) (ty := n.ty)
    (x := mx) (f := mf) (m := mm) (b := mb) (t := mt) (s := NodeState.new) ho).2.1
  rw [hex] at hop
  cases mx with
  | plain _ => exact hrx.elim
  | words dims d =>
    have hd4 : dims.length = 4 := by
      obtain ⟨lead, c, e1, rfl, _⟩ := hrx
      rw [e1] at hx4
      simpa using hx4
    have hub' := prepare_ub (j := ⟨dims, cfg.dyn n.name, cfg.loc n.name⟩) hub hd4
    have : execBConv cfg n.name q a (.words dims d) mf mm mb mt = .ub := by
      unfold execBConv
      have e : bconvNode cfg.kt q a (.words dims d) mf mm mb mt = bconvNode cfg.kt q a (.words [] []) mf mm mb mt :=
        bconvNode_input rfl
      rw [e]
      simp only [MVal.desc, Option.map_some, Option.getD_some]
      rw [hub']
      rfl
    rw [this] at hop
    rcases hop with ⟨_, h⟩ | ⟨_, m, h, _⟩ <;> cases h

/-- **C64, no undefined behaviour.** If `Prepare` is defined for all nodes and no inference reaches undefined behaviour in
a new interpreter, then no history of these inferences and of `Prepare` calls does. -/
theorem C64_history_defined {kt : KernelType} {g : Graph} (hg : g.Ssa) (hc : g.ConstParams) (D : Nat → InputDesc)
    (hprep : ∀ nm nd i, g.convNode kt nm = some nd → prepare nd i ≠ .ub) (es : List Event)
    (hes : ∀ cfg k ins, Event.infer cfg k ins ∈ es → g.exec { cfg with kt := kt } ins ≠ .ub ∧
      (kt = .indirect → g.InputsAt { cfg with kt := kt } ins D)) : ∃ st, g.session kt es State.new = some st := by
  have key : ∀ (es : List Event) (st : State), SInv kt g D st →
      (∀ cfg k ins, Event.infer cfg k ins ∈ es → g.exec { cfg with kt := kt } ins ≠ .ub ∧
        (kt = .indirect → g.InputsAt { cfg with kt := kt } ins D)) → ∃ st', g.session kt es st = some st' := by
    intro es
    induction es with
    | nil => intro st _ _; exact ⟨st, rfl⟩
    | cons e es ih =>
      intro st hs hes
      have hes' := fun cfg k ins hm => hes cfg k ins (List.mem_cons_of_mem _ hm)
      cases e with
      | prepare nm i left =>
        unfold Graph.session
        split
        · exact ih st hs hes'
        · rename_i nd hnd
          have hi := callPrepare_inv (i := i) (hs nm nd hnd) left (convNode_type hnd)
          have hne : (callPrepare nd i left (st nm)).1 ≠ .ub := by
            have := hprep nm nd i hnd
            unfold callPrepare
            split <;> simp_all
          generalize callPrepare nd i left (st nm) = w at hi hne
          obtain ⟨o, s⟩ := w
          have hup : SInv kt g D fun x => if x = nm then s else st x := hs.update (by
            intro nd' hnd'
            rw [hnd] at hnd'
            cases hnd'
            exact hi)
          cases o with
          | ub => exact absurd rfl hne
          | error => exact ih _ hup hes'
          | ok _ => exact ih _ hup hes'
      | infer cfg k ins =>
        obtain ⟨h1, h2⟩ := hes cfg k ins (by simp)
        have hst := step_spec (cfg := { cfg with kt := kt }) (k := k) hg hc h2 hs
        unfold Graph.session
        generalize Graph.step { cfg with kt := kt } k g ins st = w at hst
        obtain ⟨o, s⟩ := w
        obtain ⟨h3, h4⟩ := hst
        simp only at h3
        rw [← h3] at h1
        cases o with
        | ub => exact absurd rfl h1
        | error => exact ih _ h4 hes'
        | ok _ => exact ih _ h4 hes'
  exact key es State.new (SInv.new kt g D) hes

/-- **C64.** The original graph `g` is converted to `g'`. An interpreter with any of the three kernels loads `g'` and goes
through any history of inferences and `Prepare` calls; the inferences are in scope. No undefined behaviour is reached, and
the next inference is refused exactly in the listed cases, and otherwise writes tensors that stand for the results of
`g`. -/
theorem C64_lifetime_partial (arm : Bool) {kt : KernelType} {g g' : Graph} (hg : g.Ssa) {safe : List Val → Prop}
    (hconv : Steps (allRules arm) safe g g') (hu : ∀ n ∈ g'.nodes, 0 < g'.uses n.name) (hc : g'.ConstParams)
    (D : Nat → InputDesc) (es : List Event)
    (hes : ∀ cfg k mins, Event.infer cfg k mins ∈ es → ∃ ins vs, InScope kt g g' safe D cfg ins mins vs)
    {cfg : Cfg} {ins vs : List Val} {mins : List MVal} (h : InScope kt g g' safe D cfg ins mins vs) (k : Calls) :
    ∃ st, g'.session kt es State.new = some st ∧
      (g'.Rejected cfg ins → (g'.step cfg k mins st).1 = .error) ∧
      (¬ g'.Rejected cfg ins → ∃ ms, (g'.step cfg k mins st).1 = .ok ms ∧ List.Forall₂ Rep vs ms) := by
  have hg' := C61_well_formed arm safe hg hconv
  have hrun : ∀ {cfg ins mins vs}, InScope kt g g' safe D cfg ins mins vs →
      (g'.Rejected cfg ins → g'.exec cfg mins = .error) ∧
      (¬ g'.Rejected cfg ins → ∃ ms, g'.exec cfg mins = .ok ms ∧ List.Forall₂ Rep vs ms) := by
    intro cfg ins mins vs h
    exact C63_any_pass_order_partial arm hg hconv hu h.safe h.scheduled (h.kernel ▸ h.tame) h.tensors h.results
  have hes' : ∀ cfg k mins, Event.infer cfg k mins ∈ es → g'.exec { cfg with kt := kt } mins ≠ .ub ∧
      (kt = .indirect → g'.InputsAt { cfg with kt := kt } mins D) := by
    intro cfg k mins hm
    obtain ⟨ins, vs, h⟩ := hes cfg k mins hm
    have e : { cfg with kt := kt } = cfg := by rw [← h.kernel]
    rw [e]
    refine ⟨?_, h.inputs⟩
    obtain ⟨h1, h2⟩ := hrun h
    by_cases hr : g'.Rejected cfg ins
    · rw [h1 hr]; intro hc; cases hc
    · obtain ⟨ms, h3, _⟩ := h2 hr
      rw [h3]; intro hc; cases hc
  have hprep : ∀ nm nd i, g'.convNode kt nm = some nd → prepare nd i ≠ .ub := by
    intro nm nd i hnd
    have hk := h.kernel
    subst hk
    exact prepare_defined hg' hu h.scheduled h.tame (C61_rewriting_preserves_partial arm safe hg hconv ins vs h.safe h.results) hnd i
  obtain ⟨st, hst⟩ := C64_history_defined hg' hc D hprep es hes'
  refine ⟨st, hst, ?_⟩
  rw [C64_history kt hg' hc D hst (fun cfg k ins hm => (hes' cfg k ins hm).2) h.kernel k mins h.inputs]
  exact hrun h

/-- **C64, the parameters are constants.** A graph without BConv2D (or with
parameters that do not depend on the arguments) is converted, in any order of steps; the result has no
unused operation and nothing is left to fold. If the original graph has a value for at least one list of arguments, then filter,
multiplier, bias and thresholds of every BConv2D of the result are constants of the model file. -/
theorem C64_params_constant (arm : Bool) {g g' : Graph} (hg : g.Ssa) (hp : g.ParamsFixed) {safe : List Val → Prop}
    (hconv : Steps (allRules arm) safe g g') (hu : ∀ n ∈ g'.nodes, 0 < g'.uses n.name) (hf : g'.Folded)
    {ins vs : List Val} (hs : safe ins) (hv : g.eval ins = some vs) : g'.ConstParams := by
  have hg' := C61_well_formed arm safe hg hconv
  have hv' := C61_rewriting_preserves_partial arm safe hg hconv ins vs hs hv
  exact folded_params hg' hf (all_defined hg' hu hv' g'.nodes [] rfl) (Steps.closed arm hg hp hconv)

/-- The graphs that the conversion starts from have no BConv2D. -/
theorem noBConv_paramsFixed {g : Graph} (h : ∀ n ∈ g.nodes, n.op.isBConv = false) : g.ParamsFixed := by
  refine ⟨fun _ => False, fun _ h => h.elim, fun n hn hb => ?_⟩
  rw [h n hn] at hb
  cases hb

/-- A graph to which no step applies has no unused operation, and nothing is left to fold in it. -/
theorem finished_folded (arm : Bool) {safe : List Val → Prop} {g : Graph} (h : ∀ g'', ¬ Step (allRules arm) safe g g'') :
    (∀ n ∈ g.nodes, 0 < g.uses n.name) ∧ g.Folded := by
  have hu : ∀ n ∈ g.nodes, 0 < g.uses n.name := by
    intro n hn
    obtain ⟨pre, post, he⟩ := List.append_of_mem hn
    by_contra h0
    exact h _ (.erase he (by omega))
  refine ⟨hu, fun pre n post he => ?_⟩
  cases ha : ruleFold.apply ⟨lookIn pre, g.uses⟩ n with
  | none => rfl
  | some t =>
    exact absurd (.rewrite ruleFold (by simp [allRules]) he (hu n (by rw [he]; simp)) ha fun _ _ => ⟨rfl, rfl⟩) (h _)

/-- **C64 for converted models.** As `C64_lifetime_partial`, with no condition on the parameters: the original graph has no
BConv2D (`noBConv_paramsFixed`), and nothing is left to fold in the converted one. -/
theorem C64_converted_lifetime_partial (arm : Bool) {kt : KernelType} {g g' : Graph} (hg : g.Ssa) (hp : g.ParamsFixed)
    {safe : List Val → Prop} (hconv : Steps (allRules arm) safe g g') (hu : ∀ n ∈ g'.nodes, 0 < g'.uses n.name)
    (hf : g'.Folded) (D : Nat → InputDesc) (es : List Event)
    (hes : ∀ cfg k mins, Event.infer cfg k mins ∈ es → ∃ ins vs, InScope kt g g' safe D cfg ins mins vs)
    {cfg : Cfg} {ins vs : List Val} {mins : List MVal} (h : InScope kt g g' safe D cfg ins mins vs) (k : Calls) :
    ∃ st, g'.session kt es State.new = some st ∧
      (g'.Rejected cfg ins → (g'.step cfg k mins st).1 = .error) ∧
      (¬ g'.Rejected cfg ins → ∃ ms, (g'.step cfg k mins st).1 = .ok ms ∧ List.Forall₂ Rep vs ms) :=
  C64_lifetime_partial arm hg hconv hu (C64_params_constant arm hg hp hconv hu hf h.safe h.results) D es hes h k

/-! ### The hypotheses are needed -/

/-- `y = BConv2D(LceQuantize(x))`, a 1 x 1 convolution with one channel; the multiplier is the second argument. -/
def varMultiplier : Graph where
  nodes := [
    ⟨0, .arg 0, [], Option.none⟩, ⟨1, .lquant, [0], Option.none⟩,
    ⟨2, .const (.s ⟨[1, 1, 1, 1], [false]⟩), [], Option.none⟩, ⟨3, .arg 1, [], Option.none⟩,
    ⟨4, .const (.f ⟨[1], [0]⟩), [], Option.none⟩, ⟨5, .const .none, [], Option.none⟩,
    ⟨6, .bconv ⟨⟨1, 1, 1, 1, .valid⟩, 0, 1, .none, false⟩, [1, 2, 3, 4, 5], Option.none⟩]
  outs := [6]

/-- No additional `Prepare` calls. -/
def noCalls : Calls := ⟨fun _ => false, fun _ => OpData.new.p⟩

/-- `ConstParams` is needed: a multiplier that is not a constant is read in the first inference only. The second inference
gets the multiplier 2 and returns 1; a new interpreter returns 2. -/
theorem C64_variable_multiplier_witness :
    ((varMultiplier.session .bgemm [.infer (exCfg .bgemm false) noCalls
        [.plain (.f ⟨[1, 1, 1, 1], [1]⟩), .plain (.f ⟨[1], [1]⟩)]] State.new).map fun st =>
      (varMultiplier.step (exCfg .bgemm false) noCalls [.plain (.f ⟨[1, 1, 1, 1], [1]⟩), .plain (.f ⟨[1], [2]⟩)] st).1)
        = some (.ok [.plain (.f ⟨[1, 1, 1, 1], [1]⟩)]) ∧
    varMultiplier.exec (exCfg .bgemm false) [.plain (.f ⟨[1, 1, 1, 1], [1]⟩), .plain (.f ⟨[1], [2]⟩)]
        = .ok [.plain (.f ⟨[1, 1, 1, 1], [2]⟩)] ∧
    varMultiplier.eval [.f ⟨[1, 1, 1, 1], [1]⟩, .f ⟨[1], [2]⟩] = some [.f ⟨[1, 1, 1, 1], [2]⟩] := by
  refine ⟨?_, ?_, ?_⟩
  · kernel_rfl
  · kernel_rfl
  · decide +kernel

/-- The same with a constant multiplier 1 and four output channels. -/
def fixedMultiplier : Graph where
  nodes := [
    ⟨0, .arg 0, [], Option.none⟩, ⟨1, .lquant, [0], Option.none⟩,
    ⟨2, .const (.s ⟨[4, 1, 1, 1], [false, true, false, true]⟩), [], Option.none⟩,
    ⟨3, .const (.f ⟨[4], [1, 1, 1, 1]⟩), [], Option.none⟩,
    ⟨4, .const (.f ⟨[4], [0, 0, 0, 0]⟩), [], Option.none⟩, ⟨5, .const .none, [], Option.none⟩,
    ⟨6, .bconv ⟨⟨1, 1, 1, 1, .valid⟩, 0, 1, .none, false⟩, [1, 2, 3, 4, 5], Option.none⟩]
  outs := [6]

/-- A check for `ConstParams`. -/
def Graph.constParamsB (g : Graph) : Bool :=
  g.nodes.all fun n => !n.op.isBConv || n.args.tail.all fun x => g.nodes.any fun c =>
    decide (c.name = x) && c.args.isEmpty && match c.op with
      | .const v => v.wf
      | _ => false

theorem Graph.constParamsB_iff {g : Graph} (h : g.constParamsB = true) : g.ConstParams := by
  intro n hn hb x hx
  unfold Graph.constParamsB at h
  rw [List.all_eq_true] at h
  have h1 := h n hn
  rw [hb] at h1
  simp only [Bool.not_true, Bool.false_or, List.all_eq_true, List.any_eq_true, Bool.and_eq_true, decide_eq_true_eq] at h1
  obtain ⟨c, hc, ⟨h2, h3⟩, h4⟩ := h1 x hx
  refine ⟨c, hc, h2, by simpa using h3, ?_⟩
  split at h4
  · rename_i v hv
    exact ⟨v, hv, h4⟩
  · cases h4

/-- The condition on the indirect kernel is needed: after an inference with one pixel, an inference with two pixels at the
same address leaves the second pixel of the output (here 9, 10, 11, 12) as it was. -/
theorem C64_indirect_resize_witness : fixedMultiplier.ConstParams ∧
    ((fixedMultiplier.session .indirect [.infer (exCfg .indirect false) noCalls
        [.plain (.f ⟨[1, 1, 1, 1], [1]⟩)]] State.new).map fun st =>
      (fixedMultiplier.step (exCfg .indirect false) noCalls [.plain (.f ⟨[1, 1, 2, 1], [1, -1]⟩)] st).1)
        = some (.ok [.plain (.f ⟨[1, 1, 2, 4], [1, -1, 1, -1, 9, 10, 11, 12]⟩)]) ∧
    fixedMultiplier.exec (exCfg .indirect false) [.plain (.f ⟨[1, 1, 2, 1], [1, -1]⟩)]
        = .ok [.plain (.f ⟨[1, 1, 2, 4], [1, -1, 1, -1, -1, 1, -1, 1]⟩)] := by
  refine ⟨Graph.constParamsB_iff (by decide +kernel), ?_, ?_⟩
  · kernel_rfl
  · kernel_rfl

/-! ### Non-vacuity -/

/-- A check for `Folded`. -/
def Graph.foldedB (g : Graph) : Bool :=
  (List.range g.nodes.length).all fun i =>
    (g.nodes[i]?).all fun n => (ruleFold.apply ⟨lookIn (g.nodes.take i), g.uses⟩ n).isNone

theorem Graph.foldedB_iff {g : Graph} (h : g.foldedB = true) : g.Folded := by
  intro pre n post he
  unfold Graph.foldedB at h
  rw [List.all_eq_true] at h
  have h1 := h pre.length (by rw [List.mem_range, he]; simp)
  have e1 : g.nodes[pre.length]? = some n := by rw [he]; simp
  have e2 : g.nodes.take pre.length = pre := by rw [he]; simp
  rw [e1, e2] at h1
  simpa using h1

/-- A check for `ParamsFixed`. -/
def Graph.paramsFixedB (g : Graph) (C : List Nat) : Bool :=
  C.all (fun x => g.nodes.any fun m => decide (m.name = x) && (match m.op with | .arg _ => false | _ => true) &&
    m.args.all fun a => C.contains a) &&
  g.nodes.all fun n => !n.op.isBConv || n.args.tail.all fun x => C.contains x

theorem Graph.paramsFixedB_iff {g : Graph} {C : List Nat} (h : g.paramsFixedB C = true) : g.ParamsFixed := by
  unfold Graph.paramsFixedB at h
  rw [Bool.and_eq_true, List.all_eq_true, List.all_eq_true] at h
  refine ⟨fun x => x ∈ C, fun x hx => ?_, fun n hn hb x hx => ?_⟩
  · have := h.1 x hx
    rw [List.any_eq_true] at this
    obtain ⟨m, hm, h1⟩ := this
    simp only [Bool.and_eq_true, decide_eq_true_eq, List.all_eq_true, List.contains_iff_mem] at h1
    refine ⟨m, hm, h1.1.1, ?_, h1.2⟩
    intro k e
    rw [e] at h1
    exact absurd h1.1.2 (by simp)
  · have := h.2 n hn
    rw [hb] at this
    simp only [Bool.not_true, Bool.false_or, List.all_eq_true, List.contains_iff_mem] at this
    exact this x hx

/-- The converted examples of C61 are folded; the first graph has no BConv2D, the parameters of the second (it is taken from
the middle of the conversion: they are quantized and dequantized) do not depend on the arguments. -/
example : exBlock.ParamsFixed ∧ exInt8.ParamsFixed ∧ (exBlock.moves true exScript).map Graph.foldedB = some true ∧
    exInt8Conv.map Graph.foldedB = some true :=
  ⟨noBConv_paramsFixed (by decide +kernel), Graph.paramsFixedB_iff (C := [3, 4, 5, 6, 7, 8, 9, 10]) (by decide +kernel),
    by decide +kernel, by decide +kernel⟩


/-- A history of the converted example of C61 with the BGEMM kernel: a `Prepare` of the convolution (node 52 of the
conversion) for a shape of rank 3, which fails, an inference, a `Prepare` for another shape, an inference with a larger
image. The hypotheses of `C64_history` hold, and a last inference gives what the original graph gives. -/
example : exBlock.Ssa ∧ ∃ g', Steps (allRules false) (fun _ => True) exBlock g' ∧ (∀ n ∈ g'.nodes, 0 < g'.uses n.name) ∧
    g'.ConstParams ∧ InScope .bgemm exBlock g' (fun _ => True) (fun _ => ⟨[], false, 0⟩) (exCfg .bgemm false) exArg
      (exArg.map .plain) [.s ⟨[1, 2, 2, 2], [true, true, true, false, true, true, true, false]⟩] ∧
    ∀ nm ∈ (g'.nodes.filter (·.op.isBConv)).map (·.name), ((g'.session .bgemm [.prepare nm ⟨[1, 2, 2], false, 0⟩ OpData.new.p,
      .infer (exCfg .bgemm true) noCalls (exArg.map .plain), .prepare nm ⟨[1, 5, 5, 1], false, 8⟩ OpData.new.p,
      .infer (exCfg .bgemm false) noCalls (exArg.map .plain)] State.new).map
        fun st => (g'.step (exCfg .bgemm false) noCalls (exArg.map .plain) st).1)
      = some (.ok [.words [1, 2, 2, 1] [3#32, 1#32, 3#32, 1#32]]) := by
  refine ⟨exBlock_ssa, ?_⟩
  have h : ((exBlock.moves true exScript).map fun g => (g.nodes.all (fun n => decide (0 < g.uses n.name)),
      g.tameB .bgemm exArg, g.constParamsB)) = some (true, true, true) := by decide +kernel
  rw [Option.map_eq_some_iff] at h
  obtain ⟨g', h1, h2⟩ := h
  simp only [Prod.mk.injEq] at h2
  obtain ⟨q1, q2, q3⟩ := h2
  have hn : ((exBlock.moves true exScript).map fun g => (g.nodes.filter (·.op.isBConv)).map (·.name)) = some [52] := by
    decide +kernel
  have e2 : ((exBlock.moves true exScript).map fun g => (g.session .bgemm [.prepare 52 ⟨[1, 2, 2], false, 0⟩ OpData.new.p,
      .infer (exCfg .bgemm true) noCalls (exArg.map .plain), .prepare 52 ⟨[1, 5, 5, 1], false, 8⟩ OpData.new.p,
      .infer (exCfg .bgemm false) noCalls (exArg.map .plain)] State.new).map
        fun st => (g.step (exCfg .bgemm false) noCalls (exArg.map .plain) st).1)
      = some (some (.ok [.words [1, 2, 2, 1] [3#32, 1#32, 3#32, 1#32]])) := by kernel_rfl
  rw [h1] at e2 hn
  simp only [Option.map_some, Option.some.injEq] at e2 hn
  refine ⟨g', moves_steps exScript exScript_rules (.refl _) h1, ?_, Graph.constParamsB_iff q3,
    ⟨rfl, by decide +kernel, trivial, exCfg_scheduled _ _, Graph.tameB_iff q2, .cons rfl .nil, by intro h; cases h⟩, ?_⟩
  · intro n hn
    simpa using (List.all_eq_true.1 q1) n hn
  · rw [hn]
    intro nm hnm
    have : nm = 52 := by simpa using hnm
    subst this
    exact e2

end Verif.Ir
