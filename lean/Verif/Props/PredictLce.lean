import Verif.Spec.PredictRel
import Verif.Props.Predict
import Verif.Props.Session

/-!
C66: `Interpreter.predict` on a converted model returns what the original graph computes.
-/

namespace Verif.Ir

theorem session_append (kt : KernelType) (g : Graph) : ∀ (es es' : List Event) (st : State),
    g.session kt (es ++ es') st = (g.session kt es st).bind fun st' => g.session kt es' st'
  | [], _, _ => rfl
  | .prepare nm i left :: es, es', st => by
    simp only [List.cons_append, Graph.session]
    cases g.convNode kt nm with
    | none => exact session_append kt g es es' st
    | some nd =>
      simp only
      generalize callPrepare nd i left (st nm) = w
      obtain ⟨o, s⟩ := w
      cases o with
      | ub => rfl
      | error => exact session_append kt g es es' _
      | ok _ => exact session_append kt g es es' _
  | .infer cfg k ins :: es, es', st => by
    simp only [List.cons_append, Graph.session]
    generalize g.step { cfg with kt := kt } k ins st = w
    obtain ⟨o, s⟩ := w
    cases o with
    | ub => rfl
    | error => exact session_append kt g es es' _
    | ok _ => exact session_append kt g es es' _

theorem mapM_mem_out {α β : Type} {f : α → Option β} : ∀ {l : List α} {vs : List β}, l.mapM f = some vs →
    ∀ v ∈ vs, ∃ x ∈ l, f x = some v
  | [], vs, h, v, hv => by cases h; cases hv
  | a :: l, vs, h, v, hv => by
    rw [mapM_cons'] at h
    cases ha : f a with
    | none => rw [ha] at h; cases h
    | some b =>
      cases hl : l.mapM f with
      | none => rw [ha, hl] at h; cases h
      | some bs =>
        rw [ha, hl] at h
        cases h
        rcases List.mem_cons.1 hv with rfl | hv
        · exact ⟨a, by simp, ha⟩
        · obtain ⟨x, h1, h2⟩ := mapM_mem_out hl v hv
          exact ⟨x, List.mem_cons_of_mem _ h1, h2⟩

theorem Reachable.new (kt : KernelType) (g g' : Graph) (safe : List Val → Prop) (D : Nat → InputDesc) :
    Reachable kt g g' safe D State.new := ⟨[], by simp, rfl⟩

theorem numbers_plain {v : Val} {m : MVal} {d : List Rat} (h : Rep v m) (hv : v.numbers = some d) : m.numbers = some d := by
  cases v <;> cases m <;> first
    | (cases hv; done)
    | exact h.elim
    | skip
  all_goals
    have h' := h
    unfold Rep at h'
    subst h'
    exact hv

theorem reps_numbers : ∀ {vs : List Val} {ms : List MVal}, List.Forall₂ Rep vs ms → (∀ v ∈ vs, v.numbers.isSome = true) →
    ms.mapM MVal.numbers = some (vs.map fun v => v.numbers.getD [])
  | _, _, .nil, _ => rfl
  | _, _, .cons (a := v) (b := m) h t, hv => by
    obtain ⟨d, hd⟩ := Option.isSome_iff_exists.1 (hv v (by simp))
    rw [mapM_cons', numbers_plain h hd, reps_numbers t fun u hu => hv u (List.mem_cons_of_mem _ hu)]
    simp [hd]

/-- The function of the original graph on numbers. -/
def Graph.onNumbers (g : Graph) (inputs : List IoSpec) (d : List (List Rat)) : List (List Rat) :=
  ((g.eval (List.zipWith IoSpec.val inputs d)).getD []).map fun v => v.numbers.getD []

theorem numbers_length {v : Val} (hw : v.wf = true) (hn : v.numbers.isSome = true) : (v.numbers.getD []).length = v.shape.prod := by
  cases v <;> first
    | (cases hn; done)
    | skip
  all_goals
    simp only [Val.wf, Bool.and_eq_true, beq_iff_eq] at hw
    simp only [Val.numbers, Option.getD_some, Val.shape, List.length_map]
    first
      | exact hw
      | exact hw.1.1.1

/-- `SampleOk` with the tensors that `SetTensorFromNumpy` makes of the sample. -/
structure SampleIn (kt : KernelType) (g g' : Graph) (safe : List Val → Prop) (D : Nat → InputDesc) (cfgs : Nat → Cfg)
    (inputs outputs : List IoSpec) (d : List (List Rat)) (vs : List Val) : Prop where
  scope : ∀ j, InScope kt g g' safe D { cfgs j with kt := kt } (List.zipWith IoSpec.val inputs d)
    ((List.zipWith IoSpec.val inputs d).map .plain) vs
  outs : vs.map (fun v => (v.numbers.isSome, v.shape)) = outputs.map fun t => (true, t.spec.dims)

theorem ioVal_eq {t : IoSpec} {d : List Rat} {v : Val} (h1 : v.numbers = some d) (h2 : v.shape = t.spec.dims)
    (h3 : v.quant = t.quant) : t.val d = v := by
  cases v with
  | f x =>
    cases h1
    unfold IoSpec.val
    rw [← h3, ← h2]
    rfl
  | q x sc zp =>
    cases h1
    unfold IoSpec.val
    rw [← h3, ← h2]
    simp only [Val.quant, Val.shape, List.map_map]
    have : Rat.floor ∘ (fun z : Int => (z : Rat)) = id := by
      funext z
      simp
    rw [this, List.map_id]
  | _ => cases h1

theorem ioVals_eq : ∀ {inputs : List IoSpec} {d : List (List Rat)} {ins : List Val},
    ins.map (fun v => (v.numbers, v.shape, v.quant)) = (inputs.zip d).map (fun p => (some p.2, p.1.spec.dims, p.1.quant)) →
    List.zipWith IoSpec.val inputs d = ins
  | [], d, ins, h => by cases ins with
    | nil => rfl
    | cons _ _ => cases h
  | t :: ts, [], ins, h => by cases ins with
    | nil => rfl
    | cons _ _ => cases h
  | t :: ts, d :: ds, [], h => by cases h
  | t :: ts, d :: ds, v :: vs, h => by
    simp only [List.map_cons, List.zip_cons_cons, List.cons.injEq, Prod.mk.injEq] at h
    rw [List.zipWith_cons_cons, ioVal_eq h.1.1 h.1.2.1 h.1.2.2, ioVals_eq h.2]

theorem SampleOk.in {kt : KernelType} {g g' : Graph} {safe : List Val → Prop} {D : Nat → InputDesc} {cfgs : Nat → Cfg}
    {inputs outputs : List IoSpec} {d : List (List Rat)} {ins vs : List Val}
    (h : SampleOk kt g g' safe D cfgs inputs outputs d ins vs) : SampleIn kt g g' safe D cfgs inputs outputs d vs := by
  have e := ioVals_eq h.sample
  exact ⟨fun j => by rw [e]; exact h.scope j, h.outs⟩

theorem Accepted.in {kt : KernelType} {g g' : Graph} {safe : List Val → Prop} {D : Nat → InputDesc} {cfgs : Nat → Cfg}
    {inputs outputs : List IoSpec} {d : List (List Rat)} {ins vs : List Val} (ha : Accepted kt g' cfgs ins)
    (h : SampleOk kt g g' safe D cfgs inputs outputs d ins vs) : Accepted kt g' cfgs (List.zipWith IoSpec.val inputs d) := by
  rw [ioVals_eq h.sample]
  exact ha

variable {arm : Bool} {kt : KernelType} {g g' : Graph} {safe : List Val → Prop} {D : Nat → InputDesc} {cfgs : Nat → Cfg}
  {inputs outputs : List IoSpec}

/-- One `Invoke` on a sample in scope, from any reachable state. -/
theorem invoke_spec (hg : g.Ssa) (hconv : Steps (allRules arm) safe g g') (hu : ∀ n ∈ g'.nodes, 0 < g'.uses n.name)
    (hc : g'.ConstParams) (calls : Nat → Calls) (ub : Option ((Nat × State) × List (List Rat))) {d : List (List Rat)}
    {vs : List Val} (h : SampleIn kt g g' safe D cfgs inputs outputs d vs) {s : Nat × State}
    (hs : Reachable kt g g' safe D s.2) :
    (g'.Rejected { cfgs s.1 with kt := kt } (List.zipWith IoSpec.val inputs d) →
      (lceInterp kt g' inputs outputs cfgs calls ub).invoke s d = none) ∧
    (¬ g'.Rejected { cfgs s.1 with kt := kt } (List.zipWith IoSpec.val inputs d) → ∃ s' : Nat × State,
      Reachable kt g g' safe D s'.2 ∧
      (lceInterp kt g' inputs outputs cfgs calls ub).invoke s d = some (s', g.onNumbers inputs d)) := by
  obtain ⟨n, st⟩ := s
  obtain ⟨es, hes, hst⟩ := hs
  have hsc := h.scope n
  obtain ⟨st1, h1, h2, h3⟩ := C64_lifetime_partial arm hg hconv hu hc D es hes hsc (calls n)
  simp only at hst
  rw [hst] at h1
  cases h1
  refine ⟨fun hr => ?_, fun hr => ?_⟩
  · have := h2 hr
    unfold lceInterp
    simp only
    generalize g'.step _ (calls n) _ st = w at this
    obtain ⟨o, s⟩ := w
    simp only at this
    rw [this]
  · obtain ⟨ms, h4, h5⟩ := h3 hr
    have hsess : g'.session kt (es ++ [.infer { cfgs n with kt := kt } (calls n)
        ((List.zipWith IoSpec.val inputs d).map .plain)]) State.new =
        some (g'.step { cfgs n with kt := kt } (calls n) ((List.zipWith IoSpec.val inputs d).map .plain) st).2 := by
      rw [session_append, hst]
      simp only [Option.bind_some, Graph.session]
      generalize g'.step _ (calls n) _ st = w at h4
      obtain ⟨o, s⟩ := w
      simp only at h4
      rw [h4]
    refine ⟨(n + 1, _), ⟨_, ?_, hsess⟩, ?_⟩
    · intro cfg k mins hm
      rcases List.mem_append.1 hm with hm | hm
      · exact hes cfg k mins hm
      · rw [List.mem_singleton] at hm
        cases hm
        exact ⟨_, _, hsc⟩
    · unfold lceInterp
      simp only
      generalize g'.step _ (calls n) _ st = w at h4
      obtain ⟨o, s⟩ := w
      simp only at h4
      rw [h4]
      simp only
      rw [reps_numbers h5 (by
        intro v hv
        obtain ⟨k, hk, rfl⟩ := List.getElem_of_mem hv
        have := congrArg (fun l => l[k]?) h.outs
        simp only [List.getElem?_map, List.getElem?_eq_getElem hk, Option.map_some] at this
        cases ho : outputs[k]? with
        | none => rw [ho] at this; cases this
        | some t =>
          rw [ho] at this
          simp only [Option.map_some, Option.some.injEq, Prod.mk.injEq] at this
          exact this.1)]
      unfold Graph.onNumbers
      rw [hsc.results]
      rfl

theorem onNumbers_sizes {d : List (List Rat)} {vs : List Val} (h : SampleIn kt g g' safe D cfgs inputs outputs d vs) :
    (g.onNumbers inputs d).map List.length = (outputs.map (·.spec)).map fun t => t.dims.prod := by
  unfold Graph.onNumbers
  rw [(h.scope 0).results, Option.getD_some, List.map_map, List.map_map]
  have hwf : ∀ v ∈ vs, v.wf = true := by
    intro v hv
    have hr := (h.scope 0).results
    unfold Graph.eval at hr
    obtain ⟨x, _, hx⟩ := mapM_mem_out hr v hv
    exact runNodes_wf _ g.nodes (fun _ => Option.none) (by simp) _ _ hx
  have key : ∀ {vs : List Val} {os : List IoSpec}, (∀ v ∈ vs, v.wf = true) →
      vs.map (fun v => (v.numbers.isSome, v.shape)) = os.map (fun t => (true, t.spec.dims)) →
      vs.map (List.length ∘ fun v => v.numbers.getD []) = os.map ((fun t => t.dims.prod) ∘ fun t => t.spec) := by
    intro vs
    induction vs with
    | nil => intro os _ h; cases os with
      | nil => rfl
      | cons _ _ => cases h
    | cons v vs ih =>
      intro os hw h
      cases os with
      | nil => cases h
      | cons t os =>
        simp only [List.map_cons, List.cons.injEq, Prod.mk.injEq] at h
        simp only [List.map_cons, Function.comp]
        rw [numbers_length (hw v (by simp)) h.1.1, h.1.2]
        exact congrArg _ (ih (fun u hu => hw u (List.mem_cons_of_mem _ hu)) h.2)
  exact key hwf h.outs

/-- A converted model is a function of its inputs: the original graph. -/
theorem lce_stateless (hg : g.Ssa) (hconv : Steps (allRules arm) safe g g') (hu : ∀ n ∈ g'.nodes, 0 < g'.uses n.name)
    (hc : g'.ConstParams) (calls : Nat → Calls) (ub : Option ((Nat × State) × List (List Rat))) :
    StatelessOn (lceInterp kt g' inputs outputs cfgs calls ub) (fun s => Reachable kt g g' safe D s.2)
      (fun d => Accepted kt g' cfgs (List.zipWith IoSpec.val inputs d) ∧ ∃ vs, SampleIn kt g g' safe D cfgs inputs outputs d vs)
      (g.onNumbers inputs) where
  run := by
    rintro s d hs ⟨ha, vs, hd⟩ _
    exact (invoke_spec hg hconv hu hc calls ub hd hs).2 (ha s.1)
  sizes := by
    rintro d ⟨_, vs, hd⟩ _
    exact onNumbers_sizes hd

/-- The result of the original graph, as the caller sees it. -/
theorem onNumbers_get {d : List (List Rat)} {vs : List Val} (h : SampleIn kt g g' safe D cfgs inputs outputs d vs) {k : Nat}
    {l : List Rat} (hl : (g.onNumbers inputs d)[k]? = some l) : ∃ v, vs[k]? = some v ∧ v.numbers = some l := by
  unfold Graph.onNumbers at hl
  rw [(h.scope 0).results, Option.getD_some, List.getElem?_map, Option.map_eq_some_iff] at hl
  obtain ⟨v, hv, e⟩ := hl
  refine ⟨v, hv, ?_⟩
  have := congrArg (fun l => l[k]?) h.outs
  simp only [List.getElem?_map, hv, Option.map_some] at this
  cases ho : outputs[k]? with
  | none => rw [ho] at this; cases this
  | some t =>
    rw [ho] at this
    simp only [Option.map_some, Option.some.injEq, Prod.mk.injEq] at this
    obtain ⟨d', hd'⟩ := Option.isSome_iff_exists.1 this.1
    rw [hd'] at e ⊢
    rw [← e]; rfl

/-- **C66, array.** A graph `g` is converted to `g'` and loaded into an interpreter with any kernel; the interpreter may
have any history. `predict(x)` on an array of `n ≥ 1` samples (floats or int8, each in scope and not refused) succeeds and
returns for output `k` an array with `n` entries, entry `i` being result `k` of the original graph on sample `i`. The
interpreter is then in a state for which the same holds. -/
theorem C66_predict_array_partial (hg : g.Ssa) (hp : g.ParamsFixed) (hconv : Steps (allRules arm) safe g g')
    (hu : ∀ n ∈ g'.nodes, 0 < g'.uses n.name) (hf : g'.Folded) (calls : Nat → Calls)
    (ub : Option ((Nat × State) × List (List Rat))) (hdim : ∀ t ∈ outputs, ∃ r, t.spec.dims = 1 :: r)
    {x : NpArray Rat} (hx : x.WF) {n : Nat} {rest : List Nat} (hshape : x.shape = n :: rest) (hn : 0 < n)
    (hin : inputs.map (·.spec) = [⟨x.dtype, 1 :: rest⟩]) {args results : Nat → List Val}
    (hsample : ∀ i, i < n → Accepted kt g' cfgs (args i) ∧
      SampleOk kt g g' safe D cfgs inputs outputs [entry x i] (args i) (results i))
    {s : Nat × State} (hs : Reachable kt g g' safe D s.2) :
    ∃ (s' : Nat × State) (res : PyRes Rat), Reachable kt g g' safe D s'.2 ∧
      predict (lceInterp kt g' inputs outputs cfgs calls ub) s (.array x) = .ok (s', res) ∧ res.Kind outputs.length ∧
      res.arrays.length = outputs.length ∧
      ∀ (k : Nat) (t : IoSpec), outputs[k]? = some t → ∃ a, res.arrays[k]? = some a ∧ a.dtype = t.spec.dtype ∧
        a.shape = n :: t.spec.dims.tail ∧
        ∀ i, i < n → ∃ v, (results i)[k]? = some v ∧ v.numbers = some (entry a i) := by
  have hc : g'.ConstParams := by
    have := (hsample 0 hn).2.scope 0
    exact C64_params_constant arm hg hp hconv hu hf this.safe this.results
  obtain ⟨s', res, h0, h1, h2, h3, h4⟩ := predict_array_on (lce_stateless (kt := kt) (D := D) (cfgs := cfgs) (inputs := inputs)
    (outputs := outputs) hg hconv hu hc calls ub)
    (by
      intro t ht
      obtain ⟨io, hio, rfl⟩ := List.mem_map.1 ht
      exact hdim io hio) hx hshape hn hin (fun i hi => ⟨(hsample i hi).1.in (hsample i hi).2, _, (hsample i hi).2.in⟩) hs
  have hlen : (lceInterp kt g' inputs outputs cfgs calls ub).outputs.length = outputs.length := List.length_map _
  rw [hlen] at h2 h3
  refine ⟨s', res, h0, h1, h2, h3, ?_⟩
  intro k t ht
  obtain ⟨a, e1, e2, e3, e4⟩ := h4 k t.spec (by
    change (outputs.map (·.spec))[k]? = _
    rw [List.getElem?_map, ht]; rfl)
  exact ⟨a, e1, e2, e3, fun i hi => onNumbers_get (hsample i hi).2.in (e4 i hi)⟩

/-- **C66, list of arrays**: one array per input. -/
theorem C66_predict_list_partial (hg : g.Ssa) (hp : g.ParamsFixed) (hconv : Steps (allRules arm) safe g g')
    (hu : ∀ n ∈ g'.nodes, 0 < g'.uses n.name) (hf : g'.Folded) (calls : Nat → Calls)
    (ub : Option ((Nat × State) × List (List Rat))) (hdim : ∀ t ∈ outputs, ∃ r, t.spec.dims = 1 :: r)
    {xs : List (NpArray Rat)} (hx : ∀ x ∈ xs, x.WF) (hne : xs ≠ []) {n : Nat}
    (hshape : ∀ x ∈ xs, x.shape.head? = some n) (hn : 0 < n)
    (hin : inputs.map (·.spec) = xs.map fun x => ⟨x.dtype, 1 :: x.shape.tail⟩) {args results : Nat → List Val}
    (hsample : ∀ i, i < n → Accepted kt g' cfgs (args i) ∧
      SampleOk kt g g' safe D cfgs inputs outputs (xs.map fun x => entry x i) (args i) (results i))
    {s : Nat × State} (hs : Reachable kt g g' safe D s.2) :
    ∃ (s' : Nat × State) (res : PyRes Rat), Reachable kt g g' safe D s'.2 ∧
      predict (lceInterp kt g' inputs outputs cfgs calls ub) s (.list xs) = .ok (s', res) ∧ res.Kind outputs.length ∧
      res.arrays.length = outputs.length ∧
      ∀ (k : Nat) (t : IoSpec), outputs[k]? = some t → ∃ a, res.arrays[k]? = some a ∧ a.dtype = t.spec.dtype ∧
        a.shape = n :: t.spec.dims.tail ∧
        ∀ i, i < n → ∃ v, (results i)[k]? = some v ∧ v.numbers = some (entry a i) := by
  have hc : g'.ConstParams := by
    have := (hsample 0 hn).2.scope 0
    exact C64_params_constant arm hg hp hconv hu hf this.safe this.results
  obtain ⟨s', res, h0, h1, h2, h3, h4⟩ := predict_list_on (lce_stateless (kt := kt) (D := D) (cfgs := cfgs) (inputs := inputs)
    (outputs := outputs) hg hconv hu hc calls ub)
    (by
      intro t ht
      obtain ⟨io, hio, rfl⟩ := List.mem_map.1 ht
      exact hdim io hio) hx hne hshape hn hin (fun i hi => ⟨(hsample i hi).1.in (hsample i hi).2, _, (hsample i hi).2.in⟩) hs
  have hlen : (lceInterp kt g' inputs outputs cfgs calls ub).outputs.length = outputs.length := List.length_map _
  rw [hlen] at h2 h3
  refine ⟨s', res, h0, h1, h2, h3, ?_⟩
  intro k t ht
  obtain ⟨a, e1, e2, e3, e4⟩ := h4 k t.spec (by
    change (outputs.map (·.spec))[k]? = _
    rw [List.getElem?_map, ht]; rfl)
  exact ⟨a, e1, e2, e3, fun i hi => onNumbers_get (hsample i hi).2.in (e4 i hi)⟩

/-- **C66, iterator** over samples. -/
theorem C66_predict_iter_partial (hg : g.Ssa) (hp : g.ParamsFixed) (hconv : Steps (allRules arm) safe g g')
    (hu : ∀ n ∈ g'.nodes, 0 < g'.uses n.name) (hf : g'.Folded) (calls : Nat → Calls)
    (ub : Option ((Nat × State) × List (List Rat))) (hdim : ∀ t ∈ outputs, ∃ r, t.spec.dims = 1 :: r)
    {items : List (NpArray Rat ⊕ List (NpArray Rat))} (hne : items ≠ [])
    (hx : ∀ it ∈ items, ∀ a ∈ itemArrays it, a.WF)
    (hin : ∀ it ∈ items, inputs.map (·.spec) = (itemArrays it).map fun a => ⟨a.dtype, 1 :: a.shape⟩)
    {args results : NpArray Rat ⊕ List (NpArray Rat) → List Val}
    (hsample : ∀ it ∈ items, Accepted kt g' cfgs (args it) ∧
      SampleOk kt g g' safe D cfgs inputs outputs ((itemArrays it).map (·.data)) (args it) (results it))
    {s : Nat × State} (hs : Reachable kt g g' safe D s.2) :
    ∃ (s' : Nat × State) (res : PyRes Rat), Reachable kt g g' safe D s'.2 ∧
      predict (lceInterp kt g' inputs outputs cfgs calls ub) s (.iter items) = .ok (s', res) ∧ res.Kind outputs.length ∧
      res.arrays.length = outputs.length ∧
      ∀ (k : Nat) (t : IoSpec), outputs[k]? = some t → ∃ a, res.arrays[k]? = some a ∧ a.dtype = t.spec.dtype ∧
        a.shape = items.length :: t.spec.dims.tail ∧
        ∀ (i : Nat) it, items[i]? = some it → ∃ v, (results it)[k]? = some v ∧ v.numbers = some (entry a i) := by
  have hc : g'.ConstParams := by
    obtain ⟨it, hit⟩ := List.exists_mem_of_ne_nil _ hne
    have := (hsample it hit).2.scope 0
    exact C64_params_constant arm hg hp hconv hu hf this.safe this.results
  obtain ⟨s', res, h0, h1, h2, h3, h4⟩ := predict_iter_on (lce_stateless (kt := kt) (D := D) (cfgs := cfgs) (inputs := inputs)
    (outputs := outputs) hg hconv hu hc calls ub)
    (by
      intro t ht
      obtain ⟨io, hio, rfl⟩ := List.mem_map.1 ht
      exact hdim io hio) hne hx hin (fun it hi => ⟨(hsample it hi).1.in (hsample it hi).2, _, (hsample it hi).2.in⟩) hs
  have hlen : (lceInterp kt g' inputs outputs cfgs calls ub).outputs.length = outputs.length := List.length_map _
  rw [hlen] at h2 h3
  refine ⟨s', res, h0, h1, h2, h3, ?_⟩
  intro k t ht
  obtain ⟨a, e1, e2, e3, e4⟩ := h4 k t.spec (by
    change (outputs.map (·.spec))[k]? = _
    rw [List.getElem?_map, ht]; rfl)
  exact ⟨a, e1, e2, e3, fun i it hi => onNumbers_get (hsample it (List.mem_of_getElem? hi)).2.in (e4 i it hi)⟩

/-- **C66, refusal.** If every sample has the right shape and is in scope, and some node refuses one of them, `predict`
raises a `RuntimeError`: no wrong numbers are returned. -/
theorem C66_predict_refused (hg : g.Ssa) (hp : g.ParamsFixed) (hconv : Steps (allRules arm) safe g g')
    (hu : ∀ n ∈ g'.nodes, 0 < g'.uses n.name) (hf : g'.Folded) (calls : Nat → Calls)
    (ub : Option ((Nat × State) × List (List Rat))) {x : PyInput Rat} {samples : List (List (NpArray Rat))}
    (hx : dataGenerator x = .ok samples)
    (hsample : ∀ ins ∈ samples, Feeds (lceInterp kt g' inputs outputs cfgs calls ub) ins ∧
      ∃ args vs, SampleOk kt g g' safe D cfgs inputs outputs (ins.map (·.data)) args vs)
    {bad : List (NpArray Rat)} (hbad : bad ∈ samples) {args vs : List Val}
    (hbs : SampleOk kt g g' safe D cfgs inputs outputs (bad.map (·.data)) args vs)
    (hr : ∀ j, g'.Rejected { cfgs j with kt := kt } args)
    {s : Nat × State} (hs : Reachable kt g g' safe D s.2) :
    predict (lceInterp kt g' inputs outputs cfgs calls ub) s x = .error .runtimeError := by
  have hc : g'.ConstParams := by
    have := hbs.scope 0
    exact C64_params_constant arm hg hp hconv hu hf this.safe this.results
  have key : ∀ (l : List (List (NpArray Rat))) (s : Nat × State), (∀ ins ∈ l, ins ∈ samples) → bad ∈ l →
      Reachable kt g g' safe D s.2 → predictAll (lceInterp kt g' inputs outputs cfgs calls ub) s l = .error .runtimeError := by
    intro l
    induction l with
    | nil => intro s _ h; cases h
    | cons ins l ih =>
      intro s hl h hs
      unfold predictAll
      obtain ⟨hf, _, vs, hok⟩ := hsample ins (hl ins (by simp))
      obtain ⟨k1, k2⟩ := invoke_spec hg hconv hu hc calls ub hok.in hs
      cases hw : wrapperPredict (lceInterp kt g' inputs outputs cfgs calls ub) s ins with
      | error e =>
        rw [wrapperPredict_error hw]
        rfl
      | ok r =>
        by_cases hrej : g'.Rejected { cfgs s.1 with kt := kt } (List.zipWith IoSpec.val inputs (ins.map (·.data)))
        · have := k1 hrej
          unfold wrapperPredict at hw
          rw [this] at hw
          split at hw
          · cases hw
          split at hw
          · cases hw
          · cases hw
        · obtain ⟨s', hs', hi⟩ := k2 hrej
          have hrs : r.1 = s' := by
            unfold wrapperPredict at hw
            rw [hi] at hw
            split at hw
            · cases hw
            split at hw
            · cases hw
            · cases hw; rfl
          rcases List.mem_cons.1 h with rfl | h
          · exact absurd (by rw [ioVals_eq hbs.sample]; exact hr s.1) hrej
          · simp only [bind, Except.bind]
            rw [hrs, ih s' (fun i hi => hl i (List.mem_cons_of_mem _ hi)) h hs']
  unfold predict
  rw [hx]
  simp only [bind, Except.bind]
  rw [key samples s (fun _ h => h) hbad hs]

/-- Which kernel an `Interpreter` uses: the reference kernel if asked for (also when both flags are set), the indirect one
if only that is asked for, otherwise BGEMM (in a build with ruy). -/
theorem C66_kernel_choice (r i : Bool) :
    registeredKernel true r i = (if r = true then .reference else if i = true then .indirect else .bgemm) ∧
    registeredKernel false r i = (if r = false ∧ i = true then .indirect else .reference) := by
  cases r <;> cases i <;> exact ⟨rfl, rfl⟩

/-! ### Non-vacuity -/

/-- The interface of the int8 example of C61: an int8 input and an int8 output. -/
def exIns : List IoSpec := [⟨⟨9, [1, 2, 2, 1]⟩, some (1 / 10, 5)⟩]

/-- See `exIns`. -/
def exOuts : List IoSpec := [⟨⟨9, [1, 2, 2, 2]⟩, some (3 / 4, -3)⟩]

/-- Two samples. -/
def exArray : NpArray Rat := ⟨9, [2, 2, 2, 1], [-128, 4, 5, 127, -128, 4, 5, 127]⟩

/-- `predict` on the int8 example of C61, converted, with two samples and each kernel: the hypotheses of
`C66_predict_array_partial` hold for a new interpreter. -/
example : exInt8.Ssa ∧ ∃ g', Steps (allRules false) (fun ins => ins = exInt8Arg) exInt8 g' ∧
    exInt8.ParamsFixed ∧ (∀ n ∈ g'.nodes, 0 < g'.uses n.name) ∧ g'.Folded ∧
    ∀ kt, kt ≠ .indirect →
      (∀ i, i < 2 → Accepted kt g' (fun _ => exCfg kt false) exInt8Arg ∧
        SampleOk kt exInt8 g' (fun ins => ins = exInt8Arg) (fun _ => ⟨[], false, 0⟩) (fun _ => exCfg kt false) exIns exOuts
          [entry exArray i] exInt8Arg [.q ⟨[1, 2, 2, 2], [2, 3, 2, 3, -6, 2, -6, 2]⟩ (3 / 4) (-3)]) := by
  refine ⟨exInt8_ssa, ?_⟩
  obtain ⟨g', h1, h2, _, _, h5⟩ := exInt8_converts
  have h : (exInt8Conv.map fun g => (g.nodes.all (fun n => decide (0 < g.uses n.name)),
      g.tameB .reference exInt8Arg, g.tameB .bgemm exInt8Arg, g.foldedB)) = some (true, true, true, true) := by
    decide +kernel
  have e : ∀ kt, (exInt8Conv.map fun g => g.exec (exCfg kt false) (exInt8Arg.map .plain))
      = some (.ok [.plain (.q ⟨[1, 2, 2, 2], [2, 3, 2, 3, -6, 2, -6, 2]⟩ (3 / 4) (-3))]) := by
    intro kt
    cases kt
    · kernel_rfl
    · kernel_rfl
    · kernel_rfl
  rw [h1] at h e
  simp only [Option.map_some, Option.some.injEq, Prod.mk.injEq] at h e
  obtain ⟨q1, q2, q3, q4⟩ := h
  have hu : ∀ n ∈ g'.nodes, 0 < g'.uses n.name := by
    intro n hn
    simpa using (List.all_eq_true.1 q1) n hn
  refine ⟨g', h2, Graph.paramsFixedB_iff (C := [3, 4, 5, 6, 7, 8, 9, 10]) (by decide +kernel), hu, Graph.foldedB_iff q4, ?_⟩
  intro kt hkt i hi
  have htame : g'.Tame kt exInt8Arg := by
    cases kt
    · exact Graph.tameB_iff q2
    · exact Graph.tameB_iff q3
    · exact absurd rfl hkt
  have hsc : InScope kt exInt8 g' (fun ins => ins = exInt8Arg) (fun _ => ⟨[], false, 0⟩) (exCfg kt false) exInt8Arg
      (exInt8Arg.map .plain) [.q ⟨[1, 2, 2, 2], [2, 3, 2, 3, -6, 2, -6, 2]⟩ (3 / 4) (-3)] :=
    ⟨rfl, h5, rfl, exCfg_scheduled _ _, htame, .cons rfl .nil, fun hk => absurd hk hkt⟩
  refine ⟨?_, ?_, ?_, by decide +kernel⟩
  · intro j hr
    have := (C63_any_pass_order_partial false exInt8_ssa h2 hu rfl (exCfg_scheduled kt false) htame hsc.tensors h5).1 hr
    rw [e kt] at this
    cases this
  · have h01 : i = 0 ∨ i = 1 := by omega
    rcases h01 with rfl | rfl
    · kernel_rfl
    · kernel_rfl
  · intro j
    exact hsc

/-- The same run, with all three kernels. -/
example : ∀ kt, (exInt8Conv.map fun g => (predict (lceInterp kt g exIns exOuts (fun _ => exCfg kt false) (fun _ => noCalls)
      Option.none) (0, State.new) (.array exArray)).map (·.2)) =
    some (.ok (.one ⟨9, [2, 2, 2, 2], [2, 3, 2, 3, -6, 2, -6, 2, 2, 3, 2, 3, -6, 2, -6, 2]⟩)) := by
  intro kt
  cases kt
  · kernel_rfl
  · kernel_rfl
  · kernel_rfl

end Verif.Ir
