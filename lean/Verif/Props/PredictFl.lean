import Verif.Spec.PredictFlRel
import Verif.Proof.PredictRel
import Verif.Props.PredictLce
import Verif.Props.SessionFl

/-!
C76: `Interpreter.predict` on a converted model, in floating-point arithmetic, returns what the original graph computes up to the
tolerances.
-/

namespace Verif.Ir

theorem sessionFl_append (R : FlEnv) (kt : KernelType) (g : Graph) : ∀ (es es' : List EventFl) (st : State),
    g.sessionFl R kt (es ++ es') st = (g.sessionFl R kt es st).bind fun st' => g.sessionFl R kt es' st'
  | [], _, _ => rfl
  | .prepare nm i left :: es, es', st => by
    simp only [List.cons_append, Graph.sessionFl]
    cases g.convNode kt nm with
    | none => exact sessionFl_append R kt g es es' st
    | some nd =>
      simp only
      generalize callPrepare nd i left (st nm) = w
      obtain ⟨o, s⟩ := w
      cases o with
      | ub => rfl
      | error => exact sessionFl_append R kt g es es' _
      | ok _ => exact sessionFl_append R kt g es es' _
  | .infer F cfg k ins :: es, es', st => by
    simp only [List.cons_append, Graph.sessionFl]
    generalize Graph.stepFl { F with R := R } { cfg with kt := kt } k g ins st = w
    obtain ⟨o, s⟩ := w
    cases o with
    | ub => rfl
    | error => exact sessionFl_append R kt g es es' _
    | ok _ => exact sessionFl_append R kt g es es' _

theorem ReachableFl.new (R : FlEnv) (kt : KernelType) (g g' : Graph) (safe : List Val → Prop) (D : Nat → InputDesc) :
    ReachableFl R kt g g' safe D State.new := ⟨[], by simp, rfl⟩

theorem mapM_len {α β : Type} {f : α → Option β} : ∀ {l : List α} {vs : List β}, l.mapM f = some vs → vs.length = l.length
  | [], vs, h => by cases h; rfl
  | a :: l, vs, h => by
    rw [mapM_cons'] at h
    cases ha : f a with
    | none => rw [ha] at h; cases h
    | some b =>
      cases hl : l.mapM f with
      | none => rw [ha, hl] at h; cases h
      | some bs =>
        rw [ha, hl] at h
        cases h
        simp [mapM_len hl]

theorem numbers_near {ε : Rat} {v : Val} {m : MVal} (h : RepNear ε v m) (hv : v.numbers.isSome = true) :
    ∃ l, m.numbers = some l ∧ NumbersNear ε v l := by
  obtain ⟨v', h1, h2⟩ := h
  cases v with
  | f t =>
    obtain ⟨d, rfl, hd⟩ := h1
    exact ⟨d, numbers_plain h2 rfl, _, rfl, hd⟩
  | q t sc zp =>
    obtain ⟨d, rfl, hd⟩ := h1
    refine ⟨_, numbers_plain h2 rfl, _, rfl, ?_⟩
    rw [List.forall₂_map_left_iff, List.forall₂_map_right_iff]
    exact hd.imp fun x y hxy => by simpa using hxy.1
  | _ => cases hv

theorem numbersNear_length {ε : Rat} {v : Val} {l : List Rat} (h : NumbersNear ε v l) : l.length = (v.numbers.getD []).length := by
  obtain ⟨x, h1, h2⟩ := h
  rw [h1, Option.getD_some]
  exact h2.length_eq.symm

theorem reps_near : ∀ {vs : List Val} {es : List Rat} {ms : List MVal}, es.length = vs.length →
    List.Forall₂ (fun p m => RepNear p.2 p.1 m) (vs.zip es) ms → (∀ v ∈ vs, v.numbers.isSome = true) →
    ∃ o : List (List Rat), ms.mapM MVal.numbers = some o ∧ List.Forall₂ (fun p l => NumbersNear p.2 p.1 l) (vs.zip es) o
  | [], es, ms, _, h, _ => by
    cases h
    exact ⟨[], rfl, .nil⟩
  | v :: vs, [], ms, hl, _, _ => by cases hl
  | v :: vs, e :: es, ms, hl, h, hv => by
    cases h with
    | cons h t =>
      obtain ⟨l, h1, h2⟩ := numbers_near h (hv v (by simp))
      obtain ⟨o, h3, h4⟩ := reps_near (by simpa using hl) t fun u hu => hv u (List.mem_cons_of_mem _ hu)
      refine ⟨l :: o, ?_, .cons h2 h4⟩
      rw [mapM_cons', h1, h3]
      rfl

theorem near_sizes : ∀ {vs : List Val} {es : List Rat} {o : List (List Rat)} {os : List IoSpec}, es.length = vs.length →
    (∀ v ∈ vs, v.wf = true) → vs.map (fun v => (v.numbers.isSome, v.shape)) = os.map (fun t => (true, t.spec.dims)) →
    List.Forall₂ (fun p l => NumbersNear p.2 p.1 l) (vs.zip es) o →
    o.map List.length = (os.map (·.spec)).map fun t => t.dims.prod
  | [], es, o, os, _, _, h, hf => by
    cases hf
    cases os with
    | nil => rfl
    | cons _ _ => cases h
  | v :: vs, [], _, _, hl, _, _, _ => by cases hl
  | v :: vs, e :: es, o, os, hl, hw, h, hf => by
    cases hf with
    | cons h1 t =>
      cases os with
      | nil => cases h
      | cons b os =>
        simp only [List.map_cons, List.cons.injEq, Prod.mk.injEq] at h
        simp only [List.map_cons]
        rw [numbersNear_length h1, numbers_length (hw v (by simp)) h.1.1, h.1.2,
          near_sizes (by simpa using hl) (fun u hu => hw u (List.mem_cons_of_mem _ hu)) h.2 t]

variable {arm : Bool} {R : FlEnv} {kt : KernelType} {g g' : Graph} {safe : List Val → Prop} {D : Nat → InputDesc} {Fs : Nat → FlCfg}
  {cfgs : Nat → Cfg} {inputs outputs : List IoSpec}

/-- One `Invoke` on a sample in scope, from any reachable state. -/
theorem invokeFl_spec (hg : g.Ssa) (hconv : Steps (allRules arm) safe g g') (hu : ∀ n ∈ g'.nodes, 0 < g'.uses n.name)
    (hc : g'.ConstParams) (calls : Nat → Calls) (ub : Option ((Nat × State) × List (List Rat))) {T : Nat → Rat} {d : List (List Rat)}
    {ins vs : List Val} (h : SampleOkFl R kt g g' safe D Fs cfgs inputs outputs T d ins vs) {s : Nat × State}
    (hs : ReachableFl R kt g g' safe D s.2) :
    (g'.Rejected { cfgs s.1 with kt := kt } ins →
      (lceInterpFl R kt g' inputs outputs Fs cfgs calls ub).invoke s d = none) ∧
    (¬ g'.Rejected { cfgs s.1 with kt := kt } ins → ∃ (s' : Nat × State) (o : List (List Rat)),
      ReachableFl R kt g g' safe D s'.2 ∧
      (lceInterpFl R kt g' inputs outputs Fs cfgs calls ub).invoke s d = some (s', o) ∧
      List.Forall₂ (fun p l => NumbersNear p.2 p.1 l) (vs.zip (g'.outs.map T)) o ∧
      (g'.outs.map T).length = vs.length ∧
      o.map List.length = (outputs.map (·.spec)).map fun t => t.dims.prod) := by
  obtain ⟨n, st⟩ := s
  obtain ⟨es, hes, hst⟩ := hs
  have hsc := h.scope n
  obtain ⟨st1, h1, h2, h3⟩ := C75_lifetime_partial arm hg hconv hu hc D es hes hsc (calls n)
  simp only at hst
  rw [hst] at h1
  cases h1
  have hio := ioVals_eq h.sample
  refine ⟨fun hr => ?_, fun hr => ?_⟩
  · have := h2 hr
    unfold lceInterpFl
    simp only
    rw [hio]
    generalize Graph.stepFl _ _ (calls n) g' _ st = w at this
    obtain ⟨o, s⟩ := w
    simp only at this
    rw [this]
  · obtain ⟨ms, h4, h5⟩ := h3 hr
    have hev := C61_rewriting_preserves_partial arm safe hg hconv ins vs hsc.safe hsc.results
    have hlen : (g'.outs.map T).length = vs.length := by
      rw [List.length_map]
      exact (mapM_len hev).symm
    have hsome : ∀ v ∈ vs, v.numbers.isSome = true := by
      intro v hv
      obtain ⟨k, hk, rfl⟩ := List.getElem_of_mem hv
      have := congrArg (fun l => l[k]?) h.outs
      simp only [List.getElem?_map, List.getElem?_eq_getElem hk, Option.map_some] at this
      cases ho : outputs[k]? with
      | none => rw [ho] at this; cases this
      | some t =>
        rw [ho] at this
        simp only [Option.map_some, Option.some.injEq, Prod.mk.injEq] at this
        exact this.1
    have hwf : ∀ v ∈ vs, v.wf = true := by
      intro v hv
      have hr := hsc.results
      unfold Graph.eval at hr
      obtain ⟨x, _, hx⟩ := mapM_mem_out hr v hv
      exact runNodes_wf _ g.nodes (fun _ => Option.none) (by simp) _ _ hx
    obtain ⟨o, h6, h7⟩ := reps_near hlen h5 hsome
    have hsess : g'.sessionFl R kt (es ++ [.infer { Fs n with R := R } { cfgs n with kt := kt } (calls n) (ins.map .plain)]) State.new =
        some (g'.stepFl { Fs n with R := R } { cfgs n with kt := kt } (calls n) (ins.map .plain) st).2 := by
      rw [sessionFl_append, hst]
      simp only [Option.bind_some, Graph.sessionFl]
      generalize Graph.stepFl _ _ (calls n) g' _ st = w at h4
      obtain ⟨o, s⟩ := w
      simp only at h4
      rw [h4]
    refine ⟨(n + 1, _), o, ⟨_, ?_, hsess⟩, ?_, h7, hlen, near_sizes hlen hwf h.outs h7⟩
    · intro F cfg k mins hm
      rcases List.mem_append.1 hm with hm | hm
      · exact hes F cfg k mins hm
      · rw [List.mem_singleton] at hm
        cases hm
        exact ⟨_, _, _, hsc⟩
    · unfold lceInterpFl
      simp only
      rw [hio]
      generalize Graph.stepFl _ _ (calls n) g' _ st = w at h4
      obtain ⟨o', s⟩ := w
      simp only at h4
      rw [h4]
      simp only
      rw [h6]
      rfl

/-- The outputs `o` are, for any tolerances with which the sample `d` is in scope, within these tolerances of the results of the
original graph. -/
def NearResults (R : FlEnv) (kt : KernelType) (g g' : Graph) (safe : List Val → Prop) (D : Nat → InputDesc) (Fs : Nat → FlCfg)
    (cfgs : Nat → Cfg) (inputs outputs : List IoSpec) (d o : List (List Rat)) : Prop :=
  ∀ T ins vs, SampleOkFl R kt g g' safe D Fs cfgs inputs outputs T d ins vs →
    List.Forall₂ (fun p l => NumbersNear p.2 p.1 l) (vs.zip (g'.outs.map T)) o ∧ (g'.outs.map T).length = vs.length

theorem lce_relOn (hg : g.Ssa) (hconv : Steps (allRules arm) safe g g') (hu : ∀ n ∈ g'.nodes, 0 < g'.uses n.name)
    (hc : g'.ConstParams) (calls : Nat → Calls) (ub : Option ((Nat × State) × List (List Rat))) :
    RelOn (lceInterpFl R kt g' inputs outputs Fs cfgs calls ub) (fun s => ReachableFl R kt g g' safe D s.2)
      (fun d => ∃ T ins vs, Accepted kt g' cfgs ins ∧ SampleOkFl R kt g g' safe D Fs cfgs inputs outputs T d ins vs)
      (NearResults R kt g g' safe D Fs cfgs inputs outputs) where
  run := by
    rintro s d hs ⟨T, ins, vs, ha, hd⟩ _
    obtain ⟨s', o, h1, h2, _, _, h5⟩ := (invokeFl_spec hg hconv hu hc calls ub hd hs).2 (ha s.1)
    refine ⟨s', o, h1, h2, ?_, h5⟩
    intro T2 ins2 vs2 hd2
    have e : ins2 = ins := by rw [← ioVals_eq hd.sample, ← ioVals_eq hd2.sample]
    subst e
    obtain ⟨s2, o2, _, q2, q3, q4, _⟩ := (invokeFl_spec hg hconv hu hc calls ub hd2 hs).2 (ha s.1)
    rw [h2] at q2
    cases q2
    exact ⟨q3, q4⟩

theorem nearResults_get {T : Nat → Rat} {d o : List (List Rat)} {ins vs : List Val}
    (h : NearResults R kt g g' safe D Fs cfgs inputs outputs d o)
    (hd : SampleOkFl R kt g g' safe D Fs cfgs inputs outputs T d ins vs) {k : Nat} {l : List Rat} (hl : o[k]? = some l) :
    ∃ v nm, vs[k]? = some v ∧ g'.outs[k]? = some nm ∧ NumbersNear (T nm) v l := by
  obtain ⟨h1, h2⟩ := h T ins vs hd
  have hk : k < o.length := (List.getElem?_eq_some_iff.1 hl).1
  have hz : (vs.zip (g'.outs.map T)).length = vs.length := by
    rw [List.length_zip, h2, Nat.min_self]
  have hkv : k < vs.length := by rw [← hz, h1.length_eq]; exact hk
  have hko : k < g'.outs.length := by rw [List.length_map] at h2; omega
  have := h1.get (i := k) (by omega) hk
  refine ⟨vs[k], g'.outs[k], List.getElem?_eq_getElem hkv, List.getElem?_eq_getElem hko, ?_⟩
  have e : o[k] = l := (List.getElem?_eq_some_iff.1 hl).2
  simpa [e] using this

theorem hdim_spec (hdim : ∀ t ∈ outputs, ∃ r, t.spec.dims = 1 :: r) : ∀ t ∈ outputs.map (·.spec), ∃ r, t.dims = 1 :: r := by
  intro t ht
  obtain ⟨io, hio, rfl⟩ := List.mem_map.1 ht
  exact hdim io hio

/-- **C76, array.** A graph `g` is converted to `g'` and loaded into an interpreter with any kernel, on a target whose float and
double arithmetic rounds to nearest; the interpreter may have any history. `predict(x)` on an array of `n ≥ 1` samples (floats or
int8, each in scope with its tolerances and not refused) succeeds and returns for output `k` an array with `n` entries, entry `i`
being within the tolerance of output `k` of what the original graph computes for sample `i`. The interpreter is then in a state for
which the same holds. -/
theorem C76_predict_array_partial (hg : g.Ssa) (hp : g.ParamsFixed) (hconv : Steps (allRules arm) safe g g')
    (hu : ∀ n ∈ g'.nodes, 0 < g'.uses n.name) (hf : g'.Folded) (calls : Nat → Calls)
    (ub : Option ((Nat × State) × List (List Rat))) (hdim : ∀ t ∈ outputs, ∃ r, t.spec.dims = 1 :: r)
    {x : NpArray Rat} (hx : x.WF) {n : Nat} {rest : List Nat} (hshape : x.shape = n :: rest) (hn : 0 < n)
    (hin : inputs.map (·.spec) = [⟨x.dtype, 1 :: rest⟩]) {tol : Nat → Nat → Rat} {args results : Nat → List Val}
    (hsample : ∀ i, i < n → Accepted kt g' cfgs (args i) ∧
      SampleOkFl R kt g g' safe D Fs cfgs inputs outputs (tol i) [entry x i] (args i) (results i))
    {s : Nat × State} (hs : ReachableFl R kt g g' safe D s.2) :
    ∃ (s' : Nat × State) (res : PyRes Rat), ReachableFl R kt g g' safe D s'.2 ∧
      predict (lceInterpFl R kt g' inputs outputs Fs cfgs calls ub) s (.array x) = .ok (s', res) ∧ res.Kind outputs.length ∧
      res.arrays.length = outputs.length ∧
      ∀ (k : Nat) (t : IoSpec), outputs[k]? = some t → ∃ a, res.arrays[k]? = some a ∧ a.dtype = t.spec.dtype ∧
        a.shape = n :: t.spec.dims.tail ∧
        ∀ i, i < n → ∃ v nm, (results i)[k]? = some v ∧ g'.outs[k]? = some nm ∧ NumbersNear (tol i nm) v (entry a i) := by
  have hc : g'.ConstParams := by
    have := (hsample 0 hn).2.scope 0
    exact C64_params_constant arm hg hp hconv hu hf this.safe this.results
  obtain ⟨s', res, h0, h1, h2, h3, h4⟩ := predict_rel (lce_relOn (R := R) (kt := kt) (D := D) (Fs := Fs) (cfgs := cfgs) (inputs := inputs)
    (outputs := outputs) hg hconv hu hc calls ub) (hdim_spec hdim) (gen_array hshape) (by simp; omega) (by
      intro ins hi
      obtain ⟨i, hi', rfl⟩ := List.mem_map.1 hi
      rw [List.mem_range] at hi'
      refine ⟨⟨?_, ?_⟩, _, _, _, (hsample i hi').1, (hsample i hi').2⟩
      · change _ = (inputs.map (·.spec)).map _
        rw [hin]; rfl
      · intro a ha
        rw [List.mem_singleton.1 ha]
        exact gen_array_wf hx hshape hi') hs
  have hlen : (lceInterpFl R kt g' inputs outputs Fs cfgs calls ub).outputs.length = outputs.length := List.length_map _
  rw [hlen] at h2 h3
  refine ⟨s', res, h0, h1, h2, h3, ?_⟩
  intro k t ht
  obtain ⟨a, e1, e2, e3, e4⟩ := h4 k t.spec (by
    change (outputs.map (·.spec))[k]? = _
    rw [List.getElem?_map, ht]; rfl)
  refine ⟨a, e1, e2, by simpa using e3, fun i hi => ?_⟩
  obtain ⟨o, q1, q2⟩ := e4 i _ (by rw [List.getElem?_map, List.getElem?_range hi]; rfl)
  exact nearResults_get q1 (hsample i hi).2 q2

/-- **C76, list of arrays**: one array per input. -/
theorem C76_predict_list_partial (hg : g.Ssa) (hp : g.ParamsFixed) (hconv : Steps (allRules arm) safe g g')
    (hu : ∀ n ∈ g'.nodes, 0 < g'.uses n.name) (hf : g'.Folded) (calls : Nat → Calls)
    (ub : Option ((Nat × State) × List (List Rat))) (hdim : ∀ t ∈ outputs, ∃ r, t.spec.dims = 1 :: r)
    {xs : List (NpArray Rat)} (hx : ∀ x ∈ xs, x.WF) (hne : xs ≠ []) {n : Nat}
    (hshape : ∀ x ∈ xs, x.shape.head? = some n) (hn : 0 < n)
    (hin : inputs.map (·.spec) = xs.map fun x => ⟨x.dtype, 1 :: x.shape.tail⟩) {tol : Nat → Nat → Rat} {args results : Nat → List Val}
    (hsample : ∀ i, i < n → Accepted kt g' cfgs (args i) ∧
      SampleOkFl R kt g g' safe D Fs cfgs inputs outputs (tol i) (xs.map fun x => entry x i) (args i) (results i))
    {s : Nat × State} (hs : ReachableFl R kt g g' safe D s.2) :
    ∃ (s' : Nat × State) (res : PyRes Rat), ReachableFl R kt g g' safe D s'.2 ∧
      predict (lceInterpFl R kt g' inputs outputs Fs cfgs calls ub) s (.list xs) = .ok (s', res) ∧ res.Kind outputs.length ∧
      res.arrays.length = outputs.length ∧
      ∀ (k : Nat) (t : IoSpec), outputs[k]? = some t → ∃ a, res.arrays[k]? = some a ∧ a.dtype = t.spec.dtype ∧
        a.shape = n :: t.spec.dims.tail ∧
        ∀ i, i < n → ∃ v nm, (results i)[k]? = some v ∧ g'.outs[k]? = some nm ∧ NumbersNear (tol i nm) v (entry a i) := by
  have hc : g'.ConstParams := by
    have := (hsample 0 hn).2.scope 0
    exact C64_params_constant arm hg hp hconv hu hf this.safe this.results
  have hdata : ∀ i, (xs.map fun x => (⟨x.dtype, 1 :: x.shape.tail, entry x i⟩ : NpArray Rat)).map (·.data) = xs.map fun x => entry x i := by
    intro i
    rw [List.map_map]
    rfl
  obtain ⟨s', res, h0, h1, h2, h3, h4⟩ := predict_rel (lce_relOn (R := R) (kt := kt) (D := D) (Fs := Fs) (cfgs := cfgs) (inputs := inputs)
    (outputs := outputs) hg hconv hu hc calls ub) (hdim_spec hdim) (gen_list hne hshape) (by simp; omega) (by
      intro ins hi
      obtain ⟨i, hi', rfl⟩ := List.mem_map.1 hi
      rw [List.mem_range] at hi'
      refine ⟨⟨?_, gen_list_wf hx hshape hi'⟩, tol i, args i, results i, (hsample i hi').1, ?_⟩
      · change _ = (inputs.map (·.spec)).map _
        rw [hin]; simp
      · rw [hdata]
        exact (hsample i hi').2) hs
  have hlen : (lceInterpFl R kt g' inputs outputs Fs cfgs calls ub).outputs.length = outputs.length := List.length_map _
  rw [hlen] at h2 h3
  refine ⟨s', res, h0, h1, h2, h3, ?_⟩
  intro k t ht
  obtain ⟨a, e1, e2, e3, e4⟩ := h4 k t.spec (by
    change (outputs.map (·.spec))[k]? = _
    rw [List.getElem?_map, ht]; rfl)
  refine ⟨a, e1, e2, by simpa using e3, fun i hi => ?_⟩
  obtain ⟨o, q1, q2⟩ := e4 i _ (by rw [List.getElem?_map, List.getElem?_range hi]; rfl)
  rw [hdata] at q1
  exact nearResults_get q1 (hsample i hi).2 q2

/-- **C76, iterator** over samples. -/
theorem C76_predict_iter_partial (hg : g.Ssa) (hp : g.ParamsFixed) (hconv : Steps (allRules arm) safe g g')
    (hu : ∀ n ∈ g'.nodes, 0 < g'.uses n.name) (hf : g'.Folded) (calls : Nat → Calls)
    (ub : Option ((Nat × State) × List (List Rat))) (hdim : ∀ t ∈ outputs, ∃ r, t.spec.dims = 1 :: r)
    {items : List (NpArray Rat ⊕ List (NpArray Rat))} (hne : items ≠ [])
    (hx : ∀ it ∈ items, ∀ a ∈ itemArrays it, a.WF)
    (hin : ∀ it ∈ items, inputs.map (·.spec) = (itemArrays it).map fun a => ⟨a.dtype, 1 :: a.shape⟩)
    {tol : NpArray Rat ⊕ List (NpArray Rat) → Nat → Rat} {args results : NpArray Rat ⊕ List (NpArray Rat) → List Val}
    (hsample : ∀ it ∈ items, Accepted kt g' cfgs (args it) ∧
      SampleOkFl R kt g g' safe D Fs cfgs inputs outputs (tol it) ((itemArrays it).map (·.data)) (args it) (results it))
    {s : Nat × State} (hs : ReachableFl R kt g g' safe D s.2) :
    ∃ (s' : Nat × State) (res : PyRes Rat), ReachableFl R kt g g' safe D s'.2 ∧
      predict (lceInterpFl R kt g' inputs outputs Fs cfgs calls ub) s (.iter items) = .ok (s', res) ∧ res.Kind outputs.length ∧
      res.arrays.length = outputs.length ∧
      ∀ (k : Nat) (t : IoSpec), outputs[k]? = some t → ∃ a, res.arrays[k]? = some a ∧ a.dtype = t.spec.dtype ∧
        a.shape = items.length :: t.spec.dims.tail ∧
        ∀ (i : Nat) it, items[i]? = some it →
          ∃ v nm, (results it)[k]? = some v ∧ g'.outs[k]? = some nm ∧ NumbersNear (tol it nm) v (entry a i) := by
  have hc : g'.ConstParams := by
    obtain ⟨it, hit⟩ := List.exists_mem_of_ne_nil _ hne
    have := (hsample it hit).2.scope 0
    exact C64_params_constant arm hg hp hconv hu hf this.safe this.results
  have hdata : ∀ it : NpArray Rat ⊕ List (NpArray Rat), ((itemArrays it).map expandDims).map (·.data) = (itemArrays it).map (·.data) := by
    intro it
    rw [List.map_map]
    rfl
  obtain ⟨s', res, h0, h1, h2, h3, h4⟩ := predict_rel (lce_relOn (R := R) (kt := kt) (D := D) (Fs := Fs) (cfgs := cfgs) (inputs := inputs)
    (outputs := outputs) hg hconv hu hc calls ub) (hdim_spec hdim) (gen_iter items) (by simpa using hne) (by
      intro ins hi
      obtain ⟨it, hit, rfl⟩ := List.mem_map.1 hi
      refine ⟨⟨?_, gen_iter_wf (hx it hit)⟩, tol it, args it, results it, (hsample it hit).1, ?_⟩
      · change _ = (inputs.map (·.spec)).map _
        rw [hin it hit]; simp [List.map_map, Function.comp_def, expandDims]
      · rw [hdata]
        exact (hsample it hit).2) hs
  have hlen : (lceInterpFl R kt g' inputs outputs Fs cfgs calls ub).outputs.length = outputs.length := List.length_map _
  rw [hlen] at h2 h3
  refine ⟨s', res, h0, h1, h2, h3, ?_⟩
  intro k t ht
  obtain ⟨a, e1, e2, e3, e4⟩ := h4 k t.spec (by
    change (outputs.map (·.spec))[k]? = _
    rw [List.getElem?_map, ht]; rfl)
  refine ⟨a, e1, e2, by simpa using e3, fun i it hi => ?_⟩
  obtain ⟨o, q1, q2⟩ := e4 i _ (by rw [List.getElem?_map, hi]; rfl)
  rw [hdata] at q1
  exact nearResults_get q1 (hsample it (List.mem_of_getElem? hi)).2 q2

/-- **C76, refusal.** If every sample has the right shape and is in scope, and some node refuses one of them, `predict`
raises a `RuntimeError`: no wrong numbers are returned. -/
theorem C76_predict_refused (hg : g.Ssa) (hp : g.ParamsFixed) (hconv : Steps (allRules arm) safe g g')
    (hu : ∀ n ∈ g'.nodes, 0 < g'.uses n.name) (hf : g'.Folded) (calls : Nat → Calls)
    (ub : Option ((Nat × State) × List (List Rat))) {x : PyInput Rat} {samples : List (List (NpArray Rat))}
    (hx : dataGenerator x = .ok samples)
    (hsample : ∀ ins ∈ samples, Feeds (lceInterpFl R kt g' inputs outputs Fs cfgs calls ub) ins ∧
      ∃ T args vs, SampleOkFl R kt g g' safe D Fs cfgs inputs outputs T (ins.map (·.data)) args vs)
    {bad : List (NpArray Rat)} (hbad : bad ∈ samples) {T : Nat → Rat} {args vs : List Val}
    (hbs : SampleOkFl R kt g g' safe D Fs cfgs inputs outputs T (bad.map (·.data)) args vs)
    (hr : ∀ j, g'.Rejected { cfgs j with kt := kt } args)
    {s : Nat × State} (hs : ReachableFl R kt g g' safe D s.2) :
    predict (lceInterpFl R kt g' inputs outputs Fs cfgs calls ub) s x = .error .runtimeError := by
  have hc : g'.ConstParams := by
    have := hbs.scope 0
    exact C64_params_constant arm hg hp hconv hu hf this.safe this.results
  have key : ∀ (l : List (List (NpArray Rat))) (s : Nat × State), (∀ ins ∈ l, ins ∈ samples) → bad ∈ l →
      ReachableFl R kt g g' safe D s.2 →
      predictAll (lceInterpFl R kt g' inputs outputs Fs cfgs calls ub) s l = .error .runtimeError := by
    intro l
    induction l with
    | nil => intro s _ h; cases h
    | cons ins l ih =>
      intro s hl h hs
      unfold predictAll
      obtain ⟨hf, T1, a1, vs, hok⟩ := hsample ins (hl ins (by simp))
      obtain ⟨k1, k2⟩ := invokeFl_spec hg hconv hu hc calls ub hok hs
      cases hw : wrapperPredict (lceInterpFl R kt g' inputs outputs Fs cfgs calls ub) s ins with
      | error e =>
        rw [wrapperPredict_error hw]
        rfl
      | ok r =>
        by_cases hrej : g'.Rejected { cfgs s.1 with kt := kt } a1
        · have := k1 hrej
          unfold wrapperPredict at hw
          rw [this] at hw
          split at hw
          · cases hw
          split at hw
          · cases hw
          · cases hw
        · obtain ⟨s', o, hs', hi, _⟩ := k2 hrej
          have hrs : r.1 = s' := by
            unfold wrapperPredict at hw
            rw [hi] at hw
            split at hw
            · cases hw
            split at hw
            · cases hw
            · cases hw; rfl
          rcases List.mem_cons.1 h with rfl | h
          · have e : a1 = args := by rw [← ioVals_eq hbs.sample, ← ioVals_eq hok.sample]
            exact absurd (by rw [e]; exact hr s.1) hrej
          · simp only [bind, Except.bind]
            rw [hrs, ih s' (fun i hi => hl i (List.mem_cons_of_mem _ hi)) h hs']
  unfold predict
  rw [hx]
  simp only [bind, Except.bind]
  rw [key samples s (fun _ h => h) hbad hs]

/-! ### Non-vacuity -/

/-- The example of C74 with a float output only: two pixels of two channels, a 1 * 1 convolution with the multipliers and biases 1/3
and 1/10 rounded to float, and a relu. -/
def exPr : Graph where
  nodes := [
    ⟨0, .arg 0, [], some [1, 1, 2, 2]⟩,
    ⟨1, .lquant, [0], some [1, 1, 2, 2]⟩,
    ⟨2, .const (.s ⟨[1, 1, 1, 2], [true, false]⟩), [], some [1, 1, 1, 2]⟩,
    ⟨3, .const (.f ⟨[1], [11184811 / 33554432]⟩), [], some [1]⟩,
    ⟨4, .const (.f ⟨[1], [13421773 / 134217728]⟩), [], some [1]⟩,
    ⟨5, .const .none, [], Option.none⟩,
    ⟨6, .bconv ⟨⟨1, 1, 1, 1, .valid⟩, 0, 2, .none, false⟩, [1, 2, 3, 4, 5], some [1, 1, 2, 1]⟩,
    ⟨7, .act .relu, [6], some [1, 1, 2, 1]⟩]
  outs := [7]

/-- Float arithmetic `R`, writes in reverse order, and the relu of C74 that is a little wrong. -/
def exPrF (R : FlEnv) : FlCfg := ⟨R, roundHalfAway, fun _ _ l => l.reverse, fun _ _ l => match l with
  | [.f t] => some (.f (exFlRelu t))
  | _ => Option.none⟩

/-- The signs of the inputs are all the convolution sees. -/
theorem exPr_hyps (R : FlEnv) (h1 : RoundsToNearest R.fl) (h2 : RoundsToNearest64 R.dl) :
    (exPrF R).Proper ∧ exPr.Ssa ∧ (∀ n ∈ exPr.nodes, 0 < exPr.uses n.name) ∧ (∀ kt, exPr.Tame kt exFlArg) ∧
      exPr.Tolerances (exPrF R) exFlTol exFlArg ∧ (∀ kt, ¬ exPr.Rejected (exCfg kt false) exFlArg) := by
  refine ⟨⟨h1, h2, halfAway_err, fun _ _ l => List.reverse_perm l⟩, ssa_of_check (by decide +kernel) (by decide +kernel), by decide +kernel,
    ?_, ⟨?_, ?_⟩, ?_⟩
  · intro kt
    cases kt
    · exact Graph.tameB_iff (by decide +kernel)
    · exact Graph.tameB_iff (by decide +kernel)
    · exact Graph.tameB_iff (by decide +kernel)
  · intro x
    unfold exFlTol
    split_ifs <;> norm_num
  · intro n hn l hl
    simp only [exPr, List.mem_cons, List.not_mem_nil, or_false] at hn
    rcases hn with rfl | rfl | rfl | rfl | rfl | rfl | rfl | rfl
    · trivial
    · have : [0].mapM (runNodes exFlArg exPr.nodes fun _ => none) = some exFlArg := by decide +kernel
      rw [this] at hl
      cases hl
      intro e he v hv
      simp only [List.map_cons, List.map_nil, List.mem_singleton, exFlTol] at he
      subst he
      norm_num
    · trivial
    · trivial
    · trivial
    · trivial
    · have : [1, 2, 3, 4, 5].mapM (runNodes exFlArg exPr.nodes fun _ => none) = some [.s ⟨[1, 1, 2, 2], [false, true, true, false]⟩,
          .s ⟨[1, 1, 1, 2], [true, false]⟩, .f ⟨[1], [11184811 / 33554432]⟩, .f ⟨[1], [13421773 / 134217728]⟩, .none] := by decide +kernel
      rw [this] at hl
      cases hl
      refine ⟨by simp [exFlTol], fun _ => ?_⟩
      intro co fh fw ci hs
      cases hs
      refine ⟨by decide, Or.inl ?_⟩
      intro c hc
      have : c = 0 := by omega
      subst this
      refine ⟨⟨11184811, -25, by decide, by decide, by decide, ?_⟩, ?_, ?_⟩
      · norm_num
      · norm_num [abs_of_pos]
      · norm_num [abs_of_pos, exFlTol]
    · have : [6].mapM (runNodes exFlArg exPr.nodes fun _ => none) = some [.f ⟨[1, 1, 2, 1],
          [-2 * (11184811 / 33554432) + 13421773 / 134217728, 2 * (11184811 / 33554432) + 13421773 / 134217728]⟩] := by decide +kernel
      rw [this] at hl
      cases hl
      intro l' hl'
      obtain ⟨x', rfl, d, rfl, hd⟩ := forall₂_one (show List.Forall₂ (fun (p : Val × Rat) v' => Val.Near p.2 p.1 v') [(_, exFlTol 6)] l' from hl')
      refine ⟨_, rfl, ?_⟩
      intro v hv
      rw [show (Op.act .relu).run [] (some [1, 1, 2, 1]) [.f ⟨[1, 1, 2, 1],
          [-2 * (11184811 / 33554432) + 13421773 / 134217728, 2 * (11184811 / 33554432) + 13421773 / 134217728]⟩]
          = some (.f ⟨[1, 1, 2, 1], [0, 2 * (11184811 / 33554432) + 13421773 / 134217728]⟩) by decide +kernel] at hv
      cases hv
      refine ⟨_, rfl, ?_⟩
      cases hd with | cons a1 hd => cases hd with | cons a2 hd => cases hd with
      | nil =>
        simp only [exFlTol] at a1 a2 ⊢
        norm_num at a1 a2 ⊢
        rw [abs_le] at a1 a2
        refine ⟨?_, ?_⟩
        · rw [if_neg (by linarith)]; norm_num
        · rw [if_pos (by linarith), abs_le]
          constructor <;> linarith
  · rintro kt ⟨n, hn, l, hl, hr⟩
    simp only [exPr, List.mem_cons, List.not_mem_nil, or_false] at hn
    rcases hn with rfl | rfl | rfl | rfl | rfl | rfl | rfl | rfl
    · exact hr
    · exact hr
    · cases hr
    · exact hr
    · exact hr
    · exact hr
    · have : [1, 2, 3, 4, 5].mapM (runNodes exFlArg exPr.nodes fun _ => none) = some [.s ⟨[1, 1, 2, 2], [false, true, true, false]⟩,
          .s ⟨[1, 1, 1, 2], [true, false]⟩, .f ⟨[1], [11184811 / 33554432]⟩, .f ⟨[1], [13421773 / 134217728]⟩, .none] := by decide +kernel
      rw [this] at hl
      cases hl
      replace hr : bconvRejected _ _ _ _ _ := hr
      unfold bconvRejected at hr
      revert hr
      cases kt <;> simp [exCfg, Val.shape]
    · exact hr

/-- The input of the convolution is always at the same place. -/
theorem exPr_inputs (F : FlCfg) (kt : KernelType) :
    exPr.InputsAtFl F (exCfg kt false) (exFlArg.map .plain) (fun nm => ⟨[1, 1, 2, 1], (exCfg kt false).dyn nm, (exCfg kt false).loc nm⟩) := by
  intro pre n post he hb env x m hpre hx hm
  have hi : exPr.nodes[pre.length]? = some n := by rw [he]; simp
  have hl : pre.length < 8 := by
    have := congrArg List.length he
    simp [exPr] at this
    omega
  have ht : pre = exPr.nodes.take pre.length := by rw [he]; simp
  have h6 : pre.length = 6 := by
    revert hi hb
    generalize pre.length = c at hl
    intro hb hi
    match c, hl with
    | 0, _ => cases hi; cases hb
    | 1, _ => cases hi; cases hb
    | 2, _ => cases hi; cases hb
    | 3, _ => cases hi; cases hb
    | 4, _ => cases hi; cases hb
    | 5, _ => cases hi; cases hb
    | 6, _ => rfl
    | 7, _ => cases hi; cases hb
  rw [h6] at ht hi
  cases hi
  cases hx
  have hn : execNodesFl F (exCfg kt false) (exFlArg.map .plain) (exPr.nodes.take 6) (fun _ => none)
      = .ok fun x => if x = 5 then some (.plain .none) else if x = 4 then some (.plain (.f ⟨[1], [13421773 / 134217728]⟩))
          else if x = 3 then some (.plain (.f ⟨[1], [11184811 / 33554432]⟩)) else if x = 2 then some (.words [1, 1, 1, 1] [1#32])
          else if x = 1 then some (.words [1, 1, 2, 1] [2#32, 1#32])
          else if x = 0 then some (.plain (.f ⟨[1, 1, 2, 2], [3, -1 / 2, -2, 7]⟩)) else none := by kernel_rfl
  rw [ht, hn] at hpre
  cases hpre
  cases hm
  rfl

/-- Two samples, the same numbers. -/
def exPrArray : NpArray Rat := ⟨1, [2, 1, 2, 2], [3, -1 / 2, -2, 7, 3, -1 / 2, -2, 7]⟩

/-- `predict` in an arithmetic that rounds, on all three kernels, for a new interpreter: the hypotheses of
`C76_predict_array_partial` hold, and both samples get results within 1/5000 of the exact ones. -/
example : ∃ R : FlEnv, ∀ kt, ∃ (s' : Nat × State) (a : NpArray Rat),
    predict (lceInterpFl R kt exPr [⟨⟨1, [1, 1, 2, 2]⟩, Option.none⟩] [⟨⟨1, [1, 1, 2, 1]⟩, Option.none⟩] (fun _ => exPrF R)
      (fun _ => exCfg kt false) (fun _ => noCalls) Option.none) (0, State.new) (.array exPrArray) = .ok (s', .one a) ∧
    a.shape = [2, 1, 2, 1] ∧
    ∀ i, i < 2 → NumbersNear (1 / 5000) (.f ⟨[1, 1, 2, 1], [0, 2 * (11184811 / 33554432) + 13421773 / 134217728]⟩) (entry a i) := by
  obtain ⟨R, h1, h2, _⟩ := exists_flEnv false
  obtain ⟨hF, hs, hu, ht, htol, hr⟩ := exPr_hyps R h1 h2
  refine ⟨R, fun kt => ?_⟩
  have hv : exPr.eval exFlArg = some [.f ⟨[1, 1, 2, 1], [0, 2 * (11184811 / 33554432) + 13421773 / 134217728]⟩] := by decide +kernel
  have hsc : InScopeFl R kt exPr exPr (fun _ => True) (fun nm => ⟨[1, 1, 2, 1], (exCfg kt false).dyn nm, (exCfg kt false).loc nm⟩)
      (exPrF R) exFlTol (exCfg kt false) exFlArg (exFlArg.map .plain) _ :=
    ⟨rfl, hF, rfl, hv, trivial, exCfg_scheduled kt false, ht kt, htol, .cons rfl .nil, fun _ => exPr_inputs _ kt⟩
  obtain ⟨s', res, _, q1, q2, q3, q4⟩ := C76_predict_array_partial (arm := false) (R := R) (kt := kt) (g := exPr) (g' := exPr)
    (safe := fun _ => True) (D := fun nm => ⟨[1, 1, 2, 1], (exCfg kt false).dyn nm, (exCfg kt false).loc nm⟩) (Fs := fun _ => exPrF R)
    (cfgs := fun _ => exCfg kt false) (inputs := [⟨⟨1, [1, 1, 2, 2]⟩, Option.none⟩]) (outputs := [⟨⟨1, [1, 1, 2, 1]⟩, Option.none⟩])
    hs (Graph.paramsFixedB_iff (C := [2, 3, 4, 5]) (by decide +kernel)) (.refl _) hu (Graph.foldedB_iff (by decide +kernel))
    (fun _ => noCalls) Option.none
    (by
      intro t ht
      rw [List.mem_singleton.1 ht]
      exact ⟨_, rfl⟩)
    (x := exPrArray) rfl (n := 2) (rest := [1, 2, 2]) rfl (by decide) rfl (tol := fun _ => exFlTol) (args := fun _ => exFlArg)
    (results := fun _ => [.f ⟨[1, 1, 2, 1], [0, 2 * (11184811 / 33554432) + 13421773 / 134217728]⟩])
    (by
      intro i hi
      refine ⟨fun j => hr kt, ?_, fun j => hsc, rfl⟩
      rcases (by omega : i = 0 ∨ i = 1) with rfl | rfl
      · kernel_rfl
      · kernel_rfl)
    (s := (0, State.new)) (ReachableFl.new ..)
  obtain ⟨a, e1, _, e3, e4⟩ := q4 0 _ rfl
  cases res with
  | many l => exact absurd rfl q2
  | one b =>
    cases e1
    refine ⟨s', a, q1, e3, ?_⟩
    intro i hi
    obtain ⟨v, nm, a1, a2, a3⟩ := e4 i hi
    cases a1
    cases a2
    simpa [exFlTol] using a3

end Verif.Ir
