import Verif.Props.Predict

/-! `predict` on a model whose result is not a function of its inputs (rounding may depend on the schedule), but satisfies a
relation. -/

namespace Verif

variable {α S : Type}

/-- `Invoke` succeeds in states with `I` on inputs in `P`, keeps `I`, and the outputs are in relation `Q` to the inputs. -/
structure RelOn (itp : Interp S α) (I : S → Prop) (P : List (List α) → Prop) (Q : List (List α) → List (List α) → Prop) : Prop where
  run : ∀ s ins, I s → P ins → ins.map List.length = itp.inputs.map (fun t => t.dims.prod) →
    ∃ (s' : S) (o : List (List α)), I s' ∧ itp.invoke s ins = some (s', o) ∧ Q ins o ∧ o.map List.length = itp.outputs.map (fun t => t.dims.prod)

/-- The arrays of the outputs. -/
def outArrays (ts : List TensorSpec) (o : List (List α)) : List (NpArray α) :=
  List.zipWith (fun t d => ⟨t.dtype, t.dims, d⟩) ts o

theorem feeds_all {itp : Interp S α} {ins : List (NpArray α)} (hi : Feeds itp ins) :
    ins.length = itp.inputs.length ∧ (List.zipWith setTensorOk itp.inputs ins).all id = true := by
  have hlen : ins.length = itp.inputs.length := by
    have := congrArg List.length hi.1
    simpa using this
  refine ⟨hlen, ?_⟩
  rw [List.all_eq_true]
  intro b hb
  obtain ⟨i, hlt, he⟩ := List.getElem_of_mem hb
  rw [List.length_zipWith] at hlt
  rw [List.getElem_zipWith] at he
  have h1 := congrArg (fun l => l[i]?) hi.1
  simp only [List.getElem?_map, List.getElem?_eq_getElem (show i < ins.length by omega),
    List.getElem?_eq_getElem (show i < itp.inputs.length by omega), Option.map_some, Option.some.injEq, Prod.mk.injEq] at h1
  rw [← he]
  simp [setTensorOk, h1.1, h1.2]

theorem predictAll_rel {itp : Interp S α} {I : S → Prop} {P : List (List α) → Prop} {Q : List (List α) → List (List α) → Prop}
    (hf : RelOn itp I P Q) :
    ∀ (samples : List (List (NpArray α))) (s : S), I s → (∀ ins ∈ samples, Feeds itp ins ∧ P (ins.map (·.data))) →
      ∃ (s' : S) (outs : List (List (List α))), I s' ∧ predictAll itp s samples = .ok (s', outs.map (outArrays itp.outputs)) ∧ outs.length = samples.length ∧
        (∀ o ∈ outs, o.map List.length = itp.outputs.map fun t => t.dims.prod) ∧
        ∀ (i : Nat) ins o, samples[i]? = some ins → outs[i]? = some o → Q (ins.map (·.data)) o
  | [], s, hI, _ => ⟨s, [], hI, rfl, rfl, by simp, by simp⟩
  | ins :: rest, s, hI, h => by
    obtain ⟨hF, hP⟩ := h ins (by simp)
    obtain ⟨s1, o, hI1, h1, h2, h3⟩ := hf.run s _ hI hP (feeds_sizes hF)
    obtain ⟨s2, outs, hI2, h4, h5, h6, h7⟩ := predictAll_rel hf rest s1 hI1 fun i hi => h i (List.mem_cons_of_mem _ hi)
    refine ⟨s2, o :: outs, hI2, ?_, by simp [h5], ?_, ?_⟩
    · obtain ⟨g1, g2⟩ := feeds_all hF
      have hw : wrapperPredict itp s ins = .ok (s1, outArrays itp.outputs o) := by
        unfold wrapperPredict
        rw [if_neg (by omega), if_neg (by rw [g2]; simp), h1]
        rfl
      unfold predictAll
      rw [hw]
      simp only [bind, Except.bind]
      rw [h4]
      rfl
    · intro o' ho'
      rcases List.mem_cons.1 ho' with rfl | ho'
      · exact h3
      · exact h6 o' ho'
    · intro i ins' o' hi ho
      cases i with
      | zero => cases hi; cases ho; exact h2
      | succ i => exact h7 i ins' o' hi ho

/-- A model that returns its inputs. -/
def idModel (ts : List TensorSpec) : Interp Unit α := ⟨ts, ts, fun s x => some (s, x)⟩

theorem outArrays_data {ts : List TensorSpec} {o : List (List α)} (h : o.length = ts.length) :
    (outArrays ts o).map (·.data) = o := by
  unfold outArrays
  apply List.ext_getElem?
  intro i
  rw [List.getElem?_map, List.getElem?_zipWith]
  by_cases hi : i < o.length
  · rw [List.getElem?_eq_getElem hi, List.getElem?_eq_getElem (show i < ts.length by omega)]
    rfl
  · rw [List.getElem?_eq_none (show ts.length ≤ i by omega), List.getElem?_eq_none (show o.length ≤ i by omega)]
    rfl

theorem outArrays_feeds {ts : List TensorSpec} {o : List (List α)} (h : o.map List.length = ts.map fun t => t.dims.prod) :
    Feeds (idModel ts) (outArrays ts o) := by
  have hl : o.length = ts.length := by simpa using congrArg List.length h
  constructor
  · apply List.ext_getElem?
    intro i
    simp only [outArrays, idModel, List.getElem?_map, List.getElem?_zipWith]
    by_cases hi : i < o.length
    · rw [List.getElem?_eq_getElem hi, List.getElem?_eq_getElem (show i < ts.length by omega)]
      rfl
    · rw [List.getElem?_eq_none (show ts.length ≤ i by omega), List.getElem?_eq_none (show o.length ≤ i by omega)]
      rfl
  · intro a ha
    obtain ⟨i, hi, rfl⟩ := List.getElem_of_mem ha
    unfold outArrays at hi ⊢
    rw [List.length_zipWith] at hi
    rw [List.getElem_zipWith]
    have h1 := congrArg (fun l => l[i]?) h
    simp only [List.getElem?_map, List.getElem?_eq_getElem (show i < o.length by omega),
      List.getElem?_eq_getElem (show i < ts.length by omega), Option.map_some, Option.some.injEq] at h1
    exact h1

theorem idModel_stateless (ts : List TensorSpec) : Stateless (idModel ts : Interp Unit α) id :=
  ⟨fun s ins _ => ⟨s, rfl⟩, fun ins h => h⟩

/-- `predict` for a model that satisfies a relation. -/
theorem predict_rel {itp : Interp S α} {I : S → Prop} {P : List (List α) → Prop} {Q : List (List α) → List (List α) → Prop}
    (hf : RelOn itp I P Q) (hdim : ∀ t ∈ itp.outputs, ∃ r, t.dims = 1 :: r) {x : PyInput α} {samples : List (List (NpArray α))}
    (hx : dataGenerator x = .ok samples) (hne : samples ≠ []) (hs : ∀ ins ∈ samples, Feeds itp ins ∧ P (ins.map (·.data)))
    {s : S} (hI : I s) : ∃ s' res, I s' ∧ predict itp s x = .ok (s', res) ∧ res.Kind itp.outputs.length ∧
      res.arrays.length = itp.outputs.length ∧
      ∀ (k : Nat) (t : TensorSpec), itp.outputs[k]? = some t → ∃ a, res.arrays[k]? = some a ∧ a.dtype = t.dtype ∧
        a.shape = samples.length :: t.dims.tail ∧
        ∀ (i : Nat) (ins : List (NpArray α)), samples[i]? = some ins → ∃ o, Q (ins.map (·.data)) o ∧ o[k]? = some (entry a i) := by
  obtain ⟨s', outs, h1, h2, h3, h4, h5⟩ := predictAll_rel hf samples s hI hs
  -- the outputs, given to the model that returns its inputs
  have hitems : dataGenerator (.iter (outs.map fun o => .inr (List.zipWith (fun t d => ⟨t.dtype, t.dims.tail, d⟩) itp.outputs o)))
      = .ok (outs.map (outArrays itp.outputs)) := by
    unfold dataGenerator
    simp only [List.map_map]
    refine congrArg _ (List.map_congr_left fun o _ => ?_)
    simp only [Function.comp, outArrays, List.map_zipWith, expandDims]
    apply List.ext_getElem?
    intro i
    rw [List.getElem?_zipWith, List.getElem?_zipWith]
    cases ht : itp.outputs[i]? with
    | none => rfl
    | some t =>
      cases o[i]? with
      | none => rfl
      | some d =>
        obtain ⟨r, hr⟩ := hdim t (List.mem_of_getElem? ht)
        simp [hr]
  have hfeed : ∀ ins ∈ outs.map (outArrays itp.outputs), Feeds (idModel itp.outputs : Interp Unit α) ins ∧ (fun _ => True) (ins.map (·.data)) := by
    intro ins hi
    obtain ⟨o, ho, rfl⟩ := List.mem_map.1 hi
    exact ⟨outArrays_feeds (h4 o ho), trivial⟩
  have hne' : outs.map (outArrays itp.outputs) ≠ [] := by
    intro h
    apply hne
    rw [List.map_eq_nil_iff] at h
    rw [h] at h3
    exact List.length_eq_zero_iff.1 h3.symm
  obtain ⟨u, res, -, g1, g2, g3, g4⟩ := predict_spec (idModel_stateless itp.outputs).on hdim hitems hne' hfeed (s := ()) trivial
  refine ⟨s', res, h1, ?_, g2, g3, ?_⟩
  · obtain ⟨u', -, e⟩ := predictAll_ok (idModel_stateless itp.outputs).on (outs.map (outArrays itp.outputs)) () trivial hfeed
    have hself : ((outs.map (outArrays itp.outputs)).map fun ins =>
        List.zipWith (fun t d => (⟨t.dtype, t.dims, d⟩ : NpArray α)) (idModel itp.outputs : Interp Unit α).outputs (id (ins.map (·.data))))
        = outs.map (outArrays itp.outputs) := by
      rw [List.map_map]
      refine List.map_congr_left fun o ho => ?_
      simp only [Function.comp, id, idModel]
      rw [outArrays_data (by simpa using congrArg List.length (h4 o ho))]
      rfl
    rw [hself] at e
    unfold predict at g1 ⊢
    rw [hitems] at g1
    rw [hx]
    simp only [bind, Except.bind] at g1 ⊢
    rw [e] at g1
    rw [h2]
    simp only at g1 ⊢
    cases hz : (pyZip (outs.map (outArrays itp.outputs))).mapM npConcat with
    | error _ => rw [hz] at g1; cases g1
    | ok l =>
      rw [hz] at g1
      simp only at g1 ⊢
      by_cases ho : itp.outputs.length = 1
      · rw [if_pos (show (idModel itp.outputs : Interp Unit α).outputs.length = 1 from ho)] at g1
        rw [if_pos ho]
        cases hl : l[0]? with
        | none => rw [hl] at g1; cases g1
        | some a => rw [hl] at g1; cases g1; rfl
      · rw [if_neg (show ¬ (idModel itp.outputs : Interp Unit α).outputs.length = 1 from ho)] at g1
        rw [if_neg ho]
        cases g1
        rfl
  · intro k t ht
    obtain ⟨a, e1, e2, e3, e4⟩ := g4 k t ht
    refine ⟨a, e1, e2, by simpa [h3] using e3, fun i ins hi => ?_⟩
    have hlt : i < outs.length := by
      rw [h3]; exact (List.getElem?_eq_some_iff.1 hi).1
    have ho : outs[i]? = some outs[i] := List.getElem?_eq_getElem hlt
    refine ⟨outs[i], h5 i ins _ hi ho, ?_⟩
    have := e4 i (outArrays itp.outputs outs[i]) (by rw [List.getElem?_map, ho]; rfl)
    rw [outArrays_data (by simpa using congrArg List.length (h4 _ (List.getElem_mem hlt)))] at this
    exact this

end Verif
