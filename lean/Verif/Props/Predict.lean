import Verif.Model.Predict

/-!
C41: `Interpreter.predict`.
-/

namespace Verif

variable {α S : Type}

/-- The model is a function of its inputs: whatever the state of the interpreter, `Invoke` on well-shaped inputs succeeds
with output `f inputs`, one content of the right size per output tensor. -/
structure Stateless (itp : Interp S α) (f : List (List α) → List (List α)) : Prop where
  run : ∀ s ins, ins.map List.length = itp.inputs.map (fun t => t.dims.prod) → ∃ s', itp.invoke s ins = some (s', f ins)
  sizes : ∀ ins, ins.map List.length = itp.inputs.map (fun t => t.dims.prod) →
    (f ins).map List.length = itp.outputs.map (fun t => t.dims.prod)

/-- The same for the states in which `I` holds and the inputs in `P`; `I` is kept. -/
structure StatelessOn (itp : Interp S α) (I : S → Prop) (P : List (List α) → Prop) (f : List (List α) → List (List α)) :
    Prop where
  run : ∀ s ins, I s → P ins → ins.map List.length = itp.inputs.map (fun t => t.dims.prod) →
    ∃ s', I s' ∧ itp.invoke s ins = some (s', f ins)
  sizes : ∀ ins, P ins → ins.map List.length = itp.inputs.map (fun t => t.dims.prod) →
    (f ins).map List.length = itp.outputs.map (fun t => t.dims.prod)

theorem Stateless.on {itp : Interp S α} {f : List (List α) → List (List α)} (h : Stateless itp f) :
    StatelessOn itp (fun _ => True) (fun _ => True) f :=
  ⟨fun s ins _ _ hs => let ⟨s', e⟩ := h.run s ins hs; ⟨s', trivial, e⟩, fun ins _ hs => h.sizes ins hs⟩

/-- A well-formed array: as many elements as its shape says. -/
def NpArray.WF (a : NpArray α) : Prop := a.data.length = a.shape.prod

/-- `ins` can be fed to the model. -/
def Feeds (itp : Interp S α) (ins : List (NpArray α)) : Prop :=
  ins.map (fun a => (a.dtype, a.shape)) = itp.inputs.map (fun t => (t.dtype, t.dims)) ∧ ∀ a ∈ ins, a.WF

theorem wrapperPredict_ok {itp : Interp S α} {I : S → Prop} {P : List (List α) → Prop} {f : List (List α) → List (List α)}
    (hf : StatelessOn itp I P f)
    {ins : List (NpArray α)} (hi : Feeds itp ins) (hp : P (ins.map (·.data))) {s : S} (hI : I s) :
    ∃ s', I s' ∧ wrapperPredict itp s ins =
      .ok (s', List.zipWith (fun t d => ⟨t.dtype, t.dims, d⟩) itp.outputs (f (ins.map (·.data)))) := by
  have hlen : ins.length = itp.inputs.length := by
    have := congrArg List.length hi.1
    simpa using this
  have hall : (List.zipWith setTensorOk itp.inputs ins).all id = true := by
    rw [List.all_eq_true]
    intro b hb
    obtain ⟨i, hlt, he⟩ := List.getElem_of_mem hb
    rw [List.length_zipWith] at hlt
    rw [List.getElem_zipWith] at he
    have h1 := congrArg (fun l => l[i]?) hi.1
    simp only [List.getElem?_map, List.getElem?_eq_getElem (show i < ins.length by omega),
      List.getElem?_eq_getElem (show i < itp.inputs.length by omega), Option.map_some, Option.some.injEq, Prod.mk.injEq] at h1
    rw [← he]
    simp [setTensorOk, h1.1, h1.2]
  have hsz : (ins.map (·.data)).map List.length = itp.inputs.map (fun t => t.dims.prod) := by
    apply List.ext_getElem?
    intro i
    simp only [List.getElem?_map]
    by_cases hlt : i < ins.length
    · have h1 := congrArg (fun l => l[i]?) hi.1
      simp only [List.getElem?_map, List.getElem?_eq_getElem hlt,
        List.getElem?_eq_getElem (show i < itp.inputs.length by omega), Option.map_some, Option.some.injEq, Prod.mk.injEq] at h1
      rw [List.getElem?_eq_getElem hlt, List.getElem?_eq_getElem (show i < itp.inputs.length by omega)]
      simp only [Option.map_some]
      rw [hi.2 _ (List.getElem_mem hlt), h1.2]
    · rw [List.getElem?_eq_none (by omega), List.getElem?_eq_none (by omega)]; rfl
  obtain ⟨s', hI', h⟩ := hf.run s _ hI hp hsz
  refine ⟨s', hI', ?_⟩
  unfold wrapperPredict
  rw [if_neg (by omega), if_neg (by rw [hall]; simp), h]

theorem predictAll_ok {itp : Interp S α} {I : S → Prop} {P : List (List α) → Prop} {f : List (List α) → List (List α)}
    (hf : StatelessOn itp I P f) :
    ∀ (samples : List (List (NpArray α))) (s : S), I s →
    (∀ ins ∈ samples, Feeds itp ins ∧ P (ins.map (·.data))) → ∃ s', I s' ∧ predictAll itp s samples =
      .ok (s', samples.map fun ins =>
        List.zipWith (fun t d => ⟨t.dtype, t.dims, d⟩) itp.outputs (f (ins.map (·.data))))
  | [], s, hI, _ => ⟨s, hI, rfl⟩
  | ins :: rest, s, hI, h => by
    obtain ⟨s1, hI1, h1⟩ := wrapperPredict_ok hf (h ins (by simp)).1 (h ins (by simp)).2 hI
    obtain ⟨s2, hI2, h2⟩ := predictAll_ok hf rest s1 hI1 fun i hi => h i (List.mem_cons_of_mem _ hi)
    refine ⟨s2, hI2, ?_⟩
    unfold predictAll
    rw [h1]
    simp only [bind, Except.bind]
    rw [h2]
    rfl

theorem minLen_const {β : Type} {n : Nat} : ∀ {ls : List (List β)}, ls ≠ [] → (∀ l ∈ ls, l.length = n) → minLen ls = some n
  | [], h, _ => absurd rfl h
  | [l], _, h => by simp [minLen, h l (by simp)]
  | l :: l' :: ls, _, h => by
    have ih := minLen_const (ls := l' :: ls) (by simp) fun x hx => h x (List.mem_cons_of_mem _ hx)
    unfold minLen
    rw [ih, h l (by simp)]
    simp

theorem mapM_ok {β γ : Type} {g : β → Except PyErr γ} {h : β → γ} :
    ∀ {l : List β}, (∀ x ∈ l, g x = .ok (h x)) → l.mapM g = .ok (l.map h)
  | [], _ => rfl
  | x :: l, hx => by
    rw [List.mapM_cons, hx x (by simp)]
    simp only [bind, Except.bind]
    rw [mapM_ok fun y hy => hx y (List.mem_cons_of_mem _ hy)]
    rfl

theorem filterMap_all_some {β γ : Type} {g : β → Option γ} {h : β → γ} : ∀ {l : List β}, (∀ x ∈ l, g x = some (h x)) →
    l.filterMap g = l.map h
  | [], _ => rfl
  | x :: l, hx => by
    rw [List.filterMap_cons, hx x (by simp)]
    simp only [List.map_cons]
    rw [filterMap_all_some fun y hy => hx y (List.mem_cons_of_mem _ hy)]

theorem npConcat_const {β : Type} {dt : Nat} {dims : List Nat} {g : β → List α} {l : List β} (hl : l ≠ []) (hd : dims ≠ []) :
    npConcat (l.map fun b => (⟨dt, dims, g b⟩ : NpArray α)) = .ok ⟨dt, l.length * dims.headD 0 :: dims.tail, l.flatMap g⟩ := by
  cases l with
  | nil => exact absurd rfl hl
  | cons b rest =>
    have hall : (((b :: rest).map fun b => (⟨dt, dims, g b⟩ : NpArray α)).all
        fun c => c.shape.length ≠ 0 && c.shape.tail == dims.tail) = true := by
      rw [List.all_eq_true]
      intro c hc
      obtain ⟨i, _, rfl⟩ := List.mem_map.1 hc
      simpa using hd
    have hsum : (((b :: rest).map fun b => (⟨dt, dims, g b⟩ : NpArray α)).map fun b => b.shape.headD 0).sum
        = (b :: rest).length * dims.headD 0 := by
      rw [List.map_map]
      simp only [Function.comp_def, List.map_const', List.sum_replicate_nat]
    have hflat : ((b :: rest).map fun b => (⟨dt, dims, g b⟩ : NpArray α)).flatMap (·.data) = (b :: rest).flatMap g := by
      rw [List.flatMap_map]
    rw [List.map_cons] at hall hsum hflat ⊢
    unfold npConcat
    simp only []
    rw [if_pos hall, hsum, hflat]

/-- Expected content of output `k`: for each sample in order, the model's output `k` on that sample. -/
def expected (f : List (List α) → List (List α)) (samples : List (List (NpArray α))) (k : Nat) : List α :=
  samples.flatMap fun ins => (f (ins.map (·.data)))[k]?.getD []

/-- The expected result arrays: output `k` of a model with output shape `b :: rest` and `n` samples has shape
`n * b :: rest`. -/
def expectedArray (itp : Interp S α) (f : List (List α) → List (List α)) (samples : List (List (NpArray α))) (k : Nat)
    (t : TensorSpec) : NpArray α :=
  ⟨t.dtype, samples.length * t.dims.headD 0 :: t.dims.tail, expected f samples k⟩

theorem zip_concat {itp : Interp S α} {I : S → Prop} {P : List (List α) → Prop} {f : List (List α) → List (List α)}
    (hf : StatelessOn itp I P f)
    (hdim : ∀ t ∈ itp.outputs, t.dims ≠ []) {samples : List (List (NpArray α))} (hne : samples ≠ [])
    (hs : ∀ ins ∈ samples, Feeds itp ins ∧ P (ins.map (·.data))) :
    (pyZip (samples.map fun ins => List.zipWith (fun t d => (⟨t.dtype, t.dims, d⟩ : NpArray α)) itp.outputs
      (f (ins.map (·.data))))).mapM npConcat =
      .ok ((List.range itp.outputs.length).map fun k => expectedArray itp f samples k (itp.outputs[k]?.getD ⟨0, []⟩)) := by
  have hol : ∀ ins ∈ samples, (f (ins.map (·.data))).length = itp.outputs.length := by
    intro ins hi
    have hsz : (ins.map (·.data)).map List.length = itp.inputs.map (fun t => t.dims.prod) := by
      have hF := (hs ins hi).1
      have hlen : ins.length = itp.inputs.length := by
        have := congrArg List.length hF.1
        simpa using this
      apply List.ext_getElem?
      intro i
      simp only [List.getElem?_map]
      by_cases hlt : i < ins.length
      · have h1 := congrArg (fun l => l[i]?) hF.1
        simp only [List.getElem?_map, List.getElem?_eq_getElem hlt,
          List.getElem?_eq_getElem (show i < itp.inputs.length by omega), Option.map_some, Option.some.injEq, Prod.mk.injEq] at h1
        rw [List.getElem?_eq_getElem hlt, List.getElem?_eq_getElem (show i < itp.inputs.length by omega)]
        simp only [Option.map_some]
        rw [hF.2 _ (List.getElem_mem hlt), h1.2]
      · rw [List.getElem?_eq_none (by omega), List.getElem?_eq_none (by omega)]; rfl
    have := congrArg List.length (hf.sizes _ (hs ins hi).2 hsz)
    simpa using this
  unfold pyZip
  rw [minLen_const (n := itp.outputs.length) (by simpa using hne) (by
    intro l hl
    obtain ⟨ins, hi, rfl⟩ := List.mem_map.1 hl
    rw [List.length_zipWith, hol ins hi, Nat.min_self])]
  simp only []
  have hcol : ∀ k, k < itp.outputs.length → (samples.map fun ins =>
      List.zipWith (fun t d => (⟨t.dtype, t.dims, d⟩ : NpArray α)) itp.outputs (f (ins.map (·.data)))).filterMap (·[k]?) =
      samples.map fun ins => (⟨(itp.outputs[k]?.getD ⟨0, []⟩).dtype, (itp.outputs[k]?.getD ⟨0, []⟩).dims,
        (f (ins.map (·.data)))[k]?.getD []⟩ : NpArray α) := by
    intro k hk
    rw [List.filterMap_map]
    refine filterMap_all_some fun ins hi => ?_
    simp only [Function.comp]
    rw [List.getElem?_zipWith, List.getElem?_eq_getElem hk, List.getElem?_eq_getElem (by rw [hol ins hi]; exact hk)]
    rfl
  have key : ∀ k, k ∈ List.range itp.outputs.length → npConcat ((samples.map fun ins =>
      List.zipWith (fun t d => (⟨t.dtype, t.dims, d⟩ : NpArray α)) itp.outputs (f (ins.map (·.data)))).filterMap (·[k]?)) =
      .ok (expectedArray itp f samples k (itp.outputs[k]?.getD ⟨0, []⟩)) := by
    intro k hk
    rw [List.mem_range] at hk
    have hd : itp.outputs[k]?.getD ⟨0, []⟩ ∈ itp.outputs := by
      rw [List.getElem?_eq_getElem hk]; exact List.getElem_mem hk
    rw [hcol k hk, npConcat_const hne (hdim _ hd)]
    rfl
  rw [List.mapM_map]
  exact mapM_ok key

/-- The core: for any non-empty sequence of samples that fit the model. -/
theorem predict_samples {itp : Interp S α} {I : S → Prop} {P : List (List α) → Prop} {f : List (List α) → List (List α)}
    (hf : StatelessOn itp I P f)
    (hdim : ∀ t ∈ itp.outputs, t.dims ≠ []) {x : PyInput α} {samples : List (List (NpArray α))}
    (hx : dataGenerator x = .ok samples) (hne : samples ≠ []) (hs : ∀ ins ∈ samples, Feeds itp ins ∧ P (ins.map (·.data)))
    {s : S} (hI : I s) : ∃ s', I s' ∧ predict itp s x = .ok (s',
      if itp.outputs.length = 1 then .one (expectedArray itp f samples 0 (itp.outputs[0]?.getD ⟨0, []⟩))
      else .many ((List.range itp.outputs.length).map fun k =>
        expectedArray itp f samples k (itp.outputs[k]?.getD ⟨0, []⟩))) := by
  obtain ⟨s', hI', h1⟩ := predictAll_ok hf samples s hI hs
  refine ⟨s', hI', ?_⟩
  unfold predict
  rw [hx]
  simp only [bind, Except.bind]
  rw [h1]
  simp only []
  rw [zip_concat hf hdim hne hs]
  simp only []
  by_cases h : itp.outputs.length = 1
  · rw [if_pos h, if_pos h, h]; rfl
  · rw [if_neg h, if_neg h]

/-- The elements of `a[i]` (subarray along the first axis). -/
def entry (a : NpArray α) (i : Nat) : List α := (a.data.drop (i * a.shape.tail.prod)).take a.shape.tail.prod

/-- The arrays in a result. -/
def PyRes.arrays : PyRes α → List (NpArray α)
  | .one a => [a]
  | .many l => l

/-- The result is one array for models with one output, a list otherwise. -/
def PyRes.Kind (r : PyRes α) (outputs : Nat) : Prop :=
  match r with
  | .one _ => outputs = 1
  | .many _ => outputs ≠ 1

theorem flatMap_chunk {β : Type} {c : Nat} {g : β → List α} : ∀ {l : List β} {i : Nat} (hi : i < l.length),
    (∀ b ∈ l, (g b).length = c) → ((l.flatMap g).drop (i * c)).take c = g l[i]
  | b :: l, 0, _, h => by
    rw [List.flatMap_cons, Nat.zero_mul, List.drop_zero, List.take_append_of_le_length (by rw [h b (by simp)]; omega),
      List.take_of_length_le (by rw [h b (by simp)]; omega)]
    rfl
  | b :: l, i + 1, hi, h => by
    have hb := h b (by simp)
    rw [List.flatMap_cons, Nat.add_mul, Nat.one_mul, Nat.add_comm, ← List.drop_drop,
      List.drop_append_of_le_length (by omega), List.drop_of_length_le (l := g b) (by omega), List.nil_append]
    exact flatMap_chunk (by simpa using hi) fun x hx => h x (List.mem_cons_of_mem _ hx)

theorem feeds_sizes {itp : Interp S α} {ins : List (NpArray α)} (hF : Feeds itp ins) :
    (ins.map (·.data)).map List.length = itp.inputs.map (fun t => t.dims.prod) := by
  have hlen : ins.length = itp.inputs.length := by
    have := congrArg List.length hF.1
    simpa using this
  apply List.ext_getElem?
  intro i
  simp only [List.getElem?_map]
  by_cases hlt : i < ins.length
  · have h1 := congrArg (fun l => l[i]?) hF.1
    simp only [List.getElem?_map, List.getElem?_eq_getElem hlt,
      List.getElem?_eq_getElem (show i < itp.inputs.length by omega), Option.map_some, Option.some.injEq, Prod.mk.injEq] at h1
    rw [List.getElem?_eq_getElem hlt, List.getElem?_eq_getElem (show i < itp.inputs.length by omega)]
    simp only [Option.map_some]
    rw [hF.2 _ (List.getElem_mem hlt), h1.2]
  · rw [List.getElem?_eq_none (by omega), List.getElem?_eq_none (by omega)]; rfl

/-- `predict` on any input that yields a non-empty sequence of samples fitting a model whose outputs have batch size 1. -/
theorem predict_spec {itp : Interp S α} {I : S → Prop} {P : List (List α) → Prop} {f : List (List α) → List (List α)}
    (hf : StatelessOn itp I P f)
    (hdim : ∀ t ∈ itp.outputs, ∃ r, t.dims = 1 :: r) {x : PyInput α} {samples : List (List (NpArray α))}
    (hx : dataGenerator x = .ok samples) (hne : samples ≠ []) (hs : ∀ ins ∈ samples, Feeds itp ins ∧ P (ins.map (·.data)))
    {s : S} (hI : I s) : ∃ s' res, I s' ∧ predict itp s x = .ok (s', res) ∧ res.Kind itp.outputs.length ∧ res.arrays.length = itp.outputs.length ∧
      ∀ (k : Nat) (t : TensorSpec), itp.outputs[k]? = some t → ∃ a, res.arrays[k]? = some a ∧ a.dtype = t.dtype ∧
        a.shape = samples.length :: t.dims.tail ∧
        ∀ (i : Nat) (ins : List (NpArray α)), samples[i]? = some ins → (f (ins.map (·.data)))[k]? = some (entry a i) := by
  obtain ⟨s', hI', h⟩ := predict_samples hf (fun t ht => by obtain ⟨r, hr⟩ := hdim t ht; rw [hr]; simp) hx hne hs hI
  have harr : ∀ (k : Nat) (t : TensorSpec), itp.outputs[k]? = some t →
      (expectedArray itp f samples k t).shape = samples.length :: t.dims.tail ∧
        ∀ (i : Nat) (ins : List (NpArray α)), samples[i]? = some ins →
          (f (ins.map (·.data)))[k]? = some (entry (expectedArray itp f samples k t) i) := by
    intro k t ht
    obtain ⟨hk, hkt⟩ := List.getElem?_eq_some_iff.1 ht
    obtain ⟨r, hr⟩ := hdim t (by rw [← hkt]; exact List.getElem_mem hk)
    have hget : ∀ ins ∈ samples, ∃ d, (f (ins.map (·.data)))[k]? = some d ∧ d.length = r.prod := by
      intro ins hi
      have e := congrArg (fun l => l[k]?) (hf.sizes _ (hs ins hi).2 (feeds_sizes (hs ins hi).1))
      simp only [List.getElem?_map, ht, Option.map_some] at e
      cases hd : (f (ins.map (·.data)))[k]? with
      | none => rw [hd] at e; exact absurd e (by simp)
      | some d =>
        rw [hd] at e
        refine ⟨d, rfl, ?_⟩
        simpa [hr] using e
    refine ⟨by simp [expectedArray, hr], ?_⟩
    intro i ins hi
    obtain ⟨hlt, rfl⟩ := List.getElem?_eq_some_iff.1 hi
    have hc := flatMap_chunk (g := fun ins : List (NpArray α) => (f (ins.map (·.data)))[k]?.getD []) (c := r.prod) hlt (by
      intro b hb
      obtain ⟨d, hd, hdl⟩ := hget b hb
      rw [hd, Option.getD_some, hdl])
    obtain ⟨d, hd, hdl⟩ := hget _ (List.getElem_mem hlt)
    simp only [entry, expectedArray, expected, hr, List.tail_cons]
    rw [hc, hd]
    rfl
  by_cases h1 : itp.outputs.length = 1
  · rw [if_pos h1] at h
    refine ⟨s', _, hI', h, h1, by simp [PyRes.arrays, h1], ?_⟩
    intro k t ht
    obtain ⟨hk, _⟩ := List.getElem?_eq_some_iff.1 ht
    have hk0 : k = 0 := by omega
    subst hk0
    refine ⟨_, rfl, ?_⟩
    rw [ht, Option.getD_some]
    exact ⟨rfl, harr 0 t ht⟩
  · rw [if_neg h1] at h
    refine ⟨s', _, hI', h, h1, by simp [PyRes.arrays], ?_⟩
    intro k t ht
    obtain ⟨hk, _⟩ := List.getElem?_eq_some_iff.1 ht
    refine ⟨expectedArray itp f samples k t, ?_, rfl, harr k t ht⟩
    simp only [PyRes.arrays, List.getElem?_map, List.getElem?_range hk, Option.map_some, ht, Option.getD_some]

theorem drop_take_length {l : List α} {n c i : Nat} (hl : l.length = n * c) (hi : i < n) :
    ((l.drop (i * c)).take c).length = c := by
  have : (i + 1) * c ≤ n * c := Nat.mul_le_mul_right _ hi
  rw [Nat.add_mul, Nat.one_mul] at this
  rw [List.length_take, List.length_drop]
  omega

/-- What `predict` makes of an array. -/
theorem gen_array {x : NpArray α} {n : Nat} {rest : List Nat} (hshape : x.shape = n :: rest) :
    dataGenerator (.array x) = .ok ((List.range n).map fun i => [(⟨x.dtype, 1 :: rest, entry x i⟩ : NpArray α)]) := by
  unfold dataGenerator
  simp only []
  unfold npIter
  rw [hshape]
  simp only [bind, Except.bind, List.map_map]
  congr 1
  apply List.map_congr_left
  intro i _
  simp only [Function.comp, expandDims, entry, hshape, List.tail_cons]

theorem gen_array_wf {x : NpArray α} (hx : x.WF) {n : Nat} {rest : List Nat} (hshape : x.shape = n :: rest) {i : Nat} (hi : i < n) :
    (⟨x.dtype, 1 :: rest, entry x i⟩ : NpArray α).WF := by
  have hl : x.data.length = n * rest.prod := by
    rw [hx, hshape, List.prod_cons]
  unfold NpArray.WF entry
  rw [hshape, List.tail_cons, drop_take_length hl hi, List.prod_cons, Nat.one_mul]

/-- Array input, for a model that is a function of its inputs on some states and inputs. -/
theorem predict_array_on {itp : Interp S α} {I : S → Prop} {P : List (List α) → Prop}
    {f : List (List α) → List (List α)} (hf : StatelessOn itp I P f)
    (hdim : ∀ t ∈ itp.outputs, ∃ r, t.dims = 1 :: r) {x : NpArray α} (hx : x.WF) {n : Nat} {rest : List Nat}
    (hshape : x.shape = n :: rest) (hn : 0 < n) (hin : itp.inputs = [⟨x.dtype, 1 :: rest⟩]) (hP : ∀ i, i < n → P [entry x i]) {s : S} (hI : I s) :
    ∃ s' res, I s' ∧ predict itp s (.array x) = .ok (s', res) ∧ res.Kind itp.outputs.length ∧
      res.arrays.length = itp.outputs.length ∧
      ∀ (k : Nat) (t : TensorSpec), itp.outputs[k]? = some t → ∃ a, res.arrays[k]? = some a ∧ a.dtype = t.dtype ∧
        a.shape = n :: t.dims.tail ∧ ∀ i, i < n → (f [entry x i])[k]? = some (entry a i) := by
  have hg := gen_array hshape
  obtain ⟨s', res, h0, h1, h2, h3, h4⟩ := predict_spec hf hdim hg (by simp; omega) (by
    intro ins hi
    obtain ⟨i, hi', rfl⟩ := List.mem_map.1 hi
    rw [List.mem_range] at hi'
    refine ⟨⟨by simp [hin], ?_⟩, hP i hi'⟩
    intro a ha
    rw [List.mem_singleton.1 ha]
    exact gen_array_wf hx hshape hi') hI
  refine ⟨s', res, h0, h1, h2, h3, ?_⟩
  intro k t ht
  obtain ⟨a, g1, g2, g3, g4⟩ := h4 k t ht
  refine ⟨a, g1, g2, by simpa using g3, ?_⟩
  intro i hi
  exact g4 i _ (by rw [List.getElem?_map, List.getElem?_range hi]; rfl)

/-- **C41, array input (what holds: at least one sample).** For a one-input model that is a function `f` of its input, with
batch size 1 on all tensors, `predict(x)` on an array of `n ≥ 1` samples of the model's input shape succeeds from every
interpreter state and returns, for each output (a bare array if there is only one), an array with `n` entries of the output's
shape and type whose entry `i` is the model's output on `x[i]` alone. -/
theorem C41_predict_array_partial {itp : Interp S α} {f : List (List α) → List (List α)} (hf : Stateless itp f)
    (hdim : ∀ t ∈ itp.outputs, ∃ r, t.dims = 1 :: r) {x : NpArray α} (hx : x.WF) {n : Nat} {rest : List Nat}
    (hshape : x.shape = n :: rest) (hn : 0 < n) (hin : itp.inputs = [⟨x.dtype, 1 :: rest⟩]) (s : S) :
    ∃ s' res, predict itp s (.array x) = .ok (s', res) ∧ res.Kind itp.outputs.length ∧
      res.arrays.length = itp.outputs.length ∧
      ∀ (k : Nat) (t : TensorSpec), itp.outputs[k]? = some t → ∃ a, res.arrays[k]? = some a ∧ a.dtype = t.dtype ∧
        a.shape = n :: t.dims.tail ∧ ∀ i, i < n → (f [entry x i])[k]? = some (entry a i) := by
  obtain ⟨s', res, -, h⟩ := predict_array_on hf.on hdim hx hshape hn hin (by intros; trivial) (s := s) trivial
  exact ⟨s', res, h⟩

theorem mapM_npIter {xs : List (NpArray α)} {n : Nat} (hn : ∀ x ∈ xs, x.shape.head? = some n) :
    xs.mapM npIter = .ok (xs.map fun x => (List.range n).map fun i => (⟨x.dtype, x.shape.tail, entry x i⟩ : NpArray α)) := by
  refine mapM_ok fun x hx => ?_
  have := hn x hx
  unfold npIter entry
  cases hs : x.shape with
  | nil => rw [hs] at this; exact absurd this (by simp)
  | cons m rest =>
    rw [hs] at this
    simp only [List.head?_cons, Option.some.injEq] at this
    subst this
    rfl

/-- What `predict` makes of a list of arrays. -/
theorem gen_list {xs : List (NpArray α)} (hne : xs ≠ []) {n : Nat} (hshape : ∀ x ∈ xs, x.shape.head? = some n) :
    dataGenerator (.list xs) = .ok ((List.range n).map fun i =>
      xs.map fun x => (⟨x.dtype, 1 :: x.shape.tail, entry x i⟩ : NpArray α)) := by
  unfold dataGenerator
  simp only [bind, Except.bind]
  rw [mapM_npIter hshape]
  simp only []
  congr 1
  unfold pyZip
  rw [minLen_const (n := n) (by simpa using hne) (by
    intro l hl
    obtain ⟨x, _, rfl⟩ := List.mem_map.1 hl
    simp)]
  simp only [List.map_map]
  apply List.map_congr_left
  intro i hi
  rw [List.mem_range] at hi
  simp only [Function.comp]
  rw [List.filterMap_map, filterMap_all_some (h := fun x : NpArray α => (⟨x.dtype, x.shape.tail, entry x i⟩ : NpArray α))]
  · rw [List.map_map]; rfl
  · intro x _
    simp only [Function.comp, List.getElem?_map, List.getElem?_range hi, Option.map_some]

theorem gen_list_wf {xs : List (NpArray α)} (hx : ∀ x ∈ xs, x.WF) {n : Nat} (hshape : ∀ x ∈ xs, x.shape.head? = some n) {i : Nat}
    (hi : i < n) : ∀ a ∈ xs.map fun x => (⟨x.dtype, 1 :: x.shape.tail, entry x i⟩ : NpArray α), a.WF := by
  intro a ha
  obtain ⟨x, hxm, rfl⟩ := List.mem_map.1 ha
  have hh := hshape x hxm
  have hw := hx x hxm
  unfold NpArray.WF entry at *
  cases hs : x.shape with
  | nil => rw [hs] at hh; exact absurd hh (by simp)
  | cons m rest =>
    rw [hs] at hh hw
    simp only [List.head?_cons, Option.some.injEq] at hh
    subst hh
    simp only [List.tail_cons]
    rw [drop_take_length (n := m) (by rw [hw, List.prod_cons]) hi, List.prod_cons, Nat.one_mul]

/-- List input, for a model that is a function of its inputs on some states and inputs. -/
theorem predict_list_on {itp : Interp S α} {I : S → Prop} {P : List (List α) → Prop}
    {f : List (List α) → List (List α)} (hf : StatelessOn itp I P f)
    (hdim : ∀ t ∈ itp.outputs, ∃ r, t.dims = 1 :: r) {xs : List (NpArray α)} (hx : ∀ x ∈ xs, x.WF) (hne : xs ≠ []) {n : Nat}
    (hshape : ∀ x ∈ xs, x.shape.head? = some n) (hn : 0 < n)
    (hin : itp.inputs = xs.map fun x => ⟨x.dtype, 1 :: x.shape.tail⟩) (hP : ∀ i, i < n → P (xs.map fun x => entry x i)) {s : S} (hI : I s) :
    ∃ s' res, I s' ∧ predict itp s (.list xs) = .ok (s', res) ∧ res.Kind itp.outputs.length ∧
      res.arrays.length = itp.outputs.length ∧
      ∀ (k : Nat) (t : TensorSpec), itp.outputs[k]? = some t → ∃ a, res.arrays[k]? = some a ∧ a.dtype = t.dtype ∧
        a.shape = n :: t.dims.tail ∧ ∀ i, i < n → (f (xs.map fun x => entry x i))[k]? = some (entry a i) := by
  have hg := gen_list hne hshape
  obtain ⟨s', res, h0, h1, h2, h3, h4⟩ := predict_spec hf hdim hg (by simp; omega) (by
    intro ins hi
    obtain ⟨i, hi', rfl⟩ := List.mem_map.1 hi
    rw [List.mem_range] at hi'
    exact ⟨⟨by simp [hin, Function.comp_def], gen_list_wf hx hshape hi'⟩, by rw [List.map_map]; exact hP i hi'⟩) hI
  refine ⟨s', res, h0, h1, h2, h3, ?_⟩
  intro k t ht
  obtain ⟨a, g1, g2, g3, g4⟩ := h4 k t ht
  refine ⟨a, g1, g2, by simpa using g3, ?_⟩
  intro i hi
  have := g4 i _ (by rw [List.getElem?_map, List.getElem?_range hi]; rfl)
  rw [List.map_map] at this
  exact this

/-- **C41, list input (what holds: at least one sample, inputs of equal length).** The same for a list of arrays, one per
input of the model, each with `n ≥ 1` samples of that input's shape: entry `i` is the model's output on the list of the
`i`-th entries. -/
theorem C41_predict_list_partial {itp : Interp S α} {f : List (List α) → List (List α)} (hf : Stateless itp f)
    (hdim : ∀ t ∈ itp.outputs, ∃ r, t.dims = 1 :: r) {xs : List (NpArray α)} (hx : ∀ x ∈ xs, x.WF) (hne : xs ≠ []) {n : Nat}
    (hshape : ∀ x ∈ xs, x.shape.head? = some n) (hn : 0 < n)
    (hin : itp.inputs = xs.map fun x => ⟨x.dtype, 1 :: x.shape.tail⟩) (s : S) :
    ∃ s' res, predict itp s (.list xs) = .ok (s', res) ∧ res.Kind itp.outputs.length ∧
      res.arrays.length = itp.outputs.length ∧
      ∀ (k : Nat) (t : TensorSpec), itp.outputs[k]? = some t → ∃ a, res.arrays[k]? = some a ∧ a.dtype = t.dtype ∧
        a.shape = n :: t.dims.tail ∧ ∀ i, i < n → (f (xs.map fun x => entry x i))[k]? = some (entry a i) := by
  obtain ⟨s', res, -, h⟩ := predict_list_on hf.on hdim hx hne hshape hn hin (by intros; trivial) (s := s) trivial
  exact ⟨s', res, h⟩

/-- The arrays of one item of an iterator: an array stands for a list of one. -/
def itemArrays : NpArray α ⊕ List (NpArray α) → List (NpArray α)
  | .inl a => [a]
  | .inr l => l

/-- What `predict` makes of an iterator. -/
theorem gen_iter (items : List (NpArray α ⊕ List (NpArray α))) :
    dataGenerator (.iter items) = .ok (items.map fun it => (itemArrays it).map expandDims) := by
  unfold dataGenerator
  simp only []
  congr 1
  apply List.map_congr_left
  intro it _
  cases it <;> rfl

theorem gen_iter_wf {it : NpArray α ⊕ List (NpArray α)} (hx : ∀ a ∈ itemArrays it, a.WF) :
    ∀ a ∈ (itemArrays it).map expandDims, a.WF := by
  intro a ha
  obtain ⟨x, hxm, rfl⟩ := List.mem_map.1 ha
  have := hx x hxm
  unfold NpArray.WF expandDims at *
  simp only [List.prod_cons, Nat.one_mul]
  exact this

/-- Iter input, for a model that is a function of its inputs on some states and inputs. -/
theorem predict_iter_on {itp : Interp S α} {I : S → Prop} {P : List (List α) → Prop}
    {f : List (List α) → List (List α)} (hf : StatelessOn itp I P f)
    (hdim : ∀ t ∈ itp.outputs, ∃ r, t.dims = 1 :: r) {items : List (NpArray α ⊕ List (NpArray α))} (hne : items ≠ [])
    (hx : ∀ it ∈ items, ∀ a ∈ itemArrays it, a.WF)
    (hin : ∀ it ∈ items, itp.inputs = (itemArrays it).map fun a => ⟨a.dtype, 1 :: a.shape⟩) (hP : ∀ it ∈ items, P ((itemArrays it).map (·.data))) {s : S} (hI : I s) :
    ∃ s' res, I s' ∧ predict itp s (.iter items) = .ok (s', res) ∧ res.Kind itp.outputs.length ∧
      res.arrays.length = itp.outputs.length ∧
      ∀ (k : Nat) (t : TensorSpec), itp.outputs[k]? = some t → ∃ a, res.arrays[k]? = some a ∧ a.dtype = t.dtype ∧
        a.shape = items.length :: t.dims.tail ∧
        ∀ (i : Nat) (it : NpArray α ⊕ List (NpArray α)), items[i]? = some it →
          (f ((itemArrays it).map (·.data)))[k]? = some (entry a i) := by
  have hg := gen_iter items
  obtain ⟨s', res, h0, h1, h2, h3, h4⟩ := predict_spec hf hdim hg (by simpa using hne) (by
    intro ins hi
    obtain ⟨it, hit, rfl⟩ := List.mem_map.1 hi
    exact ⟨⟨by rw [hin it hit, List.map_map, List.map_map]; rfl, gen_iter_wf (hx it hit)⟩, by rw [List.map_map]; exact hP it hit⟩) hI
  refine ⟨s', res, h0, h1, h2, h3, ?_⟩
  intro k t ht
  obtain ⟨a, g1, g2, g3, g4⟩ := h4 k t ht
  refine ⟨a, g1, g2, by simpa using g3, ?_⟩
  intro i it hi
  have := g4 i _ (by rw [List.getElem?_map, hi]; rfl)
  rw [List.map_map] at this
  exact this

/-- **C41, iterator input (what holds: at least one sample).** The same for an iterator that yields, for each sample, the
model's only input or the list of its inputs (without batch dimension): entry `i` is the model's output on item `i`. -/
theorem C41_predict_iter_partial {itp : Interp S α} {f : List (List α) → List (List α)} (hf : Stateless itp f)
    (hdim : ∀ t ∈ itp.outputs, ∃ r, t.dims = 1 :: r) {items : List (NpArray α ⊕ List (NpArray α))} (hne : items ≠ [])
    (hx : ∀ it ∈ items, ∀ a ∈ itemArrays it, a.WF)
    (hin : ∀ it ∈ items, itp.inputs = (itemArrays it).map fun a => ⟨a.dtype, 1 :: a.shape⟩) (s : S) :
    ∃ s' res, predict itp s (.iter items) = .ok (s', res) ∧ res.Kind itp.outputs.length ∧
      res.arrays.length = itp.outputs.length ∧
      ∀ (k : Nat) (t : TensorSpec), itp.outputs[k]? = some t → ∃ a, res.arrays[k]? = some a ∧ a.dtype = t.dtype ∧
        a.shape = items.length :: t.dims.tail ∧
        ∀ (i : Nat) (it : NpArray α ⊕ List (NpArray α)), items[i]? = some it →
          (f ((itemArrays it).map (·.data)))[k]? = some (entry a i) := by
  obtain ⟨s', res, -, h⟩ := predict_iter_on hf.on hdim hne hx hin (by intros; trivial) (s := s) trivial
  exact ⟨s', res, h⟩

/-- **C41 fails for zero samples**: an array with no samples raises `IndexError` when the model has one output (instead of
returning an array with no entries), and returns no arrays at all when it has several. -/
theorem C41_empty_witness (itp : Interp S α) (s : S) (dt : Nat) (rest : List Nat) :
    predict itp s (.array ⟨dt, 0 :: rest, []⟩) =
      if itp.outputs.length = 1 then .error .indexError else .ok (s, .many []) := by
  unfold predict dataGenerator npIter
  simp only [bind, Except.bind, List.range_zero, List.map_nil, predictAll, pyZip, minLen, List.mapM_nil, pure, Except.pure]
  rfl

/-- The identity model on two inputs of one element. -/
def twoInputs : Interp Unit Nat :=
  { inputs := [⟨0, [1, 1]⟩, ⟨0, [1, 1]⟩], outputs := [⟨0, [1, 1]⟩, ⟨0, [1, 1]⟩], invoke := fun s ins => some (s, ins) }

/-- **Inputs of different lengths are silently cut**: with three samples for one input and two for the other, two
predictions come back and no error. -/
theorem C41_truncation_witness : predict twoInputs () (.list [⟨0, [3, 1], [1, 2, 3]⟩, ⟨0, [2, 1], [4, 5]⟩]) =
    .ok ((), .many [⟨0, [2, 1], [1, 2]⟩, ⟨0, [2, 1], [4, 5]⟩]) := by rfl

/-- Anything else than an array, a list or an iterator is refused. -/
theorem C41_other (itp : Interp S α) (s : S) : predict itp s .other = .error .valueError := rfl

/-- Hypotheses of the theorems above on the identity model. -/
example : Stateless twoInputs (fun ins => ins) ∧ (∀ t ∈ twoInputs.outputs, ∃ r, t.dims = 1 :: r) :=
  ⟨⟨fun s ins _ => ⟨s, rfl⟩, fun ins h => h⟩, by intro t ht; exact ⟨[1], by simp [twoInputs] at ht; rw [ht]⟩⟩

/-- A run on two samples. -/
example : predict twoInputs () (.list [⟨0, [2, 1], [1, 2]⟩, ⟨0, [2, 1], [4, 5]⟩]) =
    .ok ((), .many [⟨0, [2, 1], [1, 2]⟩, ⟨0, [2, 1], [4, 5]⟩]) := by rfl

/-- Every failure of the wrapper's `predict` is a `RuntimeError`, and inputs whose number, element types or shapes differ from
the model's are always refused. -/
theorem wrapperPredict_rejects (itp : Interp S α) (s : S) {ins : List (NpArray α)}
    (h : ins.map (fun a => (a.dtype, a.shape)) ≠ itp.inputs.map (fun t => (t.dtype, t.dims))) :
    wrapperPredict itp s ins = .error .runtimeError := by
  unfold wrapperPredict
  by_cases hlen : ins.length = itp.inputs.length
  · rw [if_neg (by omega), if_pos]
    intro hall
    rw [List.all_eq_true] at hall
    apply h
    apply List.ext_getElem?
    intro i
    simp only [List.getElem?_map]
    by_cases hi : i < ins.length
    · have hm : setTensorOk (itp.inputs[i]'(by omega)) ins[i] ∈ List.zipWith setTensorOk itp.inputs ins := by
        rw [List.mem_iff_getElem]
        exact ⟨i, by rw [List.length_zipWith]; omega, by rw [List.getElem_zipWith]⟩
      have := hall _ hm
      unfold setTensorOk at this
      rw [id, Bool.and_eq_true, beq_iff_eq, beq_iff_eq] at this
      rw [List.getElem?_eq_getElem hi, List.getElem?_eq_getElem (show i < itp.inputs.length by omega)]
      simp only [Option.map_some, this.1, this.2]
    · rw [List.getElem?_eq_none (by omega), List.getElem?_eq_none (by omega)]; rfl
  · rw [if_pos hlen]

theorem wrapperPredict_error {itp : Interp S α} {s : S} {ins : List (NpArray α)} {e : PyErr}
    (h : wrapperPredict itp s ins = .error e) : e = .runtimeError := by
  unfold wrapperPredict at h
  split at h
  · exact (Except.error.inj h).symm
  split at h
  · exact (Except.error.inj h).symm
  split at h
  · exact (Except.error.inj h).symm
  · cases h

/-- **C41, rejection.** If some sample the input yields does not have the number, element types and shapes of the model's
inputs, `predict` raises a `RuntimeError`: no result is ever produced from such data, whatever the model does and whatever the
other samples are. -/
theorem C41_rejects {itp : Interp S α} {x : PyInput α} {samples : List (List (NpArray α))}
    (hx : dataGenerator x = .ok samples) {ins : List (NpArray α)} (hmem : ins ∈ samples)
    (hbad : ins.map (fun a => (a.dtype, a.shape)) ≠ itp.inputs.map (fun t => (t.dtype, t.dims))) (s : S) :
    predict itp s x = .error .runtimeError := by
  have key : ∀ (l : List (List (NpArray α))) (s : S), ins ∈ l → predictAll itp s l = .error .runtimeError := by
    intro l
    induction l with
    | nil => intro s h; cases h
    | cons a l ih =>
      intro s h
      unfold predictAll
      cases hw : wrapperPredict itp s a with
      | error e =>
        rw [wrapperPredict_error hw]
        rfl
      | ok r =>
        rcases List.mem_cons.1 h with rfl | h
        · rw [wrapperPredict_rejects itp s hbad] at hw
          cases hw
        · simp only [bind, Except.bind]
          rw [ih r.1 h]
  unfold predict
  rw [hx]
  simp only [bind, Except.bind]
  rw [key samples s hmem]

/-- Concrete: a sample of the wrong element type, and one input too many. -/
example : predict twoInputs () (.list [⟨0, [1, 1], [1]⟩, ⟨1, [1, 1], [4]⟩]) = .error .runtimeError :=
  C41_rejects (samples := [[⟨0, [1, 1], [1]⟩, ⟨1, [1, 1], [4]⟩]]) rfl (List.mem_singleton.2 rfl) (by decide) ()
example : predict twoInputs () (.list [⟨0, [1, 1], [1]⟩, ⟨0, [1, 1], [4]⟩, ⟨0, [1, 1], [4]⟩]) = .error .runtimeError :=
  C41_rejects (samples := [[⟨0, [1, 1], [1]⟩, ⟨0, [1, 1], [4]⟩, ⟨0, [1, 1], [4]⟩]]) rfl (List.mem_singleton.2 rfl) (by decide) ()

end Verif
