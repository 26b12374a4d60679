import Verif.Proof.PredictBytes

/-!
C79: `Interpreter.predict` down to the bytes of the tensors, after any history of the Python object.
-/

namespace Verif.Wrap

variable {K : Type} {rt : Runtime K} {I : K → Prop} {s0 : St K} {f : List (List Byte) → Option (List (List Byte))}

/-- A sample that the wrapper refuses makes `predict` raise. -/
theorem predict_fails {S α : Type} {itp : Interp S α} {x : PyInput α} {samples : List (List (NpArray α))}
    (hx : dataGenerator x = .ok samples) {ins : List (NpArray α)} (hmem : ins ∈ samples)
    (hbad : ∀ s, wrapperPredict itp s ins = .error .runtimeError) (s : S) : Verif.predict itp s x = .error .runtimeError := by
  have key : ∀ (l : List (List (NpArray α))) (s : S), ins ∈ l → predictAll itp s l = .error .runtimeError := by
    intro l
    induction l with
    | nil => intro s h; cases h
    | cons a l ih =>
      intro s h
      unfold predictAll
      cases hw : wrapperPredict itp s a with
      | error e => rw [wrapperPredict_error hw]; rfl
      | ok r =>
        rcases List.mem_cons.1 h with rfl | h
        · rw [hbad] at hw
          cases hw
        · simp only [bind, Except.bind]
          rw [ih r.1 h]
  unfold Verif.predict
  rw [hx]
  simp only [bind, Except.bind]
  rw [key samples s hmem]

theorem flatMap_length {α β : Type} {c : Nat} {g : β → List α} : ∀ {l : List β}, (∀ b ∈ l, (g b).length = c) →
    (l.flatMap g).length = l.length * c
  | [], _ => by simp
  | b :: l, h => by
    rw [List.flatMap_cons, List.length_append, h b (by simp), flatMap_length fun x hx => h x (List.mem_cons_of_mem _ hx),
      List.length_cons, Nat.add_mul]
    omega

/-- What the interpreter computes, in elements. -/
def absF (rt : Runtime K) (s0 : St K) (f : List (List Byte) → Option (List (List Byte))) (d : List (List (List Byte))) :
    List (List (List Byte)) :=
  ((f (d.map List.flatten)).map fun outs => List.zipWith (fun i o =>
    chunks (pyType (s0.tensor i)).itemsize ((s0.tensor i).dims.map Int.toNat).prod o) rt.outputs outs).getD []

/-- The samples that the model accepts. -/
def Good (rt : Runtime K) (s0 : St K) (f : List (List Byte) → Option (List (List Byte))) (d : List (List (List Byte))) : Prop :=
  ∃ ins : List (NpArray (List Byte)), ins.map (·.data) = d ∧ (∀ a ∈ ins, ArrOk a) ∧
    List.Forall₂ (fun i a => Fits (s0.tensor i) a) rt.inputs (ins.map buffer) ∧ (f (sampleBytes ins)).isSome

theorem sampleBytes_eq (ins : List (NpArray (List Byte))) : (ins.map (·.data)).map List.flatten = sampleBytes ins := by
  rw [List.map_map]; rfl

theorem good_outs (hc : Computes rt I s0 f) (h0 : Fresh rt I s0) {ins : List (NpArray (List Byte))} (hw : ∀ a ∈ ins, ArrOk a)
    (hfit : List.Forall₂ (fun i a => Fits (s0.tensor i) a) rt.inputs (ins.map buffer)) {outs : List (List Byte)}
    (hf : f (sampleBytes ins) = some outs) :
    outs.map List.length = rt.outputs.map fun i =>
      (pyType (s0.tensor i)).itemsize * ((s0.tensor i).dims.map Int.toNat).prod := by
  refine outs_length hc h0 (ins := ins.map buffer) ?_ hfit ?_
  · intro a ha
    obtain ⟨x, hx, rfl⟩ := List.mem_map.1 ha
    exact buffer_wf (hw x hx)
  · rw [← hf, sampleBytes, List.map_map]; rfl

theorem chunks_length (k n : Nat) (l : List Byte) : (chunks k n l).length = n := by
  unfold chunks; rw [List.length_map, List.length_range]

theorem chunks_items {k n : Nat} {l : List Byte} (h : l.length = k * n) : ∀ e ∈ chunks k n l, e.length = k := by
  intro e he
  unfold chunks at he
  obtain ⟨j, hj, rfl⟩ := List.mem_map.1 he
  rw [List.mem_range] at hj
  exact drop_take_length (n := n) (by rw [h, Nat.mul_comm]) hj

theorem absStateless (hc : Computes rt I s0 f) (h0 : Fresh rt I s0) :
    StatelessOn (absItp rt s0 f) (fun _ => True) (Good rt s0 f) (absF rt s0 f) := by
  constructor
  · rintro s d - ⟨ins, rfl, hw, hfit, hsome⟩ -
    refine ⟨(), trivial, ?_⟩
    unfold absItp absF
    simp only [sampleBytes_eq]
    obtain ⟨outs, ho⟩ := Option.isSome_iff_exists.1 hsome
    rw [ho]
    rfl
  · rintro d ⟨ins, rfl, hw, hfit, hsome⟩ -
    obtain ⟨outs, ho⟩ := Option.isSome_iff_exists.1 hsome
    have hl := good_outs hc h0 hw hfit ho
    have hll : outs.length = rt.outputs.length := by simpa using congrArg List.length hl
    unfold absItp absF
    simp only [sampleBytes_eq]
    rw [ho]
    simp only [Option.map_some, Option.getD_some, List.map_map]
    apply List.ext_getElem
    · simp [hll]
    · intro i h1 h2
      simp [chunks_length, specOf]

theorem entry_flatten (hc : Computes rt I s0 f) (h0 : Fresh rt I s0) {ins : List (NpArray (List Byte))} (hw : ∀ a ∈ ins, ArrOk a)
    (hfit : List.Forall₂ (fun i a => Fits (s0.tensor i) a) rt.inputs (ins.map buffer)) {outs : List (List Byte)}
    (ho : f (sampleBytes ins) = some outs) {k : Nat} {e : List (List Byte)}
    (he : (absF rt s0 f (ins.map (·.data)))[k]? = some e) :
    outs[k]? = some e.flatten ∧ ∀ i, rt.outputs[k]? = some i → ∀ b ∈ e, b.length = (pyType (s0.tensor i)).itemsize := by
  have hl := good_outs hc h0 hw hfit ho
  unfold absF at he
  rw [sampleBytes_eq, ho] at he
  simp only [Option.map_some, Option.getD_some, List.getElem?_zipWith] at he
  have hk := congrArg (fun l => l[k]?) hl
  simp only [List.getElem?_map] at hk
  cases h1 : rt.outputs[k]? with
  | none => rw [h1] at he; cases he
  | some i =>
    cases h2 : outs[k]? with
    | none => rw [h1, h2] at he; cases he
    | some o =>
      rw [h1, h2] at he hk
      simp only [Option.some.injEq, Option.map_some] at he hk
      subst he
      refine ⟨by rw [chunks_flatten hk], ?_⟩
      intro j hj
      cases hj
      exact chunks_items hk

/-- The types and shapes that the interpreter reports, in terms of the tensors. -/
theorem reported (h0 : Fresh rt I s0) {ids : List Nat} (hs : ∀ i ∈ ids, i ∈ rt.inputs ++ rt.outputs) {types : List Dtype}
    {shapes : List (List Int)} (ht : (getTypes ids s0).1 = .ok types) (hsh : (getShapes ids s0).1 = .ok shapes) :
    types = ids.map (fun i => pyType (s0.tensor i)) ∧ shapes = ids.map (fun i => (s0.tensor i).dims) := by
  constructor
  · obtain ⟨c, e, -⟩ := overTensors_spec typeOf ids h0.self.cache
    unfold getTypes at ht
    rw [e] at ht
    rw [mapM_ok (h := fun i => pyType (s0.tensor i))] at ht
    · exact (Except.ok.inj ht).symm
    · intro i hi
      obtain ⟨⟨d, hd⟩, -⟩ := h0.tensors i (hs i hi)
      rw [pyType_eq hd]
      exact typeOf_ok.2 hd
  · obtain ⟨c, e, -⟩ := overTensors_spec shapeOf ids h0.self.cache
    unfold getShapes at hsh
    rw [e] at hsh
    have hm : (ids.mapM fun i => shapeOf (s0.tensor i)) = .ok (ids.map fun i => (s0.tensor i).dims) := mapM_ok fun _ _ => rfl
    rw [hm] at hsh
    exact (Except.ok.inj hsh).symm

theorem map_ofNat_toNat {l : List Int} (h : ∀ x ∈ l, 0 ≤ x) : (l.map Int.toNat).map Int.ofNat = l := by
  rw [List.map_map]
  conv_rhs => rw [← List.map_id l]
  exact List.map_congr_left fun x hx => by show Int.ofNat x.toNat = x; exact Int.toNat_of_nonneg (h x hx)

/-- A sample fits the model: arrays of the reported types and shapes, and no operator reports an error. -/
def SampleFits (f : List (List Byte) → Option (List (List Byte))) (types : List Dtype) (shapes : List (List Int))
    (ins : List (NpArray (List Byte))) : Prop :=
  ins.map (fun a => Dtype.ofCode a.dtype) = types ∧ ins.map (fun a => a.shape.map Int.ofNat) = shapes ∧
    f (sampleBytes ins) ≠ none

/-- **C79, any input.** After any calls of the Python object, including predictions that raised, `predict` on an input that
yields at least one sample: if every sample fits the model, one array per output (a bare array for a model with one output)
of the reported type and of the reported shape with the number of samples as first dimension, whose entry `i` consists of the
bytes that the model computes from the bytes of sample `i`; otherwise `RuntimeError`. -/
theorem C79_predict (hc : Computes rt I s0 f) (h0 : Fresh rt I s0) {calls : List PyCall} (hw : ∀ c ∈ calls, c.WF)
    {types otypes : List Dtype} {shapes oshapes : List (List Int)}
    (ht : (getTypes rt.inputs s0).1 = .ok types) (hsh : (getShapes rt.inputs s0).1 = .ok shapes)
    (hot : (getTypes rt.outputs s0).1 = .ok otypes) (hosh : (getShapes rt.outputs s0).1 = .ok oshapes)
    (hb : ∀ sh ∈ oshapes, sh.head? = some 1) {x : PyInput (List Byte)} (hx : InputOk x)
    {samples : List (List (NpArray (List Byte)))} (hg : dataGenerator x = .ok samples) (hne : samples ≠ []) :
    ((∀ ins ∈ samples, SampleFits f types shapes ins) → ∃ res, (pyPredict rt x (afterPy rt calls s0)).1 = .ok res ∧
      res.Kind otypes.length ∧ res.arrays.length = otypes.length ∧
      ∀ (k : Nat) (d : Dtype) (sh : List Int), otypes[k]? = some d → oshapes[k]? = some sh → ∃ a, res.arrays[k]? = some a ∧ ArrOk a ∧
        Dtype.ofCode a.dtype = d ∧ a.shape.map Int.ofNat = (samples.length : Int) :: sh.tail ∧
        ∀ (i : Nat) ins, samples[i]? = some ins → ∃ outs, f (sampleBytes ins) = some outs ∧ outs[k]? = some (entry a i).flatten) ∧
    (¬ (∀ ins ∈ samples, SampleFits f types shapes ins) →
      (pyPredict rt x (afterPy rt calls s0)).1 = .error .runtimeError) := by
  have hinv := afterPy_inv hc h0 calls hw h0.self
  have habs := (pyPredict_abs hc h0 hinv hx).2
  have hok := dataGenerator_ok hx hg
  obtain ⟨rfl, rfl⟩ := reported h0 (fun i hi => List.mem_append_right _ hi) hot hosh
  have hfits : ∀ ins : List (NpArray (List Byte)), List.Forall₂ (fun i a => Fits (s0.tensor i) a) rt.inputs (ins.map buffer) ↔
      ins.map (fun a => Dtype.ofCode a.dtype) = types ∧ ins.map (fun a => a.shape.map Int.ofNat) = shapes := by
    intro ins
    rw [fits_iff h0 ht hsh, List.map_map, List.map_map]
    rfl
  constructor
  · intro hall
    have hdim : ∀ t ∈ (absItp rt s0 f).outputs, ∃ r, t.dims = 1 :: r := by
      intro t ht'
      obtain ⟨i, hi, rfl⟩ := List.mem_map.1 ht'
      have := hb _ (List.mem_map_of_mem hi)
      unfold specOf
      simp only []
      cases hd : (s0.tensor i).dims with
      | nil => rw [hd] at this; cases this
      | cons n r =>
        rw [hd] at this
        simp only [List.head?_cons, Option.some.injEq] at this
        subst this
        exact ⟨r.map Int.toNat, rfl⟩
    have hF : ∀ ins ∈ samples, Feeds (absItp rt s0 f) ins ∧ Good rt s0 f (ins.map (·.data)) := by
      intro ins hi
      obtain ⟨g1, g2, g3⟩ := hall ins hi
      have hfit := (hfits ins).2 ⟨g1, g2⟩
      exact ⟨⟨(fits_ins h0 ins).1 hfit, fun a ha => (hok ins hi a ha).1⟩, ins, rfl, hok ins hi, hfit,
        Option.isSome_iff_ne_none.2 g3⟩
    obtain ⟨s', -, hp⟩ := predict_samples (absStateless hc h0) (fun t ht => by obtain ⟨r, hr⟩ := hdim t ht; rw [hr]; simp)
      hg hne hF (s := ()) trivial
    obtain ⟨s'', res, -, h1, h2, h3, h4⟩ := Verif.predict_spec (absStateless hc h0) hdim hg hne hF (s := ()) trivial
    have hres := hp.symm.trans h1
    rw [habs] at h1
    generalize (pyPredict rt x (afterPy rt calls s0)).1 = r at h1
    cases r with
    | error e => cases h1
    | ok r =>
      simp only [Except.map, Except.ok.injEq, Prod.mk.injEq] at h1
      obtain ⟨-, rfl⟩ := h1
      simp only [Except.ok.injEq, Prod.mk.injEq] at hres
      obtain ⟨-, hres⟩ := hres
      have hl : (absItp rt s0 f).outputs.length = rt.outputs.length := by unfold absItp; simp
      rw [hl] at h2 h3
      refine ⟨r, rfl, by simpa using h2, by simpa using h3, ?_⟩
      intro k d sh hd hs
      rw [List.getElem?_map] at hd hs
      cases hk : rt.outputs[k]? with
      | none => rw [hk] at hd; cases hd
      | some o =>
        rw [hk] at hd hs
        simp only [Option.map_some, Option.some.injEq] at hd hs
        have hko : (absItp rt s0 f).outputs[k]? = some (specOf (s0.tensor o)) := by
          unfold absItp
          simp only [List.getElem?_map, hk, Option.map_some]
        obtain ⟨a, a1, a2, a3, a4⟩ := h4 k _ hko
        have hmem : o ∈ rt.outputs := List.mem_of_getElem? hk
        obtain ⟨-, hnn, -⟩ := h0.tensors o (List.mem_append_right _ hmem)
        have hent : ∀ (i : Nat) ins, samples[i]? = some ins → ∃ outs, f (sampleBytes ins) = some outs ∧
            outs[k]? = some (entry a i).flatten ∧ ∀ b ∈ entry a i, b.length = (pyType (s0.tensor o)).itemsize := by
          intro i ins hi
          have him := List.mem_of_getElem? hi
          obtain ⟨g1, g2, g3⟩ := hall ins him
          obtain ⟨outs, ho⟩ := Option.ne_none_iff_exists'.1 g3
          obtain ⟨e1, e2⟩ := entry_flatten hc h0 (hok ins him) ((hfits ins).2 ⟨g1, g2⟩) ho (a4 i ins hi)
          exact ⟨outs, ho, e1, e2 o hk⟩
        refine ⟨a, a1, ?_, ?_, ?_, fun i ins hi => ?_⟩
        · have ha : a = expectedArray (absItp rt s0 f) (absF rt s0 f) samples k (specOf (s0.tensor o)) := by
            have hk' := (List.getElem?_eq_some_iff.1 hko).1
            by_cases h1 : (absItp rt s0 f).outputs.length = 1
            · rw [if_pos h1] at hres
              have hk0 : k = 0 := by omega
              subst hk0
              rw [← hres, hko, Option.getD_some] at a1
              exact (Option.some.inj a1).symm
            · rw [if_neg h1] at hres
              rw [← hres] at a1
              simp only [PyRes.arrays, List.getElem?_map, List.getElem?_range hk', Option.map_some, hko, Option.getD_some] at a1
              exact (Option.some.inj a1).symm
          obtain ⟨r', hr'⟩ := hdim _ (List.mem_of_getElem? hko)
          have hitem : ∀ ins ∈ samples, ∃ e, (absF rt s0 f (ins.map (·.data)))[k]? = some e ∧ e.length = r'.prod ∧
              ∀ b ∈ e, b.length = (pyType (s0.tensor o)).itemsize := by
            intro ins him
            obtain ⟨g1, g2, g3⟩ := hall ins him
            obtain ⟨outs, ho⟩ := Option.ne_none_iff_exists'.1 g3
            have e := congrArg (fun l => l[k]?) ((absStateless hc h0).sizes _ (hF ins him).2 (feeds_sizes (hF ins him).1))
            simp only [List.getElem?_map, hko, Option.map_some] at e
            cases hd' : (absF rt s0 f (ins.map (·.data)))[k]? with
            | none => rw [hd'] at e; exact absurd e (by simp)
            | some e' =>
              rw [hd', hr'] at e
              exact ⟨e', rfl, by simpa using e, (entry_flatten hc h0 (hok ins him) ((hfits ins).2 ⟨g1, g2⟩) ho hd').2 o hk⟩
          subst ha
          refine ⟨?_, ?_⟩
          · show (samples.flatMap fun ins => (absF rt s0 f (ins.map (·.data)))[k]?.getD []).length =
              (samples.length * (specOf (s0.tensor o)).dims.headD 0 :: (specOf (s0.tensor o)).dims.tail).prod
            rw [flatMap_length (c := r'.prod), hr']
            · simp
            · intro ins him
              obtain ⟨e, e1, e2, -⟩ := hitem ins him
              rw [e1]; exact e2
          · intro b hb'
            obtain ⟨ins, him, hb''⟩ := List.mem_flatMap.1 hb'
            obtain ⟨e, e1, -, e3⟩ := hitem ins him
            rw [e1] at hb''
            show b.length = (Dtype.ofCode (pyType (s0.tensor o)).code).itemsize
            rw [ofCode_code]
            exact e3 b hb''
        · rw [a2, ← hd]; exact ofCode_code _
        · rw [a3, List.map_cons, ← hs]
          congr 1
          show (List.map Int.toNat (s0.tensor o).dims).tail.map Int.ofNat = _
          rw [← List.map_tail, map_ofNat_toNat fun x hx => hnn x (List.mem_of_mem_tail hx)]
        · obtain ⟨outs, e1, e2, -⟩ := hent i ins hi
          exact ⟨outs, e1, e2⟩
  · intro hall
    push Not at hall
    obtain ⟨ins, hi, hbad⟩ := hall
    have : Verif.predict (absItp rt s0 f) () x = .error .runtimeError := by
      refine predict_fails hg hi ?_ ()
      intro s
      by_cases hfit : List.Forall₂ (fun i a => Fits (s0.tensor i) a) rt.inputs (ins.map buffer)
      · rw [wrapperPredict_fits ((fits_ins h0 ins).1 hfit)]
        have hn : f (sampleBytes ins) = none := by
          by_contra hcon
          obtain ⟨g1, g2⟩ := (hfits ins).1 hfit
          exact hbad ⟨g1, g2, hcon⟩
        unfold absItp
        simp only [sampleBytes_eq, hn, Option.map_none]
      · exact wrapperPredict_rejects _ _ fun hh => hfit ((fits_ins h0 ins).2 hh)
    rw [habs] at this
    generalize (pyPredict rt x (afterPy rt calls s0)).1 = r at this
    cases r with
    | error e => cases this; rfl
    | ok r => cases this

/-- **C79, one array.** For a model with one input of shape `1 :: rest` and outputs of batch size 1: on an array of `n ≥ 1`
samples of the reported type and shape on which no operator reports an error, each output is an array of `n` entries, and
entry `i` has the bytes that the model computes from the bytes of `x[i]` alone. -/
theorem C79_array (hc : Computes rt I s0 f) (h0 : Fresh rt I s0) {calls : List PyCall} (hw : ∀ c ∈ calls, c.WF)
    {x : NpArray (List Byte)} (hx : ArrOk x) {n : Nat} {rest : List Nat} (hshape : x.shape = n :: rest) (hn : 0 < n)
    {otypes : List Dtype} {oshapes : List (List Int)}
    (ht : (getTypes rt.inputs s0).1 = .ok [Dtype.ofCode x.dtype])
    (hsh : (getShapes rt.inputs s0).1 = .ok [1 :: rest.map Int.ofNat])
    (hot : (getTypes rt.outputs s0).1 = .ok otypes) (hosh : (getShapes rt.outputs s0).1 = .ok oshapes)
    (hb : ∀ sh ∈ oshapes, sh.head? = some 1) (hf : ∀ i, i < n → f [(entry x i).flatten] ≠ none) :
    ∃ res, (pyPredict rt (.array x) (afterPy rt calls s0)).1 = .ok res ∧
      res.Kind otypes.length ∧ res.arrays.length = otypes.length ∧
      ∀ (k : Nat) (d : Dtype) (sh : List Int), otypes[k]? = some d → oshapes[k]? = some sh → ∃ a, res.arrays[k]? = some a ∧
        ArrOk a ∧ Dtype.ofCode a.dtype = d ∧ a.shape.map Int.ofNat = (n : Int) :: sh.tail ∧
        ∀ i, i < n → ∃ outs, f [(entry x i).flatten] = some outs ∧ outs[k]? = some (entry a i).flatten := by
  obtain ⟨res, r1, r2, r3, r4⟩ := (C79_predict hc h0 hw ht hsh hot hosh hb (x := .array x) hx (gen_array hshape)
    (by simp; omega)).1 (by
      intro ins hi
      obtain ⟨i, hi', rfl⟩ := List.mem_map.1 hi
      rw [List.mem_range] at hi'
      exact ⟨rfl, rfl, hf i hi'⟩)
  refine ⟨res, r1, r2, r3, ?_⟩
  intro k d sh hd hs
  obtain ⟨a, a1, a2, a3, a4, a5⟩ := r4 k d sh hd hs
  refine ⟨a, a1, a2, a3, by simpa using a4, fun i hi => ?_⟩
  exact a5 i _ (by rw [List.getElem?_map, List.getElem?_range hi]; rfl)

/-- **C79, a list of arrays.** The same for one array of `n ≥ 1` samples per input: entry `i` has the bytes that the model
computes from the bytes of the `i`-th entries of all arrays. -/
theorem C79_list (hc : Computes rt I s0 f) (h0 : Fresh rt I s0) {calls : List PyCall} (hw : ∀ c ∈ calls, c.WF)
    {xs : List (NpArray (List Byte))} (hx : ∀ x ∈ xs, ArrOk x) (hne : xs ≠ []) {n : Nat}
    (hshape : ∀ x ∈ xs, x.shape.head? = some n) (hn : 0 < n) {otypes : List Dtype} {oshapes : List (List Int)}
    (ht : (getTypes rt.inputs s0).1 = .ok (xs.map fun x => Dtype.ofCode x.dtype))
    (hsh : (getShapes rt.inputs s0).1 = .ok (xs.map fun x => 1 :: x.shape.tail.map Int.ofNat))
    (hot : (getTypes rt.outputs s0).1 = .ok otypes) (hosh : (getShapes rt.outputs s0).1 = .ok oshapes)
    (hb : ∀ sh ∈ oshapes, sh.head? = some 1) (hf : ∀ i, i < n → f (xs.map fun x => (entry x i).flatten) ≠ none) :
    ∃ res, (pyPredict rt (.list xs) (afterPy rt calls s0)).1 = .ok res ∧
      res.Kind otypes.length ∧ res.arrays.length = otypes.length ∧
      ∀ (k : Nat) (d : Dtype) (sh : List Int), otypes[k]? = some d → oshapes[k]? = some sh → ∃ a, res.arrays[k]? = some a ∧
        ArrOk a ∧ Dtype.ofCode a.dtype = d ∧ a.shape.map Int.ofNat = (n : Int) :: sh.tail ∧
        ∀ i, i < n → ∃ outs, f (xs.map fun x => (entry x i).flatten) = some outs ∧ outs[k]? = some (entry a i).flatten := by
  have hbytes : ∀ i, sampleBytes (xs.map fun x => (⟨x.dtype, 1 :: x.shape.tail, entry x i⟩ : NpArray (List Byte))) =
      xs.map fun x => (entry x i).flatten := by
    intro i
    unfold sampleBytes
    rw [List.map_map]; rfl
  obtain ⟨res, r1, r2, r3, r4⟩ := (C79_predict hc h0 hw ht hsh hot hosh hb (x := .list xs) hx (gen_list hne hshape)
    (by simp; omega)).1 (by
      intro ins hi
      obtain ⟨i, hi', rfl⟩ := List.mem_map.1 hi
      rw [List.mem_range] at hi'
      refine ⟨by rw [List.map_map]; rfl, by rw [List.map_map]; rfl, ?_⟩
      rw [hbytes]
      exact hf i hi')
  refine ⟨res, r1, r2, r3, ?_⟩
  intro k d sh hd hs
  obtain ⟨a, a1, a2, a3, a4, a5⟩ := r4 k d sh hd hs
  refine ⟨a, a1, a2, a3, by simpa using a4, fun i hi => ?_⟩
  have := a5 i _ (by rw [List.getElem?_map, List.getElem?_range hi]; rfl)
  rwa [hbytes] at this

/-- **C79, an iterator.** The same for an iterator that yields for each sample the only input or the list of the inputs,
without batch dimension: entry `i` has the bytes that the model computes from the bytes of item `i`. -/
theorem C79_iter (hc : Computes rt I s0 f) (h0 : Fresh rt I s0) {calls : List PyCall} (hw : ∀ c ∈ calls, c.WF)
    {items : List (NpArray (List Byte) ⊕ List (NpArray (List Byte)))} (hne : items ≠ [])
    (hx : ∀ it ∈ items, ∀ a ∈ itemArrays it, ArrOk a) {types otypes : List Dtype} {shapes oshapes : List (List Int)}
    (ht : (getTypes rt.inputs s0).1 = .ok types) (hsh : (getShapes rt.inputs s0).1 = .ok shapes)
    (hot : (getTypes rt.outputs s0).1 = .ok otypes) (hosh : (getShapes rt.outputs s0).1 = .ok oshapes)
    (hb : ∀ sh ∈ oshapes, sh.head? = some 1)
    (hin : ∀ it ∈ items, (itemArrays it).map (fun a => Dtype.ofCode a.dtype) = types ∧
      (itemArrays it).map (fun a => 1 :: a.shape.map Int.ofNat) = shapes)
    (hf : ∀ it ∈ items, f (sampleBytes (itemArrays it)) ≠ none) :
    ∃ res, (pyPredict rt (.iter items) (afterPy rt calls s0)).1 = .ok res ∧
      res.Kind otypes.length ∧ res.arrays.length = otypes.length ∧
      ∀ (k : Nat) (d : Dtype) (sh : List Int), otypes[k]? = some d → oshapes[k]? = some sh → ∃ a, res.arrays[k]? = some a ∧
        ArrOk a ∧ Dtype.ofCode a.dtype = d ∧ a.shape.map Int.ofNat = (items.length : Int) :: sh.tail ∧
        ∀ (i : Nat) it, items[i]? = some it → ∃ outs, f (sampleBytes (itemArrays it)) = some outs ∧
          outs[k]? = some (entry a i).flatten := by
  have hbytes : ∀ l : List (NpArray (List Byte)), sampleBytes (l.map expandDims) = sampleBytes l := by
    intro l
    unfold sampleBytes
    rw [List.map_map]; rfl
  have hok : InputOk (.iter items) := by
    intro it hit
    have := hx it hit
    cases it with
    | inl a => exact this a (by simp [itemArrays])
    | inr l => exact this
  obtain ⟨res, r1, r2, r3, r4⟩ := (C79_predict hc h0 hw ht hsh hot hosh hb hok (gen_iter items) (by simpa using hne)).1 (by
      intro ins hi
      obtain ⟨it, hit, rfl⟩ := List.mem_map.1 hi
      refine ⟨?_, ?_, ?_⟩
      · rw [← (hin it hit).1, List.map_map]; rfl
      · rw [← (hin it hit).2, List.map_map]; rfl
      · rw [hbytes]; exact hf it hit)
  refine ⟨res, r1, r2, r3, ?_⟩
  intro k d sh hd hs
  obtain ⟨a, a1, a2, a3, a4, a5⟩ := r4 k d sh hd hs
  refine ⟨a, a1, a2, a3, by simpa using a4, fun i it hi => ?_⟩
  have := a5 i _ (by rw [List.getElem?_map, hi]; rfl)
  rwa [hbytes] at this

/-- **C79, metadata.** Types, shapes, zero points and scales that the Python object reports are the same after any calls. -/
theorem C79_metadata_constant (hc : Computes rt I s0 f) (h0 : Fresh rt I s0) {calls : List PyCall} (hw : ∀ c ∈ calls, c.WF)
    {ids : List Nat} (hs : ids = rt.inputs ∨ ids = rt.outputs) :
    (getTypes ids (afterPy rt calls s0)).1 = (getTypes ids s0).1 ∧
    (getShapes ids (afterPy rt calls s0)).1 = (getShapes ids s0).1 ∧
    (getZeroPoints ids (afterPy rt calls s0)).1 = (getZeroPoints ids s0).1 ∧
    (getScales ids (afterPy rt calls s0)).1 = (getScales ids s0).1 := by
  have hs' : ∀ i ∈ ids, i ∈ rt.inputs ++ rt.outputs := by
    intro i hi
    rcases hs with rfl | rfl
    · exact List.mem_append_left _ hi
    · exact List.mem_append_right _ hi
  have hinv := afterPy_inv hc h0 calls hw h0.self
  have key : ∀ {β : Type} (g : Tensor → Except PyErr β), (∀ t t', t.info = t'.info → g t = g t') →
      (overTensors g ids (afterPy rt calls s0)).1 = (overTensors g ids s0).1 := by
    intro β g hg
    obtain ⟨c, e, -⟩ := overTensors_spec g ids hinv.cache
    obtain ⟨c', e', -⟩ := overTensors_spec g ids h0.self.cache
    rw [e, e']
    exact overTensors_same hinv hg hs'
  exact ⟨key _ typeOf_info, key _ shapeOf_info, key _ zeroPointOf_info, key _ scaleOf_info⟩

/-- **C79, no samples.** An input that yields no sample raises an `IndexError` when the model has one output, and gives an
empty list otherwise (for every model and state). -/
theorem C79_empty (hc : Computes rt I s0 f) (h0 : Fresh rt I s0) {calls : List PyCall} (hw : ∀ c ∈ calls, c.WF)
    {x : PyInput (List Byte)} (hx : InputOk x) (hg : dataGenerator x = .ok []) :
    (pyPredict rt x (afterPy rt calls s0)).1 = if rt.outputs.length = 1 then .error .indexError else .ok (.many []) := by
  have habs := (pyPredict_abs hc h0 (afterPy_inv hc h0 calls hw h0.self) hx).2
  have he : Verif.predict (absItp rt s0 f) () x =
      if rt.outputs.length = 1 then .error .indexError else .ok ((), .many []) := by
    have hl : (absItp rt s0 f).outputs.length = rt.outputs.length := by unfold absItp; simp
    unfold Verif.predict
    rw [hg, hl]
    rfl
  rw [habs] at he
  generalize (pyPredict rt x (afterPy rt calls s0)).1 = r at he
  by_cases h1 : rt.outputs.length = 1
  · rw [if_pos h1] at he ⊢
    cases r with
    | error e => cases he; rfl
    | ok r => cases he
  · rw [if_neg h1] at he ⊢
    cases r with
    | error e => cases he
    | ok r => cases he; rfl

/-- **C79, rejection.** An array whose type or sample shape is not the one reported for the only input, or one with a sample
on which an operator reports an error, raises a `RuntimeError`, and so does any array for a model with another number of
inputs. -/
theorem C79_array_rejects (hc : Computes rt I s0 f) (h0 : Fresh rt I s0) {calls : List PyCall} (hw : ∀ c ∈ calls, c.WF)
    {x : NpArray (List Byte)} (hx : ArrOk x) {n : Nat} {rest : List Nat} (hshape : x.shape = n :: rest) (hn : 0 < n)
    {types otypes : List Dtype} {shapes oshapes : List (List Int)}
    (ht : (getTypes rt.inputs s0).1 = .ok types) (hsh : (getShapes rt.inputs s0).1 = .ok shapes)
    (hot : (getTypes rt.outputs s0).1 = .ok otypes) (hosh : (getShapes rt.outputs s0).1 = .ok oshapes)
    (hb : ∀ sh ∈ oshapes, sh.head? = some 1)
    (hbad : types ≠ [Dtype.ofCode x.dtype] ∨ shapes ≠ [1 :: rest.map Int.ofNat] ∨ ∃ i, i < n ∧ f [(entry x i).flatten] = none) :
    (pyPredict rt (.array x) (afterPy rt calls s0)).1 = .error .runtimeError := by
  refine (C79_predict hc h0 hw ht hsh hot hosh hb (x := .array x) hx (gen_array hshape) (by simp; omega)).2 ?_
  intro hall
  have key : ∀ i, i < n → SampleFits f types shapes [(⟨x.dtype, 1 :: rest, entry x i⟩ : NpArray (List Byte))] := by
    intro i hi
    exact hall _ (List.mem_map.2 ⟨i, List.mem_range.2 hi, rfl⟩)
  rcases hbad with h | h | ⟨i, hi, h⟩
  · exact h (key 0 hn).1.symm
  · exact h (key 0 hn).2.1.symm
  · exact (key i hi).2.2 h

/-- `C79_array` on the model of Props/Wrapper.lean (int8, shape `[1, 2]`, swaps the two elements), two samples, after a
prediction that raised and one that did not. -/
example : ∃ a, (pyPredict exRuntime (.array ⟨2, [2, 2], [[4], [6], [1], [9]]⟩)
      (afterPy exRuntime [.inputTypes, .predict (.array ⟨2, [1, 2], [[0], [5]]⟩), .predict (.array ⟨2, [1, 2], [[3], [5]]⟩)]
        exStart)).1 = .ok (.one a) ∧ a.shape = [2, 2] ∧ (entry a 0).flatten = [6, 4] ∧ (entry a 1).flatten = [9, 1] := by
  obtain ⟨res, h1, h2, h3, h4⟩ := C79_array exComputes exFresh
    (calls := [.inputTypes, .predict (.array ⟨2, [1, 2], [[0], [5]]⟩), .predict (.array ⟨2, [1, 2], [[3], [5]]⟩)])
    (by
      intro c hc
      simp only [List.mem_cons, List.not_mem_nil, or_false] at hc
      rcases hc with rfl | rfl | rfl
      · trivial
      all_goals exact ⟨rfl, by decide⟩)
    (x := ⟨2, [2, 2], [[4], [6], [1], [9]]⟩) ⟨rfl, by decide⟩ (n := 2) (rest := [2]) rfl (by omega)
    (otypes := [.int8]) (oshapes := [[1, 2]]) rfl rfl rfl rfl (by decide) (by decide)
  obtain ⟨a, a1, -, -, a4, a5⟩ := h4 0 .int8 [1, 2] rfl rfl
  cases res with
  | many l => exact absurd rfl h2
  | one b =>
    cases a1
    obtain ⟨o0, p0, q0⟩ := a5 0 (by omega)
    obtain ⟨o1, p1, q1⟩ := a5 1 (by omega)
    have e0 : exF [[4, 6]] = some o0 := p0
    have e1 : exF [[1, 9]] = some o1 := p1
    have e0' : o0 = [[6, 4]] := (Option.some.inj (e0.symm.trans (by decide)))
    have e1' : o1 = [[9, 1]] := (Option.some.inj (e1.symm.trans (by decide)))
    subst e0' e1'
    refine ⟨_, h1, ?_, (Option.some.inj q0).symm, (Option.some.inj q1).symm⟩
    have := congrArg (List.map Int.toNat) a4
    rw [map_toNat_ofNat] at this
    exact this

end Verif.Wrap
