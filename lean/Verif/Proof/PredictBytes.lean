import Verif.Spec.PredictBytesRel
import Verif.Props.Wrapper
import Verif.Props.Predict

/-!
The byte-level `predict` of the Python class refines the element-level one of Model/Predict.lean, for the interpreter that computes
`f` without any state.
-/

namespace Verif.Wrap

variable {K : Type}

theorem ofCode_code (d : Dtype) : Dtype.ofCode d.code = d := by
  cases d with
  | other k => show Dtype.ofCode (8 + k) = _; rw [Nat.add_comm]; rfl
  | _ => rfl

theorem code_ofCode (n : Nat) : (Dtype.ofCode n).code = n := by
  match n with
  | 0 | 1 | 2 | 3 | 4 | 5 | 6 | 7 => rfl
  | k + 8 => show 8 + k = k + 8; omega

theorem ofCode_eq {n : Nat} {d : Dtype} : Dtype.ofCode n = d ↔ n = d.code :=
  ⟨fun h => by rw [← h, code_ofCode], fun h => by rw [h, ofCode_code]⟩

/-- The numpy type of a tensor. -/
def pyType (t : Tensor) : Dtype :=
  match pyTypeFromTf t.type with
  | .ok d => d
  | .error _ => .other 0

theorem pyType_eq {t : Tensor} {d : Dtype} (h : Matches t.type d) : pyType t = d := by
  unfold pyType; rw [pyTypeFromTf_ok.2 h]

/-- A tensor in the terms of Model/Predict.lean. -/
def specOf (t : Tensor) : TensorSpec := ⟨(pyType t).code, t.dims.map Int.toNat⟩

/-- The interpreter in the terms of Model/Predict.lean: it has no state and computes `f`. -/
def absItp (rt : Runtime K) (s0 : St K) (f : List (List Byte) → Option (List (List Byte))) : Interp Unit (List Byte) where
  inputs := rt.inputs.map fun i => specOf (s0.tensor i)
  outputs := rt.outputs.map fun i => specOf (s0.tensor i)
  invoke := fun _ ins => (f (ins.map List.flatten)).map fun outs =>
    ((), List.zipWith (fun i o => chunks (pyType (s0.tensor i)).itemsize ((s0.tensor i).dims.map Int.toNat).prod o) rt.outputs outs)

theorem length_flatten_const {α : Type} {k : Nat} : ∀ {l : List (List α)}, (∀ e ∈ l, e.length = k) → l.flatten.length = k * l.length
  | [], _ => rfl
  | e :: l, h => by
    rw [List.flatten_cons, List.length_append, h e (by simp), length_flatten_const fun x hx => h x (List.mem_cons_of_mem _ hx),
      List.length_cons, Nat.mul_add]
    omega

theorem map_toNat_ofNat (l : List Nat) : (l.map Int.ofNat).map Int.toNat = l := by
  rw [List.map_map]
  conv_rhs => rw [← List.map_id l]
  exact List.map_congr_left fun x _ => rfl

theorem buffer_wf {a : NpArray (List Byte)} (h : ArrOk a) : (buffer a).WF := by
  refine ⟨?_, ?_⟩
  · intro x hx
    obtain ⟨n, -, rfl⟩ := List.mem_map.1 hx
    exact Int.natCast_nonneg n
  · unfold buffer
    simp only []
    rw [length_flatten_const h.2, map_toNat_ofNat, h.1]

theorem fits_buffer {t : Tensor} (ht : t.Consistent) (a : NpArray (List Byte)) :
    Fits t (buffer a) ↔ (specOf t).dtype = a.dtype ∧ (specOf t).dims = a.shape := by
  obtain ⟨⟨d, hd⟩, hnn, -, -⟩ := ht
  unfold Fits specOf buffer
  simp only [pyType_eq hd]
  have h1 : Matches t.type (Dtype.ofCode a.dtype) ↔ d.code = a.dtype := by
    rw [← pyTypeFromTf_ok, pyTypeFromTf_ok.2 hd, Except.ok.injEq, eq_comm, ofCode_eq, eq_comm]
  have h2 : a.shape.map Int.ofNat = t.dims ↔ t.dims.map Int.toNat = a.shape := by
    constructor
    · rintro h
      rw [← h, map_toNat_ofNat]
    · rintro h
      rw [← h, List.map_map]
      conv_rhs => rw [← List.map_id t.dims]
      exact List.map_congr_left fun x hx => Int.toNat_of_nonneg (hnn x hx)
  rw [h1, h2]

theorem forall₂_eq_iff {α β γ : Type} {g : α → γ} {h : β → γ} {l : List α} {r : List β} :
    List.Forall₂ (fun x y => g x = h y) l r ↔ l.map g = r.map h := by
  rw [← List.forall₂_eq_eq_eq, List.forall₂_map_left_iff, List.forall₂_map_right_iff]

theorem forall₂_congr' {α β : Type} {R S : α → β → Prop} : ∀ {l : List α} {r : List β}, (∀ x ∈ l, ∀ y, R x y ↔ S x y) →
    (List.Forall₂ R l r ↔ List.Forall₂ S l r)
  | [], [], _ => by simp
  | [], _ :: _, _ => by simp
  | _ :: _, [], _ => by simp
  | x :: l, y :: r, h => by
    rw [List.forall₂_cons, List.forall₂_cons, h x (by simp) y, forall₂_congr' fun z hz => h z (List.mem_cons_of_mem _ hz)]

section
variable {rt : Runtime K} {I : K → Prop} {f : List (List Byte) → Option (List (List Byte))} {s0 : St K}

theorem fits_ins (h0 : Fresh rt I s0) (ins : List (NpArray (List Byte))) :
    List.Forall₂ (fun i a => Fits (s0.tensor i) a) rt.inputs (ins.map buffer) ↔
      ins.map (fun a => (a.dtype, a.shape)) = (absItp rt s0 f).inputs.map (fun t => (t.dtype, t.dims)) := by
  rw [List.forall₂_map_right_iff, forall₂_congr' (S := fun i (a : NpArray (List Byte)) =>
    ((specOf (s0.tensor i)).dtype, (specOf (s0.tensor i)).dims) = (a.dtype, a.shape))
    (fun i hi a => by rw [fits_buffer (h0.tensors i (List.mem_append_left _ hi)), Prod.mk.injEq]), forall₂_eq_iff, eq_comm]
  show _ ↔ _ = ((rt.inputs.map fun i => specOf (s0.tensor i)).map _)
  rw [List.map_map]
  rfl

theorem wrapperPredict_fits {S α : Type} {itp : Interp S α} {ins : List (NpArray α)} {s : S}
    (hi : ins.map (fun a => (a.dtype, a.shape)) = itp.inputs.map (fun t => (t.dtype, t.dims))) :
    wrapperPredict itp s ins = match itp.invoke s (ins.map (·.data)) with
      | none => .error .runtimeError
      | some (s', outs) => .ok (s', List.zipWith (fun t d => ⟨t.dtype, t.dims, d⟩) itp.outputs outs) := by
  have hlen : ins.length = itp.inputs.length := by
    have := congrArg List.length hi
    simpa using this
  have hall : (List.zipWith setTensorOk itp.inputs ins).all id = true := by
    rw [List.all_eq_true]
    intro b hb
    obtain ⟨i, hlt, he⟩ := List.getElem_of_mem hb
    rw [List.length_zipWith] at hlt
    rw [List.getElem_zipWith] at he
    have h1 := congrArg (fun l => l[i]?) hi
    simp only [List.getElem?_map, List.getElem?_eq_getElem (show i < ins.length by omega),
      List.getElem?_eq_getElem (show i < itp.inputs.length by omega), Option.map_some, Option.some.injEq, Prod.mk.injEq] at h1
    rw [← he]
    simp [setTensorOk, h1.1, h1.2]
  unfold wrapperPredict
  rw [if_neg (by omega), if_neg (by rw [hall]; simp)]
  cases itp.invoke s (ins.map (·.data)) <;> rfl

theorem res_arrays : ∀ {ids : List Nat} {res : List ByteArr},
    List.Forall₂ (fun i (a : ByteArr) => typeOf (s0.tensor i) = .ok a.dtype ∧ a.shape = (s0.tensor i).dims) ids res →
    res.map ofBuffer = List.zipWith (fun (t : TensorSpec) d => (⟨t.dtype, t.dims, d⟩ : NpArray (List Byte)))
      (ids.map fun i => specOf (s0.tensor i))
      (List.zipWith (fun i o => chunks (pyType (s0.tensor i)).itemsize ((s0.tensor i).dims.map Int.toNat).prod o) ids
        (res.map (·.data))) := by
  intro ids res h
  induction h with
  | nil => rfl
  | @cons i a is as hx hxs ih =>
    simp only [List.map_cons, List.zipWith_cons_cons, ih]
    congr 1
    unfold ofBuffer specOf
    have := pyType_eq (typeOf_ok.1 hx.1)
    rw [this, hx.2]

/-- One call of the wrapper. -/
theorem predict_abs (hc : Computes rt I s0 f) (h0 : Fresh rt I s0) {s : St K} (h : Inv rt I s0 s)
    {ins : List (NpArray (List Byte))} (hw : ∀ a ∈ ins, ArrOk a) :
    Inv rt I s0 (predict rt (ins.map buffer) s).2 ∧
    ((∃ o, (predict rt (ins.map buffer) s).1 = .ok o ∧ wrapperPredict (absItp rt s0 f) () ins = .ok ((), o.map ofBuffer)) ∨
      (predict rt (ins.map buffer) s).1 = .error .runtimeError ∧ wrapperPredict (absItp rt s0 f) () ins = .error .runtimeError) := by
  obtain ⟨h1, h2, h3⟩ := predict_spec hc h0 h (ins := ins.map buffer) (by
    intro a ha
    obtain ⟨x, hx, rfl⟩ := List.mem_map.1 ha
    exact buffer_wf (hw x hx))
  refine ⟨h1, ?_⟩
  by_cases hf : List.Forall₂ (fun i a => Fits (s0.tensor i) a) rt.inputs (ins.map buffer)
  · have hb : (ins.map buffer).map (·.data) = (ins.map (·.data)).map List.flatten := by
      rw [List.map_map, List.map_map]; rfl
    obtain ⟨g1, g2⟩ := h3 hf
    rw [hb] at g1 g2
    rw [wrapperPredict_fits ((fits_ins (f := f) h0 ins).1 hf)]
    cases hv : f ((ins.map (·.data)).map List.flatten) with
    | none =>
      right
      refine ⟨g1 hv, ?_⟩
      unfold absItp
      simp only [hv, Option.map_none]
    | some outs =>
      left
      obtain ⟨res, r1, r2, r3⟩ := g2 outs hv
      refine ⟨res, r1, ?_⟩
      unfold absItp
      simp only [hv, Option.map_some]
      rw [res_arrays r2, r3]
  · right
    refine ⟨h2 hf, wrapperPredict_rejects _ _ fun hh => hf ((fits_ins (f := f) h0 ins).2 hh)⟩

/-- The loop over the samples. -/
theorem predictSamples_abs (hc : Computes rt I s0 f) (h0 : Fresh rt I s0) :
    ∀ (samples : List (List (NpArray (List Byte)))) {s : St K}, Inv rt I s0 s → (∀ ins ∈ samples, ∀ a ∈ ins, ArrOk a) →
    Inv rt I s0 (predictSamples rt samples s).2 ∧
    predictAll (absItp rt s0 f) () samples = (predictSamples rt samples s).1.map fun os => ((), os)
  | [], s, h, _ => ⟨h, rfl⟩
  | ins :: rest, s, h, hw => by
    obtain ⟨h1, h2⟩ := predict_abs hc h0 h (hw ins (by simp))
    unfold predictSamples predictAll
    generalize hr : predict rt (ins.map buffer) s = r at h1 h2
    obtain ⟨r1, s1⟩ := r
    simp only at h1 h2
    rcases h2 with ⟨o, rfl, e⟩ | ⟨rfl, e⟩
    · obtain ⟨k1, k2⟩ := predictSamples_abs hc h0 rest h1 fun x hx => hw x (List.mem_cons_of_mem _ hx)
      rw [e]
      simp only [bind, Except.bind]
      rw [k2]
      generalize hq : predictSamples rt rest s1 = q at k1
      obtain ⟨q1, s2⟩ := q
      cases q1 with
      | error e => exact ⟨k1, rfl⟩
      | ok os => exact ⟨k1, rfl⟩
    · rw [e]
      exact ⟨h1, rfl⟩

theorem entry_ok {x : NpArray (List Byte)} (hx : ArrOk x) {n : Nat} {rest : List Nat} (hshape : x.shape = n :: rest) {i : Nat}
    (hi : i < n) : ArrOk ⟨x.dtype, 1 :: rest, entry x i⟩ := by
  refine ⟨gen_array_wf hx.1 hshape hi, ?_⟩
  intro e he
  exact hx.2 e (List.mem_of_mem_drop (List.mem_of_mem_take he))

theorem npIter_ok {x : NpArray (List Byte)} (hx : ArrOk x) {rows : List (NpArray (List Byte))} (h : npIter x = .ok rows) :
    ∀ r ∈ rows, ArrOk (expandDims r) := by
  intro r hr
  unfold npIter at h
  cases hs : x.shape with
  | nil => rw [hs] at h; cases h
  | cons n rest =>
    rw [hs] at h
    simp only [Except.ok.injEq] at h
    subst h
    obtain ⟨i, hi, rfl⟩ := List.mem_map.1 hr
    rw [List.mem_range] at hi
    have := entry_ok hx hs hi
    unfold entry at this
    rw [hs] at this
    exact this

theorem expandDims_ok {x : NpArray (List Byte)} (hx : ArrOk x) : ArrOk (expandDims x) := by
  refine ⟨?_, hx.2⟩
  unfold expandDims
  simp only [List.prod_cons, Nat.one_mul]
  exact hx.1

theorem mapM_npIter_ok : ∀ {l : List (NpArray (List Byte))} {its : List (List (NpArray (List Byte)))}, l.mapM npIter = .ok its →
    ∀ it ∈ its, ∃ a ∈ l, npIter a = .ok it
  | [], its, h, it, hit => by
    rw [List.mapM_nil] at h
    cases h
    cases hit
  | a :: l, its, h, it, hit => by
    rw [List.mapM_cons] at h
    cases ha : npIter a with
    | error e => rw [ha] at h; cases h
    | ok r =>
      rw [ha] at h
      cases hl : l.mapM npIter with
      | error e => simp only [bind, Except.bind] at h; rw [hl] at h; cases h
      | ok rs =>
        simp only [bind, Except.bind] at h
        rw [hl] at h
        cases h
        rcases List.mem_cons.1 hit with rfl | hit
        · exact ⟨a, by simp, ha⟩
        · obtain ⟨b, hb, hb'⟩ := mapM_npIter_ok hl it hit
          exact ⟨b, List.mem_cons_of_mem _ hb, hb'⟩

/-- What reaches the wrapper are arrays. -/
theorem dataGenerator_ok {x : PyInput (List Byte)} (hx : InputOk x) {samples : List (List (NpArray (List Byte)))}
    (h : dataGenerator x = .ok samples) : ∀ ins ∈ samples, ∀ a ∈ ins, ArrOk a := by
  intro ins hins a ha
  cases x with
  | array y =>
    unfold dataGenerator at h
    cases hr : npIter y with
    | error e => simp only [hr, bind, Except.bind] at h; cases h
    | ok rows =>
      simp only [hr, bind, Except.bind, Except.ok.injEq] at h
      subst h
      obtain ⟨r, hr', rfl⟩ := List.mem_map.1 hins
      rw [List.mem_singleton.1 ha]
      exact npIter_ok hx hr r hr'
  | list l =>
    unfold dataGenerator at h
    cases hr : l.mapM npIter with
    | error e => simp only [hr, bind, Except.bind] at h; cases h
    | ok its =>
      simp only [hr, bind, Except.bind, Except.ok.injEq] at h
      subst h
      obtain ⟨z, hz, rfl⟩ := List.mem_map.1 hins
      obtain ⟨r, hr', rfl⟩ := List.mem_map.1 ha
      unfold pyZip at hz
      cases hm : minLen its with
      | none => rw [hm] at hz; cases hz
      | some m =>
        rw [hm] at hz
        obtain ⟨i, -, rfl⟩ := List.mem_map.1 hz
        obtain ⟨it, hit, hget⟩ := List.mem_filterMap.1 hr'
        obtain ⟨b, hb, hb'⟩ := mapM_npIter_ok hr it hit
        exact npIter_ok (hx b hb) hb' r (List.mem_of_getElem? hget)
  | iter items =>
    rw [gen_iter] at h
    cases h
    obtain ⟨it, hit, rfl⟩ := List.mem_map.1 hins
    obtain ⟨r, hr', rfl⟩ := List.mem_map.1 ha
    apply expandDims_ok
    have := hx it hit
    cases it with
    | inl b => simp only [itemArrays, List.mem_singleton] at hr'; subst hr'; exact this
    | inr l => exact this r hr'
  | other => cases h

theorem getShapes_length {s : St K} (h : Inv rt I s0 s) {ids : List Nat} :
    ∃ shapes, (getShapes ids s).1 = .ok shapes ∧ shapes.length = ids.length ∧ Inv rt I s0 (getShapes ids s).2 := by
  obtain ⟨c, e, -⟩ := overTensors_spec shapeOf ids h.cache
  refine ⟨ids.map fun i => (s.tensor i).dims, ?_, by simp, overTensors_inv h _ _⟩
  show (overTensors shapeOf ids s).1 = _
  rw [e]
  exact mapM_ok fun i _ => rfl

/-- The whole `predict`. -/
theorem pyPredict_abs (hc : Computes rt I s0 f) (h0 : Fresh rt I s0) {s : St K} (h : Inv rt I s0 s) {x : PyInput (List Byte)}
    (hx : InputOk x) : Inv rt I s0 (pyPredict rt x s).2 ∧
      Verif.predict (absItp rt s0 f) () x = (pyPredict rt x s).1.map fun r => ((), r) := by
  unfold pyPredict Verif.predict
  cases hg : dataGenerator x with
  | error e => exact ⟨h, rfl⟩
  | ok samples =>
    obtain ⟨h1, h2⟩ := predictSamples_abs hc h0 samples h (dataGenerator_ok hx hg)
    simp only [bind, Except.bind]
    rw [h2]
    generalize predictSamples rt samples s = q at h1
    obtain ⟨q1, s1⟩ := q
    cases q1 with
    | error e => exact ⟨h1, rfl⟩
    | ok preds =>
      simp only [Except.map]
      cases hz : (pyZip preds).mapM npConcat with
      | error e => exact ⟨h1, rfl⟩
      | ok outputs =>
        obtain ⟨shapes, g1, g2, g3⟩ := getShapes_length h1 (ids := rt.outputs)
        simp only []
        generalize getShapes rt.outputs s1 = w at g1 g3
        obtain ⟨w1, s2⟩ := w
        simp only at g1 g3
        subst g1
        simp only [g2]
        have hl : (absItp rt s0 f).outputs.length = rt.outputs.length := by unfold absItp; simp
        rw [hl]
        by_cases ho : rt.outputs.length = 1
        · simp only [if_pos ho]
          cases outputs[0]? with
          | none => exact ⟨g3, rfl⟩
          | some a => exact ⟨g3, rfl⟩
        · simp only [if_neg ho]
          exact ⟨g3, trivial⟩

theorem afterPy_inv (hc : Computes rt I s0 f) (h0 : Fresh rt I s0) : ∀ (calls : List PyCall), (∀ c ∈ calls, c.WF) → ∀ {s : St K},
    Inv rt I s0 s → Inv rt I s0 (afterPy rt calls s) := by
  intro calls
  induction calls with
  | nil => intro _ s h; exact h
  | cons c cs ih =>
    intro hw s h
    show Inv rt I s0 (afterPy rt cs (c.run rt s))
    apply ih (fun x hx => hw x (List.mem_cons_of_mem _ hx))
    have hwc := hw c (List.mem_cons_self ..)
    cases c with
    | predict x => exact (pyPredict_abs hc h0 h hwc).1
    | _ => exact overTensors_inv h _ _

/-- The sizes of what the model computes. -/
theorem outs_length (hc : Computes rt I s0 f) (h0 : Fresh rt I s0) {ins : List ByteArr} (hw : ∀ a ∈ ins, a.WF)
    (hfit : List.Forall₂ (fun i a => Fits (s0.tensor i) a) rt.inputs ins) {outs : List (List Byte)}
    (hf : f (ins.map (·.data)) = some outs) :
    outs.map List.length = rt.outputs.map fun i =>
      (pyType (s0.tensor i)).itemsize * ((s0.tensor i).dims.map Int.toNat).prod := by
  obtain ⟨g1, -, g3, -⟩ := setInputs_spec h0 rt.inputs ins h0.self hfit.length_eq hc.nodup
    (fun i hi => List.mem_append_left _ hi) hw
  obtain ⟨-, e2⟩ := g3 hfit
  generalize (setInputs rt.inputs ins s0).2 = s1 at g1 e2
  obtain ⟨ok, heap', k', -, -, hinfo, hres⟩ := hc.step s1.heap s1.rest g1.inv
    (fun i hi => by
      have e : s1.heap (s0.addr i) = s1.tensor i := by rw [← g1.addr]; rfl
      rw [e]; exact ⟨g1.info i hi, g1.len i hi⟩)
  have e2' : (rt.inputs.map fun i => (s1.heap (s0.addr i)).data) = ins.map (·.data) := by rw [← g1.addr]; exact e2
  rw [e2', hf] at hres
  rw [← hres.2, List.map_map]
  refine List.map_congr_left fun i hi => ?_
  have hm : i ∈ rt.inputs ++ rt.outputs := List.mem_append_right _ hi
  obtain ⟨d, hd, -, hb, hl⟩ := (h0.tensors i hm).numpy
  show (heap' (s0.addr i)).data.length = _
  rw [(hinfo i hm).2, hl, hb, pyType_eq hd]

end

theorem chunks_flatten {k : Nat} : ∀ {n : Nat} {l : List Byte}, l.length = k * n → (chunks k n l).flatten = l
  | 0, l, h => by
    have : l = [] := List.length_eq_zero_iff.1 (by omega)
    subst this; rfl
  | n + 1, l, h => by
    have ih := chunks_flatten (k := k) (n := n) (l := l.drop k) (by rw [List.length_drop, h, Nat.mul_add]; omega)
    unfold chunks at ih ⊢
    rw [List.range_succ_eq_map, List.map_cons, List.flatten_cons, List.map_map]
    have : ((List.range n).map ((fun j => (l.drop (j * k)).take k) ∘ Nat.succ)) = (List.range n).map fun j => ((l.drop k).drop (j * k)).take k := by
      refine List.map_congr_left fun j _ => ?_
      simp only [Function.comp, List.drop_drop, Nat.succ_eq_add_one, Nat.add_mul, Nat.one_mul]
      rw [Nat.add_comm]
    rw [this, ih, Nat.zero_mul, List.drop_zero, List.take_append_drop]

end Verif.Wrap
