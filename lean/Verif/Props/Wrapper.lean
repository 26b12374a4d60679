import Verif.Spec.WrapperRel
import Mathlib.Data.List.Forall2

/-!
C67: the Python interpreter object: what it reports about inputs and outputs, and what `predict` accepts and returns, after
any history of calls.
-/

namespace Verif.Wrap

variable {K β : Type}

/-! ### One tensor -/

theorem dimsAgree_iff (t a : List Int) (h : a.length = t.length) : ∀ (n j : Nat), a.length - j = n →
    (dimsAgree t a j = true ↔ a.drop j = t.drop j) := by
  intro n
  induction n with
  | zero =>
    intro j hj
    unfold dimsAgree
    rw [dif_neg (by omega), List.drop_eq_nil_of_le (by omega), List.drop_eq_nil_of_le (by omega)]
    simp
  | succ n ih =>
    intro j hj
    unfold dimsAgree
    rw [dif_pos (by omega), List.drop_eq_getElem_cons (by omega : j < a.length),
      List.drop_eq_getElem_cons (by omega : j < t.length), List.getElem?_eq_getElem (by omega : j < t.length)]
    by_cases he : t[j]'(by omega) = a[j]'(by omega)
    · rw [if_neg (by simp [he]), ih (j + 1) (by omega), he, List.cons.injEq]
      exact ⟨fun h => ⟨rfl, h⟩, fun h => h.2⟩
    · rw [if_pos (by simp [he])]
      simp only [Bool.false_eq_true, List.cons.injEq, false_iff, not_and]
      intro h'
      exact absurd h'.symm he

theorem pyTypeFromTf_ok {ty : TfType} {d : Dtype} : pyTypeFromTf ty = .ok d ↔ Matches ty d := by
  constructor
  · intro h
    cases ty <;> cases h <;> constructor
  · intro h
    cases h <;> rfl

theorem pyTypeFromTf_error {ty : TfType} {e : PyErr} (h : pyTypeFromTf ty = .error e) : e = .runtimeError := by
  cases ty <;> cases h <;> rfl

theorem Matches.width {ty : TfType} {d : Dtype} (h : Matches ty d) : d.itemsize = ty.width := by
  cases h <;> rfl

/-- The size in terms of the numpy type. -/
theorem Tensor.Consistent.numpy {t : Tensor} (h : t.Consistent) : ∃ d, Matches t.type d ∧ (∀ x ∈ t.dims, 0 ≤ x) ∧
    t.bytes = d.itemsize * (t.dims.map Int.toNat).prod ∧ t.data.length = t.bytes := by
  obtain ⟨⟨d, hd⟩, h1, h2, h3⟩ := h
  exact ⟨d, hd, h1, by rw [hd.width, h2], h3⟩

theorem tfTypeFromPy_iff {ty : TfType} {d d' : Dtype} (h : Matches ty d) : tfTypeFromPy d' = ty ↔ d' = d := by
  cases h <;> cases d' <;> simp [tfTypeFromPy]

/-- `SetTensorFromNumpy` accepts exactly the arrays of the reported type and shape, and then the tensor holds the bytes of the
array. -/
theorem setTensor_spec {t : Tensor} {a : ByteArr} {d : Dtype} (ht : t.Consistent) (hd : Matches t.type d) (ha : a.WF) :
    setTensor t a = if a.dtype = d ∧ a.shape = t.dims then .ok { t with data := a.data } else .error .runtimeError := by
  obtain ⟨d', hd', hnn, hb, hl⟩ := ht.numpy
  have hdd : d' = d := by
    have h1 := (tfTypeFromPy_iff (d' := d') hd')
    have h2 := (tfTypeFromPy_iff (d' := d') hd)
    exact h2.1 (h1.2 rfl)
  subst hdd
  unfold setTensor
  by_cases h1 : a.dtype = d'
  · rw [if_neg (by rw [Decidable.not_not]; exact (tfTypeFromPy_iff hd).2 h1)]
    by_cases h2 : a.shape.length = t.dims.length
    · rw [if_neg (by omega)]
      by_cases h3 : a.shape = t.dims
      · rw [if_neg (by
          rw [Decidable.not_not, dimsAgree_iff _ _ h2 _ 0 rfl, List.drop_zero, List.drop_zero]; exact h3)]
        have hs : a.data.length = t.bytes := by rw [ha.2, hb, h1, h3]
        simp only [hs, ne_eq, not_true_eq_false, if_false, if_pos (show a.dtype = d' ∧ a.shape = t.dims from ⟨h1, h3⟩)]
        rw [List.drop_eq_nil_of_le (by omega), List.append_nil]
      · rw [if_pos (by
          rw [dimsAgree_iff _ _ h2 _ 0 rfl, List.drop_zero, List.drop_zero]; exact h3), if_neg (fun h => h3 h.2)]
    · rw [if_pos (by omega), if_neg (fun h => h2 (by rw [h.2]))]
  · rw [if_pos (by intro h; exact h1 ((tfTypeFromPy_iff hd).1 h)), if_neg (fun h => h1 h.1)]

/-! ### The cache -/

/-- What is cached is where the tensors are. -/
def CacheOk (s : St K) : Prop := ∀ i p, s.cache.lookup i = some p → p = s.addr i

theorem getTensor_spec {s : St K} (h : CacheOk s) (i : Nat) :
    ∃ c, getTensor s i = (s.addr i, { s with cache := c }) ∧ CacheOk { s with cache := c } := by
  unfold getTensor
  cases hl : s.cache.lookup i with
  | some p =>
    have := h i p hl
    subst this
    exact ⟨s.cache, rfl, h⟩
  | none =>
    refine ⟨(i, s.addr i) :: s.cache, rfl, ?_⟩
    intro j p hj
    rw [List.lookup_cons] at hj
    show p = s.addr j
    by_cases hij : j = i
    · subst hij
      simp only [beq_self_eq_true] at hj
      exact (Option.some.inj hj).symm
    · rw [beq_false_of_ne hij] at hj
      exact h j p hj

theorem overTensors_spec (f : Tensor → Except PyErr β) : ∀ (ids : List Nat) {s : St K}, CacheOk s →
    ∃ c, overTensors f ids s = (ids.mapM fun i => f (s.tensor i), { s with cache := c }) ∧ CacheOk { s with cache := c } := by
  intro ids
  induction ids with
  | nil => intro s h; exact ⟨s.cache, rfl, h⟩
  | cons i is ih =>
    intro s h
    obtain ⟨c, hc, hok⟩ := getTensor_spec h i
    obtain ⟨c', hc', hok'⟩ := ih hok
    unfold overTensors
    rw [hc, List.mapM_cons]
    have ht : s.tensor i = s.heap (s.addr i) := rfl
    rw [ht]
    simp only
    cases hf : f (s.heap (s.addr i)) with
    | error e => exact ⟨c, rfl, hok⟩
    | ok b =>
      refine ⟨c', ?_, hok'⟩
      simp only [hc', bind, Except.bind, pure, Except.pure]
      have hm : (is.mapM fun i => f (St.tensor { s with cache := c } i)) = is.mapM fun i => f (s.tensor i) := rfl
      rw [hm]
      cases is.mapM (fun i => f (s.tensor i)) <;> rfl

/-! ### All inputs -/

/-- What holds after every history. -/
structure Inv (rt : Runtime K) (I : K → Prop) (s0 s : St K) : Prop where
  cache : CacheOk s
  addr : s.addr = s0.addr
  inv : I s.rest
  info : ∀ i ∈ rt.inputs ++ rt.outputs, (s.tensor i).info = (s0.tensor i).info
  len : ∀ i ∈ rt.inputs ++ rt.outputs, (s.tensor i).data.length = (s0.tensor i).data.length

theorem Tensor.Consistent.congr {t t' : Tensor} (h : t.Consistent) (hi : t'.info = t.info) (hl : t'.data.length = t.data.length) :
    t'.Consistent := by
  obtain ⟨⟨d, h1⟩, h2, h3, h4⟩ := h
  simp only [Tensor.info, Prod.mk.injEq] at hi
  obtain ⟨i1, i2, i3, -⟩ := hi
  exact ⟨⟨d, i1 ▸ h1⟩, i2 ▸ h2, by rw [i3, i1, i2, h3], by rw [hl, h4, i3]⟩

theorem Fresh.self {rt : Runtime K} {I : K → Prop} {s : St K} (h : Fresh rt I s) : Inv rt I s s :=
  ⟨(by intro i p hp; rw [h.cache] at hp; cases hp), rfl, h.inv, fun _ _ => rfl, fun _ _ => rfl⟩

theorem Inv.consistent {rt : Runtime K} {I : K → Prop} {s0 s : St K} (h0 : Fresh rt I s0) (h : Inv rt I s0 s) :
    ∀ i ∈ rt.inputs ++ rt.outputs, (s.tensor i).Consistent :=
  fun i hi => (h0.tensors i hi).congr (h.info i hi) (h.len i hi)

theorem Inv.cache' {rt : Runtime K} {I : K → Prop} {s0 s : St K} (h : Inv rt I s0 s) {c : List (Nat × Nat)}
    (hc : CacheOk { s with cache := c }) : Inv rt I s0 { s with cache := c } :=
  ⟨hc, h.addr, h.inv, h.info, h.len⟩

/-- The array fits the tensor. -/
def Fits (t : Tensor) (a : ByteArr) : Prop := Matches t.type a.dtype ∧ a.shape = t.dims

theorem setTensor_fits {t : Tensor} {a : ByteArr} (ht : t.Consistent) (ha : a.WF) :
    (Fits t a ∧ setTensor t a = .ok { t with data := a.data } ∧ a.data.length = t.data.length) ∨
    (¬ Fits t a ∧ setTensor t a = .error .runtimeError) := by
  obtain ⟨d, hd, hnn, hb, hl⟩ := ht.numpy
  rw [setTensor_spec ht hd ha]
  by_cases h : a.dtype = d ∧ a.shape = t.dims
  · left
    rw [if_pos h]
    exact ⟨⟨h.1 ▸ hd, h.2⟩, rfl, by rw [ha.2, h.1, h.2, hl, hb]⟩
  · right
    rw [if_neg h]
    refine ⟨fun hf => h ⟨?_, hf.2⟩, rfl⟩
    exact (tfTypeFromPy_iff hd).1 ((tfTypeFromPy_iff hf.1).2 rfl)

theorem Fits.congr {t t' : Tensor} {a : ByteArr} (hi : t'.info = t.info) : Fits t' a ↔ Fits t a := by
  simp only [Tensor.info, Prod.mk.injEq] at hi
  unfold Fits
  rw [hi.1, hi.2.1]

theorem setInputs_spec {rt : Runtime K} {I : K → Prop} {s0 : St K} (h0 : Fresh rt I s0) :
    ∀ (ids : List Nat) (as : List ByteArr) {s : St K}, Inv rt I s0 s → ids.length = as.length → ids.Nodup →
    (∀ i ∈ ids, i ∈ rt.inputs ++ rt.outputs) → (∀ a ∈ as, a.WF) →
    Inv rt I s0 (setInputs ids as s).2 ∧
    (∀ j, j ∉ ids → (setInputs ids as s).2.tensor j = s.tensor j) ∧
    (List.Forall₂ (fun i a => Fits (s0.tensor i) a) ids as →
      (setInputs ids as s).1 = .ok () ∧ ids.map (fun i => ((setInputs ids as s).2.tensor i).data) = as.map (·.data)) ∧
    (¬ List.Forall₂ (fun i a => Fits (s0.tensor i) a) ids as → (setInputs ids as s).1 = .error .runtimeError) := by
  intro ids
  induction ids with
  | nil =>
    intro as s h hl hn hs ha
    cases as with
    | cons => cases hl
    | nil =>
      refine ⟨h, fun _ _ => rfl, fun _ => ⟨rfl, rfl⟩, fun hf => absurd List.Forall₂.nil hf⟩
  | cons i is ih =>
    intro as s h hl hn hs ha
    cases as with
    | nil => cases hl
    | cons a as =>
      have hi := hs i (List.mem_cons_self ..)
      obtain ⟨c, hc, hok⟩ := getTensor_spec h.cache i
      have hinv := h.cache' hok
      have hcons := hinv.consistent h0 i hi
      have hfit : Fits (s.tensor i) a ↔ Fits (s0.tensor i) a := Fits.congr (h.info i hi)
      unfold setInputs
      rw [hc]
      rcases setTensor_fits hcons (ha a (List.mem_cons_self ..)) with ⟨hf, he, hlen⟩ | ⟨hf, he⟩
      · replace he : setTensor (s.heap (s.addr i)) a = .ok { s.tensor i with data := a.data } := he
        simp only [he]
        generalize hs1 : ({ s with cache := c, heap := fun q => if q = s.addr i then { s.tensor i with data := a.data } else s.heap q } : St K) = s1
        have ti : s1.tensor i = { s.tensor i with data := a.data } := by
          subst hs1; exact if_pos rfl
        have tj : ∀ j, j ≠ i → s1.tensor j = s.tensor j := by
          intro j hj
          subst hs1
          exact if_neg (fun e => hj (h0.inj j i (by rw [← h.addr]; exact e)))
        have hinv1 : Inv rt I s0 s1 := by
          refine ⟨by subst hs1; exact hok, by subst hs1; exact h.addr, by subst hs1; exact h.inv, ?_, ?_⟩
          · intro j hj
            by_cases hji : j = i
            · subst hji; rw [ti]; exact h.info j hj
            · rw [tj j hji]; exact h.info j hj
          · intro j hj
            by_cases hji : j = i
            · subst hji; rw [ti]
              exact Eq.trans hlen (h.len j hj)
            · rw [tj j hji]; exact h.len j hj
        obtain ⟨hni, hn'⟩ := List.nodup_cons.1 hn
        obtain ⟨g1, g2, g3, g4⟩ := ih as hinv1 (Nat.succ.inj hl) hn' (fun j hj => hs j (List.mem_cons_of_mem _ hj))
          (fun x hx => ha x (List.mem_cons_of_mem _ hx))
        refine ⟨g1, ?_, ?_, ?_⟩
        · intro j hj
          rw [List.mem_cons, not_or] at hj
          rw [g2 j hj.2, tj j hj.1]
        · intro hall
          cases hall with
          | cons hx hxs =>
            obtain ⟨e1, e2⟩ := g3 hxs
            refine ⟨e1, ?_⟩
            rw [List.map_cons, List.map_cons, e2, g2 i hni, ti]
        · intro hall
          apply g4
          intro hxs
          exact hall (.cons (hfit.1 hf) hxs)
      · replace he : setTensor (s.heap (s.addr i)) a = .error .runtimeError := he
        simp only [he]
        refine ⟨hinv, fun _ _ => rfl, ?_, fun _ => trivial⟩
        intro hall
        cases hall with
        | cons hx hxs => exact absurd (hfit.2 hx) hf

theorem typeOf_ok {t : Tensor} {d : Dtype} : typeOf t = .ok d ↔ Matches t.type d := pyTypeFromTf_ok

theorem mapM_except {α γ : Type} {g : α → Except PyErr γ} : ∀ {l : List α} {r : List γ},
    l.mapM g = .ok r ↔ List.Forall₂ (fun x y => g x = .ok y) l r := by
  intro l
  induction l with
  | nil =>
    intro r
    rw [List.mapM_nil]
    constructor
    · intro h; cases h; exact .nil
    · intro h; cases h; rfl
  | cons x l ih =>
    intro r
    rw [List.mapM_cons]
    cases hx : g x with
    | error e =>
      constructor
      · intro h; cases h
      · intro h; cases h with | cons h1 h2 => rw [hx] at h1; cases h1
    | ok y =>
      cases hl : l.mapM g with
      | error e =>
        constructor
        · intro h; cases h
        · intro h; cases h with | cons h1 h2 => rw [ih.2 h2] at hl; cases hl
      | ok ys =>
        constructor
        · intro h
          replace h : Except.ok (y :: ys) = (Except.ok r : Except PyErr (List γ)) := h
          cases h
          exact .cons hx (ih.1 hl)
        · intro h
          cases h with
          | cons h1 h2 =>
            rw [hx] at h1
            rw [ih.2 h2] at hl
            cases h1
            cases hl
            rfl

/-- The type, shape and so on of the tensors are the same after every history. -/
theorem overTensors_same {rt : Runtime K} {I : K → Prop} {s0 s : St K} (h : Inv rt I s0 s)
    {f : Tensor → Except PyErr β} (hf : ∀ t t', t.info = t'.info → f t = f t') {ids : List Nat}
    (hs : ∀ i ∈ ids, i ∈ rt.inputs ++ rt.outputs) :
    (ids.mapM fun i => f (s.tensor i)) = ids.mapM fun i => f (s0.tensor i) := by
  induction ids with
  | nil => rfl
  | cons i is ih =>
    rw [List.mapM_cons, List.mapM_cons, hf _ _ (h.info i (hs i (List.mem_cons_self ..))),
      ih (fun j hj => hs j (List.mem_cons_of_mem _ hj))]

theorem info_type {t t' : Tensor} (h : t.info = t'.info) : t.type = t'.type := congrArg Prod.fst h
theorem info_dims {t t' : Tensor} (h : t.info = t'.info) : t.dims = t'.dims := congrArg (·.2.1) h
theorem info_scale {t t' : Tensor} (h : t.info = t'.info) : t.legacyScale = t'.legacyScale := congrArg (·.2.2.2.1) h
theorem info_zero {t t' : Tensor} (h : t.info = t'.info) : t.legacyZeroPoint = t'.legacyZeroPoint := congrArg (·.2.2.2.2.1) h
theorem info_quant {t t' : Tensor} (h : t.info = t'.info) : t.quantization = t'.quantization := congrArg (·.2.2.2.2.2) h

theorem typeOf_info (t t' : Tensor) (h : t.info = t'.info) : typeOf t = typeOf t' := by
  unfold typeOf; rw [info_type h]
theorem shapeOf_info (t t' : Tensor) (h : t.info = t'.info) : shapeOf t = shapeOf t' := by
  unfold shapeOf; rw [info_dims h]
theorem zeroPointOf_info (t t' : Tensor) (h : t.info = t'.info) : zeroPointOf t = zeroPointOf t' := by
  unfold zeroPointOf; rw [info_quant h, info_zero h]
theorem scaleOf_info (t t' : Tensor) (h : t.info = t'.info) : scaleOf t = scaleOf t' := by
  unfold scaleOf; rw [info_quant h, info_scale h]

/-! ### Histories -/

theorem overTensors_inv {rt : Runtime K} {I : K → Prop} {s0 s : St K} (h : Inv rt I s0 s) (f : Tensor → Except PyErr β)
    (ids : List Nat) : Inv rt I s0 (overTensors f ids s).2 := by
  obtain ⟨c, hc, hok⟩ := overTensors_spec f ids h.cache
  rw [hc]
  exact h.cache' hok

theorem arrayOf_spec {t : Tensor} (h : t.Consistent) {d : Dtype} (hd : typeOf t = .ok d) : arrayOf t = .ok ⟨d, t.dims, t.data⟩ := by
  obtain ⟨d', hd', hnn, hb, hl⟩ := h.numpy
  have h1 := pyTypeFromTf_ok.2 hd'
  unfold typeOf at hd
  have : d = d' := by rw [hd] at h1; exact Except.ok.inj h1
  subst this
  unfold arrayOf
  rw [hd]
  simp only
  rw [List.take_of_length_le (by omega)]

/-- The result and the state of `predict`. -/
theorem predict_spec {rt : Runtime K} {I : K → Prop} {f : List (List Byte) → Option (List (List Byte))} {s0 : St K}
    (hc : Computes rt I s0 f) (h0 : Fresh rt I s0) {s : St K} (h : Inv rt I s0 s) {ins : List ByteArr} (hw : ∀ a ∈ ins, a.WF) :
    Inv rt I s0 (predict rt ins s).2 ∧
    (¬ List.Forall₂ (fun i a => Fits (s0.tensor i) a) rt.inputs ins → (predict rt ins s).1 = .error .runtimeError) ∧
    (List.Forall₂ (fun i a => Fits (s0.tensor i) a) rt.inputs ins →
      (f (ins.map (·.data)) = none → (predict rt ins s).1 = .error .runtimeError) ∧
      (∀ outs, f (ins.map (·.data)) = some outs → ∃ res, (predict rt ins s).1 = .ok res ∧
        List.Forall₂ (fun i (a : ByteArr) => typeOf (s0.tensor i) = .ok a.dtype ∧ a.shape = (s0.tensor i).dims) rt.outputs res ∧
        res.map (·.data) = outs)) := by
  unfold predict
  by_cases hlen : ins.length = rt.inputs.length
  · rw [if_neg (by omega)]
    obtain ⟨g1, g2, g3, g4⟩ := setInputs_spec h0 rt.inputs ins h hlen.symm hc.nodup
      (fun i hi => List.mem_append_left _ hi) hw
    by_cases hfit : List.Forall₂ (fun i a => Fits (s0.tensor i) a) rt.inputs ins
    · obtain ⟨e1, e2⟩ := g3 hfit
      generalize hs1 : setInputs rt.inputs ins s = r at *
      obtain ⟨r1, s1⟩ := r
      simp only at e1 e2 g1 g2
      subst e1
      obtain ⟨ok, heap', k', hi, hI, hinfo, hres⟩ := hc.step s1.heap s1.rest g1.inv
        (fun i hi => by
          have e : s1.heap (s0.addr i) = s1.tensor i := by rw [← g1.addr]; rfl
          rw [e]; exact ⟨g1.info i hi, g1.len i hi⟩)
      rw [← g1.addr] at hi hinfo hres
      simp only [hi]
      generalize hs2 : ({ s1 with heap := heap', addr := s1.addr, rest := k' } : St K) = s2
      have t2 : ∀ i, s2.tensor i = heap' (s1.addr i) := by intro i; subst hs2; rfl
      have hinv2 : Inv rt I s0 s2 := by
        refine ⟨by subst hs2; exact g1.cache, by subst hs2; exact g1.addr, by subst hs2; exact hI, ?_, ?_⟩
        · intro i hi; rw [t2]; exact (hinfo i hi).1
        · intro i hi; rw [t2]; exact (hinfo i hi).2
      have e2' : (rt.inputs.map fun i => (s1.heap (s1.addr i)).data) = ins.map (·.data) := e2
      rw [e2'] at hres
      refine ⟨?_, fun hn => absurd hfit hn, fun _ => ⟨?_, ?_⟩⟩
      · by_cases hok : ok = true
        · rw [if_neg (by simp [hok])]
          exact overTensors_inv hinv2 _ _
        · rw [if_pos hok]
          exact hinv2
      · intro hf
        rw [hf] at hres
        rw [if_pos (by simp [hres])]
      · intro outs hf
        rw [hf] at hres
        obtain ⟨hok, hdata⟩ := hres
        rw [if_neg (by simp [hok])]
        obtain ⟨c, hc2, -⟩ := overTensors_spec arrayOf rt.outputs hinv2.cache
        rw [hc2]
        have key : ∀ ids : List Nat, (∀ i ∈ ids, i ∈ rt.inputs ++ rt.outputs) → ∃ res : List ByteArr,
            (ids.mapM fun i => arrayOf (s2.tensor i)) = .ok res ∧
            List.Forall₂ (fun i (a : ByteArr) => typeOf (s0.tensor i) = .ok a.dtype ∧ a.shape = (s0.tensor i).dims) ids res ∧
            res.map (·.data) = ids.map (fun i => (s2.tensor i).data) := by
          intro ids
          induction ids with
          | nil => intro _; exact ⟨[], rfl, .nil, rfl⟩
          | cons i is ih =>
            intro hs
            obtain ⟨res, r1, r2, r3⟩ := ih (fun j hj => hs j (List.mem_cons_of_mem _ hj))
            have hmem := hs i (List.mem_cons_self ..)
            have hcons := hinv2.consistent h0 i hmem
            obtain ⟨⟨d, hd⟩, -⟩ := id hcons
            have hd' : typeOf (s2.tensor i) = .ok d := typeOf_ok.2 hd
            refine ⟨⟨d, (s2.tensor i).dims, (s2.tensor i).data⟩ :: res, ?_, .cons ⟨?_, ?_⟩ r2, ?_⟩
            · rw [List.mapM_cons, r1, arrayOf_spec hcons hd']
              rfl
            · rw [← typeOf_info _ _ (hinv2.info i hmem)]; exact hd'
            · exact info_dims (hinv2.info i hmem)
            · rw [List.map_cons, List.map_cons, r3]
        obtain ⟨res, r1, r2, r3⟩ := key rt.outputs (fun i hi => List.mem_append_right _ hi)
        refine ⟨res, r1, r2, ?_⟩
        rw [r3, ← hdata]
        exact List.map_congr_left fun i _ => by rw [t2]
    · have e1 := g4 hfit
      generalize hs1 : setInputs rt.inputs ins s = r at *
      obtain ⟨r1, s1⟩ := r
      simp only at e1
      subst e1
      exact ⟨g1, fun _ => rfl, fun hf => absurd hf hfit⟩
  · rw [if_pos hlen]
    refine ⟨h, fun _ => rfl, fun hf => absurd hf.length_eq.symm hlen⟩

theorem after_inv {rt : Runtime K} {I : K → Prop} {f : List (List Byte) → Option (List (List Byte))} {s0 : St K}
    (hc : Computes rt I s0 f) (h0 : Fresh rt I s0) : ∀ (calls : List Call), (∀ c ∈ calls, c.WF) → ∀ {s : St K}, Inv rt I s0 s →
    Inv rt I s0 (after rt calls s) := by
  intro calls
  induction calls with
  | nil => intro _ s h; exact h
  | cons c cs ih =>
    intro hw s h
    show Inv rt I s0 (after rt cs (c.run rt s))
    apply ih (fun x hx => hw x (List.mem_cons_of_mem _ hx))
    have hwc := hw c (List.mem_cons_self ..)
    cases c with
    | predict ins => exact (predict_spec hc h0 h hwc).1
    | _ => exact overTensors_inv h _ _

/-! ### C67 -/

section
variable {rt : Runtime K} {I : K → Prop} {f : List (List Byte) → Option (List (List Byte))} {s0 : St K}

theorem getter_after (hc : Computes rt I s0 f) (h0 : Fresh rt I s0) {calls : List Call} (hw : ∀ c ∈ calls, c.WF)
    {g : Tensor → Except PyErr β} (hg : ∀ t t', t.info = t'.info → g t = g t') {ids : List Nat}
    (hs : ∀ i ∈ ids, i ∈ rt.inputs ++ rt.outputs) :
    (overTensors g ids (after rt calls s0)).1 = ids.mapM fun i => g (s0.tensor i) := by
  have h := after_inv hc h0 calls hw h0.self
  obtain ⟨c, e, -⟩ := overTensors_spec g ids h.cache
  rw [e]
  exact overTensors_same h hg hs

theorem forall₂_map_eq {α γ : Type} {R : α → γ → Prop} {g : α → γ} : ∀ {l : List α} {r : List γ},
    List.Forall₂ R l r → (∀ x y, x ∈ l → R x y → y = g x) → r = l.map g := by
  intro l r h
  induction h with
  | nil => intro _; rfl
  | cons hx hxs ih =>
    intro hg
    rw [List.map_cons, hg _ _ (List.mem_cons_self ..) hx, ← ih fun x y hm hr => hg x y (List.mem_cons_of_mem _ hm) hr]

/-- **C67, types and shapes.** After any calls, `input_types`, `input_shapes`, `output_types` and `output_shapes` (`ids` is the
list of the inputs or of the outputs) give one entry per tensor, in order: the numpy type with the elements of the tensor's
type, and the tensor's dimensions. -/
theorem C67_types_shapes (hc : Computes rt I s0 f) (h0 : Fresh rt I s0) {calls : List Call} (hw : ∀ c ∈ calls, c.WF)
    {ids : List Nat} (hs : ids = rt.inputs ∨ ids = rt.outputs) :
    (∃ types, (getTypes ids (after rt calls s0)).1 = .ok types ∧
      List.Forall₂ (fun i d => Matches (s0.tensor i).type d) ids types) ∧
    (getShapes ids (after rt calls s0)).1 = .ok (ids.map fun i => (s0.tensor i).dims) := by
  have hs' : ∀ i ∈ ids, i ∈ rt.inputs ++ rt.outputs := by
    intro i hi
    rcases hs with rfl | rfl
    · exact List.mem_append_left _ hi
    · exact List.mem_append_right _ hi
  constructor
  · unfold getTypes
    rw [getter_after hc h0 hw typeOf_info hs']
    have key : ∀ l : List Nat, (∀ i ∈ l, i ∈ rt.inputs ++ rt.outputs) → ∃ types,
        List.Forall₂ (fun i d => typeOf (s0.tensor i) = .ok d) l types := by
      intro l
      induction l with
      | nil => intro _; exact ⟨[], .nil⟩
      | cons i is ih =>
        intro h
        obtain ⟨ts, h1⟩ := ih fun j hj => h j (List.mem_cons_of_mem _ hj)
        obtain ⟨⟨d, hd⟩, -⟩ := h0.tensors i (h i (List.mem_cons_self ..))
        exact ⟨d :: ts, .cons (typeOf_ok.2 hd) h1⟩
    obtain ⟨types, h1⟩ := key ids hs'
    exact ⟨types, mapM_except.2 h1, h1.imp fun _ _ h => typeOf_ok.1 h⟩
  · unfold getShapes
    rw [getter_after hc h0 hw shapeOf_info hs', mapM_except, List.forall₂_map_right_iff]
    exact List.forall₂_same.2 fun _ _ => rfl

/-- **C67, constancy.** Everything the interpreter reports about its inputs and outputs is the same after any calls as at the
beginning (also whether it raises). -/
theorem C67_metadata_constant (hc : Computes rt I s0 f) (h0 : Fresh rt I s0) {calls : List Call} (hw : ∀ c ∈ calls, c.WF)
    {ids : List Nat} (hs : ids = rt.inputs ∨ ids = rt.outputs) :
    (getTypes ids (after rt calls s0)).1 = (getTypes ids s0).1 ∧ (getShapes ids (after rt calls s0)).1 = (getShapes ids s0).1 ∧
    (getZeroPoints ids (after rt calls s0)).1 = (getZeroPoints ids s0).1 ∧
    (getScales ids (after rt calls s0)).1 = (getScales ids s0).1 := by
  have hs' : ∀ i ∈ ids, i ∈ rt.inputs ++ rt.outputs := by
    intro i hi
    rcases hs with rfl | rfl
    · exact List.mem_append_left _ hi
    · exact List.mem_append_right _ hi
  have hn : ∀ c ∈ ([] : List Call), c.WF := fun _ h => absurd h List.not_mem_nil
  unfold getTypes getShapes getZeroPoints getScales
  refine ⟨?_, ?_, ?_, ?_⟩
  · exact (getter_after hc h0 hw typeOf_info hs').trans (getter_after hc h0 hn typeOf_info hs').symm
  · exact (getter_after hc h0 hw shapeOf_info hs').trans (getter_after hc h0 hn shapeOf_info hs').symm
  · exact (getter_after hc h0 hw zeroPointOf_info hs').trans (getter_after hc h0 hn zeroPointOf_info hs').symm
  · exact (getter_after hc h0 hw scaleOf_info hs').trans (getter_after hc h0 hn scaleOf_info hs').symm

theorem fits_iff (h0 : Fresh rt I s0) {types : List Dtype} {shapes : List (List Int)}
    (ht : (getTypes rt.inputs s0).1 = .ok types) (hsh : (getShapes rt.inputs s0).1 = .ok shapes) {ins : List ByteArr} :
    List.Forall₂ (fun i a => Fits (s0.tensor i) a) rt.inputs ins ↔ ins.map (·.dtype) = types ∧ ins.map (·.shape) = shapes := by
  have e1 : List.Forall₂ (fun i d => typeOf (s0.tensor i) = .ok d) rt.inputs types := by
    obtain ⟨c, e, -⟩ := overTensors_spec typeOf rt.inputs h0.self.cache
    unfold getTypes at ht
    rw [e] at ht
    exact mapM_except.1 ht
  have e2 : List.Forall₂ (fun i d => (s0.tensor i).dims = d) rt.inputs shapes := by
    obtain ⟨c, e, -⟩ := overTensors_spec shapeOf rt.inputs h0.self.cache
    unfold getShapes at hsh
    rw [e] at hsh
    exact (mapM_except.1 hsh).imp fun _ _ h => Except.ok.inj h
  clear ht hsh
  generalize rt.inputs = ids at e1 e2 ⊢
  induction ids generalizing types shapes ins with
  | nil =>
    cases e1
    cases e2
    cases ins with
    | nil => exact ⟨fun _ => ⟨rfl, rfl⟩, fun _ => .nil⟩
    | cons a as =>
      constructor
      · intro h; cases h
      · intro h; cases h.1
  | cons i is ih =>
    cases e1 with
    | cons h1 h1s =>
      cases e2 with
      | cons h2 h2s =>
        cases ins with
        | nil =>
          constructor
          · intro h; cases h
          · intro h; cases h.1
        | cons a as =>
          have hih := ih (ins := as) h1s h2s
          rw [List.forall₂_cons, List.map_cons, List.map_cons, List.cons.injEq, List.cons.injEq]
          have hm := typeOf_ok.1 h1
          constructor
          · rintro ⟨⟨f1, f2⟩, f34⟩
            obtain ⟨f3, f4⟩ := hih.1 f34
            exact ⟨⟨(tfTypeFromPy_iff hm).1 ((tfTypeFromPy_iff f1).2 rfl), f3⟩, f2.trans h2, f4⟩
          · rintro ⟨⟨g1, g2⟩, g3, g4⟩
            exact ⟨⟨by rw [g1]; exact hm, g3.trans h2.symm⟩, hih.2 ⟨g2, g4⟩⟩

/-- **C67, predict.** After any calls — reading metadata, other predictions, predictions that raised, even halfway through
setting the inputs — `predict` on arrays whose types and shapes are those the interpreter reports for its inputs returns what
the model computes from the bytes of these arrays, as arrays of the types and shapes it reports for its outputs, or raises a
`RuntimeError` if an operator reports an error. On any other list of arrays it raises a `RuntimeError`. -/
theorem C67_predict (hc : Computes rt I s0 f) (h0 : Fresh rt I s0) {calls : List Call} (hw : ∀ c ∈ calls, c.WF)
    {types otypes : List Dtype} {shapes oshapes : List (List Int)}
    (ht : (getTypes rt.inputs s0).1 = .ok types) (hsh : (getShapes rt.inputs s0).1 = .ok shapes)
    (hot : (getTypes rt.outputs s0).1 = .ok otypes) (hosh : (getShapes rt.outputs s0).1 = .ok oshapes)
    {ins : List ByteArr} (hins : ∀ a ∈ ins, a.WF) :
    ((ins.map (·.dtype) = types ∧ ins.map (·.shape) = shapes) →
      (f (ins.map (·.data)) = none → (predict rt ins (after rt calls s0)).1 = .error .runtimeError) ∧
      ∀ outs, f (ins.map (·.data)) = some outs → ∃ res, (predict rt ins (after rt calls s0)).1 = .ok res ∧
        res.map (·.dtype) = otypes ∧ res.map (·.shape) = oshapes ∧ res.map (·.data) = outs) ∧
    (¬ (ins.map (·.dtype) = types ∧ ins.map (·.shape) = shapes) →
      (predict rt ins (after rt calls s0)).1 = .error .runtimeError) := by
  have h := after_inv hc h0 calls hw h0.self
  obtain ⟨-, p1, p2⟩ := predict_spec hc h0 h hins
  rw [fits_iff h0 ht hsh] at p1 p2
  refine ⟨fun hf => ⟨(p2 hf).1, fun outs ho => ?_⟩, p1⟩
  obtain ⟨res, r1, r2, r3⟩ := (p2 hf).2 outs ho
  refine ⟨res, r1, ?_, ?_, r3⟩
  · obtain ⟨c, e, -⟩ := overTensors_spec typeOf rt.outputs h0.self.cache
    unfold getTypes at hot
    rw [e] at hot
    have hm : (rt.outputs.mapM fun i => typeOf (s0.tensor i)) = .ok (res.map (·.dtype)) := by
      rw [mapM_except, List.forall₂_map_right_iff]
      exact r2.imp fun _ _ h => h.1
    rw [hm] at hot
    exact Except.ok.inj hot
  · obtain ⟨c, e, -⟩ := overTensors_spec shapeOf rt.outputs h0.self.cache
    unfold getShapes at hosh
    rw [e] at hosh
    have hm : (rt.outputs.mapM fun i => shapeOf (s0.tensor i)) = .ok (res.map (·.shape)) := by
      rw [mapM_except, List.forall₂_map_right_iff]
      exact r2.imp fun _ _ h => by unfold shapeOf; rw [h.2]
    rw [hm] at hosh
    exact Except.ok.inj hosh
end

/-- **C67, quantization.** For every list of tensors of which TFLite's contract for the legacy parameters holds,
`…_zero_points` and `…_scales` give one entry per tensor, or raise if a tensor's entry is an error: `None` exactly for a
tensor without affine quantization; its zero point and scale for a tensor quantized as a whole; for a tensor quantized per
channel the list of scales, and zero point 0 if all its zero points are 0. If one of them is not 0, reading the zero points
raises, even when they are all equal. -/
theorem C67_quantization {s : St K} (hs : s.cache = []) (ids : List Nat) (hl : ∀ i ∈ ids, (s.tensor i).Legacy) :
    (getZeroPoints ids s).1 = (ids.mapM fun i => zeroPointOf (s.tensor i)) ∧
    (getScales ids s).1 = (ids.mapM fun i => scaleOf (s.tensor i)) ∧
    ∀ i ∈ ids,
      (zeroPointOf (s.tensor i) = .ok none ↔ (s.tensor i).quantization = none) ∧
      (scaleOf (s.tensor i) = .ok .none ↔ (s.tensor i).quantization = none) ∧
      (∀ sc z, (s.tensor i).quantization = some (some ⟨some [sc], some [z]⟩) →
        zeroPointOf (s.tensor i) = .ok (some z) ∧ scaleOf (s.tensor i) = .ok (.one sc)) ∧
      (∀ ss zs, ss.length = zs.length → 2 ≤ ss.length →
        (s.tensor i).quantization = some (some ⟨some ss, some zs⟩) →
        scaleOf (s.tensor i) = .ok (.many ss) ∧
        ((∀ z ∈ zs, z = 0) → zeroPointOf (s.tensor i) = .ok (some 0)) ∧
        ((∃ z ∈ zs, z ≠ 0) → zeroPointOf (s.tensor i) = .error .runtimeError)) := by
  have hcache : CacheOk s := by intro i p hp; rw [hs] at hp; cases hp
  refine ⟨?_, ?_, ?_⟩
  · obtain ⟨c, e, -⟩ := overTensors_spec zeroPointOf ids hcache
    unfold getZeroPoints
    rw [e]
  · obtain ⟨c, e, -⟩ := overTensors_spec scaleOf ids hcache
    unfold getScales
    rw [e]
  · intro i hi
    have hL := hl i hi
    generalize s.tensor i = t at hL ⊢
    refine ⟨?_, ?_, ?_, ?_⟩
    · unfold zeroPointOf
      cases hq : t.quantization with
      | none => simp
      | some o =>
        cases o with
        | none => simp
        | some a =>
          simp only [reduceCtorEq, iff_false]
          cases a.zeroPoint with
          | none => simp
          | some zs => simp only; split <;> simp
    · unfold scaleOf
      cases hq : t.quantization with
      | none => simp
      | some o =>
        cases o with
        | none => simp
        | some a =>
          simp only [reduceCtorEq, iff_false]
          split
          · simp
          · split <;> simp
          · simp
    · intro sc z hq
      rcases hL with ⟨s', z', h1, h2, h3⟩ | ⟨h1, -⟩
      · rw [hq] at h1
        simp only [Option.some.injEq, Affine.mk.injEq, List.cons.injEq, and_true] at h1
        obtain ⟨rfl, rfl⟩ := h1
        unfold zeroPointOf scaleOf
        rw [hq]
        simp [h2, h3]
      · exact absurd hq (h1 sc z)
    · intro ss zs hlen h2 hq
      have hz : t.legacyZeroPoint = 0 := by
        rcases hL with ⟨s', z', h1, -⟩ | ⟨-, -, h⟩
        · rw [hq] at h1
          simp only [Option.some.injEq, Affine.mk.injEq] at h1
          rw [h1.1] at h2
          simp at h2
        · exact h
      refine ⟨?_, ?_, ?_⟩
      · unfold scaleOf
        rw [hq]
        match ss, h2 with
        | _ :: _ :: _, _ => rfl
      · intro h
        unfold zeroPointOf
        rw [hq]
        simp only [hz]
        rw [if_pos (by rw [List.all_eq_true]; intro z hzm; simp [h z hzm])]
      · rintro ⟨z, hzm, hne⟩
        unfold zeroPointOf
        rw [hq]
        simp only [hz]
        rw [if_neg (by intro h; rw [List.all_eq_true] at h; exact hne (by simpa using h z hzm))]

/-- A tensor whose type the wrapper does not know: its type cannot be read, and every `predict` on a model with such an
input raises. -/
theorem C67_unknown_type {t : Tensor} (h : ∀ d, ¬ Matches t.type d) :
    typeOf t = .error .runtimeError ∧ (t.type ≠ .noType → ∀ a, setTensor t a = .error .runtimeError) := by
  constructor
  · unfold typeOf
    cases hp : pyTypeFromTf t.type with
    | error e => rw [pyTypeFromTf_error hp]
    | ok d => exact absurd (pyTypeFromTf_ok.1 hp) (h d)
  · intro hn a
    unfold setTensor
    rw [if_pos]
    intro he
    cases hd : a.dtype with
    | other k => rw [hd] at he; exact hn he.symm
    | _ => rw [hd] at he; exact h a.dtype (by rw [hd, ← he]; constructor)

/-! ### A model that meets the hypotheses

One int8 input and one int8 output with two elements; `Invoke` swaps them, fails on a first element 0, and counts. -/

/-- An int8 tensor of shape `[1, 2]`. -/
def exTensor (data : List Byte) : Tensor :=
  ⟨.int8, [1, 2], 2, data, 1 / 2, -1, some (some ⟨some [1 / 2], some [-1]⟩)⟩

/-- The model: tensors 3 and 5. -/
def exRuntime : Runtime Nat where
  inputs := [3]
  outputs := [5]
  invoke := fun heap addr k =>
    match (heap (addr 3)).data with
    | [a, b] =>
      if a = 0 then (false, heap, addr, k)
      else (true, fun q => if q = addr 5 then { heap q with data := [b, a] } else heap q, addr, k + 1)
    | _ => (false, heap, addr, k)

/-- What it computes. -/
def exF : List (List Byte) → Option (List (List Byte))
  | [[a, b]] => if a = 0 then none else some [[b, a]]
  | _ => none

/-- Its state at the beginning. -/
def exStart : St Nat := ⟨fun q => if q = 103 then exTensor [7, 7] else exTensor [9, 9], fun i => 100 + i, [], 0⟩

theorem exFresh : Fresh exRuntime (fun _ => True) exStart := by
  refine ⟨rfl, fun i j h => ?_, trivial, ?_⟩
  · replace h : 100 + i = 100 + j := h
    omega
  · intro i hi
    have : i = 3 ∨ i = 5 := by simpa [exRuntime] using hi
    rcases this with rfl | rfl
    · exact ⟨⟨.int8, .int8⟩, by decide, rfl, rfl⟩
    · exact ⟨⟨.int8, .int8⟩, by decide, rfl, rfl⟩

theorem exComputes : Computes exRuntime (fun _ => True) exStart exF := by
  refine ⟨by decide, ?_⟩
  intro heap k _ h
  have h3 : (heap 103).data.length = 2 := (h 3 (by decide)).2
  have h5 : (heap 105).data.length = 2 := (h 5 (by decide)).2
  match hd : (heap 103).data, h3 with
  | [a, b], _ =>
    by_cases ha : a = 0
    · refine ⟨false, heap, k, ?_, trivial, h, ?_⟩
      · show (match (heap 103).data with | [a, b] => _ | _ => _) = _
        rw [hd]
        simp only [if_pos ha]
      · show match exF [(heap 103).data] with | none => _ | some outs => _
        rw [hd]
        simp only [exF, if_pos ha]
    · refine ⟨true, fun q => if q = 105 then { heap q with data := [b, a] } else heap q, k + 1, ?_, trivial, ?_, ?_⟩
      · show (match (heap 103).data with | [a, b] => _ | _ => _) = _
        rw [hd]
        simp only [if_neg ha]
        rfl
      · intro i hi
        have : i = 3 ∨ i = 5 := by simpa [exRuntime] using hi
        rcases this with rfl | rfl
        · exact h 3 (by decide)
        · exact ⟨(h 5 (by decide)).1, rfl⟩
      · show match exF [(heap 103).data] with | none => _ | some outs => _
        rw [hd]
        simp only [exF, if_neg ha]
        exact ⟨trivial, rfl⟩

/-- `C67_predict` on it, after reading the input types, a failed prediction (wrong shape), one on which the operator fails,
and one that succeeds. -/
example : ∃ res, (predict exRuntime [⟨.int8, [1, 2], [4, 6]⟩] (after exRuntime
      [.inputTypes, .predict [⟨.int8, [2], [1, 2]⟩], .predict [⟨.int8, [1, 2], [0, 2]⟩], .predict [⟨.int8, [1, 2], [5, 2]⟩]]
      exStart)).1 = .ok res ∧ res.map (·.data) = [[6, 4]] := by
  have h := (C67_predict exComputes exFresh
    (calls := [.inputTypes, .predict [⟨.int8, [2], [1, 2]⟩], .predict [⟨.int8, [1, 2], [0, 2]⟩], .predict [⟨.int8, [1, 2], [5, 2]⟩]])
    (by
      intro c hc
      simp only [List.mem_cons, List.not_mem_nil, or_false] at hc
      rcases hc with rfl | rfl | rfl | rfl
      · trivial
      all_goals
        intro a ha
        rw [List.mem_singleton] at ha
        subst ha
        exact ⟨by decide, rfl⟩)
    (types := [.int8]) (shapes := [[1, 2]]) (otypes := [.int8]) (oshapes := [[1, 2]]) rfl rfl rfl rfl
    (ins := [⟨.int8, [1, 2], [4, 6]⟩])
    (by
      intro a ha
      rw [List.mem_singleton] at ha
      subst ha
      exact ⟨by decide, rfl⟩)).1 ⟨rfl, rfl⟩
  obtain ⟨res, h1, -, -, h4⟩ := h.2 [[6, 4]] (by decide)
  exact ⟨res, h1, h4⟩

/-- Metadata of the example. -/
example : (getZeroPoints exRuntime.inputs exStart).1 = .ok [some (-1)] ∧ (getScales exRuntime.inputs exStart).1 = .ok [.one (1 / 2)] :=
  ⟨rfl, by decide +kernel⟩

end Verif.Wrap
