import Verif.Props.Bitpacking
import Verif.Props.BMaxPool
import Verif.Proof.PackRat
import Verif.Proof.F32Val
import Verif.Proof.Index

/-! Equality of packed tensors from equality of signs. -/

namespace Verif

theorem prod_dropLast {shape : List Nat} {cols : Nat} (h : shape.getLast? = some cols) :
    shape.dropLast.prod * cols = shape.prod := by
  have := List.dropLast_append_getLast? cols h
  conv_rhs => rw [← this]
  simp

section
variable {shape : List Nat} {cols : Nat} {out0 out1 : List Word} {junk junk' : Word}

/-- A quantized tensor is determined by the signs. -/
theorem quantize_congr {x y : TData} (hs : shape.getLast? = some cols)
    (hx : x.size = shape.dropLast.prod * cols) (hy : y.size = shape.dropLast.prod * cols)
    (hxz : x.zpOk) (hyz : y.zpOk)
    (h0 : out0.length = shape.dropLast.prod * ((cols + 31) / 32))
    (h1 : out1.length = shape.dropLast.prod * ((cols + 31) / 32))
    (hxy : ∀ i, i < shape.dropLast.prod * cols → (x.neg i ↔ y.neg i)) :
    ∃ q, quantizeEval shape x out0 junk = some q ∧ quantizeEval shape y out1 junk' = some q := by
  obtain ⟨q, e1, e2⟩ := C01_quantize_bits (out0 := out0) (junk := junk) hs hx h0 hxz
  obtain ⟨q', f1, f2⟩ := C01_quantize_bits (out0 := out1) (junk := junk') hs hy h1 hyz
  obtain ⟨_, e3, e4⟩ := C02_unused_bits_zero (out0 := out0) (junk := junk) hs hx h0 hxz
  obtain ⟨_, f3, f4⟩ := C02_unused_bits_zero (out0 := out1) (junk := junk') hs hy h1 hyz
  rw [e1] at e3; cases e3
  rw [f1] at f3; cases f3
  refine ⟨q, e1, ?_⟩
  rw [f1]
  congr 1
  refine packed_ext f4 e4 fun r c hr hc => ?_
  obtain ⟨w, k1, k2⟩ := e2 r c hr hc
  obtain ⟨w', k1', k2'⟩ := f2 r c hr hc
  exact ⟨w', w, k1', k1, by rw [Bool.eq_iff_iff, k2, k2', hxy _ (row_lt hr hc)]⟩

/-- The same against a tensor of numbers. -/
theorem quantize_congr_rat {x : TData} {y : List Rat} (hs : shape.getLast? = some cols)
    (hx : x.size = shape.dropLast.prod * cols) (hy : y.length = shape.dropLast.prod * cols)
    (hxz : x.zpOk)
    (h0 : out0.length = shape.dropLast.prod * ((cols + 31) / 32))
    (h1 : out1.length = shape.dropLast.prod * ((cols + 31) / 32))
    (hxy : ∀ i v, y[i]? = some v → (x.neg i ↔ v < 0)) :
    ∃ q, quantizeEval shape x out0 junk = some q ∧ bitpackTensor shape y 0 out1 junk' = some q := by
  obtain ⟨q, e1, e2⟩ := C01_quantize_bits (out0 := out0) (junk := junk) hs hx h0 hxz
  obtain ⟨_, e3, e4⟩ := C02_unused_bits_zero (out0 := out0) (junk := junk) hs hx h0 hxz
  rw [e1] at e3; cases e3
  obtain ⟨q', f1, f4, f2⟩ := bitpackMatrix_rat (junk := junk') hy h1
  refine ⟨q, e1, ?_⟩
  unfold bitpackTensor
  rw [hs]
  simp only [Option.bind_eq_bind, Option.bind_some]
  rw [f1]
  congr 1
  refine packed_ext f4 e4 fun r c hr hc => ?_
  obtain ⟨w, k1, k2⟩ := e2 r c hr hc
  obtain ⟨w', v, k1', kv, k2'⟩ := f2 r c hr hc
  exact ⟨w', w, k1', k1, by rw [Bool.eq_iff_iff, k2, k2', hxy _ _ kv]⟩

/-- Quantizing finite floats is quantizing their values. -/
theorem quantize_f32_rat {xs : List F32} (hf : ∀ v ∈ xs, v.Finite) (hs : shape.getLast? = some cols)
    (hx : xs.length = shape.dropLast.prod * cols)
    (h0 : out0.length = shape.dropLast.prod * ((cols + 31) / 32))
    (h1 : out1.length = shape.dropLast.prod * ((cols + 31) / 32)) :
    ∃ q, quantizeEval shape (.f32 xs) out0 junk = some q ∧
      bitpackTensor shape (xs.map F32.val) 0 out1 junk' = some q := by
  refine quantize_congr_rat hs hx (by simpa using hx) trivial h0 h1 fun i v hv => ?_
  rw [List.getElem?_map, Option.map_eq_some_iff] at hv
  obtain ⟨w, hw, rfl⟩ := hv
  have hfin := hf w (List.mem_of_getElem? hw)
  unfold TData.neg
  rw [← F32.negative_iff hfin]
  simp only [hw, Option.some.injEq, exists_eq_left']

/-- Dequantizing a quantized tensor gives the numbers -1 and 1. -/
theorem dequantize_quantize_val {x : TData} {y0 : List F32} (hs : shape.getLast? = some cols)
    (hx : x.size = shape.dropLast.prod * cols) (hz : x.zpOk)
    (h0 : out0.length = shape.dropLast.prod * ((cols + 31) / 32))
    (hy : y0.length = shape.dropLast.prod * cols) {r : List Rat} (hr : r.length = shape.dropLast.prod * cols)
    (hrv : ∀ i v, r[i]? = some v → (x.neg i ∧ v = -1) ∨ (¬ x.neg i ∧ v = 1)) :
    ∃ q y, quantizeEval shape x out0 junk = some q ∧ dequantizeEvalF32 shape q y0 = some y ∧ y.map F32.val = r := by
  obtain ⟨q, y, h1, h2, h3, h4⟩ := C04_dequantize_quantize_float (junk := junk) hs hx h0 hz hy
  refine ⟨q, y, h1, h2, ?_⟩
  apply List.ext_getElem?
  intro i
  by_cases hi : i < x.size
  · obtain ⟨v, hv⟩ : ∃ v, r[i]? = some v := ⟨r[i]'(by omega), by simp [show i < r.length by omega]⟩
    rw [hv, List.getElem?_map]
    rcases h4 i hi with ⟨a, b⟩ | ⟨a, b⟩
    · rw [b, Option.map_some, F32.val_negOne]
      rcases hrv i v hv with ⟨_, rfl⟩ | ⟨c, _⟩
      · rfl
      · exact absurd a c
    · rw [b, Option.map_some, F32.val_one]
      rcases hrv i v hv with ⟨c, _⟩ | ⟨_, rfl⟩
      · exact absurd c a
      · rfl
  · rw [List.getElem?_eq_none (by rw [List.length_map]; omega), List.getElem?_eq_none (by omega)]

end

end Verif
