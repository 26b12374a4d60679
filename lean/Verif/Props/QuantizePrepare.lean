import Verif.Props.Bitpacking

/-! C48: which shapes LceQuantize and LceDequantize accept, and the accesses of LceDequantize. -/

namespace Verif

/-- **C48, Quantize.** LceQuantize accepts every shape of rank at least 1; the output has the same leading dimensions and
one word per 32 channels, rounded up. -/
theorem C48_quantize_shape (lead : List Nat) (c : Nat) :
    quantizePrepare (lead ++ [c]) = some (lead ++ [(c + 31) / 32]) ∧ quantizePrepare [] = none := by
  refine ⟨?_, rfl⟩
  simp [quantizePrepare, packedSize_eq]

/-- **C48, Dequantize.** LceDequantize accepts exactly the pairs of shapes with the same leading dimensions whose last
dimensions are the number of words and the number of channels they hold. -/
theorem C48_dequantize_accepts (inShape outShape : List Nat) :
    dequantizePrepare inShape outShape = true ↔
      ∃ lead c, inShape = lead ++ [(c + 31) / 32] ∧ outShape = lead ++ [c] := by
  constructor
  · intro h
    unfold dequantizePrepare at h
    simp only [Bool.and_eq_true, beq_iff_eq] at h
    obtain ⟨⟨_, h2⟩, h3⟩ := h
    cases hi : inShape.getLast? with
    | none => rw [hi] at h3; simp at h3
    | some p =>
      cases ho : outShape.getLast? with
      | none => rw [hi, ho] at h3; simp at h3
      | some u =>
        rw [hi, ho] at h3
        simp only [beq_iff_eq] at h3
        obtain ⟨l1, rfl⟩ := List.getLast?_eq_some_iff.1 hi
        obtain ⟨l2, rfl⟩ := List.getLast?_eq_some_iff.1 ho
        simp only [List.dropLast_concat] at h2
        exact ⟨l2, u, by rw [h2, h3, packedSize_eq], rfl⟩
  · rintro ⟨lead, c, rfl, rfl⟩
    simp [dequantizePrepare, packedSize_eq]

/-- What LceDequantize writes: every element of the output is overwritten with `neg` or `pos` according to its bit. -/
def DequantResult {β : Type} (pos neg : β) (rows cols : Nat) (w : List Word) (y0 y : List β) : Prop :=
  y.length = y0.length ∧ ∀ r c, r < rows → c < cols → ∃ v, w[r * ((cols + 31) / 32) + c / 32]? = some v ∧
    y[r * cols + c]? = some (if v.getLsbD (c % 32) then neg else pos)

theorem unpackMatrix_result {β : Type} {w : List Word} {rows cols : Nat} {y0 : List β} {pos neg : β}
    (hin : w.length = rows * ((cols + 31) / 32)) (hout : y0.length = rows * cols) :
    ∃ y, unpackMatrix w rows cols y0 pos neg = some y ∧ DequantResult pos neg rows cols w y0 y := by
  obtain ⟨y, h1, h2⟩ := unpackMatrix_fills (inp := w) (rows := rows) (cols := cols) (out0 := y0) (zb := pos) (ob := neg)
    (by rw [hin, packedSize_eq]) (by omega)
  refine ⟨y, h1, h2.len, fun r c hr hc => ?_⟩
  have hidx := row_lt hr hc
  have hk : c / 32 < (cols + 31) / 32 := by omega
  have hw := row_lt hr hk
  refine ⟨w[r * ((cols + 31) / 32) + c / 32]'(by omega), by simp, ?_⟩
  rw [h2.hit _ (by omega) hidx, (div_mod_row hc).1, (div_mod_row hc).2]
  have hl : r * ((cols + 31) / 32) + c / 32 < w.length := by omega
  simp [unpackedElem, packedSize_eq, hl]

/-- **C48, in bounds.** When `Prepare` accepts the shapes and the tensors have the sizes of their shapes, LceDequantize
reads and writes in bounds and overwrites every output element: float and bool output always, int8 output whenever its two
values can be computed (`dequantInt8Values`, see C05). -/
theorem C48_dequantize_in_bounds {inShape outShape : List Nat} {w : List Word}
    (hp : dequantizePrepare inShape outShape = true) (hw : w.length = inShape.prod) :
    ∃ lead c, outShape = lead ++ [c] ∧
      (∀ y0 : List F32, y0.length = outShape.prod →
        ∃ y, dequantizeEvalF32 outShape w y0 = some y ∧ DequantResult F32.one F32.negOne lead.prod c w y0 y) ∧
      (∀ y0 : List Bool, y0.length = outShape.prod →
        ∃ y, dequantizeEvalBool outShape w y0 = some y ∧ DequantResult true false lead.prod c w y0 y) ∧
      (∀ (fl : Rat → Rat) (scale : Rat) (zp : Int) (pos neg : BitVec 8) (y0 : List (BitVec 8)),
        y0.length = outShape.prod → dequantInt8Values fl scale zp = some (pos, neg) →
        ∃ y, dequantizeEvalI8 fl outShape scale zp w y0 = some y ∧ DequantResult pos neg lead.prod c w y0 y) := by
  obtain ⟨lead, c, rfl, rfl⟩ := (C48_dequantize_accepts _ _).1 hp
  simp only [List.prod_append, List.prod_singleton] at hw
  refine ⟨lead, c, rfl, ?_, ?_, ?_⟩
  · intro y0 hy
    simp only [List.prod_append, List.prod_singleton] at hy
    simpa [dequantizeEvalF32] using unpackMatrix_result (pos := F32.one) (neg := F32.negOne) hw hy
  · intro y0 hy
    simp only [List.prod_append, List.prod_singleton] at hy
    simpa [dequantizeEvalBool] using unpackMatrix_result (pos := true) (neg := false) hw hy
  · intro fl scale zp pos neg y0 hy hv
    simp only [List.prod_append, List.prod_singleton] at hy
    simpa [dequantizeEvalI8, hv] using unpackMatrix_result (pos := pos) (neg := neg) hw hy

/-- Non-vacuity: 2 x 3 pixels of 33 channels; a rejected pair with a word too many. -/
example : dequantizePrepare [2, 3, 2] [2, 3, 33] = true ∧ dequantizePrepare [2, 3, 3] [2, 3, 33] = false ∧
    dequantizePrepare [2, 3, 1] [2, 3, 33] = false ∧ dequantizePrepare [3, 2, 2] [2, 3, 33] = false := by decide

end Verif
