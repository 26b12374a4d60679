import Verif.Props.Bitpacking

/-!
C03: the sizes announced for a packed tensor (`bitpacked_shape`, `GetBitpackedTensorSize`) are those that LceQuantize writes.
-/

namespace Verif

/-- **C03, sizes.** The packed shape of a tensor has the same dimensions except that the last one is divided by 32, rounding up.
Its number of elements is the announced number of words. A buffer of that many words is overwritten completely, whatever it held. -/
theorem C03_packed_shape {shape : List Nat} {cols : Nat} {x : TData}
    (hs : shape.getLast? = some cols) (hin : x.size = shape.dropLast.prod * cols) (hz : x.zpOk) :
    (bitpackedShape shape).length = shape.length ∧
    (∀ k, k + 1 < shape.length → (bitpackedShape shape)[k]? = shape[k]?) ∧
    (bitpackedShape shape).getLast? = some ((cols + 31) / 32) ∧
    packedTensorSize shape = some (bitpackedShape shape).prod ∧
    ∃ val : List Word, val.length = (bitpackedShape shape).prod ∧ ∀ (out0 : List Word) (junk : Word),
      out0.length = (bitpackedShape shape).prod → quantizeEval shape x out0 junk = some val := by
  have he : bitpackedShape shape = shape.dropLast ++ [(cols + 31) / 32] := by
    unfold bitpackedShape; rw [hs]; simp only []; rw [packedSize_eq]
  have hne : shape ≠ [] := by rintro rfl; simp at hs
  have hp : (bitpackedShape shape).prod = shape.dropLast.prod * ((cols + 31) / 32) := by rw [he]; simp
  have hlen : 0 < shape.length := List.length_pos_of_ne_nil hne
  refine ⟨?_, ?_, ?_, ?_, ?_⟩
  · rw [he]; simp; omega
  · intro k hk
    rw [he, List.getElem?_append_left (by simp; omega), List.getElem?_dropLast, if_pos (by omega)]
  · rw [he]; simp
  · unfold packedTensorSize packedMatrixSize
    rw [hs, hp]
    simp only [Option.bind_eq_bind, Option.bind_some, packedSize_eq]
  · obtain ⟨val, h⟩ := C03_in_bounds hs hin hz
    obtain ⟨o, -, h2, h3, -⟩ := h (List.replicate (bitpackedShape shape).prod 0#32) 0#32 (by simp [hp])
    refine ⟨o, by simpa using h2, fun out0 junk hl => ?_⟩
    obtain ⟨o', h1', h2', h3', -⟩ := h out0 junk (by omega)
    rw [h1']
    congr 1
    apply List.ext_getElem?
    intro i
    by_cases hi : i < shape.dropLast.prod * ((cols + 31) / 32)
    · rw [h3 i hi, h3' i hi]
    · rw [List.getElem?_eq_none (by omega), List.getElem?_eq_none (by rw [h2]; simp; omega)]

/-- A 1x2x33 int8 tensor meets the hypotheses: its packed shape is 1x2x2, 4 words. -/
example : bitpackedShape [1, 2, 33] = [1, 2, 2] ∧ packedTensorSize [1, 2, 33] = some 4 ∧
    (TData.i8 (List.replicate 66 (3#8)) (1 / 2) 5).zpOk ∧
    (TData.i8 (List.replicate 66 (3#8)) (1 / 2) 5).size = ([1, 2, 33] : List Nat).dropLast.prod * 33 :=
  ⟨by decide, by decide, (by decide : (5 : Int) ≤ 127), by decide⟩

end Verif
