import Verif.Proof.PackInstances
import Verif.Spec.Quant

/-! LceQuantize / LceDequantize: glue between the operators and the matrix lemmas. -/

namespace Verif

open LawfulPackElem

theorem F32.lt_zero_iff (x : F32) : F32.lt x F32.zero = true ↔ F32.negative x := by
  have hz : F32.zero.isNaN = false := by decide
  have hk : F32.key F32.zero = 0 := by decide
  unfold F32.lt F32.negative
  rw [hz, hk]
  cases hn : x.isNaN
  · simp only [Bool.not_false, Bool.true_and, decide_eq_true_eq, true_and]
    unfold F32.key
    have hne : (x.extractLsb' 0 31 ≠ 0#31) ↔ (x.extractLsb' 0 31).toNat ≠ 0 := by
      constructor
      · intro h h0; exact h (BitVec.eq_of_toNat_eq (by simpa using h0))
      · intro h h0; exact h (by rw [h0]; rfl)
    rw [hne]
    cases hm : x.msb
    · simp; omega
    · simp only [if_true, true_and]; omega
  · simp

theorem packedSize_eq (n : Nat) : packedSize n = (n + 31) / 32 := by simp [packedSize, ceilDiv, W]

/-- Element `i` (as seen by bitpacking) counts as negative. -/
theorem bitpackTensor_fills {α : Type} [PackElem α] [LawfulPackElem α]
    {shape : List Nat} {cols : Nat} {xs : List α} {zp : Int} {out0 : List Word} {junk : Word}
    (hs : shape.getLast? = some cols) (hin : xs.length = shape.dropLast.prod * cols)
    (hout : shape.dropLast.prod * packedSize cols ≤ out0.length) (hz : okZp α zp)
    (hub : PackElem.gtMax α zp = true → cols % 32 ≠ 31) :
    ∃ out, bitpackTensor shape xs zp out0 junk = some out ∧
      Fills out0 out (fun i => i < shape.dropLast.prod * packedSize cols)
        (fun i => packedWord xs cols zp (i / packedSize cols) (i % packedSize cols)) := by
  have := bitpackMatrix_fills (junk := junk) hin hout hz hub
  simpa [bitpackTensor, hs] using this

/-- The bit of element `i` as packed by LceQuantize. -/
def TData.negB (x : TData) (i : Nat) : Bool :=
  match x with
  | .f32 xs => match xs[i]? with | some v => F32.lt v F32.zero | none => false
  | .i8 xs _ zp => match xs[i]? with | some v => decide (v.toInt < zp) | none => false
  | .bool xs => match xs[i]? with | some v => !v | none => false

theorem TData.negB_iff (x : TData) (i : Nat) : x.negB i = true ↔ x.neg i := by
  cases x with
  | f32 xs =>
    simp only [TData.negB, TData.neg]
    cases h : xs[i]? with
    | none => simp
    | some v => simp [F32.lt_zero_iff]
  | i8 xs s zp =>
    simp only [TData.negB, TData.neg]
    cases h : xs[i]? with
    | none => simp
    | some v => simp
  | bool xs =>
    simp only [TData.negB, TData.neg]
    cases h : xs[i]? with
    | none => simp
    | some v => cases v <;> simp

/-- Zero points TFLite allows for the tensor type (TFLite requires an int8 zero
point to be an int8). -/
def TData.zpOk : TData → Prop
  | .i8 _ _ zp => zp ≤ 127
  | _ => True

theorem quantizeEval_fills {shape : List Nat} {cols : Nat} {x : TData} {out0 : List Word}
    {junk : Word} (hs : shape.getLast? = some cols)
    (hin : x.size = shape.dropLast.prod * cols)
    (hout : shape.dropLast.prod * packedSize cols ≤ out0.length) (hz : x.zpOk) :
    ∃ out, quantizeEval shape x out0 junk = some out ∧
      Fills out0 out (fun i => i < shape.dropLast.prod * packedSize cols)
        (fun i => wordOf fun b =>
          if 32 * (i % packedSize cols) + b < cols then
            x.negB (i / packedSize cols * cols + (32 * (i % packedSize cols) + b)) else false) := by
  cases x with
  | f32 xs =>
    have := bitpackTensor_fills (xs := xs) (zp := 0) (junk := junk) hs hin hout rfl (by simp [PackElem.gtMax])
    obtain ⟨out, h1, h2⟩ := this
    refine ⟨out, h1, h2.congr (fun _ _ => Iff.rfl) ?_⟩
    intro i _ _
    unfold packedWord
    apply wordOf_congr
    intro b _
    split
    · simp only [TData.negB]
      cases h : xs[i / packedSize cols * cols + (32 * (i % packedSize cols) + b)]? with
      | none => simp
      | some v => simp [below]
    · rfl
  | i8 xs s zp =>
    have hz : zp ≤ 127 := hz
    have := bitpackTensor_fills (xs := xs) (zp := zp) (junk := junk) hs hin hout trivial
      (by simp [PackElem.gtMax]; omega)
    obtain ⟨out, h1, h2⟩ := this
    refine ⟨out, h1, h2.congr (fun _ _ => Iff.rfl) ?_⟩
    intro i _ _
    unfold packedWord
    apply wordOf_congr
    intro b _
    split
    · simp only [TData.negB]
      cases h : xs[i / packedSize cols * cols + (32 * (i % packedSize cols) + b)]? with
      | none => simp
      | some v => simp [below]
    · rfl
  | bool xs =>
    have := bitpackTensor_fills (xs := xs.map boolByte) (zp := 1) (junk := junk) hs
      (by simpa [TData.size] using hin) hout trivial (by simp [PackElem.gtMax])
    obtain ⟨out, h1, h2⟩ := this
    refine ⟨out, h1, h2.congr (fun _ _ => Iff.rfl) ?_⟩
    intro i _ _
    unfold packedWord
    apply wordOf_congr
    intro b _
    split
    · simp only [TData.negB, List.getElem?_map]
      cases h : xs[i / packedSize cols * cols + (32 * (i % packedSize cols) + b)]? with
      | none => simp
      | some v => cases v <;> simp [boolByte, below]
    · rfl

end Verif
