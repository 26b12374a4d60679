import Verif.Model.Quantization

/-!
Specification of LceQuantize / LceDequantize: when does an element count as
negative.
-/

namespace Verif

/-- A float is negative: it is a number, its sign bit is set and it is not zero. -/
def F32.negative (x : F32) : Prop :=
  x.isNaN = false ∧ x.msb = true ∧ x.extractLsb' 0 31 ≠ 0#31

instance (x : F32) : Decidable (F32.negative x) := by unfold F32.negative; infer_instance

/-- Number of elements. -/
def TData.size : TData → Nat
  | .f32 xs => xs.length
  | .i8 xs _ _ => xs.length
  | .bool xs => xs.length

/-- Element `i` of the tensor is encoded as `-1`: a negative float, an int8 below
the zero point, or `false`. (`False` when there is no element `i`.) -/
def TData.neg (x : TData) (i : Nat) : Prop :=
  match x with
  | .f32 xs => ∃ v, xs[i]? = some v ∧ F32.negative v
  | .i8 xs _ zp => ∃ v, xs[i]? = some v ∧ v.toInt < zp
  | .bool xs => xs[i]? = some false

/-- `w` is the packed form of a tensor whose last dimension is `cols` (with `rows`
rows): right size and unused bits zero. -/
structure IsPacked (rows cols : Nat) (w : List Word) : Prop where
  len : w.length = rows * ((cols + 31) / 32)
  unused : ∀ r k b v, r < rows → k < (cols + 31) / 32 → b < 32 → cols ≤ 32 * k + b →
    w[r * ((cols + 31) / 32) + k]? = some v → v.getLsbD b = false

end Verif
