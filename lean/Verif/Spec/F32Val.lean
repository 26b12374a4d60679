import Verif.Spec.Float32
import Verif.Spec.Quant

/-!
The value of a binary32 bit pattern (IEEE-754).
-/

namespace Verif

namespace F32

/-- The exponent field is not all ones: a finite number. -/
def Finite (x : F32) : Prop := x.extractLsb' 23 8 ≠ 255#8

instance (x : F32) : Decidable x.Finite := by unfold Finite; infer_instance

/-- The magnitude of a finite float from its exponent and mantissa fields: subnormal numbers have exponent field 0,
the others have an implicit leading 1. -/
def magOf (e m : Nat) : Rat :=
  if e = 0 then (m : Rat) * 2 ^ (-149 : Int) else ((2 ^ 23 + m : Nat) : Rat) * 2 ^ ((e : Int) - 150)

/-- The value of a finite float. -/
def val (x : F32) : Rat :=
  (if x.msb then -1 else 1) * magOf (x.extractLsb' 23 8).toNat (x.extractLsb' 0 23).toNat

end F32

end Verif
