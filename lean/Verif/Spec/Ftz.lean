import Verif.Spec.Ieee

/-!
The float instructions of 32-bit Arm Advanced SIMD. They round to nearest like IEEE-754 but flush subnormal numbers to zero, both
operands and results (Arm Architecture Reference Manual, "standard FPSCR value"). `fl` is the rounding of the machine
(Spec/Float32).
-/

namespace Verif

/-- The smallest positive normal float. -/
def minNormal : Rat := (2 : Rat) ^ (-126 : Int)

/-- A subnormal operand is read as zero. -/
def flushIn (x : Rat) : Rat := if |x| < minNormal then 0 else x

/-- A result that is subnormal before rounding is replaced by zero. -/
def flushOut (fl : Rat → Rat) (x : Rat) : Rat := if |x| < minNormal then 0 else fl x

/-- The instructions compute correctly rounded results up to flushing subnormals, on finite operands as long as the exact result
is in the finite range. -/
structure FOps.Ftz (F : FOps) (fl : Rat → Rat) : Prop where
  /-- integer to float -/
  scvtf : ∀ x : Word, F32.Finite (F.scvtf x) ∧ F32.val (F.scvtf x) = fl (x.toInt : Rat)
  /-- product -/
  fmul : ∀ a b : F32, a.Finite → b.Finite → |flushIn a.val * flushIn b.val| ≤ maxBinary32 →
    F32.Finite (F.fmul a b) ∧ F32.val (F.fmul a b) = flushOut fl (flushIn a.val * flushIn b.val)
  /-- sum -/
  fadd : ∀ a b : F32, a.Finite → b.Finite → |flushIn a.val + flushIn b.val| ≤ maxBinary32 →
    F32.Finite (F.fadd a b) ∧ F32.val (F.fadd a b) = flushOut fl (flushIn a.val + flushIn b.val)

end Verif
