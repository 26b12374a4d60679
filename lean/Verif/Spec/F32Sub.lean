import Verif.Spec.F32Val

/-!
IEEE-754 binary32 comparison and subtraction on bit patterns, including infinities and NaN. `fl` is the rounding of the machine
(Spec/Float32). Which zero a zero difference is, which NaN is produced and whether an overflowing difference becomes the largest
number or an infinity are left open.
-/

namespace Verif

namespace F32

/-- An infinity. -/
def isInf (x : F32) : Prop := x = 0x7F800000#32 ∨ x = 0xFF800000#32

/-- The float with the opposite sign. -/
def negate (x : F32) : F32 := x ^^^ 0x80000000#32

/-- IEEE `>=`: false if an operand is NaN. -/
def ge (a b : F32) : Bool := !a.isNaN && !b.isNaN && !(F32.lt a b)

/-- `sub` is an IEEE-754 subtraction with rounding `fl` and gradual underflow. -/
structure IeeeSub (sub : F32 → F32 → F32) (fl : Rat → Rat) : Prop where
  /-- NaN propagates -/
  nan : ∀ a b : F32, a.isNaN = true ∨ b.isNaN = true → F32.isNaN (sub a b) = true
  /-- `inf - inf` -/
  inf_inf : ∀ a : F32, a.isInf → F32.isNaN (sub a a) = true
  /-- `inf - b` -/
  inf_left : ∀ a b : F32, a.isInf → b.isNaN = false → b ≠ a → sub a b = a
  /-- `a - inf` -/
  inf_right : ∀ a b : F32, a.Finite → b.isInf → sub a b = b.negate
  /-- finite difference -/
  finite : ∀ a b : F32, a.Finite → b.Finite → |a.val - b.val| ≤ maxBinary32 →
    F32.Finite (sub a b) ∧ F32.val (sub a b) = fl (a.val - b.val)
  /-- overflow: the largest number or an infinity, with the sign of the difference -/
  overflow : ∀ a b : F32, a.Finite → b.Finite → maxBinary32 < |a.val - b.val| →
    if a.val < b.val then sub a b = 0xFF7FFFFF#32 ∨ sub a b = 0xFF800000#32
    else sub a b = 0x7F7FFFFF#32 ∨ sub a b = 0x7F800000#32

end F32

end Verif
