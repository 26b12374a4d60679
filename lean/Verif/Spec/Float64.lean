import Verif.Spec.Float32

/-! Specification of IEEE-754 binary64 rounding on finite values. -/

namespace Verif

/-- The finite binary64 numbers. -/
def Binary64 (x : Rat) : Prop :=
  ∃ m e : Int, |m| < 2 ^ 53 ∧ -1074 ≤ e ∧ e ≤ 971 ∧ x = (m : Rat) * 2 ^ e

/-- The largest finite binary64 number. -/
def maxBinary64 : Rat := ((2 ^ 53 - 1 : Int) : Rat) * 2 ^ (971 : Int)

/-- `fl` rounds every number of the finite range to a nearest binary64 number. -/
def RoundsToNearest64 (fl : Rat → Rat) : Prop :=
  ∀ x, |x| ≤ maxBinary64 → Binary64 (fl x) ∧ ∀ f, Binary64 f → |fl x - x| ≤ |f - x|

end Verif
