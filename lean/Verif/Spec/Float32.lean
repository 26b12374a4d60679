import Mathlib.Algebra.Order.Field.Basic
import Mathlib.Algebra.Order.Field.Power
import Mathlib.Algebra.Order.Ring.Rat
import Mathlib.Tactic.Linarith

/-!
Specification of IEEE-754 binary32 rounding on finite values: the set of representable
numbers, and what it means for a function to round to nearest (any tie-breaking rule, so
round-half-even in particular).
-/

namespace Verif

/-- The finite binary32 numbers: `m * 2^e` with a significand of at most 24 bits. -/
def Binary32 (x : Rat) : Prop :=
  ∃ m e : Int, |m| < 2 ^ 24 ∧ -149 ≤ e ∧ e ≤ 104 ∧ x = (m : Rat) * 2 ^ e

/-- The largest finite binary32 number. -/
def maxBinary32 : Rat := ((2 ^ 24 - 1 : Int) : Rat) * 2 ^ (104 : Int)

/-- `fl` rounds every number of the finite range to a nearest binary32 number. -/
def RoundsToNearest (fl : Rat → Rat) : Prop :=
  ∀ x, |x| ≤ maxBinary32 → Binary32 (fl x) ∧ ∀ f, Binary32 f → |fl x - x| ≤ |f - x|

end Verif
