import Verif.Model.Params
import Mathlib.Order.Lattice
import Mathlib.Data.Int.Order.Basic
import Mathlib.Algebra.Order.Ring.Rat

/-!
Specification of the fused activation functions and of the documented output
transform.
-/

namespace Verif

/-- The activation function applied to the integer convolution result. -/
def Act.apply : Act → Int → Int
  | .none, x => x
  | .relu, x => max x 0
  | .relu6, x => min (max x 0) 6
  | .reluN1To1, x => min (max x (-1)) 1
  | .other, x => x

/-- The TFLite operators Relu, Relu1 and Relu6 on numbers (`none` and `other`: identity). -/
def Act.real : Act → Rat → Rat
  | .relu, x => max x 0
  | .relu6, x => min (max x 0) 6
  | .reluN1To1, x => min (max x (-1)) 1
  | .none, x => x
  | .other, x => x

/-- Integers saturated to the int8 range. -/
def clampInt8 (x : Int) : Int := if x < -128 then -128 else if 127 < x then 127 else x

end Verif
