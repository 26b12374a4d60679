import Verif.Model.PackRat
import Verif.Model.Params
import Mathlib.Algebra.Order.Group.Unbundled.Abs

/-!
Model of the recognition of binary convolutions in the converter:
`GetScaleVector`, `IsBinaryFilter`, `HasValidFilterShape`
(`/repo/larq_compute_engine/mlir/transforms/prepare_tf.cc:50-88, 117-147`) and the constant operands
of the BConv2D built by `PrepareBConvPadValue0Pat` and the pattern after it
(`/repo/larq_compute_engine/mlir/transforms/prepare_patterns_common.td:98-168`).

The filter of a TensorFlow Conv2D has shape `[kh, kw, ci, co]` (HWIO). Simplification: exact arithmetic.
-/

namespace Verif

/-- Flat index of `{h, w, i, o}` in a tensor of shape `[kh, kw, ci, co]`. -/
def hwio (kw ci co h w i o : Nat) : Nat := ((h * kw + w) * ci + i) * co + o

/-- `std::numeric_limits<float>::epsilon()`. -/
def floatEpsilon : Rat := 1 / 8388608

/-- The float constant `0.005f`. -/
def tolerance : Rat := 5368709 / 1073741824

/-- `GetScaleVector` (prepare_tf.cc:50-65). -/
def scaleVector (kw ci co : Nat) (f : List Rat) : List Rat :=
  (List.range co).map fun o => |f.getD (hwio kw ci co 0 0 0 o) 0|

/-- The four nested loops of `IsBinaryFilter` (prepare_tf.cc:76-87). -/
def isBinaryFilter (kh kw ci co : Nat) (f : List Rat) : Bool :=
  (List.range kh).all fun h => (List.range kw).all fun w => (List.range ci).all fun i => (List.range co).all fun o =>
    let scale := f.getD (hwio kw ci co 0 0 0 o) 0
    if |scale| ≤ floatEpsilon then false
    else
      let value := f.getD (hwio kw ci co h w i o) 0
      if |(|value / scale|) - 1| > tolerance then false else true

/-- The filter operand of the new BConv2D: `Transpose(Div(filter, scale), {3, 0, 1, 2})`
(prepare_patterns_common.td:108-112), of shape `[co, kh, kw, ci]`. The scale has shape `[co]`, so it is
broadcast over the last dimension of the filter. -/
def preparedFilter (kh kw ci co : Nat) (f : List Rat) : List Rat :=
  (List.range (co * kh * kw * ci)).map fun n =>
    let i := n % ci
    let w := n / ci % kw
    let h := n / ci / kw % kh
    let o := n / ci / kw / kh
    f.getD (hwio kw ci co h w i o) 0 / (scaleVector kw ci co f).getD o 0

/-- `HasValidFilterShape` (prepare_tf.cc:117-147), for a filter with at least one input channel and a known
number of input channels. -/
def hasValidFilterShape (totalIn filterIn : Nat) : Bool :=
  if totalIn % filterIn ≠ 0 then false
  else
    let numGroups := totalIn / filterIn
    if numGroups > 1 ∧ filterIn % 32 ≠ 0 then false else true

end Verif
