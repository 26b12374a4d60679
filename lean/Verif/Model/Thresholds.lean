import Verif.Model.Params
import Mathlib.Algebra.Order.Ring.Rat
import Mathlib.Algebra.Order.Group.Unbundled.Abs

/-!
Model of the threshold computation of the converter
(`/repo/larq_compute_engine/mlir/transforms/optimize.cc:125-247`) and of the constant
operands of the pattern `WriteBitpackedActivationsPat`
(`/repo/larq_compute_engine/mlir/transforms/bitpack_activations_patterns.td:21-62`).

Floats are rationals (finite values). Every float operation is followed by `fl`, the
rounding of `float`; `fl = id` is exact arithmetic. The multiplication by `0.5` (a double
constant) happens in double and is exact. Overflow to infinity, NaN and fused
multiply-add contraction are not modelled.
-/

namespace Verif

/-- The body of the loop of `ComputeWriteBitpackedOutputThresholds` (optimize.cc:138-183):
the threshold of one channel. -/
def thresholdOf (fl : Rat → Rat) (backtransformAdd clampMin clampMax mult bias : Rat) : Int :=
  if mult = 0 then
    if bias < 0 then -2147483648 else 2147483647
  else
    let (effMin, effMax) := if 0 < mult then (clampMin, clampMax) else (-1 * clampMax, -1 * clampMin)
    let start := fl (fl (effMin * |mult|) + bias)
    let stop := fl (fl (effMax * |mult|) + bias)
    if start < 0 ∧ stop < 0 then -2147483648
    else if 0 ≤ start ∧ 0 ≤ stop then 2147483647
    else ((1 / 2 : Rat) * fl (fl (bias / |mult|) + backtransformAdd)).floor

/-- The clamping range of `GetBitpackedOutputThresholds` (optimize.cc:224-233). -/
def thresholdClamp (act : Act) (backtransformAdd : Int) : Int × Int :=
  match act with
  | .relu => (0, backtransformAdd)
  | .reluN1To1 => (-1, 1)
  | .relu6 => (0, 6)
  | .none => (-1 * backtransformAdd, backtransformAdd)
  | .other => (-1 * backtransformAdd, backtransformAdd)

/-- `GetBitpackedOutputThresholds` (optimize.cc:207-247) for a filter of shape
`[_, fh, fw, cinG]`: the three ints are converted to float, then
`ComputeWriteBitpackedOutputThresholds` zips multipliers and biases. -/
def bitpackedThresholds (fl : Rat → Rat) (fh fw cinG : Nat) (act : Act) (mult bias : List Rat) : List Int :=
  let a : Int := (fh * fw * cinG : Nat)
  let (lo, hi) := thresholdClamp act a
  List.zipWith (thresholdOf fl (fl a) (fl lo) (fl hi)) mult bias

/-- `GetSignsOfVectorAndBroadcast4D` (optimize.cc:187-205): the sign vector, to be read as
a tensor of shape `[n, 1, 1, 1]`. -/
def signsOf (v : List Rat) : List Rat := v.map fun x => if 0 ≤ x then 1 else -1

/-- The constant-folded `TFL_MulOp filter signs` (bitpack_activations_patterns.td:41-45) for
a filter of shape `[cout, fh, fw, cinG]` and a `[cout, 1, 1, 1]` operand: broadcasting
repeats entry `o` over the `pixels = fh*fw*cinG` elements of output channel `o`. -/
def mulSigns (pixels : Nat) (filter signs : List Rat) : List Rat :=
  (List.range filter.length).map fun i => filter.getD i 0 * signs.getD (i / pixels) 0

end Verif
