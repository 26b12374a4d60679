import Verif.Model.Params

/-!
Model of the padding checks of the converter:
`/repo/larq_compute_engine/mlir/transforms/padding.h`,
`IsSamePadding` in `/repo/larq_compute_engine/mlir/transforms/prepare_tf.cc:93-119` and
`/repo/larq_compute_engine/mlir/transforms/fuse_padding.cc`.

Padding amounts are natural numbers (TensorFlow rejects negative ones). Shapes are lists of
`int64_t` where `ShapedType::kDynamic` stands for an unknown dimension.
-/

namespace Verif

/-- `ShapedType::kDynamic` (MLIR of TensorFlow 2.16: the smallest `int64_t`). -/
def kDynamic : Int := -9223372036854775808

/-- Conversion of an `int64_t` shape entry to the `int` parameters `input_size`,
`output_size` of `IsSamePadding1D` (padding.h:34-35). -/
def toCInt (d : Int) : Int := (BitVec.ofInt 32 d).toInt

/-- `CeilDiv` (core/types.h:96-99) on C++ ints. -/
def ceilDivC (a b : Int) : Int := (a + b - 1).tdiv b

/-- A `[4, 2]` padding tensor: (before, after) for each dimension. -/
structure Pads where
  n : Nat × Nat
  h : Nat × Nat
  w : Nat × Nat
  c : Nat × Nat

/-- `IsSamePadding1D` (padding.h:34-44). -/
def isSamePadding1D (pad : Nat × Nat) (inputSize outputSize : Int) (stride : Int) : Bool :=
  let padTotal := pad.1 + pad.2
  decide (toCInt outputSize = ceilDivC (toCInt inputSize) stride) &&
    decide (pad.1 = padTotal / 2) && decide (pad.2 = (padTotal + 1) / 2)

/-- `IsNoPadding` (padding.h:46-49). -/
def isNoPadding (pad : Nat × Nat) : Bool := decide (pad.1 = 0) && decide (pad.2 = 0)

/-- `IsSamePadding` (prepare_tf.cc:93-119), and also the conjunction of
`NoBatchAndChannelPadding`, `SamePaddingHeight` and `SamePaddingWidth` required by the four
patterns of fuse_padding.td (fuse_padding.cc:9-33). Shapes that are not of rank 4 are rejected
(`GetShape4D`, padding.h:26-32). -/
def isSamePadding (pads : Pads) (inShape outShape : List Int) (strideH strideW : Int) : Bool :=
  match inShape, outShape with
  | [_, ih, iw, _], [_, oh, ow, _] =>
    isNoPadding pads.n && isSamePadding1D pads.h ih oh strideH && isSamePadding1D pads.w iw ow strideW &&
      isNoPadding pads.c
  | _, _ => false

end Verif
