import Verif.Model.OutputTransform
import Verif.Model.NeonA64

/-!
The output transforms of `/repo/larq_compute_engine/core/bconv2d/output_transform.h` on bit patterns, with the floating-point
operations of the machine left abstract (`FOps`): conversion of an int32, product, sum, and conversion to the nearest int32.
The transforms of Model/OutputTransform.lean are the same with exact arithmetic.
-/

namespace Verif

/-- `OutputTransform<float>::Run` (output_transform.h:99-105). -/
def runFloatBits (F : FOps) (cmin cmax : Int) (mult bias : List Word) (accum c : Nat) : Option Word := do
  let a ← chk32 accum
  let x ← chk32 (a * 2)
  let x := max (min x cmax) cmin
  let m ← rd mult c
  let b ← rd bias c
  some (F.fadd (F.fmul (F.scvtf (BitVec.ofInt 32 x)) m) b)

/-- `OutputTransform<int8_t>::Run` (output_transform.h:130-141), with `F.fcvtns` as rounding (nearest, ties to even) and the
result clamped to -128..127. -/
def runInt8Bits (F : FOps) (cmin cmax : Int) (mult bias : List Word) (accum c : Nat) : Option (BitVec 8) := do
  let y ← runFloatBits F cmin cmax mult bias accum c
  some (BitVec.ofInt 8 (max (-128) (min 127 (F.fcvtns y).toInt)))

/-- The int8 transform of the 32-bit Arm kernel: the float result is converted to fixed point with 8 fraction bits (`F.fcvtFix8`,
toward zero), rounded to an integer (half up) and clamped to -128..127. Not a function of the code base: the specification C57
compares the kernel with; what it computes in terms of the float result is `C57_a32_int8_rounding`. -/
def runInt8Fix8Bits (F : FOps) (cmin cmax : Int) (mult bias : List Word) (accum c : Nat) : Option (BitVec 8) := do
  let y ← runFloatBits F cmin cmax mult bias accum c
  some (BitVec.ofInt 8 (max (-128) (min 127 (((F.fcvtFix8 y).toInt + 128) / 256))))

end Verif
