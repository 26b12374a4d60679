import Verif.Model.GemmA64
import Verif.Model.GemmA32
import Verif.Model.Accum16
import Verif.Spec.OutputBits

/-!
Model of how a BGEMM convolution reaches a kernel on each platform.

* `/repo/larq_compute_engine/tflite/kernels/bconv2d.cc` lines 519-541 (`EvalChooseKernelType`): width of the accumulators
* `/repo/larq_compute_engine/core/bgemm/bgemm.h` lines 62-79 (`SelectedPath`) and
  `core/bgemm/ruy_trmul_params.h` lines 14-57: path, fallback when a matrix is not column major
* `/repo/larq_compute_engine/core/bgemm/kernels.h` lines 23-214: the kernel and its layout for a path, accumulator and output type
* `/repo/larq_compute_engine/core/bconv2d/optimized_bgemm.h` lines 117-183: zero fill, matrix orders

Simplifications: builds with `RUY_OPT(ASM)` (the default); without the zero-padding correction (Model/ZeroPaddingPlatform). The portable kernels compute the
output transform without contracting the product and the sum into one instruction.
-/

namespace Verif

/-- The platforms the code distinguishes: neither NEON, 32-bit Arm (`RUY_PLATFORM_NEON_32`), 64-bit Arm (`RUY_PLATFORM_NEON_64`). -/
inductive Platform
  | portable
  | arm32
  | aarch64
deriving DecidableEq, Repr

/-- `DstScalar`: float, int8_t or TBitpacked (bconv2d.cc:547-561). -/
inductive Dst
  | float
  | int8
  | bits
deriving DecidableEq, Repr

/-- `ruy::Path`, as far as it is used. -/
inductive GPath
  | neon
  | standardCpp
deriving DecidableEq, Repr

/-- The storage order of a matrix. -/
inductive MOrder
  | colMajor
  | rowMajor
deriving DecidableEq, Repr

/-- Transposed view of a matrix (`ruy::Transpose`). -/
def MOrder.transpose : MOrder → MOrder
  | .colMajor => .rowMajor
  | .rowMajor => .colMajor

/-- `EvalChooseKernelType<kOptimizedBGEMM>` (bconv2d.cc:522-541): are the accumulators 16 bits wide? -/
def accumIs16 (pl : Platform) (p : BConv) : Bool :=
  match pl with
  | .aarch64 => bgemm16Selected p
  | _ => false

/-- `SelectedPath` (bgemm.h:62-72). -/
def selectedPath (pl : Platform) (a16 : Bool) (d : Dst) : GPath :=
  match pl with
  | .portable => .standardCpp
  | _ => if a16 || decide (d = .float) || decide (d = .int8) then .neon else .standardCpp

/-- `PopulateBGemmTrMulParams` (ruy_trmul_params.h:14-18, 38-43): the optimised path only if all three matrices are column major. -/
def trMulPath (path : GPath) (lhs rhs dst : MOrder) : GPath :=
  if lhs = .colMajor ∧ rhs = .colMajor ∧ dst = .colMajor then path else .standardCpp

/-- The path of a convolution: filter row major and transposed, the others column major (optimized_bgemm.h:133-156,
bgemm.h:75-77). -/
def bgemmPath (pl : Platform) (p : BConv) (d : Dst) : GPath :=
  trMulPath (selectedPath pl (accumIs16 pl p) d) (MOrder.transpose .rowMajor) .colMajor .colMajor

/-- The layout of the selected kernel: rows and columns of a block (kernels_common.h:26-44, kernels.h:147-148, 180-181, 205-206). -/
def bgemmLayout (pl : Platform) (p : BConv) (d : Dst) : Nat × Nat :=
  match bgemmPath pl p d with
  | .standardCpp => if d = .bits then (32, 1) else (1, 1)
  | .neon => if accumIs16 pl p then (8, 4) else (4, 4)

/-- `OutputTransform<int8_t>::Run` (output_transform.h:130-141) in C++: `rnd` is `core::round` on the bit pattern of a float; the
conversion to int32 is undefined out of range. -/
def runInt8Cpp (F : FOps) (rnd : Word → Int) (cmin cmax : Int) (mult bias : List Word) (accum c : Nat) : Option (BitVec 8) := do
  let y ← runFloatBits F cmin cmax mult bias accum c
  let r ← chk32 (rnd y)
  some (BitVec.ofInt 8 (saturate r))

/-- The writes of a float convolution. `stream` is `RUY_OPT(MAX_STREAMING)`, `tmp` the contents of `dst_tmp_buf`. -/
def bgemmFloatTraces (pl : Platform) (stream : Bool) (tmp : List Word) (E : GemmEnv) (p : BConv) (fat : Bool) (blocks : List Blk)
    (inp filt : List Word) : Option (List (List (Write Word))) :=
  match bgemmPath pl p .float, pl, accumIs16 pl p with
  | .neon, .aarch64, true => bgemmA64Traces false (gKern8F tmp) E p fat blocks inp filt
  | .neon, .aarch64, false => bgemmA64Traces false (gKern4F stream tmp) E p fat blocks inp filt
  | .neon, _, _ => bgemmA32Traces (aKernF tmp) E p fat blocks inp filt
  | .standardCpp, _, _ => bgemmTraces p fat blocks inp filt (runFloatBits E.F E.cmin E.cmax E.mult E.bias)

/-- The writes of an int8 convolution. -/
def bgemmInt8Traces (pl : Platform) (stream : Bool) (rnd : Word → Int) (tmp : List (BitVec 8)) (E : GemmEnv) (p : BConv) (fat : Bool)
    (blocks : List Blk) (inp filt : List Word) : Option (List (List (Write (BitVec 8)))) :=
  match bgemmPath pl p .int8, pl, accumIs16 pl p with
  | .neon, .aarch64, true => bgemmA64Traces false (gKern8I tmp) E p fat blocks inp filt
  | .neon, .aarch64, false => bgemmA64Traces false (gKern4I stream tmp) E p fat blocks inp filt
  | .neon, _, _ => bgemmA32Traces (aKernI tmp) E p fat blocks inp filt
  | .standardCpp, _, _ => bgemmTraces p fat blocks inp filt (runInt8Cpp E.F rnd E.cmin E.cmax E.mult E.bias)

/-- The bytes of a list of words in memory order (little endian). -/
def memBytes (ws : List Word) : List (BitVec 8) := ws.flatMap fun w => [wordByte w 0, wordByte w 1, wordByte w 2, wordByte w 3]

/-- The writes of a bitpacked convolution: words in the portable kernel, bytes in the assembly kernel. The thresholds are in `E.mult`.
There is no assembly kernel for bitpacked output with 32-bit accumulators (`static_assert` in kernels.h:157-159, 217-219). -/
def bgemmBitsTraces (pl : Platform) (E : GemmEnv) (p : BConv) (fat : Bool) (blocks : List Blk) (inp filt : List Word) :
    Option (List (List (Write Word)) ⊕ List (List (Write (BitVec 8)))) :=
  match bgemmPath pl p .bits, pl, accumIs16 pl p with
  | .neon, .aarch64, true => (bgemmA64Traces true gKern8B E p fat blocks inp filt).map .inr
  | .neon, _, _ => none
  | .standardCpp, _, _ => (bgemmTracesBits p fat blocks inp filt (runThreshold (E.mult.map BitVec.toInt))).map .inl

/-- The memory after the zero fill (optimized_bgemm.h:117-128) and the writes of a bitpacked convolution, in some interleaving of the
blocks' writes. -/
def bitsResult (p : BConv) (trs : List (List (Write Word)) ⊕ List (List (Write (BitVec 8)))) (out0 out : List Word) : Prop :=
  ∃ out', bgemmClear p out0 = some out' ∧
    match trs with
    | .inl t => ∃ L, L.Perm t.flatten ∧ applyWrites L out' = some out
    | .inr t => ∃ L, L.Perm t.flatten ∧ applyWrites L (memBytes out') = some (memBytes out)

/-- The result of a float or int8 convolution in some interleaving. -/
def elemResult {α : Type} (trs : List (List (Write α))) (out0 out : List α) : Prop :=
  ∃ L, L.Perm trs.flatten ∧ applyWrites L out0 = some out

end Verif
