import Verif.Model.GemmA64
import Verif.Model.GemmA32Code

/-!
Model of the 32-bit Arm BGEMM kernel `BinaryKernelNeon4x4` (`/repo/larq_compute_engine/core/bgemm/kernels_arm32.h`).
The straight-line parts are executed instruction by instruction (Model/NeonA64.lean, Model/GemmA32Code.lean). The branches, the
scalar arithmetic, the stores and the movements between the stack and registers are those of the Aarch64 4x4 kernel (`gStep`,
`gKernel` in Model/GemmA64.lean, with the same simplifications): `tools/gen_a32_bgemm.py` checks the instructions of this file one
by one against kernels_arm32.h:171-567. What differs: the layout of `params`, where the accumulators are, the accumulation (no
streaming) and the conversion to int8.
-/

namespace Verif

/-- The words of the objects of the memory of the kernel, as `gWords`; `clamp_min` and `clamp_max` are the words 13 and 14 of
`params` (kernels_arm32.h:14-30). -/
def aWords (lhs xl rhs xr mult bias : List Word) (cmin cmax : Int) (o : Nat) : List Word :=
  if o = 6 then List.replicate 13 0#32 ++ [BitVec.ofInt 32 cmin, BitVec.ofInt 32 cmax, 0#32, 0#32]
  else gWords lhs xl rhs xr mult bias cmin cmax o

/-- The pointers in `params`: `multiplier` at 60 and `bias` at 64 (kernels_arm32.h:29-30). -/
def aPtr (o i : Nat) : NAddr :=
  if o = 6 then (if i = 60 then ⟨4, 0⟩ else if i = 64 then ⟨5, 0⟩ else ⟨7, 0⟩) else ⟨7, 0⟩

/-- The memory the kernel reads. -/
def aMem (lhs xl rhs xr mult bias : List Word) (cmin cmax : Int) : NMem where
  size o := 4 * (aWords lhs xl rhs xr mult bias cmin cmax o).length
  byte o i := wordByte (((aWords lhs xl rhs xr mult bias cmin cmax o)[i / 4]?).getD 0#32) (i % 4)
  ptr := aPtr

/-- The accumulation of a block (kernels_arm32.h:216-244); the first component of the state of the loop is `r1`. -/
def a4Accum (F : FOps) (m : NMem) (depth : Nat) (s : NState) : Option NState :=
  let s := nExecs F m (gOps 0) a4First s
  if 4 = depth then some s
  else (doWhile (fun t => decide (t.1 < depth)) (fun t => some (t.1 + 4, nExecs F m (gOps 0) a4Loop t.2)) (depth + 1)
    (4, s)).map (·.2)

/-- Where the float results are: `q8 q9 q10 q11` (kernels_arm32.h:451-456). -/
def a4ResF (v : Nat → Nat → BitVec 8) (c r : Nat) : Word := laneWord (v (8 + c)) r
/-- Where the int8 results are: the low words of `d16 d18 d20 d22` (kernels_arm32.h:460-465). -/
def a4ResI (v : Nat → Nat → BitVec 8) (c r : Nat) : BitVec 8 := v (8 + c) r

/-- `BinaryKernelNeon4x4<float>` (kernels_arm32.h:149-577). -/
def aKernF (tmp : List Word) : GKern Word := ⟨4, a4Pre, a4Accum, a4OtF, a4Zero, gStore 4 tmp a4ResF, 4⟩
/-- `BinaryKernelNeon4x4<int8_t>`. -/
def aKernI (tmp : List (BitVec 8)) : GKern (BitVec 8) := ⟨4, a4Pre, a4Accum, a4OtI, a4Zero, gStore 4 tmp a4ResI, 4⟩

/-- `BGemmKernel<kNeon, ...>::Run` on 32-bit Arm for the block `b` (kernels.h:143-166): as `gRun`. -/
def aRun {α : Type} (K : GKern α) (E : GemmEnv) (rows cols k : Nat) (lhs rhs : List Word) (b : Blk)
    (tr : List (Write α)) : Option (List (Write α)) :=
  gKernel K E.F
    (aMem (gPacked K.kr k rows k E.ls lhs) E.xl (gPacked 4 k cols k E.rs rhs) E.xr E.mult E.bias E.cmin E.cmax)
    (mkGParams false K.kr rows cols (ceilMul k 4) E.ls E.rs b) E.v E.x tr

/-- The traces of `BConv2DOptimizedBGEMM` (optimized_bgemm.h:63-183) with this kernel under a given schedule, without the
zero-padding correction. -/
def bgemmA32Traces {α : Type} (K : GKern α) (E : GemmEnv) (p : BConv) (fat : Bool) (blocks : List Blk)
    (inp filt : List Word) : Option (List (List (Write α))) := do
  let (rhs, k, m) ← im2colRhs p inp
  scheduleTraces (runTyped fat K.kr 4 (aRun K E p.cout m k filt rhs)) blocks

end Verif
