import Verif.Model.Indirect
import Verif.Model.IndirectA64Code

/-!
Model of the Aarch64 indirect BGEMM kernels
`/repo/larq_compute_engine/core/indirect_bgemm/kernel_8x4x{1,2,4}_aarch64.h` and of their selection
(`/repo/larq_compute_engine/core/indirect_bgemm/select_kernel.h:40-138`): the assembly is executed instruction by instruction
(Model/NeonA64.lean, Model/IndirectA64Code.lean), the C++ code around it is transcribed.

Simplifications: the C++ variables `weights`, `activations`, `accumulators`, `results` live in the registers the assembly
templates name (the statements are `asm volatile` with these operands; the accumulation loops also overwrite the input-only
operands `w_i` and `a_i`, which GCC does not allow, but the output transform reloads both before their next use); sizes and
offsets are natural numbers.
-/

namespace Verif

/-- The three kernels: block size in the depth direction and the assembly (Model/IndirectA64Code.lean). -/
structure NKernel where
  /-- third template number: words per block (`block_size_depth`) -/
  bd : Nat
  /-- smallest `input_depth_per_group` for which `Run` does not return immediately -/
  minDepth : Nat
  /-- pre-loading in `Run` -/
  preload : List NInstr
  /-- XOR_POPCOUNT_ACCUM_LOAD_BLOCK -/
  block : List NInstr
  /-- `AccumulationLoop_Depth2OrMore`, before the loop -/
  pro2 : Bool → List NInstr
  /-- `AccumulationLoop_Depth2OrMore`, after the inner loop -/
  mid2 : Bool → List NInstr
  /-- `AccumulationLoop_Depth1`, before the loop -/
  pro1 : List NInstr
  /-- `AccumulationLoop_Depth1`, loop body before the block -/
  body1 : Bool → List NInstr
  /-- float output transform -/
  otF : Bool → List NInstr
  /-- int8 output transform -/
  otI : Bool → List NInstr

/-- `Kernel8x4x1Aarch64` (kernel_8x4x1_aarch64.h; early return lines 641-644). -/
def kernelX1 : NKernel :=
  ⟨1, 1, x1Preload, x1Block, x1Pro2, x1Mid2, x1Pro1, x1Body1, x1OtF, x1OtI⟩
/-- `Kernel8x4x2Aarch64` (kernel_8x4x2_aarch64.h; early return lines 691-694). -/
def kernelX2 : NKernel :=
  ⟨2, 1, x2Preload, x2Block, x2Pro2, x2Mid2, x2Pro1, x2Body1, x2OtF, x2OtI⟩
/-- `Kernel8x4x4Aarch64` (kernel_8x4x4_aarch64.h; early return lines 749-752). The float and int8 transforms of this kernel do not
depend on `IsGrouped`. -/
def kernelX4 : NKernel :=
  ⟨4, 4, x4Preload, x4Block, x4Pro2, x4Mid2, x4Pro1, x4Body1, fun _ => x4OtF, fun _ => x4OtI⟩

/-- Constructor, `PackWeights` and `FillIndirectionBuffer` (kernel.h:35-175) with block sizes 8 x 4 x `bd`. -/
def mkKernelA64 (p : BConv) (bd : Nat) (filt : List Word) : Option IKernel := do
  let F := p.filtH * p.filtW
  let pw ← packWeights F p.inDepth p.cout p.groups 8 bd filt
  let ind ← fillIndirection p 4
  some ⟨p.inDepth, p.cout, F, p.groups, p.batches * p.outH * p.outW, pw, ind,
    List.replicate (F * p.inDepth) 0#32⟩

/-- The words of the objects of the memory of a kernel: 0 the input tensor, 1 the zero buffer, 2 the packed weights,
4 the multiplier, 5 the bias, 6 the `OutputTransform` struct (output_transform.h:79-83; the pointers in it are in `nPtr`).
`xi` and `xz` are what follows the input tensor and the zero buffer in memory. -/
def nWords (K : IKernel) (inp xi xz mult bias : List Word) (cmin cmax : Int) (o : Nat) : List Word :=
  if o = 0 then inp ++ xi
  else if o = 1 then K.zeroBuffer ++ xz
  else if o = 2 then K.packedWeights
  else if o = 4 then mult
  else if o = 5 then bias
  else if o = 6 then [BitVec.ofInt 32 cmin, BitVec.ofInt 32 cmax, 0#32, 0#32, 0#32, 0#32]
  else []

/-- The address of an indirection pointer. -/
def Ptr.addr : Ptr → NAddr
  | .inp n => ⟨0, 4 * n⟩
  | .zero n => ⟨1, 4 * n⟩

/-- Pointers in memory: the indirection buffer (object 3) and the members `multiplier` and `bias` of `OutputTransform`. -/
def nPtr (K : IKernel) (o i : Nat) : NAddr :=
  if o = 3 then ((K.indirection[i / 8]?).map Ptr.addr).getD ⟨7, 0⟩
  else if o = 6 then (if i = 8 then ⟨4, 0⟩ else if i = 16 then ⟨5, 0⟩ else ⟨7, 0⟩)
  else ⟨7, 0⟩

/-- The memory the kernel reads. -/
def nMem (K : IKernel) (inp xi xz mult bias : List Word) (cmin cmax : Int) : NMem where
  size o := if o = 3 then 8 * K.indirection.length else 4 * (nWords K inp xi xz mult bias cmin cmax o).length
  byte o i := wordByte (((nWords K inp xi xz mult bias cmin cmax o)[i / 4]?).getD 0#32) (i % 4)
  ptr := nPtr K

/-- Go on only if no access was outside its object. -/
def nCheck (s : NState) : Option NState := if s.ok then some s else none

/-- `AccumulationLoop_Depth2OrMore` (kernel_8x4x1_aarch64.h:113-191): the two nested loops share the label `0`, both branch on
`gt`. -/
def nLoop2 (A : NKernel) (F : FOps) (m : NMem) (g : Bool) (o : NOps) (fs : Nat) (s : NState) : Option NState :=
  doWhile (·.gt) (fun s =>
    (doWhile (·.gt) (fun s => some (nExecs F m o (.subsW1 :: A.block) s)) (o.depth + 1) s).map
      (nExecs F m o (A.mid2 g ++ A.block))) (fs + 1)
    (nExecs F m o (A.pro2 g) { s with fs := fs })

/-- `AccumulationLoop_Depth1` (kernel_8x4x1_aarch64.h:193-245). -/
def nLoop1 (A : NKernel) (F : FOps) (m : NMem) (g : Bool) (o : NOps) (fs : Nat) (s : NState) : Option NState :=
  doWhile (·.gt) (fun s => some (nExecs F m o (A.body1 g ++ A.block) s)) (fs + 1)
    (nExecs F m o A.pro1 { s with fs := fs })

/-- The call of an accumulation loop (kernel_8x4x1_aarch64.h:706-714): `indirection_ptr` is passed by value. -/
def nAccum (A : NKernel) (F : FOps) (m : NMem) (d2 g : Bool) (o : NOps) (fs : Nat) (s : NState) : Option NState :=
  ((if d2 then nLoop2 A F m g o fs s else nLoop1 A F m g o fs s).map
    fun s' => { s' with x := setX s'.x 21 (s.x 21) }).bind nCheck

/-- The address operands of the output transform (kernel_8x4x1_aarch64.h:339-343, kernel_8x4x4_aarch64.h:462-464). -/
def nOtRegs (c : Nat) (x : Nat → NAddr) : Nat → NAddr :=
  setX (setX (setX (setX (setX x 22 ⟨6, 0⟩) 23 ⟨6, 4⟩) 24 ⟨4, 4 * c⟩) 25 ⟨5, 4 * c⟩) 26 ⟨6, 0⟩

/-- State of the output channel loop. -/
structure NChan (α : Type) where
  s : NState
  o0 : Nat
  o1 : Nat
  o2 : Nat
  o3 : Nat
  off : Nat
  groupEnd : Nat
  c : Nat
  out : List α

/-- Storing the results (kernel_8x4x1_aarch64.h:349-403 and 538-590): eight channels per pixel, last pixel first, or channel by
channel up to the end of the group (channel 0 unconditionally, channel `j` if `group_end - c >= j + 1`, at most 7). -/
def nStore {α : Type} (res : Nat → Nat → α) (t : NChan α) : Option (NChan α) :=
  if t.c + 8 ≤ t.groupEnd then do
    let out ← forN 8 (fun j out => wr out (t.o3 + j) (res 3 j)) t.out
    let out ← forN 8 (fun j out => wr out (t.o2 + j) (res 2 j)) out
    let out ← forN 8 (fun j out => wr out (t.o1 + j) (res 1 j)) out
    let out ← forN 8 (fun j out => wr out (t.o0 + j) (res 0 j)) out
    some { t with out := out, o0 := t.o0 + 8, o1 := t.o1 + 8, o2 := t.o2 + 8, o3 := t.o3 + 8, c := t.c + 8 }
  else do
    let n := min 7 (max 1 (t.groupEnd - t.c))
    let out ← forN n (fun j out => do
      let out ← wr out (t.o3 + j) (res 3 j)
      let out ← wr out (t.o2 + j) (res 2 j)
      let out ← wr out (t.o1 + j) (res 1 j)
      wr out (t.o0 + j) (res 0 j)) t.out
    some { t with out := out, o0 := t.o0 + n, o1 := t.o1 + n, o2 := t.o2 + n, o3 := t.o3 + n, c := t.groupEnd }

/-- Body of the output channel loop (kernel_8x4x1_aarch64.h:703-732). `ot` is the output transform of the destination type,
`res` where it leaves the result of a pixel and channel. -/
def nChanStep {α : Type} (A : NKernel) (ot : Bool → List NInstr) (res : (Nat → Nat → BitVec 8) → Nat → Nat → α) (F : FOps)
    (m : NMem) (d2 g : Bool) (K : IKernel) (t : NChan α) : Option (NChan α) := do
  let D := K.inputDepth / K.groups
  let s ← nAccum A F m d2 g ⟨D / A.bd, t.off, 0⟩ K.filterSize t.s
  let last := g && decide (t.groupEnd ≤ t.c + 8)
  let off := if last then t.off + D else t.off
  let next := if last then t.groupEnd + K.outputChannels / K.groups else t.groupEnd
  let s ← nCheck (nExecs F m ⟨D / A.bd, off, t.c⟩ (ot g) { s with x := nOtRegs t.c s.x })
  let t ← nStore (res s.v) { t with s := s, off := off }
  some { t with groupEnd := if g then next else t.groupEnd }

/-- One iteration of the pixel loop (kernel_8x4x1_aarch64.h:661-733) with `p_index = p`; `v` and `x` are what the registers
held before. -/
def nTile {α : Type} (A : NKernel) (ot : Bool → List NInstr) (res : (Nat → Nat → BitVec 8) → Nat → Nat → α) (F : FOps)
    (m : NMem) (d2 g : Bool) (K : IKernel) (v : Nat → Nat → BitVec 8) (x : Nat → NAddr) (pixelEnd p : Nat) (out : List α) :
    Option (List α) := do
  let o0 := p * K.outputChannels
  let o1 := o0 + K.outputChannels
  let o2 := o1 + K.outputChannels
  let o3 := o2 + K.outputChannels
  let rest := pixelEnd - p
  let o3 := if rest < 4 then o0 else o3
  let o2 := if rest < 3 then o0 else o2
  let o1 := if rest < 2 then o0 else o1
  let s ← nCheck (nExecs F m ⟨0, 0, 0⟩ A.preload
    { v := v, x := setX (setX x 20 ⟨2, 0⟩) 21 ⟨3, 8 * (p * K.filterSize)⟩, w1 := 0, fs := 0, gt := false, ok := true })
  let t ← doWhile (fun t => decide (t.c < K.outputChannels)) (nChanStep A ot res F m d2 g K) (K.outputChannels + 1)
    ⟨s, o0, o1, o2, o3, 0, K.outputChannels / K.groups, 0, out⟩
  some t.out

/-- `Run(0, num_output_pixels, output)` via `Dispatch` (kernel.h:181-184, kernel_8x4x1_aarch64.h:637-735). -/
def nRun {α : Type} (A : NKernel) (ot : Bool → List NInstr) (res : (Nat → Nat → BitVec 8) → Nat → Nat → α) (F : FOps)
    (m : NMem) (d2 g : Bool) (K : IKernel) (v : Nat → Nat → BitVec 8) (x : Nat → NAddr) (out : List α) : Option (List α) :=
  if K.filterSize < 1 ∨ K.inputDepth / K.groups < A.minDepth ∨ K.outputChannels / K.groups < 1 then some out
  else forN (ceilDiv K.numOutputPixels 4)
    (fun t out => nTile A ot res F m d2 g K v x K.numOutputPixels (4 * t) out) out

/-- Where the float transform leaves its results (`results[p].val[j / 4]`, lane `j % 4`; kernel_8x4x1_aarch64.h:349-393). -/
def resF (v : Nat → Nat → BitVec 8) (p j : Nat) : Word := laneWord (v (32 + 2 * p + j / 4)) (j % 4)
/-- Where the int8 transform leaves its results (the low half of `results[p].val[0]`; kernel_8x4x1_aarch64.h:538-585). -/
def resI (v : Nat → Nat → BitVec 8) (p j : Nat) : BitVec 8 := v (32 + 2 * p) j

/-- `SelectRuntimeKernel` for float and int8 output on Aarch64 (select_kernel.h:40-138), when the 16-bit accumulators are chosen
(`indirect16Selected`, Model/Accum16.lean): the kernel, `Depth2OrMore` and `IsGrouped`. -/
def selectA64 (p : BConv) : NKernel × Bool × Bool :=
  let D := p.inDepth / p.groups
  let g := decide (1 < p.groups)
  if D % 4 = 0 then (kernelX4, decide (4 < D), g)
  else if D % 2 = 0 then (kernelX2, decide (2 < D), g)
  else (kernelX1, decide (1 < D), g)

/-- `EvalOptIndirectBGEMM<float>` with a fresh kernel on Aarch64 (bconv2d.cc:464-497), without zero padding. -/
def bconvA64F (p : BConv) (inp xi xz filt mult bias : List Word) (cmin cmax : Int) (F : FOps) (v : Nat → Nat → BitVec 8)
    (x : Nat → NAddr) (out : List Word) : Option (List Word) := do
  let (A, d2, g) := selectA64 p
  let K ← mkKernelA64 p A.bd filt
  nRun A A.otF resF F (nMem K inp xi xz mult bias cmin cmax) d2 g K v x out

/-- `EvalOptIndirectBGEMM<int8_t>` with a fresh kernel on Aarch64 (bconv2d.cc:464-497). -/
def bconvA64I (p : BConv) (inp xi xz filt mult bias : List Word) (cmin cmax : Int) (F : FOps) (v : Nat → Nat → BitVec 8)
    (x : Nat → NAddr) (out : List (BitVec 8)) : Option (List (BitVec 8)) := do
  let (A, d2, g) := selectA64 p
  let K ← mkKernelA64 p A.bd filt
  nRun A A.otI resI F (nMem K inp xi xz mult bias cmin cmax) d2 g K v x out

end Verif
