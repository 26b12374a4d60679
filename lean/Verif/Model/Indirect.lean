import Verif.Basic.While
import Verif.Model.Reference

/-!
Model of the portable indirect BGEMM:
`/repo/larq_compute_engine/core/indirect_bgemm/kernel.h`,
`/repo/larq_compute_engine/core/indirect_bgemm/kernel_4x2_portable.h` and
`/repo/larq_compute_engine/core/bconv2d/optimized_indirect_bgemm.h`.

A `TBitpacked*` in the indirection buffer points into the input tensor or into the
zero buffer. Accumulators are `Nat` (int32 in the code; C09/C19 bound them).
-/

namespace Verif

/-- A pointer of the indirection buffer (kernel.h:31): into the input tensor or into
`zero_buffer`, with its offset in words. -/
inductive Ptr where
  | inp (off : Nat)
  | zero (off : Nat)
deriving DecidableEq, Repr

/-- Pointer arithmetic `ptr + n`. -/
def Ptr.add : Ptr → Nat → Ptr
  | .inp o, n => .inp (o + n)
  | .zero o, n => .zero (o + n)

/-- Dereference: a checked read from the buffer pointed into. -/
def Ptr.deref (inp zero : List Word) : Ptr → Option Word
  | .inp o => rd inp o
  | .zero o => rd zero o

/-- The data members of `Kernel` (kernel.h:18-33) for given block sizes. -/
structure IKernel where
  inputDepth : Nat
  outputChannels : Nat
  filterSize : Nat
  groups : Nat
  numOutputPixels : Nat
  packedWeights : List Word
  indirection : List Ptr
  zeroBuffer : List Word

/-- The two innermost loops of `PackWeights` (kernel.h:75-88): copy one weight per output
channel of the block and depth offset. The state is `(packed_weights_index,
packed_weights)`. -/
def packInner (weights : List Word) (F D opg bd g blockStart bs fi ci : Nat)
    (st : Nat × List Word) : Option (Nat × List Word) :=
  forN bs (fun o st =>
    forN bd (fun co st => do
      let v ← rd weights (g * opg * F * D + (blockStart + o) * F * D + fi * D + ci + co)
      let buf ← wr st.2 st.1 v
      some (st.1 + 1, buf)) st) st

/-- `Kernel::PackWeights` (kernel.h:53-95) for block sizes `bc` (output channels) and `bd`
(depth). `resize` zero-initialises. -/
def packWeights (F inputDepth outputChannels groups bc bd : Nat) (weights : List Word) :
    Option (List Word) :=
  let D := inputDepth / groups
  let opg := outputChannels / groups
  let r := ceilMul opg bc
  (forN groups (fun g st =>
    forN (ceilDiv opg bc) (fun blk st =>
      let blockStart := blk * bc
      let bs := min (opg - blockStart) bc
      forN F (fun fi st =>
        forN (ceilDiv D bd) (fun cb st => do
          let st ← packInner weights F D opg bd g blockStart bs fi (cb * bd) st
          some (st.1 + (bc - bs) * bd, st.2)) st) st) st)
    (0, List.replicate (groups * r * F * D + bc * bd) 0#32)).map (·.2)

/-- The pointer stored for filter position `(fy, fx)` of output pixel `oi`
(kernel.h:131-170). The `FastBoundsCheck` on `input_x` is written as the two-sided
check it is equivalent to (C44). -/
def indirectPtr (p : BConv) (oi fy fx : Nat) : Ptr :=
  let batch := oi / (p.outH * p.outW)
  let ox := oi % p.outW
  let oy := oi % (p.outH * p.outW) / p.outW
  let iy : Int := ((oy * p.strideH + fy * p.dilH : Nat) : Int) - p.padH
  let ix : Int := ((ox * p.strideW + fx * p.dilW : Nat) : Int) - p.padW
  if 0 ≤ iy ∧ iy < p.inH then
    if 0 ≤ ix ∧ ix < p.inW then
      .inp ((batch * p.inH * p.inW + iy.toNat * p.inW + ix.toNat) * p.inDepth)
    else .zero 0
  else .zero 0

/-- `Kernel::FillIndirectionBuffer` (kernel.h:97-175) for a pixel block size `bp`: the
indirection buffer. -/
def fillIndirection (p : BConv) (bp : Nat) : Option (List Ptr) :=
  let F := p.filtH * p.filtW
  let n := p.batches * p.outH * p.outW
  let tiled := ceilMul n bp
  forN (ceilDiv n bp) (fun tile buf =>
    let start := tile * bp
    forN bp (fun off buf =>
      let oi := min (start + off) (n - 1)
      forN p.filtH (fun fy buf =>
        forN p.filtW (fun fx buf =>
          let kernelIndex := fy * p.filtW + fx
          wr buf (start * F + kernelIndex * bp + off) (indirectPtr p oi fy fx)) buf) buf) buf)
    (List.replicate (tiled * F + bp) (.inp 0))

/-- Constructor, `PackWeights` and `FillIndirectionBuffer` as called by
`EvalOptIndirectBGEMM` (bconv2d.cc:478-490), for the portable kernel's block sizes
4 x 2 x 1 (kernel_4x2_portable.h:34, 170). -/
def mkKernel (p : BConv) (filt : List Word) : Option IKernel := do
  let F := p.filtH * p.filtW
  let pw ← packWeights F p.inDepth p.cout p.groups 4 1 filt
  let ind ← fillIndirection p 2
  some ⟨p.inDepth, p.cout, F, p.groups, p.batches * p.outH * p.outW, pw, ind,
    List.replicate (F * p.inDepth) 0#32⟩

/-- Four accumulators of one pixel (`acc_0x .. acc_3x`). -/
structure Acc4 where
  a0 : Nat
  a1 : Nat
  a2 : Nat
  a3 : Nat

/-- State of the accumulation loops: `weights_ptr` and the accumulators of the two pixels. -/
structure AccSt where
  w : Nat
  p0 : Acc4
  p1 : Acc4

/-- Body of the depth loop (kernel_4x2_portable.h:93-113 and 235-255). The activation
pointers advance by one per iteration: iteration `d` reads at offset `d`. -/
def iDepthStep (K : IKernel) (inp : List Word) (ptr0 ptr1 : Ptr) (d : Nat) (s : AccSt) :
    Option AccSt := do
  let w0 ← rd K.packedWeights s.w
  let w1 ← rd K.packedWeights (s.w + 1)
  let w2 ← rd K.packedWeights (s.w + 2)
  let w3 ← rd K.packedWeights (s.w + 3)
  let x0 ← (ptr0.add d).deref inp K.zeroBuffer
  let x1 ← (ptr1.add d).deref inp K.zeroBuffer
  some ⟨s.w + 4,
    ⟨s.p0.a0 + xorPopcount w0 x0, s.p0.a1 + xorPopcount w1 x0,
     s.p0.a2 + xorPopcount w2 x0, s.p0.a3 + xorPopcount w3 x0⟩,
    ⟨s.p1.a0 + xorPopcount w0 x1, s.p1.a1 + xorPopcount w1 x1,
     s.p1.a2 + xorPopcount w2 x1, s.p1.a3 + xorPopcount w3 x1⟩⟩

/-- The accumulation loops (kernel_4x2_portable.h:80-115 and 222-257): all accumulators of
one block of four channels and two pixels, starting with `weights_ptr = w`;
`ind` is `indirection_ptr`, `off` is `input_depth_offset`. A `do ... while (--n > 0)` runs
`max 1 n` times. -/
def iAccumulate (K : IKernel) (inp : List Word) (ind off w : Nat) : Option AccSt :=
  forN (max 1 K.filterSize) (fun f s => do
    let ptr0 ← rd K.indirection (ind + 2 * f)
    let ptr1 ← rd K.indirection (ind + 2 * f + 1)
    forN (max 1 (K.inputDepth / K.groups)) (iDepthStep K inp (ptr0.add off) (ptr1.add off)) s)
    ⟨w, ⟨0, 0, 0, 0⟩, ⟨0, 0, 0, 0⟩⟩

/-- State of the output channel loop of the float / int8 kernel. -/
structure ChanSt (α : Type) where
  w : Nat
  out0 : Nat
  out1 : Nat
  depthOff : Nat
  groupEnd : Nat
  c : Nat
  out : List α

/-- Store one channel for both pixels, second pixel first; `f1`, `f0` are the output
positions. -/
def iStore {α : Type} (run : Nat → Nat → Option α) (acc c pos : Nat) (out : List α) :
    Option (List α) := do
  let v ← run acc c
  wr out pos v

/-- The part of the loop body that stores the results of a block
(kernel_4x2_portable.h:117-150). `group_end - c_out >= k` is written additively. -/
def iStoreBlock {α : Type} (run : Nat → Nat → Option α) (A : AccSt) (s : ChanSt α) :
    Option (ChanSt α) :=
  if s.c + 4 ≤ s.groupEnd then do
    let out ← iStore run A.p1.a0 s.c s.out1 s.out
    let out ← iStore run A.p1.a1 (s.c + 1) (s.out1 + 1) out
    let out ← iStore run A.p1.a2 (s.c + 2) (s.out1 + 2) out
    let out ← iStore run A.p1.a3 (s.c + 3) (s.out1 + 3) out
    let out ← iStore run A.p0.a0 s.c s.out0 out
    let out ← iStore run A.p0.a1 (s.c + 1) (s.out0 + 1) out
    let out ← iStore run A.p0.a2 (s.c + 2) (s.out0 + 2) out
    let out ← iStore run A.p0.a3 (s.c + 3) (s.out0 + 3) out
    some { s with out := out, out0 := s.out0 + 4, out1 := s.out1 + 4, c := s.c + 4 }
  else do
    let (s, acc01, acc00) ← (if s.c + 2 ≤ s.groupEnd then do
        let out ← iStore run A.p1.a0 s.c s.out1 s.out
        let out ← iStore run A.p1.a1 (s.c + 1) (s.out1 + 1) out
        let out ← iStore run A.p0.a0 s.c s.out0 out
        let out ← iStore run A.p0.a1 (s.c + 1) (s.out0 + 1) out
        some ({ s with out := out, out0 := s.out0 + 2, out1 := s.out1 + 2, c := s.c + 2 },
          A.p1.a2, A.p0.a2)
      else some (s, A.p1.a0, A.p0.a0))
    if s.c + 1 ≤ s.groupEnd then do
      let out ← iStore run acc01 s.c s.out1 s.out
      let out ← iStore run acc00 s.c s.out0 out
      some { s with out := out, out0 := s.out0 + 1, out1 := s.out1 + 1, c := s.c + 1 }
    else some s

/-- Body of the output channel loop (kernel_4x2_portable.h:72-158). -/
def iChanStep {α : Type} (K : IKernel) (inp : List Word) (run : Nat → Nat → Option α) (ind : Nat)
    (s : ChanSt α) : Option (ChanSt α) := do
  let A ← iAccumulate K inp ind s.depthOff s.w
  let s ← iStoreBlock run A { s with w := A.w }
  if s.c = s.groupEnd then
    some { s with depthOff := s.depthOff + K.inputDepth / K.groups,
                  groupEnd := s.groupEnd + K.outputChannels / K.groups }
  else some s

/-- One iteration of the pixel loop (kernel_4x2_portable.h:51-159) with `p_index = p`. -/
def iTile {α : Type} (K : IKernel) (inp : List Word) (run : Nat → Nat → Option α)
    (pixelEnd p : Nat) (out : List α) : Option (List α) :=
  let o0 := p * K.outputChannels
  let o1 := if pixelEnd < p + 2 then o0 else o0 + K.outputChannels
  (doWhile (fun s => decide (s.c < K.outputChannels))
    (iChanStep K inp run (p * K.filterSize)) (K.outputChannels + 1)
    ⟨0, o0, o1, 0, K.outputChannels / K.groups, 0, out⟩).map (·.out)

/-- `Kernel4x2Portable<DstScalar>::Run(0, num_output_pixels, output)` via `Dispatch`
(kernel.h:181-184, kernel_4x2_portable.h:36-160); the pixel loop advances by 2. -/
def iRun {α : Type} (K : IKernel) (inp : List Word) (run : Nat → Nat → Option α) (out : List α) :
    Option (List α) :=
  forN (ceilDiv K.numOutputPixels 2) (fun t out => iTile K inp run K.numOutputPixels (2 * t) out) out

/-- `EvalOptIndirectBGEMM` with a fresh kernel, float / int8 output, without zero padding
(bconv2d.cc:464-497, optimized_indirect_bgemm.h:15-34). -/
def bconvIndirect {α : Type} (p : BConv) (inp filt : List Word) (run : Nat → Nat → Option α)
    (out : List α) : Option (List α) := do
  let K ← mkKernel p filt
  iRun K inp run out

/-! ### Bitpacked output -/

/-- The memory of a tensor of words seen as (little-endian) 16-bit half words. -/
def toHalves : List Word → List (BitVec 16)
  | [] => []
  | w :: ws => w.extractLsb' 0 16 :: w.extractLsb' 16 16 :: toHalves ws

/-- Inverse of `toHalves`. -/
def ofHalves : List (BitVec 16) → List Word
  | lo :: hi :: hs => (hi ++ lo) :: ofHalves hs
  | _ => []

/-- State of the output channel loop of the bitpacked kernel; the output is addressed in
half words. -/
structure BitSt where
  w : Nat
  out0 : Nat
  out1 : Nat
  col0 : Word
  col1 : Word
  depthOff : Nat
  groupEnd : Nat
  c : Nat
  out : List (BitVec 16)

/-- `col |= TBitpacked(bit) << n`. -/
def orBit (col : Word) (bit : Bool) (n : Nat) : Word :=
  col ||| ((if bit then 1#32 else 0#32) <<< n)

/-- The four updates of one output column (kernel_4x2_portable.h:263-285). -/
def iColumn (run : Nat → Nat → Option Bool) (A : Acc4) (c : Nat) (col : Word) : Option Word := do
  let base := c % 16
  let b0 ← run A.a0 c
  let col := orBit col b0 base
  let b1 ← run A.a1 (c + 1)
  let col := orBit col b1 (base + 1)
  let b2 ← run A.a2 (c + 2)
  let col := orBit col b2 (base + 2)
  let b3 ← run A.a3 (c + 3)
  some (orBit col b3 (base + 3))

/-- Advance to the next block (kernel_4x2_portable.h:289-302), returning the new columns,
channel, depth offset and group end. -/
def iAdvance (K : IKernel) (s : BitSt) (col0 col1 : Word) : BitSt :=
  let base := s.c % 16
  if s.groupEnd > s.c + 4 then { s with col0 := col0, col1 := col1, c := s.c + 4 }
  else
    let gap := s.groupEnd - s.c
    let mask := (1#32 <<< (base + gap)) - 1#32
    let col0' := if gap < 4 then col0 &&& mask else col0
    let col1' := if gap < 4 then col1 &&& mask else col1
    { s with col0 := col0', col1 := col1', c := s.groupEnd,
             depthOff := s.depthOff + K.inputDepth / K.groups,
             groupEnd := s.groupEnd + K.outputChannels / K.groups }

/-- Body of the channel loop, bitpacked output (kernel_4x2_portable.h:214-315). -/
def iBitStep (K : IKernel) (inp : List Word) (run : Nat → Nat → Option Bool) (ind : Nat)
    (s : BitSt) : Option BitSt := do
  let base := s.c % 16
  let A ← iAccumulate K inp ind s.depthOff s.w
  let col0 ← iColumn run A.p0 s.c s.col0
  let col1 ← iColumn run A.p1 s.c s.col1
  let s := iAdvance K { s with w := A.w } col0 col1
  if s.c % 16 < base then do
    let out ← wr s.out s.out1 (s.col1.extractLsb' 0 16)
    let out ← wr out s.out0 (s.col0.extractLsb' 0 16)
    some { s with out := out, col1 := s.col1.sshiftRight 16, col0 := s.col0.sshiftRight 16,
                  out1 := s.out1 + 1, out0 := s.out0 + 1 }
  else some s

/-- One iteration of the pixel loop (kernel_4x2_portable.h:187-323). -/
def iBitTile (K : IKernel) (inp : List Word) (run : Nat → Nat → Option Bool)
    (pixelEnd p : Nat) (out : List (BitVec 16)) : Option (List (BitVec 16)) := do
  let o0 := 2 * (p * packedSize K.outputChannels)
  let o1 := if pixelEnd < p + 2 then o0 else o0 + 2 * packedSize K.outputChannels
  let s ← doWhile (fun s => decide (s.c < K.outputChannels))
    (iBitStep K inp run (p * K.filterSize)) (K.outputChannels + 1)
    ⟨0, o0, o1, 0#32, 0#32, 0, K.outputChannels / K.groups, 0, out⟩
  if K.outputChannels % 16 > 0 then do
    let out ← wr s.out s.out1 (s.col1.extractLsb' 0 16)
    wr out s.out0 (s.col0.extractLsb' 0 16)
  else some s.out

/-- `Kernel4x2Portable<TBitpacked>::Run` (kernel_4x2_portable.h:174-325). -/
def iBitRun (K : IKernel) (inp : List Word) (run : Nat → Nat → Option Bool)
    (out : List (BitVec 16)) : Option (List (BitVec 16)) :=
  forN (ceilDiv K.numOutputPixels 2)
    (fun t out => iBitTile K inp run K.numOutputPixels (2 * t) out) out

/-- `BConv2DOptimizedIndirectBGEMM<TBitpacked>` (optimized_indirect_bgemm.h:15-34): zero
the output first if there are unused bits. -/
def iDispatchBits (K : IKernel) (inp : List Word) (run : Nat → Nat → Option Bool)
    (out : List Word) : Option (List Word) := do
  let out ← (if K.outputChannels % 32 ≠ 0 then
      forN (K.numOutputPixels * packedSize K.outputChannels) (fun i out => wr out i 0#32) out
    else some out)
  (iBitRun K inp run (toHalves out)).map ofHalves

/-- `EvalOptIndirectBGEMM<TBitpacked>` with a fresh kernel. -/
def bconvIndirectBits (p : BConv) (inp filt : List Word) (run : Nat → Nat → Option Bool)
    (out : List Word) : Option (List Word) := do
  let K ← mkKernel p filt
  iDispatchBits K inp run out

end Verif
