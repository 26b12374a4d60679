import Verif.Model.ZeroPadding

/-!
Model of the im2col + BGEMM path with the portable kernels:
`/repo/larq_compute_engine/core/bconv2d/optimized_bgemm.h`,
`/repo/larq_compute_engine/core/bgemm/kernels.h` (lines 23-145, 216-255) and
`/repo/larq_compute_engine/core/bgemm/bgemm.h`.

The kernels never read the destination matrix, so the execution of a block is modelled by
the list of writes it performs, in program order (`none`: undefined behaviour). `TrMul`
(ruy, not in /repo) runs the blocks of a schedule, possibly on several threads: the
memory then undergoes some interleaving of the blocks' writes.

Simplification: `Element(lhs, k, i)` reads the source matrix; ruy's portable packing
copies element by element (contract). Accumulators are `Nat` (C19 bounds them).
-/

namespace Verif

/-- A write to the destination: position and value. -/
abbrev Write (α : Type) := Nat × α

/-- The memory after a sequence of writes. -/
def applyWrites {α : Type} : List (Write α) → List α → Option (List α)
  | [], out => some out
  | w :: ws, out => (wr out w.1 w.2).bind (applyWrites ws)

/-- A block of the destination matrix: rows `r0 ≤ i < r1` and columns `c0 ≤ j < c1`
(`start` and `end` of `RunBGemmKernel`, kernels.h:257-268). -/
structure Blk where
  r0 : Nat
  r1 : Nat
  c0 : Nat
  c1 : Nat
deriving Repr, DecidableEq

/-- The accumulation loop (kernels.h:55-60 and 118-123): row `i` of the LHS (n x k, row
major) with column `j` of the RHS (k x m, column major). -/
def gemmAcc (depth : Nat) (lhs rhs : List Word) (i j : Nat) : Option Nat :=
  forN depth (fun k acc => do
    let l ← rd lhs (i * depth + k)
    let r ← rd rhs (j * depth + k)
    some (acc + xorPopcount l r)) 0

/-- Portable kernel for float / int8 output (kernels.h:23-66): writes of one block. The
destination is column major: element `(i, j)` is at `i + j * rows`. -/
def gemmTrace {α : Type} (rows cols depth : Nat) (lhs rhs : List Word)
    (run : Nat → Nat → Option α) (b : Blk) (tr : List (Write α)) : Option (List (Write α)) :=
  forN (min b.r1 rows - b.r0) (fun di tr =>
    forN (min b.c1 cols - b.c0) (fun dj tr => do
      let i := b.r0 + di
      let j := b.c0 + dj
      let acc ← gemmAcc depth lhs rhs i j
      let v ← run acc i
      some (tr ++ [(i + j * rows, v)])) tr) tr

/-- Portable kernel for bitpacked output (kernels.h:68-145): writes of one block. The
state of the row loop is `(bitpacked_column, writes)`. -/
def gemmTraceBits (rows cols depth : Nat) (lhs rhs : List Word)
    (run : Nat → Nat → Option Bool) (b : Blk) (tr : List (Write Word)) :
    Option (List (Write Word)) :=
  let stride := packedSize rows
  let clampedEnd := min b.r1 rows
  forN (min b.c1 cols - b.c0) (fun dj tr =>
    (forN (clampedEnd - b.r0) (fun di (st : Word × List (Write Word)) => do
      let i := b.r0 + di
      let j := b.c0 + dj
      let acc ← gemmAcc depth lhs rhs i j
      let bit ← run acc i
      let col := if bit then st.1 ||| (1#32 <<< ((i - b.r0) % 32)) else st.1
      if (i - b.r0 + 1) % 32 = 0 ∨ i + 1 = clampedEnd then
        some (0#32, st.2 ++ [(i / 32 + j * stride, col)])
      else some (col, st.2)) (0#32, tr)).map (·.2)) tr

/-- `RunBGemmKernelTyped` (kernels.h:216-255): with `RUY_OPT(FAT_KERNEL)` one call of the
kernel, otherwise a loop over sub-blocks of `kr x kc` (the kernel's layout). -/
def runTyped {α : Type} (fat : Bool) (kr kc : Nat) (kernel : Blk → List (Write α) → Option (List (Write α)))
    (b : Blk) (tr : List (Write α)) : Option (List (Write α)) :=
  if fat then kernel b tr
  else
    forN (ceilDiv (b.c1 - b.c0) kc) (fun cb tr =>
      let col := b.c0 + cb * kc
      forN (ceilDiv (b.r1 - b.r0) kr) (fun rb tr =>
        let row := b.r0 + rb * kr
        kernel ⟨row, min (row + kr) b.r1, col, min (col + kc) b.c1⟩ tr) tr) tr

/-- The writes of every block of a schedule. -/
def scheduleTraces {α : Type} (kernel : Blk → List (Write α) → Option (List (Write α)))
    (blocks : List Blk) : Option (List (List (Write α))) :=
  blocks.mapM (fun b => kernel b [])

/-- `optimized_ops::Im2col` / `DilatedIm2col` (TFLite, not in /repo; contract used by
optimized_bgemm.h:19-61): row `(batch, out_y, out_x)` holds, for every filter position, the
words of the input pixel or zeros outside the image. -/
def im2colLoop (p : BConv) (inp : List Word) (buf : List Word) : Option (List Word) :=
  forN p.batches (fun b buf =>
    forN p.outH (fun oy buf =>
      forN p.outW (fun ox buf =>
        forN p.filtH (fun fy buf =>
          forN p.filtW (fun fx buf =>
            forN p.inDepth (fun d buf => do
              let iy := p.inY oy fy
              let ix := p.inX ox fx
              let v ← (if p.inside iy ix then
                  rd inp (offset4 p.inH p.inW p.inDepth b iy.toNat ix.toNat d)
                else some 0#32)
              wr buf ((((((b * p.outH + oy) * p.outW + ox) * p.filtH + fy) * p.filtW + fx)) * p.inDepth + d) v)
              buf) buf) buf) buf) buf) buf

/-- `need_im2col` (bconv2d.cc:256-263): whether an im2col buffer is allocated and filled. -/
def needIm2col (p : BConv) : Bool :=
  p.strideW != 1 || p.strideH != 1 || p.dilW != 1 || p.dilH != 1 || p.filtW != 1 || p.filtH != 1

/-- `im2col` (optimized_bgemm.h:19-61): the RHS matrix and its dimensions `(k, m)`. The
im2col buffer is the temporary tensor allocated in `Prepare` (bconv2d.cc:283-296). -/
def im2colRhs (p : BConv) (inp : List Word) : Option (List Word × Nat × Nat) :=
  if needIm2col p then do
    let m := p.batches * p.outH * p.outW
    let k := packedSize p.cin * p.filtH * p.filtW
    let buf ← im2colLoop p inp (List.replicate (m * k) 0#32)
    some (buf, k, m)
  else some (inp, p.inDepth, p.batches * p.inH * p.inW)

/-- The traces of `BConv2DOptimizedBGEMM` for float / int8 output
(optimized_bgemm.h:63-183) without the zero-padding correction, under a given schedule.
The kernel layouts are 1x1 (kernels_common.h:26-27). -/
def bgemmTraces {α : Type} (p : BConv) (fat : Bool) (blocks : List Blk) (inp filt : List Word)
    (run : Nat → Nat → Option α) : Option (List (List (Write α))) := do
  let (rhs, k, m) ← im2colRhs p inp
  scheduleTraces (runTyped fat 1 1 (gemmTrace p.cout m k filt rhs run)) blocks

/-- The same for bitpacked output; the LHS layout has 32 columns (kernels_common.h:33-44). -/
def bgemmTracesBits (p : BConv) (fat : Bool) (blocks : List Blk) (inp filt : List Word)
    (run : Nat → Nat → Option Bool) : Option (List (List (Write Word))) := do
  let (rhs, k, m) ← im2colRhs p inp
  scheduleTraces (runTyped fat 32 1 (gemmTraceBits p.cout m k filt rhs run)) blocks

/-- `BConv2DOptimizedBGEMM` for float / int8 output, blocks run one after the other. -/
def bconvBGemm {α : Type} (p : BConv) (fat : Bool) (blocks : List Blk) (inp filt : List Word)
    (run : Nat → Nat → Option α) (out : List α) : Option (List α) := do
  let trs ← bgemmTraces p fat blocks inp filt run
  applyWrites trs.flatten out

/-- The zero fill of the output (optimized_bgemm.h:117-128), for bitpacked output with
unused bits. -/
def bgemmClear (p : BConv) (out : List Word) : Option (List Word) :=
  if p.cout % 32 ≠ 0 then
    forN (p.batches * p.outH * p.outW * packedSize p.cout) (fun i out => wr out i 0#32) out
  else some out

/-- `BConv2DOptimizedBGEMM` for bitpacked output, blocks run one after the other. -/
def bconvBGemmBits (p : BConv) (fat : Bool) (blocks : List Blk) (inp filt : List Word)
    (run : Nat → Nat → Option Bool) (out : List Word) : Option (List Word) := do
  let trs ← bgemmTracesBits p fat blocks inp filt run
  let out ← bgemmClear p out
  applyWrites trs.flatten out

/-- `OneTimeSetup` and `EvalOptBGEMM<float>` (bconv2d.cc:324-391, 418-462), with the
zero-padding correction. -/
def evalBGemmFloat (p : BConv) (fat : Bool) (blocks : List Blk) (act : Act) (mult bias : List Rat)
    (inp filt : List Word) (out : List Rat) : Option (List Rat) := do
  let cache ← zpSetup p filt mult
  let t ← otSetup p act mult bias 1 0
  let out ← bconvBGemm p fat blocks inp filt t.runFloat out
  zpFinish p cache out

/-- `EvalOptBGEMM<int8_t>` (bconv2d.cc:418-462) after `OneTimeSetup`. -/
def evalBGemmInt8 (rnd : Rat → Int) (p : BConv) (fat : Bool) (blocks : List Blk) (act : Act)
    (mult bias : List Rat) (scale zp : Rat) (inp filt : List Word) (out : List Int) :
    Option (List Int) := do
  let t ← otSetup p act mult bias scale zp
  bconvBGemm p fat blocks inp filt (t.runInt8 rnd) out

/-- `EvalOptBGEMM<TBitpacked>` (bconv2d.cc:418-462). -/
def evalBGemmBits (p : BConv) (fat : Bool) (blocks : List Blk) (thresholds : List Int)
    (inp filt : List Word) (out : List Word) : Option (List Word) :=
  bconvBGemmBits p fat blocks inp filt (runThreshold thresholds) out

/-- Contract of ruy's block map: every block is aligned to the kernel layout `kr x kc`
(the `RUY_DCHECK`s of kernels.h:231-238, plus aligned starts), and together the blocks
cover the destination. -/
structure Schedule (rows cols kr kc : Nat) (blocks : List Blk) : Prop where
  aligned : ∀ b ∈ blocks, b.r0 % kr = 0 ∧ b.c0 % kc = 0 ∧ b.r0 ≤ b.r1 ∧ b.c0 ≤ b.c1 ∧
    (b.r1 - b.r0) % kr = 0 ∧ (b.c1 - b.c0) % kc = 0 ∧ b.r1 < rows + kr ∧ b.c1 < cols + kc
  cover : ∀ i j, i < rows → j < cols → ∃ b ∈ blocks, b.r0 ≤ i ∧ i < b.r1 ∧ b.c0 ≤ j ∧ j < b.c1

end Verif
