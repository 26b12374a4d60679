import Verif.Model.BGemm
import Verif.Model.IndirectA64
import Verif.Model.GemmA64Code

/-!
Model of the Aarch64 BGEMM kernels `BinaryKernelNeon8x4` and `BinaryKernelNeon4x4`
(`/repo/larq_compute_engine/core/bgemm/kernels_aarch64.h`) and of their parameters
(`/repo/larq_compute_engine/core/bgemm/kernels_common.h:46-116`). The straight-line parts are executed instruction by instruction
(Model/NeonA64.lean, Model/GemmA64Code.lean); the branches, the scalar arithmetic and the stores are transcribed here.

Simplifications: 32-bit scalars are integers or natural numbers; destination addresses are counted in elements (`float`, `int8`)
or bytes (bitpacked output); the upper half of the register of `row`, which the code reads as a 64-bit register, is zero; the
writes to the destination are collected in program order (as in Model/BGemm.lean).
-/

namespace Verif

/-- `BinaryKernelParams` (kernels_common.h:46-62): base addresses in words (`lhs`, `rhs`) and elements (`dst`), strides in words
and elements, without the output transform. -/
structure GParams where
  lhsBase : Nat
  rhsBase : Nat
  dstBase : Nat
  startRow : Nat
  startCol : Nat
  lastRow : Int
  lastCol : Int
  dstRows : Nat
  dstCols : Nat
  lhsStride : Nat
  rhsStride : Nat
  dstStride : Nat
  depth : Nat

/-- Distance of two columns of the destination (kernels_common.h:102-105): elements, or bytes when `bits` (bitpacked output). -/
def gDstStride (bits : Bool) (rows : Nat) : Nat := if bits then 4 * packedSize rows else rows

/-- `MakeBinaryKernelParams` (kernels_common.h:64-116) for the block `b`; `rows`, `cols` are those of the destination (whose
stride is `rows`), `ls`, `rs` the strides of the packed matrices, `depth` the rows of the packed LHS, `kr` is `LhsCols`. -/
def mkGParams (bits : Bool) (kr rows cols depth ls rs : Nat) (b : Blk) : GParams where
  lhsBase := b.r0 * ls
  rhsBase := b.c0 * rs
  dstBase := b.c0 * gDstStride bits rows + if bits then b.r0 / 8 else b.r0
  startRow := b.r0
  startCol := b.c0
  lastRow := (b.r1 : Int) - kr
  lastCol := (b.c1 : Int) - 4
  dstRows := rows
  dstCols := cols
  lhsStride := ls
  rhsStride := rs
  dstStride := gDstStride bits rows
  depth := depth

/-- The words of the objects of the memory of a kernel: 0 the packed LHS, 1 the packed RHS, 4 the multiplier (bitpacked output:
the thresholds), 5 the bias, 6 `params`, whose words 16 and 17 are `clamp_min` and `clamp_max`
(kernels_aarch64.h:14-32; the pointers in it are in `gPtr`). `xl` and `xr` are what follows the packed matrices in memory. -/
def gWords (lhs xl rhs xr mult bias : List Word) (cmin cmax : Int) (o : Nat) : List Word :=
  if o = 0 then lhs ++ xl
  else if o = 1 then rhs ++ xr
  else if o = 4 then mult
  else if o = 5 then bias
  else if o = 6 then List.replicate 16 0#32 ++ [BitVec.ofInt 32 cmin, BitVec.ofInt 32 cmax, 0#32, 0#32, 0#32, 0#32]
  else []

/-- The pointers in `params`: `multiplier` at 72 and `bias` at 80, or `thresholds` at 64 (kernels_aarch64.h:29-32). -/
def gPtr (bits : Bool) (o i : Nat) : NAddr :=
  if o = 6 then
    (if bits then (if i = 64 then ⟨4, 0⟩ else ⟨7, 0⟩) else if i = 72 then ⟨4, 0⟩ else if i = 80 then ⟨5, 0⟩ else ⟨7, 0⟩)
  else ⟨7, 0⟩

/-- The memory the kernel reads. -/
def gMem (bits : Bool) (lhs xl rhs xr mult bias : List Word) (cmin cmax : Int) : NMem where
  size o := 4 * (gWords lhs xl rhs xr mult bias cmin cmax o).length
  byte o i := wordByte (((gWords lhs xl rhs xr mult bias cmin cmax o)[i / 4]?).getD 0#32) (i % 4)
  ptr := gPtr bits

/-- The scalar operands: only `row` is used (`%x[row]`, as `cIdx`). -/
def gOps (row : Nat) : NOps := ⟨0, 0, row⟩

/-- The accumulation of a block of `BinaryKernelNeon8x4` (kernels_aarch64.h:759-785). -/
def g8Accum (F : FOps) (m : NMem) (depth : Nat) (s : NState) : Option NState :=
  let s := nExecs F m (gOps 0) g8Xor s
  (if 4 = depth then some s
    else (doWhile (fun t => decide (t.1 < depth)) (fun t => some (t.1 + 4, nExecs F m (gOps 0) g8Loop t.2)) (depth + 1)
      (4, s)).map (·.2)).map (nExecs F m (gOps 0) g8Tail)

/-- The accumulation of a block of `BinaryKernelNeon4x4` (kernels_aarch64.h:232-298); `stream` is `RUY_OPT(MAX_STREAMING)`
(enabled by default in ruy). The first component of the state of a loop is `w1`. -/
def g4Accum (stream : Bool) (F : FOps) (m : NMem) (depth : Nat) (s : NState) : Option NState := do
  let s := nExecs F m (gOps 0) g4First s
  let (w1, s) ←
    (if stream && decide (8 ≤ depth) then
      (doWhile (fun t => decide (t.1 < depth / 4 * 4)) (fun t => some (t.1 + 8, nExecs F m (gOps 0) g4Stream t.2)) (depth + 1)
        (8, nExecs F m (gOps 0) g4Load s)).map fun t => (t.1, nExecs F m (gOps 0) g4StreamTail t.2)
    else some (4, s))
  (if w1 = depth then some s
    else (doWhile (fun t => decide (t.1 < depth)) (fun t => some (t.1 + 4, nExecs F m (gOps 0) g4Loop t.2)) (depth + 1)
      (w1, s)).map (·.2)).map (nExecs F m (gOps 0) g4Tail)

/-- The parts in which the kernels differ. -/
structure GKern (α : Type) where
  /-- rows of a block -/
  kr : Nat
  /-- before the main loop -/
  pre : List NInstr
  /-- accumulation -/
  acc : FOps → NMem → Nat → NState → Option NState
  /-- output transform and loads for the next block -/
  ot : List NInstr
  /-- clearing of the accumulators -/
  zero : List NInstr
  /-- the stores: vector registers, `w1`, `w2`, `dst_ptr`, destination stride, writes so far -/
  store : (Nat → Nat → BitVec 8) → Int → Int → Nat → Nat → List (Write α) → Option (List (Write α))
  /-- increment of `dst_ptr` from one block of rows to the next -/
  inc : Nat

/-- Storing a block for float and int8 output (kernels_aarch64.h:435-516, 1058-1126): directly if it fits entirely, otherwise into
`dst_tmp_buf` (`kr * 4` elements, initially `tmp`) and then element by element. `res c r` is the result for column `c`, row `r`. -/
def gStore {α : Type} (kr : Nat) (tmp : List α) (res : (Nat → Nat → BitVec 8) → Nat → Nat → α) (v : Nat → Nat → BitVec 8)
    (w1 w2 : Int) (dst stride : Nat) (tr : List (Write α)) : Option (List (Write α)) :=
  if w1 = kr ∧ w2 = 4 then
    forN 4 (fun c tr => forN kr (fun r tr => some (tr ++ [(dst + c * stride + r, res v c r)])) tr) tr
  else do
    let buf ← forN 4 (fun c buf => forN kr (fun r buf => wr buf (c * kr + r) (res v c r)) buf) tmp
    forN (max 1 w2).toNat (fun c tr =>
      forN (max 1 w1).toNat (fun r tr => (rd buf (c * kr + r)).map fun x => tr ++ [(dst + c * stride + r, x)]) tr) tr

/-- Storing a block for bitpacked output (kernels_aarch64.h:896-935): one byte per column, the low byte of v20, v21, v22, v23;
if the block does not fit entirely, masked with `(1 << w1) - 1`, and only `w2` (at least one) columns. -/
def gStoreBits (v : Nat → Nat → BitVec 8) (w1 w2 : Int) (dst stride : Nat) (tr : List (Write (BitVec 8))) :
    Option (List (Write (BitVec 8))) :=
  if w1 = 8 ∧ w2 = 4 then forN 4 (fun c tr => some (tr ++ [(dst + c * stride, v (20 + c) 0)])) tr
  else forN (min 4 (max 1 w2)).toNat (fun c tr =>
    some (tr ++ [(dst + c * stride, v (20 + c) 0 &&& ((1#32 <<< w1.toNat) - 1#32).truncate 8)])) tr

/-- Where the float results are: `q20 q21 | q22 q23 | q24 q25 | q26 q27` (kernels_aarch64.h:1078-1088). -/
def g8ResF (v : Nat → Nat → BitVec 8) (c r : Nat) : Word := laneWord (v (20 + 2 * c + r / 4)) (r % 4)
/-- Where the int8 results are: `d20 d21 d22 d23` (kernels_aarch64.h:1090-1096). -/
def g8ResI (v : Nat → Nat → BitVec 8) (c r : Nat) : BitVec 8 := v (20 + c) r
/-- Where the float results are: `q24 q25 q26 q27` (kernels_aarch64.h:459-470). -/
def g4ResF (v : Nat → Nat → BitVec 8) (c r : Nat) : Word := laneWord (v (24 + c)) r
/-- Where the int8 results are: `s24 s25 s26 s27` (kernels_aarch64.h:472-478). -/
def g4ResI (v : Nat → Nat → BitVec 8) (c r : Nat) : BitVec 8 := v (24 + c) r

/-- The constants put into x2 and x3 (kernels_aarch64.h:738-741). -/
def g8MaskX2 : BitVec 64 :=
  let x2 : BitVec 64 := 1#64
  let x2 := x2 + (x2 <<< 17)
  x2 + (x2 <<< 34)
/-- See `g8MaskX2`. -/
def g8MaskX3 : BitVec 64 := g8MaskX2 <<< 4

/-- `BinaryKernelNeon8x4<float>` (kernels_aarch64.h:698-1185). -/
def gKern8F (tmp : List Word) : GKern Word := ⟨8, g8Pre, g8Accum, g8OtF, g8Zero, gStore 8 tmp g8ResF, 8⟩
/-- `BinaryKernelNeon8x4<int8_t>`. -/
def gKern8I (tmp : List (BitVec 8)) : GKern (BitVec 8) := ⟨8, g8Pre, g8Accum, g8OtI, g8Zero, gStore 8 tmp g8ResI, 8⟩
/-- `BinaryKernelNeon8x4<TBitpacked>`; the mask for bitpacking is in v31 (kernels_aarch64.h:734-744). -/
def gKern8B : GKern (BitVec 8) :=
  ⟨8, .insD 31 0 g8MaskX2 :: .insD 31 1 g8MaskX3 :: g8Pre, g8Accum, g8OtB, g8Zero, gStoreBits, 1⟩
/-- `BinaryKernelNeon4x4<float>` (kernels_aarch64.h:184-566). -/
def gKern4F (stream : Bool) (tmp : List Word) : GKern Word := ⟨4, g4Pre, g4Accum stream, g4OtF, g4Zero, gStore 4 tmp g4ResF, 4⟩
/-- `BinaryKernelNeon4x4<int8_t>`. -/
def gKern4I (stream : Bool) (tmp : List (BitVec 8)) : GKern (BitVec 8) :=
  ⟨4, g4Pre, g4Accum stream, g4OtI, g4Zero, gStore 4 tmp g4ResI, 4⟩

/-- State of the main loop. -/
structure GLoop (α : Type) where
  s : NState
  row : Nat
  col : Nat
  dstCol : Nat
  dst : Nat
  tr : List (Write α)

/-- `lhs_col_ptr` and `rhs_col_ptr` for the next block, and `lhs_ptr`, `rhs_ptr` (kernels_aarch64.h:309-334, 796-819). -/
def gAdvance (kr : Nat) (P : GParams) (row col : Nat) (x : Nat → NAddr) : Nat → NAddr :=
  let x :=
    if (row : Int) ≥ P.lastRow then
      let x := setX x 12 ⟨0, 4 * P.lhsBase⟩
      if (col : Int) ≥ P.lastCol then x else setX x 13 ((x 13).add (4 * P.rhsStride * 4))
    else setX x 12 ((x 12).add (4 * P.lhsStride * kr))
  let x := setX x 10 (x 12)
  setX x 11 (x 13)

/-- Body of the main loop (kernels_aarch64.h:232-545, 759-1163). The 4x4 kernel increments `dst_ptr` before it tests for the last
row, which makes no difference as `dst_ptr` is overwritten there. -/
def gStep {α : Type} (K : GKern α) (F : FOps) (m : NMem) (P : GParams) (t : GLoop α) : Option (GLoop α) := do
  let s ← K.acc F m P.depth t.s
  let s ← nCheck (nExecs F m (gOps t.row) K.ot { s with x := gAdvance K.kr P t.row t.col s.x })
  let w1 : Int := min ((P.dstRows : Int) - t.row) K.kr
  let w2 : Int := min ((P.dstCols : Int) - t.col) 4
  let tr ← K.store s.v w1 w2 t.dst P.dstStride t.tr
  let s := nExecs F m (gOps 0) K.zero s
  if (t.row : Int) = P.lastRow then
    let dstCol := t.dstCol + 4 * P.dstStride
    some ⟨s, P.startRow, t.col + 4, dstCol, dstCol, tr⟩
  else some ⟨s, t.row + K.kr, t.col, t.dstCol, t.dst + K.inc, tr⟩

/-- A call of the kernel (kernels_aarch64.h:184-566, 698-1185); `v`, `x`: arbitrary contents of the registers before. -/
def gKernel {α : Type} (K : GKern α) (F : FOps) (m : NMem) (P : GParams) (v : Nat → Nat → BitVec 8) (x : Nat → NAddr)
    (tr : List (Write α)) : Option (List (Write α)) := do
  let l : NAddr := ⟨0, 4 * P.lhsBase⟩
  let r : NAddr := ⟨1, 4 * P.rhsBase⟩
  let s ← nCheck (nExecs F m (gOps 0) K.pre
    { v := v, x := setX (setX (setX (setX (setX x 10 l) 11 r) 12 l) 13 r) 14 ⟨6, 0⟩, w1 := 0, fs := 0, gt := false, ok := true })
  let t ← doWhile (fun t => decide ((t.col : Int) ≤ P.lastCol)) (gStep K F m P) ((P.dstRows + 8) * (P.dstCols + 4) + 1)
    ⟨s, P.startRow, P.startCol, P.dstBase, P.dstBase, tr⟩
  some t.tr

/-- The packed form of a `rows x cols` matrix (column major, columns `srcStride` apart) for a kernel with a `4 x kc` column-major
layout: blocks of `kc` columns are `kc * stride` words apart; in a block, `4 x kc` elements are consecutive, column after column.
For `kc = 4` the routine is in /repo (ruy_pack.h; Model/RuyPack.lean, C43), for `kc = 8` it is ruy's generic one (contract).
What ruy leaves in a block after the last 4 rows, when `stride` is larger, is not used: zeros here. -/
def gPacked (kc rows cols srcStride stride : Nat) (src : List Word) : List Word :=
  (List.range (ceilMul cols kc * stride)).map fun i =>
    let c := i / (kc * stride) * kc + i % (kc * stride) % (4 * kc) / 4
    let r := i % (kc * stride) / (4 * kc) * 4 + i % 4
    if r < rows ∧ c < cols then (src[c * srcStride + r]?).getD 0#32 else 0#32

/-- Everything a kernel call of a BGEMM needs besides the block: the matrices are packed with strides `ls` and `rs` (chosen by
ruy, at least the packed number of rows), `xl`, `xr` follow them in memory. -/
structure GemmEnv where
  ls : Nat
  rs : Nat
  xl : List Word
  xr : List Word
  mult : List Word
  bias : List Word
  cmin : Int
  cmax : Int
  F : FOps
  v : Nat → Nat → BitVec 8
  x : Nat → NAddr

/-- `BGemmKernel<kNeon, ...>::Run` for the block `b` (kernels.h:163-187, 193-214): `rows x cols` destination, depth `k` words. -/
def gRun {α : Type} (bits : Bool) (K : GKern α) (E : GemmEnv) (rows cols k : Nat) (lhs rhs : List Word) (b : Blk)
    (tr : List (Write α)) : Option (List (Write α)) :=
  gKernel K E.F
    (gMem bits (gPacked K.kr k rows k E.ls lhs) E.xl (gPacked 4 k cols k E.rs rhs) E.xr E.mult E.bias E.cmin E.cmax)
    (mkGParams bits K.kr rows cols (ceilMul k 4) E.ls E.rs b) E.v E.x tr

/-- The traces of `BConv2DOptimizedBGEMM` (optimized_bgemm.h:63-183) with a NEON kernel under a given schedule, without the
zero-padding correction and without the initial zero fill of a bitpacked output. -/
def bgemmA64Traces {α : Type} (bits : Bool) (K : GKern α) (E : GemmEnv) (p : BConv) (fat : Bool) (blocks : List Blk)
    (inp filt : List Word) : Option (List (List (Write α))) := do
  let (rhs, k, m) ← im2colRhs p inp
  scheduleTraces (runTyped fat K.kr 4 (gRun bits K E p.cout m k filt rhs)) blocks

end Verif
