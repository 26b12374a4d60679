import Verif.Model.Types

/-!
Model of `/repo/larq_compute_engine/core/bgemm/ruy_pack.h`: packing of the column-major right-hand side for kernels with a
4x4 column-major layout. `int` values are assumed not to overflow; computing (without reading) a pointer past the end of the
source, which the code does for columns that do not exist (lines 62-66), is not treated as undefined behaviour.
-/

namespace Verif

/-- A source pointer: into the source matrix, or into the four-word `zerobuf` (ruy_pack.h:57-58). -/
inductive SrcPtr where
  | mat (off : Nat)
  | zero (off : Nat)
deriving DecidableEq, Repr

/-- `p[i]`. -/
def SrcPtr.read (src : List Word) (p : SrcPtr) (i : Nat) : Option Word :=
  match p with
  | .mat off => rd src (off + i)
  | .zero off => rd (List.replicate 4 (0#32 : Word)) (off + i)

/-- `p += inc`. -/
def SrcPtr.add : SrcPtr → Nat → SrcPtr
  | .mat off, inc => .mat (off + inc)
  | .zero off, inc => .zero (off + inc)

/-- `memcpy(dst + d, p, 4 * n)`. -/
def memcpyW (src : List Word) (p : SrcPtr) (n : Nat) (dst : List Word) (d : Nat) : Option (List Word) :=
  forN n (fun i dst => (p.read src i).bind fun x => wr dst (d + i) x) dst

/-- `memset(dst + d, 0, 4 * n)`. -/
def memsetW (n : Nat) (dst : List Word) (d : Nat) : Option (List Word) := forN n (fun i dst => wr dst (d + i) 0#32) dst

/-- Iterations of `for (int i = lo; i < hi; i += step)`. -/
def stridedCount (lo hi step : Int) : Nat := ((hi - lo + step - 1) / step).toNat

/-- The four source pointers with their increments (ruy_pack.h:62-88). -/
def packPtrs (srcStride : Nat) (cols blockCol : Int) : (SrcPtr × Nat) × (SrcPtr × Nat) × (SrcPtr × Nat) × (SrcPtr × Nat) :=
  let p0 := SrcPtr.mat (srcStride * blockCol.toNat)
  let p1 := p0.add srcStride
  let p2 := p1.add srcStride
  let p3 := p2.add srcStride
  if blockCol ≥ cols - 3 then
    (if blockCol ≥ cols - 0 then (.zero 0, 0) else (p0, 4),
     if blockCol ≥ cols - 1 then (.zero 0, 0) else (p1, 4),
     if blockCol ≥ cols - 2 then (.zero 0, 0) else (p2, 4),
     (.zero 0, 0))
  else ((p0, 4), (p1, 4), (p2, 4), (p3, 4))

/-- One iteration of the row loop (ruy_pack.h:95-105); state: the four source pointers, the packed pointer, the buffer. -/
def packRowBody (src : List Word) (i0 i1 i2 i3 : Nat)
    (s : (SrcPtr × SrcPtr × SrcPtr × SrcPtr) × Nat × List Word) :
    Option ((SrcPtr × SrcPtr × SrcPtr × SrcPtr) × Nat × List Word) := do
  let ((p0, p1, p2, p3), pp, out) := s
  let out ← memcpyW src p0 4 out pp
  let out ← memcpyW src p1 4 out (pp + 4)
  let out ← memcpyW src p2 4 out (pp + 2 * 4)
  let out ← memcpyW src p3 4 out (pp + 3 * 4)
  some ((p0.add i0, p1.add i1, p2.add i2, p3.add i3), pp + 4 * 4, out)

/-- The remaining rows of one block of columns (ruy_pack.h:106-124). -/
def packTail (src : List Word) (rows : Nat) (p0 p1 p2 p3 : SrcPtr) (pp : Nat) (out : List Word) : Option (List Word) :=
  if rows % 4 ≠ 0 then do
    let nz := rows % 4
    let zs := 4 - nz
    let out ← memcpyW src p0 nz out pp
    let out ← memsetW zs out (pp + nz)
    let pp := pp + 4
    let out ← memcpyW src p1 nz out pp
    let out ← memsetW zs out (pp + nz)
    let pp := pp + 4
    let out ← memcpyW src p2 nz out pp
    let out ← memsetW zs out (pp + nz)
    let pp := pp + 4
    let out ← memcpyW src p3 nz out pp
    memsetW zs out (pp + nz)
  else some out

/-- One iteration of the column loop (ruy_pack.h:61-125). -/
def packBlock (src : List Word) (rows : Nat) (cols : Int) (srcStride packedStride : Nat) (blockCol : Nat) (out : List Word) :
    Option (List Word) := do
  let ((p0, i0), (p1, i1), (p2, i2), (p3, i3)) := packPtrs srcStride cols blockCol
  let ((p0, p1, p2, p3), pp, out) ← forN (stridedCount 0 ((rows : Int) - 3) 4) (fun _ s => packRowBody src i0 i1 i2 i3 s)
    ((p0, p1, p2, p3), packedStride * blockCol, out)
  packTail src rows p0 p1 p2 p3 pp out

/-- `LceRuyPackImpl<..., FixedKernelLayout<kColMajor, 4, 4>, kColMajor>::Run` (ruy_pack.h:46-127). `none` also when
`RUY_DCHECK_EQ(start_col % 4, 0)` fails. -/
def ruyPack (src : List Word) (rows cols srcStride packedStride startCol endCol : Nat) (out : List Word) : Option (List Word) :=
  if startCol % 4 ≠ 0 then none
  else forN (stridedCount startCol endCol 4)
    (fun b out => packBlock src rows cols srcStride packedStride (startCol + 4 * b) out) out

end Verif
