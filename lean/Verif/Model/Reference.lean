import Verif.Model.Params

/-!
Model of `/repo/larq_compute_engine/core/bconv2d/reference.h`, function
`BConv2DReference` (lines 33-148).

`run accum c` is `output_transform.Run(accum, c)` (it may read parameter arrays,
hence `Option`). The accumulator is a `Nat` (no int32 overflow; see C09 and C19 for
its range).
-/

namespace Verif

namespace BConv

/-- `zero_padding` (reference.h:70-72). -/
def zeroPadding (p : BConv) : Bool := decide (p.padding = .same) && decide (p.padValue = 0)

/-- `binary_zero_point` (reference.h:76-77). -/
def binaryZeroPoint (p : BConv) : Nat := (p.cin / p.groups) / 2

/-- `output_depth_per_group` (reference.h:62). -/
def outPerGroup (p : BConv) : Nat := p.cout / p.groups

/-- `in_x` and `in_y` (reference.h:90-91, 96-97). -/
def inY (p : BConv) (outY fy : Nat) : Int := ((outY * p.strideH : Nat) : Int) - p.padH + ((p.dilH * fy : Nat) : Int)

/-- see `inY` -/
def inX (p : BConv) (outX fx : Nat) : Int := ((outX * p.strideW : Nat) : Int) - p.padW + ((p.dilW * fx : Nat) : Int)

/-- `inside` (reference.h:98-99). -/
def inside (p : BConv) (iy ix : Int) : Bool :=
  decide (0 ≤ ix) && decide (ix < p.inW) && decide (0 ≤ iy) && decide (iy < p.inH)

end BConv

/-- Lines 104-116 of reference.h: the loop over the words of one filter pixel. -/
def refPixel (p : BConv) (inp filt : List Word) (b : Nat) (iy ix : Int) (oc fy fx : Nat)
    (acc : Nat) : Option Nat :=
  let group := oc / p.outPerGroup
  forN p.filtDepth (fun ic acc => do
    let iv ← (if p.inside iy ix then
        rd inp (offset4 p.inH p.inW p.inDepth b iy.toNat ix.toNat (group * p.filtDepth + ic))
      else some 0#32)
    let fv ← rd filt (offset4 p.filtH p.filtW p.filtDepth oc fy fx ic)
    some (acc + xorPopcount iv fv)) acc

/-- Lines 93-118 of reference.h: the accumulator of one output element. -/
def refAccum (p : BConv) (inp filt : List Word) (b oy ox oc : Nat) : Option Nat :=
  forN p.filtH (fun fy acc =>
    forN p.filtW (fun fx acc =>
      let ix := p.inX ox fx
      let iy := p.inY oy fy
      if p.zeroPadding && !p.inside iy ix then some (acc + p.binaryZeroPoint)
      else refPixel p inp filt b iy ix oc fy fx acc) acc) 0

/-- The four outer loops of reference.h:84-89 and the body for float / int8 output
(lines 139-143). -/
def bconvReference {α : Type} (p : BConv) (inp filt : List Word)
    (run : Nat → Nat → Option α) (out : List α) : Option (List α) :=
  forN p.batches (fun b out =>
    forN p.outH (fun oy out =>
      forN p.outW (fun ox out =>
        forN p.cout (fun oc out => do
          let acc ← refAccum p inp filt b oy ox oc
          let v ← run acc oc
          wr out (offset4 p.outH p.outW p.cout b oy ox oc) v) out) out) out) out

/-- Lines 119-136 of reference.h: the loop over the channels of one pixel with
bitpacked output; the state is `(bitpacked_column, output)`. The output has
`ceil(cout/32)` words per pixel. -/
def refPixelBits (p : BConv) (inp filt : List Word) (run : Nat → Nat → Option Bool)
    (b oy ox : Nat) (out : List Word) : Option (Word × List Word) :=
  forN p.cout (fun oc (st : Word × List Word) => do
    let acc ← refAccum p inp filt b oy ox oc
    let bit ← run acc oc
    let col := if bit then st.1 ||| (1#32 <<< (oc % 32)) else st.1
    if (oc + 1) % 32 = 0 ∨ oc + 1 = p.cout then do
      let out ← wr st.2 (offset4 p.outH p.outW (packedSize p.cout) b oy ox (oc / 32)) col
      some (0#32, out)
    else some (col, st.2)) (0#32, out)

/-- `BConv2DReference` for bitpacked output. -/
def bconvReferenceBits (p : BConv) (inp filt : List Word)
    (run : Nat → Nat → Option Bool) (out : List Word) : Option (List Word) :=
  forN p.batches (fun b out =>
    forN p.outH (fun oy out =>
      forN p.outW (fun ox out =>
        (refPixelBits p inp filt run b oy ox out).map (·.2)) out) out) out

end Verif
