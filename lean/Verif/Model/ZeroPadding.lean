import Verif.Basic.While
import Verif.Model.OutputTransform

/-!
Model of `/repo/larq_compute_engine/core/bconv2d/zero_padding_correction.h`.

Simplifications: float arithmetic is exact (`Rat`); the sums `corrections[..]` of integers
are kept as `Int` until they are multiplied; `int` is unbounded.
-/

namespace Verif

namespace BConv

/-- `effective_filter_height` (zero_padding_correction.h:44-45). -/
def effH (p : BConv) : Nat := effSize p.filtH p.dilH

/-- `effective_filter_width` (zero_padding_correction.h:43-44). -/
def effW (p : BConv) : Nat := effSize p.filtW p.dilW

end BConv

/-- `GetCacheSize` (zero_padding_correction.h:30-37). -/
def zpCacheSize (p : BConv) : Nat := 4 * p.effH * p.effW * p.cout

/-- Lines 117-133: `cur_correction` of one filter pixel, `input_channels - 2 * popcount`;
`input_channels` is `channels_in_per_group` (bconv2d.cc:347). -/
def zpPixel (p : BConv) (filt : List Word) (oc fy fx : Nat) : Option Int := do
  let cg := p.cin / p.groups
  let pc := packedSize cg
  let pop ← forN pc (fun ic pop => do
    let w ← rd filt (oc * (p.filtH * p.filtW * pc) + fy * (p.filtW * pc) + fx * pc + ic)
    some (pop + xorPopcount w 0#32)) 0
  some ((cg : Int) - 2 * (pop : Int))

/-- The four conditions of lines 137-156: does filter pixel `(fy, fx)` count in direction
`dir` when the overflows are `(y, x)`. -/
def zpCond (p : BConv) (dir y x fy fx : Nat) : Bool :=
  let efx := p.dilW * fx
  let efy := p.dilH * fy
  match dir with
  | 0 => decide (efy < y) || decide (efx < x)
  | 1 => decide (efy < y) || decide ((p.effW : Int) - efx ≤ x)
  | 2 => decide ((p.effH : Int) - efy ≤ y) || decide (efx < x)
  | _ => decide ((p.effH : Int) - efy ≤ y) || decide ((p.effW : Int) - efx ≤ x)

/-- Lines 112-159: the four corrections for overflows `(y, x)` and output channel `oc`. -/
def zpCorrections (p : BConv) (filt : List Word) (y x oc : Nat) : Option (Int × Int × Int × Int) :=
  forN p.filtH (fun fy c =>
    forN p.filtW (fun fx (c : Int × Int × Int × Int) => do
      let cur ← zpPixel p filt oc fy fx
      some (if zpCond p 0 y x fy fx then c.1 + cur else c.1,
        if zpCond p 1 y x fy fx then c.2.1 + cur else c.2.1,
        if zpCond p 2 y x fy fx then c.2.2.1 + cur else c.2.2.1,
        if zpCond p 3 y x fy fx then c.2.2.2 + cur else c.2.2.2)) c) (0, 0, 0, 0)

/-- Lines 161-171: `corrections[direction]`. -/
def zpSelect {α : Type} (c : α × α × α × α) (dir : Nat) : α :=
  match dir with
  | 0 => c.1
  | 1 => c.2.1
  | 2 => c.2.2.1
  | _ => c.2.2.2

/-- `CacheCorrectionValues` (zero_padding_correction.h:39-177). -/
def zpCache (p : BConv) (filt : List Word) (mult : List Rat) (cache : List Rat) : Option (List Rat) :=
  forN p.effH (fun y cache =>
    forN p.effW (fun x cache =>
      forN p.cout (fun oc cache => do
        let c ← zpCorrections p filt y x oc
        forN 4 (fun dir cache => do
          let m ← rd mult oc
          wr cache (dir * (p.effH * p.effW * p.cout) + y * (p.effW * p.cout) + x * p.cout + oc)
            (-1 * m * ((zpSelect c dir : Int) : Rat))) cache) cache) cache) cache

/-- `filter_top_offset` / `filter_left_offset` (lines 190-195): C++ division. -/
def zpOffset (outSize stride eff inSize : Nat) : Int :=
  (((outSize : Int) - 1) * stride + eff - inSize).tdiv 2

/-- The case distinction of lines 240-264: `(case_num, cache_Y, cache_X)`. -/
def zpCase (left right top bot : Int) : Option (Nat × Int × Int) :=
  if right ≤ 0 ∧ top > 0 ∧ bot < 0 then some (0, top, if left ≥ 0 then left else 0)
  else if left < 0 ∧ right > 0 ∧ bot ≤ 0 then some (1, if top ≥ 0 then top else 0, right)
  else if left > 0 ∧ right < 0 ∧ top ≤ 0 then some (2, if bot ≥ 0 then bot else 0, left)
  else if left ≤ 0 ∧ top < 0 ∧ bot > 0 then some (3, bot, if right ≥ 0 then right else 0)
  else none

/-- One iteration of the `out_x` loop (lines 211-290) including the loop's increment; the
state is `(out_x, output)`. `add` is the addition of `*output_ptr++ += *cache_ptr++`. -/
def zpStepWith {α : Type} (add : α → α → α) (p : BConv) (cache : List α) (b oy : Nat) (st : Int × List α) : Option (Int × List α) :=
  let topOff := zpOffset p.outH p.strideH p.effH p.inH
  let leftOff := zpOffset p.outW p.strideW p.effW p.inW
  let top := topOff - (oy : Int) * p.strideH
  let bot := -top - p.inH + p.effH
  let left := leftOff - st.1 * p.strideW
  let right := -left - p.inW + p.effW
  if left ≤ 0 ∧ right ≤ 0 ∧ top ≤ 0 ∧ bot ≤ 0 then
    let newX := ((p.inW : Int) + leftOff - p.effW + p.strideW - 1).tdiv p.strideW - 1
    some ((if newX > st.1 then newX else st.1) + 1, st.2)
  else
    match zpCase left right top bot with
    | none => some (st.1 + 1, st.2)
    | some (dir, cy, cx) =>
      let cacheIdx : Int := dir * (p.effH * p.effW * p.cout) + cy * (p.effW * p.cout) + cx * p.cout
      let outIdx : Int := b * p.outH * p.outW * p.cout + oy * p.outW * p.cout + st.1 * p.cout
      (forN p.cout (fun c out => do
        let v ← rdI cache (cacheIdx + c)
        let o ← rdI out (outIdx + c)
        wrI out (outIdx + c) (add o v)) st.2).map (fun out => (st.1 + 1, out))

/-- `ApplyCorrection` (zero_padding_correction.h:179-295). The `out_x` loop changes its own
counter; it runs at most `outW` times (proved: otherwise the result is `none`). -/
def zpApplyWith {α : Type} (add : α → α → α) (p : BConv) (cache : List α) (out : List α) : Option (List α) :=
  forN p.batches (fun b out =>
    forN p.outH (fun oy out =>
      if 0 < p.outW then
        (doWhile (fun (st : Int × List α) => decide (st.1 < (p.outW : Int))) (zpStepWith add p cache b oy) (p.outW + 1) (0, out)).map (·.2)
      else some out) out) out

/-- `ApplyCorrection` with exact additions. -/
def zpApply (p : BConv) (cache : List Rat) (out : List Rat) : Option (List Rat) := zpApplyWith (· + ·) p cache out

/-- The cache as filled by `OneTimeSetup` (bconv2d.cc:337-351). -/
def zpSetup (p : BConv) (filt : List Word) (mult : List Rat) : Option (List Rat) :=
  if p.zeroPadding then zpCache p filt mult (List.replicate (zpCacheSize p) 0) else some []

/-- The end of the two optimized kernels for float output (optimized_bgemm.h:157-181,
optimized_indirect_bgemm.h:37-62). -/
def zpFinish (p : BConv) (cache out : List Rat) : Option (List Rat) :=
  if p.zeroPadding then zpApply p cache out else some out

end Verif
