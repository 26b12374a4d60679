import Verif.Model.Reference

/-!
Model of `/repo/larq_compute_engine/core/bconv2d/output_transform.h` and of
`OneTimeSetup` / `GetOutputTransform` / `EvalRef`
(`/repo/larq_compute_engine/tflite/kernels/bconv2d.cc:324-416, 499-518`).

Simplifications: float and double arithmetic is exact (`Rat`); int32 arithmetic is
checked: an operation whose result does not fit is undefined behaviour (`none`).
-/

namespace Verif

/-- `x` is representable as a signed 32-bit integer. -/
def Fits32 (x : Int) : Prop := -2147483648 ≤ x ∧ x < 2147483648

/-- Decided by a round trip through 32 bits (the kernel evaluates this without
unfolding the large literals on open terms). -/
instance (x : Int) : Decidable (Fits32 x) :=
  decidable_of_iff ((BitVec.ofInt 32 x).toInt = x) (by
    rw [BitVec.toInt_ofInt]
    unfold Fits32 Int.bmod
    simp only [Nat.reducePow, Int.cast_ofNat_Int]
    constructor
    · intro h; split at h <;> omega
    · intro h; split <;> omega)

/-- A signed 32-bit result; overflow is undefined behaviour. -/
def chk32 (x : Int) : Option Int := if Fits32 x then some x else none

/-- The members of `OutputTransform<float>` and `OutputTransform<int8_t>`
(output_transform.h:94-97, 125-128). -/
structure OTParams where
  clampMin : Int
  clampMax : Int
  multiplier : List Rat
  bias : List Rat

/-- The computation shared by the two `Run` functions (output_transform.h:99-105 and
130-138): shift, clamp in int32, linear transformation in float. -/
def OTParams.linear (t : OTParams) (accum out_channel : Nat) : Option Rat := do
  let a ← chk32 accum
  let x ← chk32 (a * 2)
  let x := max (min x t.clampMax) t.clampMin
  let m ← rd t.multiplier out_channel
  let b ← rd t.bias out_channel
  some ((x : Rat) * m + b)

/-- `OutputTransform<float>::Run` (output_transform.h:99-105). -/
def OTParams.runFloat (t : OTParams) (accum out_channel : Nat) : Option Rat :=
  t.linear accum out_channel

/-- `OutputTransform<int8_t>::Run` (output_transform.h:130-141). `rnd` is `round`
(output_transform.h:29-44), either half-away (`TfLiteRound`) or half-even (Thumb).
The conversion of the rounded float to int32 is undefined behaviour out of range. -/
def OTParams.runInt8 (rnd : Rat → Int) (t : OTParams) (accum out_channel : Nat) : Option Int := do
  let y ← t.linear accum out_channel
  let r ← chk32 (rnd y)
  some (saturate r)

/-- `OutputTransform<TBitpacked>::Run` (output_transform.h:163-166). -/
def runThreshold (thresholds : List Int) (accum out_channel : Nat) : Option Bool := do
  let a ← chk32 accum
  let t ← rd thresholds out_channel
  some (decide (a > t))

/-- The loop of bconv2d.cc:370-380 that fuses the back-transformation and the int8
scale / zero point into multiplier and bias. The vectors have `channels_out + 4`
elements, the last four stay 0 (`resize`, lines 356-359). -/
def otFuse (p : BConv) (k : Int) (mult bias : List Rat) (scale zp : Rat) :
    Option (List Rat × List Rat) :=
  forN p.cout (fun i (s : List Rat × List Rat) => do
    let postMul ← rd mult i
    let postBias ← rd bias i
    let m ← wr s.1 i (-1 * postMul / scale)
    let b ← wr s.2 i ((postBias + (k : Rat) * postMul) / scale + zp)
    some (m, b)) (List.replicate (p.cout + 4) 0, List.replicate (p.cout + 4) 0)

/-- `OneTimeSetup` for float / int8 output (bconv2d.cc:352-391). For float output
`scale = 1` and `zp = 0` (lines 364-368). The zero-padding cache (lines 336-349) is
modelled separately. -/
def otSetup (p : BConv) (act : Act) (mult bias : List Rat) (scale zp : Rat) : Option OTParams := do
  let cg := p.cin / p.groups
  let k ← chk32 ((p.filtH * p.filtW * cg : Nat) : Int)
  let (m, b) ← otFuse p k mult bias scale zp
  let (lo, hi) := activationRange act
  let lo := max lo (-1 * k)
  let hi := min hi k
  let cmin ← chk32 (-1 * hi + k)
  let cmax ← chk32 (-1 * lo + k)
  some ⟨cmin, cmax, m, b⟩

/-- `EvalRef<float>` after `Prepare` (bconv2d.cc:499-518): one-time setup, then the
reference kernel. -/
def evalRefFloat (p : BConv) (act : Act) (mult bias : List Rat) (inp filt : List Word)
    (out : List Rat) : Option (List Rat) := do
  let t ← otSetup p act mult bias 1 0
  bconvReference p inp filt t.runFloat out

/-- `EvalRef<int8_t>`. -/
def evalRefInt8 (rnd : Rat → Int) (p : BConv) (act : Act) (mult bias : List Rat) (scale zp : Rat)
    (inp filt : List Word) (out : List Int) : Option (List Int) := do
  let t ← otSetup p act mult bias scale zp
  bconvReference p inp filt (t.runInt8 rnd) out

/-- `EvalRef<TBitpacked>`. -/
def evalRefBits (p : BConv) (thresholds : List Int) (inp filt : List Word) (out : List Word) :
    Option (List Word) :=
  bconvReferenceBits p inp filt (runThreshold thresholds) out

end Verif
