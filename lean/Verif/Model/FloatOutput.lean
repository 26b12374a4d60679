import Verif.Model.OutputTransform

/-!
The output transform of `/repo/larq_compute_engine/core/bconv2d/output_transform.h` and its setup in
`/repo/larq_compute_engine/tflite/kernels/bconv2d.cc:352-391` with the rounding of floating-point arithmetic, which
Model/OutputTransform.lean leaves out. A float or double is its value; `fl` rounds the exact result of an operation to `float`,
`dl` to `double`. Simplification: no overflow to infinity, no NaN (the theorems assume the range).
-/

namespace Verif

/-- Floating-point arithmetic of the target: rounding to `float` and to `double`, and whether the compiler contracts
`x * m + b` into a fused multiply-add. -/
structure FlEnv where
  fl : Rat → Rat
  dl : Rat → Rat
  fused : Bool

/-- The loop of bconv2d.cc:370-380; `mult`, `bias` hold floats, the arithmetic is in double, the results are converted to
float. -/
def otFuseFl (R : FlEnv) (p : BConv) (k : Int) (mult bias : List Rat) (scale zp : Rat) : Option (List Rat × List Rat) :=
  forN p.cout (fun i (s : List Rat × List Rat) => do
    let postMul ← rd mult i
    let postBias ← rd bias i
    let m ← wr s.1 i (R.fl (R.dl (R.dl (-1 * postMul) / scale)))
    let b ← wr s.2 i (R.fl (R.dl (R.dl (R.dl (postBias + R.dl ((k : Rat) * postMul)) / scale) + zp)))
    some (m, b)) (List.replicate (p.cout + 4) 0, List.replicate (p.cout + 4) 0)

/-- `OneTimeSetup` for float and int8 output (bconv2d.cc:352-391), as `otSetup`. -/
def otSetupFl (R : FlEnv) (p : BConv) (act : Act) (mult bias : List Rat) (scale zp : Rat) : Option OTParams := do
  let cg := p.cin / p.groups
  let k ← chk32 ((p.filtH * p.filtW * cg : Nat) : Int)
  let (m, b) ← otFuseFl R p k mult bias scale zp
  let (lo, hi) := activationRange act
  let lo := max lo (-1 * k)
  let hi := min hi k
  let cmin ← chk32 (-1 * hi + k)
  let cmax ← chk32 (-1 * lo + k)
  some ⟨cmin, cmax, m, b⟩

/-- `OutputTransform<float>::Run` (output_transform.h:99-105). -/
def OTParams.runFloatFl (R : FlEnv) (t : OTParams) (accum out_channel : Nat) : Option Rat := do
  let a ← chk32 accum
  let x ← chk32 (a * 2)
  let x := max (min x t.clampMax) t.clampMin
  let m ← rd t.multiplier out_channel
  let b ← rd t.bias out_channel
  some (if R.fused then R.fl (R.fl x * m + b) else R.fl (R.fl (R.fl x * m) + b))

/-- `OutputTransform<int8_t>::Run` (output_transform.h:130-141); `rnd` as in `OTParams.runInt8`. -/
def OTParams.runInt8Fl (R : FlEnv) (rnd : Rat → Int) (t : OTParams) (accum out_channel : Nat) : Option Int := do
  let y ← t.runFloatFl R accum out_channel
  let r ← chk32 (rnd y)
  some (saturate r)

/-- `EvalRef<float>` after `Prepare` (bconv2d.cc:499-518). -/
def evalRefFloatFl (R : FlEnv) (p : BConv) (act : Act) (mult bias : List Rat) (inp filt : List Word)
    (out : List Rat) : Option (List Rat) := do
  let t ← otSetupFl R p act mult bias 1 0
  bconvReference p inp filt (t.runFloatFl R) out

/-- `EvalRef<int8_t>` after `Prepare`. -/
def evalRefInt8Fl (R : FlEnv) (rnd : Rat → Int) (p : BConv) (act : Act) (mult bias : List Rat) (scale zp : Rat)
    (inp filt : List Word) (out : List Int) : Option (List Int) := do
  let t ← otSetupFl R p act mult bias scale zp
  bconvReference p inp filt (t.runInt8Fl R rnd) out

end Verif
