import Verif.Model.Indirect
import Verif.Model.ZeroPadding

/-!
`EvalOptIndirectBGEMM` (`/repo/larq_compute_engine/tflite/kernels/bconv2d.cc:464-497`) for
each output type, from a freshly prepared op and with a portable kernel.
-/

namespace Verif

/-- `OneTimeSetup` and `EvalOptIndirectBGEMM<float>` (bconv2d.cc:324-391, 464-497), with the
zero-padding correction. -/
def evalIndFloat (p : BConv) (act : Act) (mult bias : List Rat) (inp filt : List Word)
    (out : List Rat) : Option (List Rat) := do
  let cache ← zpSetup p filt mult
  let t ← otSetup p act mult bias 1 0
  let out ← bconvIndirect p inp filt t.runFloat out
  zpFinish p cache out

/-- `EvalOptIndirectBGEMM<int8_t>` (bconv2d.cc:464-497) after `OneTimeSetup`. -/
def evalIndInt8 (rnd : Rat → Int) (p : BConv) (act : Act) (mult bias : List Rat) (scale zp : Rat)
    (inp filt : List Word) (out : List Int) : Option (List Int) := do
  let t ← otSetup p act mult bias scale zp
  bconvIndirect p inp filt (t.runInt8 rnd) out

/-- `EvalOptIndirectBGEMM<TBitpacked>` (bconv2d.cc:464-497). `thresholds` is the threshold
tensor's data; reads beyond its end are undefined behaviour. -/
def evalIndBits (p : BConv) (thresholds : List Int) (inp filt : List Word) (out : List Word) :
    Option (List Word) :=
  bconvIndirectBits p inp filt (runThreshold thresholds) out

end Verif
