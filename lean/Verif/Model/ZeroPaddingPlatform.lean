import Verif.Model.ZeroPaddingFl
import Verif.Model.Dispatch
import Verif.Model.IndirectA64
import Verif.Spec.OutputBits

/-!
The zero-padding correction behind the kernels of every platform, on bit patterns: the kernels of Model/Dispatch.lean and
Model/IndirectA64.lean leave it out.

* `/repo/larq_compute_engine/core/bconv2d/optimized_bgemm.h` lines 157-181, `optimized_indirect_bgemm.h` lines 37-62
* `/repo/larq_compute_engine/tflite/kernels/bconv2d.cc` lines 324-391 (`OneTimeSetup`)

Simplification: the correction is compiled without contracting products and sums.
-/

namespace Verif

/-- `CacheCorrectionValues` on bit patterns (bconv2d.cc:337-351); `mult` is the post-activation multiplier tensor. -/
def zpSetupBits (F : FOps) (p : BConv) (filt mult : List Word) : Option (List Word) :=
  if p.zeroPadding then zpCacheWith (ZpOps.bits F) p filt mult (List.replicate (zpCacheSize p) 0#32) else some []

/-- The end of the optimized kernels for float output (optimized_bgemm.h:157-181, optimized_indirect_bgemm.h:37-62). -/
def zpFinishBits (F : FOps) (p : BConv) (cache out : List Word) : Option (List Word) :=
  if p.zeroPadding then zpApplyWith (ZpOps.bits F).add p cache out else some out

/-- `EvalOptBGEMM<float>` on a platform (bconv2d.cc:418-462): the possible results, over all interleavings. -/
def evalBGemmFloatBits (pl : Platform) (stream : Bool) (tmp : List Word) (E : GemmEnv) (p : BConv) (fat : Bool) (blocks : List Blk)
    (mult inp filt out0 out : List Word) : Prop :=
  ∃ cache trs mid, zpSetupBits E.F p filt mult = some cache ∧ bgemmFloatTraces pl stream tmp E p fat blocks inp filt = some trs ∧
    elemResult trs out0 mid ∧ zpFinishBits E.F p cache mid = some out

/-- `EvalOptIndirectBGEMM<float>` with a fresh kernel on Aarch64 (bconv2d.cc:464-497). -/
def evalIndA64FloatBits (F : FOps) (p : BConv) (mult inp xi xz filt mw bw : List Word) (cmin cmax : Int)
    (v : Nat → Nat → BitVec 8) (x : Nat → NAddr) (out : List Word) : Option (List Word) := do
  let cache ← zpSetupBits F p filt mult
  let out ← bconvA64F p inp xi xz filt mw bw cmin cmax F v x out
  zpFinishBits F p cache out

/-- `EvalOptIndirectBGEMM<float>` with the portable kernel (bconv2d.cc:464-497). -/
def evalIndFloatBits (F : FOps) (p : BConv) (mult inp filt mw bw : List Word) (cmin cmax : Int) (out : List Word) :
    Option (List Word) := do
  let cache ← zpSetupBits F p filt mult
  let out ← bconvIndirect p inp filt (runFloatBits F cmin cmax mw bw) out
  zpFinishBits F p cache out

end Verif
