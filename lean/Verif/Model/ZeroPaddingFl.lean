import Verif.Model.ZeroPadding
import Verif.Model.FloatOutput
import Verif.Model.Indirect
import Verif.Model.BGemm
import Verif.Model.NeonA64

/-!
The zero-padding correction of `/repo/larq_compute_engine/core/bconv2d/zero_padding_correction.h` with the rounding of float
arithmetic, which Model/ZeroPadding.lean leaves out, and the two optimized kernels with it. Simplification: as in
Model/FloatOutput.lean (no overflow to infinity, no NaN); the integers of `popcount` are unbounded.
-/

namespace Verif

/-- Float arithmetic on a representation `α` of floats: conversion from `int`, sum, product, `0` and `-1.0f`. -/
structure ZpOps (α : Type) where
  cvt : Int → α
  add : α → α → α
  mul : α → α → α
  zero : α
  negOne : α

/-- Floats as numbers, with rounding. -/
def ZpOps.fl (R : FlEnv) : ZpOps Rat := ⟨fun i => R.fl i, fun a b => R.fl (a + b), fun a b => R.fl (a * b), 0, -1⟩

/-- Floats as bit patterns, with the instructions of the target. -/
def ZpOps.bits (F : FOps) : ZpOps Word := ⟨fun i => F.scvtf (BitVec.ofInt 32 i), F.fadd, F.fmul, 0#32, 0xBF800000#32⟩

/-- Lines 115-159: the four corrections for overflows `(y, x)` and output channel `oc`. `float cur_correction` is converted
from an integer (line 133), `corrections[..] += cur_correction` is a float addition. -/
def zpCorrectionsWith {α : Type} (O : ZpOps α) (p : BConv) (filt : List Word) (y x oc : Nat) : Option (α × α × α × α) :=
  forN p.filtH (fun fy c =>
    forN p.filtW (fun fx (c : α × α × α × α) => do
      let i ← zpPixel p filt oc fy fx
      let cur := O.cvt i
      some (if zpCond p 0 y x fy fx then O.add c.1 cur else c.1,
        if zpCond p 1 y x fy fx then O.add c.2.1 cur else c.2.1,
        if zpCond p 2 y x fy fx then O.add c.2.2.1 cur else c.2.2.1,
        if zpCond p 3 y x fy fx then O.add c.2.2.2 cur else c.2.2.2)) c) (O.zero, O.zero, O.zero, O.zero)

/-- `CacheCorrectionValues` (zero_padding_correction.h:39-177). -/
def zpCacheWith {α : Type} (O : ZpOps α) (p : BConv) (filt : List Word) (mult : List α) (cache : List α) : Option (List α) :=
  forN p.effH (fun y cache =>
    forN p.effW (fun x cache =>
      forN p.cout (fun oc cache => do
        let c ← zpCorrectionsWith O p filt y x oc
        forN 4 (fun dir cache => do
          let m ← rd mult oc
          let mul := O.mul O.negOne m
          wr cache (dir * (p.effH * p.effW * p.cout) + y * (p.effW * p.cout) + x * p.cout + oc)
            (O.mul mul (zpSelect c dir))) cache) cache) cache) cache

/-- The cache as filled by `OneTimeSetup` (bconv2d.cc:337-351). -/
def zpSetupFl (R : FlEnv) (p : BConv) (filt : List Word) (mult : List Rat) : Option (List Rat) :=
  if p.zeroPadding then zpCacheWith (ZpOps.fl R) p filt mult (List.replicate (zpCacheSize p) 0) else some []

/-- The end of the two optimized kernels for float output (optimized_bgemm.h:157-181, optimized_indirect_bgemm.h:37-62):
`ApplyCorrection` with float additions. -/
def zpFinishFl (R : FlEnv) (p : BConv) (cache out : List Rat) : Option (List Rat) :=
  if p.zeroPadding then zpApplyWith (ZpOps.fl R).add p cache out else some out

/-- `OneTimeSetup` and `EvalOptIndirectBGEMM<float>` (bconv2d.cc:324-391, 464-497). -/
def evalIndFloatFl (R : FlEnv) (p : BConv) (act : Act) (mult bias : List Rat) (inp filt : List Word)
    (out : List Rat) : Option (List Rat) := do
  let cache ← zpSetupFl R p filt mult
  let t ← otSetupFl R p act mult bias 1 0
  let out ← bconvIndirect p inp filt (t.runFloatFl R) out
  zpFinishFl R p cache out

/-- `OneTimeSetup` and `EvalOptBGEMM<float>` (bconv2d.cc:324-391, 418-462): `order` is the interleaving of the blocks' writes,
a function of them. -/
def evalBGemmFloatFl (R : FlEnv) (p : BConv) (fat : Bool) (blocks : List Blk) (order : List (Write Rat) → List (Write Rat))
    (act : Act) (mult bias : List Rat) (inp filt : List Word) (out : List Rat) : Option (List Rat) := do
  let cache ← zpSetupFl R p filt mult
  let t ← otSetupFl R p act mult bias 1 0
  let trs ← bgemmTraces p fat blocks inp filt (t.runFloatFl R)
  let out ← applyWrites (order trs.flatten) out
  zpFinishFl R p cache out

end Verif
