import Verif.Spec.FloatConv
import Verif.Spec.Activation
import Verif.Model.FuseAffine
import Verif.Model.BinaryFilter

/-!
Specification of one block of the original float model:
`chain(activation(Conv2D(sign(x), f)))`, where `chain` are Add/Sub/Mul/Div operators with constants (a batch
normalisation, for example).
-/

namespace Verif

open Finset

/-- Larq's sign: `-1` for negative numbers, else `+1`. -/
def signR (x : Rat) : Rat := if x < 0 then -1 else 1

/-- `Conv2D(sign(x), f)` at `(b, oy, ox, oc)`, with the value `pad` outside the image. `x` is the tensor of shape
`[batches, inH, inW, cin]`, `f` the HWIO filter of shape `[filtH, filtW, cin / groups, cout]`. -/
def signConv (p : BConv) (pad : Rat) (x f : List Rat) (b oy ox oc : Nat) : Rat :=
  ∑ fy ∈ range p.filtH, ∑ fx ∈ range p.filtW, ∑ c ∈ range p.cinG,
    (let iy : Int := (oy : Int) * p.strideH - p.padH + p.dilH * fy
     let ix : Int := (ox : Int) * p.strideW - p.padW + p.dilW * fx
     if 0 ≤ iy ∧ iy < p.inH ∧ 0 ≤ ix ∧ ix < p.inW then
       signR (x.getD (((b * p.inH + iy.toNat) * p.inW + ix.toNat) * p.cin
         + (oc / (p.cout / p.groups) * p.cinG + c)) 0)
     else pad) * f.getD (((fy * p.filtW + fx) * p.cinG + c) * p.cout + oc) 0

/-- The tensor whose element at `(b, y, x, c)` is `g b y x c`. -/
def tensor4 (n h w c : Nat) (g : Nat → Nat → Nat → Nat → Rat) : Tens :=
  ⟨[n, h, w, c], (List.range (n * h * w * c)).map fun i => g (i / c / w / h) (i / c / w % h) (i / c % w) (i % c)⟩

/-- The block of the original model. -/
def floatBlock (p : BConv) (pad : Rat) (act : Act) (chain : List (BinOp × Tens)) (x f : List Rat) : Option Tens :=
  runChain chain (tensor4 p.batches p.outH p.outW p.cout fun b oy ox oc => act.real (signConv p pad x f b oy ox oc))

end Verif
