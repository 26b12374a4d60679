import Verif.Spec.Conv
import Mathlib.Algebra.Order.Ring.Rat

/-!
Specification of the TensorFlow Conv2D on a ±1 input: the filter is a function of the filter row, column,
input channel (of the group) and output channel.
-/

namespace Verif

open Finset

/-- Conv2D of the ±1 input tensor (values outside the image are `pad`) with the filter `wt fy fx c oc`. -/
def BConv.floatConv (p : BConv) (pad : Int) (inp : List Word) (wt : Nat → Nat → Nat → Nat → Rat)
    (b oy ox oc : Nat) : Rat :=
  ∑ fy ∈ range p.filtH, ∑ fx ∈ range p.filtW, ∑ c ∈ range p.cinG,
    (p.inputAt pad inp b ((oy : Int) * p.strideH - p.padH + p.dilH * fy)
        ((ox : Int) * p.strideW - p.padW + p.dilW * fx)
        (oc / (p.cout / p.groups) * p.cinG + c) : Rat)
      * wt fy fx c oc

end Verif
