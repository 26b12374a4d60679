import Verif.Model.Params
import Verif.Spec.Bits
import Mathlib.Algebra.BigOperators.Group.Finset.Basic
import Mathlib.Algebra.BigOperators.Intervals
import Mathlib.Data.Int.Order.Basic

/-!
Specification of a binary convolution, independent of any kernel.

`pm packed cols r c` is the ±1 value of channel `c` in row `r` of a packed tensor
with `cols` channels. Rows of the input are pixels `(b*H + y)*W + x`, rows of the
filter are `(oc*FH + fy)*FW + fx`.
-/

namespace Verif

open Finset

/-- The ±1 value stored for channel `c` of row `r`. -/
def pm (packed : List Word) (cols r c : Nat) : Int :=
  signVal ((packed.getD (r * ((cols + 31) / 32) + c / 32) 0#32).getLsbD (c % 32))

namespace BConv

/-- Input channels per group. -/
def cinG (p : BConv) : Nat := p.cin / p.groups

/-- Value of input channel `c` at image position `(y, x)`, which may lie outside the
image, where it is `pad`. -/
def inputAt (p : BConv) (pad : Int) (inp : List Word) (b : Nat) (y x : Int) (c : Nat) : Int :=
  if 0 ≤ y ∧ y < p.inH ∧ 0 ≤ x ∧ x < p.inW then
    pm inp p.cin ((b * p.inH + y.toNat) * p.inW + x.toNat) c
  else pad

/-- The ±1 weight of output channel `oc`, filter position `(fy, fx)`, channel `c` of
the group. -/
def weight (p : BConv) (filt : List Word) (oc fy fx c : Nat) : Int :=
  pm filt p.cinG ((oc * p.filtH + fy) * p.filtW + fx) c

/-- The convolution: strides, dilations, groups; values outside the image are `pad`. -/
def conv (p : BConv) (pad : Int) (inp filt : List Word) (b oy ox oc : Nat) : Int :=
  ∑ fy ∈ range p.filtH, ∑ fx ∈ range p.filtW, ∑ c ∈ range p.cinG,
    p.inputAt pad inp b ((oy : Int) * p.strideH - p.padH + p.dilH * fy)
        ((ox : Int) * p.strideW - p.padW + p.dilW * fx)
        (oc / (p.cout / p.groups) * p.cinG + c)
      * p.weight filt oc fy fx c

/-- Number of products in one output element (`K` in output_transform.h:65-66). -/
def K (p : BConv) : Nat := p.filtH * p.filtW * p.cinG

/-- The packed input and filter tensors have the right sizes, and unused bits are 0;
the group structure is as established by `Prepare` (C21). -/
structure Ok (p : BConv) (inp filt : List Word) : Prop where
  groups_pos : 0 < p.groups
  cout_div : p.cout % p.groups = 0
  inDepth : p.inDepth = (p.cin + 31) / 32
  filtDepth : p.filtDepth = (p.cinG + 31) / 32
  depth : p.inDepth = p.groups * p.filtDepth
  group_words : p.groups = 1 ∨ (p.cin = p.groups * p.cinG ∧ p.cinG % 32 = 0)
  inLen : inp.length = p.batches * p.inH * p.inW * p.inDepth
  filtLen : filt.length = p.cout * p.filtH * p.filtW * p.filtDepth
  inUnused : ∀ r k b, r < p.batches * p.inH * p.inW → k < p.inDepth → b < 32 →
    p.cin ≤ 32 * k + b → (inp.getD (r * p.inDepth + k) 0#32).getLsbD b = false
  filtUnused : ∀ r k b, r < p.cout * p.filtH * p.filtW → k < p.filtDepth → b < 32 →
    p.cinG ≤ 32 * k + b → (filt.getD (r * p.filtDepth + k) 0#32).getLsbD b = false

end BConv

end Verif
