import Verif.Model.Params

/-!
Specification of which values a convolution reads: after an explicit `Pad`, with VALID padding;
and with SAME padding. The image is a function of row and column (one channel).
-/

namespace Verif

/-- `Pad(x, pv)` with `bh` rows before and `bw` columns before, at position `(y, x)` of the padded
image. -/
def padRead {α : Type} (bh inH bw inW : Nat) (img : Nat → Nat → α) (pv : α) (y x : Nat) : α :=
  if bh ≤ y ∧ y < bh + inH ∧ bw ≤ x ∧ x < bw + inW then img (y - bh) (x - bw) else pv

/-- The image extended by `pv` outside. -/
def extended {α : Type} (inH inW : Nat) (img : Nat → Nat → α) (pv : α) (y x : Int) : α :=
  if 0 ≤ y ∧ y < inH ∧ 0 ≤ x ∧ x < inW then img y.toNat x.toNat else pv

end Verif
