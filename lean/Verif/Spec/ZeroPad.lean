import Verif.Model.Params

/-!
Which output pixels of a SAME convolution with zero padding the optimized kernels correct (C17). Stated with the geometry
only: by how much the filter window of an output pixel sticks out of the image on each side (negative: by how much it stays
away from the border).
-/

namespace Verif.BConv

/-- Columns of the window of output column `ox` left of the image. -/
def overLeft (p : BConv) (ox : Nat) : Int := (p.padW : Int) - (ox : Int) * p.strideW

/-- Columns right of the image. -/
def overRight (p : BConv) (ox : Nat) : Int := (ox : Int) * p.strideW - p.padW + ((p.filtW - 1) * p.dilW + 1 : Nat) - p.inW

/-- Rows of the window of output row `oy` above the image. -/
def overTop (p : BConv) (oy : Nat) : Int := (p.padH : Int) - (oy : Int) * p.strideH

/-- Rows below the image. -/
def overBottom (p : BConv) (oy : Nat) : Int := (oy : Int) * p.strideH - p.padH + ((p.filtH - 1) * p.dilH + 1 : Nat) - p.inH

/-- The output pixels for which the optimized kernels give the zero-padded convolution: the window is inside the image, or
it sticks out

* at the top, away from the bottom, not at the right;
* at the right, away from the left, not at the bottom;
* at the left, away from the right, not at the top;
* at the bottom, away from the top, not at the left. -/
def Corrected (p : BConv) (oy ox : Nat) : Prop :=
  (p.overLeft ox ≤ 0 ∧ p.overRight ox ≤ 0 ∧ p.overTop oy ≤ 0 ∧ p.overBottom oy ≤ 0) ∨
  (0 < p.overTop oy ∧ p.overBottom oy < 0 ∧ p.overRight ox ≤ 0) ∨
  (0 < p.overRight ox ∧ p.overLeft ox < 0 ∧ p.overBottom oy ≤ 0) ∨
  (0 < p.overLeft ox ∧ p.overRight ox < 0 ∧ p.overTop oy ≤ 0) ∨
  (0 < p.overBottom oy ∧ p.overTop oy < 0 ∧ p.overLeft ox ≤ 0)

instance (p : BConv) (oy ox : Nat) : Decidable (p.Corrected oy ox) := by unfold Corrected; infer_instance

end Verif.BConv
