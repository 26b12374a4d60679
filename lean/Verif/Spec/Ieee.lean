import Verif.Model.FloatOutput
import Verif.Model.NeonA64
import Verif.Spec.F32Val
import Verif.Spec.Float64

/-!
What IEEE-754 arithmetic means for the abstract float instructions `FOps`, and for the float parameters stored by the setup. `fl`
is the rounding of the machine (Spec/Float32).
-/

namespace Verif

/-- The instructions compute correctly rounded results on finite operands as long as the exact result is in the finite range. -/
structure FOps.Ieee (F : FOps) (fl : Rat → Rat) : Prop where
  /-- integer to float -/
  scvtf : ∀ x : Word, F32.Finite (F.scvtf x) ∧ F32.val (F.scvtf x) = fl (x.toInt : Rat)
  /-- product -/
  fmul : ∀ a b : F32, a.Finite → b.Finite → |a.val * b.val| ≤ maxBinary32 →
    F32.Finite (F.fmul a b) ∧ F32.val (F.fmul a b) = fl (a.val * b.val)
  /-- sum -/
  fadd : ∀ a b : F32, a.Finite → b.Finite → |a.val + b.val| ≤ maxBinary32 →
    F32.Finite (F.fadd a b) ∧ F32.val (F.fadd a b) = fl (a.val + b.val)
  /-- float to nearest integer, ties to even, saturating -/
  fcvtns : ∀ a : F32, a.Finite → (F.fcvtns a).toInt = max (-2147483648) (min 2147483647 (roundHalfEven a.val))

/-- The words hold the floats `xs`. -/
def HoldsFloats (n : Nat) (words : List Word) (xs : List Rat) : Prop :=
  ∀ c, c < n → ∃ w : F32, words[c]? = some w ∧ w.Finite ∧ xs[c]? = some w.val

/-- `cmin`, `cmax`, `mw`, `bw` are what `OneTimeSetup` (bconv2d.cc:352-391) leaves in memory: the clamp bounds, and the bit
patterns of the fused multipliers and biases. -/
def StoredSetup (R : FlEnv) (p : BConv) (act : Act) (mult bias : List Rat) (scale zp : Rat) (cmin cmax : Int)
    (mw bw : List Word) : Prop :=
  ∃ t, otSetupFl R p act mult bias scale zp = some t ∧ cmin = t.clampMin ∧ cmax = t.clampMax ∧
    HoldsFloats p.cout mw t.multiplier ∧ HoldsFloats p.cout bw t.bias

end Verif
