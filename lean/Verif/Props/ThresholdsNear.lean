import Verif.Props.Thresholds

/-!
C26: how wrong a threshold computed in float32 can be. The bit of a channel can be wrong for one value of the convolution only,
and is right for every value when the bias is a fraction with a small denominator of the multiplier.
-/

namespace Verif

section
variable {fl : Rat → Rat} {fh fw cg : Nat} {act : Act} {mult bias : List Rat} {c : Nat} {m b : Rat} {τ : Int}

/-- The bit written for accumulator `x` (1 iff `x > τ`) is wrong for the convolution value `v`. -/
def WrongBit (act : Act) (m b : Rat) (τ : Int) (x : Nat) (v : Int) : Prop :=
  ¬ ((x : Int) > τ ↔ ((act.apply v : Int) : Rat) * m + b < 0)

/-- The accumulator `x` of the sign-flipped filter of `K` elements belongs to the convolution value `v`. -/
def AccOf (K : Nat) (m : Rat) (x : Nat) (v : Int) : Prop :=
  x ≤ K ∧ v * (if 0 ≤ m then 1 else -1) = K - 2 * (x : Int)

theorem wrongBit_range (hfl : RoundsToNearest fl) (hm : mult[c]? = some m) (hb : bias[c]? = some b)
    (hmr : Binary32 m) (hbr : Binary32 b) (hK : fh * fw * cg ≤ 2 ^ 23)
    (hr : 4 * ((((fh * fw * cg : Nat) : Rat) + 6) * |m| + |b|) ≤ maxBinary32)
    (hτ : (bitpackedThresholds fl fh fw cg act mult bias)[c]? = some τ)
    {x : Nat} {v : Int} (hx : AccOf (fh * fw * cg) m x v) (hw : WrongBit act m b τ x v) :
    ¬ (x : Int) > τ ∧ ((act.apply v : Int) : Rat) * m + b < 0 ∧
    -(|m| * (((fh * fw * cg : Nat) : Rat) + 6) * (2 : Rat) ^ (-21 : Int)) ≤ ((act.apply v : Int) : Rat) * m + b := by
  obtain ⟨τ', h1, h2, h3⟩ := C26_float32_thresholds_partial hfl act hm hb hmr hbr hK hr hx.1 hx.2
  rw [hτ] at h1
  obtain rfl := Option.some.inj h1
  unfold WrongBit at hw
  by_cases hgt : (x : Int) > τ
  · exact absurd ⟨fun _ => h2 hgt, fun _ => hgt⟩ hw
  · refine ⟨hgt, ?_, h3 hgt⟩
    by_contra hc
    exact hw ⟨fun h => absurd h hgt, fun h => absurd h hc⟩

/-- **C26, at most one wrong value.** For filters of at most `2^21 - 6` elements, a channel's threshold gives the wrong bit for at
most one value of the activated convolution (and the wrong bit is a 0 for a negative result of magnitude at most
`|multiplier| * (K + 6) * 2^-21`). -/
theorem C26_one_value_partial (hfl : RoundsToNearest fl) (hm : mult[c]? = some m) (hb : bias[c]? = some b)
    (hmr : Binary32 m) (hbr : Binary32 b) (hK : fh * fw * cg + 6 ≤ 2 ^ 21)
    (hr : 4 * ((((fh * fw * cg : Nat) : Rat) + 6) * |m| + |b|) ≤ maxBinary32)
    (hτ : (bitpackedThresholds fl fh fw cg act mult bias)[c]? = some τ)
    {x₁ x₂ : Nat} {v₁ v₂ : Int} (hx₁ : AccOf (fh * fw * cg) m x₁ v₁) (hx₂ : AccOf (fh * fw * cg) m x₂ v₂)
    (hw₁ : WrongBit act m b τ x₁ v₁) (hw₂ : WrongBit act m b τ x₂ v₂) :
    act.apply v₁ = act.apply v₂ := by
  have hK' : fh * fw * cg ≤ 2 ^ 23 := by omega
  obtain ⟨-, a1, a2⟩ := wrongBit_range hfl hm hb hmr hbr hK' hr hτ hx₁ hw₁
  obtain ⟨-, b1, b2⟩ := wrongBit_range hfl hm hb hmr hbr hK' hr hτ hx₂ hw₂
  have hKr : (((fh * fw * cg : Nat) : Rat) + 6) ≤ 2 ^ 21 := by exact_mod_cast hK
  generalize ((fh * fw * cg : Nat) : Rat) + 6 = L at *
  have hδ : |m| * L * (2 : Rat) ^ (-21 : Int) ≤ |m| := by
    have h1 : L * (2 : Rat) ^ (-21 : Int) ≤ 1 := by
      have : L * (2 : Rat) ^ (-21 : Int) ≤ 2 ^ 21 * (2 : Rat) ^ (-21 : Int) := mul_le_mul_of_nonneg_right hKr (by positivity)
      have e : (2 : Rat) ^ 21 * (2 : Rat) ^ (-21 : Int) = 1 := by norm_num
      linarith
    rw [mul_assoc]
    have := mul_le_mul_of_nonneg_left h1 (abs_nonneg m)
    linarith
  generalize act.apply v₁ = y₁ at *
  generalize act.apply v₂ = y₂ at *
  by_contra hne
  have hd : |((y₁ : Rat) - y₂) * m| < |m| := by
    rw [abs_lt]; constructor <;> nlinarith
  rw [abs_mul] at hd
  have hge : (1 : Rat) ≤ |(y₁ : Rat) - y₂| := by
    have : (1 : Int) ≤ |y₁ - y₂| := Int.one_le_abs (sub_ne_zero.2 hne)
    exact_mod_cast this
  have := mul_le_mul_of_nonneg_right hge (abs_nonneg m)
  linarith

/-- **C26, where the float thresholds are exact.** When the bias is `n/d` times the multiplier, with `d * (K + 6) < 2^21`, every bit
is right. -/
theorem C26_fraction_exact_partial (hfl : RoundsToNearest fl) (hm : mult[c]? = some m) (hb : bias[c]? = some b)
    (hmr : Binary32 m) (hbr : Binary32 b) {n : Int} {d : Nat} (hd0 : 0 < d) (hbm : b = (n : Rat) / d * m)
    (hK : d * (fh * fw * cg + 6) < 2 ^ 21)
    (hr : 4 * ((((fh * fw * cg : Nat) : Rat) + 6) * |m| + |b|) ≤ maxBinary32)
    (hτ : (bitpackedThresholds fl fh fw cg act mult bias)[c]? = some τ)
    {x : Nat} {v : Int} (hx : AccOf (fh * fw * cg) m x v) :
    (x : Int) > τ ↔ ((act.apply v : Int) : Rat) * m + b < 0 := by
  by_contra hw
  have hK' : fh * fw * cg ≤ 2 ^ 23 := by
    have := Nat.le_mul_of_pos_left (fh * fw * cg + 6) hd0
    omega
  obtain ⟨-, a1, a2⟩ := wrongBit_range hfl hm hb hmr hbr hK' hr hτ hx hw
  have hKr : (d : Rat) * (((fh * fw * cg : Nat) : Rat) + 6) < 2 ^ 21 := by exact_mod_cast hK
  generalize ((fh * fw * cg : Nat) : Rat) + 6 = L at *
  generalize act.apply v = y at *
  have hdr : (0 : Rat) < d := by exact_mod_cast hd0
  have e : (y : Rat) * m + b = ((y * d + n : Int) : Rat) / d * m := by
    rw [hbm]; push_cast; field_simp
  rw [e] at a1 a2
  have hne : y * d + n ≠ 0 := by
    intro h; rw [h] at a1; simp at a1
  have hge : (1 : Rat) ≤ |((y * d + n : Int) : Rat)| := by
    exact_mod_cast Int.one_le_abs hne
  have hmne : m ≠ 0 := by rintro rfl; simp at a1
  have hmp : 0 < |m| := abs_pos.2 hmne
  have h1 : |((y * d + n : Int) : Rat) / d * m| ≤ |m| * L * (2 : Rat) ^ (-21 : Int) := by
    rw [abs_of_neg a1]; linarith
  rw [abs_mul, abs_div, abs_of_pos hdr] at h1
  have h2 : |m| / d ≤ |((y * d + n : Int) : Rat)| / d * |m| := by
    rw [div_mul_eq_mul_div]
    exact div_le_div_of_nonneg_right (by nlinarith) hdr.le
  have h3 : |m| / d ≤ |m| * L * (2 : Rat) ^ (-21 : Int) := le_trans h2 h1
  rw [div_le_iff₀ hdr] at h3
  have h4 : |m| * L * (2 : Rat) ^ (-21 : Int) * d = |m| * ((d : Rat) * L * (2 : Rat) ^ (-21 : Int)) := by ring
  rw [h4] at h3
  have h5 : (d : Rat) * L * (2 : Rat) ^ (-21 : Int) < 1 := by
    have : (d : Rat) * L * (2 : Rat) ^ (-21 : Int) < 2 ^ 21 * (2 : Rat) ^ (-21 : Int) := mul_lt_mul_of_pos_right hKr (by positivity)
    have e : (2 : Rat) ^ 21 * (2 : Rat) ^ (-21 : Int) = 1 := by norm_num
    linarith
  have := mul_lt_mul_of_pos_left h5 hmp
  linarith

end

/-- The wrong value of `C26_rounding_witness`: accumulator 1 of a 1x1x2 filter, multiplier 1, bias `-2^-30`, threshold 1. -/
example : AccOf 2 1 1 0 ∧ WrongBit .none 1 (-(2 : Rat) ^ (-30 : Int)) 1 1 0 := by
  refine ⟨⟨by decide, by norm_num⟩, ?_⟩
  unfold WrongBit
  norm_num [Act.apply]

/-- A 3x3x256 filter, multiplier 3/4 and bias -5/2 (10/3 of the multiplier) meet the conditions of `C26_fraction_exact_partial`. -/
example : (-5 / 2 : Rat) = ((-10 : Int) : Rat) / (3 : Nat) * (3 / 4) ∧ 3 * (3 * 3 * 256 + 6) < 2 ^ 21 ∧ Binary32 (3 / 4) ∧
    Binary32 (-5 / 2) ∧ AccOf (3 * 3 * 256) (3 / 4) 1000 304 :=
  ⟨by norm_num, by norm_num, ⟨3, -2, by norm_num, by norm_num, by norm_num, by norm_num⟩,
    ⟨-5, -1, by norm_num, by norm_num, by norm_num, by norm_num⟩, by decide, by norm_num⟩

end Verif
