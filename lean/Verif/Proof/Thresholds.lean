import Verif.Model.Thresholds
import Verif.Spec.Activation
import Mathlib.Data.Rat.Floor
import Mathlib.Tactic.Linarith
import Mathlib.Tactic.Ring
import Mathlib.Tactic.FieldSimp
import Mathlib.Algebra.Order.Field.Basic

namespace Verif

theorem rat_floor_eq (x : Rat) : x.floor = ⌊x⌋ := rfl

/-- Exact threshold, positive multiplier side: `|mult| = m > 0`, effective clamp `lo ≤ hi`. -/
theorem threshold_general {a m b : Rat} (hm : 0 < m) (x : Int) (v : Rat)
    (hv : v = a - 2 * x) :
    (x > ⌊(1 / 2 : Rat) * (b / m + a)⌋ ↔ v * m + b < 0) := by
  rw [gt_iff_lt, Int.floor_lt]
  have h : b / m * m = b := div_mul_cancel₀ b hm.ne'
  constructor
  · intro h1
    have h2 : b / m + v < 0 := by rw [hv]; linarith
    have h3 : (b / m + v) * m < 0 := mul_neg_of_neg_of_pos h2 hm
    have : (b / m + v) * m = v * m + b := by rw [add_mul, h]; ring
    linarith
  · intro h1
    by_contra hc
    have h2 : 0 ≤ b / m + v := by rw [hv]; linarith
    have h3 : 0 ≤ (b / m + v) * m := mul_nonneg h2 hm.le
    have : (b / m + v) * m = v * m + b := by rw [add_mul, h]; ring
    linarith

/-- Exact threshold with clamping. -/
theorem threshold_clamped {a lo hi m b : Rat} (hm : 0 < m) (hlh : lo ≤ hi) {x : Int} (hx0 : 0 ≤ x)
    (hx1 : x < 2147483648) {v : Rat} (hv : v = a - 2 * x) :
    (x > (if lo * m + b < 0 ∧ hi * m + b < 0 then -2147483648
      else if 0 ≤ lo * m + b ∧ 0 ≤ hi * m + b then 2147483647
      else ⌊(1 / 2 : Rat) * (b / m + a)⌋) ↔ (max lo (min hi v)) * m + b < 0) := by
  have hmono : ∀ s t : Rat, s ≤ t → s * m + b ≤ t * m + b := fun s t h => by
    have := mul_le_mul_of_nonneg_right h hm.le; linarith
  have hclo : lo ≤ max lo (min hi v) := le_max_left _ _
  have hchi : max lo (min hi v) ≤ hi := max_le hlh (min_le_left _ _)
  split
  · rename_i h
    have := hmono _ _ hchi
    constructor
    · intro _; linarith [h.2]
    · intro _; omega
  · split
    · rename_i h
      have := hmono _ _ hclo
      constructor
      · intro h'; omega
      · intro h'; linarith [h.1]
    · rename_i h1 h2
      have h3 := hmono _ _ hlh
      have hs : lo * m + b < 0 := by
        by_contra hc
        exact h2 ⟨by linarith, by linarith⟩
      have he : 0 ≤ hi * m + b := by
        by_contra hc
        exact h1 ⟨by linarith, by linarith⟩
      rw [threshold_general hm x v hv]
      rcases le_total v lo with hvl | hvl
      · have : max lo (min hi v) = lo := max_eq_left (le_trans (min_le_right _ _) hvl)
        rw [this]
        have := hmono _ _ hvl
        constructor <;> intro _ <;> linarith
      · rcases le_total v hi with hvh | hvh
        · rw [min_eq_right hvh, max_eq_right hvl]
        · rw [min_eq_left hvh, max_eq_right hlh]
          have := hmono _ _ hvh
          constructor <;> intro _ <;> linarith

/-- **Exact thresholds.** `x` is the accumulator computed with the sign-flipped filter, `v` the
value of the original convolution: `a - 2x` or its negation. -/
theorem thresholdOf_exact {a lo hi mult bias : Rat} (hlh : lo ≤ hi) {x : Int} (hx0 : 0 ≤ x)
    (hx1 : x < 2147483648) {v : Rat} (hv : v * (if 0 ≤ mult then 1 else -1) = a - 2 * x) :
    (x > thresholdOf id a lo hi mult bias ↔ (max lo (min hi v)) * mult + bias < 0) := by
  unfold thresholdOf
  simp only [id, rat_floor_eq]
  split
  · rename_i h0
    subst h0
    rw [mul_zero, zero_add]
    split
    · rename_i h; constructor
      · intro _; exact h
      · intro _; omega
    · rename_i h; constructor
      · intro h'; omega
      · intro h'; exact absurd h' h
  · rename_i h0
    rcases lt_or_gt_of_ne h0 with hneg | hpos
    · have hn : ¬ (0 : Rat) < mult := by linarith
      have hn' : ¬ (0 : Rat) ≤ mult := by linarith
      rw [if_neg hn'] at hv
      simp only [hn, if_false]
      rw [abs_of_neg hneg]
      have hv' : -v = a - 2 * x := by rw [← hv]; ring
      have := threshold_clamped (a := a) (lo := -1 * hi) (hi := -1 * lo) (m := -mult) (b := bias)
        (by linarith) (by linarith) hx0 hx1 hv'
      rw [this]
      have hc : max (-1 * hi) (min (-1 * lo) (-v)) = -(max lo (min hi v)) := by
        rw [neg_one_mul, neg_one_mul]
        rcases le_total v lo with h1 | h1 <;> rcases le_total v hi with h2 | h2
        · rw [min_eq_left (by linarith), max_eq_right (by linarith), min_eq_right h2, max_eq_left h1]
        · have : lo = hi := le_antisymm hlh (by linarith)
          rw [min_eq_left (by linarith), max_eq_right (by linarith), min_eq_left h2, max_eq_left (by linarith)]
        · rw [min_eq_right (by linarith), max_eq_right (by linarith), min_eq_right h2, max_eq_right h1]
        · rw [min_eq_right (by linarith), max_eq_left (by linarith), min_eq_left h2, max_eq_right hlh]
      rw [hc]
      constructor <;> intro h <;> linarith
    · rw [if_pos hpos.le, mul_one] at hv
      simp only [hpos, if_true]
      rw [abs_of_pos hpos]
      exact threshold_clamped hpos hlh hx0 hx1 hv

/-- The clamping range is the activation, on the values a convolution can take. -/
theorem thresholdClamp_apply (act : Act) {a v : Int} (ha : 0 ≤ a) (h1 : -a ≤ v) (h2 : v ≤ a) :
    (thresholdClamp act a).1 ≤ (thresholdClamp act a).2 ∧
      max (thresholdClamp act a).1 (min (thresholdClamp act a).2 v) = act.apply v := by
  cases act <;> simp only [thresholdClamp, Act.apply] <;> omega

end Verif
