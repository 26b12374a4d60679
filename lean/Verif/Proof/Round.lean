import Verif.Model.Types
import Mathlib.Data.Rat.Floor
import Mathlib.Tactic.Linarith
import Mathlib.Tactic.NormNum

/-! Facts about `roundHalfAway` and `roundHalfEven`. -/

namespace Verif

theorem floor_eq (x : ℚ) : x.floor = ⌊x⌋ := rfl

theorem roundHalfAway_nonneg {x : ℚ} (h : 0 ≤ x) : roundHalfAway x = ⌊x + 1 / 2⌋ := by
  simp [roundHalfAway, h, floor_eq]

theorem roundHalfAway_neg {x : ℚ} (h : x < 0) : roundHalfAway x = -⌊-x + 1 / 2⌋ := by
  have : ¬ (0 ≤ x) := not_le.2 h
  simp [roundHalfAway, this, floor_eq]

theorem roundHalfAway_neg_eq (x : ℚ) : roundHalfAway (-x) = - roundHalfAway x := by
  rcases lt_trichotomy x 0 with h | h | h
  · rw [roundHalfAway_neg h, roundHalfAway_nonneg (by linarith)]; simp
  · subst h; simp only [neg_zero]; rw [roundHalfAway_nonneg (le_refl 0)]; norm_num
  · rw [roundHalfAway_neg (by linarith : -x < 0), roundHalfAway_nonneg h.le]; simp

/-- The result is within 1/2 of the argument. -/
theorem roundHalfAway_near (x : ℚ) :
    (roundHalfAway x : ℚ) - 1 / 2 ≤ x ∧ x ≤ roundHalfAway x + 1 / 2 := by
  have key : ∀ y : ℚ, 0 ≤ y → (⌊y + 1 / 2⌋ : ℚ) - 1 / 2 ≤ y ∧ y < ⌊y + 1 / 2⌋ + 1 / 2 := by
    intro y _
    have h1 := Int.floor_le (y + 1 / 2)
    have h2 := Int.lt_floor_add_one (y + 1 / 2)
    constructor <;> linarith
  by_cases h : 0 ≤ x
  · rw [roundHalfAway_nonneg h]; exact ⟨(key x h).1, (key x h).2.le⟩
  · have h' : x < 0 := not_le.1 h
    rw [roundHalfAway_neg h']
    have := key (-x) (by linarith)
    push_cast
    constructor <;> linarith [this.1, this.2]

theorem roundHalfAway_mono {x y : ℚ} (h : x ≤ y) : roundHalfAway x ≤ roundHalfAway y := by
  by_cases hx : 0 ≤ x
  · rw [roundHalfAway_nonneg hx, roundHalfAway_nonneg (hx.trans h)]
    exact Int.floor_le_floor (by linarith)
  · have hx' : x < 0 := not_le.1 hx
    by_cases hy : 0 ≤ y
    · rw [roundHalfAway_neg hx', roundHalfAway_nonneg hy]
      have h1 : (0 : ℤ) ≤ ⌊-x + 1 / 2⌋ := Int.floor_nonneg.2 (by linarith)
      have h2 : (0 : ℤ) ≤ ⌊y + 1 / 2⌋ := Int.floor_nonneg.2 (by linarith)
      omega
    · have hy' : y < 0 := not_le.1 hy
      rw [roundHalfAway_neg hx', roundHalfAway_neg hy']
      have : ⌊-y + 1 / 2⌋ ≤ ⌊-x + 1 / 2⌋ := Int.floor_le_floor (by linarith)
      omega

theorem roundHalfAway_int (n : ℤ) : roundHalfAway (n : ℚ) = n := by
  have := roundHalfAway_near (n : ℚ)
  have h1 : ((roundHalfAway (n : ℚ) : ℤ) : ℚ) < n + 1 := by linarith [this.1]
  have h2 : (n : ℚ) < (roundHalfAway (n : ℚ) : ℤ) + 1 := by linarith [this.2]
  have h1' : roundHalfAway (n : ℚ) < n + 1 := by exact_mod_cast h1
  have h2' : n < roundHalfAway (n : ℚ) + 1 := by exact_mod_cast h2
  omega

theorem one_le_roundHalfAway_iff (x : ℚ) : 1 ≤ roundHalfAway x ↔ 1 / 2 ≤ x := by
  constructor
  · intro h
    have := (roundHalfAway_near x).1
    have h' : (1 : ℚ) ≤ roundHalfAway x := by exact_mod_cast h
    linarith
  · intro h
    rw [roundHalfAway_nonneg (by linarith)]
    rw [Int.le_floor]; push_cast; linarith

theorem roundHalfAway_nonneg_of {x : ℚ} (h : 0 ≤ x) : 0 ≤ roundHalfAway x := by
  rw [roundHalfAway_nonneg h]; exact Int.floor_nonneg.2 (by linarith)

theorem roundHalfEven_near (x : ℚ) :
    (roundHalfEven x : ℚ) - 1 / 2 ≤ x ∧ x ≤ roundHalfEven x + 1 / 2 := by
  have h1 : ((x.floor : ℤ) : ℚ) ≤ x := Int.floor_le x
  have h2 : x < (x.floor : ℤ) + 1 := Int.lt_floor_add_one x
  unfold roundHalfEven
  simp only []
  by_cases c1 : x - (x.floor : ℚ) < 1 / 2
  · rw [if_pos c1]; constructor <;> linarith
  · rw [if_neg c1]
    by_cases c2 : 1 / 2 < x - (x.floor : ℚ)
    · rw [if_pos c2]; push_cast; constructor <;> linarith
    · rw [if_neg c2]
      by_cases c3 : x.floor % 2 = 0
      · rw [if_pos c3]; constructor <;> linarith
      · rw [if_neg c3]; push_cast; constructor <;> linarith

end Verif
