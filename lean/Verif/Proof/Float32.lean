import Verif.Spec.Float32
import Mathlib.Data.Rat.Floor
import Mathlib.Data.Set.Finite.Basic
import Mathlib.Data.Set.Finite.Lemmas
import Mathlib.Data.Finite.Prod
import Mathlib.Data.Set.Finite.Lattice
import Mathlib.Data.Finset.Max
import Mathlib.Order.Interval.Finset.Defs
import Mathlib.Data.Int.Interval
import Mathlib.Algebra.Order.Archimedean.Basic
import Mathlib.Tactic.Ring
import Mathlib.Tactic.Positivity
import Mathlib.Tactic.NormNum

namespace Verif

theorem Binary32.neg {x : Rat} (h : Binary32 x) : Binary32 (-x) := by
  obtain ⟨m, e, h1, h2, h3, rfl⟩ := h
  exact ⟨-m, e, by rwa [abs_neg], h2, h3, by push_cast; ring⟩

/-- Integers of at most 24 bits are representable. -/
theorem Binary32.int {n : Int} (h : |n| ≤ 2 ^ 24) : Binary32 (n : Rat) := by
  by_cases h' : |n| < 2 ^ 24
  · exact ⟨n, 0, h', by norm_num, by norm_num, by simp⟩
  · have he : |n| = 2 ^ 24 := le_antisymm h (not_lt.1 h')
    rcases abs_choice n with hc | hc <;> rw [hc] at he
    · rw [he]
      exact ⟨1, 24, by norm_num, by norm_num, by norm_num, by norm_num⟩
    · have : n = -2 ^ 24 := by omega
      rw [this]
      exact ⟨-1, 24, by norm_num, by norm_num, by norm_num, by norm_num⟩

/-- Powers of two are representable. -/
theorem Binary32.pow {e : Int} (h1 : -149 ≤ e) (h2 : e ≤ 127) : Binary32 ((2 : Rat) ^ e) := by
  by_cases h : e ≤ 104
  · exact ⟨1, e, by norm_num, h1, h, by simp⟩
  · refine ⟨2 ^ (e - 104).toNat, 104, ?_, by norm_num, le_refl _, ?_⟩
    · rw [abs_of_pos (by positivity)]
      exact pow_lt_pow_right₀ (by norm_num) (by omega)
    · have h3 : (((2 : Int) ^ (e - 104).toNat : Int) : Rat) = (2 : Rat) ^ (e - 104) := by
        rw [Int.cast_pow, ← zpow_natCast]
        congr 1
        omega
      rw [h3, ← zpow_add₀ (by norm_num)]
      congr 1
      omega

theorem maxBinary32_pos : 0 < maxBinary32 := by unfold maxBinary32; positivity

/-- Representable numbers are in the finite range. -/
theorem Binary32.le_max {x : Rat} (h : Binary32 x) : |x| ≤ maxBinary32 := by
  obtain ⟨m, e, h1, h2, h3, rfl⟩ := h
  rw [abs_mul, abs_of_pos (zpow_pos (by norm_num : (0 : Rat) < 2) e)]
  unfold maxBinary32
  apply mul_le_mul
  · have : |m| ≤ 2 ^ 24 - 1 := by omega
    exact_mod_cast this
  · exact zpow_le_zpow_right₀ (by norm_num) h3
  · positivity
  · positivity

theorem Binary32.finite : {x : Rat | Binary32 x}.Finite := by
  have h : {x : Rat | Binary32 x} ⊆
      (fun q : Int × Int => (q.1 : Rat) * 2 ^ q.2) '' (Set.Icc (-2 ^ 24) (2 ^ 24) ×ˢ Set.Icc (-149) 104) := by
    rintro x ⟨m, e, h1, h2, h3, rfl⟩
    rw [abs_lt] at h1
    exact ⟨(m, e), ⟨⟨h1.1.le, h1.2.le⟩, h2, h3⟩, rfl⟩
  exact Set.Finite.subset (Set.Finite.image _ (Set.Finite.prod (Set.finite_Icc _ _) (Set.finite_Icc _ _))) h

/-- Rounding functions exist. -/
theorem exists_roundsToNearest : ∃ fl, RoundsToNearest fl := by
  have h : ∀ x : Rat, ∃ y, Binary32 y ∧ ∀ f, Binary32 f → |y - x| ≤ |f - x| := by
    intro x
    obtain ⟨y, hy, hmin⟩ := Set.exists_min_image {x : Rat | Binary32 x} (fun f => |f - x|) Binary32.finite
      ⟨0, 0, 0, by norm_num, by norm_num, by norm_num, by simp⟩
    exact ⟨y, hy, hmin⟩
  choose fl hfl using h
  exact ⟨fl, fun x _ => hfl x⟩

namespace RoundsToNearest

variable {fl : Rat → Rat} (h : RoundsToNearest fl)
include h

theorem fix {x : Rat} (hx : Binary32 x) : fl x = x := by
  have := (h x hx.le_max).2 x hx
  rw [sub_self, abs_zero] at this
  have := abs_nonpos_iff.1 this
  linarith

theorem mono {x y : Rat} (hx : |x| ≤ maxBinary32) (hy : |y| ≤ maxBinary32) (hxy : x ≤ y) : fl x ≤ fl y := by
  rcases eq_or_lt_of_le hxy with rfl | hlt
  · exact le_refl _
  · by_contra hc
    push Not at hc
    have h1 := (h x hx).2 _ (h y hy).1
    have h2 := (h y hy).2 _ (h x hx).1
    rcases abs_cases (fl x - x) with ⟨e1, _⟩ | ⟨e1, _⟩ <;> rcases abs_cases (fl y - x) with ⟨e2, _⟩ | ⟨e2, _⟩ <;>
      rcases abs_cases (fl y - y) with ⟨e3, _⟩ | ⟨e3, _⟩ <;> rcases abs_cases (fl x - y) with ⟨e4, _⟩ | ⟨e4, _⟩ <;>
      rw [e1, e2] at h1 <;> rw [e3, e4] at h2 <;> linarith

/-- Comparison with a representable number is preserved in one direction. -/
theorem le_of_le {x y : Rat} (hx : |x| ≤ maxBinary32) (hy : Binary32 y) (hxy : x ≤ y) : fl x ≤ y := by
  have := h.mono hx hy.le_max hxy
  rwa [h.fix hy] at this

theorem ge_of_ge {x y : Rat} (hx : |x| ≤ maxBinary32) (hy : Binary32 y) (hxy : y ≤ x) : y ≤ fl x := by
  have := h.mono hy.le_max hx hxy
  rwa [h.fix hy] at this

theorem lt_of_lt {x y : Rat} (hx : |x| ≤ maxBinary32) (hy : Binary32 y) (hxy : fl x < y) : x < y := by
  by_contra hc
  exact absurd (h.ge_of_ge hx hy (not_lt.1 hc)) (by linarith)

end RoundsToNearest

/-- Between the powers of two around `x` there is a representable number within half a unit in
the last place: relative error `2^-24`, or absolute error `2^-150` for subnormal numbers. -/
theorem Binary32.near {x : Rat} (hx : |x| ≤ maxBinary32) :
    ∃ f, Binary32 f ∧ (|f - x| ≤ |x| * (2 : Rat) ^ (-24 : Int) ∨ |f - x| ≤ (2 : Rat) ^ (-150 : Int)) := by
  by_cases hx0 : x = 0
  · subst hx0
    exact ⟨0, ⟨0, 0, by norm_num, by norm_num, by norm_num, by simp⟩, Or.inl (by simp)⟩
  · have hpos : 0 < |x| := abs_pos.2 hx0
    obtain ⟨n, hn1, hn2⟩ := exists_mem_Ico_zpow (y := (2 : Rat)) hpos (by norm_num)
    -- quantum
    set e : Int := max (n - 23) (-149) with he
    have hq : (0 : Rat) < 2 ^ e := zpow_pos (by norm_num) e
    set m : Int := round (x / 2 ^ e) with hm
    have hr : |x / 2 ^ e - m| ≤ 1 / 2 := abs_sub_round _
    have herr : |(m : Rat) * 2 ^ e - x| ≤ 1 / 2 * 2 ^ e := by
      have e1 : (m : Rat) * 2 ^ e - x = -(x / 2 ^ e - m) * 2 ^ e := by
        rw [neg_sub, sub_mul, div_mul_cancel₀ _ hq.ne']
      rw [e1, abs_mul, abs_neg, abs_of_pos hq]
      exact mul_le_mul_of_nonneg_right hr hq.le
    have hnle : n ≤ 127 := by
      by_contra hc
      have h128 : (2 : Rat) ^ (128 : Int) ≤ 2 ^ n := zpow_le_zpow_right₀ (by norm_num) (by omega)
      have : maxBinary32 < (2 : Rat) ^ (128 : Int) := by unfold maxBinary32; norm_num
      linarith
    have hele : e ≤ 104 := by omega
    have hege : -149 ≤ e := le_max_right _ _
    -- |m| ≤ 2^24
    have hmabs : |m| ≤ 2 ^ 24 := by
      have h1 : |x| / 2 ^ e ≤ 2 ^ 24 := by
        rw [div_le_iff₀ hq]
        have h2 : (2 : Rat) ^ (n + 1) ≤ 2 ^ (24 + e) := zpow_le_zpow_right₀ (by norm_num) (by omega)
        have h3 : (2 : Rat) ^ ((24 : Int) + e) = 2 ^ 24 * 2 ^ e := by
          rw [zpow_add₀ (by norm_num)]; rfl
        linarith
      have h2 : |x / 2 ^ e| ≤ 2 ^ 24 := by rwa [abs_div, abs_of_pos hq]
      rw [abs_le] at h2 ⊢
      constructor
      · have : ((-2 ^ 24 : Int) : Rat) ≤ x / 2 ^ e := by push_cast; linarith [h2.1]
        rw [hm]
        rw [abs_le] at hr
        by_contra hc
        have hc' : m ≤ -2 ^ 24 - 1 := by omega
        have : (m : Rat) ≤ -2 ^ 24 - 1 := by exact_mod_cast hc'
        linarith [hr.1, hr.2, h2.1]
      · rw [abs_le] at hr
        by_contra hc
        have hc' : 2 ^ 24 + 1 ≤ m := by omega
        have : (2 ^ 24 + 1 : Rat) ≤ (m : Rat) := by exact_mod_cast hc'
        linarith [hr.1, hr.2, h2.2]
    have hxmax : ∀ s : Rat, s * s = 1 → x * s ≤ maxBinary32 := by
      intro s hs
      have hs' : s = 1 ∨ s = -1 := by
        have : (s - 1) * (s + 1) = 0 := by ring_nf; linarith
        rcases mul_eq_zero.1 this with h | h
        · left; linarith
        · right; linarith
      rw [abs_le] at hx
      rcases hs' with rfl | rfl <;> linarith [hx.1, hx.2]
    have herr2 : ∀ f : Rat, |f - x| ≤ 1 / 2 * 2 ^ e →
        |f - x| ≤ |x| * (2 : Rat) ^ (-24 : Int) ∨ |f - x| ≤ (2 : Rat) ^ (-150 : Int) := by
      intro f hf
      rcases le_total (n - 23) (-149) with hc | hc
      · right
        have : e = -149 := by omega
        rw [this] at hf
        have e2 : (1 / 2 : Rat) * 2 ^ (-149 : Int) = 2 ^ (-150 : Int) := by norm_num
        exact e2 ▸ hf
      · left
        have : e = n - 23 := by omega
        have h3 : (1 / 2 : Rat) * 2 ^ e = 2 ^ n * 2 ^ (-24 : Int) := by
          rw [this, ← zpow_add₀ (by norm_num), show n + -24 = (-1) + (n - 23) by ring,
            zpow_add₀ (by norm_num : (2 : Rat) ≠ 0) (-1)]
          norm_num
        rw [h3] at hf
        exact le_trans hf (mul_le_mul_of_nonneg_right hn1 (by positivity))
    by_cases hlt : |m| < 2 ^ 24
    · exact ⟨m * 2 ^ e, ⟨m, e, hlt, hege, hele, rfl⟩, herr2 _ herr⟩
    · have hmeq : |m| = 2 ^ 24 := by omega
      -- the significand overflowed to the next power of two, which is representable unless e = 104
      by_cases h104 : e + 24 ≤ 127
      · have hb : Binary32 ((2 : Rat) ^ (e + 24)) := Binary32.pow (by omega) h104
        have hv : (2 : Rat) ^ (e + 24) = 2 ^ 24 * 2 ^ e := by
          rw [add_comm, zpow_add₀ (by norm_num)]; rfl
        rcases abs_choice m with hcm | hcm <;> rw [hcm] at hmeq
        · refine ⟨(2 : Rat) ^ (e + 24), hb, herr2 _ ?_⟩
          rw [hv]; rw [hmeq] at herr; exact_mod_cast herr
        · refine ⟨-(2 : Rat) ^ (e + 24), hb.neg, herr2 _ ?_⟩
          have : m = -2 ^ 24 := by omega
          rw [hv]; rw [this] at herr
          push_cast at herr
          rw [← neg_mul]
          exact herr
      · -- e = 104 and |m| = 2^24: then |x| is below the largest finite number, so it rounds to it
        exfalso
        have he104 : e = 104 := by omega
        rw [he104] at herr
        have hM : maxBinary32 = (2 ^ 24 - 1) * 2 ^ (104 : Int) := by unfold maxBinary32; norm_num
        have hq' : (0 : Rat) < 2 ^ (104 : Int) := by positivity
        rcases abs_choice m with hcm | hcm <;> rw [hcm] at hmeq
        · rw [hmeq] at herr
          push_cast at herr
          rw [abs_le] at herr
          have := hxmax 1 (by norm_num)
          rw [hM] at this
          linarith [herr.1, herr.2]
        · have hmn : m = -2 ^ 24 := by omega
          rw [hmn] at herr
          push_cast at herr
          rw [abs_le] at herr
          have := hxmax (-1) (by norm_num)
          rw [hM] at this
          linarith [herr.1, herr.2]

/-- The error of rounding to nearest. -/
theorem RoundsToNearest.error {fl : Rat → Rat} (h : RoundsToNearest fl) {x : Rat} (hx : |x| ≤ maxBinary32) :
    |fl x - x| ≤ |x| * (2 : Rat) ^ (-24 : Int) ∨ |fl x - x| ≤ (2 : Rat) ^ (-150 : Int) := by
  obtain ⟨f, hf, he⟩ := Binary32.near hx
  have := (h x hx).2 f hf
  rcases he with he | he
  · exact Or.inl (le_trans this he)
  · exact Or.inr (le_trans this he)

end Verif
