import Verif.Proof.Float32
import Verif.Proof.Thresholds

/-! Thresholds computed with float32 rounding. -/

namespace Verif

/-- Representable numbers are multiples of the smallest one. -/
theorem Binary32.multiple {x : Rat} (h : Binary32 x) : ∃ k : Int, x = k * (2 : Rat) ^ (-149 : Int) := by
  obtain ⟨m, e, _, h2, _, rfl⟩ := h
  refine ⟨m * 2 ^ (e + 149).toNat, ?_⟩
  have h3 : (((2 : Int) ^ (e + 149).toNat : Int) : Rat) = (2 : Rat) ^ (e + 149) := by
    rw [Int.cast_pow, ← zpow_natCast]
    congr 1
    omega
  rw [Int.cast_mul, h3, mul_assoc, ← zpow_add₀ (by norm_num)]
  congr 2
  omega

theorem Binary32.zero : Binary32 0 := ⟨0, 0, by norm_num, by norm_num, by norm_num, by simp⟩

theorem tiny_pos : (0 : Rat) < (2 : Rat) ^ (-149 : Int) := by positivity

theorem Binary32.tiny : Binary32 ((2 : Rat) ^ (-149 : Int)) := Binary32.pow (le_refl _) (by norm_num)

/-- A positive multiple of the smallest number is at least the smallest number. -/
theorem multiple_ge {x : Rat} {k : Int} (h : x = k * (2 : Rat) ^ (-149 : Int)) (hx : 0 < x) :
    (2 : Rat) ^ (-149 : Int) ≤ x := by
  have hk : 0 < (k : Rat) := by
    rw [h] at hx
    exact pos_of_mul_pos_left hx tiny_pos.le
  have : 1 ≤ k := by exact_mod_cast hk
  have : (1 : Rat) ≤ k := by exact_mod_cast this
  rw [h]
  have := mul_le_mul_of_nonneg_right this tiny_pos.le
  linarith

namespace RoundsToNearest

variable {fl : Rat → Rat} (h : RoundsToNearest fl)
include h

/-- The sign of a rounded sum of representable numbers is the sign of the sum. -/
theorem sum_neg {x y : Rat} (hx : Binary32 x) (hy : Binary32 y) (hr : |x + y| ≤ maxBinary32) :
    fl (x + y) < 0 ↔ x + y < 0 := by
  constructor
  · exact fun hn => h.lt_of_lt hr Binary32.zero hn
  · intro hn
    obtain ⟨k, hk⟩ := hx.multiple
    obtain ⟨l, hl⟩ := hy.multiple
    have h1 : -(x + y) = ((-(k + l) : Int) : Rat) * (2 : Rat) ^ (-149 : Int) := by
      rw [hk, hl]; push_cast; ring
    have h2 := multiple_ge h1 (by linarith)
    have h3 := h.le_of_le hr Binary32.tiny.neg (by linarith)
    have := tiny_pos
    linarith

/-- Relative error for multiples of the smallest number. -/
theorem error_multiple {x : Rat} {k : Int} (hx : |x| ≤ maxBinary32) (hk : x = k * (2 : Rat) ^ (-149 : Int)) :
    |fl x - x| ≤ |x| * (2 : Rat) ^ (-24 : Int) := by
  rcases h.error hx with he | he
  · exact he
  · obtain ⟨l, hl⟩ := (h x hx).1.multiple
    have h0 : fl x - x = 0 := by
      by_contra hne
      have h1 : |fl x - x| = ((|l - k| : Int) : Rat) * (2 : Rat) ^ (-149 : Int) := by
        have e1 : fl x - x = ((l : Rat) - k) * (2 : Rat) ^ (-149 : Int) := by rw [hl, hk]; ring
        have e2 : ((|l - k| : Int) : Rat) = |(l : Rat) - k| := by push_cast; rfl
        rw [e2, e1, abs_mul, abs_of_pos tiny_pos]
      have h2 := multiple_ge h1 (abs_pos.2 hne)
      have h3 : (2 : Rat) ^ (-150 : Int) < (2 : Rat) ^ (-149 : Int) :=
        zpow_lt_zpow_right₀ (by norm_num) (by norm_num)
      linarith
    rw [h0, abs_zero]
    positivity

/-- A crude bound on a rounded number. -/
theorem le_two {x : Rat} (hx : |x| ≤ maxBinary32) (hn : x = 0 ∨ (2 : Rat) ^ (-149 : Int) ≤ |x|) :
    |fl x| ≤ 2 * |x| := by
  have h4 : |fl x| ≤ |fl x - x| + |x| := by
    have := abs_add_le (fl x - x) x
    rwa [sub_add_cancel] at this
  rcases hn with rfl | hn
  · rw [h.fix Binary32.zero]; simp
  · rcases h.error hx with he | he
    · have h3 : |x| * (2 : Rat) ^ (-24 : Int) ≤ |x| * 1 := by
        apply mul_le_mul_of_nonneg_left _ (abs_nonneg _)
        norm_num
      linarith
    · have h3 : (2 : Rat) ^ (-150 : Int) < (2 : Rat) ^ (-149 : Int) :=
        zpow_lt_zpow_right₀ (by norm_num) (by norm_num)
      linarith

theorem binary32 {x : Rat} (hx : |x| ≤ maxBinary32) : Binary32 (fl x) := (h x hx).1

end RoundsToNearest

/-- An element of the clamping range after conversion to float: zero or at least one in
magnitude, at most `H`. -/
structure Lim (H : Rat) (l : Rat) : Prop where
  rep : Binary32 l
  le : |l| ≤ H
  one : l = 0 ∨ 1 ≤ |l|

/-- The data of one channel: positive multiplier magnitude and no overflow. -/
structure Chan (H m b : Rat) : Prop where
  m_pos : 0 < m
  mrep : Binary32 m
  brep : Binary32 b
  H_one : 1 ≤ H
  range : 4 * (H * m + |b|) ≤ maxBinary32

section
variable {fl : Rat → Rat} (hfl : RoundsToNearest fl) {H l m b : Rat} (hc : Chan H m b) (hl : Lim H l)
include hc hl

theorem prod_abs_le : |l * m| ≤ H * m := by
  rw [abs_mul, abs_of_pos hc.m_pos]
  exact mul_le_mul_of_nonneg_right hl.le hc.m_pos.le

theorem prod_range : |l * m| ≤ maxBinary32 := by
  have := prod_abs_le hc hl
  have := hc.range
  have := abs_nonneg b
  have h1 : 0 ≤ H * m := mul_nonneg (by linarith [hc.H_one]) hc.m_pos.le
  linarith

include hfl

theorem prod_fl_le : |fl (l * m)| ≤ 2 * |l * m| := by
  apply hfl.le_two (prod_range hc hl)
  rcases hl.one with h | h
  · left; rw [h, zero_mul]
  · right
    rw [abs_mul, abs_of_pos hc.m_pos]
    obtain ⟨k, hk⟩ := hc.mrep.multiple
    have h1 := multiple_ge hk hc.m_pos
    have := mul_le_mul_of_nonneg_right h hc.m_pos.le
    linarith

theorem sum_range : |fl (l * m) + b| ≤ maxBinary32 := by
  have h1 := prod_fl_le hfl hc hl
  have h2 := prod_abs_le hc hl
  have h3 := hc.range
  have h4 := abs_add_le (fl (l * m)) b
  have := abs_nonneg b
  have h5 : 0 ≤ H * m := mul_nonneg (by linarith [hc.H_one]) hc.m_pos.le
  linarith

theorem start_neg : fl (fl (l * m) + b) < 0 ↔ fl (l * m) + b < 0 :=
  hfl.sum_neg (hfl.binary32 (prod_range hc hl)) hc.brep (sum_range hfl hc hl)

/-- A rounded range bound below zero is really below zero. -/
theorem start_exact (hs : fl (fl (l * m) + b) < 0) : l * m + b < 0 := by
  have h1 := (start_neg hfl hc hl).1 hs
  have h2 := hfl.lt_of_lt (prod_range hc hl) hc.brep.neg (by linarith : fl (l * m) < -b)
  linarith

/-- A rounded range bound not below zero: the quotient is bounded. -/
theorem stop_quot (hs : 0 ≤ fl (fl (l * m) + b)) : -(2 * H) ≤ b / m := by
  have h1 : 0 ≤ fl (l * m) + b := by
    by_contra hcon
    have := (start_neg hfl hc hl).2 (by linarith)
    linarith
  have h2 := prod_fl_le hfl hc hl
  have h3 := prod_abs_le hc hl
  have h4 := le_abs_self (fl (l * m))
  rw [le_div_iff₀ hc.m_pos]
  linarith

/-- ... and really nearly non-negative, when `l` is an integer. -/
theorem stop_exact {n : Int} (hn : l = n) (hs : 0 ≤ fl (fl (l * m) + b)) :
    -(m * H * (2 : Rat) ^ (-24 : Int)) ≤ l * m + b := by
  have h1 : 0 ≤ fl (l * m) + b := by
    by_contra hcon
    have := (start_neg hfl hc hl).2 (by linarith)
    linarith
  obtain ⟨k, hk⟩ := hc.mrep.multiple
  have h2 := hfl.error_multiple (k := n * k) (prod_range hc hl) (by rw [hn, hk]; push_cast; ring)
  have h3 := prod_abs_le hc hl
  have h4 := mul_le_mul_of_nonneg_right h3 (by positivity : (0 : Rat) ≤ (2 : Rat) ^ (-24 : Int))
  have h5 := le_abs_self (fl (l * m) - l * m)
  rw [mul_comm m H]
  linarith

theorem quot_lt (hs : fl (fl (l * m) + b) < 0) : b / m < -l := by
  have := start_exact hfl hc hl hs
  rw [div_lt_iff₀ hc.m_pos]
  linarith

end

/-- The general case of the float computation: everything is in range. -/
structure GenCase (fl : Rat → Rat) (H A lo hi m b : Rat) : Prop where
  start : fl (fl (lo * m) + b) < 0
  stop : 0 ≤ fl (fl (hi * m) + b)
  A_rep : Binary32 A
  A_nonneg : 0 ≤ A
  A_le : A ≤ H
  H_rep : Binary32 (2 * H)
  H_big : H ≤ 2 ^ 31

section
variable {fl : Rat → Rat} (hfl : RoundsToNearest fl) {H A lo hi m b : Rat} (hc : Chan H m b) (hlo : Lim H lo)
  (hhi : Lim H hi) (hg : GenCase fl H A lo hi m b)
include hfl hc hlo hhi hg

theorem gen_bounds : |b / m| ≤ 2 * H ∧ |b / m| ≤ maxBinary32 ∧ |fl (b / m)| ≤ 2 * H ∧
    |fl (b / m) + A| ≤ 3 * H ∧ |fl (b / m) + A| ≤ maxBinary32 := by
  have h1 := stop_quot hfl hc hhi hg.stop
  have h2 := quot_lt hfl hc hlo hg.start
  have h3 := neg_abs_le lo
  have h4 := hlo.le
  have hH := hc.H_one
  have hq : |b / m| ≤ 2 * H := abs_le.2 ⟨h1, by linarith⟩
  have hM : (2 : Rat) ^ 33 ≤ maxBinary32 := by unfold maxBinary32; norm_num
  have hq2 : |b / m| ≤ maxBinary32 := by have := hg.H_big; linarith
  have hf : |fl (b / m)| ≤ 2 * H := by
    rw [abs_le] at hq ⊢
    exact ⟨hfl.ge_of_ge hq2 hg.H_rep.neg hq.1, hfl.le_of_le hq2 hg.H_rep hq.2⟩
  have ht : |fl (b / m) + A| ≤ 3 * H := by
    rw [abs_le] at hf ⊢
    constructor <;> linarith [hf.1, hf.2, hg.A_nonneg, hg.A_le]
  exact ⟨hq, hq2, hf, ht, by have := hg.H_big; linarith⟩

/-- A 1-bit is right. -/
theorem gen_one {x : Int} (h2x : Binary32 ((2 * x : Int) : Rat)) (hxA : Binary32 ((2 * x : Int) - A : Rat))
    (hx : x > ⌊(1 / 2 : Rat) * fl (fl (b / m) + A)⌋) : (A - 2 * x) * m + b < 0 := by
  obtain ⟨_, hq2, _, _, ht⟩ := gen_bounds hfl hc hlo hhi hg
  rw [gt_iff_lt, Int.floor_lt] at hx
  have h1 : fl (fl (b / m) + A) < ((2 * x : Int) : Rat) := by push_cast; linarith
  have h2 := hfl.lt_of_lt ht h2x h1
  have h3 := hfl.lt_of_lt hq2 hxA (by linarith : fl (b / m) < _)
  rw [div_lt_iff₀ hc.m_pos] at h3
  push_cast at h3
  linarith

/-- A 0-bit is right up to rounding. -/
theorem gen_zero {x : Int} (hx : ¬ x > ⌊(1 / 2 : Rat) * fl (fl (b / m) + A)⌋) :
    -(m * H * (2 : Rat) ^ (-21 : Int)) ≤ (A - 2 * x) * m + b := by
  obtain ⟨hq, hq2, _, ht3, ht⟩ := gen_bounds hfl hc hlo hhi hg
  rw [gt_iff_lt, Int.floor_lt] at hx
  have h1 : 2 * (x : Rat) ≤ fl (fl (b / m) + A) := by linarith
  have hu : (0 : Rat) < (2 : Rat) ^ (-24 : Int) := by positivity
  have hH := hc.H_one
  have hsmall : (2 : Rat) ^ (-150 : Int) ≤ H * (2 : Rat) ^ (-24 : Int) := by
    have : (2 : Rat) ^ (-150 : Int) ≤ 1 * (2 : Rat) ^ (-24 : Int) := by norm_num
    have := mul_le_mul_of_nonneg_right hH hu.le
    linarith
  have hHu : 0 ≤ H * (2 : Rat) ^ (-24 : Int) := mul_nonneg (by linarith) hu.le
  have e1 : |fl (b / m) - b / m| ≤ 2 * H * (2 : Rat) ^ (-24 : Int) := by
    rcases hfl.error hq2 with he | he
    · have := mul_le_mul_of_nonneg_right hq hu.le
      linarith
    · linarith
  have e2 : |fl (fl (b / m) + A) - (fl (b / m) + A)| ≤ 3 * H * (2 : Rat) ^ (-24 : Int) := by
    rcases hfl.error ht with he | he
    · have := mul_le_mul_of_nonneg_right ht3 hu.le
      linarith
    · linarith
  have e3 := le_abs_self (fl (b / m) - b / m)
  have e4 := le_abs_self (fl (fl (b / m) + A) - (fl (b / m) + A))
  have h2 : 2 * (x : Rat) - A - 5 * (H * (2 : Rat) ^ (-24 : Int)) ≤ b / m := by linarith
  rw [le_div_iff₀ hc.m_pos] at h2
  have h3 : (2 : Rat) ^ (-21 : Int) = 8 * (2 : Rat) ^ (-24 : Int) := by norm_num
  have h4 : 0 ≤ H * (2 : Rat) ^ (-24 : Int) * m := mul_nonneg hHu hc.m_pos.le
  rw [h3]
  have e5 : (2 * (x : Rat) - A - 5 * (H * (2 : Rat) ^ (-24 : Int))) * m
      = (2 * x - A) * m - 5 * (H * (2 : Rat) ^ (-24 : Int) * m) := by ring
  have e6 : m * H * (8 * (2 : Rat) ^ (-24 : Int)) = 8 * (H * (2 : Rat) ^ (-24 : Int) * m) := by ring
  rw [e5] at h2
  rw [e6]
  linarith

/-- The threshold fits in an int32. -/
theorem gen_fits (hH : H ≤ 2 ^ 30) : -2147483648 ≤ ⌊(1 / 2 : Rat) * fl (fl (b / m) + A)⌋ ∧
    ⌊(1 / 2 : Rat) * fl (fl (b / m) + A)⌋ < 2147483648 := by
  obtain ⟨_, _, hf, _, ht⟩ := gen_bounds hfl hc hlo hhi hg
  rw [abs_le] at hf
  have r1 : Binary32 ((2 : Rat) ^ (31 : Int)) := Binary32.pow (by norm_num) (by norm_num)
  have r2 : Binary32 ((2 : Rat) ^ (32 : Int)) := Binary32.pow (by norm_num) (by norm_num)
  have hA := hg.A_nonneg
  have hA2 := hg.A_le
  have n1 : (2 : Rat) ^ (31 : Int) = 2147483648 := by norm_num
  have n2 : (2 : Rat) ^ (32 : Int) = 4294967296 := by norm_num
  rw [n1] at r1
  rw [n2] at r2
  have h1 := hfl.ge_of_ge ht r1.neg (by linarith [hf.1])
  have h2 := hfl.le_of_le ht r2 (by linarith [hf.2])
  constructor
  · rw [Int.le_floor]; push_cast; linarith
  · rw [Int.floor_lt]
    push_cast
    by_cases hlt : fl (fl (b / m) + A) < 4294967296
    · linarith
    · exfalso
      have h3 : fl (fl (b / m) + A) ≤ 3221225472 := by
        apply hfl.le_of_le ht
        · exact ⟨3, 30, by norm_num, by norm_num, by norm_num, by norm_num⟩
        · linarith [hf.2]
      linarith

end

/-- The two mixed cases: only `start < 0 ≤ stop` is possible. -/
theorem mixed_case {fl : Rat → Rat} (hfl : RoundsToNearest fl) {H lo hi m b : Rat} (hc : Chan H m b)
    (hlo : Lim H lo) (hhi : Lim H hi) (hlh : lo ≤ hi)
    (h1 : ¬ (fl (fl (lo * m) + b) < 0 ∧ fl (fl (hi * m) + b) < 0))
    (h2 : ¬ (0 ≤ fl (fl (lo * m) + b) ∧ 0 ≤ fl (fl (hi * m) + b))) :
    fl (fl (lo * m) + b) < 0 ∧ 0 ≤ fl (fl (hi * m) + b) := by
  have hm1 := hfl.mono (prod_range hc hlo) (prod_range hc hhi) (mul_le_mul_of_nonneg_right hlh hc.m_pos.le)
  have hm2 := hfl.mono (sum_range hfl hc hlo) (sum_range hfl hc hhi) (by linarith : _ ≤ fl (hi * m) + b)
  by_cases hs : fl (fl (lo * m) + b) < 0
  · exact ⟨hs, not_lt.1 (fun h => h1 ⟨hs, h⟩)⟩
  · exact absurd ⟨not_lt.1 hs, by linarith [not_lt.1 hs]⟩ h2

/-- Float thresholds, positive multiplier side. -/
theorem float_clamped {fl : Rat → Rat} (hfl : RoundsToNearest fl) {K : Nat} (hK : K ≤ 2 ^ 23) {lo hi : Int} {m b : Rat}
    (hc : Chan ((K : Rat) + 6) m b) (hlo : |lo| ≤ K + 6) (hhi : |hi| ≤ K + 6) (hlh : lo ≤ hi)
    {x : Int} (hx0 : 0 ≤ x) (hx1 : x ≤ K) {v : Rat} (hv : v = K - 2 * x) {τ : Int}
    (hτ : τ = if fl (fl ((lo : Rat) * m) + b) < 0 ∧ fl (fl ((hi : Rat) * m) + b) < 0 then -2147483648
      else if 0 ≤ fl (fl ((lo : Rat) * m) + b) ∧ 0 ≤ fl (fl ((hi : Rat) * m) + b) then 2147483647
      else ⌊(1 / 2 : Rat) * fl (fl (b / m) + (K : Rat))⌋) :
    (x > τ → max (lo : Rat) (min (hi : Rat) v) * m + b < 0) ∧
      (¬ x > τ → -(m * ((K : Rat) + 6) * (2 : Rat) ^ (-21 : Int)) ≤ max (lo : Rat) (min (hi : Rat) v) * m + b) := by
  have mkLim : ∀ l : Int, |l| ≤ K + 6 → Lim ((K : Rat) + 6) (l : Rat) := by
    intro l hl
    refine ⟨Binary32.int (by omega), by exact_mod_cast hl, ?_⟩
    by_cases h0 : l = 0
    · left; exact_mod_cast h0
    · right
      have : 1 ≤ |l| := Int.one_le_abs h0
      exact_mod_cast this
  have Llo := mkLim lo hlo
  have Lhi := mkLim hi hhi
  have hlhR : (lo : Rat) ≤ hi := by exact_mod_cast hlh
  have hmono : ∀ s t : Rat, s ≤ t → s * m + b ≤ t * m + b := fun s t h => by
    have := mul_le_mul_of_nonneg_right h hc.m_pos.le; linarith
  have hclo : (lo : Rat) ≤ max (lo : Rat) (min (hi : Rat) v) := le_max_left _ _
  have hchi : max (lo : Rat) (min (hi : Rat) v) ≤ hi := max_le hlhR (min_le_left _ _)
  have hKR : (0 : Rat) ≤ (K : Rat) := by positivity
  have hweak : ∀ t : Rat, -(m * ((K : Rat) + 6) * (2 : Rat) ^ (-24 : Int)) ≤ t →
      -(m * ((K : Rat) + 6) * (2 : Rat) ^ (-21 : Int)) ≤ t := by
    intro t ht
    have h3 : (2 : Rat) ^ (-21 : Int) = 8 * (2 : Rat) ^ (-24 : Int) := by norm_num
    have h4 : 0 ≤ m * ((K : Rat) + 6) * (2 : Rat) ^ (-24 : Int) :=
      mul_nonneg (mul_nonneg hc.m_pos.le (by linarith)) (by positivity)
    rw [h3]
    linarith
  subst hτ
  split
  · rename_i h
    have h1 := start_exact hfl hc Lhi h.2
    have h2 := hmono _ _ hchi
    exact ⟨fun _ => by linarith, fun h' => absurd (show x > -2147483648 by omega) h'⟩
  · split
    · rename_i h
      have h1 := stop_exact hfl hc Llo rfl h.1
      have h2 := hmono _ _ hclo
      refine ⟨fun h' => ?_, fun _ => hweak _ (by linarith)⟩
      have : K ≤ 8388608 := hK
      omega
    · rename_i h1 h2
      obtain ⟨hs, he⟩ := mixed_case hfl hc Llo Lhi hlhR h1 h2
      have hKZ : K ≤ 8388608 := hK
      have hK8 : (K : Rat) ≤ 8388608 := by exact_mod_cast hKZ
      have hg : GenCase fl ((K : Rat) + 6) (K : Rat) lo hi m b := by
        refine ⟨hs, he, ?_, hKR, by linarith, ?_, ?_⟩
        · have := Binary32.int (n := (K : Int)) (by rw [abs_of_nonneg (by omega)]; omega)
          exact_mod_cast this
        · exact ⟨(K : Int) + 6, 1, by rw [abs_of_nonneg (by omega)]; omega, by norm_num, by norm_num, by
            push_cast; ring⟩
        · linarith
      constructor
      · intro hx
        have h3 := gen_one hfl hc Llo Lhi hg
          (Binary32.int (by rw [abs_of_nonneg (by omega)]; omega))
          (by
            have := Binary32.int (n := 2 * x - K) (by rw [abs_le]; omega)
            have e : ((2 * x : Int) - (K : Rat) : Rat) = ((2 * x - K : Int) : Rat) := by push_cast; ring
            rw [e]; exact this) hx
        rw [← hv] at h3
        have h4 := start_exact hfl hc Llo hs
        rcases le_total v lo with hvl | hvl
        · have : max (lo : Rat) (min (hi : Rat) v) = lo := max_eq_left (le_trans (min_le_right _ _) hvl)
          rw [this]; exact h4
        · have : max (lo : Rat) (min (hi : Rat) v) ≤ v := max_le hvl (min_le_right _ _)
          have := hmono _ _ this
          linarith
      · intro hx
        have h3 := gen_zero hfl hc Llo Lhi hg hx
        rw [← hv] at h3
        rcases le_total v hi with hvh | hvh
        · have : v ≤ max (lo : Rat) (min (hi : Rat) v) := by rw [min_eq_right hvh]; exact le_max_right _ _
          have := hmono _ _ this
          linarith
        · rw [min_eq_left hvh, max_eq_right hlhR]
          exact hweak _ (stop_exact hfl hc Lhi rfl he)

end Verif
