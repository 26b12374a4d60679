import Verif.Spec.Float64
import Verif.Proof.Float32
import Mathlib.Data.Nat.Prime.Basic
import Mathlib.Tactic.Zify
import Mathlib.Tactic.FieldSimp

/-! Rounding a reciprocal first to binary64 and then to binary32 is rounding it to binary32. -/

namespace Verif

theorem Binary64.near {x : Rat} (hlo : (2 : Rat) ^ (-200 : Int) ≤ x) (hhi : x < (2 : Rat) ^ (200 : Int)) :
    ∃ f, Binary64 f ∧ |f - x| ≤ x * (2 : Rat) ^ (-53 : Int) := by
  have hpos : 0 < x := lt_of_lt_of_le (by positivity) hlo
  obtain ⟨n, hn1, hn2⟩ := exists_mem_Ico_zpow (y := (2 : Rat)) hpos (by norm_num)
  have hn3 : n < 200 := by
    by_contra hc
    have : (2 : Rat) ^ (200 : Int) ≤ 2 ^ n := zpow_le_zpow_right₀ (by norm_num) (by omega)
    linarith
  have hn4 : -201 < n := by
    by_contra hc
    have : (2 : Rat) ^ (n + 1) ≤ 2 ^ (-200 : Int) := zpow_le_zpow_right₀ (by norm_num) (by omega)
    linarith
  have hq : (0 : Rat) < 2 ^ (n - 52) := zpow_pos (by norm_num) _
  have e53 : (2 : Rat) ^ (n + 1) = 2 ^ 53 * 2 ^ (n - 52) := by
    rw [show n + 1 = 53 + (n - 52) by ring, zpow_add₀ (by norm_num)]; rfl
  have e52 : (2 : Rat) ^ n = 2 ^ 52 * 2 ^ (n - 52) := by
    conv_lhs => rw [show n = 52 + (n - 52) by ring]
    rw [zpow_add₀ (by norm_num)]; rfl
  set m : Int := round (x / 2 ^ (n - 52)) with hm
  have hr : |x / 2 ^ (n - 52) - m| ≤ 1 / 2 := abs_sub_round _
  have herr : |(m : Rat) * 2 ^ (n - 52) - x| ≤ 1 / 2 * 2 ^ (n - 52) := by
    have e1 : (m : Rat) * 2 ^ (n - 52) - x = -(x / 2 ^ (n - 52) - m) * 2 ^ (n - 52) := by
      rw [neg_sub, sub_mul, div_mul_cancel₀ _ hq.ne']
    rw [e1, abs_mul, abs_neg, abs_of_pos hq]
    exact mul_le_mul_of_nonneg_right hr hq.le
  have herr2 : |(m : Rat) * 2 ^ (n - 52) - x| ≤ x * (2 : Rat) ^ (-53 : Int) := by
    refine le_trans herr ?_
    have : (1 / 2 : Rat) * 2 ^ (n - 52) = 2 ^ n * 2 ^ (-53 : Int) := by
      rw [e52]
      have : (2 : Rat) ^ 52 * 2 ^ (n - 52) * 2 ^ (-53 : Int) = (2 ^ 52 * 2 ^ (-53 : Int)) * 2 ^ (n - 52) := by ring
      rw [this]
      congr 1
      norm_num
    rw [this]
    exact mul_le_mul_of_nonneg_right hn1 (by positivity)
  have hx1 : x / 2 ^ (n - 52) < 2 ^ 53 := by rw [div_lt_iff₀ hq, ← e53]; exact hn2
  have hx0 : 0 < x / 2 ^ (n - 52) := div_pos hpos hq
  rw [abs_le] at hr
  have hm1 : m ≤ 2 ^ 53 := by
    by_contra hc
    have hc' : 2 ^ 53 + 1 ≤ m := by omega
    have : (2 ^ 53 + 1 : Rat) ≤ (m : Rat) := by exact_mod_cast hc'
    linarith [hr.1]
  have hm0 : 0 ≤ m := by
    by_contra hc
    have hc' : m ≤ -1 := by omega
    have : (m : Rat) ≤ -1 := by exact_mod_cast hc'
    linarith [hr.2]
  by_cases hlt : m < 2 ^ 53
  · exact ⟨m * 2 ^ (n - 52), ⟨m, n - 52, by rw [abs_of_nonneg hm0]; exact hlt, by omega, by omega, rfl⟩, herr2⟩
  · have hme : m = 2 ^ 53 := by omega
    refine ⟨2 ^ (n + 1), ⟨1, n + 1, by norm_num, by omega, by omega, by simp⟩, ?_⟩
    rw [hme] at herr2
    rw [e53]
    exact_mod_cast herr2

/-- The exponent of a representation of `f` is at least that of `f` minus 24. -/
theorem Binary32.quantum {f : Rat} (h : Binary32 f) (hf : 0 < f) :
    ∃ m e : Int, f = (m : Rat) * 2 ^ e ∧ f < 2 ^ (24 : Int) * 2 ^ e := by
  obtain ⟨m, e, h1, _, _, rfl⟩ := h
  refine ⟨m, e, rfl, ?_⟩
  have hq : (0 : Rat) < 2 ^ e := zpow_pos (by norm_num) e
  refine mul_lt_mul_of_pos_right ?_ hq
  have : (m : Rat) < ((2 ^ 24 : Int) : Rat) := by exact_mod_cast (lt_of_le_of_lt (le_abs_self m) h1)
  refine lt_of_lt_of_le this ?_
  norm_num

/-- A power of two that is an integer multiple of another has a larger exponent; otherwise it divides. -/
theorem zpow_multiple {e e' : Int} (h : e ≤ e') : ∃ k : Int, (2 : Rat) ^ e' = (k : Rat) * 2 ^ e := by
  refine ⟨2 ^ (e' - e).toNat, ?_⟩
  have : (((2 : Int) ^ (e' - e).toNat : Int) : Rat) = (2 : Rat) ^ (e' - e) := by
    rw [Int.cast_pow, ← zpow_natCast]
    congr 1
    omega
  rw [this, ← zpow_add₀ (by norm_num)]
  congr 1
  omega

/-- A natural divisor of a power of two is a power of two; stated for integers with a positive product. -/
theorem pow_two_of_mul {m k : Int} {n : Nat} (hm : 0 < m) (h : m * k = 2 ^ n) : ∃ i : Nat, i ≤ n ∧ m = 2 ^ i := by
  have hk : 0 < k := by
    by_contra hc
    have h2 : (0 : Int) < 2 ^ n := by positivity
    nlinarith
  have hd : m.toNat ∣ 2 ^ n := by
    refine ⟨k.toNat, ?_⟩
    zify
    rw [Int.toNat_of_nonneg hm.le, Int.toNat_of_nonneg hk.le, h]
  obtain ⟨i, hi, he⟩ := (Nat.dvd_prime_pow Nat.prime_two).1 hd
  refine ⟨i, hi, ?_⟩
  have := Int.toNat_of_nonneg hm.le
  rw [he] at this
  rw [← this]
  push_cast
  rfl

theorem maxBinary32_lt : maxBinary32 < (2 : Rat) ^ (128 : Int) := by unfold maxBinary32; norm_num

/-- Rounding `1 / s` to double and then to float is rounding it to float, for every float `s` (and never a tie, so the
tie-breaking rules `fl` and `fl'` may differ). -/
theorem recip_double_round {fl fl' fl64 : Rat → Rat} (h : RoundsToNearest fl) (h' : RoundsToNearest fl') (h64 : RoundsToNearest64 fl64) {s : Rat}
    (hs : Binary32 s) (h0 : 0 < s) (hov : 1 / s ≤ maxBinary32) : fl' (fl64 (1 / s)) = fl (1 / s) := by
  set y := 1 / s with hy
  have hsy : s * y = 1 := by rw [hy]; field_simp
  have hy0 : 0 < y := by rw [hy]; positivity
  have hs1 : s < (2 : Rat) ^ (128 : Int) := lt_of_le_of_lt (le_trans (le_abs_self s) hs.le_max) maxBinary32_lt
  have hy1 : y < (2 : Rat) ^ (128 : Int) := lt_of_le_of_lt hov maxBinary32_lt
  have hy2 : (2 : Rat) ^ (-128 : Int) < y := by
    by_contra hc
    have : s * y < (2 : Rat) ^ (128 : Int) * 2 ^ (-128 : Int) :=
      mul_lt_mul hs1 (not_lt.1 hc) hy0 (by positivity)
    rw [hsy, ← zpow_add₀ (by norm_num)] at this
    norm_num at this
  obtain ⟨n, hn1, hn2⟩ := exists_mem_Ico_zpow (y := (2 : Rat)) hy0 (by norm_num)
  have hn3 : n < 128 := by
    by_contra hc
    have : (2 : Rat) ^ (128 : Int) ≤ 2 ^ n := zpow_le_zpow_right₀ (by norm_num) (by omega)
    linarith
  have hn4 : -129 < n := by
    by_contra hc
    have : (2 : Rat) ^ (n + 1) ≤ 2 ^ (-128 : Int) := zpow_le_zpow_right₀ (by norm_num) (by omega)
    linarith
  have hn5 : y < 2 * 2 ^ n := by rwa [zpow_add₀ (by norm_num), zpow_one, mul_comm] at hn2
  -- the double
  have hm64 : maxBinary32 ≤ maxBinary64 := by
    refine le_trans maxBinary32_lt.le ?_
    unfold maxBinary64
    have : (2 : Rat) ^ (128 : Int) ≤ 2 ^ (971 : Int) := zpow_le_zpow_right₀ (by norm_num) (by norm_num)
    refine le_trans this (le_mul_of_one_le_left (by positivity) (by norm_num))
  have hyabs : |y| = y := abs_of_pos hy0
  have hr64 := h64 y (by rw [hyabs]; linarith)
  set z := fl64 y with hz
  have hzy : |z - y| ≤ y * 2 ^ (-53 : Int) := by
    obtain ⟨f, hf, he⟩ := Binary64.near (x := y)
      (le_trans (zpow_le_zpow_right₀ (by norm_num) (by norm_num)) hy2.le)
      (lt_of_lt_of_le hy1 (zpow_le_zpow_right₀ (by norm_num) (by norm_num)))
    exact le_trans (hr64.2 f hf) he
  have hzmax : z ≤ maxBinary32 := by
    have := hr64.2 maxBinary32 ⟨2 ^ 24 - 1, 104, by norm_num, by norm_num, by norm_num, rfl⟩
    rw [abs_of_nonneg (by linarith : 0 ≤ maxBinary32 - y)] at this
    linarith [le_abs_self (z - y)]
  have hzn : (2 : Rat) ^ n ≤ z := by
    have := hr64.2 (2 ^ n) ⟨1, n, by norm_num, by omega, by omega, by simp⟩
    rw [abs_of_nonpos (by linarith : (2 : Rat) ^ n - y ≤ 0)] at this
    linarith [neg_abs_le (z - y)]
  have hz0 : 0 < z := lt_of_lt_of_le (zpow_pos (by norm_num) n) hzn
  have hzabs : |z| = z := abs_of_pos hz0
  have hyr : |y| ≤ maxBinary32 := by rw [hyabs]; exact hov
  have hzr : |z| ≤ maxBinary32 := by rw [hzabs]; exact hzmax
  have hbn : Binary32 ((2 : Rat) ^ n) := Binary32.pow (by omega) (by omega)
  have hfn := h.ge_of_ge hyr hbn hn1
  have hgn := h'.ge_of_ge hzr hbn hzn
  obtain ⟨hfb, hfm⟩ := h y hyr
  obtain ⟨hgb, hgm⟩ := h' z hzr
  have H1 := hfm _ hgb
  have H2 := hgm _ hfb
  generalize fl y = f at *
  generalize fl' z = g at *
  by_contra hne
  -- the midpoint lies between `y` and `z`
  have hM : |2 * y - (f + g)| ≤ 2 * |z - y| := by
    rcases abs_cases (f - y) with ⟨e1, _⟩ | ⟨e1, _⟩ <;> rcases abs_cases (g - y) with ⟨e2, _⟩ | ⟨e2, _⟩ <;>
      rcases abs_cases (g - z) with ⟨e3, _⟩ | ⟨e3, _⟩ <;> rcases abs_cases (f - z) with ⟨e4, _⟩ | ⟨e4, _⟩ <;>
      rw [e1, e2] at H1 <;> rw [e3, e4] at H2 <;>
      rcases abs_cases (z - y) with ⟨e5, _⟩ | ⟨e5, _⟩ <;> rw [e5, abs_le] <;>
      first
      | (constructor <;> linarith)
      | (exfalso; apply hne; linarith)
  have hf0 : 0 < f := lt_of_lt_of_le (zpow_pos (by norm_num) n) hfn
  have hg0 : 0 < g := lt_of_lt_of_le (zpow_pos (by norm_num) n) hgn
  obtain ⟨m1, e1, hf1, hf2⟩ := hfb.quantum hf0
  obtain ⟨m2, e2, hg1, hg2⟩ := hgb.quantum hg0
  obtain ⟨m, a, hs2, hs3⟩ := hs.quantum h0
  have hb : ∃ (b K : Int), f + g = (K : Rat) * 2 ^ b ∧ y < 2 ^ (25 : Int) * 2 ^ b := by
    have e25 : ∀ b : Int, (2 : Rat) ^ (25 : Int) * 2 ^ b = 2 * (2 ^ (24 : Int) * 2 ^ b) := by
      intro b; rw [← mul_assoc]; norm_num
    rcases le_total e1 e2 with hle | hle
    · obtain ⟨k, hk⟩ := zpow_multiple hle
      refine ⟨e1, m1 + m2 * k, ?_, ?_⟩
      · rw [hf1, hg1, hk]; push_cast; ring
      · rw [e25]; linarith
    · obtain ⟨k, hk⟩ := zpow_multiple hle
      refine ⟨e2, m1 * k + m2, ?_, ?_⟩
      · rw [hf1, hg1, hk]; push_cast; ring
      · rw [e25]; linarith
  obtain ⟨b, K, hK, hyb⟩ := hb
  have hab : (1 : Rat) < 2 ^ (49 + (a + b)) := by
    have : s * y < (2 ^ (24 : Int) * 2 ^ a) * (2 ^ (25 : Int) * 2 ^ b) := mul_lt_mul'' hs3 hyb h0.le hy0.le
    rw [hsy] at this
    refine lt_of_lt_of_eq this ?_
    rw [← zpow_add₀ (by norm_num), ← zpow_add₀ (by norm_num), ← zpow_add₀ (by norm_num)]
    congr 1
    ring
  have hc : -48 ≤ a + b := by
    by_contra hc
    have : (2 : Rat) ^ (49 + (a + b)) ≤ 2 ^ (0 : Int) := zpow_le_zpow_right₀ (by norm_num) (by omega)
    rw [zpow_zero] at this
    linarith
  obtain ⟨k, hk⟩ := zpow_multiple hc
  have hsM : s * (f + g) = ((m * K * k : Int) : Rat) * 2 ^ (-48 : Int) := by
    rw [hK, hs2]
    have : (m : Rat) * 2 ^ a * (K * 2 ^ b) = m * K * 2 ^ (a + b) := by rw [zpow_add₀ (by norm_num)]; ring
    rw [this, hk]; push_cast; ring
  have hdiff : |2 - s * (f + g)| ≤ 2 ^ (-52 : Int) := by
    have e : 2 - s * (f + g) = s * (2 * y - (f + g)) := by rw [mul_sub, ← mul_assoc, mul_comm s 2, mul_assoc, hsy]; ring
    rw [e, abs_mul, abs_of_pos h0]
    have : s * |2 * y - (f + g)| ≤ s * (2 * (y * 2 ^ (-53 : Int))) :=
      mul_le_mul_of_nonneg_left (by linarith) h0.le
    refine le_trans this (le_of_eq ?_)
    have : s * (2 * (y * (2 : Rat) ^ (-53 : Int))) = s * y * (2 * 2 ^ (-53 : Int)) := by ring
    rw [this, hsy]
    norm_num
  have hN : m * K * k = 2 ^ 49 := by
    rw [hsM, abs_le] at hdiff
    generalize m * K * k = N at *
    have q48 : (2 : Rat) ^ (-48 : Int) = 1 / 2 ^ 48 := by norm_num
    have q52 : (2 : Rat) ^ (-52 : Int) = 1 / 2 ^ 52 := by norm_num
    rw [q48, q52] at hdiff
    norm_num at hdiff
    have b1 : (2 ^ 49 - 1 : Rat) < (N : Rat) := by norm_num; linarith [hdiff.1, hdiff.2]
    have b2 : (N : Rat) < (2 ^ 49 + 1 : Rat) := by norm_num; linarith [hdiff.1, hdiff.2]
    have b1' : (2 ^ 49 - 1 : Int) < N := by exact_mod_cast b1
    have b2' : N < (2 ^ 49 + 1 : Int) := by exact_mod_cast b2
    omega
  -- so `y` is the midpoint, and a power of two
  have hmid : f + g = 2 * y := by
    rw [hN] at hsM
    have e2 : s * (f + g) = 2 := by rw [hsM]; norm_num
    have : s * (f + g) = s * (2 * y) := by rw [e2, mul_left_comm, hsy]; norm_num
    exact mul_left_cancel₀ h0.ne' this
  have hm0 : 0 < m := by
    by_contra hc
    have h1 : (m : Rat) ≤ 0 := by exact_mod_cast not_lt.1 hc
    have h2 : (m : Rat) * 2 ^ a ≤ 0 := mul_nonpos_of_nonpos_of_nonneg h1 (by positivity)
    linarith
  obtain ⟨i, hi, hmi⟩ := pow_two_of_mul (k := K * k) (n := 49) hm0 (by rw [← mul_assoc]; exact hN)
  have hspow : s = 2 ^ ((i : Int) + a) := by
    rw [hs2, hmi, zpow_add₀ (by norm_num)]
    push_cast
    rw [zpow_natCast]
  have hypow : y = 2 ^ (-((i : Int) + a)) := by rw [hy, hspow, zpow_neg, one_div]
  have hyb32 : Binary32 y := by
    rw [hypow] at hy1 hy2 ⊢
    have l1 := (zpow_lt_zpow_iff_right₀ (by norm_num : (1 : Rat) < 2)).1 hy1
    have l2 := (zpow_lt_zpow_iff_right₀ (by norm_num : (1 : Rat) < 2)).1 hy2
    exact Binary32.pow (by omega) (by omega)
  have hfy := hfm y hyb32
  rw [sub_self, abs_zero] at hfy
  have := abs_nonpos_iff.1 hfy
  apply hne
  linarith

/-- The mirrored rounding also rounds to nearest. -/
theorem RoundsToNearest.mirror {fl : Rat → Rat} (h : RoundsToNearest fl) : RoundsToNearest fun x => -fl (-x) := by
  intro x hx
  obtain ⟨h1, h2⟩ := h (-x) (by rwa [abs_neg])
  refine ⟨h1.neg, fun f hf => ?_⟩
  have := h2 (-f) hf.neg
  have e1 : |-fl (-x) - x| = |fl (-x) - -x| := by rw [← abs_neg]; congr 1; ring
  have e2 : |-f - -x| = |f - x| := by rw [← abs_neg]; congr 1; ring
  rwa [e1, ← e2]

theorem RoundsToNearest64.mirror {fl64 : Rat → Rat} (h64 : RoundsToNearest64 fl64) :
    RoundsToNearest64 fun x => -fl64 (-x) := by
  intro x hx
  obtain ⟨⟨m, e, b1, b2, b3, b4⟩, h2⟩ := h64 (-x) (by rwa [abs_neg])
  refine ⟨⟨-m, e, by rwa [abs_neg], b2, b3, by show -fl64 (-x) = _; rw [b4]; push_cast; ring⟩, ?_⟩
  rintro f ⟨m', e', c1, c2, c3, c4⟩
  have := h2 (-f) ⟨-m', e', by rwa [abs_neg], c2, c3, by rw [c4]; push_cast; ring⟩
  have e1 : |-fl64 (-x) - x| = |fl64 (-x) - -x| := by rw [← abs_neg]; congr 1; ring
  have e2 : |-f - -x| = |f - x| := by rw [← abs_neg]; congr 1; ring
  rwa [e1, ← e2]

/-- The same for `-1 / s`. -/
theorem neg_recip_double_round {fl fl64 : Rat → Rat} (h : RoundsToNearest fl) (h64 : RoundsToNearest64 fl64) {s : Rat}
    (hs : Binary32 s) (h0 : 0 < s) (hov : 1 / s ≤ maxBinary32) : fl (fl64 (-1 / s)) = -fl (1 / s) := by
  have := recip_double_round h h.mirror h64.mirror hs h0 hov
  simp only [neg_neg] at this
  rw [neg_div]
  linarith

/-- Binary32 numbers of at least `2^n` are multiples of `2^(n-23)`. -/
theorem Binary32.grid {f : Rat} (h : Binary32 f) {n : Int} (hn : (2 : Rat) ^ n ≤ f) :
    ∃ k : Int, f = (k : Rat) * 2 ^ (n - 23) := by
  obtain ⟨m, e, h1, h2⟩ := h.quantum (lt_of_lt_of_le (zpow_pos (by norm_num) n) hn)
  rw [← zpow_add₀ (by norm_num)] at h2
  have := (zpow_lt_zpow_iff_right₀ (by norm_num : (1 : Rat) < 2)).1 (lt_of_le_of_lt hn h2)
  obtain ⟨k, hk⟩ := zpow_multiple (e := n - 23) (e' := e) (by omega)
  exact ⟨m * k, by rw [h1, hk]; push_cast; ring⟩

theorem maxBinary32_le_64 : maxBinary32 ≤ maxBinary64 := by
  refine le_trans maxBinary32_lt.le ?_
  unfold maxBinary64
  have : (2 : Rat) ^ (128 : Int) ≤ 2 ^ (971 : Int) := zpow_le_zpow_right₀ (by norm_num) (by norm_num)
  refine le_trans this (le_mul_of_one_le_left (by positivity) (by norm_num))

/-- Relative error of the double rounding. -/
theorem RoundsToNearest64.error {fl64 : Rat → Rat} (h : RoundsToNearest64 fl64) {x : Rat}
    (hlo : (2 : Rat) ^ (-200 : Int) ≤ x) (hhi : x ≤ maxBinary32) : |fl64 x - x| ≤ x * (2 : Rat) ^ (-53 : Int) := by
  have h0 : 0 < x := lt_of_lt_of_le (by positivity) hlo
  obtain ⟨f, hf, he⟩ := Binary64.near hlo (lt_of_le_of_lt hhi (lt_of_lt_of_le maxBinary32_lt
    (zpow_le_zpow_right₀ (by norm_num) (by norm_num))))
  exact le_trans ((h x (by rw [abs_of_pos h0]; exact le_trans hhi maxBinary32_le_64)).2 f hf) he

end Verif
