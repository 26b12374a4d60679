import Verif.Props.FusedSign

/-!
C78: the two computations of the sign do differ for some parameters, in every arithmetic that rounds to nearest.
-/

namespace Verif

/-- A number closer than half a step to a float `N * 2^q` of the binade of step `2^q` rounds to that float. -/
theorem fl_grid {fl : Rat → Rat} (h : RoundsToNearest fl) {t : Rat} (ht : |t| ≤ maxBinary32) {N q : Int}
    (h1 : 2 ^ 23 < N) (h2 : N < 2 ^ 24) (hq : -149 ≤ q) (hq2 : q ≤ 100) (hd : |t - N * (2 : Rat) ^ q| < (2 : Rat) ^ q / 2) :
    fl t = N * (2 : Rat) ^ q := by
  have hg : (0 : Rat) < 2 ^ q := by positivity
  obtain ⟨⟨m, e, m1, m2, m3, m4⟩, hn⟩ := h t ht
  have h5 := hn _ (Binary32.scaled (n := N) (q := q) (by rw [abs_le]; constructor <;> omega) hq (by omega))
  rw [abs_sub_comm] at hd
  have h6 : |fl t - N * (2 : Rat) ^ q| < (2 : Rat) ^ q := by
    have e : fl t - N * (2 : Rat) ^ q = (fl t - t) - (N * (2 : Rat) ^ q - t) := by ring
    rw [e]
    have := abs_sub (fl t - t) (N * (2 : Rat) ^ q - t)
    linarith
  by_cases he : q ≤ e
  · obtain ⟨j, hj⟩ := Int.eq_ofNat_of_zero_le (by omega : 0 ≤ e - q)
    have e2 : (2 : Rat) ^ e = ((2 ^ j : Int) : Rat) * 2 ^ q := by
      have : e = (j : Int) + q := by omega
      rw [this, zpow_add₀ (by norm_num), zpow_natCast]
      push_cast
      rfl
    have e3 : fl t = ((m * 2 ^ j : Int) : Rat) * 2 ^ q := by rw [m4, e2]; push_cast; ring
    rw [e3] at h6 ⊢
    generalize m * 2 ^ j = k at h6 ⊢
    rw [← sub_mul, abs_mul, abs_of_pos hg] at h6
    have h7 : |((k - N : Int) : Rat)| < 1 := by
      push_cast
      by_contra hc
      have := mul_le_mul_of_nonneg_right (not_lt.1 hc) hg.le
      linarith
    have h8 : |k - N| < 1 := by exact_mod_cast h7
    have : k = N := by have := abs_lt.1 h8; omega
    rw [this]
  · exfalso
    have k1 : (2 : Rat) ^ e ≤ 2 ^ (q - 1) := zpow_le_zpow_right₀ (by norm_num) (by omega)
    have k2 : (2 : Rat) ^ (q - 1) = 2 ^ q / 2 := by rw [zpow_sub₀ (by norm_num), zpow_one]
    have k3 : (m : Rat) ≤ 2 ^ 24 := by
      have : m ≤ 2 ^ 24 := by have := (abs_lt.1 m1).2; omega
      exact_mod_cast this
    have p0 : (0 : Rat) < 2 ^ e := by positivity
    have k4 : fl t ≤ 2 ^ 24 * (2 ^ q / 2) := by
      rw [m4, ← k2]
      exact le_trans (mul_le_mul_of_nonneg_right k3 p0.le) (mul_le_mul_of_nonneg_left k1 (by norm_num))
    have k5 : ((2 ^ 23 + 1 : Int) : Rat) ≤ N := by exact_mod_cast h1
    have k6 := mul_le_mul_of_nonneg_right k5 hg.le
    have k7 := (abs_lt.1 h6).1
    push_cast at k6
    linarith

/-- The convolution of the witness: one pixel, two input channels, one output channel. -/
def diffConv : BConv := ⟨1, 1, 1, 1, 2, 1, 1, 1, 1, 1, 1, 1, 1, 1, .valid, 0, 0, 0, 1, 1⟩

theorem diffConv_ok : diffConv.Ok [1#32] [0#32] := by
  refine ⟨by decide, by decide, by decide, by decide, by decide, by decide, by decide, by decide, ?_, ?_⟩
  · intro r k b hr hk hb hc
    have hr : r < 1 := hr
    have hk : k < 1 := hk
    have hc : 2 ≤ 32 * k + b := hc
    obtain rfl : k = 0 := by omega
    obtain rfl : r = 0 := by omega
    have : ∀ b, b < 32 → 1 ≤ b → (1#32).getLsbD b = false := by decide
    exact this b hb (by omega)
  · intro r k b hr hk hb hc
    simp [BConv.cinG, diffConv] at hr hk hc ⊢
    subst hr hk
    simp

/-- the bias of the witness -/
def diffBias : Rat := -29 / 2 ^ 27

theorem diff_threshold {fl : Rat → Rat} (hfl : RoundsToNearest fl) :
    bitpackedThresholds fl 1 1 2 .none [3] [diffBias] = [0] := by
  have hM : (2 : Rat) ^ 33 ≤ maxBinary32 := by unfold maxBinary32; norm_num
  have hrng : ∀ t : Rat, |t| ≤ 100 → |t| ≤ maxBinary32 := fun t ht => by
    have : (100 : Rat) ≤ 2 ^ 33 := by norm_num
    linarith
  have f2 : fl 2 = 2 := hfl.fix (by exact_mod_cast Binary32.int (n := 2) (by norm_num))
  have fm2 : fl (-2) = -2 := hfl.fix (by exact_mod_cast Binary32.int (n := -2) (by norm_num))
  have f6 : fl 6 = 6 := hfl.fix (by exact_mod_cast Binary32.int (n := 6) (by norm_num))
  have fm6 : fl (-6) = -6 := hfl.fix (by exact_mod_cast Binary32.int (n := -6) (by norm_num))
  have hs2 : |(-6 : Rat) + diffBias| ≤ maxBinary32 := hrng _ (by unfold diffBias; norm_num [abs_le])
  have hs3 : |(6 : Rat) + diffBias| ≤ maxBinary32 := hrng _ (by unfold diffBias; norm_num [abs_le])
  have hneg : fl (-6 + diffBias) < 0 := by
    have := hfl.le_of_le hs2 (y := -2) (by exact_mod_cast Binary32.int (n := -2) (by norm_num)) (by unfold diffBias; norm_num)
    linarith
  have hposs : 0 ≤ fl (6 + diffBias) := hfl.ge_of_ge hs3 Binary32.zero (by unfold diffBias; norm_num)
  -- the quotient
  have hqe := fl_err hfl (x := diffBias / 3) (by
    have : |diffBias / 3| ≤ 1000 := by unfold diffBias; norm_num [abs_le]
    linarith [bigF_ge])
  have heta : etaF ≤ 1 / 2 ^ 40 := by
    unfold etaF
    norm_num
  have habs : |diffBias / 3| ≤ 1 / 2 ^ 23 := by unfold diffBias; norm_num [abs_le]
  have hqe' : |fl (diffBias / 3) - diffBias / 3| ≤ 1 / 2 ^ 39 := by
    norm_num at hqe habs heta ⊢
    linarith
  have hsum : fl (fl (diffBias / 3) + 2) = ((2 ^ 24 - 1 : Int) : Rat) * (2 : Rat) ^ (-23 : Int) := by
    obtain ⟨u1, u2⟩ := abs_le.1 hqe'
    refine fl_grid hfl (hrng _ ?_) (by norm_num) (by norm_num) (by norm_num) (by norm_num) ?_
    · unfold diffBias at u1 u2
      norm_num at u1 u2
      rw [show (diffBias / 3) = -29 / 2 ^ 27 / 3 from rfl]
      norm_num
      rw [abs_le]
      constructor <;> linarith
    · rw [abs_lt]
      unfold diffBias at u1 u2 ⊢
      norm_num at u1 u2 ⊢
      constructor <;> linarith
  unfold bitpackedThresholds thresholdOf thresholdClamp
  simp only [List.zipWith_cons_cons, List.zipWith_nil_left, List.cons.injEq, and_true, Nat.one_mul]
  have k1 : fl (((2 : Nat) : Int) : Rat) = 2 := by exact_mod_cast f2
  have k2 : fl ((-1 * ((2 : Nat) : Int) : Int) : Rat) = -2 := by
    have : ((-1 * ((2 : Nat) : Int) : Int) : Rat) = -2 := by norm_num
    rw [this, fm2]
  have k3 : |(3 : Rat)| = 3 := by norm_num
  rw [k1, k2, k3, if_neg (by norm_num : ¬ (3 : Rat) = 0)]
  simp only [if_pos (by norm_num : (0 : Rat) < 3)]
  have k4 : (-2 : Rat) * 3 = -6 := by norm_num
  have k5 : (2 : Rat) * 3 = 6 := by norm_num
  rw [k4, k5, fm6, f6, hsum]
  rw [if_neg (fun h => absurd h.2 (not_lt.2 hposs)), if_neg (fun h => absurd h.1 (not_le.2 hneg))]
  decide +kernel

theorem diff_float (R : FlEnv) (h32 : RoundsToNearest R.fl) (h64 : RoundsToNearest64 R.dl) (w : Rat) :
    evalRefFloatFl R diffConv .none [3] [diffBias] [1#32] [0#32] [w] = some [0] := by
  have hok := diffConv_ok
  have hconv : diffConv.conv diffConv.padVal [1#32] [0#32] 0 0 0 0 = 0 := by decide
  obtain ⟨t, ht, _, _, hrun⟩ := runFloatFl_eq (R := R) (p := diffConv) (act := .none) (scale := 1) (zp := 0)
    (mult := [3]) (bias := [diffBias]) rfl rfl (by decide)
  have d1 : Binary64 (6 : Rat) := ⟨6, 0, by norm_num, by norm_num, by norm_num, by norm_num⟩
  have d2 : Binary64 (diffBias + 6) := ⟨6 * 2 ^ 27 - 29, -27, by norm_num, by norm_num, by norm_num, by unfold diffBias; norm_num⟩
  have hB : R.fl (R.dl (R.dl (R.dl (diffBias + R.dl (((2 : Int) : Rat) * 3)) / 1) + 0)) = 6 := by
    have e : ((2 : Int) : Rat) * 3 = 6 := by norm_num
    rw [e, h64.fix' d1, h64.fix' d2, div_one, h64.fix' d2, add_zero, h64.fix' d2]
    rw [fl_grid h32 (N := 12582912) (q := -21) ?_ (by norm_num) (by norm_num) (by norm_num) (by norm_num) ?_]
    · norm_num
    · refine bigF_le ?_
      have : |diffBias + 6| ≤ 1000 := by unfold diffBias; norm_num [abs_le]
      linarith [bigF_ge]
    · unfold diffBias
      rw [abs_lt]
      norm_num
  have hM : R.fl (R.dl (R.dl (-1 * 3) / 1)) = -3 :=
    fuseMul_float h32 h64 ⟨3, 0, by norm_num, by norm_num, by norm_num, by norm_num⟩
  obtain ⟨out, e1, e2, e3⟩ := reference_rel (act := .none) (out0 := [w]) (Rel := fun _ z v => z = 0 → v = (0 : Rat)) hok
    (by decide) hrun
    (fun a c ha hc => by
      have hc0 : c = 0 := by
        have : c < 1 := hc
        omega
      subst hc0
      intro hz
      have f1 : (([3] : List Rat).getD 0 0) = 3 := rfl
      have f2 : (([diffBias] : List Rat).getD 0 0) = diffBias := rfl
      have f3 : ((diffConv.K : Nat) : Int) = 2 := by decide
      rw [hz, f1, f2, f3, hM, hB, sub_zero]
      have g1 : R.fl ((2 : Int) : Rat) = 2 := by
        have := fl_int h32 (x := 2) (by norm_num)
        rw [this]; norm_num
      have g0 : R.fl 0 = 0 := by
        have := fl_int h32 (x := 0) (by norm_num)
        simpa using this
      have g2 : R.fl (-6) = -6 := by
        have := fl_int h32 (x := -6) (by norm_num)
        have e : ((-6 : Int) : Rat) = -6 := by norm_num
        rwa [e] at this
      unfold flRun
      rw [g1]
      have e : (2 : Rat) * -3 = -6 := by norm_num
      have e' : (-6 : Rat) + 6 = 0 := by norm_num
      cases R.fused
      · simp only [Bool.false_eq_true, if_false]
        rw [e, g2, e', g0]
      · simp only [if_true]
        rw [e, e', g0]) rfl
  obtain ⟨v, v1, v2⟩ := e3 0 0 0 0 (by decide) (by decide) (by decide) (by decide)
  have v3 := v2 (by rw [hconv]; rfl)
  subst v3
  have : out = [0] := by
    rw [show ((0 * diffConv.outH + 0) * diffConv.outW + 0) * diffConv.cout + 0 = 0 from by decide] at v1
    match out, e2, v1 with
    | [w'], _, v1 => simpa using v1
  unfold evalRefFloatFl
  rw [ht, ← this]
  exact e1

/-- **C78, the exception is real.** Filter `[1, 1]`, multiplier 3, bias `-29 * 2^-27` (both floats), input `[-1, 1]`: the convolution
is 0 and the exact result is the bias, negative. In every arithmetic that rounds to nearest the unfused op computes 0, packed as a
0-bit, and the fused op writes a 1-bit. -/
theorem C78_differ_witness (R : FlEnv) (h32 : RoundsToNearest R.fl) (h64 : RoundsToNearest64 R.dl) (w : Rat) :
    Binary32 diffBias ∧ diffConv.Ok [1#32] [0#32] ∧ bitpackConst 1 1 1 2 [1, 1] 0#32 = some [0#32] ∧
    evalRefFloatFl R diffConv .none [3] [diffBias] [1#32] [0#32] [w] = some [0] ∧
    bitpackMatrix ([0] : List Rat) 1 1 [7#32] 0 0#32 = some [0#32] ∧
    bitpackConst 1 1 1 2 (mulSigns 2 [1, 1] (signsOf [3])) 0#32 = some [0#32] ∧
    evalRefBits diffConv (bitpackedThresholds R.fl 1 1 2 .none [3] [diffBias]) [1#32] [0#32] [7#32] = some [1#32] := by
  refine ⟨⟨-29, -27, by norm_num, by norm_num, by norm_num, by unfold diffBias; norm_num⟩, diffConv_ok, ?_,
    diff_float R h32 h64 w, ?_, ?_, ?_⟩
  · decide +kernel
  · decide +kernel
  · decide +kernel
  · rw [diff_threshold h32]
    decide +kernel

end Verif
