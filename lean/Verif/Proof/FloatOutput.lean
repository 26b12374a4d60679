import Verif.Model.FloatOutput
import Verif.Proof.OutputTransform
import Verif.Proof.Float64

/-!
Rounding errors of the output transform.
-/

namespace Verif

/-- Half the smallest positive float. -/
def etaF : Rat := (2 : Rat) ^ (-150 : Int)
/-- A bound for the absolute error of small doubles. -/
def etaD : Rat := (2 : Rat) ^ (-200 : Int)

theorem etaF_pos : 0 < etaF := by unfold etaF; positivity
theorem etaD_pos : 0 < etaD := by unfold etaD; positivity
theorem etaD_le : 1000 * etaD ≤ etaF := by
  have : etaF = (2 : Rat) ^ (50 : Int) * etaD := by
    unfold etaF etaD
    rw [← zpow_add₀ (by norm_num)]
    rfl
  rw [this]
  refine mul_le_mul_of_nonneg_right (by norm_num) etaD_pos.le

theorem big_le_max : (2 : Rat) ^ (127 : Int) ≤ maxBinary32 := by unfold maxBinary32; norm_num

/-- A bound every intermediate result stays below. -/
def bigF : Rat := (2 : Rat) ^ (125 : Int)

theorem bigF_le {x : Rat} (h : |x| ≤ 4 * bigF) : |x| ≤ maxBinary32 := by
  refine le_trans h (le_trans (le_of_eq ?_) big_le_max)
  unfold bigF
  have : (4 : Rat) = 2 ^ (2 : Int) := by norm_num
  rw [this, ← zpow_add₀ (by norm_num)]
  rfl

theorem bigF_ge : (1000 : Rat) ≤ bigF := by
  unfold bigF
  norm_num

theorem etaF_le_one : etaF ≤ 1 := by
  unfold etaF
  exact zpow_le_one_of_nonpos₀ (by norm_num) (by norm_num)

section
variable {fl dl : Rat → Rat}

theorem fl_err (h : RoundsToNearest fl) {x : Rat} (hx : |x| ≤ 4 * bigF) : |fl x - x| ≤ |x| / 16777216 + etaF := by
  have h0 := abs_nonneg x
  have e : (2 : Rat) ^ (-24 : Int) = 1 / 16777216 := by norm_num
  rcases h.error (bigF_le hx) with he | he
  · rw [e] at he
    linarith [etaF_pos]
  · have : |fl x - x| ≤ etaF := he
    have : 0 ≤ |x| / 16777216 := by positivity
    linarith

theorem Binary64.zero : Binary64 0 := ⟨0, 0, by norm_num, by norm_num, by norm_num, by simp⟩

theorem dl_err (h : RoundsToNearest64 dl) {x : Rat} (hx : |x| ≤ 4 * bigF) :
    |dl x - x| ≤ |x| / 9007199254740992 + etaD := by
  have hmax := bigF_le hx
  have e : (2 : Rat) ^ (-53 : Int) = 1 / 9007199254740992 := by norm_num
  have h0 := abs_nonneg x
  by_cases hs : |x| < etaD
  · have := (h x (le_trans hmax maxBinary32_le_64)).2 0 Binary64.zero
    rw [zero_sub, abs_neg] at this
    have : 0 ≤ |x| / 9007199254740992 := by positivity
    linarith
  · have hs' : etaD ≤ |x| := not_lt.1 hs
    rcases le_total 0 x with hx0 | hx0
    · rw [abs_of_nonneg hx0] at *
      have := h.error hs' hmax
      rw [e] at this
      linarith [etaD_pos]
    · rw [abs_of_nonpos hx0] at *
      have := h.mirror.error hs' hmax
      simp only [neg_neg] at this
      rw [e] at this
      have e2 : |-dl x - -x| = |dl x - x| := by
        rw [← abs_neg]; congr 1; ring
      rw [e2] at this
      linarith [etaD_pos]

theorem RoundsToNearest64.fix (h : RoundsToNearest64 dl) {x : Rat} (hx : Binary64 x) (hm : |x| ≤ maxBinary64) : dl x = x := by
  have := (h x hm).2 x hx
  rw [sub_self, abs_zero] at this
  exact sub_eq_zero.1 (abs_nonpos_iff.1 this)

theorem Binary32.to64 {x : Rat} (h : Binary32 x) : Binary64 x := by
  obtain ⟨m, e, h1, h2, h3, h4⟩ := h
  exact ⟨m, e, lt_trans h1 (by norm_num), by omega, by omega, h4⟩

theorem Binary64.neg {x : Rat} (h : Binary64 x) : Binary64 (-x) := by
  obtain ⟨m, e, h1, h2, h3, h4⟩ := h
  exact ⟨-m, e, by rwa [abs_neg], h2, h3, by rw [h4]; push_cast; ring⟩

theorem Binary64.le_max {x : Rat} (h : Binary64 x) : |x| ≤ maxBinary64 := by
  obtain ⟨m, e, h1, h2, h3, rfl⟩ := h
  unfold maxBinary64
  rw [abs_mul, abs_of_pos (zpow_pos (by norm_num : (0 : Rat) < 2) e)]
  have hm : |(m : Rat)| ≤ ((2 ^ 53 - 1 : Int) : Rat) := by
    rw [← Int.cast_abs]
    exact_mod_cast (by omega : |m| ≤ 2 ^ 53 - 1)
  exact mul_le_mul hm (zpow_le_zpow_right₀ (by norm_num) h3) (by positivity) (le_trans (abs_nonneg _) hm)

theorem RoundsToNearest64.fix' (h : RoundsToNearest64 dl) {x : Rat} (hx : Binary64 x) : dl x = x := h.fix hx hx.le_max

theorem abs_of_sub {a b e : Rat} (h : |a - b| ≤ e) : |a| ≤ |b| + e := by
  have := abs_sub_abs_le_abs_sub a b
  linarith

theorem abs_add2 (a b : Rat) : |a + b| ≤ |a| + |b| := abs_add_le a b

theorem abs_trans3 {a b c e f : Rat} (h1 : |a - b| ≤ e) (h2 : |b - c| ≤ f) : |a - c| ≤ e + f := by
  have : a - c = (a - b) + (b - c) := by ring
  rw [this]
  exact le_trans (abs_add2 _ _) (by linarith)

theorem abs_add_sub {a b c d e f : Rat} (h1 : |a - b| ≤ e) (h2 : |c - d| ≤ f) : |(a + c) - (b + d)| ≤ e + f := by
  have : (a + c) - (b + d) = (a - b) + (c - d) := by ring
  rw [this]
  exact le_trans (abs_add2 _ _) (by linarith)

/-- The float output transform: product and sum, fused or not. -/
def flRun (fl : Rat → Rat) (fused : Bool) (x m b : Rat) : Rat :=
  if fused then fl (fl x * m + b) else fl (fl (fl x * m) + b)

/-- One multiplication and one addition, with inexact operands. -/
theorem flRun_err (h : RoundsToNearest fl) (fused : Bool) {x m b P B eP eB : Rat} (hx : fl x = x)
    (hP : |x * m - P| ≤ eP) (hB : |b - B| ≤ eB) (hr : |P| + eP + (|B| + eB) ≤ 2 * bigF) :
    |flRun fl fused x m b - (P + B)| ≤
      eP + eB + (|P| + eP) / 16777216 + etaF + (|P + B| + eP + eB + (|P| + eP) / 16777216 + etaF) / 16777216 + etaF ∧
    |fl x * m| ≤ maxBinary32 ∧ |fl (fl x * m) + b| ≤ maxBinary32 := by
  have e0 : 0 ≤ eP := le_trans (abs_nonneg _) hP
  have e1 : 0 ≤ eB := le_trans (abs_nonneg _) hB
  have p0 := abs_nonneg P
  have b0 := abs_nonneg B
  have g := bigF_ge
  have u1 := etaF_le_one
  have u0 := etaF_pos
  have a1 := abs_of_sub hP
  have a2 := abs_of_sub hB
  have q1 := fl_err h (x := x * m) (by linarith)
  rw [hx]
  refine ⟨?_, bigF_le (by linarith), bigF_le ?_⟩
  rotate_left
  · have q2 := abs_of_sub q1
    have q3 := abs_add2 (fl (x * m)) b
    linarith
  unfold flRun
  rw [hx]
  cases fused
  · simp only [Bool.false_eq_true, if_false]
    have q2 : |fl (x * m) - P| ≤ (|P| + eP) / 16777216 + etaF + eP := abs_trans3 (le_trans q1 (by linarith)) hP
    have q3 := abs_add_sub q2 hB
    have q4 := abs_of_sub q3
    have q5 := abs_add2 P B
    have q6 := fl_err h (x := fl (x * m) + b) (by linarith)
    have q7 := abs_trans3 q6 q3
    refine le_trans q7 ?_
    linarith
  · simp only [if_true]
    have q3 := abs_add_sub hP hB
    have q4 := abs_of_sub q3
    have q5 := abs_add2 P B
    have q6 := fl_err h (x := x * m + b) (by linarith)
    have q7 := abs_trans3 q6 q3
    refine le_trans q7 ?_
    have : 0 ≤ (|P| + eP) / 16777216 := by positivity
    linarith

theorem fl_int (h : RoundsToNearest fl) {x : Int} (hx : |x| ≤ 2 ^ 24) : fl (x : Rat) = x := h.fix (Binary32.int hx)

/-- The multiplier of the float transform is exact. -/
theorem fuseMul_float (h : RoundsToNearest fl) (hd : RoundsToNearest64 dl) {m : Rat} (hm : Binary32 m) :
    fl (dl (dl (-1 * m) / 1)) = -m := by
  have e : -1 * m = -m := by ring
  rw [e, div_one, hd.fix' hm.neg.to64, hd.fix' hm.neg.to64, h.fix hm.neg]

/-- The sum `b + k * m` in double. -/
theorem dlSum_err (hd : RoundsToNearest64 dl) {b Q : Rat} (hr : |b| + |Q| ≤ bigF) :
    |dl (b + dl Q) - (b + Q)| ≤ 3 * (|b| + |Q|) / 9007199254740992 + 3 * etaD := by
  have b0 := abs_nonneg b
  have q0 := abs_nonneg Q
  have g := bigF_ge
  have u0 := etaD_pos
  have u1 := etaD_le
  have u2 := etaF_le_one
  have h1 := dl_err hd (x := Q) (by linarith)
  have h2 : |(b + dl Q) - (b + Q)| ≤ 0 + (|Q| / 9007199254740992 + etaD) := abs_add_sub (by simp) h1
  have h3 := abs_of_sub h2
  have h4 := abs_add2 b Q
  have h5 := dl_err hd (x := b + dl Q) (by linarith)
  refine le_trans (abs_trans3 h5 h2) ?_
  linarith

/-- The bias of the float transform. -/
theorem fuseBias_float (h : RoundsToNearest fl) (hd : RoundsToNearest64 dl) {b Q : Rat} (hr : |b| + |Q| ≤ bigF) :
    |fl (dl (dl (dl (b + dl Q) / 1) + 0)) - (b + Q)| ≤ (|b| + |Q|) * (1 / 16777216 + 1 / 1073741824) + 2 * etaF := by
  have b0 := abs_nonneg b
  have q0 := abs_nonneg Q
  have g := bigF_ge
  have u0 := etaD_pos
  have u1 := etaD_le
  have u2 := etaF_le_one
  have h1 := dlSum_err hd hr
  have h2 := abs_of_sub h1
  have h4 := abs_add2 b Q
  have hb : Binary64 (dl (b + dl Q)) := by
    have k1 := dl_err hd (x := Q) (by linarith)
    have k2 := abs_of_sub k1
    have k3 := abs_add2 b (dl Q)
    exact (hd _ (le_trans (bigF_le (by linarith)) maxBinary32_le_64)).1
  rw [div_one, hd.fix' hb, add_zero, hd.fix' hb]
  have h5 := fl_err h (x := dl (b + dl Q)) (by linarith)
  refine le_trans (abs_trans3 h5 h1) ?_
  linarith

/-- **Float output**: total rounding error. -/
theorem float_output_err (h : RoundsToNearest fl) (hd : RoundsToNearest64 dl) (fused : Bool) {K : Nat} (hK : 2 * K ≤ 2 ^ 24)
    {x : Int} (hx0 : 0 ≤ x) (hxK : x ≤ 2 * K) {m b : Rat} (hm : Binary32 m) (hr : |b| + 4 * ((K : Rat) * |m|) ≤ bigF) :
    |flRun fl fused x (fl (dl (dl (-1 * m) / 1))) (fl (dl (dl (dl (b + dl ((K : Int) * m)) / 1) + 0)))
        - ((((K : Int) - x : Int) : Rat) * m + b)| ≤ (|b| + K * |m|) * (5 / 16777216) + 8 * etaF ∧
    |fl x * fl (dl (dl (-1 * m) / 1))| ≤ maxBinary32 ∧
    |fl (fl x * fl (dl (dl (-1 * m) / 1))) + fl (dl (dl (dl (b + dl ((K : Int) * m)) / 1) + 0))| ≤ maxBinary32 := by
  have k0 : (0 : Rat) ≤ K := Nat.cast_nonneg K
  have m0 := abs_nonneg m
  have b0 := abs_nonneg b
  have q0 : 0 ≤ (K : Rat) * |m| := by positivity
  have u0 := etaF_pos
  have u2 := etaF_le_one
  have g := bigF_ge
  have eQ : |((K : Int) : Rat) * m| = K * |m| := by
    rw [abs_mul, Int.cast_natCast, abs_of_nonneg k0]
  have hB := fuseBias_float h hd (b := b) (Q := ((K : Int) : Rat) * m) (by rw [eQ]; linarith)
  have hQ2 := abs_add2 b (((K : Int) : Rat) * m)
  rw [eQ] at hB hQ2
  rw [fuseMul_float h hd hm]
  have hfx : fl (x : Rat) = x := fl_int h (by rw [abs_of_nonneg hx0]; omega)
  have hPa : |-(x * m : Rat)| ≤ 2 * (K * |m|) := by
    rw [abs_neg, abs_mul, abs_of_nonneg (by exact_mod_cast hx0 : (0 : Rat) ≤ x)]
    have : (x : Rat) ≤ 2 * K := by exact_mod_cast hxK
    nlinarith
  have hE : |-(x * m : Rat) + (b + ((K : Int) : Rat) * m)| ≤ |b| + K * |m| := by
    have e : -(x * m : Rat) + (b + ((K : Int) : Rat) * m) = b + (((K : Int) - x : Int) : Rat) * m := by push_cast; ring
    rw [e]
    refine le_trans (abs_add2 _ _) ?_
    rw [abs_mul]
    have : |(((K : Int) - x : Int) : Rat)| ≤ K := by
      rw [← Int.cast_abs]
      have : |(K : Int) - x| ≤ K := abs_le.2 ⟨by omega, by omega⟩
      exact_mod_cast this
    nlinarith
  have := flRun_err h fused (x := x) (m := -m) (P := -(x * m)) (B := b + ((K : Int) : Rat) * m) (eP := 0) hfx
    (by rw [mul_neg, sub_self, abs_zero]) hB (by linarith)
  have e2 : (((K : Int) - x : Int) : Rat) * m + b = -(x * m : Rat) + (b + ((K : Int) : Rat) * m) := by push_cast; ring
  rw [e2]
  refine ⟨le_trans this.1 ?_, this.2⟩
  linarith

/-- The multiplier of the int8 transform. -/
theorem fuseMul_int8 (h : RoundsToNearest fl) (hd : RoundsToNearest64 dl) {m s : Rat} (hm : Binary32 m) (hs : 0 < s)
    (hr : |m| / s ≤ bigF) :
    |fl (dl (dl (-1 * m) / s)) - -m / s| ≤ |m| / s * (1 / 16777216 + 1 / 1073741824) + 2 * etaF := by
  have g := bigF_ge
  have u0 := etaD_pos
  have u1 := etaD_le
  have u2 := etaF_le_one
  have e : -1 * m = -m := by ring
  have ea : |-m / s| = |m| / s := by rw [abs_div, abs_neg, abs_of_pos hs]
  have m0 : 0 ≤ |m| / s := by positivity
  rw [e, hd.fix' hm.neg.to64]
  have h1 := dl_err hd (x := -m / s) (by rw [ea]; linarith)
  rw [ea] at h1
  have h2 := abs_of_sub h1
  rw [ea] at h2
  have h3 := fl_err h (x := dl (-m / s)) (by linarith)
  refine le_trans (abs_trans3 h3 h1) ?_
  linarith

/-- The bias of the int8 transform. -/
theorem fuseBias_int8 (h : RoundsToNearest fl) (hd : RoundsToNearest64 dl) {b Q s zp : Rat} (hs : (2 : Rat) ^ (-40 : Int) ≤ s)
    (hr : |b| + |Q| ≤ bigF) (hr2 : (|b| + |Q|) / s + |zp| ≤ bigF) :
    |fl (dl (dl (dl (b + dl Q) / s) + zp)) - ((b + Q) / s + zp)|
      ≤ ((|b| + |Q|) / s + |zp|) * (1 / 16777216 + 1 / 1073741824) + 4 * etaF := by
  have hs0 : 0 < s := lt_of_lt_of_le (by positivity) hs
  have z0 := abs_nonneg zp
  have g := bigF_ge
  have u0 := etaD_pos
  have u1 := etaD_le
  have u2 := etaF_le_one
  have h1 := dlSum_err hd hr
  have hz : 3 * etaD / s ≤ etaF := by
    rw [div_le_iff₀ hs0]
    have : etaF * (2 : Rat) ^ (-40 : Int) ≤ etaF * s := mul_le_mul_of_nonneg_left hs etaF_pos.le
    have e : etaF * (2 : Rat) ^ (-40 : Int) = 1024 * etaD := by
      unfold etaF etaD
      have : (1024 : Rat) = 2 ^ (10 : Int) := by norm_num
      rw [this, ← zpow_add₀ (by norm_num), ← zpow_add₀ (by norm_num)]
      rfl
    linarith
  set S := |b| + |Q| with hS
  have S0 : 0 ≤ S := by positivity
  have σ0 : 0 ≤ S / s := by positivity
  have h2 : |dl (b + dl Q) / s - (b + Q) / s| ≤ 3 * (S / s) / 9007199254740992 + etaF := by
    rw [← sub_div, abs_div, abs_of_pos hs0]
    have : |dl (b + dl Q) - (b + Q)| / s ≤ (3 * S / 9007199254740992 + 3 * etaD) / s :=
      div_le_div_of_nonneg_right h1 hs0.le
    refine le_trans this ?_
    rw [add_div]
    have e : 3 * S / 9007199254740992 / s = 3 * (S / s) / 9007199254740992 := by ring
    rw [e]
    linarith
  have hB : |(b + Q) / s| ≤ S / s := by
    rw [abs_div, abs_of_pos hs0]
    exact div_le_div_of_nonneg_right (abs_add2 b Q) hs0.le
  have a2 := abs_of_sub h2
  have h3 := dl_err hd (x := dl (b + dl Q) / s) (by linarith)
  have h4 := abs_trans3 h3 h2
  have h5 : |(dl (dl (b + dl Q) / s) + zp) - ((b + Q) / s + zp)| ≤ _ := abs_add_sub h4 (by rw [sub_self, abs_zero] : |zp - zp| ≤ 0)
  have a5 := abs_of_sub h5
  have b5 := abs_add2 ((b + Q) / s) zp
  have h6 := dl_err hd (x := dl (dl (b + dl Q) / s) + zp) (by linarith)
  have h7 := abs_trans3 h6 h5
  have a7 := abs_of_sub h7
  have h8 := fl_err h (x := dl (dl (dl (b + dl Q) / s) + zp)) (by linarith)
  refine le_trans (abs_trans3 h8 h7) ?_
  linarith

/-- **Int8 output**: total rounding error before the final rounding to an integer. -/
theorem int8_output_err (h : RoundsToNearest fl) (hd : RoundsToNearest64 dl) (fused : Bool) {K : Nat} (hK : 2 * K ≤ 2 ^ 24)
    {x : Int} (hx0 : 0 ≤ x) (hxK : x ≤ 2 * K) {m b s zp : Rat} (hm : Binary32 m) (hs : (2 : Rat) ^ (-40 : Int) ≤ s)
    (hr : |b| + (K : Rat) * |m| ≤ bigF) (hr1 : |m| / s ≤ bigF) (hr2 : (|b| + (K : Rat) * |m|) / s + |zp| ≤ bigF / 4) :
    |flRun fl fused x (fl (dl (dl (-1 * m) / s))) (fl (dl (dl (dl (b + dl ((K : Int) * m)) / s) + zp)))
        - (((((K : Int) - x : Int) : Rat) * m + b) / s + zp)|
      ≤ ((|b| + K * |m|) / s + |zp|) * (7 / 16777216) + 134217728 * etaF ∧
    |fl x * fl (dl (dl (-1 * m) / s))| ≤ maxBinary32 ∧
    |fl (fl x * fl (dl (dl (-1 * m) / s))) + fl (dl (dl (dl (b + dl ((K : Int) * m)) / s) + zp))| ≤ maxBinary32 := by
  have hs0 : 0 < s := lt_of_lt_of_le (by positivity) hs
  have k0 : (0 : Rat) ≤ K := Nat.cast_nonneg K
  have m0 := abs_nonneg m
  have b0 := abs_nonneg b
  have z0 := abs_nonneg zp
  have q0 : 0 ≤ (K : Rat) * |m| := by positivity
  have μ0 : 0 ≤ |m| / s := by positivity
  have u0 := etaF_pos
  have u2 := etaF_le_one
  have g := bigF_ge
  have eQ : |((K : Int) : Rat) * m| = K * |m| := by
    rw [abs_mul, Int.cast_natCast, abs_of_nonneg k0]
  have hB := fuseBias_int8 h hd (b := b) (Q := ((K : Int) : Rat) * m) (zp := zp) hs (by rw [eQ]; linarith) (by rw [eQ]; linarith)
  rw [eQ] at hB
  have hM := fuseMul_int8 h hd hm hs0 hr1
  have hfx : fl (x : Rat) = x := fl_int h (by rw [abs_of_nonneg hx0]; omega)
  have x0 : (0 : Rat) ≤ x := by exact_mod_cast hx0
  have xK : (x : Rat) ≤ 2 * K := by exact_mod_cast hxK
  have xB : (x : Rat) ≤ 16777216 := by
    have : x ≤ 16777216 := by omega
    exact_mod_cast this
  set σ := (|b| + (K : Rat) * |m|) / s with hσ
  have hKμ : (K : Rat) * (|m| / s) ≤ σ := by
    rw [hσ, add_div, mul_div_assoc]
    have : 0 ≤ |b| / s := by positivity
    linarith
  have σ0 : 0 ≤ σ := le_trans (by positivity) hKμ
  have hxμ : (x : Rat) * (|m| / s) ≤ 2 * σ := by nlinarith
  have hP : |x * fl (dl (dl (-1 * m) / s)) - x * (-m / s)| ≤ 2 * σ * (1 / 16777216 + 1 / 1073741824) + 33554432 * etaF := by
    rw [← mul_sub, abs_mul, abs_of_nonneg x0]
    have : (x : Rat) * |fl (dl (dl (-1 * m) / s)) - -m / s|
        ≤ x * (|m| / s * (1 / 16777216 + 1 / 1073741824) + 2 * etaF) := mul_le_mul_of_nonneg_left hM x0
    refine le_trans this ?_
    have t1 : (x : Rat) * etaF ≤ 16777216 * etaF := mul_le_mul_of_nonneg_right xB u0.le
    nlinarith
  have hPa : |(x : Rat) * (-m / s)| ≤ 2 * σ := by
    rw [abs_mul, abs_of_nonneg x0, abs_div, abs_neg, abs_of_pos hs0]
    exact hxμ
  have hBa : |(b + ((K : Int) : Rat) * m) / s + zp| ≤ σ + |zp| := by
    refine le_trans (abs_add2 _ _) ?_
    rw [abs_div, abs_of_pos hs0]
    have : |b + ((K : Int) : Rat) * m| ≤ |b| + K * |m| := by
      refine le_trans (abs_add2 _ _) ?_
      rw [eQ]
    have := div_le_div_of_nonneg_right this hs0.le
    linarith
  have e2 : ((((K : Int) - x : Int) : Rat) * m + b) / s + zp = x * (-m / s) + ((b + ((K : Int) : Rat) * m) / s + zp) := by
    push_cast; field_simp; ring
  have hE : |(x : Rat) * (-m / s) + ((b + ((K : Int) : Rat) * m) / s + zp)| ≤ σ + |zp| := by
    rw [← e2]
    refine le_trans (abs_add2 _ _) ?_
    rw [abs_div, abs_of_pos hs0]
    have : |(((K : Int) - x : Int) : Rat) * m + b| ≤ |b| + K * |m| := by
      refine le_trans (abs_add2 _ _) ?_
      rw [abs_mul]
      have : |(((K : Int) - x : Int) : Rat)| ≤ K := by
        rw [← Int.cast_abs]
        have : |(K : Int) - x| ≤ K := abs_le.2 ⟨by omega, by omega⟩
        exact_mod_cast this
      nlinarith
    have := div_le_div_of_nonneg_right this hs0.le
    linarith
  have hη : 33554432 * etaF ≤ 1 := by
    have : etaF ≤ (2 : Rat) ^ (-25 : Int) := by unfold etaF; exact zpow_le_zpow_right₀ (by norm_num) (by norm_num)
    have e : (2 : Rat) ^ (-25 : Int) = 1 / 33554432 := by norm_num
    rw [e] at this
    linarith
  have := flRun_err h fused hfx hP hB (by linarith)
  rw [e2]
  refine ⟨le_trans this.1 ?_, this.2⟩
  linarith

theorem Binary32.scaled {n q : Int} (hn : |n| ≤ 2 ^ 24) (h1 : -149 ≤ q) (h2 : q ≤ 103) : Binary32 ((n : Rat) * 2 ^ q) := by
  by_cases h : |n| < 2 ^ 24
  · exact ⟨n, q, h, h1, by omega, rfl⟩
  · have hn' : n = 2 ^ 24 ∨ n = -2 ^ 24 := by
      have : |n| = 2 ^ 24 := le_antisymm hn (not_lt.1 h)
      exact eq_or_eq_neg_of_abs_eq this
    have e : (2 : Rat) ^ (q + 1) = 2 ^ q * 2 := by rw [zpow_add₀ (by norm_num)]; norm_num
    rcases hn' with rfl | rfl
    · refine ⟨2 ^ 23, q + 1, by norm_num, by omega, by omega, ?_⟩
      rw [e]; push_cast; ring
    · refine ⟨-2 ^ 23, q + 1, by norm_num, by omega, by omega, ?_⟩
      rw [e]; push_cast; ring

/-- **Float output**, exact when multiplier and bias are small multiples of a power of two. -/
theorem float_output_exact (h : RoundsToNearest fl) (hd : RoundsToNearest64 dl) (fused : Bool) {K : Nat} (hK : 2 * K ≤ 2 ^ 24)
    {x : Int} (hx0 : 0 ≤ x) (hxK : x ≤ 2 * K) {M B q : Int} (h1 : -149 ≤ q) (h2 : q ≤ 103) (hr : |B| + 2 * ((K : Int) * |M|) ≤ 2 ^ 24) :
    flRun fl fused x (fl (dl (dl (-1 * ((M : Rat) * 2 ^ q)) / 1))) (fl (dl (dl (dl ((B : Rat) * 2 ^ q + dl ((K : Int) * ((M : Rat) * 2 ^ q))) / 1) + 0)))
        = (((K : Int) - x : Int) : Rat) * ((M : Rat) * 2 ^ q) + (B : Rat) * 2 ^ q := by
  have k0 : (0 : Int) ≤ K := Int.natCast_nonneg K
  have m0 := abs_nonneg M
  have b0 := abs_nonneg B
  have hKM : 0 ≤ (K : Int) * |M| := by positivity
  have hfx : fl (x : Rat) = x := fl_int h (by rw [abs_of_nonneg hx0]; omega)
  have aKM : |(K : Int) * M| = K * |M| := by rw [abs_mul, abs_of_nonneg k0]
  have axM : |x * -M| ≤ 2 * (K * |M|) := by rw [abs_mul, abs_neg, abs_of_nonneg hx0]; nlinarith
  have c1 : Binary32 (((K : Int) : Rat) * ((M : Rat) * 2 ^ q)) := by
    have := Binary32.scaled (n := K * M) (q := q) (by rw [aKM]; omega) h1 h2
    rw [← mul_assoc]; push_cast at this; exact this
  have c2 : Binary32 ((B : Rat) * 2 ^ q + ((K : Int) : Rat) * ((M : Rat) * 2 ^ q)) := by
    have := Binary32.scaled (n := B + K * M) (q := q) (le_trans (abs_add_le _ _) (by rw [aKM]; omega)) h1 h2
    push_cast at this
    rw [← mul_assoc, ← add_mul]; exact this
  have c3 : Binary32 ((x : Rat) * -((M : Rat) * 2 ^ q)) := by
    have := Binary32.scaled (n := x * -M) (q := q) (by omega) h1 h2
    push_cast at this
    rw [← neg_mul, ← mul_assoc]; exact this
  have e : (x : Rat) * -((M : Rat) * 2 ^ q) + ((B : Rat) * 2 ^ q + ((K : Int) : Rat) * ((M : Rat) * 2 ^ q))
      = (((K : Int) - x : Int) : Rat) * ((M : Rat) * 2 ^ q) + (B : Rat) * 2 ^ q := by push_cast; ring
  have c4 : Binary32 ((((K : Int) - x : Int) : Rat) * ((M : Rat) * 2 ^ q) + (B : Rat) * 2 ^ q) := by
    have hh : |((K : Int) - x) * M + B| ≤ 2 ^ 24 := by
      refine le_trans (abs_add_le _ _) ?_
      rw [abs_mul]
      have : |(K : Int) - x| ≤ K := abs_le.2 ⟨by omega, by omega⟩
      nlinarith
    have := Binary32.scaled (n := ((K : Int) - x) * M + B) (q := q) hh h1 h2
    push_cast at this ⊢
    rw [← mul_assoc, ← add_mul]; exact this
  have cM : -1 * ((M : Rat) * 2 ^ q) = -((M : Rat) * 2 ^ q) := by ring
  by_cases hK0 : K = 0
  · -- without inputs the multiplier does not matter
    subst hK0
    have hx : x = 0 := by omega
    subst hx
    rw [hd.fix' c1.to64, hd.fix' c2.to64, div_one (_ + _), hd.fix' c2.to64, add_zero, hd.fix' c2.to64, h.fix c2]
    unfold flRun
    have z : fl 0 = 0 := by have := fl_int h (x := 0) (by norm_num); simpa using this
    cases fused
    · simp only [Int.cast_zero, z, zero_mul, zero_add, Bool.false_eq_true, if_false, h.fix c2]
      push_cast; ring
    · simp only [Int.cast_zero, z, zero_mul, zero_add, if_true, h.fix c2]
      push_cast; ring
  · have hM : |M| ≤ 2 ^ 24 := by
      have : (1 : Int) ≤ K := by omega
      nlinarith
    have c0 : Binary32 (-((M : Rat) * 2 ^ q)) := (Binary32.scaled hM h1 h2).neg
    rw [cM, div_one, hd.fix' c0.to64, hd.fix' c0.to64, h.fix c0, hd.fix' c1.to64, hd.fix' c2.to64, div_one, hd.fix' c2.to64,
      add_zero, hd.fix' c2.to64, h.fix c2]
    unfold flRun
    cases fused
    · simp only [hfx, h.fix c3, Bool.false_eq_true, if_false]
      rw [e]; exact h.fix c4
    · simp only [hfx, if_true]
      rw [e]; exact h.fix c4

end

/-! ### The setup -/

theorem otFuseFl_eq {R : FlEnv} {p : BConv} {k : Int} {mult bias : List Rat} {scale zp : Rat}
    (hm : mult.length = p.cout) (hb : bias.length = p.cout) :
    ∃ m b, otFuseFl R p k mult bias scale zp = some (m, b) ∧
      (∀ i, i < p.cout → m[i]? = some (R.fl (R.dl (R.dl (-1 * mult.getD i 0) / scale)))) ∧
      (∀ i, i < p.cout → b[i]? = some (R.fl (R.dl (R.dl (R.dl (bias.getD i 0 + R.dl ((k : Rat) * mult.getD i 0)) / scale) + zp)))) ∧
      m.length = p.cout + 4 ∧ b.length = p.cout + 4 := by
  have := forN_inv (n := p.cout)
    (body := fun i (s : List Rat × List Rat) => do
      let postMul ← rd mult i
      let postBias ← rd bias i
      let m ← wr s.1 i (R.fl (R.dl (R.dl (-1 * postMul) / scale)))
      let b ← wr s.2 i (R.fl (R.dl (R.dl (R.dl (postBias + R.dl ((k : Rat) * postMul)) / scale) + zp)))
      some (m, b))
    (s := (List.replicate (p.cout + 4) 0, List.replicate (p.cout + 4) 0))
    (fun n s =>
      (∀ i, i < n → s.1[i]? = some (R.fl (R.dl (R.dl (-1 * mult.getD i 0) / scale)))) ∧
      (∀ i, i < n → s.2[i]? = some (R.fl (R.dl (R.dl (R.dl (bias.getD i 0 + R.dl ((k : Rat) * mult.getD i 0)) / scale) + zp)))) ∧
      s.1.length = p.cout + 4 ∧ s.2.length = p.cout + 4)
    (by simp)
    (by
      rintro n ⟨m, b⟩ hn ⟨h1, h2, h3, h4⟩
      simp only at h1 h2 h3 h4
      have e1 : rd mult n = some (mult.getD n 0) := by simp [rd, hm, hn]
      have e2 : rd bias n = some (bias.getD n 0) := by simp [rd, hb, hn]
      have l1 : n < m.length := by omega
      have l2 : n < b.length := by omega
      refine ⟨(m.set n (R.fl (R.dl (R.dl (-1 * mult.getD n 0) / scale))),
        b.set n (R.fl (R.dl (R.dl (R.dl (bias.getD n 0 + R.dl ((k : Rat) * mult.getD n 0)) / scale) + zp)))), ?_, ?_, ?_, ?_, ?_⟩
      · simp only [e1, e2, Option.bind_eq_bind, Option.bind_some, wr, if_pos l1, if_pos l2]
      · intro i hi
        rcases Nat.lt_succ_iff_lt_or_eq.1 hi with h | h
        · simp only [List.getElem?_set_ne (show n ≠ i by omega)]; exact h1 i h
        · subst h; simp only [List.getElem?_set_self l1]
      · intro i hi
        rcases Nat.lt_succ_iff_lt_or_eq.1 hi with h | h
        · simp only [List.getElem?_set_ne (show n ≠ i by omega)]; exact h2 i h
        · subst h; simp only [List.getElem?_set_self l2]
      · simp [h3]
      · simp [h4])
  obtain ⟨⟨m, b⟩, h, h1, h2, h3, h4⟩ := this
  exact ⟨m, b, h, h1, h2, h3, h4⟩

theorem otSetupFl_eq {R : FlEnv} {p : BConv} {act : Act} {mult bias : List Rat} {scale zp : Rat} {k : Int}
    {m b : List Rat} (hk : k = p.K) (hK : 2 * k < 2147483648)
    (hf : otFuseFl R p k mult bias scale zp = some (m, b)) :
    otSetupFl R p act mult bias scale zp = some ⟨-1 * min (activationRange act).2 k + k,
      -1 * max (activationRange act).1 (-1 * k) + k, m, b⟩ := by
  have hk0 : 0 ≤ k := by rw [hk]; exact Int.natCast_nonneg _
  have hs := actRange_sign act
  have c1 : chk32 ((p.filtH * p.filtW * (p.cin / p.groups) : Nat) : Int) = some k := by
    have : ((p.filtH * p.filtW * (p.cin / p.groups) : Nat) : Int) = k := by rw [hk]; rfl
    rw [this]; exact chk32_eq (by omega) (by omega)
  have c2 : chk32 (-1 * min (activationRange act).2 k + k)
      = some (-1 * min (activationRange act).2 k + k) := chk32_eq (by omega) (by omega)
  have c3 : chk32 (-1 * max (activationRange act).1 (-1 * k) + k)
      = some (-1 * max (activationRange act).1 (-1 * k) + k) := chk32_eq (by omega) (by omega)
  unfold otSetupFl
  simp only [c1, Option.bind_eq_bind, Option.bind_some, hf, c2, c3]

/-- The activation keeps the range of the convolution. -/
theorem apply_range (act : Act) {K a : Nat} (ha : a ≤ K) :
    0 ≤ (K : Int) - act.apply (K - 2 * a) ∧ (K : Int) - act.apply (K - 2 * a) ≤ 2 * K := by
  cases act <;> simp only [Act.apply] <;> omega

/-- Setup succeeds, what it stores, and what `Run` computes. -/
theorem runFloatFl_full {R : FlEnv} {p : BConv} {act : Act} {mult bias : List Rat} {scale zp : Rat}
    (hm : mult.length = p.cout) (hb : bias.length = p.cout) (hK : 2 * p.K < 2147483648) :
    ∃ t, otSetupFl R p act mult bias scale zp = some t ∧ t.multiplier.length = p.cout + 4 ∧ t.bias.length = p.cout + 4 ∧
      (∀ a c, a ≤ p.K → c < p.cout →
        t.runFloatFl R a c = some (flRun R.fl R.fused (((p.K : Int) - act.apply ((p.K : Int) - 2 * a) : Int) : Rat)
          (R.fl (R.dl (R.dl (-1 * mult.getD c 0) / scale)))
          (R.fl (R.dl (R.dl (R.dl (bias.getD c 0 + R.dl (((p.K : Int) : Rat) * mult.getD c 0)) / scale) + zp))))) ∧
      (∀ c, c < p.cout → t.multiplier[c]? = some (R.fl (R.dl (R.dl (-1 * mult.getD c 0) / scale)))) ∧
      (∀ c, c < p.cout → t.bias[c]?
        = some (R.fl (R.dl (R.dl (R.dl (bias.getD c 0 + R.dl (((p.K : Int) : Rat) * mult.getD c 0)) / scale) + zp)))) ∧
      ∀ a : Nat, a ≤ p.K → max (min ((a : Int) * 2) t.clampMax) t.clampMin = (p.K : Int) - act.apply ((p.K : Int) - 2 * a) := by
  obtain ⟨m, b, hf, h1, h2, h3, h4⟩ := otFuseFl_eq (R := R) (p := p) (k := (p.K : Int)) (scale := scale) (zp := zp) hm hb
  refine ⟨_, otSetupFl_eq rfl (by omega) hf, h3, h4, ?_, h1, h2, fun a ha => clamp_eq act hK ha⟩
  intro a c ha hc
  have c1 : chk32 (a : Int) = some (a : Int) := chk32_eq (by omega) (by omega)
  have c2 : chk32 ((a : Int) * 2) = some ((a : Int) * 2) := chk32_eq (by omega) (by omega)
  have hcl := clamp_eq act hK ha
  unfold OTParams.runFloatFl
  simp only [c1, c2, Option.bind_eq_bind, Option.bind_some, rd, h1 c hc, h2 c hc, hcl]
  rfl

/-- Setup succeeds, and what `Run` computes. -/
theorem runFloatFl_eq {R : FlEnv} {p : BConv} {act : Act} {mult bias : List Rat} {scale zp : Rat}
    (hm : mult.length = p.cout) (hb : bias.length = p.cout) (hK : 2 * p.K < 2147483648) :
    ∃ t, otSetupFl R p act mult bias scale zp = some t ∧ t.multiplier.length = p.cout + 4 ∧ t.bias.length = p.cout + 4 ∧
      ∀ a c, a ≤ p.K → c < p.cout →
        t.runFloatFl R a c = some (flRun R.fl R.fused (((p.K : Int) - act.apply ((p.K : Int) - 2 * a) : Int) : Rat)
          (R.fl (R.dl (R.dl (-1 * mult.getD c 0) / scale)))
          (R.fl (R.dl (R.dl (R.dl (bias.getD c 0 + R.dl (((p.K : Int) : Rat) * mult.getD c 0)) / scale) + zp)))) := by
  obtain ⟨t, a1, a2, a3, a4, -⟩ := runFloatFl_full (R := R) (p := p) (act := act) (scale := scale) (zp := zp) hm hb hK
  exact ⟨t, a1, a2, a3, a4⟩

end Verif
