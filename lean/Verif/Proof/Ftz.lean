import Verif.Spec.Ftz
import Verif.Proof.Ieee

/-!
Rounding errors of the output transform with instructions that flush subnormals to zero.
-/

namespace Verif

theorem minNormal_pos : 0 < minNormal := by unfold minNormal; positivity

theorem minNormal_eq : minNormal = 16777216 * etaF := by
  unfold minNormal etaF
  have : (16777216 : Rat) = 2 ^ (24 : Int) := by norm_num
  rw [this, ← zpow_add₀ (by norm_num)]
  rfl

theorem minNormal_le : 16777216 * (4 * minNormal) ≤ 1 := by
  have : minNormal ≤ (2 : Rat) ^ (-26 : Int) := by unfold minNormal; exact zpow_le_zpow_right₀ (by norm_num) (by norm_num)
  have e : (2 : Rat) ^ (-26 : Int) = 1 / 67108864 := by norm_num
  rw [e] at this
  linarith

theorem flushIn_err (x : Rat) : |flushIn x - x| ≤ minNormal := by
  unfold flushIn
  split
  · rename_i h
    rw [zero_sub, abs_neg]; exact h.le
  · rw [sub_self, abs_zero]; exact minNormal_pos.le

theorem flushIn_int (x : Int) : flushIn (x : Rat) = x := by
  unfold flushIn
  split
  · rename_i h
    have h1 : minNormal < 1 := by linarith [minNormal_le, minNormal_pos]
    have h2 : |(x : Rat)| < 1 := lt_trans h h1
    rw [← Int.cast_abs] at h2
    have h3 : |x| < 1 := by exact_mod_cast h2
    rw [Int.abs_lt_one_iff.1 h3]; norm_num
  · rfl

section
variable {fl dl : Rat → Rat}

theorem flushOut_err (h : RoundsToNearest fl) {x : Rat} (hx : |x| ≤ 4 * bigF) :
    |flushOut fl x - x| ≤ |x| / 16777216 + minNormal := by
  have h0 : 0 ≤ |x| / 16777216 := by positivity
  unfold flushOut
  split
  · rename_i hs
    rw [zero_sub, abs_neg]
    linarith
  · have := fl_err h hx
    have := minNormal_eq
    linarith [etaF_pos]

/-- The transform: product and sum, flushing. -/
def ftzRun (fl : Rat → Rat) (x m b : Rat) : Rat := flushOut fl (flushIn (flushOut fl (x * flushIn m)) + flushIn b)

/-- One multiplication and one addition, with inexact operands. -/
theorem ftzRun_err (h : RoundsToNearest fl) {x m b P B eP eB : Rat}
    (hP : |x * m - P| ≤ eP) (hB : |b - B| ≤ eB) (hr : |P| + (eP + |x| * minNormal) + (|B| + eB) ≤ 2 * bigF) :
    |ftzRun fl x m b - (P + B)| ≤
      (eP + |x| * minNormal) + (eB + minNormal) + (|P| + (eP + |x| * minNormal)) / 16777216 + 2 * minNormal
        + (|P + B| + (eP + |x| * minNormal) + (eB + minNormal) + (|P| + (eP + |x| * minNormal)) / 16777216 + 2 * minNormal) / 16777216
        + minNormal ∧
    |x * flushIn m| ≤ maxBinary32 ∧ |flushIn (flushOut fl (x * flushIn m)) + flushIn b| ≤ maxBinary32 := by
  have e0 : 0 ≤ eP := le_trans (abs_nonneg _) hP
  have e1 : 0 ≤ eB := le_trans (abs_nonneg _) hB
  have p0 := abs_nonneg P
  have b0 := abs_nonneg B
  have g := bigF_ge
  have u1 := minNormal_le
  have u0 := minNormal_pos
  have x0 : 0 ≤ |x| * minNormal := by positivity
  have hP' : |x * flushIn m - P| ≤ |x| * minNormal + eP := by
    refine abs_trans3 ?_ hP
    rw [← mul_sub, abs_mul]
    exact mul_le_mul_of_nonneg_left (flushIn_err m) (abs_nonneg x)
  have hB' : |flushIn b - B| ≤ minNormal + eB := abs_trans3 (flushIn_err b) hB
  set E := eP + |x| * minNormal with hE
  have a1 := abs_of_sub hP'
  have a2 := abs_of_sub hB'
  have q1 := flushOut_err h (x := x * flushIn m) (by linarith)
  have q1' := abs_trans3 (flushIn_err (flushOut fl (x * flushIn m))) q1
  have q2 := abs_trans3 q1' hP'
  have q3 := abs_add_sub q2 hB'
  have q4 := abs_of_sub q3
  have q5 := abs_add2 P B
  have q6 : |flushIn (flushOut fl (x * flushIn m)) + flushIn b| ≤ 4 * bigF := by linarith
  refine ⟨?_, bigF_le (by linarith), bigF_le q6⟩
  have q7 := flushOut_err h q6
  unfold ftzRun
  refine le_trans (abs_trans3 q7 q3) ?_
  linarith

/-- **Float output**: total error. -/
theorem float_output_ftz (h : RoundsToNearest fl) (hd : RoundsToNearest64 dl) {K : Nat} (hK : 2 * K ≤ 2 ^ 24)
    {x : Int} (hx0 : 0 ≤ x) (hxK : x ≤ 2 * K) {m b : Rat} (hm : Binary32 m) (hr : |b| + 4 * ((K : Rat) * |m|) ≤ bigF) :
    |ftzRun fl x (fl (dl (dl (-1 * m) / 1))) (fl (dl (dl (dl (b + dl ((K : Int) * m)) / 1) + 0)))
        - ((((K : Int) - x : Int) : Rat) * m + b)| ≤ (|b| + K * |m|) * (5 / 16777216) + (K + 2) * (4 * minNormal) ∧
    |x * flushIn (fl (dl (dl (-1 * m) / 1)))| ≤ maxBinary32 ∧
    |flushIn (flushOut fl (x * flushIn (fl (dl (dl (-1 * m) / 1))))) +
      flushIn (fl (dl (dl (dl (b + dl ((K : Int) * m)) / 1) + 0)))| ≤ maxBinary32 := by
  have k0 : (0 : Rat) ≤ K := Nat.cast_nonneg K
  have m0 := abs_nonneg m
  have b0 := abs_nonneg b
  have q0 : 0 ≤ (K : Rat) * |m| := by positivity
  have u0 := etaF_pos
  have u2 := etaF_le_one
  have g := bigF_ge
  have n0 := minNormal_pos
  have n1 := minNormal_le
  have n2 := minNormal_eq
  have eQ : |((K : Int) : Rat) * m| = K * |m| := by
    rw [abs_mul, Int.cast_natCast, abs_of_nonneg k0]
  have hB := fuseBias_float h hd (b := b) (Q := ((K : Int) : Rat) * m) (by rw [eQ]; linarith)
  have hQ2 := abs_add2 b (((K : Int) : Rat) * m)
  rw [eQ] at hB hQ2
  rw [fuseMul_float h hd hm]
  have x0 : (0 : Rat) ≤ x := by exact_mod_cast hx0
  have xK : (x : Rat) ≤ 2 * K := by exact_mod_cast hxK
  have xB : (x : Rat) ≤ 16777216 := by
    have : x ≤ 16777216 := by omega
    exact_mod_cast this
  have hxn : |(x : Rat)| * minNormal ≤ 2 * K * minNormal := by
    rw [abs_of_nonneg x0]
    exact mul_le_mul_of_nonneg_right xK n0.le
  have hxn1 : |(x : Rat)| * minNormal ≤ 1 := by
    rw [abs_of_nonneg x0]
    have := mul_le_mul_of_nonneg_right xB n0.le
    linarith
  have hxn0 : 0 ≤ |(x : Rat)| * minNormal := by positivity
  have hPa : |-(x * m : Rat)| ≤ 2 * (K * |m|) := by
    rw [abs_neg, abs_mul, abs_of_nonneg x0]
    nlinarith
  have hE : |-(x * m : Rat) + (b + ((K : Int) : Rat) * m)| ≤ |b| + K * |m| := by
    have e : -(x * m : Rat) + (b + ((K : Int) : Rat) * m) = b + (((K : Int) - x : Int) : Rat) * m := by push_cast; ring
    rw [e]
    refine le_trans (abs_add2 _ _) ?_
    rw [abs_mul]
    have : |(((K : Int) - x : Int) : Rat)| ≤ K := by
      rw [← Int.cast_abs]
      have : |(K : Int) - x| ≤ K := abs_le.2 ⟨by omega, by omega⟩
      exact_mod_cast this
    nlinarith
  have := ftzRun_err h (x := x) (m := -m) (P := -(x * m)) (B := b + ((K : Int) : Rat) * m) (eP := 0)
    (by rw [mul_neg, sub_self, abs_zero]) hB (by linarith)
  have e2 : (((K : Int) - x : Int) : Rat) * m + b = -(x * m : Rat) + (b + ((K : Int) : Rat) * m) := by push_cast; ring
  rw [e2]
  refine ⟨le_trans this.1 ?_, this.2⟩
  have hkn : 0 ≤ (K : Rat) * minNormal := by positivity
  linarith

/-- **Int8 output**: total error before the final rounding. -/
theorem int8_output_ftz (h : RoundsToNearest fl) (hd : RoundsToNearest64 dl) {K : Nat} (hK : 2 * K ≤ 2 ^ 24)
    {x : Int} (hx0 : 0 ≤ x) (hxK : x ≤ 2 * K) {m b s zp : Rat} (hm : Binary32 m) (hs : (2 : Rat) ^ (-40 : Int) ≤ s)
    (hr : |b| + (K : Rat) * |m| ≤ bigF) (hr1 : |m| / s ≤ bigF) (hr2 : (|b| + (K : Rat) * |m|) / s + |zp| ≤ bigF / 4) :
    |ftzRun fl x (fl (dl (dl (-1 * m) / s))) (fl (dl (dl (dl (b + dl ((K : Int) * m)) / s) + zp)))
        - (((((K : Int) - x : Int) : Rat) * m + b) / s + zp)|
      ≤ ((|b| + K * |m|) / s + |zp|) * (7 / 16777216) + 67108864 * minNormal ∧
    |x * flushIn (fl (dl (dl (-1 * m) / s)))| ≤ maxBinary32 ∧
    |flushIn (flushOut fl (x * flushIn (fl (dl (dl (-1 * m) / s))))) +
      flushIn (fl (dl (dl (dl (b + dl ((K : Int) * m)) / s) + zp)))| ≤ maxBinary32 := by
  have hs0 : 0 < s := lt_of_lt_of_le (by positivity) hs
  have k0 : (0 : Rat) ≤ K := Nat.cast_nonneg K
  have m0 := abs_nonneg m
  have b0 := abs_nonneg b
  have z0 := abs_nonneg zp
  have q0 : 0 ≤ (K : Rat) * |m| := by positivity
  have μ0 : 0 ≤ |m| / s := by positivity
  have u0 := etaF_pos
  have u2 := etaF_le_one
  have g := bigF_ge
  have n0 := minNormal_pos
  have n1 := minNormal_le
  have n2 := minNormal_eq
  have eQ : |((K : Int) : Rat) * m| = K * |m| := by
    rw [abs_mul, Int.cast_natCast, abs_of_nonneg k0]
  have hB := fuseBias_int8 h hd (b := b) (Q := ((K : Int) : Rat) * m) (zp := zp) hs (by rw [eQ]; linarith) (by rw [eQ]; linarith)
  rw [eQ] at hB
  have hM := fuseMul_int8 h hd hm hs0 hr1
  have x0 : (0 : Rat) ≤ x := by exact_mod_cast hx0
  have xK : (x : Rat) ≤ 2 * K := by exact_mod_cast hxK
  have xB : (x : Rat) ≤ 16777216 := by
    have : x ≤ 16777216 := by omega
    exact_mod_cast this
  have hxn : |(x : Rat)| * minNormal ≤ 16777216 * minNormal := by
    rw [abs_of_nonneg x0]
    exact mul_le_mul_of_nonneg_right xB n0.le
  have hxn0 : 0 ≤ |(x : Rat)| * minNormal := by positivity
  set σ := (|b| + (K : Rat) * |m|) / s with hσ
  have hKμ : (K : Rat) * (|m| / s) ≤ σ := by
    rw [hσ, add_div, mul_div_assoc]
    have : 0 ≤ |b| / s := by positivity
    linarith
  have σ0 : 0 ≤ σ := le_trans (by positivity) hKμ
  have hxμ : (x : Rat) * (|m| / s) ≤ 2 * σ := by nlinarith
  have hP : |x * fl (dl (dl (-1 * m) / s)) - x * (-m / s)| ≤ 2 * σ * (1 / 16777216 + 1 / 1073741824) + 33554432 * etaF := by
    rw [← mul_sub, abs_mul, abs_of_nonneg x0]
    have : (x : Rat) * |fl (dl (dl (-1 * m) / s)) - -m / s|
        ≤ x * (|m| / s * (1 / 16777216 + 1 / 1073741824) + 2 * etaF) := mul_le_mul_of_nonneg_left hM x0
    refine le_trans this ?_
    have t1 : (x : Rat) * etaF ≤ 16777216 * etaF := mul_le_mul_of_nonneg_right xB u0.le
    nlinarith
  have hPa : |(x : Rat) * (-m / s)| ≤ 2 * σ := by
    rw [abs_mul, abs_of_nonneg x0, abs_div, abs_neg, abs_of_pos hs0]
    exact hxμ
  have hBa : |(b + ((K : Int) : Rat) * m) / s + zp| ≤ σ + |zp| := by
    refine le_trans (abs_add2 _ _) ?_
    rw [abs_div, abs_of_pos hs0]
    have : |b + ((K : Int) : Rat) * m| ≤ |b| + K * |m| := by
      refine le_trans (abs_add2 _ _) ?_
      rw [eQ]
    have := div_le_div_of_nonneg_right this hs0.le
    linarith
  have e2 : ((((K : Int) - x : Int) : Rat) * m + b) / s + zp = x * (-m / s) + ((b + ((K : Int) : Rat) * m) / s + zp) := by
    push_cast; field_simp; ring
  have hE : |(x : Rat) * (-m / s) + ((b + ((K : Int) : Rat) * m) / s + zp)| ≤ σ + |zp| := by
    rw [← e2]
    refine le_trans (abs_add2 _ _) ?_
    rw [abs_div, abs_of_pos hs0]
    have : |(((K : Int) - x : Int) : Rat) * m + b| ≤ |b| + K * |m| := by
      refine le_trans (abs_add2 _ _) ?_
      rw [abs_mul]
      have : |(((K : Int) - x : Int) : Rat)| ≤ K := by
        rw [← Int.cast_abs]
        have : |(K : Int) - x| ≤ K := abs_le.2 ⟨by omega, by omega⟩
        exact_mod_cast this
      nlinarith
    have := div_le_div_of_nonneg_right this hs0.le
    linarith
  have := ftzRun_err h hP hB (by linarith)
  rw [e2]
  refine ⟨le_trans this.1 ?_, this.2⟩
  linarith

end

/-- There are instructions that meet the specification, for every rounding to nearest. -/
theorem exists_ftz {fl : Rat → Rat} (h : RoundsToNearest fl) (g : Word → Word) : ∃ F : FOps, F.Ftz fl ∧ F.fcvtFix8 = g := by
  classical
  let enc : Rat → F32 := fun x => if hx : Binary32 x then (F32.val_surj hx).choose else 0#32
  have henc : ∀ x, Binary32 x → F32.Finite (enc x) ∧ F32.val (enc x) = x := by
    intro x hx
    show F32.Finite (dite _ _ _) ∧ F32.val (dite _ _ _) = x
    rw [dif_pos hx]
    exact (F32.val_surj hx).choose_spec
  have hout : ∀ x, |x| ≤ maxBinary32 → Binary32 (flushOut fl x) := by
    intro x hx
    unfold flushOut
    split
    · exact ⟨0, 0, by norm_num, by norm_num, by norm_num, by simp⟩
    · exact (h x hx).1
  refine ⟨⟨fun x => enc (fl (x.toInt : Rat)), fun a b => enc (flushOut fl (flushIn (F32.val a) * flushIn (F32.val b))),
    fun a b => enc (flushOut fl (flushIn (F32.val a) + flushIn (F32.val b))), id, g⟩, ⟨?_, ?_, ?_⟩, rfl⟩
  · intro x
    refine henc _ (h _ ?_).1
    have h1 := BitVec.toInt_lt (x := x)
    have h2 := BitVec.le_toInt (x := x)
    refine le_trans (b := (2147483648 : Rat)) ?_ (le_trans ?_ big_le_max)
    · rw [← Int.cast_abs]
      have : |x.toInt| ≤ 2147483648 := abs_le.2 ⟨by omega, by omega⟩
      exact_mod_cast this
    · norm_num
  · intro a b _ _ hr
    exact henc _ (hout _ hr)
  · intro a b _ _ hr
    exact henc _ (hout _ hr)

/-- On stored parameters the bit-level transform computes the float of `ftzRun`, when nothing overflows. -/
theorem runFloatBits_ftz {F : FOps} {R : FlEnv} (h32 : RoundsToNearest R.fl) (hF : F.Ftz R.fl) {p : BConv} {act : Act}
    {mult bias : List Rat} {scale zp : Rat} {cmin cmax : Int} {mw bw : List Word}
    (hm : mult.length = p.cout) (hb : bias.length = p.cout) (hK : 2 * p.K ≤ 2 ^ 24)
    (hst : StoredSetup R p act mult bias scale zp cmin cmax mw bw)
    (hrange : ∀ a c : Nat, a ≤ p.K → c < p.cout → ∀ x : Int, x = (p.K : Int) - act.apply ((p.K : Int) - 2 * a) →
      |x * flushIn (R.fl (R.dl (R.dl (-1 * mult.getD c 0) / scale)))| ≤ maxBinary32 ∧
      |flushIn (flushOut R.fl (x * flushIn (R.fl (R.dl (R.dl (-1 * mult.getD c 0) / scale))))) +
        flushIn (R.fl (R.dl (R.dl (R.dl (bias.getD c 0 + R.dl (((p.K : Int) : Rat) * mult.getD c 0)) / scale) + zp)))|
          ≤ maxBinary32) :
    ∀ a c, a ≤ p.K → c < p.cout →
      ∃ w, runFloatBits F cmin cmax mw bw a c = some w ∧ F32.Finite w ∧
        F32.val w = ftzRun R.fl (((p.K : Int) - act.apply ((p.K : Int) - 2 * a) : Int) : Rat)
          (R.fl (R.dl (R.dl (-1 * mult.getD c 0) / scale)))
          (R.fl (R.dl (R.dl (R.dl (bias.getD c 0 + R.dl (((p.K : Int) : Rat) * mult.getD c 0)) / scale) + zp))) := by
  obtain ⟨t, ht, -, -, hrun, hmu, hbi, hcl⟩ := runFloatFl_full (R := R) (p := p) (act := act) (scale := scale) (zp := zp) hm hb
    (by omega)
  obtain ⟨t', ht', rfl, rfl, hmw, hbw⟩ := hst
  rw [ht] at ht'
  cases ht'
  intro a c ha hc
  obtain ⟨wm, m1, m2, m3⟩ := hmw c hc
  obtain ⟨wb, b1, b2, b3⟩ := hbw c hc
  rw [hmu c hc] at m3
  rw [hbi c hc] at b3
  have m4 := Option.some.inj m3
  have b4 := Option.some.inj b3
  obtain ⟨r1, r2⟩ := hrange a c ha hc _ rfl
  obtain ⟨x0, x1⟩ := apply_range act ha
  have c1 : chk32 (a : Int) = some (a : Int) := chk32_eq (by omega) (by omega)
  have c2 : chk32 ((a : Int) * 2) = some ((a : Int) * 2) := chk32_eq (by omega) (by omega)
  unfold runFloatBits
  simp only [c1, c2, rd, Option.bind_eq_bind, Option.bind_some, m1, b1, hcl a ha]
  generalize (p.K : Int) - act.apply ((p.K : Int) - 2 * a) = x at *
  have hx : (BitVec.ofInt 32 x).toInt = x := by
    rw [BitVec.toInt_ofInt]
    unfold Int.bmod
    simp only [Nat.reducePow, Int.cast_ofNat_Int]
    split <;> omega
  have hfx : R.fl (x : Rat) = x := fl_int h32 (by rw [abs_of_nonneg x0]; omega)
  obtain ⟨s1, s2⟩ := hF.scvtf (BitVec.ofInt 32 x)
  rw [hx, hfx] at s2
  rw [m4] at r1 r2 ⊢
  rw [b4] at r2 ⊢
  obtain ⟨p1, p2⟩ := hF.fmul (F.scvtf (BitVec.ofInt 32 x)) wm s1 m2 (by rw [s2, flushIn_int]; exact r1)
  rw [s2, flushIn_int] at p2
  obtain ⟨q1, q2⟩ := hF.fadd (F.fmul (F.scvtf (BitVec.ofInt 32 x)) wm) wb p1 b2 (by rw [p2]; exact r2)
  rw [p2] at q2
  exact ⟨_, rfl, q1, q2⟩

end Verif
