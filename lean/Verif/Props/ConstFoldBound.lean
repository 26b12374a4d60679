import Verif.Props.ConstFold
import Verif.Proof.FloatOutput
import Mathlib.Tactic.Linarith
import Mathlib.Tactic.Ring
import Mathlib.Tactic.FieldSimp

/-!
C34 for every double scale: the folded and the runtime int8 values differ by at most one, and only if the reciprocal of the
scale is within rounding error of a half-integer.
-/

namespace Verif

/-- The folder's quotient: a double division narrowed to float. -/
theorem fold_recip_near {fl64 fl : Rat → Rat} (h : RoundsToNearest fl) (h64 : RoundsToNearest64 fl64) {s : Rat}
    (h1 : (2 : Rat) ^ (-30 : Int) ≤ s) (h2 : s ≤ 2 ^ (30 : Int)) : |fl (fl64 (1 / s)) - 1 / s| ≤ 1 / s / 2 ^ 22 := by
  have s0 : 0 < s := lt_of_lt_of_le (by positivity) h1
  have x0 : 0 < 1 / s := by positivity
  have xlo : (2 : Rat) ^ (-30 : Int) ≤ 1 / s := by
    rw [le_div_iff₀ s0]
    calc (2 : Rat) ^ (-30 : Int) * s ≤ 2 ^ (-30 : Int) * 2 ^ (30 : Int) := mul_le_mul_of_nonneg_left h2 (by positivity)
      _ = 1 := by norm_num
  have xhi : 1 / s ≤ (2 : Rat) ^ (30 : Int) := by
    rw [div_le_iff₀ s0]
    calc (1 : Rat) = 2 ^ (30 : Int) * 2 ^ (-30 : Int) := by norm_num
      _ ≤ 2 ^ (30 : Int) * s := mul_le_mul_of_nonneg_left h1 (by positivity)
  generalize 1 / s = x at *
  have hm : x ≤ maxBinary32 := le_trans xhi (le_trans (by norm_num) big_le_max)
  have hy := h64.error (le_trans (by norm_num) xlo) hm
  have e53 : (2 : Rat) ^ (-53 : Int) = 1 / 9007199254740992 := by norm_num
  rw [e53] at hy
  generalize fl64 x = y at *
  have hya := abs_le.1 hy
  have e30 : (2 : Rat) ^ (30 : Int) = 1073741824 := by norm_num
  have em30 : (2 : Rat) ^ (-30 : Int) = 1 / 1073741824 := by norm_num
  rw [e30] at xhi
  rw [em30] at xlo
  have y0 : 0 ≤ y := by linarith [hya.1]
  have hyb : |y| ≤ 4 * bigF := by
    rw [abs_of_nonneg y0]
    have : (2000000000 : Rat) ≤ bigF := by unfold bigF; norm_num
    linarith [hya.2]
  have hf := fl_err h hyb
  rw [abs_of_nonneg y0] at hf
  have hfa := abs_le.1 hf
  have he : etaF ≤ 1 / 1073741824 / 1073741824 := by unfold etaF; norm_num
  rw [abs_le, show (2 : Rat) ^ 22 = 4194304 by norm_num]
  constructor <;> linarith [hya.1, hya.2, hfa.1, hfa.2]

/-- The runtime's quotient: the scale narrowed to float, then a float division. -/
theorem run_recip_near {fl : Rat → Rat} (h : RoundsToNearest fl) {s : Rat}
    (h1 : (2 : Rat) ^ (-30 : Int) ≤ s) (h2 : s ≤ 2 ^ (30 : Int)) : |fl (1 / fl s) - 1 / s| ≤ 1 / s / 2 ^ 22 := by
  have s0 : 0 < s := lt_of_lt_of_le (by positivity) h1
  have e30 : (2 : Rat) ^ (30 : Int) = 1073741824 := by norm_num
  have em30 : (2 : Rat) ^ (-30 : Int) = 1 / 1073741824 := by norm_num
  rw [em30] at h1
  rw [e30] at h2
  have hbig : (2000000000 : Rat) ≤ bigF := by unfold bigF; norm_num
  have he : etaF ≤ 1 / 1073741824 / 1073741824 := by unfold etaF; norm_num
  have hsb : |s| ≤ 4 * bigF := by rw [abs_of_pos s0]; linarith
  have ht := fl_err h hsb
  rw [abs_of_pos s0] at ht
  have hta := abs_le.1 ht
  generalize fl s = t at *
  have tlo : s * (1 - 1 / 16000000) ≤ t := by linarith [hta.1]
  have thi : t ≤ s * (1 + 1 / 16000000) := by linarith [hta.2]
  have t0 : 0 < t := by linarith
  have xhi : 1 / s ≤ 1073741824 := by rw [div_le_iff₀ s0]; linarith
  have xlo : 1 / 1073741824 ≤ 1 / s := by rw [le_div_iff₀ s0]; linarith
  have ulo : 1 / s * (1 - 1 / 15000000) ≤ 1 / t := by
    rw [le_div_iff₀ t0]
    have : 1 / s * (1 - 1 / 15000000) * t ≤ 1 / s * (1 - 1 / 15000000) * (s * (1 + 1 / 16000000)) :=
      mul_le_mul_of_nonneg_left thi (by positivity)
    refine le_trans this ?_
    have : 1 / s * (1 - 1 / 15000000) * (s * (1 + 1 / 16000000)) = (1 - 1 / 15000000) * (1 + 1 / 16000000) := by
      field_simp
    rw [this]; norm_num
  have uhi : 1 / t ≤ 1 / s * (1 + 1 / 15000000) := by
    rw [div_le_iff₀ t0]
    have : 1 / s * (1 + 1 / 15000000) * (s * (1 - 1 / 16000000)) ≤ 1 / s * (1 + 1 / 15000000) * t :=
      mul_le_mul_of_nonneg_left tlo (by positivity)
    refine le_trans ?_ this
    have : 1 / s * (1 + 1 / 15000000) * (s * (1 - 1 / 16000000)) = (1 + 1 / 15000000) * (1 - 1 / 16000000) := by
      field_simp
    rw [this]; norm_num
  have u0 : 0 < 1 / t := by positivity
  generalize 1 / t = u at *
  generalize 1 / s = x at *
  have hub : |u| ≤ 4 * bigF := by rw [abs_of_pos u0]; linarith
  have hf := fl_err h hub
  rw [abs_of_pos u0] at hf
  have hfa := abs_le.1 hf
  rw [abs_le, show (2 : Rat) ^ 22 = 4194304 by norm_num]
  constructor <;> linarith [hfa.1, hfa.2]

/-- Two quotients near the exact one round to integers that clamp to within one of each other. -/
theorem offsets_near {x a b : Rat} (x0 : 0 < x) (ha : |a - x| ≤ x / 2 ^ 22) (hb : |b - x| ≤ x / 2 ^ 22) :
    0 ≤ roundHalfAway a ∧ 0 ≤ roundHalfAway b ∧
    ((900 ≤ roundHalfAway a ∧ 900 ≤ roundHalfAway b) ∨ |roundHalfAway a - roundHalfAway b| ≤ 1) ∧
    ((∀ n : Int, x / 2 ^ 22 < |x - ((n : Rat) + 1 / 2)|) → x ≤ 1000 → roundHalfAway a = roundHalfAway b) := by
  rw [show (2 : Rat) ^ 22 = 4194304 by norm_num] at *
  have a1 := roundHalfAway_near a
  have b1 := roundHalfAway_near b
  have a2 := abs_le.1 ha
  have b2 := abs_le.1 hb
  generalize roundHalfAway a = p at *
  generalize roundHalfAway b = q at *
  have n1 : 0 ≤ p := by
    have k1 : ((-1 : Int) : Rat) < (p : Rat) := by push_cast; linarith [a1.1]
    have k1 : -1 < p := by exact_mod_cast k1
    omega
  have n2 : 0 ≤ q := by
    have k1 : ((-1 : Int) : Rat) < (q : Rat) := by push_cast; linarith [b1.1]
    have k1 : -1 < q := by exact_mod_cast k1
    omega
  have n3 : x ≤ 1000 → |p - q| ≤ 1 := by
    intro hc
    have k1 : ((p - q : Int) : Rat) < ((2 : Int) : Rat) := by push_cast; linarith [a1.1, a1.2, b1.1, b1.2]
    have k2 : ((-2 : Int) : Rat) < ((p - q : Int) : Rat) := by push_cast; linarith [a1.1, a1.2, b1.1, b1.2]
    have k1 : p - q < 2 := by exact_mod_cast k1
    have k2 : -2 < p - q := by exact_mod_cast k2
    rw [abs_le]; omega
  refine ⟨n1, n2, ?_, fun hn hc => ?_⟩
  · rcases le_total x 1000 with hc | hc
    · exact Or.inr (n3 hc)
    · left
      have k1 : ((900 : Int) : Rat) ≤ (p : Rat) := by push_cast; linarith [a1.1, a1.2]
      have k2 : ((900 : Int) : Rat) ≤ (q : Rat) := by push_cast; linarith [b1.1, b1.2]
      exact ⟨by exact_mod_cast k1, by exact_mod_cast k2⟩
  · have h1 := abs_le.1 (n3 hc)
    by_contra hne
    rcases lt_or_gt_of_ne hne with hlt | hgt
    · have er : (q : Rat) = p + 1 := by rw [show q = p + 1 by omega]; push_cast; ring
      refine absurd (hn p) (not_lt.2 ?_)
      rw [abs_le]
      constructor <;> linarith [a1.1, a1.2, b1.1, b1.2]
    · have er : (p : Rat) = q + 1 := by rw [show p = q + 1 by omega]; push_cast; ring
      refine absurd (hn q) (not_lt.2 ?_)
      rw [abs_le]
      constructor <;> linarith [a1.1, a1.2, b1.1, b1.2]

theorem sat_near {z p q : Int} (hp : 0 ≤ p) (hq : 0 ≤ q) (hz : -128 ≤ z ∧ z ≤ 127)
    (h : (900 ≤ p ∧ 900 ≤ q) ∨ |p - q| ≤ 1) :
    |saturate (z + p) - min 127 (z + q)| ≤ 1 ∧ |saturate (z - p) - max (-128) (z - q)| ≤ 1 ∧
    (900 ≤ p ∧ 900 ≤ q → saturate (z + p) = min 127 (z + q) ∧ saturate (z - p) = max (-128) (z - q)) := by
  have : |p - q| ≤ 1 → p - q ≤ 1 ∧ -1 ≤ p - q := fun h => ⟨(abs_le.1 h).2, (abs_le.1 h).1⟩
  unfold saturate
  rw [abs_le, abs_le]
  simp only
  rcases h with h | h
  · omega
  · have := this h
    omega

/-- The two bytes, for every double scale between `2^-30` and `2^30`: neither computation is undefined, and they differ by at most
one; they are equal unless the reciprocal of the scale is at most 1000 and within rounding error of a half-integer. -/
theorem foldInt8Values_near {fl64 fl fl' : Rat → Rat} (h : RoundsToNearest fl) (h' : RoundsToNearest fl')
    (h64 : RoundsToNearest64 fl64) {s : Rat} (h1 : (2 : Rat) ^ (-30 : Int) ≤ s) (h2 : s ≤ 2 ^ (30 : Int))
    {zp : Int} (hz : -128 ≤ zp ∧ zp ≤ 127) :
    ∃ u v u' v', foldInt8Values fl64 fl' s zp = some (u, v) ∧ dequantInt8Values fl (fl s) zp = some (u', v') ∧
      |u.toInt - u'.toInt| ≤ 1 ∧ |v.toInt - v'.toInt| ≤ 1 ∧
      ((∀ n : Int, 1 / s / 2 ^ 22 < |1 / s - ((n : Rat) + 1 / 2)|) → u = u' ∧ v = v') := by
  have s0 : 0 < s := lt_of_lt_of_le (by positivity) h1
  have x0 : 0 < 1 / s := by positivity
  have xhi : 1 / s ≤ 1073741824 := by
    rw [div_le_iff₀ s0]
    have : (2 : Rat) ^ (-30 : Int) = 1 / 1073741824 := by norm_num
    rw [this] at h1
    linarith
  have a1 := fold_recip_near h' h64 h1 h2
  have a2 := fold_recip_near h'.mirror h64.mirror h1 h2
  simp only [neg_neg] at a2
  have a3 := run_recip_near h h1 h2
  have hneg : roundHalfAway (fl' (fl64 (-1 / s))) = -roundHalfAway (-fl' (fl64 (-(1 / s)))) := by
    rw [← roundHalfAway_neg_eq, neg_neg, neg_div]
  obtain ⟨p1, p2, p3, p4⟩ := offsets_near x0 a1 a3
  obtain ⟨q1, _, q3, q4⟩ := offsets_near x0 a2 a3
  have big : ∀ {a : Rat}, |a - 1 / s| ≤ 1 / s / 2 ^ 22 → roundHalfAway a ≤ 1073750000 ∧ (1000 < 1 / s → 900 ≤ roundHalfAway a) := by
    intro a ha
    rw [show (2 : Rat) ^ 22 = 4194304 by norm_num] at ha
    have b1 := roundHalfAway_near a
    have b2 := abs_le.1 ha
    refine ⟨?_, fun hc => ?_⟩
    · have : ((roundHalfAway a : Int) : Rat) ≤ ((1073750000 : Int) : Rat) := by push_cast; linarith [b1.1, b2.2]
      exact_mod_cast this
    · have : ((900 : Int) : Rat) ≤ ((roundHalfAway a : Int) : Rat) := by push_cast; linarith [b1.2, b2.1]
      exact_mod_cast this
  obtain ⟨g1, g1'⟩ := big a1
  obtain ⟨g2, g2'⟩ := big a2
  obtain ⟨g3, g3'⟩ := big a3
  unfold foldInt8Values dequantInt8Values
  rw [hneg]
  generalize roundHalfAway (fl' (fl64 (1 / s))) = p at *
  generalize roundHalfAway (-fl' (fl64 (-(1 / s)))) = q at *
  generalize roundHalfAway (fl (1 / fl s)) = r at *
  have t : ∀ {i : Int}, -2000000000 ≤ i → i ≤ 2000000000 → toInt32 i = some i := by
    intro i h1 h2; rw [toInt32, if_pos (by omega)]
  rw [t (i := p) (by omega) (by omega), t (i := -q) (by omega) (by omega), t (i := r) (by omega) (by omega)]
  simp only [Option.bind_eq_bind, Option.bind_some]
  rw [t (i := zp + p) (by omega) (by omega), t (i := zp + -q) (by omega) (by omega), t (i := zp + r) (by omega) (by omega),
    t (i := zp - r) (by omega) (by omega)]
  simp only [Option.bind_some]
  obtain ⟨m1, _, m3⟩ := sat_near p1 p2 hz p3
  obtain ⟨_, m2, m4⟩ := sat_near q1 p2 hz q3
  have sr : ∀ i : Int, -128 ≤ saturate i ∧ saturate i ≤ 127 := by intro i; unfold saturate; simp only; omega
  refine ⟨_, _, _, _, rfl, rfl, ?_, ?_, fun hn => ?_⟩
  · rw [toInt_ofInt8 (sr _).1 (sr _).2, toInt_ofInt8 (by omega) (by omega)]; exact m1
  · rw [toInt_ofInt8 (sr _).1 (sr _).2, toInt_ofInt8 (by omega) (by omega), ← sub_eq_add_neg]; exact m2
  · rcases le_or_gt (1 / s) 1000 with hc | hc
    · have e1 := p4 hn hc
      have e2 := q4 hn hc
      rw [e1, e2, saturate_add hz.1 p2, saturate_sub hz.2 p2]
      exact ⟨rfl, rfl⟩
    · have e1 := (m3 ⟨g1' hc, g3' hc⟩).1
      have e2 := (m4 ⟨g2' hc, g3' hc⟩).2
      rw [← sub_eq_add_neg, e1, e2]
      exact ⟨rfl, rfl⟩

/-- **C34 (dequantize, int8), for every scale.** The converter's scale `s` is a double; the runtime sees `fl s`, the float it is
exported as. If the converter folds `LceDequantize` of a rank-4 constant, then the runtime operator accepts the shapes, and
writes a tensor whose bytes differ from the folded ones by at most one. They are the same bytes unless `1 / s` is within
rounding error of a half-integer. -/
theorem C34_dequantize_int8_bound {fl64 fl fl' : Rat → Rat} (hfl : RoundsToNearest fl) (hfl' : RoundsToNearest fl')
    (h64 : RoundsToNearest64 fl64) {s : Rat} (h1 : (2 : Rat) ^ (-30 : Int) ≤ s) (h2 : s ≤ 2 ^ (30 : Int))
    {zp : Int} (hz : -128 ≤ zp ∧ zp ≤ 127) {inShape outShape : List Nat} {w : List Word}
    (hi : inShape.length = 4) (ho : outShape.length = 4) (hw : w.length = inShape.prod)
    {sh : List Nat} {y : List (BitVec 8)} (h : foldDequantizeI8 fl64 fl' inShape outShape s zp w = .const sh y) :
    sh = outShape ∧ dequantizePrepare inShape outShape = true ∧
    ∀ y0 : List (BitVec 8), y0.length = outShape.prod →
      ∃ y', dequantizeEvalI8 fl outShape (fl s) zp w y0 = some y' ∧ y'.length = y.length ∧
        (∀ (i : Nat) (a a' : BitVec 8), y[i]? = some a → y'[i]? = some a' → |a.toInt - a'.toInt| ≤ 1) ∧
        ((∀ n : Int, 1 / s / 2 ^ 22 < |1 / s - ((n : Rat) + 1 / 2)|) → y' = y) := by
  unfold foldDequantizeI8 at h
  split at h
  · simp at h
  · simp at h
  · rename_i hs'
    obtain ⟨hp, cols, e1, e2, e3, e4⟩ := unpackShapeOk_true hi ho hs'
    rw [e2] at h
    simp only at h
    obtain ⟨u, v, u', v', f1, f2, f3, f4, f5⟩ := foldInt8Values_near hfl hfl' h64 h1 h2 hz
    rw [f1] at h
    simp only at h
    split at h
    · rename_i y1 hy
      simp only [Folded.const.injEq] at h
      obtain ⟨rfl, rfl⟩ := h
      refine ⟨rfl, hp, fun y0 h0 => ?_⟩
      have hw' : outShape.dropLast.prod * packedSize cols ≤ w.length := by rw [hw, e3]
      obtain ⟨z, z1, z2⟩ := unpackMatrix_fills (zb := u) (ob := v) (out0 := List.replicate (outShape.dropLast.prod * cols) 0#8)
        hw' (by simp)
      obtain ⟨z', z1', z2'⟩ := unpackMatrix_fills (zb := u') (ob := v') (out0 := y0) hw' (by rw [h0, e4])
      rw [hy] at z1
      cases z1
      have l : y0.length = outShape.dropLast.prod * cols := by rw [h0, e4]
      refine ⟨z', ?_, ?_, fun i a a' ha ha' => ?_, fun hn => ?_⟩
      · unfold dequantizeEvalI8
        rw [e1, f2]
        exact z1'
      · rw [z2.len, z2'.len, List.length_replicate, l]
      · have hil : i < outShape.dropLast.prod * cols := by
          have := (List.getElem?_eq_some_iff.1 ha').1
          rw [z2'.len, l] at this
          exact this
        rw [z2.hit i (by simpa using hil) hil] at ha
        rw [z2'.hit i (by rw [l]; exact hil) hil] at ha'
        cases ha
        cases ha'
        unfold unpackedElem
        split
        · split
          · exact f4
          · exact f3
        · exact f3
      · obtain ⟨rfl, rfl⟩ := f5 hn
        rw [z2.all fun i hi => by simpa using hi, z2'.all fun i hi => by rw [← l]; exact hi, List.length_replicate, l]
    · simp at h

/-- Non-vacuity: the scale of `C34_double_scale_witness` is in the range, and the bound is attained there. -/
example : (2 : Rat) ^ (-30 : Int) ≤ 2 + 15 / 2 ^ 27 ∧ (2 + 15 / 2 ^ 27 : Rat) ≤ 2 ^ (30 : Int) ∧
    |(0#8).toInt - (1#8).toInt| = 1 := by
  refine ⟨by norm_num, by norm_num, by decide⟩

/-- A scale that is not a float and for which the bytes agree. -/
example : ∀ n : Int, 1 / (1 / 100 : Rat) / 2 ^ 22 < |1 / (1 / 100 : Rat) - ((n : Rat) + 1 / 2)| := by
  intro n
  have h : (n : Rat) ≤ 99 ∨ (100 : Rat) ≤ n := by
    rcases le_or_gt n 99 with h | h
    · left; exact_mod_cast h
    · right; have : 100 ≤ n := by omega
      exact_mod_cast this
  norm_num
  rw [lt_abs]
  rcases h with h | h
  · left; linarith
  · right; linarith

end Verif
