import Verif.Proof.Converter
import Verif.Proof.FloatThresholds

/-! C25-C27: the bitpacked-output thresholds. -/

namespace Verif

theorem bitpackedThresholds_getD {fl : Rat → Rat} {fh fw cg : Nat} {act : Act} {mult bias : List Rat} {c : Nat}
    (hm : c < mult.length) (hb : c < bias.length) :
    (bitpackedThresholds fl fh fw cg act mult bias).getD c 0 =
      thresholdOf fl (fl ((fh * fw * cg : Nat) : Int)) (fl (thresholdClamp act ((fh * fw * cg : Nat) : Int)).1)
        (fl (thresholdClamp act ((fh * fw * cg : Nat) : Int)).2) (mult.getD c 0) (bias.getD c 0) := by
  unfold bitpackedThresholds
  simp [hm, hb]

/-- **C25.** Take a BConv2D with float output (filter `w` of non-zero floats, packed by the
converter into `filt`) whose result `y` is then binarized, and the op that replaces the two:
the filter multiplied by the signs of the multipliers and packed, and the thresholds computed
in exact arithmetic, with bitpacked output. Running the second gives exactly the packed signs
of `y`: a 1-bit iff `activation(conv) * multiplier + bias < 0`. -/
theorem C25_threshold_exact {p : BConv} {inp filt : List Word} {w : List Rat} {act : Act}
    {mult bias y0 : List Rat} {o0 q0 : List Word} {junk : Word}
    (hok : p.Ok inp filt) (hpad : p.padding = .valid ∨ p.padValue = 1)
    (hf : bitpackConst p.cout p.filtH p.filtW p.cinG w junk = some filt)
    (hw : w.length = p.cout * p.filtH * p.filtW * p.cinG) (hw0 : ∀ x ∈ w, x ≠ 0)
    (hm : mult.length = p.cout) (hb : bias.length = p.cout)
    (hK : 2 * (p.filtH * p.filtW * (p.cin / p.groups)) < 2147483648)
    (hy : y0.length = p.batches * p.outH * p.outW * p.cout)
    (ho : o0.length = p.batches * p.outH * p.outW * ((p.cout + 31) / 32))
    (hq : q0.length = p.batches * p.outH * p.outW * ((p.cout + 31) / 32)) :
    ∃ y filt' o, evalRefFloat p act mult bias inp filt y0 = some y ∧
      bitpackConst p.cout p.filtH p.filtW p.cinG
        (mulSigns (p.filtH * p.filtW * p.cinG) w (signsOf mult)) junk = some filt' ∧
      evalRefBits p (bitpackedThresholds id p.filtH p.filtW p.cinG act mult bias) inp filt' o0 = some o ∧
      bitpackMatrix y (p.batches * p.outH * p.outW) p.cout q0 0 junk = some o ∧
      (∀ b i j c, b < p.batches → i < p.outH → j < p.outW → c < p.cout →
        ∃ wd, o[((b * p.outH + i) * p.outW + j) * ((p.cout + 31) / 32) + c / 32]? = some wd ∧
          (wd.getLsbD (c % 32) = true ↔
            ((act.apply (p.conv 1 inp filt b i j c) : Int) : Rat) * mult.getD c 0 + bias.getD c 0 < 0)) := by
  have hz : p.zeroPadding = false := by
    unfold BConv.zeroPadding
    rcases hpad with h | h <;> simp [h]
  obtain ⟨y, hy1, hy2, hy3⟩ := C07_reference_float (act := act) hok hpad hm hb hK hy
  obtain ⟨f1, hf1, _, hfw⟩ := bitpackConst_weight (p := p) (junk := junk) hw
  obtain rfl : f1 = filt := by rw [hf] at hf1; exact (Option.some.inj hf1).symm
  obtain ⟨filt', hf', hpk', hfw'⟩ := bitpackConst_weight (p := p) (junk := junk)
    (w := mulSigns (p.filtH * p.filtW * p.cinG) w (signsOf mult)) (by simp [mulSigns, hw])
  have hok' := hok.setFilter hpk'
  have hthr : (bitpackedThresholds id p.filtH p.filtW p.cinG act mult bias).length = p.cout := by
    simp [bitpackedThresholds, hm, hb]
  obtain ⟨o, ho1, ho2, ho3⟩ := C11_reference_bitpacked hok' (by
    intro h1 h2; rcases hpad with h | h
    · rw [h] at h1; cases h1
    · omega) hthr hK ho
  have hbit : ∀ b i j c, b < p.batches → i < p.outH → j < p.outW → c < p.cout →
        ∃ wd, o[((b * p.outH + i) * p.outW + j) * ((p.cout + 31) / 32) + c / 32]? = some wd ∧
          (wd.getLsbD (c % 32) = true ↔
            ((act.apply (p.conv 1 inp f1 b i j c) : Int) : Rat) * mult.getD c 0 + bias.getD c 0 < 0) := by
    intro b i j c hb' hi hj hc
    obtain ⟨wd, a, e1, e2, e3⟩ := ho3 b i j c hb' hi hj hc
    refine ⟨wd, e1, ?_⟩
    have hpv : p.padVal = 1 := by simp [BConv.padVal, hz]
    rw [hpv, conv_scale (s := if 0 ≤ mult.getD c 0 then 1 else -1)
      (fun fy fx cc h1 h2 h3 => weight_mulSigns hm hw hw0 hfw hfw' hc h1 h2 h3)] at e2
    obtain ⟨a0, ha0, hconv, _⟩ := BConv.conv_eq hok hz i j hb' hc
    have hKe : p.K = p.filtH * p.filtW * (p.cin / p.groups) := rfl
    rw [← hKe] at hK
    rw [← hKe, hconv] at e2
    rw [e3, hconv, bitpackedThresholds_getD (by omega) (by omega)]
    have hKc : p.filtH * p.filtW * p.cinG = p.K := rfl
    rw [hKc]
    obtain ⟨hlh, happ⟩ := thresholdClamp_apply act (a := (p.K : Int)) (v := (p.K : Int) - 2 * a0)
      (by omega) (by omega) (by omega)
    simp only [id]
    have ha1 : 0 ≤ a ∧ a ≤ p.K := by
      split at e2 <;> omega
    rw [thresholdOf_exact (v := (((p.K : Int) - 2 * a0 : Int) : Rat)) (by exact_mod_cast hlh) ha1.1 (by omega) ?_]
    · rw [← happ]
      push_cast
      rfl
    · have : (((p.K : Int) - 2 * a0 : Int) : Rat) * (if 0 ≤ mult.getD c 0 then 1 else -1)
          = (((p.K : Int) - 2 * a0) * (if 0 ≤ mult.getD c 0 then 1 else -1) : Int) := by
        split <;> push_cast <;> rfl
      rw [this, ← e2]
      push_cast
      rfl
  refine ⟨y, filt', o, hy1, hf', ho1, ?_, hbit⟩
  obtain ⟨q, hq1, hq2, hq3⟩ := bitpackMatrix_rat (x := y) (rows := p.batches * p.outH * p.outW) (cols := p.cout)
    (out0 := q0) (junk := junk) (by rw [hy2, hy]) hq
  rw [hq1]
  congr 1
  apply packed_ext hq2 ho2
  intro r c hr hc
  obtain ⟨g1, g2⟩ := mod_lt_of_lt_mul hr
  obtain ⟨g3, g4⟩ := mod_lt_of_lt_mul g1
  obtain ⟨wd, e1, e2⟩ := hbit _ _ _ c g3 g4 g2 hc
  obtain ⟨wq, v, e3, e4, e5⟩ := hq3 r c hr hc
  have e6 := hy3 _ _ _ c g3 g4 g2 hc
  rw [div_mul_add_mod, div_mul_add_mod] at e1 e6
  refine ⟨wq, wd, e3, e1, ?_⟩
  rw [e4] at e6
  rw [Bool.eq_iff_iff, e5, e2, Option.some.inj e6]

theorem small_bits {n : Word} {b : Nat} (hn : n.toNat < 8) (hb : 3 ≤ b) : n.getLsbD b = false := by
  rw [BitVec.getLsbD, Nat.testBit_lt_two_pow]
  calc n.toNat < 2 ^ 3 := hn
    _ ≤ 2 ^ b := Nat.pow_le_pow_right (by omega) hb

/-- Non-vacuity of C25: a 1x2x2x3 input, two 1x1x3 filters with non-unit magnitudes, a negative
and a positive multiplier; the two computations give the same non-trivial words. -/
def thrP : BConv := ⟨1, 2, 2, 1, 3, 1, 1, 1, 2, 1, 1, 1, 1, 1, .valid, 0, 0, 0, 2, 2⟩

/-- the packed input of the example -/
def thrInp : List Word := [0#32, 1#32, 3#32, 7#32]

/-- the float filter of the example -/
def thrW : List Rat := [1, -1, 1, -1 / 2, 1 / 2, 1 / 2]

theorem thrP_ok : thrP.Ok thrInp [2#32, 1#32] := by
  refine ⟨by decide, by decide, by decide, by decide, by decide, by decide, by decide, by decide, ?_, ?_⟩
  · intro r k b hr hk hb hc
    have hr : r < 4 := hr
    have hk : k < 1 := hk
    have hc : 3 ≤ 32 * k + b := hc
    obtain rfl : k = 0 := by omega
    have : r = 0 ∨ r = 1 ∨ r = 2 ∨ r = 3 := by omega
    rcases this with rfl | rfl | rfl | rfl <;> exact small_bits (by decide) (by omega)
  · intro r k b hr hk hb hc
    have hr : r < 2 := hr
    have hk : k < 1 := hk
    have hc : 3 ≤ 32 * k + b := hc
    obtain rfl : k = 0 := by omega
    have : r = 0 ∨ r = 1 := by omega
    rcases this with rfl | rfl <;> exact small_bits (by decide) (by omega)

example : bitpackConst 2 1 1 3 thrW 0#32 = some [2#32, 1#32] ∧ thrP.Ok thrInp [2#32, 1#32] ∧
    evalRefFloat thrP .none [-1, 1 / 2] [1 / 4, -1] thrInp [2#32, 1#32] (List.replicate 8 0)
      = some [-3 / 4, -1 / 2, 5 / 4, 1 / 2, -3 / 4, -1 / 2, 5 / 4, -3 / 2] ∧
    bitpackedThresholds id 1 1 3 .none [-1, 1 / 2] [1 / 4, -1] = [1, 0] ∧
    bitpackConst 2 1 1 3 (mulSigns 3 thrW (signsOf [-1, 1 / 2])) 0#32 = some [5#32, 1#32] ∧
    evalRefBits thrP [1, 0] thrInp [5#32, 1#32] (List.replicate 4 0#32) = some [3#32, 0#32, 3#32, 2#32] := by
  exact ⟨by decide +kernel, thrP_ok, by decide +kernel, by decide +kernel, by decide +kernel, by decide +kernel⟩

/-! ### C26 -/

theorem thresholdClamp_abs (act : Act) (K : Nat) :
    |(thresholdClamp act K).1| ≤ K + 6 ∧ |(thresholdClamp act K).2| ≤ K + 6 ∧
      (thresholdClamp act K).1 ≤ (thresholdClamp act K).2 := by
  cases act <;> simp only [thresholdClamp] <;> refine ⟨?_, ?_, ?_⟩ <;> (try rw [abs_le]) <;> omega

/-- **C26 (what holds).** Thresholds computed with float32 rounding, under any round-to-nearest
rule, for filters of at most 2^23 elements: a 1-bit is only written when the exact result
`y = activation(conv) * multiplier + bias` is negative; when a 0-bit is written, `y` is at least
`-|multiplier| * (K + 6) * 2^-21`. `x` is the accumulator for the sign-flipped filter and `v` the
value of the original convolution.

Missing: the full property (a 0-bit only if `y ≥ 0`) is false, see `C26_rounding_witness`. -/
theorem C26_float32_thresholds_partial {fl : Rat → Rat} (hfl : RoundsToNearest fl) {fh fw cg : Nat} (act : Act)
    {mult bias : List Rat} {c : Nat} {m b : Rat} (hm : mult[c]? = some m) (hb : bias[c]? = some b)
    (hmr : Binary32 m) (hbr : Binary32 b) (hK : fh * fw * cg ≤ 2 ^ 23)
    (hr : 4 * ((((fh * fw * cg : Nat) : Rat) + 6) * |m| + |b|) ≤ maxBinary32)
    {x : Nat} (hx : x ≤ fh * fw * cg) {v : Int}
    (hv : v * (if 0 ≤ m then 1 else -1) = (fh * fw * cg : Nat) - 2 * (x : Int)) :
    ∃ τ, (bitpackedThresholds fl fh fw cg act mult bias)[c]? = some τ ∧
      ((x : Int) > τ → ((act.apply v : Int) : Rat) * m + b < 0) ∧
      (¬ (x : Int) > τ →
        -(|m| * (((fh * fw * cg : Nat) : Rat) + 6) * (2 : Rat) ^ (-21 : Int)) ≤ ((act.apply v : Int) : Rat) * m + b) := by
  have hcm : c < mult.length := (List.getElem?_eq_some_iff.1 hm).1
  have hcb : c < bias.length := (List.getElem?_eq_some_iff.1 hb).1
  have hlen : c < (bitpackedThresholds fl fh fw cg act mult bias).length := by
    simp [bitpackedThresholds, hcm, hcb]
  refine ⟨(bitpackedThresholds fl fh fw cg act mult bias).getD c 0, by simp [hlen], ?_⟩
  rw [bitpackedThresholds_getD hcm hcb]
  have e1 : mult.getD c 0 = m := by simp [hm]
  have e2 : bias.getD c 0 = b := by simp [hb]
  rw [e1, e2]
  generalize fh * fw * cg = K at *
  obtain ⟨hl1, hl2, hlh⟩ := thresholdClamp_abs act K
  have hK' : K ≤ 8388608 := hK
  obtain ⟨_, happ⟩ := thresholdClamp_apply act (a := (K : Int)) (v := v) (by omega)
    (by split at hv <;> omega) (by split at hv <;> omega)
  rw [← happ]
  generalize (thresholdClamp act K).1 = lo at *
  generalize (thresholdClamp act K).2 = hi at *
  have hfx : ∀ l : Int, |l| ≤ K + 6 → fl (l : Rat) = l := fun l hl => hfl.fix (Binary32.int (by omega))
  rw [hfx lo hl1, hfx hi hl2, hfx K (by rw [abs_of_nonneg (by omega)]; omega)]
  have ecast : ((max lo (min hi v) : Int) : Rat) = max (lo : Rat) (min (hi : Rat) (v : Rat)) := by push_cast; rfl
  rw [ecast]
  have hvR : (v : Rat) * (if 0 ≤ m then 1 else -1) = (K : Rat) - 2 * ((x : Int) : Rat) := by
    have : ((v * (if 0 ≤ m then 1 else -1) : Int) : Rat) = ((K - 2 * (x : Int) : Int) : Rat) := by rw [hv]
    split at this <;> rename_i hs
    · rw [if_pos hs]; push_cast at this ⊢; exact this
    · rw [if_neg hs]; push_cast at this ⊢; exact this
  unfold thresholdOf
  simp only [rat_floor_eq]
  by_cases h0 : m = 0
  · subst h0
    rw [mul_zero, zero_add]
    simp only [if_true, abs_zero, zero_mul, neg_zero]
    split
    · rename_i h
      exact ⟨fun _ => h, fun h' => absurd (show (x : Int) > -2147483648 by omega) h'⟩
    · rename_i h
      refine ⟨fun h' => ?_, fun _ => by linarith⟩
      omega
  · rw [if_neg h0]
    have hc : Chan ((K : Rat) + 6) |m| b := by
      refine ⟨abs_pos.2 h0, ?_, hbr, ?_, hr⟩
      · rcases abs_choice m with h | h <;> rw [h]
        · exact hmr
        · exact hmr.neg
      · have : (0 : Rat) ≤ (K : Rat) := by positivity
        linarith
    rcases lt_or_gt_of_ne h0 with hneg | hpos
    · have hn : ¬ (0 : Rat) < m := by linarith
      have hn' : ¬ (0 : Rat) ≤ m := by linarith
      simp only [hn, if_false]
      rw [if_neg hn'] at hvR
      have key := float_clamped hfl hK (lo := -hi) (hi := -lo) hc (by rwa [abs_neg]) (by rwa [abs_neg])
        (by omega) (x := (x : Int)) (by omega) (by omega) (v := -(v : Rat)) (by rw [← hvR]; ring) (τ := _) rfl
      have hlhR : (lo : Rat) ≤ hi := by exact_mod_cast hlh
      have hcl : max ((-hi : Int) : Rat) (min ((-lo : Int) : Rat) (-(v : Rat)))
          = -(max (lo : Rat) (min (hi : Rat) (v : Rat))) := by
        push_cast
        rcases le_total (v : Rat) lo with h1 | h1 <;> rcases le_total (v : Rat) hi with h2 | h2
        · rw [min_eq_left (by linarith), max_eq_right (by linarith), min_eq_right h2, max_eq_left h1]
        · rw [min_eq_left (by linarith), max_eq_right (by linarith), min_eq_left h2, max_eq_left (by linarith)]
        · rw [min_eq_right (by linarith), max_eq_right (by linarith), min_eq_right h2, max_eq_right h1]
        · rw [min_eq_right (by linarith), max_eq_left (by linarith), min_eq_left h2, max_eq_right hlhR]
      rw [hcl] at key
      have habs : |m| = -m := abs_of_neg hneg
      have hmul : -(max (lo : Rat) (min (hi : Rat) (v : Rat))) * |m| + b
          = max (lo : Rat) (min (hi : Rat) (v : Rat)) * m + b := by rw [habs]; ring
      rw [hmul] at key
      have c1 : ((-hi : Int) : Rat) = -1 * (hi : Rat) := by push_cast; ring
      have c2 : ((-lo : Int) : Rat) = -1 * (lo : Rat) := by push_cast; ring
      rw [c1, c2] at key
      exact_mod_cast key
    · simp only [hpos, if_true]
      rw [if_pos hpos.le, mul_one] at hvR
      have key := float_clamped hfl hK hc hl1 hl2 hlh (x := (x : Int)) (by omega) (by omega) hvR (τ := _) rfl
      rw [abs_of_pos hpos] at key ⊢
      exact_mod_cast key

/-- **C26 is false as stated.** A 1x1x2 filter, multiplier 1 and bias `-2^-30` (all exact floats):
at accumulator 1 the convolution is 0 and the exact result is `-2^-30 < 0`, but whatever the
tie-breaking rule the float threshold is 1, so a 0-bit is written. -/
theorem C26_rounding_witness {fl : Rat → Rat} (hfl : RoundsToNearest fl) :
    Binary32 (-(2 : Rat) ^ (-30 : Int)) ∧
    bitpackedThresholds fl 1 1 2 .none [1] [-(2 : Rat) ^ (-30 : Int)] = [1] ∧
    ((Act.none.apply (2 - 2 * 1) : Int) : Rat) * 1 + -(2 : Rat) ^ (-30 : Int) < 0 := by
  have hb : Binary32 (-(2 : Rat) ^ (-30 : Int)) := (Binary32.pow (by norm_num) (by norm_num)).neg
  have f2 : fl 2 = 2 := hfl.fix (by exact_mod_cast Binary32.int (n := 2) (by norm_num))
  have fm2 : fl (-2) = -2 := hfl.fix (by exact_mod_cast Binary32.int (n := -2) (by norm_num))
  have hM : (2 : Rat) ^ 33 ≤ maxBinary32 := by unfold maxBinary32; norm_num
  have hsum : fl (-(2 : Rat) ^ (-30 : Int) + 2) = 2 := by
    have hr : |(-(2 : Rat) ^ (-30 : Int) + 2)| ≤ maxBinary32 := by
      rw [abs_of_pos (by norm_num)]
      have : (-(2 : Rat) ^ (-30 : Int) + 2) ≤ 2 ^ 33 := by norm_num
      linarith
    obtain ⟨⟨k, e, h1, h2, h3, h4⟩, hnear⟩ := hfl _ hr
    have hd := hnear 2 (by exact_mod_cast Binary32.int (n := 2) (by norm_num))
    have hd2 : |(2 : Rat) - (-(2 : Rat) ^ (-30 : Int) + 2)| = (2 : Rat) ^ (-30 : Int) := by norm_num
    rw [hd2, h4, abs_le] at hd
    rw [h4]
    -- the significand is a multiple of 2^-23 near 2
    have hpos : (0 : Rat) < 2 ^ e := zpow_pos (by norm_num) e
    have hk0 : (0 : Rat) < k * 2 ^ e := by
      have : (0 : Rat) < -(2 : Rat) ^ (-30 : Int) - (2 : Rat) ^ (-30 : Int) + 2 := by norm_num
      linarith [hd.1]
    have hk : 0 < k := by
      have := pos_of_mul_pos_left hk0 hpos.le
      exact_mod_cast this
    have he : -23 ≤ e := by
      by_contra hc
      have h5 : (2 : Rat) ^ e ≤ 2 ^ (-24 : Int) := zpow_le_zpow_right₀ (by norm_num) (by omega)
      have h6 : (k : Rat) ≤ 2 ^ 24 - 1 := by
        have : k ≤ 2 ^ 24 - 1 := by have := abs_lt.1 h1; omega
        exact_mod_cast this
      have h7 : (k : Rat) * 2 ^ e ≤ (2 ^ 24 - 1) * 2 ^ (-24 : Int) :=
        mul_le_mul h6 h5 hpos.le (by norm_num)
      have h8 : ((2 : Rat) ^ 24 - 1) * 2 ^ (-24 : Int) < 1 := by norm_num
      have h9 : (1 : Rat) < -(2 : Rat) ^ (-30 : Int) - (2 : Rat) ^ (-30 : Int) + 2 := by norm_num
      linarith [hd.1]
    -- k * 2^e = j * 2^-23
    have hj : (k : Rat) * 2 ^ e = ((k * 2 ^ (e + 23).toNat : Int) : Rat) * 2 ^ (-23 : Int) := by
      have h3 : (((2 : Int) ^ (e + 23).toNat : Int) : Rat) = (2 : Rat) ^ (e + 23) := by
        rw [Int.cast_pow, ← zpow_natCast]
        congr 1
        omega
      rw [Int.cast_mul, h3, mul_assoc, ← zpow_add₀ (by norm_num)]
      congr 2
      omega
    rw [hj] at hd ⊢
    generalize k * 2 ^ (e + 23).toNat = j at hd ⊢
    have hp : (0 : Rat) < 2 ^ (-23 : Int) := by norm_num
    have j1 : (2 ^ 24 - 1 : Int) < j := by
      have : ((2 ^ 24 - 1 : Int) : Rat) * 2 ^ (-23 : Int) < j * 2 ^ (-23 : Int) := by
        have : ((2 ^ 24 - 1 : Int) : Rat) * 2 ^ (-23 : Int)
            < -(2 : Rat) ^ (-30 : Int) - (2 : Rat) ^ (-30 : Int) + 2 := by norm_num
        linarith [hd.1]
      exact_mod_cast lt_of_mul_lt_mul_right this hp.le
    have j2 : j < (2 ^ 24 + 1 : Int) := by
      have : j * 2 ^ (-23 : Int) < ((2 ^ 24 + 1 : Int) : Rat) * 2 ^ (-23 : Int) := by
        have : (2 : Rat) < ((2 ^ 24 + 1 : Int) : Rat) * 2 ^ (-23 : Int) := by norm_num
        linarith [hd.2]
      exact_mod_cast lt_of_mul_lt_mul_right this hp.le
    obtain rfl : j = 2 ^ 24 := by omega
    norm_num
  refine ⟨hb, ?_, by norm_num [Act.apply]⟩
  have hrng : ∀ t : Rat, |t| ≤ 3 → |t| ≤ maxBinary32 := fun t ht => by
    have : (3 : Rat) ≤ 2 ^ 33 := by norm_num
    linarith
  have hs2 : |(-2 : Rat) + -(2 : Rat) ^ (-30 : Int)| ≤ maxBinary32 := hrng _ (by rw [abs_le]; constructor <;> norm_num)
  have hs3 : |(2 : Rat) + -(2 : Rat) ^ (-30 : Int)| ≤ maxBinary32 := hrng _ (by rw [abs_le]; constructor <;> norm_num)
  have hneg : fl (-2 + -(2 : Rat) ^ (-30 : Int)) < 0 := by
    have := hfl.le_of_le hs2 (y := -2) (by exact_mod_cast Binary32.int (n := -2) (by norm_num)) (by norm_num)
    linarith
  have hposs : 0 ≤ fl (2 + -(2 : Rat) ^ (-30 : Int)) := hfl.ge_of_ge hs3 Binary32.zero (by norm_num)
  have hbm : fl (-(2 : Rat) ^ (-30 : Int) / 1) = -(2 : Rat) ^ (-30 : Int) := by rw [div_one]; exact hfl.fix hb
  unfold bitpackedThresholds thresholdOf thresholdClamp
  simp only [List.zipWith_cons_cons, List.zipWith_nil_left, List.cons.injEq, and_true, abs_one, mul_one,
    one_ne_zero, if_false, zero_lt_one, if_true, Nat.one_mul]
  have k1 : fl (((2 : Nat) : Int) : Rat) = 2 := by exact_mod_cast f2
  have k2 : fl ((-1 * ((2 : Nat) : Int) : Int) : Rat) = -2 := by
    have : ((-1 * ((2 : Nat) : Int) : Int) : Rat) = -2 := by norm_num
    rw [this, fm2]
  rw [k1, k2, fm2, f2, hbm, hsum]
  rw [if_neg (fun h => absurd h.2 (not_lt.2 hposs)), if_neg (fun h => absurd h.1 (not_le.2 hneg))]
  decide +kernel

/-- Non-vacuity of `C26_float32_thresholds_partial`: rounding functions exist, and typical
constants are in range. -/
example : (∃ fl, RoundsToNearest fl) ∧ Binary32 (3 / 4) ∧ Binary32 (-5) ∧
    4 * ((((3 * 3 * 256 : Nat) : Rat) + 6) * |(3 / 4 : Rat)| + |(-5 : Rat)|) ≤ maxBinary32 := by
  refine ⟨exists_roundsToNearest, ⟨3, -2, by norm_num, by norm_num, by norm_num, by norm_num⟩,
    ⟨-5, 0, by norm_num, by norm_num, by norm_num, by norm_num⟩, ?_⟩
  unfold maxBinary32
  rw [abs_of_pos (by norm_num), abs_of_neg (by norm_num)]
  norm_num

/-! ### C27 -/

/-- **C27.** Every computed threshold fits in an int32, with float32 rounding, for every filter of
at most 2^30 elements, every activation, and multipliers and biases with `|m| ≤ 2^90`,
`|b| ≤ 2^120` (far below the point where the products overflow to infinity). -/
theorem C27_thresholds_fit {fl : Rat → Rat} (hfl : RoundsToNearest fl) {fh fw cg : Nat} (act : Act)
    {mult bias : List Rat} (hmr : ∀ m ∈ mult, Binary32 m ∧ |m| ≤ 2 ^ 90)
    (hbr : ∀ b ∈ bias, Binary32 b ∧ |b| ≤ 2 ^ 120) (hK : fh * fw * cg ≤ 2 ^ 30) :
    ∀ τ ∈ bitpackedThresholds fl fh fw cg act mult bias, -2147483648 ≤ τ ∧ τ < 2147483648 := by
  intro τ hτ
  unfold bitpackedThresholds at hτ
  simp only [] at hτ
  rw [← List.map_uncurry_zip_eq_zipWith, List.mem_map] at hτ
  obtain ⟨⟨m, b⟩, hmem, rfl⟩ := hτ
  obtain ⟨hm1, hb1⟩ := List.of_mem_zip hmem
  obtain ⟨hm, hmle⟩ := hmr m hm1
  obtain ⟨hb, hble⟩ := hbr b hb1
  simp only [Function.uncurry]
  generalize fh * fw * cg = K at *
  have hK' : K ≤ 1073741824 := hK
  have hcl : ∀ l : Int, (l = (thresholdClamp act K).1 ∨ l = (thresholdClamp act K).2) → |l| ≤ 2 ^ 30 := by
    intro l hl
    rw [abs_le]
    cases act <;> simp only [thresholdClamp] at hl <;> omega
  have hlh := (thresholdClamp_abs act K).2.2
  have hM : (2 : Rat) ^ 127 ≤ maxBinary32 := by unfold maxBinary32; norm_num
  have r30 : Binary32 ((2 : Rat) ^ 30) := by
    have := Binary32.pow (e := 30) (by norm_num) (by norm_num)
    exact_mod_cast this
  have hin : ∀ l : Int, |l| ≤ 2 ^ 30 → |(l : Rat)| ≤ maxBinary32 := by
    intro l hl
    have : |(l : Rat)| ≤ 2 ^ 30 := by exact_mod_cast hl
    have : (2 : Rat) ^ 30 ≤ 2 ^ 127 := by norm_num
    linarith
  have hLim : ∀ l : Int, |l| ≤ 2 ^ 30 → Lim ((2 : Rat) ^ 30) (fl l) := by
    intro l hl
    have h1 : |(l : Rat)| ≤ 2 ^ 30 := by exact_mod_cast hl
    rw [abs_le] at h1
    refine ⟨hfl.binary32 (hin l hl), abs_le.2 ⟨hfl.ge_of_ge (hin l hl) r30.neg h1.1, hfl.le_of_le (hin l hl) r30 h1.2⟩, ?_⟩
    rcases lt_trichotomy l 0 with h | h | h
    · right
      have : (l : Rat) ≤ -1 := by exact_mod_cast (by omega : l ≤ -1)
      have := hfl.le_of_le (hin l hl) (y := -1) (by exact_mod_cast Binary32.int (n := -1) (by norm_num)) this
      have := neg_le_abs (fl (l : Rat))
      linarith
    · left; subst h; rw [Int.cast_zero]; exact hfl.fix Binary32.zero
    · right
      have : (1 : Rat) ≤ l := by exact_mod_cast (by omega : 1 ≤ l)
      have := hfl.ge_of_ge (hin l hl) (y := 1) (by exact_mod_cast Binary32.int (n := 1) (by norm_num)) this
      have := le_abs_self (fl (l : Rat))
      linarith
  have hLimNeg : ∀ l : Rat, Lim ((2 : Rat) ^ 30) l → Lim ((2 : Rat) ^ 30) (-1 * l) := by
    intro l hl
    rw [neg_one_mul]
    exact ⟨hl.rep.neg, by rw [abs_neg]; exact hl.le, by rw [abs_neg, neg_eq_zero]; exact hl.one⟩
  have L1 := hLim _ (hcl _ (Or.inl rfl))
  have L2 := hLim _ (hcl _ (Or.inr rfl))
  have hlo : fl ((thresholdClamp act K).1 : Rat) ≤ fl ((thresholdClamp act K).2 : Rat) :=
    hfl.mono (hin _ (hcl _ (Or.inl rfl))) (hin _ (hcl _ (Or.inr rfl))) (by exact_mod_cast hlh)
  generalize fl ((thresholdClamp act K).1 : Rat) = lo at *
  generalize fl ((thresholdClamp act K).2 : Rat) = hi at *
  have hKL := hLim K (by rw [abs_of_nonneg (by omega)]; omega)
  have hK0 : 0 ≤ fl ((K : Int) : Rat) :=
    hfl.ge_of_ge (hin K (by rw [abs_of_nonneg (by omega)]; omega)) Binary32.zero (by positivity)
  generalize fl ((K : Int) : Rat) = A at *
  -- one side
  have key : ∀ lo hi : Rat, Lim ((2 : Rat) ^ 30) lo → Lim ((2 : Rat) ^ 30) hi → lo ≤ hi → m ≠ 0 →
      let t : Int := if fl (fl (lo * |m|) + b) < 0 ∧ fl (fl (hi * |m|) + b) < 0 then -2147483648
        else if 0 ≤ fl (fl (lo * |m|) + b) ∧ 0 ≤ fl (fl (hi * |m|) + b) then 2147483647
        else ⌊(1 / 2 : Rat) * fl (fl (b / |m|) + A)⌋;
      (-2147483648 ≤ t) ∧ t < 2147483648 := by
    intro lo hi l1 l2 hlh hm0 t
    have hc : Chan ((2 : Rat) ^ 30) |m| b := by
      refine ⟨abs_pos.2 hm0, ?_, hb, by norm_num, ?_⟩
      · rcases abs_choice m with h | h <;> rw [h]
        · exact hm
        · exact hm.neg
      · have : (2 : Rat) ^ 30 * |m| ≤ 2 ^ 30 * 2 ^ 90 := mul_le_mul_of_nonneg_left hmle (by norm_num)
        have : 4 * ((2 : Rat) ^ 30 * 2 ^ 90 + 2 ^ 120) ≤ 2 ^ 127 := by norm_num
        linarith
    simp only [t]
    split
    · omega
    · split
      · omega
      · rename_i h1 h2
        obtain ⟨hs, he⟩ := mixed_case hfl hc l1 l2 hlh h1 h2
        have hg : GenCase fl ((2 : Rat) ^ 30) A lo hi |m| b :=
          ⟨hs, he, hKL.rep, hK0, le_trans (le_abs_self _) hKL.le,
            ⟨1, 31, by norm_num, by norm_num, by norm_num, by norm_num⟩, by norm_num⟩
        exact gen_fits hfl hc l1 l2 hg (le_refl _)
  unfold thresholdOf
  simp only [rat_floor_eq]
  by_cases h0 : m = 0
  · rw [if_pos h0]; split <;> omega
  · rw [if_neg h0]
    by_cases hp : 0 < m
    · rw [if_pos hp]; exact key lo hi L1 L2 hlo h0
    · rw [if_neg hp]; exact key _ _ (hLimNeg hi L2) (hLimNeg lo L1) (by linarith) h0

end Verif
