import Verif.Props.ThresholdsNear
import Verif.Props.FloatOutput

/-!
C78: fusing LceQuantize into a binary convolution, both sides computed in float arithmetic.

The op before fusion computes `activation(conv) * multiplier + bias` in float arithmetic (`evalRefFloatFl`) and LceQuantize packs
the signs. The op after fusion has the sign-flipped filter and thresholds that the converter computed in float arithmetic
(`bitpackedThresholds R.fl`). The bits can only differ where the exact value is within rounding error of 0, which for filters
below 2^18 elements is at most one value of the convolution in each channel.
-/

namespace Verif

/-- Within rounding error of 0: what separates the two computations of the sign. -/
def NearZero (K : Nat) (m b y : Rat) : Prop :=
  |y| ≤ |m| * ((K : Rat) + 6) * (2 : Rat) ^ (-21 : Int) + (|b| + (K : Rat) * |m|) * (5 / 2 ^ 24) + (2 : Rat) ^ (-147 : Int)

/-- `v` is within `B` of `y`; where the sign test of `v` and the bit differ, `y` is near 0. -/
theorem near_of_differ {v y A B : Rat} {bit : Prop} (hA : 0 ≤ A) (hv : |v - y| ≤ B) (h1 : bit → y < 0)
    (h2 : ¬ bit → -A ≤ y) (hne : ¬ (v < 0 ↔ bit)) : |y| ≤ A + B := by
  have hB : 0 ≤ B := le_trans (abs_nonneg _) hv
  obtain ⟨u1, u2⟩ := abs_le.1 hv
  rw [abs_le]
  by_cases hb : bit
  · have a1 := h1 hb
    have a2 : ¬ v < 0 := fun h => hne ⟨fun _ => hb, fun _ => h⟩
    constructor <;> linarith
  · have a1 := h2 hb
    have a2 : v < 0 := by
      by_contra h
      exact hne ⟨fun h' => absurd h' h, fun h' => absurd h' hb⟩
    constructor <;> linarith

/-- **C78.** For every binary convolution with one-padding or without padding, both versions run without error; and for every
output element the bit written by the fused op equals the packed sign of the unfused float op, or the exact result
`activation(conv) * multiplier + bias` is within rounding error of 0. -/
theorem C78_fused_sign {R : FlEnv} (h32 : RoundsToNearest R.fl) (h64 : RoundsToNearest64 R.dl)
    {p : BConv} {inp filt : List Word} {w : List Rat} {act : Act}
    {mult bias y0 : List Rat} {o0 q0 : List Word} {junk : Word}
    (hok : p.Ok inp filt) (hpad : p.padding = .valid ∨ p.padValue = 1)
    (hf : bitpackConst p.cout p.filtH p.filtW p.cinG w junk = some filt)
    (hw : w.length = p.cout * p.filtH * p.filtW * p.cinG) (hw0 : ∀ x ∈ w, x ≠ 0)
    (hm : mult.length = p.cout) (hb : bias.length = p.cout)
    (hmr : ∀ c, c < p.cout → Binary32 (mult.getD c 0)) (hbr : ∀ c, c < p.cout → Binary32 (bias.getD c 0))
    (hK : p.filtH * p.filtW * (p.cin / p.groups) ≤ 2 ^ 23)
    (hr : ∀ c, c < p.cout → |bias.getD c 0| + 4 * ((((p.filtH * p.filtW * (p.cin / p.groups) : Nat) : Rat) + 6)
      * |mult.getD c 0|) ≤ 2 ^ (125 : Int))
    (hy : y0.length = p.batches * p.outH * p.outW * p.cout)
    (ho : o0.length = p.batches * p.outH * p.outW * ((p.cout + 31) / 32))
    (hq : q0.length = p.batches * p.outH * p.outW * ((p.cout + 31) / 32)) :
    ∃ y q filt' o, evalRefFloatFl R p act mult bias inp filt y0 = some y ∧
      bitpackMatrix y (p.batches * p.outH * p.outW) p.cout q0 0 junk = some q ∧
      bitpackConst p.cout p.filtH p.filtW p.cinG
        (mulSigns (p.filtH * p.filtW * p.cinG) w (signsOf mult)) junk = some filt' ∧
      evalRefBits p (bitpackedThresholds R.fl p.filtH p.filtW p.cinG act mult bias) inp filt' o0 = some o ∧
      ∀ b i j c, b < p.batches → i < p.outH → j < p.outW → c < p.cout →
        ∃ wq wo, q[((b * p.outH + i) * p.outW + j) * ((p.cout + 31) / 32) + c / 32]? = some wq ∧
          o[((b * p.outH + i) * p.outW + j) * ((p.cout + 31) / 32) + c / 32]? = some wo ∧
          (wq.getLsbD (c % 32) = wo.getLsbD (c % 32) ∨
            NearZero (p.filtH * p.filtW * (p.cin / p.groups)) (mult.getD c 0) (bias.getD c 0)
              (((act.apply (p.conv 1 inp filt b i j c) : Int) : Rat) * mult.getD c 0 + bias.getD c 0)) := by
  have hz : p.zeroPadding = false := by
    unfold BConv.zeroPadding
    rcases hpad with h | h <;> simp [h]
  have hpv : p.padVal = 1 := by simp [BConv.padVal, hz]
  have hev : p.padding = .same → p.padValue = 0 → p.cin % 2 = 0 := by
    intro h1 h2; rcases hpad with h | h
    · rw [h] at h1; cases h1
    · omega
  obtain ⟨y, hy1, hy2, hy3⟩ := C58_float_error (act := act) h32 h64 hok hev hm hb (by omega) hmr (fun c hc => by
    have := hr c hc
    have h6 := mul_nonneg (by norm_num : (0 : Rat) ≤ 6) (abs_nonneg (mult.getD c 0))
    nlinarith) hy
  obtain ⟨q, hq1, hq2, hq3⟩ := bitpackMatrix_rat (x := y) (rows := p.batches * p.outH * p.outW) (cols := p.cout)
    (out0 := q0) (junk := junk) (by rw [hy2, hy]) hq
  obtain ⟨f1, hf1, _, hfw⟩ := bitpackConst_weight (p := p) (junk := junk) hw
  obtain rfl : f1 = filt := by rw [hf] at hf1; exact (Option.some.inj hf1).symm
  obtain ⟨filt', hf', hpk', hfw'⟩ := bitpackConst_weight (p := p) (junk := junk)
    (w := mulSigns (p.filtH * p.filtW * p.cinG) w (signsOf mult)) (by simp [mulSigns, hw])
  have hok' := hok.setFilter hpk'
  have hthr : (bitpackedThresholds R.fl p.filtH p.filtW p.cinG act mult bias).length = p.cout := by
    simp [bitpackedThresholds, hm, hb]
  obtain ⟨o, ho1, ho2, ho3⟩ := C11_reference_bitpacked hok' hev hthr (by omega) ho
  refine ⟨y, q, filt', o, hy1, hq1, hf', ho1, ?_⟩
  intro b i j c hb' hi hj hc
  obtain ⟨wo, a, e1, e2, e3⟩ := ho3 b i j c hb' hi hj hc
  have hrow : (b * p.outH + i) * p.outW + j < p.batches * p.outH * p.outW := row_lt (row_lt hb' hi) hj
  obtain ⟨wq, v, g1, g2, g3⟩ := hq3 _ c hrow hc
  obtain ⟨v', g4, g5⟩ := hy3 b i j c hb' hi hj hc
  rw [g2] at g4
  obtain rfl := Option.some.inj g4
  refine ⟨wq, wo, g1, e1, ?_⟩
  rw [hpv] at g5
  rw [hpv, conv_scale (s := if 0 ≤ mult.getD c 0 then 1 else -1)
    (fun fy fx cc h1 h2 h3 => weight_mulSigns hm hw hw0 hfw hfw' hc h1 h2 h3)] at e2
  obtain ⟨a0, ha0, hconv, _⟩ := BConv.conv_eq hok hz i j hb' hc
  have hKe : p.K = p.filtH * p.filtW * (p.cin / p.groups) := rfl
  have ha0' : 0 ≤ a ∧ a ≤ (p.K : Int) := by
    rw [← hKe, hconv] at e2
    split at e2 <;> omega
  obtain ⟨n, rfl⟩ := Int.eq_ofNat_of_zero_le ha0'.1
  have ha1 : n ≤ p.filtH * p.filtW * (p.cin / p.groups) := by
    rw [← hKe]; omega
  have hmem : mult[c]? = some (mult.getD c 0) := by
    have : c < mult.length := by omega
    simp [this]
  have hbem : bias[c]? = some (bias.getD c 0) := by
    have : c < bias.length := by omega
    simp [this]
  have hM : (2 : Rat) ^ 127 ≤ maxBinary32 := by unfold maxBinary32; norm_num
  have hrc := hr c hc
  obtain ⟨τ, t1, t2, t3⟩ := C26_float32_thresholds_partial (fl := R.fl) h32 act (c := c) (fh := p.filtH) (fw := p.filtW)
    (cg := p.cinG) hmem hbem (hmr c hc) (hbr c hc) hK (by
      have e : (2 : Rat) ^ (125 : Int) * 4 = 2 ^ 127 := by norm_num
      have h0 := mul_nonneg (by positivity : (0 : Rat) ≤ ((p.filtH * p.filtW * (p.cin / p.groups) : Nat) : Rat) + 6)
        (abs_nonneg (mult.getD c 0))
      have e' : p.filtH * p.filtW * p.cinG = p.filtH * p.filtW * (p.cin / p.groups) := rfl
      rw [e']
      linarith) (x := n) ha1 (v := p.conv 1 inp f1 b i j c) e2.symm
  have hgd : (bitpackedThresholds R.fl p.filtH p.filtW p.cinG act mult bias).getD c 0 = τ := by
    rw [List.getD_eq_getElem?_getD, t1]; rfl
  rw [hgd] at e3
  have e' : p.filtH * p.filtW * p.cinG = p.filtH * p.filtW * (p.cin / p.groups) := rfl
  rw [e'] at t3
  by_cases hbit : wq.getLsbD (c % 32) = wo.getLsbD (c % 32)
  · exact Or.inl hbit
  · right
    rw [Bool.eq_iff_iff, g3, e3] at hbit
    unfold NearZero
    rw [add_assoc]
    exact near_of_differ (by positivity) g5 t2 t3 hbit

/-- **C78, at most one value.** For a filter of fewer than `2^18 - 6` elements and a multiplier of magnitude at least `2^-120`, two
convolution values whose results are both within rounding error of 0 are equal: in each channel the two computations of the sign
differ for at most one value of the activated convolution. -/
theorem C78_one_value {K : Nat} {m b : Rat} (hK : K + 6 < 2 ^ 18) (hm : (2 : Rat) ^ (-120 : Int) ≤ |m|) {v₁ v₂ : Int}
    (hv₁ : |v₁| ≤ K + 6) (h₁ : NearZero K m b ((v₁ : Rat) * m + b)) (h₂ : NearZero K m b ((v₂ : Rat) * m + b)) : v₁ = v₂ := by
  unfold NearZero at h₁ h₂
  have hmp : 0 < |m| := lt_of_lt_of_le (by positivity) hm
  have hKr : ((K : Rat) + 6) ≤ 2 ^ 18 := by exact_mod_cast hK.le
  have hK0 : (0 : Rat) ≤ (K : Rat) := by positivity
  have ht : (2 : Rat) ^ (-147 : Int) ≤ |m| / 2 ^ 27 := by
    rw [le_div_iff₀ (by positivity)]
    refine le_trans (le_of_eq ?_) hm
    norm_num
  have hvR : |(v₁ : Rat)| ≤ (K : Rat) + 6 := by exact_mod_cast hv₁
  have hA : |m| * ((K : Rat) + 6) * (2 : Rat) ^ (-21 : Int) ≤ |m| / 8 := by
    have : |m| * ((K : Rat) + 6) ≤ |m| * 2 ^ 18 := mul_le_mul_of_nonneg_left hKr hmp.le
    have h2 : |m| * ((K : Rat) + 6) * (2 : Rat) ^ (-21 : Int) ≤ |m| * 2 ^ 18 * (2 : Rat) ^ (-21 : Int) :=
      mul_le_mul_of_nonneg_right this (by positivity)
    have e : |m| * 2 ^ 18 * (2 : Rat) ^ (-21 : Int) = |m| / 8 := by norm_num; ring
    linarith
  have hB : (K : Rat) * |m| ≤ 2 ^ 18 * |m| := mul_le_mul_of_nonneg_right (by linarith) hmp.le
  -- the bias is at most about K times the multiplier
  have hb : |b| ≤ 2 ^ 18 * |m| + |(v₁ : Rat) * m + b| := by
    have h1 : |b| ≤ |(v₁ : Rat) * m + b| + |(v₁ : Rat) * m| := by
      have : b = ((v₁ : Rat) * m + b) - (v₁ : Rat) * m := by ring
      calc |b| = |((v₁ : Rat) * m + b) - (v₁ : Rat) * m| := by rw [← this]
        _ ≤ _ := abs_sub _ _
    rw [abs_mul] at h1
    have := mul_le_mul_of_nonneg_right (le_trans hvR hKr) hmp.le
    linarith
  generalize hy₁ : (v₁ : Rat) * m + b = y₁ at *
  generalize hy₂ : (v₂ : Rat) * m + b = y₂ at *
  have hbb : |b| ≤ 2 ^ 19 * |m| := by
    norm_num at h₁ ht ⊢ hb hB
    linarith
  have k1 : |y₁| ≤ |m| * (2 / 5) := by
    norm_num at h₁ ht hbb ⊢ hB
    linarith
  have k2 : |y₂| ≤ |m| * (2 / 5) := by
    norm_num at h₂ ht hbb ⊢ hB
    linarith
  by_contra hne
  have hge : (1 : Rat) ≤ |(v₁ : Rat) - v₂| := by exact_mod_cast Int.one_le_abs (sub_ne_zero.2 hne)
  have hd : |((v₁ : Rat) - v₂) * m| ≤ |y₁| + |y₂| := by
    have : ((v₁ : Rat) - v₂) * m = y₁ - y₂ := by rw [← hy₁, ← hy₂]; ring
    rw [this]
    exact abs_sub _ _
  rw [abs_mul] at hd
  have := mul_le_mul_of_nonneg_right hge hmp.le
  linarith

/-- **C78, for each channel.** With a filter of fewer than `2^18 - 6` elements, each channel (with a multiplier of magnitude at
least `2^-120`) has one value `v` such that all bits of that channel agree, for all inputs, except where the activated convolution
is `v`. -/
theorem C78_fused_sign_channel {R : FlEnv} (h32 : RoundsToNearest R.fl) (h64 : RoundsToNearest64 R.dl)
    {p : BConv} {filt : List Word} {w : List Rat} {act : Act} {mult bias : List Rat} {junk : Word}
    (hpad : p.padding = .valid ∨ p.padValue = 1)
    (hf : bitpackConst p.cout p.filtH p.filtW p.cinG w junk = some filt)
    (hw : w.length = p.cout * p.filtH * p.filtW * p.cinG) (hw0 : ∀ x ∈ w, x ≠ 0)
    (hm : mult.length = p.cout) (hb : bias.length = p.cout)
    (hmr : ∀ c, c < p.cout → Binary32 (mult.getD c 0)) (hbr : ∀ c, c < p.cout → Binary32 (bias.getD c 0))
    (hK : p.filtH * p.filtW * (p.cin / p.groups) + 6 < 2 ^ 18)
    (hr : ∀ c, c < p.cout → |bias.getD c 0| + 4 * ((((p.filtH * p.filtW * (p.cin / p.groups) : Nat) : Rat) + 6)
      * |mult.getD c 0|) ≤ 2 ^ (125 : Int))
    {c : Nat} (hc : c < p.cout) (hmc : (2 : Rat) ^ (-120 : Int) ≤ |mult.getD c 0|) :
    ∃ v : Int, ∀ (inp : List Word) (y0 : List Rat) (o0 q0 : List Word), p.Ok inp filt →
      y0.length = p.batches * p.outH * p.outW * p.cout →
      o0.length = p.batches * p.outH * p.outW * ((p.cout + 31) / 32) →
      q0.length = p.batches * p.outH * p.outW * ((p.cout + 31) / 32) →
      ∃ y q filt' o, evalRefFloatFl R p act mult bias inp filt y0 = some y ∧
        bitpackMatrix y (p.batches * p.outH * p.outW) p.cout q0 0 junk = some q ∧
        bitpackConst p.cout p.filtH p.filtW p.cinG
          (mulSigns (p.filtH * p.filtW * p.cinG) w (signsOf mult)) junk = some filt' ∧
        evalRefBits p (bitpackedThresholds R.fl p.filtH p.filtW p.cinG act mult bias) inp filt' o0 = some o ∧
        ∀ b i j, b < p.batches → i < p.outH → j < p.outW → act.apply (p.conv 1 inp filt b i j c) ≠ v →
          ∃ wq wo, q[((b * p.outH + i) * p.outW + j) * ((p.cout + 31) / 32) + c / 32]? = some wq ∧
            o[((b * p.outH + i) * p.outW + j) * ((p.cout + 31) / 32) + c / 32]? = some wo ∧
            wq.getLsbD (c % 32) = wo.getLsbD (c % 32) := by
  have hz : p.zeroPadding = false := by
    unfold BConv.zeroPadding
    rcases hpad with h | h <;> simp [h]
  -- the value, if there is one
  obtain ⟨v, hv⟩ : ∃ v : Int, ∀ u : Int, |u| ≤ (p.filtH * p.filtW * (p.cin / p.groups) : Nat) + 6 →
      NearZero (p.filtH * p.filtW * (p.cin / p.groups)) (mult.getD c 0) (bias.getD c 0)
        ((u : Rat) * mult.getD c 0 + bias.getD c 0) → u = v := by
    by_cases h : ∃ u : Int, |u| ≤ (p.filtH * p.filtW * (p.cin / p.groups) : Nat) + 6 ∧
      NearZero (p.filtH * p.filtW * (p.cin / p.groups)) (mult.getD c 0) (bias.getD c 0)
        ((u : Rat) * mult.getD c 0 + bias.getD c 0)
    · obtain ⟨v, h1, h2⟩ := h
      exact ⟨v, fun u h3 h4 => C78_one_value hK hmc h3 h4 h2⟩
    · exact ⟨0, fun u h1 h2 => absurd ⟨u, h1, h2⟩ h⟩
  refine ⟨v, fun inp y0 o0 q0 hok hy ho hq => ?_⟩
  obtain ⟨y, q, filt', o, h1, h2, h3, h4, h5⟩ := C78_fused_sign (act := act) (y0 := y0) (o0 := o0) (q0 := q0) (inp := inp) h32 h64
    hok hpad hf hw hw0 hm hb hmr hbr (by omega) hr hy ho hq
  refine ⟨y, q, filt', o, h1, h2, h3, h4, fun b i j hb' hi hj hne => ?_⟩
  obtain ⟨wq, wo, e1, e2, e3⟩ := h5 b i j c hb' hi hj hc
  refine ⟨wq, wo, e1, e2, e3.resolve_right fun hn => hne (hv _ ?_ hn)⟩
  obtain ⟨a0, ha0, hconv, _⟩ := BConv.conv_eq hok hz i j hb' hc
  have hKe : p.filtH * p.filtW * (p.cin / p.groups) = p.K := rfl
  rw [hKe, hconv, abs_le]
  obtain ⟨r1, r2⟩ := apply_range act (a := a0) (K := p.K) ha0
  constructor <;> omega

/-- The convolution of C25's example meets the hypotheses. -/
example : ∃ R : FlEnv, RoundsToNearest R.fl ∧ RoundsToNearest64 R.dl ∧ thrP.Ok thrInp [2#32, 1#32] ∧
    bitpackConst 2 1 1 3 thrW 0#32 = some [2#32, 1#32] ∧ (∀ x ∈ thrW, x ≠ 0) ∧
    (∀ c, c < 2 → Binary32 (([-1, 1 / 2] : List Rat).getD c 0) ∧ Binary32 (([1 / 4, -1] : List Rat).getD c 0) ∧
      (2 : Rat) ^ (-120 : Int) ≤ |([-1, 1 / 2] : List Rat).getD c 0| ∧
      |([1 / 4, -1] : List Rat).getD c 0| + 4 * ((((1 * 1 * (3 / 1) : Nat) : Rat) + 6) * |([-1, 1 / 2] : List Rat).getD c 0|)
        ≤ 2 ^ (125 : Int)) := by
  obtain ⟨R, h1, h2, -⟩ := exists_flEnv true
  refine ⟨R, h1, h2, thrP_ok, by decide +kernel, by decide +kernel, fun c hc => ?_⟩
  have : c = 0 ∨ c = 1 := by omega
  rcases this with rfl | rfl
  · refine ⟨⟨-1, 0, by norm_num, by norm_num, by norm_num, by norm_num⟩, ⟨1, -2, by norm_num, by norm_num, by norm_num, by norm_num⟩,
      by norm_num, by norm_num [abs_of_pos]⟩
  · refine ⟨⟨1, -1, by norm_num, by norm_num, by norm_num, by norm_num⟩, ⟨-1, 0, by norm_num, by norm_num, by norm_num, by norm_num⟩,
      by norm_num [abs_of_pos], by norm_num [abs_of_pos]⟩

end Verif
