import Verif.Proof.OutputTransform
import Verif.Proof.Round
import Verif.Proof.Quantize
import Verif.Spec.Quant

/-!
C06-C11 and C44: the reference BConv2D kernel and the output transform.

Reading guide. `p : BConv` holds the geometry and the tensor shapes; `p.Ok inp filt`
(Spec/Conv.lean) says that the packed input and filter have the sizes the shapes
demand, that unused bits are 0, and that the groups are as `Prepare` establishes.
`p.conv pad inp filt b y x c` (Spec/Conv.lean) is the plain integer convolution of the
±1 values with padding value `pad`. `evalRefFloat ... = some out` says that setup and
evaluation run without undefined behaviour and leave `out` in the output tensor.
-/

namespace Verif

open Finset

theorem saturate_eq (x : Int) : saturate x = clampInt8 x := by
  simp only [saturate, clampInt8]
  split
  · omega
  · split <;> omega

theorem evalRefFloat_eq {p : BConv} {inp filt : List Word} {act : Act} {mult bias out0 : List Rat}
    (hok : p.Ok inp filt) (heven : p.zeroPadding = true → p.cinG % 2 = 0)
    (hm : mult.length = p.cout) (hb : bias.length = p.cout)
    (hK : 2 * (p.filtH * p.filtW * (p.cin / p.groups)) < 2147483648)
    (hout : out0.length = p.batches * p.outH * p.outW * p.cout) :
    ∃ out, evalRefFloat p act mult bias inp filt out0 = some out ∧ out.length = out0.length ∧
      ∀ b y x c, b < p.batches → y < p.outH → x < p.outW → c < p.cout →
        out[((b * p.outH + y) * p.outW + x) * p.cout + c]?
          = some ((act.apply (p.conv p.padVal inp filt b y x c) : Int) * mult.getD c 0
              + bias.getD c 0) := by
  obtain ⟨t, ht, hrun⟩ := runFloat_eq (p := p) (act := act) hm hb hK
  obtain ⟨out, h1, h2, h3⟩ := bconvReference_eq hok.groups_pos hok.cout_div hok.depth hok.inLen
    hok.filtLen (fun b oy ox oc hb hoc => BConv.accRef_le hok heven hb hoc) hrun hout
  refine ⟨out, ?_, by rw [h2, hout], ?_⟩
  · unfold evalRefFloat
    simp only [ht, Option.bind_eq_bind, Option.bind_some]
    exact h1
  · intro b y x c hb hy hx hc
    have := h3 b y x c hb hy hx hc
    unfold offset4 at this
    rw [this, BConv.accRef_eq_conv hok heven hb hc]

theorem runThreshold_eq {thr : List Int} {a c : Nat} (ha : 2 * a < 2147483648) (hc : c < thr.length) :
    runThreshold thr a c = some (decide ((a : Int) > thr.getD c 0)) := by
  have c1 : chk32 (a : Int) = some (a : Int) := chk32_eq (by omega) (by omega)
  have c2 : rd thr c = some (thr.getD c 0) := by simp [rd, hc]
  unfold runThreshold
  simp only [c1, c2, Option.bind_eq_bind, Option.bind_some]

theorem evalRefBits_eq {p : BConv} {inp filt : List Word} {thr : List Int}
    (hok : p.Ok inp filt) (heven : p.zeroPadding = true → p.cinG % 2 = 0)
    (ht : thr.length = p.cout)
    (hK : 2 * (p.filtH * p.filtW * (p.cin / p.groups)) < 2147483648)
    {out0 : List Word} (hout : out0.length = p.batches * p.outH * p.outW * packedSize p.cout) :
    ∃ out, evalRefBits p thr inp filt out0 = some out ∧
      out.length = p.batches * p.outH * p.outW * packedSize p.cout ∧
      ∀ b oy ox k, b < p.batches → oy < p.outH → ox < p.outW → k < packedSize p.cout →
        out[offset4 p.outH p.outW (packedSize p.cout) b oy ox k]?
          = some (wordOf fun i => if 32 * k + i < p.cout then
              decide ((p.accRef inp filt b oy ox (32 * k + i) : Int) > thr.getD (32 * k + i) 0)
              else false) :=
  bconvReferenceBits_eq (f := fun a c => decide ((a : Int) > thr.getD c 0)) hok.groups_pos
    hok.cout_div hok.depth hok.inLen hok.filtLen
    (fun b oy ox oc hb hoc => BConv.accRef_le hok heven hb hoc)
    (fun a c ha hc => runThreshold_eq
      (by have : a ≤ p.filtH * p.filtW * (p.cin / p.groups) := ha
          omega) (by rw [ht]; exact hc)) hout

theorem cinG_even {p : BConv} {inp filt : List Word} (hok : p.Ok inp filt) (h : p.cin % 2 = 0) :
    p.cinG % 2 = 0 := by
  rcases hok.group_words with hg | ⟨_, h2⟩
  · unfold BConv.cinG; rw [hg, Nat.div_one]; exact h
  · omega

/-- **C06.** `n - 2 * popcount(a xor b)` is the dot product of the ±1 vectors. -/
theorem C06_dot_product (n : Nat) (a b : List Word) (ha : IsPacked 1 n a) (hb : IsPacked 1 n b) :
    (n : Int) - 2 * ((List.zipWith xorPopcount a b).sum : Nat)
      = ∑ c ∈ range n, pm a n 0 c * pm b n 0 c := by
  have la : a.length = (n + 31) / 32 := by simpa using ha.len
  have lb : b.length = (n + 31) / 32 := by simpa using hb.len
  have unused : ∀ (w : List Word), IsPacked 1 n w → ∀ k i, k < (n + 31) / 32 → i < 32 →
      n ≤ 32 * k + i → (w.getD k 0#32).getLsbD i = false := by
    intro w hw k i hk hi hn
    have hl : k < w.length := by rw [hw.len]; omega
    have := hw.unused 0 k i w[k] (by omega) hk hi hn (by simp [hl])
    simpa [hl] using this
  have hsum : (List.zipWith xorPopcount a b).sum
      = ∑ k ∈ range ((n + 31) / 32), xorPopcount (a.getD k 0#32) (b.getD k 0#32) := by
    clear unused ha hb
    generalize (n + 31) / 32 = m at la lb
    induction m generalizing a b with
    | zero =>
      have : a = [] := List.length_eq_zero_iff.1 la
      subst this; simp
    | succ m ih =>
      obtain ⟨x, a, rfl⟩ := List.exists_cons_of_length_eq_add_one la
      obtain ⟨y, b, rfl⟩ := List.exists_cons_of_length_eq_add_one lb
      rw [List.zipWith_cons_cons, List.sum_cons, ih a b (by simpa using la) (by simpa using lb),
        sum_range_succ']
      simp [Nat.add_comm]
  rw [hsum, dot_words _ _ (unused a ha) (unused b hb)]
  simp [pm]

/-- Non-vacuity of C06: 33 channels, two words, unused bits zero. -/
example : IsPacked 1 33 [0xDEADBEEF#32, 1#32] ∧ IsPacked 1 33 [5#32, 0#32] := by
  constructor <;>
  · refine ⟨by simp, ?_⟩
    intro r k b v hr hk hb hc hv
    have hr : r = 0 := by omega
    have hk : k = 1 := by omega
    subst hr hk
    simp at hv
    subst hv
    have : ∀ b : Fin 32, 1 ≤ b.val → (1#32).getLsbD b.val = false ∧ (0#32).getLsbD b.val = false := by decide
    first
      | exact (this ⟨b, hb⟩ (by simp; omega)).1
      | exact (this ⟨b, hb⟩ (by simp; omega)).2

/-- **C09.** Setup succeeds without int32 overflow when `2K < 2^31`, and for every
accumulator in `0..K` and every channel the fused float transform succeeds and equals
`activation(K - 2*accum) * multiplier + bias`. -/
theorem C09_output_transform {p : BConv} (act : Act) {mult bias : List Rat}
    (hm : mult.length = p.cout) (hb : bias.length = p.cout)
    (hK : 2 * (p.filtH * p.filtW * (p.cin / p.groups)) < 2147483648) :
    ∃ t, otSetup p act mult bias 1 0 = some t ∧
      ∀ (a c : Nat) (m b : Rat), a ≤ p.filtH * p.filtW * (p.cin / p.groups) → mult[c]? = some m →
        bias[c]? = some b →
        t.runFloat a c = some
          ((act.apply ((p.filtH * p.filtW * (p.cin / p.groups) : Nat) - 2 * (a : Int)) : Int) * m + b) := by
  obtain ⟨t, h1, h2⟩ := runFloat_eq (p := p) (act := act) hm hb hK
  refine ⟨t, h1, fun a c m b ha hmc hbc => ?_⟩
  have hc : c < p.cout := by rw [← hm]; exact (List.getElem?_eq_some_iff.1 hmc).1
  have e1 : mult.getD c 0 = m := by simp [hmc]
  have e2 : bias.getD c 0 = b := by simp [hbc]
  rw [h2 a c ha hc, e1, e2]
  rfl

/-- The bound in C09 is sharp: with `2K = 2^31` the shift of the accumulator `K`
overflows int32. -/
theorem C09_overflow_witness (t : OTParams) (c : Nat) : t.runFloat 1073741824 c = none := by
  unfold OTParams.runFloat OTParams.linear
  have h1 : chk32 ((1073741824 : Nat) : Int) = some 1073741824 := by decide
  have h2 : chk32 ((1073741824 : Int) * 2) = none := by decide
  simp only [h1, Option.bind_eq_bind, Option.bind_some, h2, Option.bind_none]

/-- **C10.** For either rounding mode `rnd`, the int8 transform computes
`y = activation(K - 2*accum) * multiplier + bias`, rounds `y / scale + zero_point` and
saturates to int8, provided the rounded value fits in an int32; otherwise the
float-to-int conversion is undefined behaviour (`none`). So the result never wraps. -/
theorem C10_int8_transform (rnd : Rat → Int) {p : BConv} (act : Act) {mult bias : List Rat}
    {scale zp : Rat} (hs : 0 < scale) (hm : mult.length = p.cout) (hb : bias.length = p.cout)
    (hK : 2 * (p.filtH * p.filtW * (p.cin / p.groups)) < 2147483648) :
    ∃ t, otSetup p act mult bias scale zp = some t ∧
      ∀ (a c : Nat) (m b : Rat), a ≤ p.filtH * p.filtW * (p.cin / p.groups) → mult[c]? = some m →
        bias[c]? = some b → ∀ y : Rat,
        y = (act.apply ((p.filtH * p.filtW * (p.cin / p.groups) : Nat) - 2 * (a : Int)) : Int) * m + b →
        t.runInt8 rnd a c
          = if -2147483648 ≤ rnd (y / scale + zp) ∧ rnd (y / scale + zp) < 2147483648
            then some (clampInt8 (rnd (y / scale + zp))) else none := by
  obtain ⟨t, h1, h2⟩ := linear_eq (p := p) (act := act) (scale := scale) (zp := zp) hm hb hs.ne' hK
  refine ⟨t, h1, fun a c m b ha hmc hbc y hy => ?_⟩
  have hc : c < p.cout := by rw [← hm]; exact (List.getElem?_eq_some_iff.1 hmc).1
  have e1 : mult.getD c 0 = m := by simp [hmc]
  have e2 : bias.getD c 0 = b := by simp [hbc]
  have hlin := h2 a c ha hc
  rw [e1, e2] at hlin
  have hlin' : t.linear a c = some (y / scale + zp) := by rw [hlin, hy]; rfl
  unfold OTParams.runInt8
  rw [hlin']
  simp only [Option.bind_eq_bind, Option.bind_some]
  generalize rnd (y / scale + zp) = r
  by_cases hr : -2147483648 ≤ r ∧ r < 2147483648
  · rw [chk32_eq hr.1 hr.2, if_pos hr, Option.bind_some, saturate_eq]
  · rw [if_neg hr]
    have : chk32 r = none := by unfold chk32; exact if_neg hr
    rw [this, Option.bind_none]

/-- The rounding used on every platform but Thumb is to nearest, ties away from zero. -/
theorem C10_rounding (x : Rat) :
    |x - (roundHalfAway x : Rat)| ≤ 1 / 2 ∧
      (|x - (roundHalfAway x : Rat)| = 1 / 2 → |x| ≤ |(roundHalfAway x : Rat)|) := by
  have h := roundHalfAway_near x
  refine ⟨abs_le.2 ⟨by linarith, by linarith⟩, ?_⟩
  intro htie
  rcases le_or_gt 0 x with hx | hx
  · have hn : (0 : Rat) ≤ roundHalfAway x := by exact_mod_cast roundHalfAway_nonneg_of hx
    rw [abs_of_nonneg hx, abs_of_nonneg hn]
    rw [roundHalfAway_nonneg hx] at htie ⊢
    have h1 := Int.lt_floor_add_one (x + 1 / 2)
    rcases abs_cases (x - ((⌊x + 1 / 2⌋ : Int) : Rat)) with ⟨e, _⟩ | ⟨e, _⟩
    · rw [e] at htie; linarith
    · rw [e] at htie; linarith
  · have hneg := roundHalfAway_neg_eq (-x)
    rw [neg_neg] at hneg
    have hx' : 0 ≤ -x := by linarith
    have hn : (0 : Rat) ≤ roundHalfAway (-x) := by exact_mod_cast roundHalfAway_nonneg_of hx'
    rw [hneg] at htie ⊢
    push_cast at htie ⊢
    rw [abs_of_neg hx, abs_neg, abs_of_nonneg hn]
    rw [roundHalfAway_nonneg hx'] at htie ⊢
    have h1 := Int.lt_floor_add_one (-x + 1 / 2)
    rcases abs_cases (x - -((⌊-x + 1 / 2⌋ : Int) : Rat)) with ⟨e, _⟩ | ⟨e, _⟩
    · rw [e] at htie; linarith
    · rw [e] at htie; linarith

/-- **C07.** With VALID padding, or SAME padding with `pad_values = 1`, the reference
kernel's float output is `activation(conv) * multiplier[c] + bias[c]` where `conv` is the
±1 convolution padded with `+1`. -/
theorem C07_reference_float {p : BConv} {inp filt : List Word} {act : Act} {mult bias out0 : List Rat}
    (hok : p.Ok inp filt) (hpad : p.padding = .valid ∨ p.padValue = 1)
    (hm : mult.length = p.cout) (hb : bias.length = p.cout)
    (hK : 2 * (p.filtH * p.filtW * (p.cin / p.groups)) < 2147483648)
    (hout : out0.length = p.batches * p.outH * p.outW * p.cout) :
    ∃ out, evalRefFloat p act mult bias inp filt out0 = some out ∧ out.length = out0.length ∧
      ∀ b y x c, b < p.batches → y < p.outH → x < p.outW → c < p.cout →
        out[((b * p.outH + y) * p.outW + x) * p.cout + c]?
          = some ((act.apply (p.conv 1 inp filt b y x c) : Int) * mult.getD c 0 + bias.getD c 0) := by
  have hz : p.zeroPadding = false := by
    unfold BConv.zeroPadding
    rcases hpad with h | h <;> simp [h]
  have := evalRefFloat_eq (act := act) hok (by simp [hz]) hm hb hK hout
  simpa [BConv.padVal, hz] using this

/-- **C08.** With SAME padding, `pad_values = 0` and an even number of input channels
(per group), the reference kernel computes the convolution padded with zeros. -/
theorem C08_reference_zero_padding {p : BConv} {inp filt : List Word} {act : Act}
    {mult bias out0 : List Rat} (hok : p.Ok inp filt) (hpad : p.padding = .same)
    (hpv : p.padValue = 0) (heven : p.cin % 2 = 0)
    (hm : mult.length = p.cout) (hb : bias.length = p.cout)
    (hK : 2 * (p.filtH * p.filtW * (p.cin / p.groups)) < 2147483648)
    (hout : out0.length = p.batches * p.outH * p.outW * p.cout) :
    ∃ out, evalRefFloat p act mult bias inp filt out0 = some out ∧ out.length = out0.length ∧
      ∀ b y x c, b < p.batches → y < p.outH → x < p.outW → c < p.cout →
        out[((b * p.outH + y) * p.outW + x) * p.cout + c]?
          = some ((act.apply (p.conv 0 inp filt b y x c) : Int) * mult.getD c 0 + bias.getD c 0) := by
  have hz : p.zeroPadding = true := by simp [BConv.zeroPadding, hpad, hpv]
  have := evalRefFloat_eq (act := act) hok (fun _ => cinG_even hok heven) hm hb hK hout
  simpa [BConv.padVal, hz] using this

/-- The evenness condition of C08 is needed: with one input channel and a 3x3 filter on a
1x1 image the eight pixels outside the image contribute `1 / 2 = 0` each to the accumulator
instead of one half, and the result is 9 instead of 1. -/
theorem C08_odd_channels_witness :
    let p : BConv := ⟨1, 1, 1, 1, 1, 3, 3, 1, 1, 1, 1, 1, 1, 1, .same, 1, 1, 0, 1, 1⟩
    evalRefFloat p .none [1] [0] [0#32] (List.replicate 9 0#32) [0] = some [9] ∧
      p.conv 0 [0#32] (List.replicate 9 0#32) 0 0 0 0 = 1 := by
  decide +kernel

/-- **C11.** Bit `c % 32` of output word `(b, y, x, c / 32)` is 1 exactly when
`K - 2 * threshold[c] > conv`, i.e. when the xor-popcount accumulator `(K - conv) / 2`
exceeds the threshold; the unused bits are 0, and every output word is determined by the
input (whatever the buffer held before). -/
theorem C11_reference_bitpacked {p : BConv} {inp filt : List Word} {thr : List Int}
    (hok : p.Ok inp filt) (heven : p.padding = .same → p.padValue = 0 → p.cin % 2 = 0)
    (ht : thr.length = p.cout)
    (hK : 2 * (p.filtH * p.filtW * (p.cin / p.groups)) < 2147483648)
    {out0 : List Word} (hout : out0.length = p.batches * p.outH * p.outW * ((p.cout + 31) / 32)) :
    ∃ out, evalRefBits p thr inp filt out0 = some out ∧
      IsPacked (p.batches * p.outH * p.outW) p.cout out ∧
      ∀ b y x c, b < p.batches → y < p.outH → x < p.outW → c < p.cout →
        ∃ w a, out[((b * p.outH + y) * p.outW + x) * ((p.cout + 31) / 32) + c / 32]? = some w ∧
          (p.filtH * p.filtW * (p.cin / p.groups) : Nat) - 2 * a
            = p.conv p.padVal inp filt b y x c ∧
          (w.getLsbD (c % 32) = true ↔ a > thr.getD c 0) := by
  have he : p.zeroPadding = true → p.cinG % 2 = 0 := by
    intro hz
    simp only [BConv.zeroPadding, Bool.and_eq_true, decide_eq_true_eq] at hz
    exact cinG_even hok (heven hz.1 hz.2)
  have hps : packedSize p.cout = (p.cout + 31) / 32 := packedSize_eq _
  obtain ⟨out, h1, h2, h3⟩ := evalRefBits_eq (out0 := out0) hok he ht hK (by rw [hps]; exact hout)
  rw [hps] at h2 h3
  refine ⟨out, h1, ⟨h2, ?_⟩, ?_⟩
  · intro r k b v hr hk hb hc hv
    obtain ⟨e1, e2⟩ := mod_lt_of_lt_mul hr
    obtain ⟨e3, e4⟩ := mod_lt_of_lt_mul e1
    have := h3 _ _ _ k e3 e4 e2 hk
    unfold offset4 at this
    rw [div_mul_add_mod, div_mul_add_mod, hv] at this
    rw [Option.some.inj this, wordOf_getLsbD, if_neg (by omega)]
    simp
  · intro b y x c hb hy hx hc
    refine ⟨_, _, h3 b y x (c / 32) hb hy hx (by omega), BConv.accRef_eq_conv hok he hb hc, ?_⟩
    have e : 32 * (c / 32) + c % 32 = c := by omega
    rw [wordOf_getLsbD, e, if_pos hc]
    have : c % 32 < 32 := by omega
    simp [this]

/-- Non-vacuity of C07, C08, C11: a grouped, strided, dilated configuration with 64 input
channels in two groups, and one with 3 channels (unused bits). -/
example :
    let p : BConv := ⟨1, 4, 5, 2, 64, 2, 3, 1, 6, 2, 2, 1, 1, 2, .same, 0, 1, 0, 2, 5⟩
    p.Ok (List.replicate 40 0xDEADBEEF#32) (List.replicate 36 0x12345678#32) := by
  refine ⟨by decide, by decide, by decide, by decide, by decide, by decide, by decide, by decide, ?_, ?_⟩
  · intro r k b hr hk hb hc; simp at hk hc; omega
  · intro r k b hr hk hb hc; simp [BConv.cinG] at hk hc; omega

/-! ### C44: integer helpers -/

/-- **C44.** `saturate` is the clamp to the int8 range. -/
theorem C44_saturate (x : Int) : saturate x = clampInt8 x ∧ -128 ≤ saturate x ∧ saturate x ≤ 127 := by
  refine ⟨saturate_eq x, ?_, ?_⟩ <;> simp only [saturate] <;> omega

/-- **C44.** `shift_saturate<s>` is floor division by `2^s` followed by the clamp. -/
theorem C44_shift_saturate (s : Nat) (x : Int) : shiftSaturate s x = clampInt8 (⌊(x : Rat) / 2 ^ s⌋) := by
  have h : ⌊(x : Rat) / 2 ^ s⌋ = x >>> s := by
    have e : ((2 : Rat) ^ s) = ((2 ^ s : Nat) : Rat) := by push_cast; rfl
    rw [Int.shiftRight_eq_div_pow, e, Rat.floor_intCast_div_natCast]
  rw [h]
  exact saturate_eq _

/-- **C44.** The single unsigned comparison is the two-sided bounds check, for every int32
index and every non-negative int32 limit. -/
theorem C44_fast_bounds_check (i n : BitVec 32) (hn : 0 ≤ n.toInt) :
    fastBoundsCheck i n = true ↔ 0 ≤ i.toInt ∧ i.toInt < n.toInt := by
  unfold fastBoundsCheck
  simp only [decide_eq_true_eq]
  have h1 := i.isLt
  have h2 := n.isLt
  rw [BitVec.toInt_eq_toNat_cond] at hn ⊢
  rw [BitVec.toInt_eq_toNat_cond]
  split at hn <;> rename_i hc <;> split <;> rename_i hd <;> constructor <;> intro h <;> omega

/-- **C44.** `CeilDiv a b` is the least `q` with `a ≤ q * b`, and `Ceil a b` the least
multiple of `b` that is at least `a`. -/
theorem C44_ceil (a b : Nat) (hb : 0 < b) :
    (∀ q, ceilDiv a b ≤ q ↔ a ≤ q * b) ∧ a ≤ ceilMul a b ∧ b ∣ ceilMul a b ∧
      ∀ m, b ∣ m → a ≤ m → ceilMul a b ≤ m := by
  have key : ∀ q, ceilDiv a b ≤ q ↔ a ≤ q * b := by
    intro q
    unfold ceilDiv
    rw [← Nat.lt_succ_iff, Nat.div_lt_iff_lt_mul hb, Nat.succ_mul]
    omega
  refine ⟨key, (key _).1 (Nat.le_refl _), ⟨_, Nat.mul_comm _ _⟩, ?_⟩
  rintro m ⟨q, rfl⟩ hm
  unfold ceilMul
  rw [Nat.mul_comm b q] at hm ⊢
  exact Nat.mul_le_mul_right _ ((key q).2 hm)

end Verif
