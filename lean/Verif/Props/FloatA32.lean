import Verif.Proof.Ftz
import Verif.Props.FloatA64
import Verif.Props.GemmA32

/-!
C77: accuracy of the 32-bit Arm BGEMM kernel. C56 and C57 compare the assembly with the reference kernel on bit patterns, for any
float instructions; here the instructions are those of 32-bit Arm Advanced SIMD (`FOps.Ftz`: round to nearest, subnormals flushed to
zero), the parameters are those the setup stores (`StoredSetup`), and the result is compared with real arithmetic.
-/

namespace Verif

section
variable {p : BConv} {inp filt : List Word} {act : Act} {R : FlEnv} {mult bias : List Rat} {scale zp : Rat} {E : GemmEnv}

/-- The float output `out` (bit patterns) of the convolution is accurate, up to flushed subnormals. -/
def AccurateFloatFtz (p : BConv) (act : Act) (mult bias : List Rat) (inp filt out : List Word) : Prop :=
  ∀ b y x c, b < p.batches → y < p.outH → x < p.outW → c < p.cout →
    ∃ w : F32, out[((b * p.outH + y) * p.outW + x) * p.cout + c]? = some w ∧ F32.Finite w ∧
      |F32.val w - ((act.apply (p.conv p.padVal inp filt b y x c) : Int) * mult.getD c 0 + bias.getD c 0)|
        ≤ (|bias.getD c 0| + ((p.filtH * p.filtW * (p.cin / p.groups) : Nat) : Rat) * |mult.getD c 0|) * (5 / 2 ^ 24)
          + (((p.filtH * p.filtW * (p.cin / p.groups) : Nat) : Rat) + 2) * 2 ^ (-124 : Int)

/-- The int8 output `out` is accurate: within 1 of the exact value rounded to nearest, ties away from zero, and saturated, and equal
to it unless the exact value is close to a half-integer. -/
def AccurateInt8Fix8 (p : BConv) (act : Act) (mult bias : List Rat) (scale zp : Rat) (inp filt : List Word)
    (out : List (BitVec 8)) : Prop :=
  ∀ b y x c, b < p.batches → y < p.outH → x < p.outW → c < p.cout →
    ∃ v : BitVec 8, out[((b * p.outH + y) * p.outW + x) * p.cout + c]? = some v ∧
      ∀ z : Rat, z = ((act.apply (p.conv p.padVal inp filt b y x c) : Int) * mult.getD c 0 + bias.getD c 0) / scale + zp →
        |v.toInt - clampInt8 (roundHalfAway z)| ≤ 1 ∧
        (v.toInt ≠ clampInt8 (roundHalfAway z) → ∃ n : Int, |z - ((n : Rat) + 1 / 2)| ≤
          ((|bias.getD c 0| + ((p.filtH * p.filtW * (p.cin / p.groups) : Nat) : Rat) * |mult.getD c 0|) / scale + |zp|)
            * (7 / 2 ^ 24) + 2 ^ (-100 : Int) + 1 / 256)

/-- Bit-level reference, float output. -/
theorem ftz_reference_float {F : FOps} {cmin cmax : Int} {mw bw : List Word} (h32 : RoundsToNearest R.fl)
    (h64 : RoundsToNearest64 R.dl) (hF : F.Ftz R.fl) (hok : p.Ok inp filt) (hpad : p.padding = .valid ∨ p.padValue = 1)
    (hm : mult.length = p.cout) (hb : bias.length = p.cout)
    (hK : 2 * (p.filtH * p.filtW * (p.cin / p.groups)) ≤ 2 ^ 24)
    (hmul : ∀ c, c < p.cout → Binary32 (mult.getD c 0))
    (hr : ∀ c, c < p.cout → |bias.getD c 0| + 4 * (((p.filtH * p.filtW * (p.cin / p.groups) : Nat) : Rat) * |mult.getD c 0|)
      ≤ 2 ^ (125 : Int))
    (hst : StoredSetup R p act mult bias 1 0 cmin cmax mw bw)
    {out1 : List Word} (ho1 : out1.length = p.batches * p.outH * p.outW * p.cout) :
    ∃ out, bconvReference p inp filt (runFloatBits F cmin cmax mw bw) out1 = some out ∧
      AccurateFloatFtz p act mult bias inp filt out := by
  have hKK : p.filtH * p.filtW * (p.cin / p.groups) = p.K := rfl
  rw [hKK] at hK
  have err := fun a c (ha : a ≤ p.K) (hc : c < p.cout) =>
    float_output_ftz h32 h64 hK (apply_range act ha).1 (apply_range act ha).2 (hmul c hc) (hr c hc)
  have hrun := runFloatBits_ftz h32 hF hm hb hK hst (fun a c ha hc x hx => by rw [hx]; exact (err a c ha hc).2)
  obtain ⟨out, e1, e2, e3⟩ := reference_rel (act := act)
    (Rel := fun c z w => F32.Finite w ∧ |F32.val w - ((z : Int) * mult.getD c 0 + bias.getD c 0)|
      ≤ (|bias.getD c 0| + (p.K : Rat) * |mult.getD c 0|) * (5 / 16777216) + ((p.K : Rat) + 2) * (4 * minNormal)) hok
    (zeroPad_vacuous hpad)
    (run := runFloatBits F cmin cmax mw bw) (f := fun a c => (runFloatBits F cmin cmax mw bw a c).getD 0#32)
    (fun a c ha hc => by
      obtain ⟨w, w1, -, -⟩ := hrun a c ha hc
      rw [w1]; rfl)
    (fun a c ha hc => by
      obtain ⟨w, w1, w2, w3⟩ := hrun a c ha hc
      have := (err a c ha hc).1
      rw [w1, Option.getD_some]
      refine ⟨w2, ?_⟩
      rw [w3]
      rw [sub_sub_cancel] at this
      exact this) ho1
  refine ⟨out, e1, ?_⟩
  intro b y x c hb hy hx hc
  obtain ⟨w, w1, w2, w3⟩ := e3 b y x c hb hy hx hc
  refine ⟨w, w1, w2, ?_⟩
  have e : 4 * minNormal = (2 : Rat) ^ (-124 : Int) := by
    unfold minNormal
    have : (4 : Rat) = 2 ^ (2 : Int) := by norm_num
    rw [this, ← zpow_add₀ (by norm_num)]
    rfl
  have e3 : (5 / 16777216 : Rat) = 5 / 2 ^ 24 := by norm_num
  rw [e, e3] at w3
  exact w3

/-- The rounding of the kernel is that of the reference on a number at most 1/256 away. -/
theorem fix8Round_near (y : Rat) : ∃ y', |y' - y| ≤ 1 / 256 ∧ fix8Round y = clampInt8 (roundHalfAway y') := by
  rw [C57_fix8Round_eq]
  by_cases h : ∃ n : Nat, n < 128 ∧ -((n : Rat) + 1 / 2) - 1 / 256 < y ∧ y ≤ -((n : Rat) + 1 / 2)
  · rw [if_pos h]
    obtain ⟨n, n1, n2, n3⟩ := h
    have n0 : (0 : Rat) ≤ n := Nat.cast_nonneg n
    refine ⟨y + 1 / 256, by rw [show y + 1 / 256 - y = 1 / 256 by ring]; norm_num, ?_⟩
    rw [roundHalfAway_neg (show y < 0 by linarith), roundHalfAway_neg (show y + 1 / 256 < 0 by linarith)]
    have f1 : ⌊-y + 1 / 2⌋ = (n : Int) + 1 := by
      rw [Int.floor_eq_iff]; push_cast; constructor <;> linarith
    have f2 : ⌊-(y + 1 / 256) + 1 / 2⌋ = (n : Int) := by
      rw [Int.floor_eq_iff]; push_cast; constructor <;> linarith
    rw [f1, f2]
    clear f1 f2
    unfold saturate clampInt8
    simp only
    split <;> (try split) <;> omega
  · rw [if_neg h, add_zero]
    exact ⟨y, by rw [sub_self, abs_zero]; norm_num, saturate_eq _⟩

/-- Bit-level reference, int8 output. -/
theorem ftz_reference_int8 {F : FOps} {cmin cmax : Int} {mw bw : List Word} (h32 : RoundsToNearest R.fl)
    (h64 : RoundsToNearest64 R.dl) (hF : F.Ftz R.fl) (hF8 : F.Fix8) (hok : p.Ok inp filt)
    (hpad : p.padding = .valid ∨ p.padValue = 1)
    (hm : mult.length = p.cout) (hb : bias.length = p.cout) (hs : (2 : Rat) ^ (-40 : Int) ≤ scale) (hs2 : scale ≤ 2 ^ (40 : Int))
    (hK : 2 * (p.filtH * p.filtW * (p.cin / p.groups)) ≤ 2 ^ 24) (hK0 : 0 < p.filtH * p.filtW * (p.cin / p.groups))
    (hmul : ∀ c, c < p.cout → Binary32 (mult.getD c 0))
    (hT : ∀ c, c < p.cout → (|bias.getD c 0| + ((p.filtH * p.filtW * (p.cin / p.groups) : Nat) : Rat) * |mult.getD c 0|) / scale
      + |zp| ≤ 2 ^ 20)
    (hst : StoredSetup R p act mult bias scale zp cmin cmax mw bw)
    {out1 : List (BitVec 8)} (ho1 : out1.length = p.batches * p.outH * p.outW * p.cout) :
    ∃ out, bconvReference p inp filt (runInt8Fix8Bits F cmin cmax mw bw) out1 = some out ∧
      AccurateInt8Fix8 p act mult bias scale zp inp filt out := by
  have hKK : p.filtH * p.filtW * (p.cin / p.groups) = p.K := rfl
  rw [hKK] at hK hK0 hT
  have hs0 : 0 < scale := lt_of_lt_of_le (by positivity) hs
  have hbig : (2 : Rat) ^ 20 ≤ bigF / 4 := by unfold bigF; norm_num
  have hk1 : (1 : Rat) ≤ p.K := by exact_mod_cast hK0
  have err := fun a c (ha : a ≤ p.K) (hc : c < p.cout) => by
    have T := hT c hc
    have m0 := abs_nonneg (mult.getD c 0)
    have b0 := abs_nonneg (bias.getD c 0)
    have z0 := abs_nonneg zp
    have S1 : |bias.getD c 0| + (p.K : Rat) * |mult.getD c 0| ≤ bigF := by
      have : (|bias.getD c 0| + (p.K : Rat) * |mult.getD c 0|) / scale ≤ 2 ^ 20 := by linarith
      rw [div_le_iff₀ hs0] at this
      refine le_trans this ?_
      have h2 : (2 : Rat) ^ 20 * scale ≤ 2 ^ 20 * 2 ^ (40 : Int) := mul_le_mul_of_nonneg_left hs2 (by positivity)
      refine le_trans h2 ?_
      unfold bigF
      norm_num
    have hσ : |mult.getD c 0| / scale ≤ (|bias.getD c 0| + (p.K : Rat) * |mult.getD c 0|) / scale := by
      refine div_le_div_of_nonneg_right ?_ hs0.le
      nlinarith
    exact int8_output_ftz h32 h64 hK (apply_range act ha).1 (apply_range act ha).2 (hmul c hc) hs S1 (by linarith [bigF_ge])
      (le_trans T hbig)
  have eη : 67108864 * minNormal = (2 : Rat) ^ (-100 : Int) := by
    unfold minNormal
    have : (67108864 : Rat) = 2 ^ (26 : Int) := by norm_num
    rw [this, ← zpow_add₀ (by norm_num)]
    rfl
  have e24 : (7 / 16777216 : Rat) = 7 / 2 ^ 24 := by norm_num
  have hη : (2 : Rat) ^ (-100 : Int) ≤ 1 / 16 := by
    have : (2 : Rat) ^ (-100 : Int) ≤ 2 ^ (-4 : Int) := zpow_le_zpow_right₀ (by norm_num) (by norm_num)
    refine le_trans this ?_
    norm_num
  have hε : ∀ c, c < p.cout → ((|bias.getD c 0| + (p.K : Rat) * |mult.getD c 0|) / scale + |zp|) * (7 / 2 ^ 24)
      + 2 ^ (-100 : Int) + 1 / 256 < 1 := by
    intro c hc
    have h1 : ((|bias.getD c 0| + (p.K : Rat) * |mult.getD c 0|) / scale + |zp|) * (7 / 2 ^ 24) ≤ 2 ^ 20 * (7 / 2 ^ 24) :=
      mul_le_mul_of_nonneg_right (hT c hc) (by norm_num)
    have h2 : (2 : Rat) ^ 20 * (7 / 2 ^ 24) = 7 / 16 := by norm_num
    linarith
  have hrun := runFloatBits_ftz h32 hF hm hb hK hst (fun a c ha hc x hx => by rw [hx]; exact (err a c ha hc).2)
  obtain ⟨out, e1, e2, e3⟩ := reference_rel (act := act)
    (Rel := fun c w (v : BitVec 8) =>
      |v.toInt - clampInt8 (roundHalfAway (((w : Int) * mult.getD c 0 + bias.getD c 0) / scale + zp))| ≤ 1 ∧
            (v.toInt ≠ clampInt8 (roundHalfAway (((w : Int) * mult.getD c 0 + bias.getD c 0) / scale + zp)) →
              ∃ n : Int, |((w : Int) * mult.getD c 0 + bias.getD c 0) / scale + zp - ((n : Rat) + 1 / 2)| ≤
              ((|bias.getD c 0| + (p.K : Rat) * |mult.getD c 0|) / scale + |zp|) * (7 / 2 ^ 24) + 2 ^ (-100 : Int) + 1 / 256))
    hok (zeroPad_vacuous hpad)
    (run := runInt8Fix8Bits F cmin cmax mw bw) (f := fun a c => (runInt8Fix8Bits F cmin cmax mw bw a c).getD 0#8)
    (fun a c ha hc => by
      obtain ⟨w, w1, -, -⟩ := hrun a c ha hc
      unfold runInt8Fix8Bits
      rw [w1]; rfl)
    (fun a c ha hc => by
      obtain ⟨w, w1, w2, w3⟩ := hrun a c ha hc
      have k1 := (err a c ha hc).1
      rw [← w3, sub_sub_cancel, eη, e24] at k1
      obtain ⟨y', y1, y2⟩ := fix8Round_near (F32.val w)
      have k2 := abs_trans3 y1 k1
      have hv : ((runInt8Fix8Bits F cmin cmax mw bw a c).getD 0#8).toInt = clampInt8 (roundHalfAway y') := by
        rw [← y2]
        unfold runInt8Fix8Bits fix8Round
        rw [w1]
        simp only [Option.bind_eq_bind, Option.bind_some, Option.getD_some]
        rw [hF8 w w2]
        generalize (fix8 (F32.val w) + 128) / 256 = z
        rw [BitVec.toInt_ofInt]
        unfold Int.bmod
        simp only [Nat.reducePow, Int.cast_ofNat_Int]
        split <;> omega
      rw [hv]
      have haway : ∀ y : Rat, |(roundHalfAway y : Rat) - y| ≤ 1 / 2 := fun y => by
        obtain ⟨b1, b2⟩ := roundHalfAway_near y
        rw [abs_le]; constructor <;> linarith
      refine round_pair haway haway (le_trans k2 (le_of_eq ?_)) (hε c hc)
      ring) ho1
  refine ⟨out, e1, ?_⟩
  intro b y x c hb hy hx hc
  obtain ⟨v, v1, v2⟩ := e3 b y x c hb hy hx hc
  refine ⟨v, v1, ?_⟩
  rintro z rfl
  exact v2

/-- **C77.** Float output of the 32-bit Arm 4x4 BGEMM kernel, for every depth, block schedule and order of the writes. -/
theorem C77_a32_bgemm_float (h32 : RoundsToNearest R.fl) (h64 : RoundsToNearest64 R.dl)
    (hF : E.F.Ftz R.fl) (hok : p.Ok inp filt) (hpad : p.padding = .valid ∨ p.padValue = 1)
    (hm : mult.length = p.cout) (hb : bias.length = p.cout)
    (hmul : ∀ c, c < p.cout → Binary32 (mult.getD c 0))
    (hr : ∀ c, c < p.cout → |bias.getD c 0| + 4 * (((p.filtH * p.filtW * (p.cin / p.groups) : Nat) : Rat) * |mult.getD c 0|)
      ≤ 2 ^ (125 : Int))
    (hst : StoredSetup R p act mult bias 1 0 E.cmin E.cmax E.mult E.bias)
    (hfh : 0 < p.filtH) (hfw : 0 < p.filtW) (hci : 0 < p.cin) (hg : p.groups = 1) (hgeo : p.Geom)
    (hK : 2 * (p.filtH * p.filtW * p.cin) ≤ 2 ^ 24)
    (hls : ceilMul (p.filtDepth * p.filtH * p.filtW) 4 ≤ E.ls) (hrs : ceilMul (p.filtDepth * p.filtH * p.filtW) 4 ≤ E.rs)
    (hmw : ceilMul p.cout 4 ≤ E.mult.length) (hbw : ceilMul p.cout 4 ≤ E.bias.length)
    {tmp : List Word} (htmp : tmp.length = 16)
    (fat : Bool) {blocks : List Blk} (hsch : Schedule p.cout (p.batches * p.outH * p.outW) 4 4 blocks)
    (hne : ∀ b ∈ blocks, b.r0 < b.r1 ∧ b.c0 < b.c1)
    {out0 : List Word} (ho0 : out0.length = p.batches * p.outH * p.outW * p.cout) :
    ∃ trs, bgemmA32Traces (aKernF tmp) E p fat blocks inp filt = some trs ∧
      ∀ L, L.Perm trs.flatten → ∃ out, applyWrites L out0 = some out ∧ AccurateFloatFtz p act mult bias inp filt out := by
  have hKK : p.filtH * p.filtW * (p.cin / p.groups) = p.filtH * p.filtW * p.cin := by rw [hg, Nat.div_one]
  have hKK2 : p.filtH * p.filtW * (p.cin / p.groups) = p.K := rfl
  obtain ⟨c1, c2, c3⟩ := storedSetup_clamp hm hb (by omega) hst
  obtain ⟨trs, out, e1, e2, e3⟩ := C56_a32_bgemm_float hok hg hgeo hpad hfh hfw hci (by omega) c1 c2 c3 hls hrs hmw hbw
    htmp fat hsch hne ho0 ho0
  obtain ⟨out', f1, f2⟩ := ftz_reference_float h32 h64 hF hok hpad hm hb (by omega) hmul hr hst ho0
  rw [e2] at f1; cases f1
  exact ⟨trs, e1, fun L hL => ⟨out, e3 L hL, f2⟩⟩

/-- **C77.** int8 output of the 32-bit Arm 4x4 BGEMM kernel. -/
theorem C77_a32_bgemm_int8 (h32 : RoundsToNearest R.fl) (h64 : RoundsToNearest64 R.dl)
    (hF : E.F.Ftz R.fl) (hF8 : E.F.Fix8) (hok : p.Ok inp filt) (hpad : p.padding = .valid ∨ p.padValue = 1)
    (hm : mult.length = p.cout) (hb : bias.length = p.cout) (hs : (2 : Rat) ^ (-40 : Int) ≤ scale) (hs2 : scale ≤ 2 ^ (40 : Int))
    (hmul : ∀ c, c < p.cout → Binary32 (mult.getD c 0))
    (hT : ∀ c, c < p.cout → (|bias.getD c 0| + ((p.filtH * p.filtW * (p.cin / p.groups) : Nat) : Rat) * |mult.getD c 0|) / scale
      + |zp| ≤ 2 ^ 20)
    (hst : StoredSetup R p act mult bias scale zp E.cmin E.cmax E.mult E.bias)
    (hfh : 0 < p.filtH) (hfw : 0 < p.filtW) (hci : 0 < p.cin) (hg : p.groups = 1) (hgeo : p.Geom)
    (hK : 2 * (p.filtH * p.filtW * p.cin) ≤ 2 ^ 24)
    (hls : ceilMul (p.filtDepth * p.filtH * p.filtW) 4 ≤ E.ls) (hrs : ceilMul (p.filtDepth * p.filtH * p.filtW) 4 ≤ E.rs)
    (hmw : ceilMul p.cout 4 ≤ E.mult.length) (hbw : ceilMul p.cout 4 ≤ E.bias.length)
    {tmp : List (BitVec 8)} (htmp : tmp.length = 16)
    (fat : Bool) {blocks : List Blk} (hsch : Schedule p.cout (p.batches * p.outH * p.outW) 4 4 blocks)
    (hne : ∀ b ∈ blocks, b.r0 < b.r1 ∧ b.c0 < b.c1)
    {out0 : List (BitVec 8)} (ho0 : out0.length = p.batches * p.outH * p.outW * p.cout) :
    ∃ trs, bgemmA32Traces (aKernI tmp) E p fat blocks inp filt = some trs ∧
      ∀ L, L.Perm trs.flatten → ∃ out, applyWrites L out0 = some out ∧ AccurateInt8Fix8 p act mult bias scale zp inp filt out := by
  have hKK : p.filtH * p.filtW * (p.cin / p.groups) = p.filtH * p.filtW * p.cin := by rw [hg, Nat.div_one]
  have hKK2 : p.filtH * p.filtW * (p.cin / p.groups) = p.K := rfl
  have hK0 : 0 < p.filtH * p.filtW * (p.cin / p.groups) := by
    rw [hKK]
    exact Nat.mul_pos (Nat.mul_pos hfh hfw) hci
  obtain ⟨c1, c2, c3⟩ := storedSetup_clamp hm hb (by omega) hst
  obtain ⟨trs, out, e1, e2, e3⟩ := C57_a32_bgemm_int8 hok hg hgeo hpad hfh hfw hci (by omega) c1 c2 c3 hls hrs hmw hbw
    htmp fat hsch hne ho0 ho0
  obtain ⟨out', f1, f2⟩ := ftz_reference_int8 h32 h64 hF hF8 hok hpad hm hb hs hs2 (by omega) hK0 hmul hT hst ho0
  rw [e2] at f1; cases f1
  exact ⟨trs, e1, fun L hL => ⟨out, e3 L hL, f2⟩⟩

end

/-- **C77**, flushing is real: instructions as above return 0 for the sum of `3/4 * 2^-126` with itself, whose exact value is
above the smallest normal number. -/
theorem C77_flush_witness {F : FOps} {fl : Rat → Rat} (hF : F.Ftz fl) (a : F32) (ha : a.Finite)
    (hv : a.val = 3 / 4 * 2 ^ (-126 : Int)) :
    F32.val (F.fadd a a) = 0 ∧ 2 ^ (-126 : Int) < a.val + a.val := by
  have p0 : (0 : Rat) < 2 ^ (-126 : Int) := by positivity
  have e : flushIn a.val = 0 := by
    unfold flushIn
    rw [if_pos]
    rw [hv, abs_of_pos (by positivity)]
    unfold minNormal
    linarith
  obtain ⟨-, h⟩ := hF.fadd a a ha ha (by rw [e]; simp [maxBinary32])
  refine ⟨?_, by rw [hv]; linarith⟩
  rw [h, e]
  unfold flushOut
  rw [if_pos (by simp; exact minNormal_pos)]

/-! ### Hypotheses are met -/

/-- Instructions meeting both specifications exist, for every rounding to nearest. -/
example : ∃ (R : FlEnv) (F : FOps), RoundsToNearest R.fl ∧ RoundsToNearest64 R.dl ∧ F.Ftz R.fl ∧ F.Fix8 := by
  obtain ⟨R, h1, h2, -⟩ := exists_flEnv false
  obtain ⟨F, f1, f2⟩ := exists_ftz h1 (fun w => BitVec.ofInt 32 (fix8 (F32.val w)))
  refine ⟨R, F, h1, h2, f1, ?_⟩
  intro w _
  rw [f2]
  show (BitVec.ofInt 32 (fix8 (F32.val w))).toInt = _
  have h : -2147483648 ≤ fix8 (F32.val w) ∧ fix8 (F32.val w) ≤ 2147483647 := by unfold fix8; omega
  generalize fix8 (F32.val w) = z at *
  rw [BitVec.toInt_ofInt]
  unfold Int.bmod
  simp only [Nat.reducePow, Int.cast_ofNat_Int]
  split <;> omega

/-- The float of the witness exists. -/
example : ∃ a : F32, a.Finite ∧ a.val = 3 / 4 * 2 ^ (-126 : Int) :=
  F32.val_surj ⟨3, -128, by norm_num, by norm_num, by norm_num, by
    have : (2 : Rat) ^ (-126 : Int) = 2 ^ (-128 : Int) * 4 := by
      have : (4 : Rat) = 2 ^ (2 : Int) := by norm_num
      rw [this, ← zpow_add₀ (by norm_num)]; rfl
    rw [this]; push_cast; ring⟩

end Verif
