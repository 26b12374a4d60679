import Verif.Proof.Ieee
import Verif.Props.FloatOutput
import Verif.Props.IndirectA64
import Verif.Props.GemmA64

/-!
C60: accuracy of the aarch64 kernels. The theorems C49, C50, C52 and C54 compare the assembly with the reference kernel on bit
patterns, for any float instructions; here the instructions are those of IEEE-754 (`FOps.Ieee`), the parameters are those the
setup stores (`StoredSetup`), and the result is compared with real arithmetic.
-/

namespace Verif

section
variable {p : BConv} {inp filt : List Word} {act : Act} {R : FlEnv} {F : FOps} {mult bias : List Rat} {scale zp : Rat}
  {cmin cmax : Int} {mw bw : List Word}

/-- The float output `out` (bit patterns) of the convolution is accurate. -/
def AccurateFloat (p : BConv) (act : Act) (mult bias : List Rat) (inp filt out : List Word) : Prop :=
  ∀ b y x c, b < p.batches → y < p.outH → x < p.outW → c < p.cout →
    ∃ w : F32, out[((b * p.outH + y) * p.outW + x) * p.cout + c]? = some w ∧ F32.Finite w ∧
      |F32.val w - ((act.apply (p.conv p.padVal inp filt b y x c) : Int) * mult.getD c 0 + bias.getD c 0)|
        ≤ (|bias.getD c 0| + ((p.filtH * p.filtW * (p.cin / p.groups) : Nat) : Rat) * |mult.getD c 0|) * (5 / 2 ^ 24)
          + 2 ^ (-147 : Int)

/-- The int8 output `out` is accurate: within 1 of the exact value rounded to nearest even and saturated, and equal to it unless
the exact value is next to a half-integer. -/
def AccurateInt8 (p : BConv) (act : Act) (mult bias : List Rat) (scale zp : Rat) (inp filt : List Word) (out : List (BitVec 8)) :
    Prop :=
  ∀ b y x c, b < p.batches → y < p.outH → x < p.outW → c < p.cout →
    ∃ v : BitVec 8, out[((b * p.outH + y) * p.outW + x) * p.cout + c]? = some v ∧
      ∀ z : Rat, z = ((act.apply (p.conv p.padVal inp filt b y x c) : Int) * mult.getD c 0 + bias.getD c 0) / scale + zp →
        |v.toInt - clampInt8 (roundHalfEven z)| ≤ 1 ∧
        (v.toInt ≠ clampInt8 (roundHalfEven z) → ∃ n : Int, |z - ((n : Rat) + 1 / 2)| ≤
          ((|bias.getD c 0| + ((p.filtH * p.filtW * (p.cin / p.groups) : Nat) : Rat) * |mult.getD c 0|) / scale + |zp|)
            * (7 / 2 ^ 24) + 2 ^ (-123 : Int))

theorem zeroPad_vacuous (hpad : p.padding = .valid ∨ p.padValue = 1) : p.zeroPadding = true → p.cinG % 2 = 0 := by
  rw [zeroPadding_false hpad]
  exact fun h => Bool.noConfusion h

/-- Bit-level reference, float output. -/
theorem bits_reference_float (h32 : RoundsToNearest R.fl) (h64 : RoundsToNearest64 R.dl) (hfu : R.fused = false)
    (hF : F.Ieee R.fl) (hok : p.Ok inp filt) (hpad : p.padding = .valid ∨ p.padValue = 1)
    (hm : mult.length = p.cout) (hb : bias.length = p.cout)
    (hK : 2 * (p.filtH * p.filtW * (p.cin / p.groups)) ≤ 2 ^ 24)
    (hmul : ∀ c, c < p.cout → Binary32 (mult.getD c 0))
    (hr : ∀ c, c < p.cout → |bias.getD c 0| + 4 * (((p.filtH * p.filtW * (p.cin / p.groups) : Nat) : Rat) * |mult.getD c 0|)
      ≤ 2 ^ (125 : Int))
    (hst : StoredSetup R p act mult bias 1 0 cmin cmax mw bw)
    {out1 : List Word} (ho1 : out1.length = p.batches * p.outH * p.outW * p.cout) :
    ∃ out, bconvReference p inp filt (runFloatBits F cmin cmax mw bw) out1 = some out ∧
      AccurateFloat p act mult bias inp filt out := by
  have hKK : p.filtH * p.filtW * (p.cin / p.groups) = p.K := rfl
  rw [hKK] at hK
  have err := fun a c (ha : a ≤ p.K) (hc : c < p.cout) =>
    float_output_err h32 h64 R.fused hK (apply_range act ha).1 (apply_range act ha).2 (hmul c hc) (hr c hc)
  obtain ⟨t, ht, hrun⟩ := runFloatBits_val hF hfu hm hb (by omega) hst
    (fun a c ha hc x hx => by rw [hx]; exact (err a c ha hc).2)
  obtain ⟨t', ht', -, -, hrun', -⟩ := runFloatFl_full (R := R) (p := p) (act := act) (scale := 1) (zp := 0) hm hb (by omega)
  rw [ht] at ht'; cases ht'
  obtain ⟨out, e1, e2, e3⟩ := reference_rel (act := act)
    (Rel := fun c z w => F32.Finite w ∧ |F32.val w - ((z : Int) * mult.getD c 0 + bias.getD c 0)|
      ≤ (|bias.getD c 0| + (p.K : Rat) * |mult.getD c 0|) * (5 / 16777216) + 8 * etaF) hok (zeroPad_vacuous hpad)
    (run := runFloatBits F cmin cmax mw bw) (f := fun a c => (runFloatBits F cmin cmax mw bw a c).getD 0#32)
    (fun a c ha hc => by
      obtain ⟨w, w1, -, -⟩ := hrun a c ha hc
      rw [w1]; rfl)
    (fun a c ha hc => by
      obtain ⟨w, w1, w2, w3⟩ := hrun a c ha hc
      have := (err a c ha hc).1
      rw [hrun' a c ha hc] at w3
      rw [w1, Option.getD_some]
      refine ⟨w2, ?_⟩
      rw [← Option.some.inj w3]
      rw [sub_sub_cancel] at this
      exact this) ho1
  refine ⟨out, e1, ?_⟩
  intro b y x c hb hy hx hc
  obtain ⟨w, w1, w2, w3⟩ := e3 b y x c hb hy hx hc
  refine ⟨w, w1, w2, ?_⟩
  have e : 8 * etaF = (2 : Rat) ^ (-147 : Int) := by
    unfold etaF
    have : (8 : Rat) = 2 ^ (3 : Int) := by norm_num
    rw [this, ← zpow_add₀ (by norm_num)]
    rfl
  have e3 : (5 / 16777216 : Rat) = 5 / 2 ^ 24 := by norm_num
  rw [e, e3] at w3
  exact w3

theorem toInt8_clamp (z : Int) : (BitVec.ofInt 8 (max (-128) (min 127 (max (-2147483648) (min 2147483647 z))))).toInt
    = clampInt8 z := by
  unfold clampInt8
  rw [BitVec.toInt_ofInt]
  unfold Int.bmod
  simp only [Nat.reducePow, Int.cast_ofNat_Int]
  split <;> split <;> (try split) <;> omega

theorem halfEven_err (y : Rat) : |(roundHalfEven y : Rat) - y| ≤ 1 / 2 := by
  obtain ⟨b1, b2⟩ := roundHalfEven_near y
  rw [abs_le]; constructor <;> linarith

/-- Bit-level reference, int8 output. -/
theorem bits_reference_int8 (h32 : RoundsToNearest R.fl) (h64 : RoundsToNearest64 R.dl) (hfu : R.fused = false)
    (hF : F.Ieee R.fl) (hok : p.Ok inp filt) (hpad : p.padding = .valid ∨ p.padValue = 1)
    (hm : mult.length = p.cout) (hb : bias.length = p.cout) (hs : (2 : Rat) ^ (-40 : Int) ≤ scale) (hs2 : scale ≤ 2 ^ (40 : Int))
    (hK : 2 * (p.filtH * p.filtW * (p.cin / p.groups)) ≤ 2 ^ 24) (hK0 : 0 < p.filtH * p.filtW * (p.cin / p.groups))
    (hmul : ∀ c, c < p.cout → Binary32 (mult.getD c 0))
    (hT : ∀ c, c < p.cout → (|bias.getD c 0| + ((p.filtH * p.filtW * (p.cin / p.groups) : Nat) : Rat) * |mult.getD c 0|) / scale
      + |zp| ≤ 2 ^ 20)
    (hst : StoredSetup R p act mult bias scale zp cmin cmax mw bw)
    {out1 : List (BitVec 8)} (ho1 : out1.length = p.batches * p.outH * p.outW * p.cout) :
    ∃ out, bconvReference p inp filt (runInt8Bits F cmin cmax mw bw) out1 = some out ∧
      AccurateInt8 p act mult bias scale zp inp filt out := by
  have hKK : p.filtH * p.filtW * (p.cin / p.groups) = p.K := rfl
  rw [hKK] at hK hK0 hT
  have key := fun a c ha hc => int8_key (act := act) (R := R) h32 h64 hs hs2 hK hK0 hmul hT a c ha hc
  obtain ⟨t, ht, hrun⟩ := runFloatBits_val hF hfu hm hb (by omega) hst (fun a c ha hc x hx => (key a c ha hc).2.2 x hx)
  obtain ⟨t', ht', -, -, hrun', -⟩ := runFloatFl_full (R := R) (p := p) (act := act) (scale := scale) (zp := zp) hm hb (by omega)
  rw [ht] at ht'; cases ht'
  obtain ⟨out, e1, e2, e3⟩ := reference_rel (act := act)
    (Rel := fun c w (v : BitVec 8) =>
      |v.toInt - clampInt8 (roundHalfEven (((w : Int) * mult.getD c 0 + bias.getD c 0) / scale + zp))| ≤ 1 ∧
            (v.toInt ≠ clampInt8 (roundHalfEven (((w : Int) * mult.getD c 0 + bias.getD c 0) / scale + zp)) →
              ∃ n : Int, |((w : Int) * mult.getD c 0 + bias.getD c 0) / scale + zp - ((n : Rat) + 1 / 2)| ≤
              ((|bias.getD c 0| + (p.K : Rat) * |mult.getD c 0|) / scale + |zp|) * (7 / 2 ^ 24) + 2 ^ (-123 : Int)))
    hok (zeroPad_vacuous hpad)
    (run := runInt8Bits F cmin cmax mw bw) (f := fun a c => (runInt8Bits F cmin cmax mw bw a c).getD 0#8)
    (fun a c ha hc => by
      obtain ⟨w, w1, -, -⟩ := hrun a c ha hc
      unfold runInt8Bits
      rw [w1]; rfl)
    (fun a c ha hc => by
      obtain ⟨w, w1, w2, w3⟩ := hrun a c ha hc
      rw [hrun' a c ha hc] at w3
      have k1 := ((key a c ha hc).1 _ (Option.some.inj w3).symm).1
      unfold runInt8Bits
      rw [w1]
      simp only [Option.bind_eq_bind, Option.bind_some, Option.getD_some]
      rw [hF.fcvtns w w2, toInt8_clamp]
      exact round_pair halfEven_err halfEven_err k1 (key a c ha hc).2.1) ho1
  refine ⟨out, e1, ?_⟩
  intro b y x c hb hy hx hc
  obtain ⟨v, v1, v2⟩ := e3 b y x c hb hy hx hc
  refine ⟨v, v1, ?_⟩
  rintro z rfl
  exact v2

theorem HoldsFloats.le {n : Nat} {ws : List Word} {xs : List Rat} (h : HoldsFloats n ws xs) : n ≤ ws.length := by
  by_contra hc
  obtain ⟨w, hw, -⟩ := h (n - 1) (by omega)
  have := (List.getElem?_eq_some_iff.1 hw).1
  omega

/-- The clamp bounds of the setup are ordered int32 values. -/
theorem storedSetup_clamp (hm : mult.length = p.cout) (hb : bias.length = p.cout) (hK : 2 * p.K < 2147483648)
    (hst : StoredSetup R p act mult bias scale zp cmin cmax mw bw) : Fits32 cmin ∧ Fits32 cmax ∧ cmin ≤ cmax := by
  obtain ⟨t, ht, rfl, rfl, -, -⟩ := hst
  obtain ⟨m, b, hf, -⟩ := otFuseFl_eq (R := R) (p := p) (k := (p.K : Int)) (scale := scale) (zp := zp) hm hb
  rw [otSetupFl_eq rfl (by omega) hf] at ht
  cases ht
  have hs := actRange_sign act
  unfold Fits32
  simp only
  omega

/-- **C60.** Float output of the aarch64 indirect kernels, computed by the assembly with IEEE float instructions on the
parameters `OneTimeSetup` stores, is accurate in real arithmetic. -/
theorem C60_a64_indirect_float (h32 : RoundsToNearest R.fl) (h64 : RoundsToNearest64 R.dl) (hfu : R.fused = false)
    (hF : F.Ieee R.fl) (hok : p.Ok inp filt) (hpad : p.padding = .valid ∨ p.padValue = 1)
    (hm : mult.length = p.cout) (hb : bias.length = p.cout)
    (hmul : ∀ c, c < p.cout → Binary32 (mult.getD c 0))
    (hr : ∀ c, c < p.cout → |bias.getD c 0| + 4 * (((p.filtH * p.filtW * (p.cin / p.groups) : Nat) : Rat) * |mult.getD c 0|)
      ≤ 2 ^ (125 : Int))
    (hst : StoredSetup R p act mult bias 1 0 cmin cmax mw bw)
    (hfh : 0 < p.filtH) (hfw : 0 < p.filtW) (hci : 0 < p.cin) (hco : 0 < p.cout) (hin : 0 < p.batches * p.inH * p.inW)
    (hK : p.filtH * p.filtW * (p.cin / p.groups) < 2 ^ 16)
    (hmw : p.cout - p.outPerGroup + ceilMul p.outPerGroup 8 ≤ mw.length)
    (hbw : p.cout - p.outPerGroup + ceilMul p.outPerGroup 8 ≤ bw.length)
    {xi xz : List Word} (hx : p.groups = 1 ∨ (4 ≤ xi.length ∧ 4 ≤ xz.length))
    (v : Nat → Nat → BitVec 8) (x : Nat → NAddr) {out0 : List Word}
    (ho0 : out0.length = p.batches * p.outH * p.outW * p.cout) :
    ∃ out, bconvA64F p inp xi xz filt mw bw cmin cmax F v x out0 = some out ∧ AccurateFloat p act mult bias inp filt out := by
  have hKK : p.filtH * p.filtW * (p.cin / p.groups) = p.K := rfl
  obtain ⟨c1, c2, c3⟩ := storedSetup_clamp hm hb (by omega) hst
  obtain ⟨out, e1, e2⟩ := C49_a64_float hok hpad hfh hfw hci hco hin hK c1 c2 c3 hmw hbw hx F v x ho0 ho0
  obtain ⟨out', f1, f2⟩ := bits_reference_float h32 h64 hfu hF hok hpad hm hb (by omega) hmul hr hst ho0
  rw [e2] at f1; cases f1
  exact ⟨out, e1, f2⟩

/-- **C60.** int8 output of the aarch64 indirect kernels. -/
theorem C60_a64_indirect_int8 (h32 : RoundsToNearest R.fl) (h64 : RoundsToNearest64 R.dl) (hfu : R.fused = false)
    (hF : F.Ieee R.fl) (hok : p.Ok inp filt) (hpad : p.padding = .valid ∨ p.padValue = 1)
    (hm : mult.length = p.cout) (hb : bias.length = p.cout) (hs : (2 : Rat) ^ (-40 : Int) ≤ scale) (hs2 : scale ≤ 2 ^ (40 : Int))
    (hmul : ∀ c, c < p.cout → Binary32 (mult.getD c 0))
    (hT : ∀ c, c < p.cout → (|bias.getD c 0| + ((p.filtH * p.filtW * (p.cin / p.groups) : Nat) : Rat) * |mult.getD c 0|) / scale
      + |zp| ≤ 2 ^ 20)
    (hst : StoredSetup R p act mult bias scale zp cmin cmax mw bw)
    (hfh : 0 < p.filtH) (hfw : 0 < p.filtW) (hci : 0 < p.cin) (hco : 0 < p.cout) (hin : 0 < p.batches * p.inH * p.inW)
    (hK : p.filtH * p.filtW * (p.cin / p.groups) < 2 ^ 16) (hK0 : 0 < p.filtH * p.filtW * (p.cin / p.groups))
    (hmw : p.cout - p.outPerGroup + ceilMul p.outPerGroup 8 ≤ mw.length)
    (hbw : p.cout - p.outPerGroup + ceilMul p.outPerGroup 8 ≤ bw.length)
    {xi xz : List Word} (hx : p.groups = 1 ∨ (4 ≤ xi.length ∧ 4 ≤ xz.length))
    (v : Nat → Nat → BitVec 8) (x : Nat → NAddr) {out0 : List (BitVec 8)}
    (ho0 : out0.length = p.batches * p.outH * p.outW * p.cout) :
    ∃ out, bconvA64I p inp xi xz filt mw bw cmin cmax F v x out0 = some out ∧
      AccurateInt8 p act mult bias scale zp inp filt out := by
  have hKK : p.filtH * p.filtW * (p.cin / p.groups) = p.K := rfl
  obtain ⟨c1, c2, c3⟩ := storedSetup_clamp hm hb (by omega) hst
  obtain ⟨out, e1, e2⟩ := C50_a64_int8 hok hpad hfh hfw hci hco hin hK c1 c2 c3 hmw hbw hx F v x ho0 ho0
  obtain ⟨out', f1, f2⟩ := bits_reference_int8 h32 h64 hfu hF hok hpad hm hb hs hs2 (by omega) hK0 hmul hT hst ho0
  rw [e2] at f1; cases f1
  exact ⟨out, e1, f2⟩

variable {E : GemmEnv}

/-- **C60.** Float output of the aarch64 8x4 BGEMM kernel, for every block schedule and order of the writes. -/
theorem C60_a64_bgemm_float (h32 : RoundsToNearest R.fl) (h64 : RoundsToNearest64 R.dl) (hfu : R.fused = false)
    (hF : E.F.Ieee R.fl) (hok : p.Ok inp filt) (hpad : p.padding = .valid ∨ p.padValue = 1)
    (hm : mult.length = p.cout) (hb : bias.length = p.cout)
    (hmul : ∀ c, c < p.cout → Binary32 (mult.getD c 0))
    (hr : ∀ c, c < p.cout → |bias.getD c 0| + 4 * (((p.filtH * p.filtW * (p.cin / p.groups) : Nat) : Rat) * |mult.getD c 0|)
      ≤ 2 ^ (125 : Int))
    (hst : StoredSetup R p act mult bias 1 0 E.cmin E.cmax E.mult E.bias)
    (hfh : 0 < p.filtH) (hfw : 0 < p.filtW) (hci : 0 < p.cin) (hg : p.groups = 1) (hgeo : p.Geom) (hsel : bgemm16Selected p = true)
    (hls : ceilMul (p.filtDepth * p.filtH * p.filtW) 4 ≤ E.ls) (hrs : ceilMul (p.filtDepth * p.filtH * p.filtW) 4 ≤ E.rs)
    (hmw : ceilMul p.cout 8 ≤ E.mult.length) (hbw : ceilMul p.cout 8 ≤ E.bias.length)
    {tmp : List Word} (htmp : tmp.length = 32)
    (fat : Bool) {blocks : List Blk} (hsch : Schedule p.cout (p.batches * p.outH * p.outW) 8 4 blocks)
    (hne : ∀ b ∈ blocks, b.r0 < b.r1 ∧ b.c0 < b.c1)
    {out0 : List Word} (ho0 : out0.length = p.batches * p.outH * p.outW * p.cout) :
    ∃ trs, bgemmA64Traces false (gKern8F tmp) E p fat blocks inp filt = some trs ∧
      ∀ L, L.Perm trs.flatten → ∃ out, applyWrites L out0 = some out ∧ AccurateFloat p act mult bias inp filt out := by
  have hK := gK_lt hg hsel
  have hKK : p.filtH * p.filtW * (p.cin / p.groups) = p.K := rfl
  obtain ⟨c1, c2, c3⟩ := storedSetup_clamp hm hb (by omega) hst
  obtain ⟨trs, out, e1, e2, e3⟩ := C52_a64_bgemm_float hok hg hgeo hpad hfh hfw hci hsel c1 c2 c3 hls hrs hmw hbw htmp fat hsch hne
    ho0 ho0
  obtain ⟨out', f1, f2⟩ := bits_reference_float h32 h64 hfu hF hok hpad hm hb (by omega) hmul hr hst ho0
  rw [e2] at f1; cases f1
  exact ⟨trs, e1, fun L hL => ⟨out, e3 L hL, f2⟩⟩

/-- **C60.** int8 output of the aarch64 8x4 BGEMM kernel. -/
theorem C60_a64_bgemm_int8 (h32 : RoundsToNearest R.fl) (h64 : RoundsToNearest64 R.dl) (hfu : R.fused = false)
    (hF : E.F.Ieee R.fl) (hok : p.Ok inp filt) (hpad : p.padding = .valid ∨ p.padValue = 1)
    (hm : mult.length = p.cout) (hb : bias.length = p.cout) (hs : (2 : Rat) ^ (-40 : Int) ≤ scale) (hs2 : scale ≤ 2 ^ (40 : Int))
    (hmul : ∀ c, c < p.cout → Binary32 (mult.getD c 0))
    (hT : ∀ c, c < p.cout → (|bias.getD c 0| + ((p.filtH * p.filtW * (p.cin / p.groups) : Nat) : Rat) * |mult.getD c 0|) / scale
      + |zp| ≤ 2 ^ 20)
    (hst : StoredSetup R p act mult bias scale zp E.cmin E.cmax E.mult E.bias)
    (hfh : 0 < p.filtH) (hfw : 0 < p.filtW) (hci : 0 < p.cin) (hg : p.groups = 1) (hgeo : p.Geom) (hsel : bgemm16Selected p = true)
    (hK0 : 0 < p.filtH * p.filtW * (p.cin / p.groups))
    (hls : ceilMul (p.filtDepth * p.filtH * p.filtW) 4 ≤ E.ls) (hrs : ceilMul (p.filtDepth * p.filtH * p.filtW) 4 ≤ E.rs)
    (hmw : ceilMul p.cout 8 ≤ E.mult.length) (hbw : ceilMul p.cout 8 ≤ E.bias.length)
    {tmp : List (BitVec 8)} (htmp : tmp.length = 32)
    (fat : Bool) {blocks : List Blk} (hsch : Schedule p.cout (p.batches * p.outH * p.outW) 8 4 blocks)
    (hne : ∀ b ∈ blocks, b.r0 < b.r1 ∧ b.c0 < b.c1)
    {out0 : List (BitVec 8)} (ho0 : out0.length = p.batches * p.outH * p.outW * p.cout) :
    ∃ trs, bgemmA64Traces false (gKern8I tmp) E p fat blocks inp filt = some trs ∧
      ∀ L, L.Perm trs.flatten → ∃ out, applyWrites L out0 = some out ∧ AccurateInt8 p act mult bias scale zp inp filt out := by
  have hK := gK_lt hg hsel
  have hKK : p.filtH * p.filtW * (p.cin / p.groups) = p.K := rfl
  obtain ⟨c1, c2, c3⟩ := storedSetup_clamp hm hb (by omega) hst
  obtain ⟨trs, out, e1, e2, e3⟩ := C52_a64_bgemm_int8 hok hg hgeo hpad hfh hfw hci hsel c1 c2 c3 hls hrs hmw hbw htmp fat hsch hne
    ho0 ho0
  obtain ⟨out', f1, f2⟩ := bits_reference_int8 h32 h64 hfu hF hok hpad hm hb hs hs2 (by omega) hK0 hmul hT hst ho0
  rw [e2] at f1; cases f1
  exact ⟨trs, e1, fun L hL => ⟨out, e3 L hL, f2⟩⟩

/-- **C60.** Float output of the aarch64 4x4 BGEMM kernel, for the depths its streaming loop handles (C54). -/
theorem C60_a64_bgemm4_float {stream : Bool} (h32 : RoundsToNearest R.fl) (h64 : RoundsToNearest64 R.dl) (hfu : R.fused = false)
    (hF : E.F.Ieee R.fl) (hok : p.Ok inp filt) (hpad : p.padding = .valid ∨ p.padValue = 1)
    (hm : mult.length = p.cout) (hb : bias.length = p.cout)
    (hmul : ∀ c, c < p.cout → Binary32 (mult.getD c 0))
    (hr : ∀ c, c < p.cout → |bias.getD c 0| + 4 * (((p.filtH * p.filtW * (p.cin / p.groups) : Nat) : Rat) * |mult.getD c 0|)
      ≤ 2 ^ (125 : Int))
    (hst : StoredSetup R p act mult bias 1 0 E.cmin E.cmax E.mult E.bias)
    (hfh : 0 < p.filtH) (hfw : 0 < p.filtW) (hci : 0 < p.cin) (hg : p.groups = 1) (hgeo : p.Geom)
    (hstr : StreamOk stream (ceilMul (p.filtDepth * p.filtH * p.filtW) 4))
    (hK : 2 * (p.filtH * p.filtW * p.cin) ≤ 2 ^ 24)
    (hls : ceilMul (p.filtDepth * p.filtH * p.filtW) 4 ≤ E.ls) (hrs : ceilMul (p.filtDepth * p.filtH * p.filtW) 4 ≤ E.rs)
    (hmw : ceilMul p.cout 4 ≤ E.mult.length) (hbw : ceilMul p.cout 4 ≤ E.bias.length)
    {tmp : List Word} (htmp : tmp.length = 16)
    (fat : Bool) {blocks : List Blk} (hsch : Schedule p.cout (p.batches * p.outH * p.outW) 4 4 blocks)
    (hne : ∀ b ∈ blocks, b.r0 < b.r1 ∧ b.c0 < b.c1)
    {out0 : List Word} (ho0 : out0.length = p.batches * p.outH * p.outW * p.cout) :
    ∃ trs, bgemmA64Traces false (gKern4F stream tmp) E p fat blocks inp filt = some trs ∧
      ∀ L, L.Perm trs.flatten → ∃ out, applyWrites L out0 = some out ∧ AccurateFloat p act mult bias inp filt out := by
  have hKK : p.filtH * p.filtW * (p.cin / p.groups) = p.filtH * p.filtW * p.cin := by rw [hg, Nat.div_one]
  have hKK2 : p.filtH * p.filtW * (p.cin / p.groups) = p.K := rfl
  obtain ⟨c1, c2, c3⟩ := storedSetup_clamp hm hb (by omega) hst
  obtain ⟨trs, out, e1, e2, e3⟩ := C54_a64_bgemm4_float_partial hok hg hgeo hpad hfh hfw hci hstr (by omega) c1 c2 c3 hls hrs hmw hbw
    htmp fat hsch hne ho0 ho0
  obtain ⟨out', f1, f2⟩ := bits_reference_float h32 h64 hfu hF hok hpad hm hb (by omega) hmul hr hst ho0
  rw [e2] at f1; cases f1
  exact ⟨trs, e1, fun L hL => ⟨out, e3 L hL, f2⟩⟩

/-- **C60.** int8 output of the aarch64 4x4 BGEMM kernel, for the depths its streaming loop handles (C54). -/
theorem C60_a64_bgemm4_int8 {stream : Bool} (h32 : RoundsToNearest R.fl) (h64 : RoundsToNearest64 R.dl) (hfu : R.fused = false)
    (hF : E.F.Ieee R.fl) (hok : p.Ok inp filt) (hpad : p.padding = .valid ∨ p.padValue = 1)
    (hm : mult.length = p.cout) (hb : bias.length = p.cout) (hs : (2 : Rat) ^ (-40 : Int) ≤ scale) (hs2 : scale ≤ 2 ^ (40 : Int))
    (hmul : ∀ c, c < p.cout → Binary32 (mult.getD c 0))
    (hT : ∀ c, c < p.cout → (|bias.getD c 0| + ((p.filtH * p.filtW * (p.cin / p.groups) : Nat) : Rat) * |mult.getD c 0|) / scale
      + |zp| ≤ 2 ^ 20)
    (hst : StoredSetup R p act mult bias scale zp E.cmin E.cmax E.mult E.bias)
    (hfh : 0 < p.filtH) (hfw : 0 < p.filtW) (hci : 0 < p.cin) (hg : p.groups = 1) (hgeo : p.Geom)
    (hstr : StreamOk stream (ceilMul (p.filtDepth * p.filtH * p.filtW) 4))
    (hK : 2 * (p.filtH * p.filtW * p.cin) ≤ 2 ^ 24)
    (hls : ceilMul (p.filtDepth * p.filtH * p.filtW) 4 ≤ E.ls) (hrs : ceilMul (p.filtDepth * p.filtH * p.filtW) 4 ≤ E.rs)
    (hmw : ceilMul p.cout 4 ≤ E.mult.length) (hbw : ceilMul p.cout 4 ≤ E.bias.length)
    {tmp : List (BitVec 8)} (htmp : tmp.length = 16)
    (fat : Bool) {blocks : List Blk} (hsch : Schedule p.cout (p.batches * p.outH * p.outW) 4 4 blocks)
    (hne : ∀ b ∈ blocks, b.r0 < b.r1 ∧ b.c0 < b.c1)
    {out0 : List (BitVec 8)} (ho0 : out0.length = p.batches * p.outH * p.outW * p.cout) :
    ∃ trs, bgemmA64Traces false (gKern4I stream tmp) E p fat blocks inp filt = some trs ∧
      ∀ L, L.Perm trs.flatten → ∃ out, applyWrites L out0 = some out ∧ AccurateInt8 p act mult bias scale zp inp filt out := by
  have hKK : p.filtH * p.filtW * (p.cin / p.groups) = p.filtH * p.filtW * p.cin := by rw [hg, Nat.div_one]
  have hKK2 : p.filtH * p.filtW * (p.cin / p.groups) = p.K := rfl
  have hK0 : 0 < p.filtH * p.filtW * (p.cin / p.groups) := by
    rw [hKK]
    exact Nat.mul_pos (Nat.mul_pos hfh hfw) hci
  obtain ⟨c1, c2, c3⟩ := storedSetup_clamp hm hb (by omega) hst
  obtain ⟨trs, out, e1, e2, e3⟩ := C54_a64_bgemm4_int8_partial hok hg hgeo hpad hfh hfw hci hstr (by omega) c1 c2 c3 hls hrs hmw hbw
    htmp fat hsch hne ho0 ho0
  obtain ⟨out', f1, f2⟩ := bits_reference_int8 h32 h64 hfu hF hok hpad hm hb hs hs2 (by omega) hK0 hmul hT hst ho0
  rw [e2] at f1; cases f1
  exact ⟨trs, e1, fun L hL => ⟨out, e3 L hL, f2⟩⟩

end

/-! ### Hypotheses are met -/

/-- A setup stored in memory exists for every float arithmetic: 11 channels, multipliers 3/4, biases -1/2, buffers of 15 words (as
allocated), and float instructions meeting the specification. -/
example : ∃ (R : FlEnv) (F : FOps) (cmin cmax : Int) (mw bw : List Word), RoundsToNearest R.fl ∧ RoundsToNearest64 R.dl ∧
    R.fused = false ∧ F.Ieee R.fl ∧ mw.length = 15 ∧ bw.length = 15 ∧
    StoredSetup R gemmExample .relu (List.replicate 11 (3 / 4)) (List.replicate 11 (-1 / 2)) 1 0 cmin cmax mw bw ∧
    (∀ c, c < gemmExample.cout → Binary32 ((List.replicate 11 (3 / 4 : Rat)).getD c 0)) ∧
    (∀ c, c < gemmExample.cout → |(List.replicate 11 (-1 / 2 : Rat)).getD c 0| + 4 * (((gemmExample.filtH * gemmExample.filtW *
      (gemmExample.cin / gemmExample.groups) : Nat) : Rat) * |(List.replicate 11 (3 / 4 : Rat)).getD c 0|) ≤ 2 ^ (125 : Int)) := by
  obtain ⟨R, h1, h2, h3⟩ := exists_flEnv false
  obtain ⟨F, hF⟩ := exists_ieee h1
  obtain ⟨m, b, hf, g1, g2, g3, g4⟩ := otFuseFl_eq (R := R) (p := gemmExample) (k := (gemmExample.K : Int)) (scale := 1) (zp := 0)
    (mult := List.replicate 11 (3 / 4)) (bias := List.replicate 11 (-1 / 2)) rfl rfl
  have hset := otSetupFl_eq (act := .relu) (p := gemmExample) rfl (by decide) hf
  have mb : ∀ c, c < gemmExample.cout → Binary32 ((List.replicate 11 (3 / 4 : Rat)).getD c 0) := by
    intro c hc
    have hc' : c < 11 := hc
    have : (List.replicate 11 (3 / 4 : Rat)).getD c 0 = 3 / 4 := by
      rw [List.getD_eq_getElem?_getD, List.getElem?_replicate, if_pos hc']; rfl
    rw [this]
    exact ⟨3, -2, by norm_num, by norm_num, by norm_num, by norm_num⟩
  have mr : ∀ c, c < gemmExample.cout → |(List.replicate 11 (-1 / 2 : Rat)).getD c 0| + 4 * (((gemmExample.filtH * gemmExample.filtW *
      (gemmExample.cin / gemmExample.groups) : Nat) : Rat) * |(List.replicate 11 (3 / 4 : Rat)).getD c 0|) ≤ 2 ^ (125 : Int) := by
    intro c hc
    have hc' : c < 11 := hc
    have e1 : (List.replicate 11 (3 / 4 : Rat)).getD c 0 = 3 / 4 := by
      rw [List.getD_eq_getElem?_getD, List.getElem?_replicate, if_pos hc']; rfl
    have e2 : (List.replicate 11 (-1 / 2 : Rat)).getD c 0 = -1 / 2 := by
      rw [List.getD_eq_getElem?_getD, List.getElem?_replicate, if_pos hc']; rfl
    rw [e1, e2]
    have e3 : gemmExample.filtH * gemmExample.filtW * (gemmExample.cin / gemmExample.groups) ≤ 100000 := by decide
    have e3' : ((gemmExample.filtH * gemmExample.filtW * (gemmExample.cin / gemmExample.groups) : Nat) : Rat) ≤ 100000 := by
      exact_mod_cast e3
    have e4 : |(-1 / 2 : Rat)| = 1 / 2 := by rw [abs_of_neg (by norm_num)]; norm_num
    have e5 : |(3 / 4 : Rat)| = 3 / 4 := abs_of_pos (by norm_num)
    rw [e4, e5]
    have : (1000000 : Rat) ≤ 2 ^ (125 : Int) := by norm_num
    linarith
  have words : ∀ xs : List Rat, xs.length = 15 → (∀ c, c < 11 → ∃ y, |y| ≤ maxBinary32 ∧ xs[c]? = some (R.fl y)) →
      ∃ ws : List Word, ws.length = 15 ∧ HoldsFloats 11 ws xs := by
    intro xs hl hx
    obtain ⟨ws, w1, w2⟩ := exists_holdsFloats (n := 11) (xs := xs.take 11) (by rw [List.length_take]; omega) (fun x hx' => by
      obtain ⟨i, hi, rfl⟩ := List.getElem_of_mem hx'
      rw [List.length_take] at hi
      obtain ⟨y, y1, y2⟩ := hx i (by omega)
      rw [List.getElem_take]
      have : xs[i] = R.fl y := by
        have := List.getElem?_eq_getElem (l := xs) (i := i) (by omega)
        rw [this] at y2
        exact Option.some.inj y2
      rw [this]
      exact (h1 y y1).1)
    rw [List.length_take] at w1
    refine ⟨ws ++ List.replicate 4 0#32, by rw [List.length_append, w1, List.length_replicate]; omega, ?_⟩
    intro c hc
    obtain ⟨w, v1, v2, v3⟩ := w2 c hc
    refine ⟨w, ?_, v2, ?_⟩
    · rw [List.getElem?_append_left (by omega)]; exact v1
    · rw [List.getElem?_take_of_lt hc] at v3; exact v3
  have pre := fun c (hc : c < gemmExample.cout) (a : Nat) => float_output_err h1 h2 false (K := gemmExample.K) (x := 0) (by decide)
    le_rfl (by omega) (mb c hc) (mr c hc)
  obtain ⟨mw, m1, m2⟩ := words m g3 (fun c hc => by
    refine ⟨_, ?_, g1 c hc⟩
    have hb := mb c hc
    have e : -1 * (List.replicate 11 (3 / 4 : Rat)).getD c 0 = -(List.replicate 11 (3 / 4 : Rat)).getD c 0 := by ring
    rw [e, div_one, h2.fix' hb.neg.to64, h2.fix' hb.neg.to64]
    exact hb.neg.le_max)
  obtain ⟨bw, b1, b2⟩ := words b g4 (fun c hc => by
    have hc' : c < 11 := hc
    refine ⟨_, ?_, g2 c hc⟩
    have e1 : (List.replicate 11 (3 / 4 : Rat)).getD c 0 = 3 / 4 := by
      rw [List.getD_eq_getElem?_getD, List.getElem?_replicate, if_pos hc']; rfl
    have e2 : (List.replicate 11 (-1 / 2 : Rat)).getD c 0 = -1 / 2 := by
      rw [List.getD_eq_getElem?_getD, List.getElem?_replicate, if_pos hc']; rfl
    rw [e1, e2]
    have q1 : (((gemmExample.K : Int) : Rat) * (3 / 4)) = ((3 * (gemmExample.K : Int) : Int) : Rat) * 2 ^ (-2 : Int) := by
      push_cast; norm_num; ring
    have q2 : (-1 / 2 + ((3 * (gemmExample.K : Int) : Int) : Rat) * 2 ^ (-2 : Int))
        = ((3 * (gemmExample.K : Int) - 2 : Int) : Rat) * 2 ^ (-2 : Int) := by
      push_cast; norm_num; ring
    have p1 : Binary32 (((3 * (gemmExample.K : Int) : Int) : Rat) * 2 ^ (-2 : Int)) := Binary32.scaled (by decide) (by norm_num) (by norm_num)
    have p2 : Binary32 (((3 * (gemmExample.K : Int) - 2 : Int) : Rat) * 2 ^ (-2 : Int)) := Binary32.scaled (by decide) (by norm_num) (by norm_num)
    rw [q1, h2.fix' p1.to64, q2, h2.fix' p2.to64, div_one, h2.fix' p2.to64, add_zero, h2.fix' p2.to64]
    exact p2.le_max)
  exact ⟨R, F, _, _, mw, bw, h1, h2, h3, hF, m1, b1, ⟨_, hset, rfl, rfl, m2, b2⟩, mb, mr⟩

end Verif
