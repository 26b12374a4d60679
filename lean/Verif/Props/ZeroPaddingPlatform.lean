import Verif.Model.ZeroPaddingPlatform
import Verif.Props.ZeroPaddingFl
import Verif.Props.FloatA64
import Verif.Props.Dispatch

/-!
C73, continued: zero padding on every platform, on bit patterns. The assembly kernels compute the one-padded convolution (C49, C52,
C56, C68), the correction is added to their output.
-/

namespace Verif

section
variable {p : BConv} {inp filt : List Word} {R : FlEnv} {F : FOps} {mult bias : List Rat}
  {cmin cmax : Int} {mw bw mt : List Word}

/-- The same convolution padded with ones. -/
def BConv.onePadded (p : BConv) : BConv := { p with padValue := 1 }

/-- The zero-padded float output `out` (bit patterns) is accurate. -/
def AccurateZeroPadded (p : BConv) (mult bias : List Rat) (inp filt out : List Word) : Prop :=
  ∀ b y x c, b < p.batches → y < p.outH → x < p.outW → c < p.cout →
    ∃ w : F32, out[((b * p.outH + y) * p.outW + x) * p.cout + c]? = some w ∧ F32.Finite w ∧
      |F32.val w - ((p.conv (if p.Corrected y x then 0 else 1) inp filt b y x c : Int) * mult.getD c 0 + bias.getD c 0)|
        ≤ (|bias.getD c 0| + ((p.filtH * p.filtW * (p.cin / p.groups) : Nat) : Rat) * |mult.getD c 0|) * (8 / 2 ^ 24)
          + 2 ^ (-146 : Int)

/-- Float instructions add small integers exactly. -/
theorem zpExact_bits (h32 : RoundsToNearest R.fl) (hF : F.Ieee R.fl) :
    ZpExact (ZpOps.bits F) (fun i (w : Word) => F32.Finite w ∧ F32.val w = (i : Rat)) := by
  have big : ∀ i : Int, |i| ≤ 2 ^ 24 → |((i : Int) : Rat)| ≤ maxBinary32 := by
    intro i hi
    refine bigF_le ?_
    have : |(i : Rat)| ≤ 2 ^ 24 := by rw [← Int.cast_abs]; exact_mod_cast hi
    have g : (2 : Rat) ^ 24 ≤ bigF := by
      unfold bigF
      rw [← zpow_natCast]
      exact zpow_le_zpow_right₀ (by norm_num) (by norm_num)
    have g0 := bigF_ge
    linarith
  refine ⟨⟨show F32.Finite 0#32 from by decide, show F32.val 0#32 = ((0 : Int) : Rat) from by decide +kernel⟩, ?_, ?_⟩
  · intro i hi
    obtain ⟨a1, a2⟩ := hF.scvtf (BitVec.ofInt 32 i)
    refine ⟨a1, ?_⟩
    have e : (BitVec.ofInt 32 i).toInt = i := by
      rw [BitVec.toInt_ofInt]
      obtain ⟨l, u⟩ := abs_le.1 hi
      norm_num at l u
      apply Int.bmod_eq_of_le <;> norm_num <;> omega
    show F32.val (F.scvtf (BitVec.ofInt 32 i)) = _
    rw [a2, e, fl_int h32 hi]
  · rintro i j a b ⟨a1, a2⟩ ⟨b1, b2⟩ hij
    obtain ⟨c1, c2⟩ := hF.fadd a b a1 b1 (by rw [a2, b2, ← Int.cast_add]; exact big _ hij)
    refine ⟨c1, ?_⟩
    show F32.val (F.fadd a b) = _
    rw [c2, a2, b2, ← Int.cast_add, fl_int h32 hij]

/-- Adding the correction on bit patterns. -/
theorem bits_correct_err (h32 : RoundsToNearest R.fl) (hF : F.Ieee R.fl) {K : Nat} {b : Rat} {m o a : F32} (hmf : m.Finite)
    (hm : Binary32 m.val) (hof : o.Finite) (haf : a.Finite) {z s : Int} (has : a.val = (s : Rat)) (hs : |s| ≤ (K : Int))
    (hz : |z - s| ≤ (K : Int)) (hr : |b| + 4 * ((K : Rat) * |m.val|) ≤ bigF)
    (ho : |o.val - ((z : Rat) * m.val + b)| ≤ (|b| + K * |m.val|) * (5 / 16777216) + 8 * etaF) :
    F32.Finite (F.fadd o (F.fmul (F.fmul 0xBF800000#32 m) a)) ∧
    |F32.val (F.fadd o (F.fmul (F.fmul 0xBF800000#32 m) a)) - (((z - s : Int) : Rat) * m.val + b)|
      ≤ (|b| + K * |m.val|) * (8 / 16777216) + 16 * etaF := by
  have e1 : F32.val (0xBF800000#32 : F32) = -1 := by decide +kernel
  have f1 : F32.Finite (0xBF800000#32 : F32) := by decide
  have k0 : (0 : Rat) ≤ K := Nat.cast_nonneg K
  have m0 := abs_nonneg m.val
  have b0 := abs_nonneg b
  have q0 : 0 ≤ (K : Rat) * |m.val| := by positivity
  have u0 := etaF_pos
  have u2 := etaF_le_one
  have g := bigF_ge
  have hsr : |(s : Rat)| ≤ K := by rw [← Int.cast_abs]; exact_mod_cast hs
  have hzr : |((z - s : Int) : Rat)| ≤ K := by rw [← Int.cast_abs]; exact_mod_cast hz
  have hmm : |m.val| ≤ maxBinary32 := hm.le_max
  obtain ⟨p1, p2⟩ := hF.fmul 0xBF800000#32 m f1 hmf (by rw [e1, abs_mul]; simpa using hmm)
  rw [e1] at p2
  have e2 : R.fl (-1 * m.val) = -m.val := by
    rw [show -1 * m.val = -m.val by ring, h32.fix hm.neg]
  have hv : |-m.val * (s : Rat)| ≤ K * |m.val| := by
    rw [abs_mul, abs_neg]; nlinarith
  obtain ⟨r1, r2⟩ := hF.fmul (F.fmul 0xBF800000#32 m) a p1 haf (by
    rw [p2, e2, has]; exact bigF_le (by linarith))
  have v1 := fl_err h32 (x := -m.val * (s : Rat)) (by linarith)
  have v2 : |R.fl (-m.val * (s : Rat))| ≤ K * |m.val| + K * |m.val| / 16777216 + etaF := by
    have := abs_sub_abs_le_abs_sub (R.fl (-m.val * (s : Rat))) (-m.val * (s : Rat))
    have h16 := div_le_div_of_nonneg_right hv (by norm_num : (0 : Rat) ≤ 16777216)
    linarith
  have hzz : |(z : Rat) * m.val| ≤ 2 * (K * |m.val|) := by
    have : |(z : Rat)| ≤ 2 * K := by
      have e : (z : Rat) = ((z - s : Int) : Rat) + (s : Rat) := by push_cast; ring
      rw [e]
      refine le_trans (abs_add2 _ _) (by linarith)
    rw [abs_mul]; nlinarith
  have hoo : |o.val| ≤ 2 * (K * |m.val|) + |b| + (|b| + K * |m.val|) * (5 / 16777216) + 8 * etaF := by
    have h1 := abs_sub_abs_le_abs_sub o.val ((z : Rat) * m.val + b)
    have h2 := abs_add2 ((z : Rat) * m.val) b
    linarith
  obtain ⟨t1, t2⟩ := hF.fadd o (F.fmul (F.fmul 0xBF800000#32 m) a) hof r1 (by
    rw [r2, p2, e2, has]
    refine bigF_le (le_trans (abs_add2 _ _) ?_)
    linarith)
  refine ⟨t1, ?_⟩
  rw [t2, r2, p2, has]
  exact fl_correct_err h32 hm hs hz hr ho

/-- **C73**, every platform: with IEEE float instructions, a zero-padded convolution with float output and no activation has one
result `ref` (bit patterns), whichever optimized kernel computes it: the BGEMM kernel of every platform, for every schedule and
interleaving of its blocks (under C68's conditions on the buffers), the portable indirect kernel, and the 64-bit Arm indirect
kernels (under C49's conditions). Every element of it is finite and within
`8 * 2^-24 * (|bias| + K * |multiplier|) + 2^-146` of `conv * multiplier + bias`. `mt` is the post-activation multiplier tensor
the correction is computed from, `mw` and `bw` are the fused multipliers and biases. -/
theorem C73_platforms (h32 : RoundsToNearest R.fl) (h64 : RoundsToNearest64 R.dl) (hfu : R.fused = false) (hF : F.Ieee R.fl)
    (hok : p.Ok inp filt) (hgeo : p.Geom) (hsame : p.padding = .same)
    (hz : p.padValue = 0) (hsh : 1 ≤ p.strideH) (hsw : 1 ≤ p.strideW)
    (hfh : 0 < p.filtH) (hfw : 0 < p.filtW) (hci : 0 < p.cin) (hco : 0 < p.cout)
    (hm : mult.length = p.cout) (hb : bias.length = p.cout)
    (hK : 2 * (p.filtH * p.filtW * (p.cin / p.groups)) ≤ 2 ^ 24)
    (hmul : ∀ c, c < p.cout → Binary32 (mult.getD c 0))
    (hr : ∀ c, c < p.cout → |bias.getD c 0| + 4 * (((p.filtH * p.filtW * (p.cin / p.groups) : Nat) : Rat) * |mult.getD c 0|)
      ≤ 2 ^ (125 : Int))
    (hst : StoredSetup R p .none mult bias 1 0 cmin cmax mw bw)
    (hmt : mt.length = p.cout) (hmv : HoldsFloats p.cout mt mult) :
    ∃ ref, ref.length = p.batches * p.outH * p.outW * p.cout ∧ AccurateZeroPadded p mult bias inp filt ref ∧
      (∀ (pl : Platform) (stream : Bool) (E : GemmEnv) (tmp : List Word) (fat : Bool) (blocks : List Blk) (out0 : List Word),
        (E.F = F ∧ E.cmin = cmin ∧ E.cmax = cmax ∧ E.mult = mw ∧ E.bias = bw) → GemmCall p.onePadded inp filt E .float →
        GemmReads pl stream p .float → tmp.length = tmpSize pl p .float → GemmSchedule pl p .float blocks →
        out0.length = p.batches * p.outH * p.outW * p.cout →
        ∀ out, evalBGemmFloatBits pl stream tmp E p fat blocks mt inp filt out0 out ↔ out = ref) ∧
      (∀ out0 : List Word, out0.length = p.batches * p.outH * p.outW * p.cout →
        evalIndFloatBits F p mt inp filt mw bw cmin cmax out0 = some ref) ∧
      (∀ (xi xz : List Word) (v : Nat → Nat → BitVec 8) (x : Nat → NAddr) (out0 : List Word),
        0 < p.batches * p.inH * p.inW → p.filtH * p.filtW * (p.cin / p.groups) < 2 ^ 16 →
        p.cout - p.outPerGroup + ceilMul p.outPerGroup 8 ≤ mw.length →
        p.cout - p.outPerGroup + ceilMul p.outPerGroup 8 ≤ bw.length → (p.groups = 1 ∨ (4 ≤ xi.length ∧ 4 ≤ xz.length)) →
        out0.length = p.batches * p.outH * p.outW * p.cout →
        evalIndA64FloatBits F p mt inp xi xz filt mw bw cmin cmax v x out0 = some ref) := by
  have hzp : p.zeroPadding = true := by unfold BConv.zeroPadding; simp [hsame, hz]
  have hok1 : p.onePadded.Ok inp filt := by
    obtain ⟨a1, a2, a3, a4, a5, a6, a7, a8, a9, a10⟩ := hok
    exact ⟨a1, a2, a3, a4, a5, a6, a7, a8, a9, a10⟩
  have hpad : p.onePadded.padding = .valid ∨ p.onePadded.padValue = 1 := Or.inr rfl
  have hz0 : (List.replicate (p.batches * p.outH * p.outW * p.cout) (0#32)).length = p.batches * p.outH * p.outW * p.cout :=
    List.length_replicate
  obtain ⟨t, ht, -, -, hm2, hb2⟩ := id hst
  have hml := hm2.le
  have hbl := hb2.le
  have hrun : ∀ a c, a ≤ p.onePadded.filtH * p.onePadded.filtW * (p.onePadded.cin / p.onePadded.groups) → c < p.onePadded.cout →
      (runFloatBits F cmin cmax mw bw a c).isSome := by
    intro a c ha hc
    have ha' : a ≤ p.filtH * p.filtW * (p.cin / p.groups) := ha
    have hc' : c < p.cout := hc
    rw [runFloatBits_eq' (by omega) (by omega) (by omega)]
    rfl
  obtain ⟨mid, m1, m2⟩ := bits_reference_float (p := p.onePadded) (act := .none) h32 h64 hfu hF hok1 hpad hm hb hK hmul hr hst
    (out1 := List.replicate (p.batches * p.outH * p.outW * p.cout) 0#32) hz0
  have hind : ∀ out0 : List Word, out0.length = p.batches * p.outH * p.outW * p.cout →
      bconvIndirect p inp filt (runFloatBits F cmin cmax mw bw) out0 = some mid := by
    intro out0 ho
    obtain ⟨o, o1, o2⟩ := C12_indirect_eq_reference hok1 hpad hfh hfw hci hco hrun ho hz0
    rw [m1] at o2
    cases Option.some.inj o2
    exact o1
  have hlen : mid.length = p.batches * p.outH * p.outW * p.cout := by
    have h := hind _ hz0
    rw [bconvIndirect_eq hok.dims (Nat.mul_pos hfh hfw) (hok.filtDepth_pos hci) hco
      (f := fun a c => (runFloatBits F cmin cmax mw bw a c).getD 0#32)
      (fun oi c hoi hc => by
        obtain ⟨w, hw⟩ := Option.isSome_iff_exists.1 (hrun _ c (accPix_le hok hoi hc) hc)
        rw [hw]; rfl) hz0] at h
    rw [← Option.some.inj h, List.length_map, List.length_range, hz0]
  have hKK : p.filtH * p.filtW * (p.cin / p.groups) = p.K := rfl
  have eη : 16 * etaF = (2 : Rat) ^ (-146 : Int) := by
    unfold etaF
    have : (16 : Rat) = 2 ^ (4 : Int) := by norm_num
    rw [this, ← zpow_add₀ (by norm_num)]
    norm_num
  have eη8 : 8 * etaF = (2 : Rat) ^ (-147 : Int) := by
    unfold etaF
    have : (8 : Rat) = 2 ^ (3 : Int) := by norm_num
    rw [this, ← zpow_add₀ (by norm_num)]
    norm_num
  obtain ⟨cache, ref, f1, f2, f3, f4⟩ := zp_finish_with (O := ZpOps.bits F) (inp := inp) (zpExact_bits h32 hF) hok hgeo hsame hsh hsw
    hK hmt
    (Rel1 := fun c z (w : Word) => F32.Finite w ∧ |F32.val w - ((z : Rat) * mult.getD c 0 + bias.getD c 0)|
      ≤ (|bias.getD c 0| + (p.K : Rat) * |mult.getD c 0|) * (5 / 16777216) + 8 * etaF)
    (Rel := fun c z (w : Word) => F32.Finite w ∧ |F32.val w - ((z : Rat) * mult.getD c 0 + bias.getD c 0)|
      ≤ (|bias.getD c 0| + (p.K : Rat) * |mult.getD c 0|) * (8 / 16777216) + 16 * etaF)
    (by
      rintro c z o hc ⟨h1, h2⟩
      refine ⟨h1, le_trans h2 ?_⟩
      have : 0 ≤ |bias.getD c 0| + (p.K : Rat) * |mult.getD c 0| := by positivity
      have := etaF_pos
      linarith)
    (by
      rintro c z s o a m hc hs hz hmc ⟨r1, r2⟩ ⟨o1, o2⟩
      obtain ⟨w, w1, w2, w3⟩ := hmv c hc
      rw [hmc] at w1
      cases Option.some.inj w1
      have e : mult.getD c 0 = F32.val m := by rw [List.getD_eq_getElem?_getD, w3]; rfl
      have hmb := hmul c hc
      have hrr := hr c hc
      rw [e] at o2 hmb hrr ⊢
      exact bits_correct_err h32 hF w2 hmb o1 r1 r2 hs hz hrr o2)
    hlen
    (by
      intro b y x c hb hy hx hc
      obtain ⟨w, w1, w2, w3⟩ := m2 b y x c hb hy hx hc
      refine ⟨w, w1, w2, ?_⟩
      rw [eη8, show (16777216 : Rat) = 2 ^ 24 by norm_num]
      have e1 : Act.none.apply (p.onePadded.conv p.onePadded.padVal inp filt b y x c) = p.conv 1 inp filt b y x c := by
        have e0 : p.onePadded.padVal = 1 := by unfold BConv.padVal; rw [zeroPadding_false hpad]; rfl
        rw [e0]; rfl
      rw [e1] at w3
      exact w3)
    (cache0 := List.replicate (zpCacheSize p) 0#32) (by simp)
  have g1 : zpSetupBits F p filt mt = some cache := by unfold zpSetupBits; rw [if_pos hzp, f1]
  have g2 : zpFinishBits F p cache mid = some ref := by unfold zpFinishBits; rw [if_pos hzp, f2]
  refine ⟨ref, by rw [f3, hlen], ?_, ?_, ?_, ?_⟩
  · intro b y x c hb hy hx hc
    obtain ⟨w, w1, w2, w3⟩ := f4 b y x c hb hy hx hc
    refine ⟨w, w1, w2, ?_⟩
    rw [eη, show (16777216 : Rat) = 2 ^ 24 by norm_num] at w3
    exact w3
  · rintro pl stream E tmp fat blocks out0 ⟨e1, e2, e3, e4, e5⟩ hc hrd htmp hs ho out
    obtain ⟨trs, ref', k1, k2, k3⟩ := C68_float pl hc hrd htmp fat hs ho hz0
    rw [e1, e2, e3, e4, e5, m1] at k2
    cases Option.some.inj k2
    constructor
    · rintro ⟨cache', trs', mid', a1, a2, a3, a4⟩
      rw [e1, g1] at a1
      cases Option.some.inj a1
      rw [show bgemmFloatTraces pl stream tmp E p fat blocks inp filt = some trs from k1] at a2
      cases Option.some.inj a2
      rw [k3] at a3
      subst a3
      rw [e1, g2] at a4
      exact (Option.some.inj a4).symm
    · rintro rfl
      exact ⟨cache, trs, mid, by rw [e1]; exact g1, k1, (k3 _).2 rfl, by rw [e1]; exact g2⟩
  · intro out0 ho
    unfold evalIndFloatBits
    rw [g1, hind out0 ho]
    exact g2
  · intro xi xz v x out0 hin hK16 hmw hbw hx ho
    obtain ⟨c1, c2, c3⟩ := storedSetup_clamp hm hb (show 2 * p.K < 2147483648 by rw [← hKK]; omega) hst
    obtain ⟨o, o1, o2⟩ := C49_a64_float hok1 hpad hfh hfw hci hco hin hK16 c1 c2 c3 hmw hbw hx F v x ho hz0
    rw [m1] at o2
    cases Option.some.inj o2
    unfold evalIndA64FloatBits
    rw [g1, show bconvA64F p inp xi xz filt mw bw cmin cmax F v x out0 = some mid from o1]
    exact g2

end

/-! ### Hypotheses are met -/

/-- C73_platforms: a zero-padded 3x3 convolution, multiplier 3/4, bias -5/2, buffers of 5 words (as allocated), the 32-bit Arm kernel
with one block of the schedule. -/
example : ∃ (R : FlEnv) (F : FOps) (cmin cmax : Int) (mw bw mt ref : List Word), RoundsToNearest R.fl ∧ F.Ieee R.fl ∧
    StoredSetup R cornerConv .none [3 / 4] [-5 / 2] 1 0 cmin cmax mw bw ∧ HoldsFloats 1 mt [3 / 4] ∧
    AccurateZeroPadded cornerConv [3 / 4] [-5 / 2] (List.replicate 9 0#32) (List.replicate 9 0#32) ref ∧
    evalIndFloatBits F cornerConv mt (List.replicate 9 0#32) (List.replicate 9 0#32) mw bw cmin cmax (List.replicate 9 7#32)
      = some ref ∧
    ∀ v x out, evalBGemmFloatBits .arm32 true (List.replicate 16 1#32) ⟨12, 12, [], [], mw, bw, cmin, cmax, F, v, x⟩ cornerConv
      false [⟨0, 4, 0, 12⟩] mt (List.replicate 9 0#32) (List.replicate 9 0#32) (List.replicate 9 7#32) out ↔ out = ref := by
  obtain ⟨R, h1, h2, h3⟩ := exists_flEnv false
  obtain ⟨F, hF⟩ := exists_ieee h1
  obtain ⟨m, b, hf, g1, g2, g3, g4⟩ := otFuseFl_eq (R := R) (p := cornerConv) (k := (cornerConv.K : Int)) (scale := 1) (zp := 0)
    (mult := [3 / 4]) (bias := [-5 / 2]) rfl rfl
  have hset := otSetupFl_eq (act := .none) (p := cornerConv) rfl (by decide) hf
  have hb0 : Binary32 (3 / 4 : Rat) := ⟨3, -2, by norm_num, by norm_num, by norm_num, by norm_num⟩
  have c0 : ∀ c, c < cornerConv.cout → c = 0 := by
    intro c hc
    have : c < 1 := hc
    omega
  have words : ∀ (xs : List Rat) (n : Nat), (∃ y, Binary32 y ∧ xs[0]? = some y) →
      ∃ ws : List Word, ws.length = 1 + n ∧ HoldsFloats 1 ws xs := by
    intro xs n hx
    obtain ⟨y, y1, y2⟩ := hx
    obtain ⟨ws, w1, w2⟩ := exists_holdsFloats (n := 1) (xs := [y]) (le_refl 1) (fun x hx' => by
      rw [List.mem_singleton] at hx'
      rw [hx']; exact y1)
    refine ⟨ws ++ List.replicate n 0#32, by rw [List.length_append, w1, List.length_replicate]; rfl, ?_⟩
    intro c hc
    have : c = 0 := by omega
    subst this
    obtain ⟨w, v1, v2, v3⟩ := w2 0 hc
    refine ⟨w, ?_, v2, ?_⟩
    · rw [List.getElem?_append_left (by rw [w1]; exact Nat.one_pos)]; exact v1
    · rw [y2]; exact v3
  obtain ⟨mw, m1, m2⟩ := words m 4 (by
    refine ⟨_, ?_, g1 0 (by decide)⟩
    refine (h1 _ ?_).1
    show |R.dl (R.dl (-1 * (3 / 4)) / 1)| ≤ _
    rw [show (-1 * (3 / 4) : Rat) = -(3 / 4) by ring, div_one, h2.fix' hb0.neg.to64, h2.fix' hb0.neg.to64]
    exact hb0.neg.le_max)
  obtain ⟨bw, b1, b2⟩ := words b 4 (by
    refine ⟨_, ?_, g2 0 (by decide)⟩
    refine (h1 _ ?_).1
    show |R.dl (R.dl (R.dl (-5 / 2 + R.dl (((cornerConv.K : Int) : Rat) * (3 / 4))) / 1) + 0)| ≤ _
    rw [show (cornerConv.K : Int) = 288 from by decide]
    have p1 : Binary32 (216 : Rat) := ⟨216, 0, by norm_num, by norm_num, by norm_num, by norm_num⟩
    have p2 : Binary32 (427 / 2 : Rat) := ⟨427, -1, by norm_num, by norm_num, by norm_num, by norm_num⟩
    rw [show ((288 : Int) : Rat) * (3 / 4) = 216 by norm_num, h2.fix' p1.to64, show (-5 / 2 + 216 : Rat) = 427 / 2 by norm_num,
      h2.fix' p2.to64, div_one, h2.fix' p2.to64, add_zero, h2.fix' p2.to64]
    exact p2.le_max)
  obtain ⟨mt, t1, t2⟩ := words [3 / 4] 0 ⟨3 / 4, hb0, rfl⟩
  have hst : StoredSetup R cornerConv .none [3 / 4] [-5 / 2] 1 0 _ _ mw bw := ⟨_, hset, rfl, rfl, m2, b2⟩
  have hok := cornerConv_ok
  obtain ⟨ref, -, r2, r3, r4, -⟩ := C73_platforms (R := R) (F := F) h1 h2 h3 hF hok ⟨by decide, by decide, by decide, by decide⟩ rfl rfl
    (by decide) (by decide) (by decide) (by decide) (by decide) (by decide) rfl rfl (by decide)
    (by
      intro c hc
      rw [c0 c hc]
      exact hb0)
    (by
      intro c hc
      rw [c0 c hc, show cornerConv.filtH * cornerConv.filtW * (cornerConv.cin / cornerConv.groups) = 288 from by decide]
      simp only [List.getD_cons_zero]
      norm_num [abs_of_pos, abs_of_neg]) hst t1 t2
  obtain ⟨q1, q2, q3⟩ := storedSetup_clamp rfl rfl (by decide) hst
  refine ⟨R, F, _, _, mw, bw, mt, ref, h1, hF, hst, t2, r2, r4 _ rfl, ?_⟩
  intro v x out
  refine r3 .arm32 true _ _ false _ _ ⟨rfl, rfl, rfl, rfl, rfl⟩ ?_ ?_ rfl ?_ rfl out
  · have hok1 : cornerConv.onePadded.Ok (List.replicate 9 0#32) (List.replicate 9 0#32) := by
      obtain ⟨a1, a2, a3, a4, a5, a6, a7, a8, a9, a10⟩ := hok
      exact ⟨a1, a2, a3, a4, a5, a6, a7, a8, a9, a10⟩
    exact { ok := hok1, groups := rfl, geom := ⟨by decide, by decide, by decide, by decide⟩, pad := Or.inr rfl, filtH := by decide,
            filtW := by decide, cin := by decide, cout := by decide, pixels := by decide, depth := by decide,
            cmin := q1, cmax := q2, clamp := q3, ls := show _ ≤ 12 by decide, rs := show _ ≤ 12 by decide,
            mult := m1, bias := fun _ => b1 }
  · intro h
    exact absurd h (by decide)
  · refine ⟨⟨by decide, ?_⟩, by decide⟩
    intro i j hi hj
    have hi' : i < 1 := hi
    have hj' : j < 9 := hj
    exact ⟨_, List.mem_singleton.2 rfl, Nat.zero_le _, by show i < 4; omega, Nat.zero_le _, by show j < 12; omega⟩

end Verif
