import Verif.Model.Dispatch
import Verif.Props.GemmA64
import Verif.Props.GemmA32
import Verif.Proof.Ieee

/-!
C68: the result of a BGEMM convolution does not depend on the platform: whatever kernel, accumulator width, schedule and interleaving
the code selects, the result is the reference kernel's (int8: up to the platform's rounding). Exactly when every load is within the
buffers the op allocates is part of the statement.
-/

namespace Verif

/-- What a BGEMM convolution is called with: parameters and buffers as after `Prepare` and `OneTimeSetup` (`channels_out + 4`
multipliers and biases, `channels_out` thresholds), without zero padding; the result must fit the 32-bit arithmetic of the output
transform. -/
structure GemmCall (p : BConv) (inp filt : List Word) (E : GemmEnv) (d : Dst) : Prop where
  ok : p.Ok inp filt
  groups : p.groups = 1
  geom : p.Geom
  pad : p.padding = .valid ∨ p.padValue = 1
  filtH : 0 < p.filtH
  filtW : 0 < p.filtW
  cin : 0 < p.cin
  cout : 0 < p.cout
  pixels : 0 < p.batches * p.outH * p.outW
  depth : 2 * (p.filtH * p.filtW * p.cin) < 2147483648
  cmin : Fits32 E.cmin
  cmax : Fits32 E.cmax
  clamp : E.cmin ≤ E.cmax
  ls : ceilMul (p.filtDepth * p.filtH * p.filtW) 4 ≤ E.ls
  rs : ceilMul (p.filtDepth * p.filtH * p.filtW) 4 ≤ E.rs
  mult : E.mult.length = if d = .bits then p.cout else p.cout + 4
  bias : d ≠ .bits → E.bias.length = p.cout + 4

/-- ruy's schedule for the kernel that will run: non-empty blocks, aligned to its layout, that cover the destination. -/
def GemmSchedule (pl : Platform) (p : BConv) (d : Dst) (blocks : List Blk) : Prop :=
  Schedule p.cout (p.batches * p.outH * p.outW) (bgemmLayout pl p d).1 (bgemmLayout pl p d).2 blocks ∧
    ∀ b ∈ blocks, b.r0 < b.r1 ∧ b.c0 < b.c1

/-- When the kernel that will run stays within its buffers. Only 64-bit Arm has a condition: with 16-bit accumulators (fewer than
65024 products per output) on the number of channels, with 32-bit accumulators and a streaming kernel on the packed depth. -/
def GemmReads (pl : Platform) (stream : Bool) (p : BConv) (d : Dst) : Prop :=
  pl = .aarch64 →
    if p.filtH * p.filtW * p.cin < 65024 then
      (match d with
        | .bits => p.cout % 8 = 0
        | _ => p.cout % 8 = 0 ∨ 4 ≤ p.cout % 8)
    else d ≠ .bits → stream = true →
      ceilMul (p.filtDepth * p.filtH * p.filtW) 4 = 4 ∨
        (16 ≤ ceilMul (p.filtDepth * p.filtH * p.filtW) 4 ∧ ceilMul (p.filtDepth * p.filtH * p.filtW) 4 % 8 = 0)

/-- The size of `dst_tmp_buf`. -/
def tmpSize (pl : Platform) (p : BConv) (d : Dst) : Nat := (bgemmLayout pl p d).1 * (bgemmLayout pl p d).2

section
variable {p : BConv} {inp filt : List Word} {E : GemmEnv} {stream : Bool}

theorem sel_iff : bgemm16Selected p = true ↔ p.filtH * p.filtW * p.cin < 65024 := by
  unfold bgemm16Selected; rw [decide_eq_true_eq]; omega

theorem elem_unique {α : Type} {trs : List (List (Write α))} {out0 ref : List α}
    (h : ∀ L, L.Perm trs.flatten → applyWrites L out0 = some ref) : ∀ out, elemResult trs out0 out ↔ out = ref := by
  intro out
  constructor
  · rintro ⟨L, hL, he⟩
    rw [h L hL] at he
    exact (Option.some.inj he).symm
  · rintro rfl
    exact ⟨trs.flatten, List.Perm.refl _, h _ (List.Perm.refl _)⟩

theorem ceil8_le {n : Nat} : ceilMul n 8 ≤ n + 4 ↔ n % 8 = 0 ∨ 4 ≤ n % 8 := by
  unfold ceilMul ceilDiv; omega

theorem ceil8_le' {n : Nat} : ceilMul n 8 ≤ n ↔ n % 8 = 0 := by
  unfold ceilMul ceilDiv; omega

theorem runFloatBits_some (hc : GemmCall p inp filt E .float ∨ GemmCall p inp filt E .int8) (a c : Nat)
    (ha : a ≤ p.filtH * p.filtW * (p.cin / p.groups)) (hcc : c < p.cout) :
    (runFloatBits E.F E.cmin E.cmax E.mult E.bias a c).isSome := by
  have h : p.groups = 1 ∧ 2 * (p.filtH * p.filtW * p.cin) < 2147483648 ∧ E.mult.length = p.cout + 4 ∧ E.bias.length = p.cout + 4 := by
    rcases hc with hc | hc
    · exact ⟨hc.groups, hc.depth, hc.mult, hc.bias (by decide)⟩
    · exact ⟨hc.groups, hc.depth, hc.mult, hc.bias (by decide)⟩
  obtain ⟨h1, h2, h3, h4⟩ := h
  rw [h1, Nat.div_one] at ha
  rw [runFloatBits_eq' (by omega) (by omega) (by omega)]
  rfl

/-- **C68**, float output: on every platform, for every schedule and interleaving of the blocks, the convolution is free of undefined
behaviour and its result is the reference kernel's, provided the loads stay within the buffers (`GemmReads`). -/
theorem C68_float (pl : Platform) (hc : GemmCall p inp filt E .float) (hr : GemmReads pl stream p .float)
    {tmp : List Word} (htmp : tmp.length = tmpSize pl p .float) (fat : Bool) {blocks : List Blk} (hs : GemmSchedule pl p .float blocks)
    {out0 out1 : List Word} (ho0 : out0.length = p.batches * p.outH * p.outW * p.cout)
    (ho1 : out1.length = p.batches * p.outH * p.outW * p.cout) :
    ∃ trs ref, bgemmFloatTraces pl stream tmp E p fat blocks inp filt = some trs ∧
      bconvReference p inp filt (runFloatBits E.F E.cmin E.cmax E.mult E.bias) out1 = some ref ∧
      ∀ out, elemResult trs out0 out ↔ out = ref := by
  have hm : E.mult.length = p.cout + 4 := hc.mult
  have hb := hc.bias (by decide)
  have h4 : ceilMul p.cout 4 ≤ p.cout + 4 := C56_buffers_suffice _
  cases pl
  · obtain ⟨trs, ref, e1, e2, e3⟩ := C14_bgemm_eq_reference hc.ok hc.groups hc.geom hc.pad hc.cout
      (runFloatBits_some (Or.inl hc)) fat hs.1 ho0 ho1
    exact ⟨trs, ref, e1, e2, elem_unique e3⟩
  · obtain ⟨trs, ref, e1, e2, e3⟩ := C56_a32_bgemm_float hc.ok hc.groups hc.geom hc.pad hc.filtH hc.filtW hc.cin hc.depth hc.cmin
      hc.cmax hc.clamp hc.ls hc.rs (by omega) (by omega) htmp fat hs.1 hs.2 ho0 ho1
    exact ⟨trs, ref, e1, e2, elem_unique e3⟩
  · have hr' := hr rfl
    by_cases hsel : bgemm16Selected p = true
    · have ha : accumIs16 .aarch64 p = true := hsel
      rw [if_pos (sel_iff.1 hsel)] at hr'
      have h8 := ceil8_le.2 hr'
      have hl : bgemmLayout .aarch64 p .float = (8, 4) := by
        unfold bgemmLayout bgemmPath; rw [ha]; rfl
      unfold tmpSize at htmp
      unfold GemmSchedule at hs
      rw [hl] at htmp hs
      obtain ⟨trs, ref, e1, e2, e3⟩ := C52_a64_bgemm_float hc.ok hc.groups hc.geom hc.pad hc.filtH hc.filtW hc.cin hsel hc.cmin hc.cmax
        hc.clamp hc.ls hc.rs (by omega) (by omega) htmp fat hs.1 hs.2 ho0 ho1
      refine ⟨trs, ref, ?_, e2, elem_unique e3⟩
      unfold bgemmFloatTraces bgemmPath
      rw [ha]
      exact e1
    · have ha : accumIs16 .aarch64 p = false := by
        show bgemm16Selected p = false
        exact Bool.eq_false_iff.2 hsel
      rw [if_neg (fun h => hsel (sel_iff.2 h))] at hr'
      have hst : StreamOk stream (ceilMul (p.filtDepth * p.filtH * p.filtW) 4) := by
        cases stream
        · exact Or.inl rfl
        · exact Or.inr (hr' (by decide) rfl)
      have hl : bgemmLayout .aarch64 p .float = (4, 4) := by
        unfold bgemmLayout bgemmPath; rw [ha]; rfl
      unfold tmpSize at htmp
      unfold GemmSchedule at hs
      rw [hl] at htmp hs
      obtain ⟨trs, ref, e1, e2, e3⟩ := C54_a64_bgemm4_float_partial hc.ok hc.groups hc.geom hc.pad hc.filtH hc.filtW hc.cin hst hc.depth
        hc.cmin hc.cmax hc.clamp hc.ls hc.rs (by omega) (by omega) htmp fat hs.1 hs.2 ho0 ho1
      refine ⟨trs, ref, ?_, e2, elem_unique e3⟩
      unfold bgemmFloatTraces bgemmPath
      rw [ha]
      exact e1

/-- **C68**, float output: when nothing lies behind the packed filter, the condition is exact: otherwise every schedule makes the
kernel read outside its buffers. -/
theorem C68_float_reads (pl : Platform) (hc : GemmCall p inp filt E .float)
    (hls : E.ls = ceilMul (p.filtDepth * p.filtH * p.filtW) 4) (hrs : E.rs = ceilMul (p.filtDepth * p.filtH * p.filtW) 4)
    (hxl : E.xl = []) {tmp : List Word} (htmp : tmp.length = tmpSize pl p .float) (fat : Bool) {blocks : List Blk}
    (hs : GemmSchedule pl p .float blocks) :
    (bgemmFloatTraces pl stream tmp E p fat blocks inp filt).isSome ↔ GemmReads pl stream p .float := by
  constructor
  swap
  · intro hr
    obtain ⟨trs, _, e, _⟩ := C68_float pl hc hr htmp fat hs
      (out0 := List.replicate (p.batches * p.outH * p.outW * p.cout) 0#32)
      (out1 := List.replicate (p.batches * p.outH * p.outW * p.cout) 0#32) (by simp) (by simp)
    rw [e]; rfl
  · intro h hpl
    subst hpl
    have hm : E.mult.length = p.cout + 4 := hc.mult
    have hb := hc.bias (by decide)
    by_cases hsel : bgemm16Selected p = true
    · have ha : accumIs16 .aarch64 p = true := hsel
      rw [if_pos (sel_iff.1 hsel)]
      have hl : bgemmLayout .aarch64 p .float = (8, 4) := by
        unfold bgemmLayout bgemmPath; rw [ha]; rfl
      unfold tmpSize at htmp
      unfold GemmSchedule at hs
      rw [hl] at htmp hs
      unfold bgemmFloatTraces bgemmPath at h
      rw [ha] at h
      exact (C55_reads_float hc.ok hc.groups hc.geom hc.pad hc.filtH hc.filtW hc.cin hc.cout hc.pixels hsel hc.cmin hc.cmax
        hc.clamp hc.ls hc.rs hm hb htmp fat hs.1 hs.2).1 h
    · have ha : accumIs16 .aarch64 p = false := Bool.eq_false_iff.2 hsel
      rw [if_neg (fun h => hsel (sel_iff.2 h))]
      have hl : bgemmLayout .aarch64 p .float = (4, 4) := by
        unfold bgemmLayout bgemmPath; rw [ha]; rfl
      unfold tmpSize at htmp
      unfold GemmSchedule at hs
      rw [hl] at htmp hs
      unfold bgemmFloatTraces bgemmPath at h
      rw [ha] at h
      intro _ hst
      rcases (C55_reads_4x4_float hc.ok hc.groups hc.geom hc.pad hc.filtH hc.filtW hc.cin hc.cout hc.pixels hc.depth hc.cmin hc.cmax
        hc.clamp hls hrs hxl hm hb htmp fat hs.1 hs.2).1 h with h' | h'
      · rw [hst] at h'; cases h'
      · exact h'

/-- **C68**, float output: two platforms give the same bits. The environments differ in everything the platforms determine (packing
strides, memory behind the matrices, initial registers). -/
theorem C68_float_platforms (pl pl' : Platform) {stream' : Bool} {E' : GemmEnv} (hc : GemmCall p inp filt E .float)
    (hc' : GemmCall p inp filt E' .float)
    (hE : E'.F = E.F ∧ E'.cmin = E.cmin ∧ E'.cmax = E.cmax ∧ E'.mult = E.mult ∧ E'.bias = E.bias)
    (hr : GemmReads pl stream p .float) (hr' : GemmReads pl' stream' p .float)
    {tmp tmp' : List Word} (htmp : tmp.length = tmpSize pl p .float) (htmp' : tmp'.length = tmpSize pl' p .float) (fat fat' : Bool)
    {blocks blocks' : List Blk} (hs : GemmSchedule pl p .float blocks) (hs' : GemmSchedule pl' p .float blocks')
    {out0 out1 : List Word} (ho0 : out0.length = p.batches * p.outH * p.outW * p.cout)
    (ho1 : out1.length = p.batches * p.outH * p.outW * p.cout) :
    ∃ trs trs' out, bgemmFloatTraces pl stream tmp E p fat blocks inp filt = some trs ∧
      bgemmFloatTraces pl' stream' tmp' E' p fat' blocks' inp filt = some trs' ∧
      (∀ o, elemResult trs out0 o ↔ o = out) ∧ ∀ o, elemResult trs' out1 o ↔ o = out := by
  obtain ⟨trs, ref, e1, e2, e3⟩ := C68_float pl hc hr htmp fat hs ho0 ho0
  obtain ⟨trs', ref', f1, f2, f3⟩ := C68_float pl' hc' hr' htmp' fat' hs' ho1 ho0
  obtain ⟨g1, g2, g3, g4, g5⟩ := hE
  rw [g1, g2, g3, g4, g5, e2] at f2
  cases Option.some.inj f2
  exact ⟨trs, trs', ref, e1, f1, e3, f3⟩

/-! ### int8 output -/

/-- How a platform turns the exact value of a float result into an int8: saturated, after rounding half away from zero (C++), half to
even (64-bit Arm), or from fixed point with 8 fraction bits, half up (32-bit Arm). -/
def platformInt8 : Platform → Rat → Int
  | .portable, y => max (-128) (min 127 (roundHalfAway y))
  | .aarch64, y => max (-128) (min 127 (roundHalfEven y))
  | .arm32, y => max (-128) (min 127 ((fix8 y + 128) / 256))

/-- The conversions of the platforms do what their manuals say. -/
structure Conversions (F : FOps) (rnd : Word → Int) : Prop where
  cpp : ∀ w : Word, F32.Finite w → rnd w = roundHalfAway (F32.val w)
  fcvtns : ∀ w : Word, F32.Finite w → (F.fcvtns w).toInt = max (-2147483648) (min 2147483647 (roundHalfEven (F32.val w)))
  fix8 : ∀ w : Word, F32.Finite w → (F.fcvtFix8 w).toInt = fix8 (F32.val w)

theorem ref_map {α : Type} {g : Word → α} {run : Nat → Nat → Option α} (hok : p.Ok inp filt)
    (hpad : p.padding = .valid ∨ p.padValue = 1) (hg : p.groups = 1)
    (hK : 2 * (p.filtH * p.filtW * p.cin) < 2147483648) (hm : p.cout ≤ E.mult.length) (hb : p.cout ≤ E.bias.length)
    (hrun : ∀ a c y, a ≤ p.filtH * p.filtW * p.cin → c < p.cout → runFloatBits E.F E.cmin E.cmax E.mult E.bias a c = some y →
      run a c = some (g y))
    {out1 ref : List Word} (ho1 : out1.length = p.batches * p.outH * p.outW * p.cout)
    (href : bconvReference p inp filt (runFloatBits E.F E.cmin E.cmax E.mult E.bias) out1 = some ref)
    {out2 out : List α} (ho2 : out2.length = p.batches * p.outH * p.outW * p.cout)
    (he : bconvReference p inp filt run out2 = some out) : out = ref.map g := by
  have hz := zeroPadding_false hpad
  have hK' : p.K = p.filtH * p.filtW * p.cin := by unfold BConv.K BConv.cinG; rw [hg, Nat.div_one]
  have e1 := bconvReference_list hok hz (f := fun a c => E.F.fadd (E.F.fmul (E.F.scvtf (BitVec.ofInt 32
      (max (min ((a : Int) * 2) E.cmax) E.cmin))) (E.mult.getD c 0#32)) (E.bias.getD c 0#32))
    (fun a c ha hc => runFloatBits_eq' (F := E.F) (by omega) (by omega) (by omega)) ho1
  have e2 := bconvReference_list hok hz (run := run) (f := fun a c => g (E.F.fadd (E.F.fmul (E.F.scvtf (BitVec.ofInt 32
      (max (min ((a : Int) * 2) E.cmax) E.cmin))) (E.mult.getD c 0#32)) (E.bias.getD c 0#32)))
    (fun a c ha hc => hrun a c _ (by omega) hc (runFloatBits_eq' (F := E.F) (by omega) (by omega) (by omega))) ho2
  rw [e1] at href
  rw [e2] at he
  rw [← Option.some.inj he, ← Option.some.inj href, ho1, ho2, List.map_map]
  rfl

theorem clamp_clamp (z : Int) : max (-128) (min 127 (max (-2147483648) (min 2147483647 z))) = max (-128) (min 127 z) := by omega

/-- **C68**, int8 output: on every platform, schedule and interleaving, the result is, element by element, the float result `ref` of
the reference kernel (the same on all platforms, C68_float), rounded the way of the platform. `hfin`: no value an accumulator can
lead to leaves the int32 range (C10). -/
theorem C68_int8 (pl : Platform) {rnd : Word → Int} (hv : Conversions E.F rnd) (hc : GemmCall p inp filt E .int8)
    (hfin : ∀ a c y, a ≤ p.filtH * p.filtW * p.cin → c < p.cout → runFloatBits E.F E.cmin E.cmax E.mult E.bias a c = some y →
      F32.Finite y ∧ -2147483648 ≤ roundHalfAway (F32.val y) ∧ roundHalfAway (F32.val y) ≤ 2147483647)
    (hr : GemmReads pl stream p .int8)
    {tmp : List (BitVec 8)} (htmp : tmp.length = tmpSize pl p .int8) (fat : Bool) {blocks : List Blk}
    (hs : GemmSchedule pl p .int8 blocks)
    {out0 : List (BitVec 8)} {out1 ref : List Word} (ho0 : out0.length = p.batches * p.outH * p.outW * p.cout)
    (ho1 : out1.length = p.batches * p.outH * p.outW * p.cout)
    (href : bconvReference p inp filt (runFloatBits E.F E.cmin E.cmax E.mult E.bias) out1 = some ref) :
    ∃ trs, bgemmInt8Traces pl stream rnd tmp E p fat blocks inp filt = some trs ∧
      ∀ out, elemResult trs out0 out ↔ out = ref.map fun w => BitVec.ofInt 8 (platformInt8 pl (F32.val w)) := by
  have hm : E.mult.length = p.cout + 4 := hc.mult
  have hb := hc.bias (by decide)
  have h4 : ceilMul p.cout 4 ≤ p.cout + 4 := C56_buffers_suffice _
  have done : ∀ (run : Nat → Nat → Option (BitVec 8)) (X : Option (List (List (Write (BitVec 8))))),
      (∀ a c y, a ≤ p.filtH * p.filtW * p.cin → c < p.cout → runFloatBits E.F E.cmin E.cmax E.mult E.bias a c = some y →
        run a c = some (BitVec.ofInt 8 (platformInt8 pl (F32.val y)))) →
      (∃ trs out, X = some trs ∧ bconvReference p inp filt run out0 = some out ∧
        ∀ L, L.Perm trs.flatten → applyWrites L out0 = some out) →
      ∃ trs, X = some trs ∧
        ∀ out, elemResult trs out0 out ↔ out = ref.map fun w => BitVec.ofInt 8 (platformInt8 pl (F32.val w)) := by
    rintro run X hrun ⟨trs, out, e1, e2, e3⟩
    have := ref_map (E := E) hc.ok hc.pad hc.groups hc.depth (by omega) (by omega) hrun ho1 href ho0 e2
    subst this
    exact ⟨trs, e1, elem_unique e3⟩
  have i64 : ∀ a c y, a ≤ p.filtH * p.filtW * p.cin → c < p.cout → runFloatBits E.F E.cmin E.cmax E.mult E.bias a c = some y →
      runInt8Bits E.F E.cmin E.cmax E.mult E.bias a c = some (BitVec.ofInt 8 (platformInt8 .aarch64 (F32.val y))) := by
    intro a c y ha hcc hy
    unfold runInt8Bits
    rw [hy, Option.bind_eq_bind, Option.bind_some, hv.fcvtns y (hfin a c y ha hcc hy).1, clamp_clamp]
    rfl
  cases pl
  · refine done (runInt8Cpp E.F rnd E.cmin E.cmax E.mult E.bias) _ ?_ (C14_bgemm_eq_reference hc.ok hc.groups hc.geom hc.pad hc.cout
      ?_ fat hs.1 ho0 ho0)
    · intro a c y ha hcc hy
      obtain ⟨f1, f2, f3⟩ := hfin a c y ha hcc hy
      unfold runInt8Cpp
      rw [hy, Option.bind_eq_bind, Option.bind_some, hv.cpp y f1, chk32_eq (by omega) (by omega), Option.bind_eq_bind,
        Option.bind_some]
      unfold saturate platformInt8
      refine congrArg (fun z => some (BitVec.ofInt 8 z)) ?_
      simp only
      omega
    · intro a c ha hcc
      obtain ⟨y, hy⟩ := Option.isSome_iff_exists.1 (runFloatBits_some (Or.inr hc) a c ha hcc)
      rw [hc.groups, Nat.div_one] at ha
      obtain ⟨f1, f2, f3⟩ := hfin a c y ha hcc hy
      unfold runInt8Cpp
      rw [hy, Option.bind_eq_bind, Option.bind_some, hv.cpp y f1, chk32_eq (by omega) (by omega)]
      rfl
  · refine done (runInt8Fix8Bits E.F E.cmin E.cmax E.mult E.bias) _ ?_ (C57_a32_bgemm_int8 hc.ok hc.groups hc.geom hc.pad hc.filtH
      hc.filtW hc.cin hc.depth hc.cmin hc.cmax hc.clamp hc.ls hc.rs (by omega) (by omega) htmp fat hs.1 hs.2 ho0 ho0)
    intro a c y ha hcc hy
    unfold runInt8Fix8Bits
    rw [hy, Option.bind_eq_bind, Option.bind_some, hv.fix8 y (hfin a c y ha hcc hy).1]
    rfl
  · have hr' := hr rfl
    by_cases hsel : bgemm16Selected p = true
    · have ha : accumIs16 .aarch64 p = true := hsel
      rw [if_pos (sel_iff.1 hsel)] at hr'
      have h8 := ceil8_le.2 hr'
      have hl : bgemmLayout .aarch64 p .int8 = (8, 4) := by
        unfold bgemmLayout bgemmPath; rw [ha]; rfl
      unfold tmpSize at htmp
      unfold GemmSchedule at hs
      rw [hl] at htmp hs
      unfold bgemmInt8Traces bgemmPath
      rw [ha]
      exact done _ _ i64 (C52_a64_bgemm_int8 hc.ok hc.groups hc.geom hc.pad hc.filtH hc.filtW hc.cin hsel hc.cmin hc.cmax
        hc.clamp hc.ls hc.rs (by omega) (by omega) htmp fat hs.1 hs.2 ho0 ho0)
    · have ha : accumIs16 .aarch64 p = false := Bool.eq_false_iff.2 hsel
      rw [if_neg (fun h => hsel (sel_iff.2 h))] at hr'
      have hst : StreamOk stream (ceilMul (p.filtDepth * p.filtH * p.filtW) 4) := by
        cases stream
        · exact Or.inl rfl
        · exact Or.inr (hr' (by decide) rfl)
      have hl : bgemmLayout .aarch64 p .int8 = (4, 4) := by
        unfold bgemmLayout bgemmPath; rw [ha]; rfl
      unfold tmpSize at htmp
      unfold GemmSchedule at hs
      rw [hl] at htmp hs
      unfold bgemmInt8Traces bgemmPath
      rw [ha]
      exact done _ _ i64 (C54_a64_bgemm4_int8_partial hc.ok hc.groups hc.geom hc.pad hc.filtH hc.filtW hc.cin hst hc.depth
        hc.cmin hc.cmax hc.clamp hc.ls hc.rs (by omega) (by omega) htmp fat hs.1 hs.2 ho0 ho0)

/-- Every platform's int8 is the saturation of an integer less than 1/2 + 1/256 from the value. -/
theorem platformInt8_near (pl : Platform) (y : Rat) : ∃ R : Int, platformInt8 pl y = max (-128) (min 127 R) ∧
    (R : Rat) - 1 / 2 - 1 / 256 < y ∧ y < R + 1 / 2 + 1 / 256 := by
  cases pl
  · obtain ⟨h1, h2⟩ := roundHalfAway_near y
    exact ⟨_, rfl, by linarith, by linarith⟩
  · by_cases hb : 4194304 < y ∨ y < -4194304
    · obtain ⟨h1, h2⟩ := roundHalfAway_near y
      refine ⟨roundHalfAway y, ?_, by linarith, by linarith⟩
      show max (-128) (min 127 ((fix8 y + 128) / 256)) = _
      unfold fix8
      rcases hb with hb | hb
      · have a1 : (4194303 : Rat) < roundHalfAway y := by linarith
        have a2 : 4194303 < roundHalfAway y := by exact_mod_cast a1
        have hy : 0 ≤ y := by linarith
        rw [if_pos hy]
        have a3 : 1073741824 ≤ (256 * y).floor := by
          show (1073741824 : Int) ≤ ⌊256 * y⌋
          refine Int.le_floor.2 ?_
          push_cast
          linarith
        generalize (256 * y).floor = t at *
        omega
      · have a1 : (roundHalfAway y : Rat) < -4194303 := by linarith
        have a2 : roundHalfAway y < -4194303 := by exact_mod_cast a1
        have hy : ¬ 0 ≤ y := by push Not; linarith
        rw [if_neg hy]
        have a3 : 1073741824 ≤ (256 * -y).floor := by
          show (1073741824 : Int) ≤ ⌊256 * -y⌋
          refine Int.le_floor.2 ?_
          push_cast
          linarith
        generalize (256 * -y).floor = t at *
        omega
    · push Not at hb
      obtain ⟨b1, b2⟩ := hb
      have ht : ∃ t : Int, fix8 y = t ∧ (t : Rat) - 1 < 256 * y ∧ 256 * y < t + 1 := by
        by_cases h0 : 0 ≤ y
        · have f1 : (((256 * y).floor : Int) : Rat) ≤ 256 * y := Int.floor_le _
          have f2 : 256 * y < ((256 * y).floor : Int) + 1 := Int.lt_floor_add_one _
          have f3 : (256 * y).floor ≤ 1073741824 := by
            have : (((256 * y).floor : Int) : Rat) ≤ 1073741824 := by linarith
            exact_mod_cast this
          have f4 : 0 ≤ (256 * y).floor := Int.floor_nonneg.2 (show (0 : Rat) ≤ 256 * y by linarith)
          refine ⟨(256 * y).floor, ?_, by linarith, by linarith⟩
          unfold fix8
          rw [if_pos h0]
          omega
        · have f1 : (((256 * -y).floor : Int) : Rat) ≤ 256 * -y := Int.floor_le _
          have f2 : 256 * -y < ((256 * -y).floor : Int) + 1 := Int.lt_floor_add_one _
          have f3 : (256 * -y).floor ≤ 1073741824 := by
            have : (((256 * -y).floor : Int) : Rat) ≤ 1073741824 := by linarith
            exact_mod_cast this
          have f4 : 0 ≤ (256 * -y).floor := Int.floor_nonneg.2 (show (0 : Rat) ≤ 256 * -y by linarith)
          refine ⟨-(256 * -y).floor, ?_, by push_cast; linarith, by push_cast; linarith⟩
          unfold fix8
          rw [if_neg h0]
          omega
      obtain ⟨t, e, t1, t2⟩ := ht
      refine ⟨(t + 128) / 256, by rw [← e]; rfl, ?_, ?_⟩
      · have : 256 * ((t + 128) / 256) ≤ t + 128 := by omega
        have : (256 : Rat) * (((t + 128) / 256 : Int) : Rat) ≤ t + 128 := by exact_mod_cast this
        linarith
      · have : t ≤ 256 * ((t + 128) / 256) + 127 := by omega
        have : (t : Rat) ≤ 256 * (((t + 128) / 256 : Int) : Rat) + 127 := by exact_mod_cast this
        linarith
  · obtain ⟨h1, h2⟩ := roundHalfEven_near y
    exact ⟨_, rfl, by linarith, by linarith⟩

/-- **C68**, int8 output: the roundings of the platforms differ by at most one, and only for values less than 1/256 from a
half-integer. -/
theorem C68_rounding (pl pl' : Platform) (y : Rat) :
    |platformInt8 pl y - platformInt8 pl' y| ≤ 1 ∧
      (platformInt8 pl y ≠ platformInt8 pl' y → ∃ n : Int, |y - ((n : Rat) + 1 / 2)| < 1 / 256) := by
  obtain ⟨R, e, a1, a2⟩ := platformInt8_near pl y
  obtain ⟨R', e', b1, b2⟩ := platformInt8_near pl' y
  have c1 : R < R' + 2 := by
    have : (R : Rat) < (R' : Rat) + 2 := by linarith
    exact_mod_cast this
  have c2 : R' < R + 2 := by
    have : (R' : Rat) < (R : Rat) + 2 := by linarith
    exact_mod_cast this
  rw [e, e']
  refine ⟨abs_le.2 ⟨by omega, by omega⟩, ?_⟩
  intro hne
  have hc : R' = R + 1 ∨ R = R' + 1 := by
    by_contra hn
    have : R = R' := by omega
    exact hne (by rw [this])
  rcases hc with h | h
  · subst h
    push_cast at b1 b2
    exact ⟨R, abs_lt.2 ⟨by linarith, by linarith⟩⟩
  · subst h
    push_cast at a1 a2
    exact ⟨R', abs_lt.2 ⟨by linarith, by linarith⟩⟩

/-- The platforms do differ: 1/2 becomes 1 in C++ and on 32-bit Arm, 0 on 64-bit Arm; -3/2 becomes -2, -1 and -2. -/
theorem C68_rounding_witness :
    (platformInt8 .portable (1 / 2) = 1 ∧ platformInt8 .arm32 (1 / 2) = 1 ∧ platformInt8 .aarch64 (1 / 2) = 0) ∧
    (platformInt8 .portable (-3 / 2) = -2 ∧ platformInt8 .arm32 (-3 / 2) = -1 ∧ platformInt8 .aarch64 (-3 / 2) = -2) := by
  decide +kernel

/-! ### bitpacked output -/

theorem memBytes_inj : ∀ {a b : List Word}, memBytes a = memBytes b → a = b := by
  intro a
  induction a with
  | nil =>
    intro b h
    cases b with
    | nil => rfl
    | cons w ws => simp [memBytes] at h
  | cons v vs ih =>
    intro b h
    cases b with
    | nil => simp [memBytes] at h
    | cons w ws =>
      unfold memBytes at h
      simp only [List.flatMap_cons, List.cons_append, List.nil_append, List.cons.injEq] at h
      obtain ⟨h0, h1, h2, h3, h4⟩ := h
      rw [ih h4]
      congr 1
      have e1 := laneWord_wordByte (v := fun j => wordByte w j) (l := 0) (w := w) (fun j _ => by simp)
      rw [← e1]
      symm
      refine laneWord_wordByte (fun j hj => ?_)
      have : j = 0 ∨ j = 1 ∨ j = 2 ∨ j = 3 := by omega
      rcases this with rfl | rfl | rfl | rfl
      · exact h0.symm
      · exact h1.symm
      · exact h2.symm
      · exact h3.symm

theorem memBytes_get : ∀ (ws : List Word) (i : Nat), i < 4 * ws.length →
    (memBytes ws)[i]? = some (wordByte ((ws[i / 4]?).getD 0#32) (i % 4)) := by
  intro ws
  induction ws with
  | nil => intro i hi; simp at hi
  | cons w ws ih =>
    intro i hi
    unfold memBytes
    rw [List.flatMap_cons]
    by_cases h : i < 4
    · have : i = 0 ∨ i = 1 ∨ i = 2 ∨ i = 3 := by omega
      rcases this with rfl | rfl | rfl | rfl <;> rfl
    · have hi' : i - 4 < 4 * ws.length := by rw [List.length_cons] at hi; omega
      rw [List.getElem?_append_right (by show 4 ≤ i; omega)]
      have := ih (i - 4) hi'
      unfold memBytes at this
      have e1 : i / 4 = (i - 4) / 4 + 1 := by omega
      have e2 : i % 4 = (i - 4) % 4 := by omega
      rw [e1, e2, List.getElem?_cons_succ]
      exact this

theorem memBytes_length (ws : List Word) : (memBytes ws).length = 4 * ws.length := by
  induction ws with
  | nil => rfl
  | cons w ws ih =>
    unfold memBytes at *
    rw [List.flatMap_cons, List.length_append, ih, List.length_cons]
    show 4 + 4 * ws.length = 4 * (ws.length + 1)
    omega

theorem memBytes_eq (ws : List Word) : memBytes ws = wordsBytes ws := by
  apply List.ext_getElem?
  intro i
  by_cases hi : i < 4 * ws.length
  · rw [memBytes_get ws i hi]
    unfold wordsBytes
    rw [List.getElem?_map, List.getElem?_range hi]
    rfl
  · rw [List.getElem?_eq_none (by rw [memBytes_length]; omega), List.getElem?_eq_none (by unfold wordsBytes; simp; omega)]

theorem runThreshold_some (hc : GemmCall p inp filt E .bits) (a c : Nat)
    (ha : a ≤ p.filtH * p.filtW * (p.cin / p.groups)) (hcc : c < p.cout) :
    (runThreshold (E.mult.map BitVec.toInt) a c).isSome := by
  have h := hc.depth
  have hm : E.mult.length = p.cout := hc.mult
  rw [hc.groups, Nat.div_one] at ha
  have h1 : chk32 (a : Int) = some (a : Int) := chk32_eq (by omega) (by omega)
  have h2 : c < E.mult.length := by omega
  unfold runThreshold
  simp only [h1, rd, Option.bind_eq_bind, Option.bind_some, List.getElem?_map, List.getElem?_eq_getElem h2, Option.map_some,
    Option.isSome_some]

/-- **C68**, bitpacked output: on every platform, schedule and interleaving, whatever the output held before, the result is the
reference kernel's, provided the loads stay within the buffers. -/
theorem C68_bits (pl : Platform) (hc : GemmCall p inp filt E .bits) (hr : GemmReads pl stream p .bits)
    (fat : Bool) {blocks : List Blk} (hs : GemmSchedule pl p .bits blocks)
    {out0 out1 : List Word} (ho0 : out0.length = p.batches * p.outH * p.outW * ((p.cout + 31) / 32))
    (ho1 : out1.length = p.batches * p.outH * p.outW * ((p.cout + 31) / 32)) :
    ∃ trs ref, bgemmBitsTraces pl E p fat blocks inp filt = some trs ∧
      bconvReferenceBits p inp filt (runThreshold (E.mult.map BitVec.toInt)) out1 = some ref ∧
      ∀ out, bitsResult p trs out0 out ↔ out = ref := by
  have hm : E.mult.length = p.cout := hc.mult
  have cpp : bgemmPath pl p .bits = .standardCpp →
      ∃ trs ref, bgemmBitsTraces pl E p fat blocks inp filt = some trs ∧
        bconvReferenceBits p inp filt (runThreshold (E.mult.map BitVec.toInt)) out1 = some ref ∧
        ∀ out, bitsResult p trs out0 out ↔ out = ref := by
    intro hp
    have hl : bgemmLayout pl p .bits = (32, 1) := by
      unfold bgemmLayout; rw [hp]; rfl
    unfold GemmSchedule at hs
    rw [hl] at hs
    obtain ⟨trs, ref, out', e1, e2, e3, e4⟩ := C15_bgemm_bitpacked hc.ok hc.groups hc.geom hc.pad (runThreshold_some hc) fat hs.1
      ho0 ho1
    refine ⟨.inl trs, ref, ?_, e2, ?_⟩
    · unfold bgemmBitsTraces
      rw [hp, e1]
      rfl
    · intro out
      constructor
      · rintro ⟨o', h1, L, hL, h2⟩
        rw [e3] at h1
        cases h1
        rw [e4 L hL] at h2
        exact (Option.some.inj h2).symm
      · rintro rfl
        exact ⟨out', e3, _, List.Perm.refl _, e4 _ (List.Perm.refl _)⟩
  by_cases h16 : pl = .aarch64 ∧ bgemm16Selected p = true
  · obtain ⟨rfl, hsel⟩ := h16
    have ha : accumIs16 .aarch64 p = true := hsel
    have hr' := hr rfl
    rw [if_pos (sel_iff.1 hsel)] at hr'
    have h8 : ceilMul p.cout 8 ≤ p.cout := ceil8_le'.2 hr'
    have hl : bgemmLayout .aarch64 p .bits = (8, 4) := by
      unfold bgemmLayout bgemmPath; rw [ha]; rfl
    unfold GemmSchedule at hs
    rw [hl] at hs
    obtain ⟨trs, ref, out', e1, e2, e3, e4⟩ := C53_a64_bgemm_bits (E := E) hc.ok hc.groups hc.geom hc.pad hc.filtH hc.filtW hc.cin hsel
      hc.ls hc.rs (by omega) fat hs.1 hs.2 ho0 ho1
    refine ⟨.inr trs, ref, ?_, e2, ?_⟩
    · unfold bgemmBitsTraces bgemmPath
      rw [ha]
      show (bgemmA64Traces true gKern8B E p fat blocks inp filt).map _ = _
      rw [e1]
      rfl
    · intro out
      constructor
      · rintro ⟨o', h1, L, hL, h2⟩
        rw [e3] at h1
        cases h1
        rw [memBytes_eq out', e4 L hL, ← memBytes_eq] at h2
        exact (memBytes_inj (Option.some.inj h2)).symm
      · rintro rfl
        refine ⟨out', e3, _, List.Perm.refl _, ?_⟩
        rw [memBytes_eq, memBytes_eq]
        exact e4 _ (List.Perm.refl _)
  · apply cpp
    unfold bgemmPath selectedPath
    have ha : accumIs16 pl p = false := by
      cases pl
      · rfl
      · rfl
      · exact Bool.eq_false_iff.2 (fun h => h16 ⟨rfl, h⟩)
    rw [ha]
    cases pl <;> rfl

/-- **C68**, bitpacked output: the condition is exact. -/
theorem C68_bits_reads (pl : Platform) (hc : GemmCall p inp filt E .bits) (fat : Bool) {blocks : List Blk}
    (hs : GemmSchedule pl p .bits blocks) :
    (bgemmBitsTraces pl E p fat blocks inp filt).isSome ↔ GemmReads pl stream p .bits := by
  constructor
  swap
  · intro hr
    obtain ⟨trs, _, e, _⟩ := C68_bits pl hc hr fat hs
      (out0 := List.replicate (p.batches * p.outH * p.outW * ((p.cout + 31) / 32)) 0#32)
      (out1 := List.replicate (p.batches * p.outH * p.outW * ((p.cout + 31) / 32)) 0#32) (by simp) (by simp)
    rw [e]; rfl
  · intro h hpl
    subst hpl
    have hm : E.mult.length = p.cout := hc.mult
    by_cases hsel : bgemm16Selected p = true
    · have ha : accumIs16 .aarch64 p = true := hsel
      rw [if_pos (sel_iff.1 hsel)]
      have hl : bgemmLayout .aarch64 p .bits = (8, 4) := by
        unfold bgemmLayout bgemmPath; rw [ha]; rfl
      unfold GemmSchedule at hs
      rw [hl] at hs
      unfold bgemmBitsTraces bgemmPath at h
      rw [ha] at h
      refine (C55_reads_bits hc.ok hc.groups hc.geom hc.pad hc.filtH hc.filtW hc.cin hc.cout hc.pixels hsel hc.ls hc.rs hm fat hs.1
        hs.2).1 ?_
      replace h : ((bgemmA64Traces true gKern8B E p fat blocks inp filt).map Sum.inr :
        Option (List (List (Write Word)) ⊕ List (List (Write (BitVec 8))))).isSome := h
      rw [Option.isSome_map] at h
      exact h
    · rw [if_neg (fun h => hsel (sel_iff.2 h))]
      intro h'
      exact absurd rfl h'

/-- **C68**, int8 output: the condition is exact. -/
theorem C68_int8_reads (pl : Platform) {rnd : Word → Int} (hv : Conversions E.F rnd) (hc : GemmCall p inp filt E .int8)
    (hfin : ∀ a c y, a ≤ p.filtH * p.filtW * p.cin → c < p.cout → runFloatBits E.F E.cmin E.cmax E.mult E.bias a c = some y →
      F32.Finite y ∧ -2147483648 ≤ roundHalfAway (F32.val y) ∧ roundHalfAway (F32.val y) ≤ 2147483647)
    (hls : E.ls = ceilMul (p.filtDepth * p.filtH * p.filtW) 4) (hrs : E.rs = ceilMul (p.filtDepth * p.filtH * p.filtW) 4)
    (hxl : E.xl = []) {tmp : List (BitVec 8)} (htmp : tmp.length = tmpSize pl p .int8) (fat : Bool) {blocks : List Blk}
    (hs : GemmSchedule pl p .int8 blocks) :
    (bgemmInt8Traces pl stream rnd tmp E p fat blocks inp filt).isSome ↔ GemmReads pl stream p .int8 := by
  constructor
  swap
  · intro hr
    have hz := zeroPadding_false hc.pad
    have hm : E.mult.length = p.cout + 4 := hc.mult
    have hb := hc.bias (by decide)
    have hd := hc.depth
    have hK' : p.K = p.filtH * p.filtW * p.cin := by unfold BConv.K BConv.cinG; rw [hc.groups, Nat.div_one]
    have e1 := bconvReference_list hc.ok hz (f := fun a c => E.F.fadd (E.F.fmul (E.F.scvtf (BitVec.ofInt 32
        (max (min ((a : Int) * 2) E.cmax) E.cmin))) (E.mult.getD c 0#32)) (E.bias.getD c 0#32))
      (fun a c ha hc => runFloatBits_eq' (F := E.F) (by omega) (by omega) (by omega))
      (out0 := List.replicate (p.batches * p.outH * p.outW * p.cout) 0#32) (by simp)
    obtain ⟨trs, e, _⟩ := C68_int8 pl hv hc hfin hr htmp fat hs
      (out0 := List.replicate (p.batches * p.outH * p.outW * p.cout) 0#8) (by simp) (by simp) e1
    rw [e]; rfl
  · intro h hpl
    subst hpl
    have hm : E.mult.length = p.cout + 4 := hc.mult
    have hb := hc.bias (by decide)
    by_cases hsel : bgemm16Selected p = true
    · have ha : accumIs16 .aarch64 p = true := hsel
      rw [if_pos (sel_iff.1 hsel)]
      have hl : bgemmLayout .aarch64 p .int8 = (8, 4) := by
        unfold bgemmLayout bgemmPath; rw [ha]; rfl
      unfold tmpSize at htmp
      unfold GemmSchedule at hs
      rw [hl] at htmp hs
      unfold bgemmInt8Traces bgemmPath at h
      rw [ha] at h
      exact (C55_reads_int8 hc.ok hc.groups hc.geom hc.pad hc.filtH hc.filtW hc.cin hc.cout hc.pixels hsel hc.cmin hc.cmax
        hc.clamp hc.ls hc.rs hm hb htmp fat hs.1 hs.2).1 h
    · have ha : accumIs16 .aarch64 p = false := Bool.eq_false_iff.2 hsel
      rw [if_neg (fun h => hsel (sel_iff.2 h))]
      have hl : bgemmLayout .aarch64 p .int8 = (4, 4) := by
        unfold bgemmLayout bgemmPath; rw [ha]; rfl
      unfold tmpSize at htmp
      unfold GemmSchedule at hs
      rw [hl] at htmp hs
      unfold bgemmInt8Traces bgemmPath at h
      rw [ha] at h
      intro _ hst
      rcases (C55_reads_4x4_int8 hc.ok hc.groups hc.geom hc.pad hc.filtH hc.filtW hc.cin hc.cout hc.pixels hc.depth hc.cmin hc.cmax
        hc.clamp hls hrs hxl hm hb htmp fat hs.1 hs.2).1 h with h' | h'
      · rw [hst] at h'; cases h'
      · exact h'

end

/-! ### Which kernel runs -/

/-- The assembly kernels run for float and int8 on Arm, and for bitpacked output on 64-bit Arm with 16-bit accumulators; all other
convolutions use the portable kernels. -/
theorem C68_path (pl : Platform) (p : BConv) (d : Dst) : bgemmPath pl p d = .neon ↔
    pl ≠ .portable ∧ (d ≠ .bits ∨ (pl = .aarch64 ∧ p.filtH * p.filtW * p.cin < 65024)) := by
  rw [← sel_iff]
  cases pl <;> cases d <;> simp [bgemmPath, trMulPath, selectedPath, accumIs16, MOrder.transpose]

/-- A kernel with 16-bit accumulators never runs when an accumulator can exceed 16 bits. -/
theorem C68_accum (pl : Platform) (p : BConv) (h : accumIs16 pl p = true) : pl = .aarch64 ∧ p.filtH * p.filtW * p.cin < 65024 := by
  cases pl
  · cases h
  · cases h
  · exact ⟨rfl, sel_iff.1 h⟩

/-! ### Example -/

/-- `gemmExample` (11 output channels) is a call for all three platforms; on 64-bit Arm it needs 16 of the 15 allocated multipliers. -/
example (F : FOps) (v : Nat → Nat → BitVec 8) (x : Nat → NAddr) :
    GemmCall gemmExample (List.replicate 18 0xEF#32) (List.replicate 88 0x78#32)
      ⟨8, 8, [], [], List.replicate 15 0x3f800000#32, List.replicate 15 0#32, 0, 100, F, v, x⟩ .float ∧
    GemmReads .portable true gemmExample .float ∧ GemmReads .arm32 true gemmExample .float ∧
    ¬ GemmReads .aarch64 true gemmExample .float := by
  refine ⟨{ ok := gemmExample_ok, groups := rfl, geom := ⟨by decide, by decide, by decide, by decide⟩, pad := by decide, filtH := by decide,
            filtW := by decide, cin := by decide, cout := by decide, pixels := by decide, depth := by decide,
            cmin := show Fits32 0 by (unfold Fits32; decide), cmax := show Fits32 100 by (unfold Fits32; decide),
            clamp := show (0 : Int) ≤ 100 by decide, ls := show _ ≤ 8 by decide, rs := show _ ≤ 8 by decide,
            mult := rfl, bias := fun _ => rfl }, ?_, ?_, ?_⟩
  · intro h
    exact absurd h (by decide)
  · intro h
    exact absurd h (by decide)
  · intro h
    have := h rfl
    revert this
    decide

/-- A schedule for each of the kernels that may run on it, and the sizes of the temporary buffers. -/
example : GemmSchedule .portable gemmExample .float [⟨0, 11, 0, 4⟩] ∧ GemmSchedule .arm32 gemmExample .float [⟨0, 12, 0, 4⟩] ∧
    GemmSchedule .aarch64 gemmExample .float [⟨8, 16, 0, 4⟩, ⟨0, 8, 0, 4⟩] ∧ tmpSize .aarch64 gemmExample .float = 32 := by
  refine ⟨⟨⟨by decide, ?_⟩, by decide⟩, ⟨⟨by decide, ?_⟩, by decide⟩, ⟨⟨by decide, ?_⟩, by decide⟩, by decide⟩
  · intro i j hi hj
    exact ⟨_, List.mem_singleton.2 rfl, Nat.zero_le _, hi, Nat.zero_le _, hj⟩
  · intro i j hi hj
    have hi' : i < 11 := hi
    exact ⟨_, List.mem_singleton.2 rfl, Nat.zero_le _, by show i < 12; omega, Nat.zero_le _, hj⟩
  · intro i j hi hj
    have hi' : i < 11 := hi
    by_cases h : i < 8
    · exact ⟨⟨0, 8, 0, 4⟩, by simp, Nat.zero_le _, h, Nat.zero_le _, hj⟩
    · exact ⟨⟨8, 16, 0, 4⟩, by simp, by show 8 ≤ i; omega, by show i < 16; omega, Nat.zero_le _, hj⟩

end Verif
