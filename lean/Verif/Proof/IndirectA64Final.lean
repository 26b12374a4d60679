import Verif.Proof.IndirectA64Tile
import Verif.Proof.IndirectA64Code1
import Verif.Proof.IndirectA64Code2
import Verif.Proof.IndirectA64Code4

/-! The Aarch64 indirect kernels: `Run` and the kernel selection. -/

namespace Verif

open Finset

/-- `Run`. -/
theorem nRun_eq {α : Type} {A : NKernel} (hA : A.Facts) {F : FOps} {K : IKernel} {p : BConv}
    {inp xi xz filt mult bias : List Word} {cmin cmax : Int} (C : A64Ctx K p A.bd inp xi xz filt mult bias)
    (hmin : A.minDepth ≤ p.filtDepth)
    {ot : Bool → List NInstr} {res : (Nat → Nat → BitVec 8) → Nat → Nat → α}
    {fr : Word → Word → BitVec 16 → Word → Word → α}
    (hot : ∀ m g o (s : NState) x, (g = false → o.off = 0) → m.ptr 6 8 = ⟨4, 0⟩ → m.ptr 6 16 = ⟨5, 0⟩ →
      A.OtFacts m g o { s with x := nOtRegs o.cIdx x } (nExecs F m o (ot g) { s with x := nOtRegs o.cIdx x }))
    (hres : ∀ m g o (s : NState) x, m.ptr 6 8 = ⟨4, 0⟩ → m.ptr 6 16 = ⟨5, 0⟩ → ∀ p j, p < 4 → j < 8 →
      res (nExecs F m o (ot g) { s with x := nOtRegs o.cIdx x }).v p j
        = fr (m.word ⟨6, 0⟩) (m.word ⟨6, 4⟩) (laneHalf (s.v (28 + p)) j)
            (m.word ⟨4, 4 * o.cIdx + 4 * j⟩) (m.word ⟨5, 4 * o.cIdx + 4 * j⟩))
    {d2 g : Bool} (hd2 : d2 = decide (2 ≤ p.filtDepth / A.bd)) (hgr : g = decide (1 < p.groups))
    {v : Nat → Nat → BitVec 8} {x : Nat → NAddr}
    {out0 : List α} (hlen : out0.length = p.batches * p.outH * p.outW * p.cout) :
    nRun A ot res F (nMem K inp xi xz mult bias cmin cmax) d2 g K v x out0 = some ((List.range out0.length).map
      (fun i => fr (BitVec.ofInt 32 cmin) (BitVec.ofInt 32 cmax)
        (BitVec.ofNat 16 (p.accPix inp filt (i / p.cout) (i % p.cout)))
        (mult.getD (i % p.cout) 0#32) (bias.getD (i % p.cout) 0#32))) := by
  have hopg : p.groups * p.outPerGroup = p.cout :=
    Nat.mul_div_cancel' (Nat.dvd_of_mod_eq_zero C.dims.cout_div)
  have hopg1 : 1 ≤ p.outPerGroup := by
    rcases Nat.eq_zero_or_pos p.outPerGroup with h0 | h0
    · rw [h0] at hopg; have := C.hC; omega
    · exact h0
  have hDe : K.inputDepth / K.groups = p.filtDepth := by
    rw [C.made.inputDepth, C.made.groups, C.dims.depth, Nat.mul_div_cancel_left _ C.dims.groups_pos]
  have hCe : K.outputChannels / K.groups = p.outPerGroup := by
    rw [C.made.outputChannels, C.made.groups]; rfl
  have hF := C.hF
  unfold nRun
  rw [hDe, hCe, C.made.filterSize, if_neg (by omega)]
  have hpx : ceilDiv K.numOutputPixels 4 = ceilDiv (p.batches * p.outH * p.outW) 4 := by rw [C.made.pixels]
  rw [hpx]
  obtain ⟨s', h1, h2⟩ := Fills.loop (s0 := out0) (s := out0) (n := ceilDiv (p.batches * p.outH * p.outW) 4)
    (W0 := fun _ => False) (f := fun i => fr (BitVec.ofInt 32 cmin) (BitVec.ofInt 32 cmax)
        (BitVec.ofNat 16 (p.accPix inp filt (i / p.cout) (i % p.cout)))
        (mult.getD (i % p.cout) 0#32) (bias.getD (i % p.cout) 0#32))
    (body := fun t out => nTile A ot res F (nMem K inp xi xz mult bias cmin cmax) d2 g K v x K.numOutputPixels (4 * t) out)
    (fun t i => ∃ k j, k < 4 ∧ j < p.cout ∧
        i = (if 4 * t + k < p.batches * p.outH * p.outW then 4 * t + k else 4 * t) * p.cout + j)
    (Fills.init _ _ (by simp))
    (fun t W s ht hs => nTile_eq hA C hot hres hd2 hgr hlen ht (fun _ => rfl) hs)
  rw [h1]
  congr 1
  apply h2.all
  intro i hi
  right
  rw [hlen] at hi
  obtain ⟨e1, e2⟩ := mod_lt_of_lt_mul hi
  set n := p.batches * p.outH * p.outW
  have hd := div_mul_add_mod i p.cout
  generalize i / p.cout = oi at *
  refine ⟨oi / 4, ?_, oi % 4, i % p.cout, by omega, e2, ?_⟩
  · have := ceilDiv_mul_ge (a := n) (b := 4) (by omega)
    omega
  · have : 4 * (oi / 4) + oi % 4 = oi := by omega
    rw [this, if_pos e1, hd]

/-- The selected kernel suits the convolution. -/
theorem selectA64_spec {p : BConv} {inp filt : List Word} (h : p.Dims inp filt) (hD : 1 ≤ p.filtDepth) :
    ∃ A d2 g, selectA64 p = (A, d2, g) ∧ A.Facts ∧ p.filtDepth % A.bd = 0 ∧ A.minDepth ≤ p.filtDepth ∧
      A.bd ≤ p.filtDepth ∧ d2 = decide (2 ≤ p.filtDepth / A.bd) ∧ g = decide (1 < p.groups) ∧
      (A.bd = 4 ↔ p.filtDepth % 4 = 0) ∧ (A.bd = 1 ↔ p.filtDepth % 2 = 1) := by
  have hDe : p.inDepth / p.groups = p.filtDepth := by
    rw [h.depth, Nat.mul_div_cancel_left _ h.groups_pos]
  unfold selectA64
  simp only []
  rw [hDe]
  generalize p.filtDepth = D at hD
  by_cases h4 : D % 4 = 0
  · rw [if_pos h4]
    refine ⟨kernelX4, _, _, rfl, x4_facts, h4, ?_, ?_, ?_, rfl, ?_, ?_⟩
    · change 4 ≤ D; omega
    · change 4 ≤ D; omega
    · change decide (4 < D) = decide (2 ≤ D / 4)
      rw [decide_eq_decide]; omega
    · change 4 = 4 ↔ _; simp [h4]
    · change 4 = 1 ↔ _; omega
  · rw [if_neg h4]
    by_cases h2 : D % 2 = 0
    · rw [if_pos h2]
      refine ⟨kernelX2, _, _, rfl, x2_facts, h2, ?_, ?_, ?_, rfl, ?_, ?_⟩
      · change 1 ≤ D; omega
      · change 2 ≤ D; omega
      · change decide (2 < D) = decide (2 ≤ D / 2)
        rw [decide_eq_decide]; omega
      · change 2 = 4 ↔ _; simp [h4]
      · change 2 = 1 ↔ _; omega
    · rw [if_neg h2]
      refine ⟨kernelX1, _, _, rfl, x1_facts, ?_, hD, hD, ?_, rfl, ?_, ?_⟩
      · change D % 1 = 0; omega
      · change decide (1 < D) = decide (2 ≤ D / 1)
        rw [decide_eq_decide, Nat.div_one]; omega
      · change 1 = 4 ↔ _; omega
      · change 1 = 1 ↔ _; omega

section
variable {p : BConv} {inp xi xz filt mult bias : List Word} {cmin cmax : Int}

/-- Shared part of the two destination types. -/
theorem bconvA64_ctx (h : p.Dims inp filt) (hF : 1 ≤ p.filtH * p.filtW) (hD : 1 ≤ p.filtDepth) (hC : 1 ≤ p.cout)
    (hin : p.inDepth ≤ inp.length) {A : NKernel} (hA : A.Facts) (hdiv : p.filtDepth % A.bd = 0)
    (hslack : p.groups = 1 ∨ ∀ oi, oi < p.batches * p.outH * p.outW → A64Room p A.bd inp xi xz (indirectPtr p oi 0 0))
    (hm : p.cout - p.outPerGroup + ceilMul p.outPerGroup 8 ≤ mult.length)
    (hb : p.cout - p.outPerGroup + ceilMul p.outPerGroup 8 ≤ bias.length) :
    ∃ K, mkKernelA64 p A.bd filt = some K ∧ A64Ctx K p A.bd inp xi xz filt mult bias := by
  have hbd : 0 < A.bd := by rcases hA.bd with h | h | h <;> omega
  obtain ⟨K, e, hm'⟩ := mkKernelA64_made h hbd hdiv
  exact ⟨K, e, ⟨h, hm', hF, hD, hA.bd, hdiv, hC, hin, hslack, hm, hb⟩⟩

/-- The words the kernel reads behind the activations exist. -/
def A64Slack (p : BConv) (inp xi xz : List Word) : Prop :=
  p.groups = 1 ∨ ∀ oi, oi < p.batches * p.outH * p.outW →
    A64Room p (selectA64 p).1.bd inp xi xz (indirectPtr p oi 0 0)

/-- Words behind the input tensor and the zero buffer are enough. -/
theorem A64Slack.of_extra {p : BConv} {inp filt xi xz : List Word} (h : p.Dims inp filt) (hF : 1 ≤ p.filtH * p.filtW)
    (hx : p.groups = 1 ∨ ((selectA64 p).1.bd ≤ xi.length ∧ (selectA64 p).1.bd ≤ xz.length)) : A64Slack p inp xi xz := by
  rcases hx with hx | ⟨h1, h2⟩
  · exact Or.inl hx
  · right
    intro oi hoi
    have hFi : p.inDepth ≤ p.filtH * p.filtW * p.inDepth := Nat.le_mul_of_pos_left _ hF
    rcases indirectPtr_cases (fy := 0) (fx := 0) hoi with h0 | ⟨pix, hp, h0⟩
    · rw [h0]
      change 0 + p.inDepth + _ ≤ p.filtH * p.filtW * p.inDepth + _
      generalize p.filtH * p.filtW * p.inDepth = Z at *
      omega
    · rw [h0]
      change pix * p.inDepth + p.inDepth + _ ≤ _
      have : (pix + 1) * p.inDepth ≤ inp.length := by
        rw [h.inLen]; exact Nat.mul_le_mul_right _ hp
      rw [Nat.succ_mul] at this
      omega

variable (h : p.Dims inp filt) (hF : 1 ≤ p.filtH * p.filtW) (hD : 1 ≤ p.filtDepth) (hC : 1 ≤ p.cout)
  (hin : p.inDepth ≤ inp.length) (hslack : A64Slack p inp xi xz)
  (hm : p.cout - p.outPerGroup + ceilMul p.outPerGroup 8 ≤ mult.length)
  (hb : p.cout - p.outPerGroup + ceilMul p.outPerGroup 8 ≤ bias.length)
  {F : FOps} {v : Nat → Nat → BitVec 8} {x : Nat → NAddr}
include h hF hD hC hin hslack hm hb

theorem bconvA64F_eq {out0 : List Word} (hlen : out0.length = p.batches * p.outH * p.outW * p.cout) :
    bconvA64F p inp xi xz filt mult bias cmin cmax F v x out0 = some ((List.range out0.length).map
      (fun i => otFloat F (BitVec.ofInt 32 cmin) (BitVec.ofInt 32 cmax)
        (BitVec.ofNat 16 (p.accPix inp filt (i / p.cout) (i % p.cout)))
        (mult.getD (i % p.cout) 0#32) (bias.getD (i % p.cout) 0#32))) := by
  obtain ⟨A, d2, g, hsel, hA, hdiv, hmin, _, hd2, hg, _, _⟩ := selectA64_spec h hD
  unfold A64Slack at hslack
  rw [hsel] at hslack
  obtain ⟨K, e, hctx⟩ := bconvA64_ctx h hF hD hC hin hA hdiv hslack hm hb
  unfold bconvA64F
  rw [hsel]
  simp only [Option.bind_eq_bind, e, Option.bind_some]
  exact nRun_eq hA hctx hmin (fun m g o s x => hA.otF F m g o s x) (fun m g o s x h1 h2 => hA.resF F m g o s x h1 h2) hd2 hg hlen

theorem bconvA64I_eq {out0 : List (BitVec 8)} (hlen : out0.length = p.batches * p.outH * p.outW * p.cout) :
    bconvA64I p inp xi xz filt mult bias cmin cmax F v x out0 = some ((List.range out0.length).map
      (fun i => sat8 (sat16 (F.fcvtns (otFloat F (BitVec.ofInt 32 cmin) (BitVec.ofInt 32 cmax)
        (BitVec.ofNat 16 (p.accPix inp filt (i / p.cout) (i % p.cout)))
        (mult.getD (i % p.cout) 0#32) (bias.getD (i % p.cout) 0#32)))))) := by
  obtain ⟨A, d2, g, hsel, hA, hdiv, hmin, _, hd2, hg, _, _⟩ := selectA64_spec h hD
  unfold A64Slack at hslack
  rw [hsel] at hslack
  obtain ⟨K, e, hctx⟩ := bconvA64_ctx h hF hD hC hin hA hdiv hslack hm hb
  unfold bconvA64I
  rw [hsel]
  simp only [Option.bind_eq_bind, e, Option.bind_some]
  exact nRun_eq (fr := fun a b c d e => sat8 (sat16 (F.fcvtns (otFloat F a b c d e)))) hA hctx hmin
    (fun m g o s x => hA.otI F m g o s x)
    (fun m g o s x h1 h2 => hA.resI F m g o s x h1 h2) hd2 hg hlen

end

/-! The output transforms. -/

theorem word_toInt_ofInt {x : Int} (h : Fits32 x) : (BitVec.ofInt 32 x).toInt = x := by
  rw [BitVec.toInt_ofInt]
  unfold Fits32 at h
  unfold Int.bmod
  simp only [Nat.reducePow, Int.cast_ofNat_Int]
  split <;> omega

theorem shll1_ofNat {a : Nat} (h : a < 65536) : shll1 (BitVec.ofNat 16 a) = BitVec.ofInt 32 ((a : Int) * 2) := by
  apply BitVec.eq_of_toNat_eq
  unfold shll1
  rw [BitVec.toNat_ofInt]
  simp only [BitVec.toNat_shiftLeft, BitVec.toNat_setWidth, BitVec.toNat_ofNat]
  rw [Nat.shiftLeft_eq, Nat.mod_eq_of_lt (a := a) (by omega)]
  omega

theorem wordSmax_ofInt {a b : Int} (ha : Fits32 a) (hb : Fits32 b) :
    wordSmax (BitVec.ofInt 32 a) (BitVec.ofInt 32 b) = BitVec.ofInt 32 (max a b) := by
  unfold wordSmax
  simp only [BitVec.slt, word_toInt_ofInt ha, word_toInt_ofInt hb, decide_eq_true_eq]
  split
  · congr 1; omega
  · congr 1; omega

theorem wordSmin_ofInt {a b : Int} (ha : Fits32 a) (hb : Fits32 b) :
    wordSmin (BitVec.ofInt 32 a) (BitVec.ofInt 32 b) = BitVec.ofInt 32 (min a b) := by
  unfold wordSmin
  simp only [BitVec.slt, word_toInt_ofInt ha, word_toInt_ofInt hb, decide_eq_true_eq]
  split
  · congr 1; omega
  · congr 1; omega

/-- Clamping in the order of the assembly is clamping in the order of the C++ code. -/
theorem otFloat_eq {F : FOps} {cmin cmax : Int} (h1 : Fits32 cmin) (h2 : Fits32 cmax) (hle : cmin ≤ cmax) {a : Nat}
    (ha : a < 65536) (mu bi : Word) :
    otFloat F (BitVec.ofInt 32 cmin) (BitVec.ofInt 32 cmax) (BitVec.ofNat 16 a) mu bi
      = F.fadd (F.fmul (F.scvtf (BitVec.ofInt 32 (max (min ((a : Int) * 2) cmax) cmin))) mu) bi := by
  unfold otFloat
  have h3 : Fits32 ((a : Int) * 2) := by unfold Fits32; omega
  have h4 : Fits32 (max ((a : Int) * 2) cmin) := by unfold Fits32 at *; omega
  rw [shll1_ofNat ha, wordSmax_ofInt h3 h1, wordSmin_ofInt h4 h2]
  have : min (max ((a : Int) * 2) cmin) cmax = max (min ((a : Int) * 2) cmax) cmin := by omega
  rw [this]

theorem sat8_sat16 (w : Word) : sat8 (sat16 w) = BitVec.ofInt 8 (max (-128) (min 127 w.toInt)) := by
  unfold sat8 sat16
  have e : (BitVec.ofInt 16 (max (-32768) (min 32767 w.toInt))).toInt = max (-32768) (min 32767 w.toInt) := by
    rw [BitVec.toInt_ofInt]
    generalize w.toInt = z
    unfold Int.bmod
    simp only [Nat.reducePow, Int.cast_ofNat_Int]
    split <;> omega
  rw [e]
  congr 1
  generalize w.toInt = z
  omega

end Verif
