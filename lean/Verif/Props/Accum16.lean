import Verif.Model.Accum16
import Verif.Proof.Im2col
import Verif.Proof.OutputTransform

/-! C19: 16-bit accumulators. -/

namespace Verif

open Finset

/-- A loop on images under `f` is the image of the loop. -/
theorem forN_image {σ τ : Type _} (f : σ → τ) {n : Nat} {body : Nat → σ → Option σ}
    {body' : Nat → τ → Option τ} (h : ∀ i s, body' i (f s) = (body i s).map f) (s : σ) :
    forN n body' (f s) = (forN n body s).map f := by
  induction n with
  | zero => rfl
  | succ n ih =>
    rw [forN_succ, forN_succ, ih]
    cases forN n body s with
    | none => rfl
    | some s => simpa using h n s

theorem gemmAcc16_eq (depth : Nat) (lhs rhs : List Word) (i j : Nat) :
    gemmAcc16 depth lhs rhs i j = (gemmAcc depth lhs rhs i j).map (BitVec.ofNat 16) := by
  unfold gemmAcc16 gemmAcc
  refine forN_image (BitVec.ofNat 16) ?_ 0
  intro k s
  cases rd lhs (i * depth + k) with
  | none => rfl
  | some l =>
    cases rd rhs (j * depth + k) with
    | none => rfl
    | some r => simp [BitVec.ofNat_add]

theorem lane16_eq (p : BConv) (hz : p.zeroPadding = false) (inp filt : List Word) (b oy ox oc : Nat) :
    lane16 p inp filt b oy ox oc = (refAccum p inp filt b oy ox oc).map (BitVec.ofNat 16) := by
  unfold lane16 refAccum
  refine forN_image (BitVec.ofNat 16) ?_ 0
  intro fy s
  refine forN_image (BitVec.ofNat 16) ?_ s
  intro fx s
  simp only [hz, Bool.false_and, Bool.false_eq_true, if_false]
  unfold refPixel
  refine forN_image (BitVec.ofNat 16) ?_ s
  intro ic s
  simp only [Option.bind_eq_bind]
  generalize (if p.inside (p.inY oy fy) (p.inX ox fx) = true then _ else _ : Option Word) = o1
  cases o1 with
  | none => rfl
  | some iv =>
    cases rd filt (offset4 p.filtH p.filtW p.filtDepth oc fy fx ic) with
    | none => rfl
    | some fv => simp [BitVec.ofNat_add]

theorem ofNat16_toNat {a : Nat} (h : a < 65536) : (BitVec.ofNat 16 a).toNat = a := by
  rw [BitVec.toNat_ofNat]
  exact Nat.mod_eq_of_lt h

section
variable {p : BConv} {inp filt : List Word}

/-- **C19**, BGEMM. Whenever the 16-bit kernel is selected, the wrapping 16-bit accumulator of
every output element holds exactly the accumulator the 32-bit kernel computes. -/
theorem C19_bgemm (hok : p.Ok inp filt) (hg : p.groups = 1) (hgeo : p.Geom)
    (hsel : bgemm16Selected p = true) :
    ∃ rhs k m, im2colRhs p inp = some (rhs, k, m) ∧ m = p.batches * p.outH * p.outW ∧
      ∀ i j, i < p.cout → j < m → ∃ a, gemmAcc k filt rhs i j = some a ∧ a < 2 ^ 16 ∧
        (gemmAcc16 k filt rhs i j).map BitVec.toNat = some a := by
  obtain ⟨rhs, hr, hrd⟩ := im2colRhs_eq hok hg hgeo
  refine ⟨rhs, _, _, hr, rfl, ?_⟩
  intro i j hi hj
  have e := gemmAcc_accPix hok hg hrd hi hj
  have hle := accPix_le hok hj hi
  unfold BConv.K BConv.cinG at hle
  rw [hg, Nat.div_one] at hle
  have hs : p.filtH * p.filtW * p.cin + 512 < 65536 := by simpa [bgemm16Selected] using hsel
  refine ⟨_, e, by omega, ?_⟩
  rw [gemmAcc16_eq, e]
  simp only [Option.map_some]
  rw [ofNat16_toNat (by omega)]

/-- **C19**, indirect BGEMM, when the filter has at most as many positions as the input tensor
has pixels. The full statement has no such hypothesis, and is false
(`C19_indirect_overflow_witness`): the code bounds the accumulator by the size of the *input*,
not of the filter. -/
theorem C19_indirect_partial (hok : p.Ok inp filt) (hz : p.padding = .valid ∨ p.padValue = 1)
    (hsel : indirect16Selected p = true)
    (hfit : p.filtH * p.filtW ≤ p.batches * p.inH * p.inW)
    {b oy ox oc : Nat} (hb : b < p.batches) (hoc : oc < p.cout) :
    ∃ a, refAccum p inp filt b oy ox oc = some a ∧ a < 2 ^ 16 ∧
      (lane16 p inp filt b oy ox oc).map BitVec.toNat = some a := by
  have hz' := zeroPadding_false hz
  have e := refAccum_eq (p := p) hok.groups_pos hok.cout_div hok.depth hok.inLen hok.filtLen (b := b) (oy := oy) (ox := ox)
    (oc := oc) hb hoc
  have hle := BConv.acc_le hok hb hoc (oy := oy) (ox := ox)
  have hs : 32 * (p.batches * p.inH * p.inW * p.inDepth) / p.groups < 65535 := by
    simpa [indirect16Selected] using hsel
  have hlt : p.K < 65536 := by
    have h1 : p.cinG ≤ 32 * p.filtDepth := by rw [hok.filtDepth]; omega
    have h2 : 32 * (p.batches * p.inH * p.inW * p.inDepth) / p.groups
        = 32 * (p.batches * p.inH * p.inW * p.filtDepth) := by
      rw [hok.depth]
      have : 32 * (p.batches * p.inH * p.inW * (p.groups * p.filtDepth))
        = 32 * (p.batches * p.inH * p.inW * p.filtDepth) * p.groups := by ring
      rw [this, Nat.mul_div_cancel _ hok.groups_pos]
    have h3 : p.K ≤ 32 * (p.batches * p.inH * p.inW * p.filtDepth) := by
      unfold BConv.K
      calc p.filtH * p.filtW * p.cinG ≤ (p.batches * p.inH * p.inW) * (32 * p.filtDepth) :=
            Nat.mul_le_mul hfit h1
        _ = _ := by ring
    omega
  rw [BConv.accRef_eq_acc hz'] at e
  refine ⟨_, e, by omega, ?_⟩
  rw [lane16_eq p hz', e]
  simp only [Option.map_some]
  rw [ofNat16_toNat (by omega)]

end

/-- The convolution of the witness: a 1 x 2 filter with `SAME` padding (one-padding) on a
1 x 1 image with 2047 words of channels. -/
def overflowConv : BConv :=
  { batches := 1, inH := 1, inW := 1, inDepth := 2047, cin := 65504, filtH := 1, filtW := 2,
    filtDepth := 2047, cout := 1, groups := 1, strideH := 1, strideW := 1, dilH := 1, dilW := 1,
    padding := .same, padH := 0, padW := 0, padValue := 1, outH := 1, outW := 1 }

theorem overflowConv_ok : overflowConv.Ok (List.replicate 2047 0#32) (List.replicate 4094 (BitVec.allOnes 32)) where
  groups_pos := by decide
  cout_div := by decide
  inDepth := by decide
  filtDepth := by decide
  depth := by decide
  group_words := by decide
  inLen := by rw [List.length_replicate]; rfl
  filtLen := by rw [List.length_replicate]; rfl
  inUnused := by
    intro r k b _ hk hb h
    have h1 : (65504 : Nat) ≤ 32 * k + b := h
    have h2 : k < 2047 := hk
    omega
  filtUnused := by
    intro r k b _ hk hb h
    have h1 : (65504 : Nat) ≤ 32 * k + b := h
    have h2 : k < 2047 := hk
    omega

/-- The full statement of C19 fails for the indirect kernels: the 16-bit kernel is selected for
`overflowConv`, whose shapes are those computed by `Prepare`, but the accumulator (all inputs +1,
all weights -1) is 131008, and the lane holds 65472. -/
theorem C19_indirect_overflow_witness :
    overflowConv.Geom ∧ indirect16Selected overflowConv = true ∧
    overflowConv.Ok (List.replicate 2047 0#32) (List.replicate 4094 (BitVec.allOnes 32)) ∧
    refAccum overflowConv (List.replicate 2047 0#32) (List.replicate 4094 (BitVec.allOnes 32)) 0 0 0 0
      = some 131008 ∧
    (lane16 overflowConv (List.replicate 2047 0#32) (List.replicate 4094 (BitVec.allOnes 32)) 0 0 0 0).map
      BitVec.toNat = some 65472 := by
  have hz : overflowConv.zeroPadding = false := by decide
  have hok := overflowConv_ok
  have e := refAccum_eq (p := overflowConv) hok.groups_pos hok.cout_div hok.depth hok.inLen hok.filtLen (b := 0) (oy := 0)
    (ox := 0) (oc := 0) (by decide) (by decide)
  have e2 : refAccum overflowConv (List.replicate 2047 0#32) (List.replicate 4094 (BitVec.allOnes 32)) 0 0 0 0
      = some 131008 := by
    rw [e, BConv.accRef_eq_acc hz]
    unfold BConv.acc BConv.accPixel
    have hin : ∀ fy fx k, overflowConv.inWord (List.replicate 2047 0#32) 0 0 0 0 fy fx k = 0#32 := by
      intro fy fx k
      unfold BConv.inWord
      split
      · rw [List.getD_eq_getElem?_getD, List.getElem?_replicate]; split <;> rfl
      · rfl
    have hf : ∀ fx k, fx < 2 → k < 2047 →
        overflowConv.filtWord (List.replicate 4094 (BitVec.allOnes 32)) 0 0 fx k = BitVec.allOnes 32 := by
      intro fx k hfx hk
      unfold BConv.filtWord
      rw [List.getD_eq_getElem?_getD, List.getElem?_replicate]
      have : offset4 overflowConv.filtH overflowConv.filtW overflowConv.filtDepth 0 0 fx k = fx * 2047 + k := by
        unfold offset4 overflowConv; simp
      rw [this, if_pos (by omega)]; rfl
    have hp : xorPopcount 0#32 (BitVec.allOnes 32) = 32 := by decide
    have e1 : overflowConv.filtH = 1 := rfl
    have e2 : overflowConv.filtW = 2 := rfl
    have e3 : overflowConv.filtDepth = 2047 := rfl
    rw [e1, e2, e3]
    have : ∀ fy ∈ range 1, ∀ fx ∈ range 2, ∑ k ∈ range 2047,
        xorPopcount (overflowConv.inWord (List.replicate 2047 0#32) 0 0 0 0 fy fx k)
          (overflowConv.filtWord (List.replicate 4094 (BitVec.allOnes 32)) 0 fy fx k) = 65504 := by
      intro fy hfy fx hfx
      have hfy : fy = 0 := by simpa using hfy
      have hfx : fx < 2 := by simpa using hfx
      subst hfy
      rw [sum_congr rfl (g := fun _ => 32)]
      · simp
      · intro k hk
        rw [hin, hf fx k hfx (by simpa using hk), hp]
    rw [sum_congr rfl (fun fy hfy => sum_congr rfl (this fy hfy))]
    simp
  refine ⟨⟨by decide, by decide, by decide, by decide⟩, by decide, hok, e2, ?_⟩
  rw [lane16_eq _ hz, e2]
  rfl

/-- The word of 32 weights starting at channel `32 * k`, all -1, unused bits clear. -/
def minusWord (n k : Nat) : Word := BitVec.ofNat 32 (2 ^ min 32 (n - 32 * k) - 1)

theorem minusWord_bit {n k b : Nat} (hb : b < 32) : (minusWord n k).getLsbD b = decide (32 * k + b < n) := by
  unfold minusWord
  rw [BitVec.getLsbD_ofNat, Nat.testBit_two_pow_sub_one]
  simp only [hb, decide_true, Bool.true_and, decide_eq_decide]
  omega

/-- The filter in which all weights are -1. -/
def minusFilter (p : BConv) : List Word :=
  (List.range (p.cout * p.filtH * p.filtW * p.filtDepth)).map fun i => minusWord p.cinG (i % p.filtDepth)

theorem minusFilter_getD {p : BConv} {r k : Nat} (hr : r < p.cout * p.filtH * p.filtW) (hk : k < p.filtDepth) :
    (minusFilter p).getD (r * p.filtDepth + k) 0#32 = minusWord p.cinG k := by
  have hlt : r * p.filtDepth + k < p.cout * p.filtH * p.filtW * p.filtDepth := by
    calc r * p.filtDepth + k < r * p.filtDepth + p.filtDepth := by omega
      _ = (r + 1) * p.filtDepth := by ring
      _ ≤ _ := Nat.mul_le_mul_right _ hr
  unfold minusFilter
  rw [List.getD_eq_getElem?_getD, List.getElem?_map, List.getElem?_range hlt, Option.map_some, Option.getD_some,
    Nat.mul_comm r, Nat.mul_add_mod, Nat.mod_eq_of_lt hk]

theorem minus_ok {p : BConv} {inp filt : List Word} (hok : p.Ok inp filt) :
    p.Ok (List.replicate inp.length 0#32) (minusFilter p) where
  groups_pos := hok.groups_pos
  cout_div := hok.cout_div
  inDepth := hok.inDepth
  filtDepth := hok.filtDepth
  depth := hok.depth
  group_words := hok.group_words
  inLen := by rw [List.length_replicate]; exact hok.inLen
  filtLen := by unfold minusFilter; rw [List.length_map, List.length_range]
  inUnused := by
    intro r k b _ _ _ _
    rw [List.getD_eq_getElem?_getD, List.getElem?_replicate]
    split <;> simp
  filtUnused := by
    intro r k b hr hk hb hc
    rw [minusFilter_getD hr hk, minusWord_bit hb]
    simp; omega

/-- All inputs +1, all weights -1: the convolution (padded with ones) is `-K`. -/
theorem minus_conv {p : BConv} {inp filt : List Word} (hok : p.Ok inp filt) {b oy ox oc : Nat} (hoc : oc < p.cout) :
    p.conv 1 (List.replicate inp.length 0#32) (minusFilter p) b oy ox oc = -(p.K : Int) := by
  have hx : ∀ y x c, p.inputAt 1 (List.replicate inp.length 0#32) b y x c = 1 := by
    intro y x c
    unfold BConv.inputAt pm
    rw [List.getD_eq_getElem?_getD, List.getElem?_replicate]
    split
    · split <;> simp [signVal]
    · rfl
  have hw : ∀ fy ∈ range p.filtH, ∀ fx ∈ range p.filtW, ∀ c ∈ range p.cinG, p.weight (minusFilter p) oc fy fx c = -1 := by
    intro fy hfy fx hfx c hc
    rw [mem_range] at hfy hfx hc
    unfold BConv.weight pm
    have hr : (oc * p.filtH + fy) * p.filtW + fx < p.cout * p.filtH * p.filtW := by
      have h1 : oc * p.filtH + fy < p.cout * p.filtH := by
        calc oc * p.filtH + fy < oc * p.filtH + p.filtH := by omega
          _ = (oc + 1) * p.filtH := by ring
          _ ≤ _ := Nat.mul_le_mul_right _ hoc
      calc (oc * p.filtH + fy) * p.filtW + fx < (oc * p.filtH + fy) * p.filtW + p.filtW := by omega
        _ = (oc * p.filtH + fy + 1) * p.filtW := by ring
        _ ≤ _ := Nat.mul_le_mul_right _ h1
    have hk : c / 32 < p.filtDepth := by rw [hok.filtDepth]; omega
    rw [← hok.filtDepth, minusFilter_getD hr hk, minusWord_bit (by omega), show 32 * (c / 32) + c % 32 = c by omega]
    simp [hc, signVal]
  unfold BConv.conv
  rw [sum_congr rfl fun fy hfy => sum_congr rfl fun fx hfx => sum_congr rfl fun c hc => by
    rw [hx, hw fy hfy fx hfx c hc]]
  simp [BConv.K]
  ring

section
variable {p : BConv}

/-- **C19**, indirect BGEMM, exactly: for a shape (there are tensors `inp0`, `filt0` of that shape) the wrapping 16-bit accumulators
are right for all inputs and weights if and only if a dot product has fewer than `2^16` products. The selection of the kernel
does not look at this number (`C19_indirect_overflow_witness`). -/
theorem C19_indirect_exact {inp0 filt0 : List Word} (hok : p.Ok inp0 filt0) (hz : p.padding = .valid ∨ p.padValue = 1)
    (hb0 : 0 < p.batches) (hco : 0 < p.cout) :
    (∀ inp filt, p.Ok inp filt → ∀ b oy ox oc, b < p.batches → oc < p.cout →
      ∃ a, refAccum p inp filt b oy ox oc = some a ∧ (lane16 p inp filt b oy ox oc).map BitVec.toNat = some a) ↔
    p.filtH * p.filtW * (p.cin / p.groups) < 2 ^ 16 := by
  have hz' := zeroPadding_false hz
  constructor
  · intro h
    obtain ⟨a, h1, h2⟩ := h _ _ (minus_ok hok) 0 0 0 0 hb0 hco
    have hok' := minus_ok hok
    have e := refAccum_eq (p := p) hok'.groups_pos hok'.cout_div hok'.depth hok'.inLen hok'.filtLen (b := 0) (oy := 0) (ox := 0)
      (oc := 0) hb0 hco
    rw [BConv.accRef_eq_acc hz'] at e
    have hc := BConv.acc_eq_conv hok' (b := 0) (oy := 0) (ox := 0) (oc := 0) hb0 hco
    rw [minus_conv hok hco] at hc
    have hacc : a = p.K := by
      rw [e] at h1
      have := Option.some.inj h1
      omega
    rw [lane16_eq p hz', h1] at h2
    simp only [Option.map_some, Option.some.injEq, BitVec.toNat_ofNat] at h2
    have : p.K = a := hacc.symm
    show p.K < 2 ^ 16
    rw [this, ← h2]
    exact Nat.mod_lt _ (by norm_num)
  · intro hK inp filt hok b oy ox oc hb hoc
    have e := refAccum_eq (p := p) hok.groups_pos hok.cout_div hok.depth hok.inLen hok.filtLen (b := b) (oy := oy) (ox := ox)
      (oc := oc) hb hoc
    have hle := BConv.acc_le hok hb hoc (oy := oy) (ox := ox)
    have hK : p.K < 65536 := hK
    rw [BConv.accRef_eq_acc hz'] at e
    refine ⟨_, e, ?_⟩
    rw [lane16_eq p hz', e]
    simp only [Option.map_some]
    rw [ofNat16_toNat (by omega)]

end

/-- The hypotheses of `C19_bgemm` and `C19_indirect_partial` are met by the same tensors with a
1 x 1 filter. -/
example : bgemm16Selected { overflowConv with filtW := 1, cin := 65000, inDepth := 2032, filtDepth := 2032 } = true ∧
    indirect16Selected { overflowConv with filtW := 1 } = true := by decide

end Verif
