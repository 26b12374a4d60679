import Verif.Model.Padding
import Verif.Spec.PadConv
import Mathlib.Tactic.Ring
import Mathlib.Tactic.Linarith
import Mathlib.Data.Int.Order.Basic

/-! C28: fusing an explicit Pad into a SAME convolution. -/

namespace Verif

theorem toCInt_eq {n : Nat} (h : n < 2147483648) : toCInt n = n := by
  unfold toCInt
  rw [BitVec.toInt_ofInt]
  exact Int.bmod_eq_of_le (by omega) (by omega)

/-- `out` is the size of the VALID convolution of an input of size `n` with padding `(b, a)`. -/
def IsValidOut (n b a filter stride dil out : Nat) : Prop :=
  effSize filter dil ≤ n + b + a ∧ (out : Int) = computeOutSize .valid (n + b + a) filter stride dil

/-- What the check says about one dimension of known size. -/
theorem isSame1D_facts {pad : Nat × Nat} {n out f s d : Nat} (hs : 0 < s) (hn : n + s < 2147483648)
    (ho : out < 2147483648)
    (hv : IsValidOut n pad.1 pad.2 f s d out) (h : isSamePadding1D pad n out s = true) :
    (out : Int) = computeOutSize .same n f s d ∧ pad.1 = (pad.1 + pad.2) / 2 ∧
      ((out : Int) - 1) * s + effSize f d - n ≤ pad.1 + pad.2 ∧
      (pad.1 + pad.2 : Int) < ((out : Int) - 1) * s + effSize f d - n + s := by
  unfold isSamePadding1D at h
  simp only [Bool.and_eq_true, decide_eq_true_eq] at h
  obtain ⟨⟨h1, h2⟩, h3⟩ := h
  rw [toCInt_eq ho, toCInt_eq (by omega)] at h1
  obtain ⟨hv1, hv2⟩ := hv
  refine ⟨h1, h2, ?_⟩
  unfold computeOutSize at hv2
  simp only [] at hv2
  have hsp : (0 : Int) < s := by omega
  rw [Int.tdiv_eq_ediv_of_nonneg (by push_cast; omega)] at hv2
  have e1 := Int.mul_ediv_self_le (x := ((n + pad.1 + pad.2 : Nat) : Int) + s - effSize f d) (k := (s : Int)) hsp.ne'
  have e2 := Int.lt_mul_ediv_self_add (x := ((n + pad.1 + pad.2 : Nat) : Int) + s - effSize f d) hsp
  rw [← hv2] at e1 e2
  have e3 : ((out : Int) - 1) * s = s * out - s := by ring
  rw [e3]
  push_cast at e1 e2
  constructor <;> omega

/-- The SAME padding of one dimension, given what the check established. -/
theorem same_pad_iff {pad : Nat × Nat} {n out f s d : Nat} (hs : 0 < s)
    (h2 : pad.1 = (pad.1 + pad.2) / 2)
    (h3 : ((out : Int) - 1) * s + effSize f d - n ≤ pad.1 + pad.2)
    (h4 : (pad.1 + pad.2 : Int) < ((out : Int) - 1) * s + effSize f d - n + s) :
    (s = 1 → computePadding s d n f out = pad.1) ∧
      (computePadding s d n f out ≤ pad.1 ∧ pad.1 ≤ computePadding s d n f out + s / 2) := by
  unfold computePadding
  simp only []
  rw [Int.tdiv_eq_ediv_of_nonneg (le_max_right _ _)]
  refine ⟨?_, ?_, ?_⟩
  · rintro rfl
    omega
  · omega
  · omega

/-- The two ways of reading agree when the padding amounts agree. -/
theorem reads_agree {α : Type} {inH inW bh bw sH sW dH dW : Nat} (img : Nat → Nat → α) (pv : α)
    (oy ox fy fx : Nat) :
    padRead bh inH bw inW img pv (oy * sH + dH * fy) (ox * sW + dW * fx) =
      extended inH inW img pv ((oy : Int) * sH - bh + dH * fy) ((ox : Int) * sW - bw + dW * fx) := by
  unfold padRead extended
  have e1 : (oy : Int) * sH - bh + dH * fy = ((oy * sH + dH * fy : Nat) : Int) - bh := by push_cast; ring
  have e2 : (ox : Int) * sW - bw + dW * fx = ((ox * sW + dW * fx : Nat) : Int) - bw := by push_cast; ring
  rw [e1, e2]
  generalize oy * sH + dH * fy = Y
  generalize ox * sW + dW * fx = X
  by_cases h : bh ≤ Y ∧ Y < bh + inH ∧ bw ≤ X ∧ X < bw + inW
  · rw [if_pos h, if_pos (by omega)]
    congr 1 <;> omega
  · rw [if_neg h, if_neg (by omega)]

/-- **C28 (what holds).** If the converter accepts a Pad followed by a VALID convolution with known spatial
sizes, then the SAME convolution has the same output size, the explicit padding before is between the padding
SAME uses and half a stride more, and, if in each dimension the stride is 1 or the explicit padding is the
padding SAME uses, each output pixel reads the same values: for every filter tap the image value or the
padding value that was read before.

Missing: strides above 1 where the two differ: the property is false there (`C28_stride2_witness`); and unknown
spatial sizes, where it is false too (`C28_dynamic_witness`). -/
theorem C28_same_padding_partial {α : Type} {pads : Pads} {nb ci nb' co : Int}
    {inH inW outH outW fH fW sH sW dH dW : Nat} (hs : 0 < sH ∧ 0 < sW)
    (hacc : isSamePadding pads [nb, inH, inW, ci] [nb', outH, outW, co] sH sW = true)
    (hvH : IsValidOut inH pads.h.1 pads.h.2 fH sH dH outH) (hvW : IsValidOut inW pads.w.1 pads.w.2 fW sW dW outW)
    (hsz : inH + sH < 2147483648 ∧ inW + sW < 2147483648 ∧ outH < 2147483648 ∧ outW < 2147483648)
    (img : Nat → Nat → α) (pv : α) :
    (outH : Int) = computeOutSize .same inH fH sH dH ∧ (outW : Int) = computeOutSize .same inW fW sW dW ∧
    (computePadding sH dH inH fH outH ≤ pads.h.1 ∧ pads.h.1 ≤ computePadding sH dH inH fH outH + sH / 2) ∧
    (computePadding sW dW inW fW outW ≤ pads.w.1 ∧ pads.w.1 ≤ computePadding sW dW inW fW outW + sW / 2) ∧
    ((sH = 1 ∨ pads.h.1 = computePadding sH dH inH fH outH) → (sW = 1 ∨ pads.w.1 = computePadding sW dW inW fW outW) →
      ∀ oy ox fy fx,
      padRead pads.h.1 inH pads.w.1 inW img pv (oy * sH + dH * fy) (ox * sW + dW * fx) =
        extended inH inW img pv ((oy : Int) * sH - computePadding sH dH inH fH outH + dH * fy)
          ((ox : Int) * sW - computePadding sW dW inW fW outW + dW * fx)) := by
  unfold isSamePadding at hacc
  simp only [Bool.and_eq_true] at hacc
  obtain ⟨⟨⟨_, h1⟩, h2⟩, _⟩ := hacc
  obtain ⟨a1, a2, a3, a4⟩ := isSame1D_facts hs.1 (by omega) hsz.2.2.1 hvH h1
  obtain ⟨b1, b2, b3, b4⟩ := isSame1D_facts hs.2 (by omega) hsz.2.2.2 hvW h2
  obtain ⟨c1, c2⟩ := same_pad_iff hs.1 a2 a3 a4
  obtain ⟨d1, d2⟩ := same_pad_iff hs.2 b2 b3 b4
  refine ⟨a1, b1, c2, d2, fun hH hW oy ox fy fx => ?_⟩
  have eH : computePadding sH dH inH fH outH = pads.h.1 := by
    rcases hH with h | h
    · exact c1 h
    · exact h.symm
  have eW : computePadding sW dW inW fW outW = pads.w.1 := by
    rcases hW with h | h
    · exact d1 h
    · exact h.symm
  rw [eH, eW]
  exact reads_agree img pv oy ox fy fx

/-- Reading at different positions can be told apart by an image, if one of them is inside. -/
theorem reads_differ {inH inW : Nat} {y x y' x' : Int} (hne : y ≠ y' ∨ x ≠ x')
    (hin : 0 ≤ y ∧ y < inH ∧ 0 ≤ x ∧ x < inW) :
    ∃ img : Nat → Nat → Bool, extended inH inW img false y x ≠ extended inH inW img false y' x' := by
  refine ⟨fun a b => decide ((a : Int) = y ∧ (b : Int) = x), ?_⟩
  unfold extended
  rw [if_pos hin]
  beta_reduce
  have e1 : ((y.toNat : Nat) : Int) = y := Int.toNat_of_nonneg hin.1
  have e2 : ((x.toNat : Nat) : Int) = x := Int.toNat_of_nonneg hin.2.2.1
  rw [e1, e2]
  simp only [and_self, decide_true]
  split
  · rename_i h
    rw [Int.toNat_of_nonneg h.1, Int.toNat_of_nonneg h.2.2.1]
    intro hh
    have := of_decide_eq_true hh.symm
    omega
  · decide

/-- **C28, exact condition.** For an accepted Pad and VALID convolution with known spatial sizes: the SAME convolution
reads the same value for every image, output pixel and filter tap if and only if the explicit padding before is the padding
SAME uses in both dimensions, or neither convolution reads the image at all. -/
theorem C28_exact {bh bw inH inW outH outW fH fW sH sW dH dW : Nat} {ph pw : Nat} :
    (∀ (img : Nat → Nat → Bool) (pv : Bool) (oy ox fy fx : Nat), oy < outH → ox < outW → fy < fH → fx < fW →
      padRead bh inH bw inW img pv (oy * sH + dH * fy) (ox * sW + dW * fx) =
        extended inH inW img pv ((oy : Int) * sH - ph + dH * fy) ((ox : Int) * sW - pw + dW * fx)) ↔
    (bh = ph ∧ bw = pw) ∨ ∀ oy ox fy fx, oy < outH → ox < outW → fy < fH → fx < fW →
      ¬ (0 ≤ (oy : Int) * sH - bh + dH * fy ∧ (oy : Int) * sH - bh + dH * fy < inH ∧
        0 ≤ (ox : Int) * sW - bw + dW * fx ∧ (ox : Int) * sW - bw + dW * fx < inW) ∧
      ¬ (0 ≤ (oy : Int) * sH - ph + dH * fy ∧ (oy : Int) * sH - ph + dH * fy < inH ∧
        0 ≤ (ox : Int) * sW - pw + dW * fx ∧ (ox : Int) * sW - pw + dW * fx < inW) := by
  constructor
  · intro hall
    by_contra hno
    rw [not_or] at hno
    obtain ⟨hne, hex⟩ := hno
    push Not at hex
    obtain ⟨oy, ox, fy, fx, h1, h2, h3, h4, h5⟩ := hex
    have key : ∀ img : Nat → Nat → Bool,
        extended inH inW img false ((oy : Int) * sH - bh + dH * fy) ((ox : Int) * sW - bw + dW * fx) =
        extended inH inW img false ((oy : Int) * sH - ph + dH * fy) ((ox : Int) * sW - pw + dW * fx) := by
      intro img
      rw [← hall img false oy ox fy fx h1 h2 h3 h4, reads_agree]
    have hd : (oy : Int) * sH - bh + dH * fy ≠ (oy : Int) * sH - ph + dH * fy ∨
        (ox : Int) * sW - bw + dW * fx ≠ (ox : Int) * sW - pw + dW * fx := by
      by_contra hh
      apply hne
      constructor <;> omega
    by_cases hin : 0 ≤ (oy : Int) * sH - bh + dH * fy ∧ (oy : Int) * sH - bh + dH * fy < inH ∧
        0 ≤ (ox : Int) * sW - bw + dW * fx ∧ (ox : Int) * sW - bw + dW * fx < inW
    · obtain ⟨img, hi⟩ := reads_differ hd hin
      exact hi (key img)
    · obtain ⟨img, hi⟩ := reads_differ (hd.imp Ne.symm Ne.symm)
        (h5 (fun a b c => by by_contra hc; exact hin ⟨a, b, c, by omega⟩))
      exact hi (key img).symm
  · rintro (⟨rfl, rfl⟩ | hno) img pv oy ox fy fx h1 h2 h3 h4
    · exact reads_agree img pv oy ox fy fx
    · obtain ⟨a, b⟩ := hno oy ox fy fx h1 h2 h3 h4
      rw [reads_agree]
      unfold extended
      rw [if_neg a, if_neg b]

/-- Without dilation, an accepted convolution of a non-empty image reads the image, so the second case of `C28_exact` does
not occur: the rewriting is right exactly when the paddings agree. -/
theorem C28_exact_undilated {pads : Pads} {nb ci nb' co : Int} {inH inW outH outW fH fW sH sW : Nat} (hs : 0 < sH ∧ 0 < sW)
    (hf : 0 < fH ∧ 0 < fW) (hi : 0 < inH ∧ 0 < inW) (ho : 0 < outH ∧ 0 < outW)
    (hacc : isSamePadding pads [nb, inH, inW, ci] [nb', outH, outW, co] sH sW = true)
    (hvH : IsValidOut inH pads.h.1 pads.h.2 fH sH 1 outH) (hvW : IsValidOut inW pads.w.1 pads.w.2 fW sW 1 outW)
    (hsz : inH + sH < 2147483648 ∧ inW + sW < 2147483648 ∧ outH < 2147483648 ∧ outW < 2147483648) :
    (∀ (img : Nat → Nat → Bool) (pv : Bool) (oy ox fy fx : Nat), oy < outH → ox < outW → fy < fH → fx < fW →
      padRead pads.h.1 inH pads.w.1 inW img pv (oy * sH + 1 * fy) (ox * sW + 1 * fx) =
        extended inH inW img pv ((oy : Int) * sH - computePadding sH 1 inH fH outH + (1 : Nat) * fy)
          ((ox : Int) * sW - computePadding sW 1 inW fW outW + (1 : Nat) * fx)) ↔
    pads.h.1 = computePadding sH 1 inH fH outH ∧ pads.w.1 = computePadding sW 1 inW fW outW := by
  rw [C28_exact]
  have hlt : ∀ {n out f s : Nat}, 0 < s → 0 < f → 0 < n → (out : Int) = computeOutSize .same n f s 1 →
      computePadding s 1 n f out < f := by
    intro n out f s h1 h2 h3 h4
    unfold computeOutSize at h4
    simp only [] at h4
    rw [Int.tdiv_eq_ediv_of_nonneg (by omega)] at h4
    have e1 := Int.mul_ediv_self_le (x := (n : Int) + s - 1) (k := (s : Int)) (by omega)
    rw [← h4] at e1
    have e3 : ((out : Int) - 1) * s = s * out - s := by ring
    unfold computePadding effSize
    simp only []
    rw [e3, Int.tdiv_eq_ediv_of_nonneg (le_max_right _ _)]
    have e4 : (((f - 1) * 1 + 1 : Nat) : Int) = f := by omega
    rw [e4]
    omega
  unfold isSamePadding at hacc
  simp only [Bool.and_eq_true] at hacc
  obtain ⟨⟨⟨_, h1⟩, h2⟩, _⟩ := hacc
  obtain ⟨a1, _⟩ := isSame1D_facts hs.1 (by omega) hsz.2.2.1 hvH h1
  obtain ⟨b1, _⟩ := isSame1D_facts hs.2 (by omega) hsz.2.2.2 hvW h2
  have c1 := hlt hs.1 hf.1 hi.1 a1
  have c2 := hlt hs.2 hf.2 hi.2 b1
  constructor
  · rintro (h | h)
    · exact h
    · exfalso
      refine (h 0 0 _ _ ho.1 ho.2 c1 c2).2 ?_
      push_cast
      omega
  · exact Or.inl

/-- Non-vacuity: a 5x7 image, 3x3 filter with dilation (1, 2), strides 1, padding (1,1) and (2,2). -/
example : isSamePadding ⟨(0, 0), (1, 1), (2, 2), (0, 0)⟩ [1, 5, 7, 8] [1, 5, 7, 16] 1 1 = true ∧
    IsValidOut 5 1 1 3 1 1 5 ∧ IsValidOut 7 2 2 3 1 2 7 := by
  unfold IsValidOut; decide

/-- Non-vacuity with stride 2 where the paddings agree: 5 rows, 3 taps, padding (1, 1). -/
example : isSamePadding1D (1, 1) 5 3 2 = true ∧ IsValidOut 5 1 1 3 2 1 3 ∧ computePadding 2 1 5 3 3 = 1 := by
  unfold IsValidOut; decide

/-- **C28 is false for stride 2.** A 4x4 image, 3x3 filter, strides 2 and padding (1,1): accepted, but the
original first output pixel reads rows -1..1 of the image and the SAME convolution reads rows 0..2. -/
theorem C28_stride2_witness :
    isSamePadding ⟨(0, 0), (1, 1), (1, 1), (0, 0)⟩ [1, 4, 4, 1] [1, 2, 2, 1] 2 2 = true ∧
    IsValidOut 4 1 1 3 2 1 2 ∧ computePadding 2 1 4 3 2 = 0 ∧
    padRead 1 4 1 4 (fun y x => ((4 * y + x : Nat) : Int) + 1) 0 (0 * 2 + 1 * 1) (0 * 2 + 1 * 1) = 1 ∧
    extended 4 4 (fun y x => ((4 * y + x : Nat) : Int) + 1) 0 (0 * 2 - 0 + 1 * 1) (0 * 2 - 0 + 1 * 1) = 6 := by
  unfold IsValidOut; decide

/-- The same happens for the usual first layer of a residual network: 224x224, 7x7 filter, stride 2,
padding (3, 3) is accepted, SAME pads 2 before. -/
theorem C28_resnet_witness :
    isSamePadding1D (3, 3) 224 112 2 = true ∧ IsValidOut 224 3 3 7 2 1 112 ∧ computePadding 2 1 224 7 112 = 2 := by
  unfold IsValidOut; decide

/-- **C28 is false for unknown spatial sizes.** When height and width are dynamic, every symmetric padding is
accepted for every stride, although it is not the SAME padding of the filter: `kDynamic` converted to `int` is
0, and `0 = CeilDiv(0, stride)`. -/
theorem C28_dynamic_witness (k : Nat) (s : Int) (hs : 0 < s) :
    isSamePadding ⟨(0, 0), (k, k), (k, k), (0, 0)⟩ [1, kDynamic, kDynamic, 1] [1, kDynamic, kDynamic, 1] s s = true := by
  have h0 : toCInt kDynamic = 0 := by decide
  have h1 : ceilDivC 0 s = 0 := by
    unfold ceilDivC
    exact Int.tdiv_eq_zero_of_lt (by omega) (by omega)
  unfold isSamePadding isSamePadding1D isNoPadding
  simp only [h0, h1]
  simp
  omega

end Verif
