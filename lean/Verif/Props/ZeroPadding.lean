import Verif.Proof.ZeroPadding
import Verif.Spec.ZeroPad
import Verif.Props.BGemm
import Verif.Props.Indirect
import Verif.Props.Reference

/-!
C17 and C18: the zero-padding correction of the optimized kernels.
-/

namespace Verif

open Finset

/-- One dimension: which filter positions stick out, in terms of the overflows. `ef` is
the (dilated) filter position. -/
theorem zp_outside {o stride eff inS pad : Nat} (_hs : 1 ≤ stride)
    (hpad : (pad : Int) = (max (((o : Int) - 1) * stride + eff - inS) 0).tdiv 2)
    {x ef : Nat} (hx : x < o) (hef : ef < eff) :
    ((x : Int) * stride - pad + ef < 0 ↔ (ef : Int) < zpOffset o stride eff inS - (x : Int) * stride) ∧
    ((inS : Int) ≤ (x : Int) * stride - pad + ef ↔
      (eff : Int) - ef ≤ -(zpOffset o stride eff inS - (x : Int) * stride) - inS + eff) := by
  have h3 : (x : Int) * stride ≤ (o - 1) * stride := mul_le_mul_of_nonneg_right (by omega) (by omega)
  have h4 : (0 : Int) ≤ (x : Int) * stride := by positivity
  unfold zpOffset
  generalize (x : Int) * stride = xs at *
  generalize ((o : Int) - 1) * stride = os at *
  generalize htot : os + eff - inS = t at *
  rcases Int.le_total 0 t with ht | ht
  · rw [Int.max_eq_left ht] at hpad
    rw [← hpad]
    constructor <;> constructor <;> omega
  · rw [Int.max_eq_right ht] at hpad
    have hp : (pad : Int) = 0 := by simpa using hpad
    have h5 : t.tdiv 2 = -((-t).tdiv 2) := by rw [Int.neg_tdiv]; omega
    rw [h5, Int.tdiv_eq_ediv_of_nonneg (by omega), hp]
    constructor <;> constructor <;> omega

/-- When one of the four cases applies or nothing sticks out, the case table computes exactly the set of filter pixels that
stick out. -/
theorem zpCase_correct {left right top bot : Int} {effW effH : Nat} {efx efy : Nat}
    (hx : efx < effW) (hy : efy < effH)
    (hc : zpCase left right top bot ≠ none ∨ (left ≤ 0 ∧ right ≤ 0 ∧ top ≤ 0 ∧ bot ≤ 0)) :
    (match zpCase left right top bot with
      | none => false
      | some (dir, cy, cx) => match dir with
        | 0 => decide (efy < cy.toNat) || decide (efx < cx.toNat)
        | 1 => decide (efy < cy.toNat) || decide ((effW : Int) - efx ≤ (cx.toNat : Int))
        | 2 => decide ((effH : Int) - efy ≤ (cy.toNat : Int)) || decide (efx < cx.toNat)
        | _ => decide ((effH : Int) - efy ≤ (cy.toNat : Int)) || decide ((effW : Int) - efx ≤ (cx.toNat : Int)))
      = decide ((efy : Int) < top ∨ (effH : Int) - efy ≤ bot ∨ (efx : Int) < left ∨ (effW : Int) - efx ≤ right) := by
  unfold zpCase at hc ⊢
  rw [Bool.eq_iff_iff]
  by_cases c0 : right ≤ 0 ∧ top > 0 ∧ bot < 0
  · rw [if_pos c0]
    simp only [Bool.or_eq_true, decide_eq_true_eq]
    split <;> omega
  · rw [if_neg c0]
    by_cases c1 : left < 0 ∧ right > 0 ∧ bot ≤ 0
    · rw [if_pos c1]
      simp only [Bool.or_eq_true, decide_eq_true_eq]
      split <;> omega
    · rw [if_neg c1]
      by_cases c2 : left > 0 ∧ right < 0 ∧ top ≤ 0
      · rw [if_pos c2]
        simp only [Bool.or_eq_true, decide_eq_true_eq]
        split <;> omega
      · rw [if_neg c2]
        by_cases c3 : left ≤ 0 ∧ top < 0 ∧ bot > 0
        · rw [if_pos c3]
          simp only [Bool.or_eq_true, decide_eq_true_eq]
          split <;> omega
        · rw [if_neg c0, if_neg c1, if_neg c2, if_neg c3] at hc
          replace hc := hc.resolve_left (fun h => h rfl)
          rw [if_neg c3]
          simp only [Bool.false_eq_true, decide_eq_true_eq, false_iff]
          omega

section
variable {p : BConv} {inp filt : List Word}

/-- The overflows as the code computes them and the true ones: equal, or both say that nothing sticks out. -/
theorem over_cases {o stride eff inS pad x : Nat} (_hs : 1 ≤ stride)
    (hpad : (pad : Int) = (max (((o : Int) - 1) * stride + eff - inS) 0).tdiv 2) (hx : x < o) :
    (zpOffset o stride eff inS - (x : Int) * stride = (pad : Int) - (x : Int) * stride) ∨
    (zpOffset o stride eff inS - (x : Int) * stride ≤ 0 ∧ -(zpOffset o stride eff inS - (x : Int) * stride) - inS + eff ≤ 0 ∧
      (pad : Int) - (x : Int) * stride ≤ 0 ∧ (x : Int) * stride - pad + eff - inS ≤ 0) := by
  have h3 : (x : Int) * stride ≤ (o - 1) * stride := mul_le_mul_of_nonneg_right (by omega) (by omega)
  have h4 : (0 : Int) ≤ (x : Int) * stride := by positivity
  unfold zpOffset
  generalize (x : Int) * stride = xs at *
  generalize ((o : Int) - 1) * stride = os at *
  generalize htot : os + eff - inS = t at *
  rcases Int.le_total 0 t with ht | ht
  · rw [Int.max_eq_left ht] at hpad
    left; rw [← hpad]
  · rw [Int.max_eq_right ht] at hpad
    have hp : (pad : Int) = 0 := by simpa using hpad
    have h5 : t.tdiv 2 = -((-t).tdiv 2) := by rw [Int.neg_tdiv]; omega
    right
    rw [h5, Int.tdiv_eq_ediv_of_nonneg (by omega), hp]
    omega

theorem geom_pads (hgeo : p.Geom) :
    (p.padH : Int) = (max (((p.outH : Int) - 1) * p.strideH + p.effH - p.inH) 0).tdiv 2 ∧
    (p.padW : Int) = (max (((p.outW : Int) - 1) * p.strideW + p.effW - p.inW) 0).tdiv 2 := by
  constructor
  · rw [hgeo.padH]; unfold computePadding BConv.effH
    simp only []
    exact Int.toNat_of_nonneg (by rw [Int.tdiv_eq_ediv_of_nonneg (by omega)]; omega)
  · rw [hgeo.padW]; unfold computePadding BConv.effW
    simp only []
    exact Int.toNat_of_nonneg (by rw [Int.tdiv_eq_ediv_of_nonneg (by omega)]; omega)

/-- `Corrected`, with the overflows of the code. -/
theorem corrected_iff (hgeo : p.Geom) (hsh : 1 ≤ p.strideH) (hsw : 1 ≤ p.strideW) {oy ox : Nat}
    (hoy : oy < p.outH) (hox : ox < p.outW) {left top : Int}
    (hl : left = zpOffset p.outW p.strideW p.effW p.inW - (ox : Int) * p.strideW)
    (ht : top = zpOffset p.outH p.strideH p.effH p.inH - (oy : Int) * p.strideH) :
    p.Corrected oy ox ↔ (zpCase left (-left - p.inW + p.effW) top (-top - p.inH + p.effH) ≠ none ∨
      (left ≤ 0 ∧ -left - p.inW + p.effW ≤ 0 ∧ top ≤ 0 ∧ -top - p.inH + p.effH ≤ 0)) := by
  obtain ⟨hpH, hpW⟩ := geom_pads hgeo
  have hH := over_cases hsh hpH hoy
  have hW := over_cases hsw hpW hox
  rw [← hl] at hW
  rw [← ht] at hH
  have hn : zpCase left (-left - p.inW + p.effW) top (-top - p.inH + p.effH) ≠ none ↔
      (-left - p.inW + p.effW ≤ 0 ∧ top > 0 ∧ -top - p.inH + p.effH < 0) ∨
      (left < 0 ∧ -left - p.inW + p.effW > 0 ∧ -top - p.inH + p.effH ≤ 0) ∨
      (left > 0 ∧ -left - p.inW + p.effW < 0 ∧ top ≤ 0) ∨ (left ≤ 0 ∧ top < 0 ∧ -top - p.inH + p.effH > 0) := by
    unfold zpCase
    by_cases c0 : -left - p.inW + p.effW ≤ 0 ∧ top > 0 ∧ -top - p.inH + p.effH < 0
    · rw [if_pos c0]; exact ⟨fun _ => Or.inl c0, fun _ h => by cases h⟩
    · rw [if_neg c0]
      by_cases c1 : left < 0 ∧ -left - p.inW + p.effW > 0 ∧ -top - p.inH + p.effH ≤ 0
      · rw [if_pos c1]; exact ⟨fun _ => Or.inr (Or.inl c1), fun _ h => by cases h⟩
      · rw [if_neg c1]
        by_cases c2 : left > 0 ∧ -left - p.inW + p.effW < 0 ∧ top ≤ 0
        · rw [if_pos c2]; exact ⟨fun _ => Or.inr (Or.inr (Or.inl c2)), fun _ h => by cases h⟩
        · rw [if_neg c2]
          by_cases c3 : left ≤ 0 ∧ top < 0 ∧ -top - p.inH + p.effH > 0
          · rw [if_pos c3]; exact ⟨fun _ => Or.inr (Or.inr (Or.inr c3)), fun _ h => by cases h⟩
          · rw [if_neg c3]
            refine ⟨fun h => absurd rfl h, ?_⟩
            rintro (h | h | h | h)
            · exact absurd h c0
            · exact absurd h c1
            · exact absurd h c2
            · exact absurd h c3
  rw [hn]
  have eW : (((p.filtW - 1) * p.dilW + 1 : Nat) : Int) = p.effW := rfl
  have eH : (((p.filtH - 1) * p.dilH + 1 : Nat) : Int) = p.effH := rfl
  unfold BConv.Corrected BConv.overLeft BConv.overRight BConv.overTop BConv.overBottom
  rw [eW, eH]
  generalize (ox : Int) * p.strideW = X at *
  generalize (oy : Int) * p.strideH = Y at *
  generalize (p.padW : Int) = pw at *
  generalize (p.padH : Int) = ph at *
  clear hn hl ht hpH hpW eW eH hgeo hsh hsw hoy hox
  constructor
  · rintro (h | h | h | h | h)
    · exact Or.inr (by omega)
    · exact Or.inl (Or.inl (by omega))
    · exact Or.inl (Or.inr (Or.inl (by omega)))
    · exact Or.inl (Or.inr (Or.inr (Or.inl (by omega))))
    · exact Or.inl (Or.inr (Or.inr (Or.inr (by omega))))
  · rintro ((h | h | h | h) | h)
    · exact Or.inr (Or.inl (by omega))
    · exact Or.inr (Or.inr (Or.inl (by omega)))
    · exact Or.inr (Or.inr (Or.inr (Or.inl (by omega))))
    · exact Or.inr (Or.inr (Or.inr (Or.inr (by omega))))
    · exact Or.inl (by omega)

/-- If the (dilated) filter is not larger than the image, every pixel is corrected. -/
theorem corrected_of_fits {oy ox : Nat}
    (hH : (p.filtH - 1) * p.dilH + 1 ≤ p.inH) (hW : (p.filtW - 1) * p.dilW + 1 ≤ p.inW) : p.Corrected oy ox := by
  unfold BConv.Corrected BConv.overLeft BConv.overRight BConv.overTop BConv.overBottom
  generalize (ox : Int) * p.strideW = X at *
  generalize (oy : Int) * p.strideH = Y at *
  generalize (p.filtH - 1) * p.dilH + 1 = eh at *
  generalize (p.filtW - 1) * p.dilW + 1 = ew at *
  omega

/-- The correction of a pixel: minus the multiplier times the sum of the weights of the filter pixels outside the image if
the pixel is corrected, otherwise 0. -/
theorem zpVal_correct (hgeo : p.Geom) (hsh : 1 ≤ p.strideH) (hsw : 1 ≤ p.strideW) {m : Rat} {oy ox oc : Nat}
    (hoy : oy < p.outH) (hox : ox < p.outW) {C : Nat → Nat → Nat → Nat → Rat}
    (hC : ∀ dir y x, C dir y x oc = -1 * m * (zpS p filt dir y x oc : Rat)) :
    zpVal p C oy ox oc = if p.Corrected oy ox then -1 * m * ((∑ fy ∈ range p.filtH, ∑ fx ∈ range p.filtW,
      if p.inside (p.inY oy fy) (p.inX ox fx) then 0 else zpW p filt oc fy fx : Int) : Rat) else 0 := by
  obtain ⟨hpH, hpW⟩ := geom_pads hgeo
  have hev : ∀ fy, fy < p.filtH → p.dilH * fy < p.effH := by
    intro fy hfy
    unfold BConv.effH effSize
    have := Nat.mul_le_mul_left p.dilH (show fy ≤ p.filtH - 1 by omega)
    rw [Nat.mul_comm p.dilH (p.filtH - 1)] at this
    omega
  have heh : ∀ fx, fx < p.filtW → p.dilW * fx < p.effW := by
    intro fx hfx
    unfold BConv.effW effSize
    have := Nat.mul_le_mul_left p.dilW (show fx ≤ p.filtW - 1 by omega)
    rw [Nat.mul_comm p.dilW (p.filtW - 1)] at this
    omega
  unfold zpVal
  simp only []
  set top := zpOffset p.outH p.strideH p.effH p.inH - (oy : Int) * p.strideH with htop
  set left := zpOffset p.outW p.strideW p.effW p.inW - (ox : Int) * p.strideW with hleft
  have hiff := corrected_iff hgeo hsh hsw hoy hox hleft htop
  by_cases hcd : p.Corrected oy ox
  case neg =>
    rw [if_neg hcd]
    rw [hiff] at hcd
    have hnone : zpCase left (-left - p.inW + p.effW) top (-top - p.inH + p.effH) = none := by
      by_contra h; exact hcd (Or.inl h)
    rw [hnone]
  rw [if_pos hcd]
  rw [hiff] at hcd
  have hcorr : ∀ fy fx, fy < p.filtH → fx < p.filtW →
      (match zpCase left (-left - p.inW + p.effW) top (-top - p.inH + p.effH) with
      | none => false
      | some (dir, cy, cx) => zpCond p dir cy.toNat cx.toNat fy fx)
        = !p.inside (p.inY oy fy) (p.inX ox fx) := by
    intro fy fx hfy hfx
    have h1 := zpCase_correct (left := left) (right := -left - p.inW + p.effW) (top := top)
      (bot := -top - p.inH + p.effH) (heh fx hfx) (hev fy hfy) hcd
    obtain ⟨y1, y2⟩ := zp_outside hsh hpH hoy (hev fy hfy)
    obtain ⟨x1, x2⟩ := zp_outside hsw hpW hox (heh fx hfx)
    have h2 : decide (((p.dilH * fy : Nat) : Int) < top ∨ (p.effH : Int) - ((p.dilH * fy : Nat) : Int) ≤ -top - p.inH + p.effH
          ∨ ((p.dilW * fx : Nat) : Int) < left ∨ (p.effW : Int) - ((p.dilW * fx : Nat) : Int) ≤ -left - p.inW + p.effW)
        = !p.inside (p.inY oy fy) (p.inX ox fx) := by
      rw [← htop] at y1 y2
      rw [← hleft] at x1 x2
      rw [Bool.eq_iff_iff, decide_eq_true_eq, Bool.not_eq_true', ← Bool.not_eq_true, BConv.inside_iff]
      unfold BConv.inY BConv.inX
      rw [← y1, ← y2, ← x1, ← x2]
      push_cast
      omega
    rw [← h2, ← h1]
    cases zpCase left (-left - p.inW + p.effW) top (-top - p.inH + p.effH) with
    | none => rfl
    | some v =>
      obtain ⟨dir, cy, cx⟩ := v
      simp only
      unfold zpCond
      rcases dir with _ | _ | _ | _ <;> rfl
  cases hcase : zpCase left (-left - p.inW + p.effW) top (-top - p.inH + p.effH) with
  | none =>
    simp only
    rw [sum_eq_zero]
    · simp
    · intro fy hfy
      apply sum_eq_zero
      intro fx hfx
      have := hcorr fy fx (by simpa using hfy) (by simpa using hfx)
      rw [hcase] at this
      simp only at this
      rw [if_pos (by revert this; cases p.inside (p.inY oy fy) (p.inX ox fx) <;> simp)]
  | some v =>
    obtain ⟨dir, cy, cx⟩ := v
    simp only
    rw [hC]
    congr 2
    unfold zpS
    apply sum_congr rfl
    intro fy hfy
    apply sum_congr rfl
    intro fx hfx
    have := hcorr fy fx (by simpa using hfy) (by simpa using hfx)
    rw [hcase] at this
    simp only at this
    rw [this]
    cases p.inside (p.inY oy fy) (p.inX ox fx) <;> simp

/-- Zero padding is one padding minus the weights outside. -/
theorem conv_zero_eq (h : p.Ok inp filt) {b oy ox oc : Nat} (hoc : oc < p.cout) :
    p.conv 0 inp filt b oy ox oc = p.conv 1 inp filt b oy ox oc
      - ∑ fy ∈ range p.filtH, ∑ fx ∈ range p.filtW,
        if p.inside (p.inY oy fy) (p.inX ox fx) then 0 else zpW p filt oc fy fx := by
  unfold BConv.conv
  rw [← sum_sub_distrib]
  apply sum_congr rfl
  intro fy hfy
  rw [← sum_sub_distrib]
  apply sum_congr rfl
  intro fx hfx
  rw [← BConv.inY_eq, ← BConv.inX_eq]
  by_cases hin : p.inside (p.inY oy fy) (p.inX ox fx) = true
  · rw [if_pos hin, sub_zero]
    apply sum_congr rfl
    intro c _
    unfold BConv.inputAt
    rw [if_pos (BConv.inside_iff.1 hin), if_pos (BConv.inside_iff.1 hin)]
  · rw [if_neg hin, zpW_eq h hoc (by simpa using hfy) (by simpa using hfx), ← sum_sub_distrib]
    apply sum_congr rfl
    intro c _
    unfold BConv.inputAt
    rw [if_neg (fun hh => hin (BConv.inside_iff.2 hh)), if_neg (fun hh => hin (BConv.inside_iff.2 hh))]
    ring

/-- The end of the two optimized kernels: correction of an output that holds the
one-padded convolution. The pixels that are not `Corrected` keep it. -/
theorem zp_finish_correct (hok : p.Ok inp filt) (hgeo : p.Geom) (hsame : p.padding = .same)
    (hz : p.padValue = 0) (hsh : 1 ≤ p.strideH) (hsw : 1 ≤ p.strideW) {mult bias : List Rat} (hm : mult.length = p.cout)
    {out1 : List Rat} (hlen : out1.length = p.batches * p.outH * p.outW * p.cout)
    (hval : ∀ i, i < out1.length → out1[i]? = some
      ((((p.K : Int) - 2 * (p.accPix inp filt (i / p.cout) (i % p.cout) : Int) : Int) : Rat) * mult.getD (i % p.cout) 0
        + bias.getD (i % p.cout) 0)) :
    ∃ cache out, zpSetup p filt mult = some cache ∧ zpFinish p cache out1 = some out ∧
      out.length = out1.length ∧
      ∀ b y x c, b < p.batches → y < p.outH → x < p.outW → c < p.cout →
        out[((b * p.outH + y) * p.outW + x) * p.cout + c]?
          = some ((p.conv (if p.Corrected y x then 0 else 1) inp filt b y x c : Int) * mult.getD c 0 + bias.getD c 0) := by
  have hzp : p.zeroPadding = true := by unfold BConv.zeroPadding; simp [hsame, hz]
  obtain ⟨cache, c1, c2, c3⟩ := zpCache_eq hok hm (cache0 := List.replicate (zpCacheSize p) 0) (by simp)
  obtain ⟨out, o1, o2, o3⟩ := zpApply_eq hsame hgeo hsh hsw
    (C := fun dir y x oc => -1 * mult.getD oc 0 * (zpS p filt dir y x oc : Rat)) c3 hlen
  refine ⟨cache, out, ?_, ?_, o2, ?_⟩
  · unfold zpSetup; rw [if_pos hzp, c1]
  · unfold zpFinish; rw [if_pos hzp, o1]
  · intro b y x c hb hy hx hc
    have := o3 b y x c hb hy hx hc
    have hlt : offset4 p.outH p.outW p.cout b y x c < out1.length := by
      rw [hlen]; exact offset4_lt hb hy hx hc
    have hv := hval _ hlt
    have hgd : out1.getD (offset4 p.outH p.outW p.cout b y x c) 0
        = ((((p.K : Int) - 2 * (p.acc inp filt b y x c : Int) : Int) : Rat) * mult.getD c 0 + bias.getD c 0) := by
      rw [List.getD_eq_getElem?_getD, hv]
      unfold offset4
      rw [(div_mod_row hc).1, (div_mod_row hc).2, BConv.accPix_eq hy hx]
      rfl
    rw [hgd, zpVal_correct (filt := filt) (m := mult.getD c 0) hgeo hsh hsw hy hx (fun _ _ _ => rfl)] at this
    unfold offset4 at this
    rw [this, BConv.acc_eq_conv hok hb hc]
    by_cases hcd : p.Corrected y x
    · rw [if_pos hcd, if_pos hcd, conv_zero_eq hok hc]
      congr 1
      push_cast
      ring
    · rw [if_neg hcd, if_neg hcd, add_zero]

/-- **C17, exact**, im2col + BGEMM kernel, any schedule: every `Corrected` pixel gets the zero-padded convolution, every other
one the one-padded convolution. No condition on the sizes of filter and image. -/
theorem C17_bgemm_exact {mult bias out0 : List Rat}
    (hok : p.Ok inp filt) (hg : p.groups = 1) (hgeo : p.Geom) (hsame : p.padding = .same)
    (hz : p.padValue = 0) (hsh : 1 ≤ p.strideH) (hsw : 1 ≤ p.strideW)
    (hm : mult.length = p.cout) (hb : bias.length = p.cout)
    (hK : 2 * (p.filtH * p.filtW * p.cin) < 2147483648)
    (fat : Bool) {blocks : List Blk} (hs : Schedule p.cout (p.batches * p.outH * p.outW) 1 1 blocks)
    (h0 : out0.length = p.batches * p.outH * p.outW * p.cout) :
    ∃ out, evalBGemmFloat p fat blocks .none mult bias inp filt out0 = some out ∧
      out.length = out0.length ∧
      ∀ b y x c, b < p.batches → y < p.outH → x < p.outW → c < p.cout →
        out[((b * p.outH + y) * p.outW + x) * p.cout + c]?
          = some ((p.conv (if p.Corrected y x then 0 else 1) inp filt b y x c : Int) * mult.getD c 0 + bias.getD c 0) := by
  obtain ⟨t, ht, hrun⟩ := runFloat_eq (p := p) (act := .none) hm hb
    (by rw [BConv.K, BConv.cinG, hg, Nat.div_one]; exact hK)
  obtain ⟨trs, e1, e2⟩ := bgemmTraces_eq hok hg hgeo hrun fat hs
  have e3 := applyWrites_perm hs e2 (out0 := out0)
    (by
      intro i j hi hj
      have := row_lt hj hi
      rw [h0]; omega)
    (by
      intro x hx
      rw [h0] at hx
      obtain ⟨a1, a2⟩ := mod_lt_of_lt_mul hx
      exact ⟨x % p.cout, x / p.cout, a2, a1, by rw [Nat.add_comm, div_mul_add_mod]⟩)
    (List.Perm.refl _)
  obtain ⟨cache, out, f1, f2, f3, f4⟩ := zp_finish_correct (bias := bias) hok hgeo hsame hz hsh hsw hm
    (out1 := (List.range out0.length).map fun x =>
      ((Act.none.apply ((p.K : Int) - 2 * (p.accPix inp filt (x / p.cout) (x % p.cout))) : Int) : Rat)
        * mult.getD (x % p.cout) 0 + bias.getD (x % p.cout) 0)
    (by simp [h0])
    (by
      intro i hi
      have hi : i < out0.length := by simpa using hi
      rw [List.getElem?_map, List.getElem?_range hi]
      simp [Act.apply])
  refine ⟨out, ?_, by rw [f3]; simp, f4⟩
  unfold evalBGemmFloat bconvBGemm
  simp only [ht, f1, e1, e3, Option.bind_eq_bind, Option.bind_some, f2]

/-- **C17** (partial: the effective filter must not be larger than the image; see
`C17_large_filter_witness` for the failure otherwise), im2col + BGEMM kernel, any schedule. -/
theorem C17_bgemm_partial {mult bias out0 : List Rat}
    (hok : p.Ok inp filt) (hg : p.groups = 1) (hgeo : p.Geom) (hsame : p.padding = .same)
    (hz : p.padValue = 0) (hsh : 1 ≤ p.strideH) (hsw : 1 ≤ p.strideW)
    (hH : (p.filtH - 1) * p.dilH + 1 ≤ p.inH) (hW : (p.filtW - 1) * p.dilW + 1 ≤ p.inW)
    (hm : mult.length = p.cout) (hb : bias.length = p.cout)
    (hK : 2 * (p.filtH * p.filtW * p.cin) < 2147483648)
    (fat : Bool) {blocks : List Blk} (hs : Schedule p.cout (p.batches * p.outH * p.outW) 1 1 blocks)
    (h0 : out0.length = p.batches * p.outH * p.outW * p.cout) :
    ∃ out, evalBGemmFloat p fat blocks .none mult bias inp filt out0 = some out ∧
      out.length = out0.length ∧
      ∀ b y x c, b < p.batches → y < p.outH → x < p.outW → c < p.cout →
        out[((b * p.outH + y) * p.outW + x) * p.cout + c]?
          = some ((p.conv 0 inp filt b y x c : Int) * mult.getD c 0 + bias.getD c 0) := by
  obtain ⟨out, h1, h2, h3⟩ := C17_bgemm_exact hok hg hgeo hsame hz hsh hsw hm hb hK fat hs h0
  refine ⟨out, h1, h2, ?_⟩
  intro b y x c hb hy hx hc
  rw [h3 b y x c hb hy hx hc, if_pos (corrected_of_fits hH hW)]

/-- **C17, exact**, indirect BGEMM kernel, any number of groups. -/
theorem C17_indirect_exact {mult bias out0 : List Rat}
    (hok : p.Ok inp filt) (hgeo : p.Geom) (hsame : p.padding = .same)
    (hz : p.padValue = 0) (hsh : 1 ≤ p.strideH) (hsw : 1 ≤ p.strideW)
    (hfh : 0 < p.filtH) (hfw : 0 < p.filtW) (hci : 0 < p.cin) (hco : 0 < p.cout)
    (hm : mult.length = p.cout) (hb : bias.length = p.cout)
    (hK : 2 * (p.filtH * p.filtW * (p.cin / p.groups)) < 2147483648)
    (h0 : out0.length = p.batches * p.outH * p.outW * p.cout) :
    ∃ out, evalIndFloat p .none mult bias inp filt out0 = some out ∧
      out.length = out0.length ∧
      ∀ b y x c, b < p.batches → y < p.outH → x < p.outW → c < p.cout →
        out[((b * p.outH + y) * p.outW + x) * p.cout + c]?
          = some ((p.conv (if p.Corrected y x then 0 else 1) inp filt b y x c : Int) * mult.getD c 0 + bias.getD c 0) := by
  obtain ⟨t, ht, hrun⟩ := runFloat_eq (p := p) (act := .none) hm hb hK
  have e3 := bconvIndirect_eq hok.dims (Nat.mul_pos hfh hfw) (hok.filtDepth_pos hci) hco
    (run := t.runFloat)
    (f := fun a c => ((Act.none.apply ((p.K : Int) - 2 * a) : Int) : Rat) * mult.getD c 0 + bias.getD c 0)
    (fun oi c hoi hc => hrun _ _ (accPix_le hok hoi hc) hc) h0
  obtain ⟨cache, out, f1, f2, f3, f4⟩ := zp_finish_correct (bias := bias) hok hgeo hsame hz hsh hsw hm
    (out1 := (List.range out0.length).map fun x =>
      ((Act.none.apply ((p.K : Int) - 2 * (p.accPix inp filt (x / p.cout) (x % p.cout))) : Int) : Rat)
        * mult.getD (x % p.cout) 0 + bias.getD (x % p.cout) 0)
    (by simp [h0])
    (by
      intro i hi
      have hi : i < out0.length := by simpa using hi
      rw [List.getElem?_map, List.getElem?_range hi]
      simp [Act.apply])
  refine ⟨out, ?_, by rw [f3]; simp, f4⟩
  unfold evalIndFloat
  simp only [ht, f1, e3, Option.bind_eq_bind, Option.bind_some, f2]

/-- **C17** (partial as above), indirect BGEMM kernel, any number of groups. -/
theorem C17_indirect_partial {mult bias out0 : List Rat}
    (hok : p.Ok inp filt) (hgeo : p.Geom) (hsame : p.padding = .same)
    (hz : p.padValue = 0) (hsh : 1 ≤ p.strideH) (hsw : 1 ≤ p.strideW)
    (hfh : 0 < p.filtH) (hfw : 0 < p.filtW) (hci : 0 < p.cin) (hco : 0 < p.cout)
    (hH : (p.filtH - 1) * p.dilH + 1 ≤ p.inH) (hW : (p.filtW - 1) * p.dilW + 1 ≤ p.inW)
    (hm : mult.length = p.cout) (hb : bias.length = p.cout)
    (hK : 2 * (p.filtH * p.filtW * (p.cin / p.groups)) < 2147483648)
    (h0 : out0.length = p.batches * p.outH * p.outW * p.cout) :
    ∃ out, evalIndFloat p .none mult bias inp filt out0 = some out ∧
      out.length = out0.length ∧
      ∀ b y x c, b < p.batches → y < p.outH → x < p.outW → c < p.cout →
        out[((b * p.outH + y) * p.outW + x) * p.cout + c]?
          = some ((p.conv 0 inp filt b y x c : Int) * mult.getD c 0 + bias.getD c 0) := by
  obtain ⟨out, h1, h2, h3⟩ := C17_indirect_exact hok hgeo hsame hz hsh hsw hfh hfw hci hco hm hb hK h0
  refine ⟨out, h1, h2, ?_⟩
  intro b y x c hb hy hx hc
  rw [h3 b y x c hb hy hx hc, if_pos (corrected_of_fits hH hW)]

/-- If a pixel is not corrected, some filter pixel of its window is outside the image. -/
theorem outside_of_not_corrected (hfh : 0 < p.filtH) (hfw : 0 < p.filtW) {oy ox : Nat} (h : ¬ p.Corrected oy ox) :
    ∃ fy fx, fy < p.filtH ∧ fx < p.filtW ∧ p.inside (p.inY oy fy) (p.inX ox fx) = false := by
  have h1 : ¬ (p.overLeft ox ≤ 0 ∧ p.overRight ox ≤ 0 ∧ p.overTop oy ≤ 0 ∧ p.overBottom oy ≤ 0) := fun h' => h (Or.inl h')
  have hx : (((p.filtW - 1) * p.dilW + 1 : Nat) : Int) = (p.dilW : Int) * ((p.filtW - 1 : Nat) : Int) + 1 := by
    push_cast; ring
  have hy : (((p.filtH - 1) * p.dilH + 1 : Nat) : Int) = (p.dilH : Int) * ((p.filtH - 1 : Nat) : Int) + 1 := by
    push_cast; ring
  unfold BConv.overLeft BConv.overRight BConv.overTop BConv.overBottom at h1
  rw [hx, hy] at h1
  by_contra hno
  have hin : ∀ fy fx, fy < p.filtH → fx < p.filtW → p.inside (p.inY oy fy) (p.inX ox fx) = true := by
    intro fy fx h2 h3
    by_contra h4
    exact hno ⟨fy, fx, h2, h3, by simpa using h4⟩
  have a1 := BConv.inside_iff.1 (hin 0 0 hfh hfw)
  have a2 := BConv.inside_iff.1 (hin (p.filtH - 1) (p.filtW - 1) (by omega) (by omega))
  unfold BConv.inY BConv.inX at a1 a2
  simp only [Nat.cast_zero, mul_zero] at a1
  omega

/-- The number of products is positive and all weights are 1: at a pixel that is not corrected the zero-padded and the
one-padded convolution differ. -/
theorem conv_ne_of_not_corrected (hok : p.Ok inp filt) (hfh : 0 < p.filtH) (hfw : 0 < p.filtW) (hci : 0 < p.cinG)
    (hone : ∀ i, filt.getD i 0#32 = 0#32) {b oy ox oc : Nat} (hoc : oc < p.cout) (h : ¬ p.Corrected oy ox) :
    p.conv 0 inp filt b oy ox oc < p.conv 1 inp filt b oy ox oc := by
  have hw : ∀ fy fx, fy < p.filtH → fx < p.filtW → zpW p filt oc fy fx = p.cinG := by
    intro fy fx h1 h2
    rw [zpW_eq hok hoc h1 h2]
    unfold BConv.weight pm
    simp only [hone]
    simp [signVal]
  obtain ⟨fy, fx, h1, h2, h3⟩ := outside_of_not_corrected hfh hfw h
  rw [conv_zero_eq hok hoc]
  have hnn : ∀ fy fx, fy < p.filtH → fx < p.filtW →
      0 ≤ if p.inside (p.inY oy fy) (p.inX ox fx) then 0 else zpW p filt oc fy fx := by
    intro fy fx h1 h2
    split
    · exact le_refl _
    · rw [hw fy fx h1 h2]; omega
  have : 0 < ∑ fy ∈ range p.filtH, ∑ fx ∈ range p.filtW,
      if p.inside (p.inY oy fy) (p.inX ox fx) then 0 else zpW p filt oc fy fx := by
    refine sum_pos' (fun y hy => sum_nonneg fun x hx => hnn y x (by simpa using hy) (by simpa using hx))
      ⟨fy, by simpa using h1, ?_⟩
    refine sum_pos' (fun x hx => hnn fy x h1 (by simpa using hx)) ⟨fx, by simpa using h2, ?_⟩
    rw [h3, if_neg (by simp), hw fy fx h1 h2]
    omega
  omega

/-- The tensors with the same sizes and a filter of ones are valid too. -/
theorem Ok.ones (hok : p.Ok inp filt) : p.Ok inp (List.replicate filt.length 0#32) :=
  ⟨hok.groups_pos, hok.cout_div, hok.inDepth, hok.filtDepth, hok.depth, hok.group_words, hok.inLen,
    by rw [List.length_replicate]; exact hok.filtLen, hok.inUnused, by
      intro r k b _ _ _ _
      simp only [List.getD_eq_getElem?_getD, List.getElem?_replicate]
      split <;> simp⟩

/-- **C17, exact condition.** For a SAME geometry with zero padding and a consistent set of sizes, the indirect kernel is
right for all inputs, filters, multipliers and biases if and only if every output pixel is `Corrected`. -/
theorem C17_indirect_iff (hok : p.Ok inp filt) (hgeo : p.Geom) (hsame : p.padding = .same)
    (hz : p.padValue = 0) (hsh : 1 ≤ p.strideH) (hsw : 1 ≤ p.strideW)
    (hfh : 0 < p.filtH) (hfw : 0 < p.filtW) (hci : 0 < p.cin / p.groups) (hco : 0 < p.cout) (hba : 0 < p.batches)
    (hK : 2 * (p.filtH * p.filtW * (p.cin / p.groups)) < 2147483648) :
    (∀ inp filt, p.Ok inp filt → ∀ mult bias out0 : List Rat, mult.length = p.cout → bias.length = p.cout →
      out0.length = p.batches * p.outH * p.outW * p.cout →
      ∃ out, evalIndFloat p .none mult bias inp filt out0 = some out ∧
        ∀ b y x c, b < p.batches → y < p.outH → x < p.outW → c < p.cout →
          out[((b * p.outH + y) * p.outW + x) * p.cout + c]?
            = some ((p.conv 0 inp filt b y x c : Int) * mult.getD c 0 + bias.getD c 0)) ↔
    ∀ y x, y < p.outH → x < p.outW → p.Corrected y x := by
  have hci' : 0 < p.cin := by
    rcases Nat.eq_zero_or_pos p.cin with h | h
    · rw [h, Nat.zero_div] at hci; omega
    · exact h
  constructor
  · intro hall y x hy hx
    by_contra hnc
    have hok1 := Ok.ones hok
    obtain ⟨out, h1, h2⟩ := hall inp _ hok1 (List.replicate p.cout 1) (List.replicate p.cout 0)
      (List.replicate (p.batches * p.outH * p.outW * p.cout) 0) (by simp) (by simp) (by simp)
    obtain ⟨out', h3, _, h4⟩ := C17_indirect_exact hok1 hgeo hsame hz hsh hsw hfh hfw hci' hco
      (mult := List.replicate p.cout 1) (bias := List.replicate p.cout 0)
      (out0 := List.replicate (p.batches * p.outH * p.outW * p.cout) 0) (by simp) (by simp) hK (by simp)
    rw [h1] at h3; cases h3
    have e := (h2 0 y x 0 hba hy hx hco).symm.trans (h4 0 y x 0 hba hy hx hco)
    rw [if_neg hnc, Option.some.injEq] at e
    have hm : (List.replicate p.cout (1 : Rat)).getD 0 0 = 1 := by
      rw [List.getD_eq_getElem?_getD, List.getElem?_replicate, if_pos hco]; rfl
    rw [hm, mul_one, mul_one, add_left_inj] at e
    have lt := conv_ne_of_not_corrected (b := 0) hok1 hfh hfw hci (by
      intro i
      rw [List.getD_eq_getElem?_getD, List.getElem?_replicate]
      split <;> rfl) hco hnc
    exact absurd (by exact_mod_cast e) (ne_of_lt lt)
  · intro hc inp filt hok mult bias out0 hm hb h0
    obtain ⟨out, h1, _, h3⟩ := C17_indirect_exact hok hgeo hsame hz hsh hsw hfh hfw hci' hco hm hb hK h0
    refine ⟨out, h1, ?_⟩
    intro b y x c hb hy hx hcc
    rw [h3 b y x c hb hy hx hcc, if_pos (hc y x hy hx)]

/-- **C17, exact condition**, im2col + BGEMM kernel, any schedule. -/
theorem C17_bgemm_iff (hok : p.Ok inp filt) (hg : p.groups = 1) (hgeo : p.Geom) (hsame : p.padding = .same)
    (hz : p.padValue = 0) (hsh : 1 ≤ p.strideH) (hsw : 1 ≤ p.strideW)
    (hfh : 0 < p.filtH) (hfw : 0 < p.filtW) (hci : 0 < p.cin) (hco : 0 < p.cout) (hba : 0 < p.batches)
    (hK : 2 * (p.filtH * p.filtW * p.cin) < 2147483648)
    (fat : Bool) {blocks : List Blk} (hs : Schedule p.cout (p.batches * p.outH * p.outW) 1 1 blocks) :
    (∀ inp filt, p.Ok inp filt → ∀ mult bias out0 : List Rat, mult.length = p.cout → bias.length = p.cout →
      out0.length = p.batches * p.outH * p.outW * p.cout →
      ∃ out, evalBGemmFloat p fat blocks .none mult bias inp filt out0 = some out ∧
        ∀ b y x c, b < p.batches → y < p.outH → x < p.outW → c < p.cout →
          out[((b * p.outH + y) * p.outW + x) * p.cout + c]?
            = some ((p.conv 0 inp filt b y x c : Int) * mult.getD c 0 + bias.getD c 0)) ↔
    ∀ y x, y < p.outH → x < p.outW → p.Corrected y x := by
  constructor
  · intro hall y x hy hx
    by_contra hnc
    have hok1 := Ok.ones hok
    obtain ⟨out, h1, h2⟩ := hall inp _ hok1 (List.replicate p.cout 1) (List.replicate p.cout 0)
      (List.replicate (p.batches * p.outH * p.outW * p.cout) 0) (by simp) (by simp) (by simp)
    obtain ⟨out', h3, _, h4⟩ := C17_bgemm_exact hok1 hg hgeo hsame hz hsh hsw
      (mult := List.replicate p.cout 1) (bias := List.replicate p.cout 0)
      (out0 := List.replicate (p.batches * p.outH * p.outW * p.cout) 0) (by simp) (by simp) hK fat hs (by simp)
    rw [h1] at h3; cases h3
    have e := (h2 0 y x 0 hba hy hx hco).symm.trans (h4 0 y x 0 hba hy hx hco)
    rw [if_neg hnc, Option.some.injEq] at e
    have hm : (List.replicate p.cout (1 : Rat)).getD 0 0 = 1 := by
      rw [List.getD_eq_getElem?_getD, List.getElem?_replicate, if_pos hco]; rfl
    rw [hm, mul_one, mul_one, add_left_inj] at e
    have lt := conv_ne_of_not_corrected (b := 0) hok1 hfh hfw (by rw [BConv.cinG, hg, Nat.div_one]; exact hci) (by
      intro i
      rw [List.getD_eq_getElem?_getD, List.getElem?_replicate]
      split <;> rfl) hco hnc
    exact absurd (by exact_mod_cast e) (ne_of_lt lt)
  · intro hc inp filt hok mult bias out0 hm hb h0
    obtain ⟨out, h1, _, h3⟩ := C17_bgemm_exact hok hg hgeo hsame hz hsh hsw hm hb hK fat hs h0
    refine ⟨out, h1, ?_⟩
    intro b y x c hb hy hx hcc
    rw [h3 b y x c hb hy hx hcc, if_pos (hc y x hy hx)]

/-- **C17**, consequence: with an even number of channels the optimized kernels agree with
the reference kernel's zero padding (C08). -/
theorem C17_kernels_agree_partial {mult bias out0 : List Rat}
    (hok : p.Ok inp filt) (hgeo : p.Geom) (hsame : p.padding = .same)
    (hz : p.padValue = 0) (heven : p.cin % 2 = 0) (hsh : 1 ≤ p.strideH) (hsw : 1 ≤ p.strideW)
    (hfh : 0 < p.filtH) (hfw : 0 < p.filtW) (hci : 0 < p.cin) (hco : 0 < p.cout)
    (hH : (p.filtH - 1) * p.dilH + 1 ≤ p.inH) (hW : (p.filtW - 1) * p.dilW + 1 ≤ p.inW)
    (hm : mult.length = p.cout) (hb : bias.length = p.cout)
    (hK : 2 * (p.filtH * p.filtW * (p.cin / p.groups)) < 2147483648)
    (h0 : out0.length = p.batches * p.outH * p.outW * p.cout) :
    ∃ out, evalIndFloat p .none mult bias inp filt out0 = some out ∧
      evalRefFloat p .none mult bias inp filt out0 = some out := by
  obtain ⟨out, e1, e2, e3⟩ := C17_indirect_partial hok hgeo hsame hz hsh hsw hfh hfw hci hco hH hW hm hb hK h0
  obtain ⟨out', g1, g2, g3⟩ := evalRefFloat_eq (act := .none) hok (fun _ => cinG_even hok heven) hm hb hK h0
  refine ⟨out, e1, ?_⟩
  rw [g1]
  congr 1
  apply List.ext_getElem?
  intro i
  by_cases hi : i < p.batches * p.outH * p.outW * p.cout
  · obtain ⟨a1, a2⟩ := mod_lt_of_lt_mul hi
    obtain ⟨a3, a4⟩ := mod_lt_of_lt_mul a1
    obtain ⟨a5, a6⟩ := mod_lt_of_lt_mul a3
    have l1 := e3 _ _ _ _ a5 a6 a4 a2
    have l2 := g3 _ _ _ _ a5 a6 a4 a2
    rw [div_mul_add_mod, div_mul_add_mod, div_mul_add_mod] at l1 l2
    rw [l1, l2]
    have : p.padVal = 0 := by unfold BConv.padVal BConv.zeroPadding; simp [hsame, hz]
    rw [this]
    rfl
  · rw [List.getElem?_eq_none (by omega), List.getElem?_eq_none (by omega)]

/-- **C18.** For every SAME geometry (also with filters larger than the image) the cache is
filled completely, whatever it held before, with no out-of-bounds access, and the later
pass over any output tensor terminates and accesses cache and output in bounds. -/
theorem C18_cache_in_bounds (hok : p.Ok inp filt) (hgeo : p.Geom) (hsame : p.padding = .same)
    (hsh : 1 ≤ p.strideH) (hsw : 1 ≤ p.strideW) {mult cache0 cache1 out0 : List Rat}
    (hm : mult.length = p.cout)
    (h0 : cache0.length = 4 * ((p.filtH - 1) * p.dilH + 1) * ((p.filtW - 1) * p.dilW + 1) * p.cout)
    (h1 : cache1.length = 4 * ((p.filtH - 1) * p.dilH + 1) * ((p.filtW - 1) * p.dilW + 1) * p.cout)
    (hout : out0.length = p.batches * p.outH * p.outW * p.cout) :
    ∃ cache out, zpCache p filt mult cache0 = some cache ∧ zpCache p filt mult cache1 = some cache ∧
      zpApply p cache out0 = some out ∧ out.length = out0.length := by
  obtain ⟨cache, c1, c2, c3⟩ := zpCache_eq hok hm (cache0 := cache0) h0
  obtain ⟨cache', d1, d2, d3⟩ := zpCache_eq hok hm (cache0 := cache1) h1
  obtain ⟨out, o1, o2, _⟩ := zpApply_eq hsame hgeo hsh hsw
    (C := fun dir y x oc => -1 * mult.getD oc 0 * (zpS p filt dir y x oc : Rat)) c3 hout
  have : cache' = cache := by
    apply List.ext_getElem?
    intro i
    by_cases hi : i < 4 * p.effH * p.effW * p.cout
    · obtain ⟨a1, a2⟩ := mod_lt_of_lt_mul hi
      obtain ⟨a3, a4⟩ := mod_lt_of_lt_mul a1
      obtain ⟨a5, a6⟩ := mod_lt_of_lt_mul a3
      have l1 := c3 _ _ _ _ a5 a6 a4 a2
      have l2 := d3 _ _ _ _ a5 a6 a4 a2
      unfold offset4 at l1 l2
      rw [div_mul_add_mod, div_mul_add_mod, div_mul_add_mod] at l1 l2
      rw [l1, l2]
    · unfold zpCacheSize at c2 d2
      rw [List.getElem?_eq_none (by omega), List.getElem?_eq_none (by omega)]
  exact ⟨cache, out, c1, by rw [d1, this], o1, o2⟩

end

/-- C17 fails when the filter is larger than the image: a 3x3 filter of ones on a 2x2 image
of ones with 32 channels. Every output should be 4 * 32 = 128 (and the reference kernel
computes 128), but the optimized kernel leaves 288 uncorrected. -/
theorem C17_large_filter_witness :
    let p : BConv := ⟨1, 2, 2, 1, 32, 3, 3, 1, 1, 1, 1, 1, 1, 1, .same, 1, 1, 0, 2, 2⟩
    p.Geom ∧
    evalIndFloat p .none [1] [0] [0#32, 0#32, 0#32, 0#32] (List.replicate 9 0#32) [0, 0, 0, 0]
      = some [288, 288, 288, 288] ∧
    evalRefFloat p .none [1] [0] [0#32, 0#32, 0#32, 0#32] (List.replicate 9 0#32) [0, 0, 0, 0]
      = some [128, 128, 128, 128] := by
  refine ⟨⟨by decide, by decide, by decide, by decide⟩, ?_, ?_⟩ <;> decide +kernel

/-- Larger filters can be right: 6 columns, stride 4, a filter of 7 columns, one row. Both output columns are corrected. -/
example :
    let p : BConv := ⟨1, 3, 6, 1, 32, 1, 7, 1, 1, 1, 1, 4, 1, 1, .same, 0, 2, 0, 3, 2⟩
    p.Geom ∧ p.inW < (p.filtW - 1) * p.dilW + 1 ∧ ∀ y x, y < p.outH → x < p.outW → p.Corrected y x := by
  refine ⟨⟨by decide, by decide, by decide, by decide⟩, by decide, ?_⟩
  have : ∀ y < 3, ∀ x < 2, BConv.Corrected ⟨1, 3, 6, 1, 32, 1, 7, 1, 1, 1, 1, 4, 1, 1, .same, 0, 2, 0, 3, 2⟩ y x := by decide
  exact fun y x hy hx => this y hy x hx

/-- Non-vacuity of C17 and C18: a dilated 3x3 filter (effective 5x3) with stride 2 on a 6x5
image, 33 channels. -/
example :
    let p : BConv := ⟨2, 6, 5, 2, 33, 3, 3, 2, 3, 1, 2, 1, 2, 1, .same, 1, 1, 0, 3, 5⟩
    p.Geom ∧ p.padding = .same ∧ p.padValue = 0 ∧
      (p.filtH - 1) * p.dilH + 1 ≤ p.inH ∧ (p.filtW - 1) * p.dilW + 1 ≤ p.inW ∧
      p.Ok (List.replicate 120 0#32) (List.replicate 54 0#32) := by
  refine ⟨⟨by decide, by decide, by decide, by decide⟩, rfl, rfl, by decide, by decide, ?_⟩
  refine ⟨by decide, by decide, by decide, by decide, by decide, by decide,
    by rw [List.length_replicate]; rfl, by rw [List.length_replicate]; rfl, ?_, ?_⟩
  · intro r k b _ _ _ _
    simp only [List.getD_eq_getElem?_getD, List.getElem?_replicate]
    split <;> simp
  · intro r k b _ _ _ _
    simp only [List.getD_eq_getElem?_getD, List.getElem?_replicate]
    split <;> simp

end Verif
