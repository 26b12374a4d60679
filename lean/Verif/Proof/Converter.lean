import Verif.Proof.PackRat
import Verif.Proof.Thresholds
import Verif.Props.Reference
import Verif.Props.BMaxPool

/-! Filters of the converter: packing, sign flipping. -/

namespace Verif

open Finset

/-- `a - 2x` form of a convolution value. -/
theorem BConv.conv_eq {p : BConv} {inp filt : List Word} (hok : p.Ok inp filt)
    (hz : p.zeroPadding = false) {b oc : Nat} (oy ox : Nat) (hb : b < p.batches) (hoc : oc < p.cout) :
    ∃ a : Nat, a ≤ p.K ∧ p.conv 1 inp filt b oy ox oc = (p.K : Int) - 2 * a ∧
      a = p.accRef inp filt b oy ox oc := by
  have h1 := BConv.accRef_eq_conv (b := b) (oy := oy) (ox := ox) (oc := oc) hok (by simp [hz]) hb hoc
  have h2 := BConv.accRef_le (b := b) (oy := oy) (ox := ox) (oc := oc) hok (by simp [hz]) hb hoc
  refine ⟨p.accRef inp filt b oy ox oc, h2, ?_, rfl⟩
  have : p.padVal = 1 := by simp [BConv.padVal, hz]
  rw [this] at h1
  exact h1.symm

/-- Replacing the filter keeps everything else in order. -/
theorem BConv.Ok.setFilter {p : BConv} {inp filt filt' : List Word} (hok : p.Ok inp filt)
    (h : IsPacked (p.cout * p.filtH * p.filtW) p.cinG filt') : p.Ok inp filt' :=
  { hok with
    filtLen := by rw [h.len, hok.filtDepth]
    filtUnused := by
      intro r k b hr hk hb hc
      rw [hok.filtDepth] at hk ⊢
      have hl : r * ((p.cinG + 31) / 32) + k < filt'.length := by rw [h.len]; exact row_lt hr hk
      have := h.unused r k b _ hr hk hb hc (List.getElem?_eq_getElem hl)
      simpa [hl] using this }

/-- Flat index of a weight. -/
def BConv.wIdx (p : BConv) (oc fy fx c : Nat) : Nat := ((oc * p.filtH + fy) * p.filtW + fx) * p.cinG + c

theorem BConv.wIdx_lt {p : BConv} {oc fy fx c : Nat} (h1 : oc < p.cout) (h2 : fy < p.filtH) (h3 : fx < p.filtW)
    (h4 : c < p.cinG) : p.wIdx oc fy fx c < p.cout * p.filtH * p.filtW * p.cinG :=
  row_lt (row_lt (row_lt h1 h2) h3) h4

theorem BConv.wIdx_div {p : BConv} {oc fy fx c : Nat} (h2 : fy < p.filtH) (h3 : fx < p.filtW)
    (h4 : c < p.cinG) : p.wIdx oc fy fx c / (p.filtH * p.filtW * p.cinG) = oc := by
  unfold BConv.wIdx
  rw [show p.filtH * p.filtW * p.cinG = p.cinG * (p.filtW * p.filtH) by ring, ← Nat.div_div_eq_div_mul,
    (div_mod_row h4).1, ← Nat.div_div_eq_div_mul, (div_mod_row h3).1, (div_mod_row h2).1]

/-- The converter's packed filter represents the signs of the float filter. -/
theorem bitpackConst_weight {p : BConv} {w : List Rat} {junk : Word}
    (hw : w.length = p.cout * p.filtH * p.filtW * p.cinG) :
    ∃ filt, bitpackConst p.cout p.filtH p.filtW p.cinG w junk = some filt ∧
      IsPacked (p.cout * p.filtH * p.filtW) p.cinG filt ∧
      ∀ oc fy fx c, oc < p.cout → fy < p.filtH → fx < p.filtW → c < p.cinG →
        p.weight filt oc fy fx c = if w.getD (p.wIdx oc fy fx c) 0 < 0 then -1 else 1 := by
  obtain ⟨filt, h1, h2, h3⟩ := bitpackMatrix_rat (x := w) (rows := p.cout * p.filtH * p.filtW) (cols := p.cinG)
    (out0 := List.replicate (p.cout * p.filtH * p.filtW * packedSize p.cinG) 0#32) (junk := junk) hw
    (by rw [List.length_replicate, packedSize_eq])
  refine ⟨filt, h1, h2, fun oc fy fx c hoc hfy hfx hc => ?_⟩
  obtain ⟨wd, v, e1, e2, e3⟩ := h3 ((oc * p.filtH + fy) * p.filtW + fx) c (row_lt (row_lt hoc hfy) hfx) hc
  unfold BConv.weight pm signVal BConv.wIdx
  have g1 : filt.getD (((oc * p.filtH + fy) * p.filtW + fx) * ((p.cinG + 31) / 32) + c / 32) 0#32 = wd := by
    simp [e1]
  have g2 : w.getD (((oc * p.filtH + fy) * p.filtW + fx) * p.cinG + c) 0 = v := by simp [e2]
  rw [g1, g2]
  by_cases hv : v < 0
  · rw [if_pos (e3.2 hv), if_pos hv]
  · rw [if_neg (fun h => hv (e3.1 h)), if_neg hv]

theorem mulSigns_getD {pixels : Nat} {w s : List Rat} {i : Nat} (hi : i < w.length) :
    (mulSigns pixels w s).getD i 0 = w.getD i 0 * s.getD (i / pixels) 0 := by
  unfold mulSigns
  simp [hi]

/-- Flipping the signs of a channel of non-zero weights negates its weights. -/
theorem weight_mulSigns {p : BConv} {w mult : List Rat} {filt filt' : List Word}
    (hm : mult.length = p.cout) (hw : w.length = p.cout * p.filtH * p.filtW * p.cinG)
    (hw0 : ∀ x ∈ w, x ≠ 0)
    (hf : ∀ oc fy fx c, oc < p.cout → fy < p.filtH → fx < p.filtW → c < p.cinG →
        p.weight filt oc fy fx c = if w.getD (p.wIdx oc fy fx c) 0 < 0 then -1 else 1)
    (hf' : ∀ oc fy fx c, oc < p.cout → fy < p.filtH → fx < p.filtW → c < p.cinG →
        p.weight filt' oc fy fx c =
          if (mulSigns (p.filtH * p.filtW * p.cinG) w (signsOf mult)).getD (p.wIdx oc fy fx c) 0 < 0 then -1 else 1)
    {oc fy fx c : Nat} (h1 : oc < p.cout) (h2 : fy < p.filtH) (h3 : fx < p.filtW) (h4 : c < p.cinG) :
    p.weight filt' oc fy fx c = p.weight filt oc fy fx c * (if 0 ≤ mult.getD oc 0 then 1 else -1) := by
  have hlt := BConv.wIdx_lt h1 h2 h3 h4
  rw [← hw] at hlt
  rw [hf _ _ _ _ h1 h2 h3 h4, hf' _ _ _ _ h1 h2 h3 h4, mulSigns_getD hlt, BConv.wIdx_div h2 h3 h4]
  have hs : (signsOf mult).getD oc 0 = if 0 ≤ mult.getD oc 0 then 1 else -1 := by
    unfold signsOf
    have : oc < mult.length := by omega
    simp [this]
  rw [hs]
  have hne : w.getD (p.wIdx oc fy fx c) 0 ≠ 0 := by
    have : w.getD (p.wIdx oc fy fx c) 0 = w[p.wIdx oc fy fx c] := by simp [hlt]
    rw [this]
    exact hw0 _ (List.getElem_mem _)
  generalize w.getD (p.wIdx oc fy fx c) 0 = v at hne ⊢
  split
  · simp
  · rcases lt_or_gt_of_ne hne with h | h
    · rw [if_neg (by linarith), if_pos h]; rfl
    · rw [if_pos (by linarith), if_neg (by linarith)]; rfl

/-- Scaling the weights of a channel by ±1 scales the convolution. -/
theorem conv_scale {p : BConv} {pad : Int} {inp filt filt' : List Word} {oc : Nat} {s : Int}
    (h : ∀ fy fx c, fy < p.filtH → fx < p.filtW → c < p.cinG →
      p.weight filt' oc fy fx c = p.weight filt oc fy fx c * s) (b oy ox : Nat) :
    p.conv pad inp filt' b oy ox oc = p.conv pad inp filt b oy ox oc * s := by
  unfold BConv.conv
  rw [sum_mul]
  apply sum_congr rfl; intro fy hfy
  rw [sum_mul]
  apply sum_congr rfl; intro fx hfx
  rw [sum_mul]
  apply sum_congr rfl; intro c hc
  rw [h fy fx c (mem_range.1 hfy) (mem_range.1 hfx) (mem_range.1 hc)]
  ring

end Verif
