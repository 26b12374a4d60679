import Verif.Proof.IndirectBits
import Verif.Proof.OutputTransform

/-! Outputs of the reference kernel as lists, to compare the kernels. -/

namespace Verif

open Finset

theorem flat_pixel {H Wd oi : Nat} :
    oi / (H * Wd) = oi / Wd / H ∧ oi % (H * Wd) / Wd = oi / Wd % H := by
  constructor
  · rw [Nat.mul_comm, Nat.div_div_eq_div_mul]
  · rw [Nat.mul_comm, Nat.mod_mul_right_div_self]

/-- Without zero padding, the reference kernel's output, as a list. -/
theorem bconvReference_list {α : Type} {p : BConv} {inp filt : List Word} (h : p.Ok inp filt)
    (hz : p.zeroPadding = false) {run : Nat → Nat → Option α} {f : Nat → Nat → α}
    (hrun : ∀ a c, a ≤ p.K → c < p.cout → run a c = some (f a c))
    {out0 : List α} (hout : out0.length = p.batches * p.outH * p.outW * p.cout) :
    bconvReference p inp filt run out0 = some ((List.range out0.length).map
      (fun i => f (p.accPix inp filt (i / p.cout) (i % p.cout)) (i % p.cout))) := by
  obtain ⟨out, h1, h2, h3⟩ := bconvReference_eq h.groups_pos h.cout_div h.depth h.inLen
    h.filtLen (fun b oy ox oc hb hoc => BConv.accRef_le h (by simp [hz]) hb hoc) hrun hout
  rw [h1]
  congr 1
  apply List.ext_getElem?
  intro i
  by_cases hi : i < p.batches * p.outH * p.outW * p.cout
  · obtain ⟨e1, e2⟩ := mod_lt_of_lt_mul hi
    obtain ⟨e3, e4⟩ := mod_lt_of_lt_mul e1
    obtain ⟨e5, e6⟩ := mod_lt_of_lt_mul e3
    have := h3 _ _ _ _ e5 e6 e4 e2
    unfold offset4 at this
    rw [div_mul_add_mod, div_mul_add_mod, div_mul_add_mod, BConv.accRef_eq_acc hz] at this
    rw [this, List.getElem?_map, List.getElem?_range (by rw [hout]; exact hi), Option.map_some]
    unfold BConv.accPix
    rw [flat_pixel.1, flat_pixel.2]
  · rw [List.getElem?_eq_none (by omega), List.getElem?_eq_none (by simp; omega)]

/-- Without zero padding, the reference kernel's bitpacked output, as a list. -/
theorem bconvReferenceBits_list {p : BConv} {inp filt : List Word} (h : p.Ok inp filt)
    (hz : p.zeroPadding = false) {run : Nat → Nat → Option Bool} {f : Nat → Nat → Bool}
    (hrun : ∀ a c, a ≤ p.K → c < p.cout → run a c = some (f a c))
    {out0 : List Word} (hout : out0.length = p.batches * p.outH * p.outW * packedSize p.cout) :
    bconvReferenceBits p inp filt run out0 = some ((List.range out0.length).map
      (fun k => wordOf fun i => if 32 * (k % packedSize p.cout) + i < p.cout then
        f (p.accPix inp filt (k / packedSize p.cout) (32 * (k % packedSize p.cout) + i))
          (32 * (k % packedSize p.cout) + i) else false)) := by
  obtain ⟨out, h1, h2, h3⟩ := bconvReferenceBits_eq h.groups_pos h.cout_div h.depth h.inLen
    h.filtLen (fun b oy ox oc hb hoc => BConv.accRef_le h (by simp [hz]) hb hoc) hrun hout
  rw [h1]
  congr 1
  apply List.ext_getElem?
  intro i
  by_cases hi : i < p.batches * p.outH * p.outW * packedSize p.cout
  · obtain ⟨e1, e2⟩ := mod_lt_of_lt_mul hi
    obtain ⟨e3, e4⟩ := mod_lt_of_lt_mul e1
    obtain ⟨e5, e6⟩ := mod_lt_of_lt_mul e3
    have := h3 _ _ _ _ e5 e6 e4 e2
    unfold offset4 at this
    rw [div_mul_add_mod, div_mul_add_mod, div_mul_add_mod] at this
    rw [this, List.getElem?_map, List.getElem?_range (by rw [hout]; exact hi), Option.map_some]
    congr 1
    apply wordOf_congr
    intro j _
    rw [BConv.accRef_eq_acc hz]
    unfold BConv.accPix
    rw [flat_pixel.1, flat_pixel.2]
  · rw [List.getElem?_eq_none (by omega), List.getElem?_eq_none (by simp; omega)]

theorem accPix_le {p : BConv} {inp filt : List Word} (h : p.Ok inp filt) {oi oc : Nat}
    (hoi : oi < p.batches * p.outH * p.outW) (hoc : oc < p.cout) : p.accPix inp filt oi oc ≤ p.K := by
  unfold BConv.accPix
  apply BConv.acc_le h _ hoc
  rw [flat_pixel.1]
  exact (mod_lt_of_lt_mul (mod_lt_of_lt_mul hoi).1).1

theorem BConv.Ok.filtDepth_pos {p : BConv} {inp filt : List Word} (h : p.Ok inp filt) (hc : 0 < p.cin) :
    1 ≤ p.filtDepth := by
  have h1 := h.inDepth
  have h2 := h.depth
  rcases Nat.eq_zero_or_pos p.filtDepth with h0 | h0
  · rw [h0, Nat.mul_zero] at h2; omega
  · exact h0

theorem zeroPadding_false {p : BConv} (hpad : p.padding = .valid ∨ p.padValue = 1) :
    p.zeroPadding = false := by
  unfold BConv.zeroPadding
  rcases hpad with h | h <;> simp [h]

end Verif
