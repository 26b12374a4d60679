import Verif.Model.PackRat
import Verif.Proof.Quantize
import Verif.Spec.Quant

namespace Verif

instance : LawfulPackElem Rat where
  below x _ := decide (x < 0)
  okZp zp := zp = 0
  below_lowest zp h := by simp [PackElem.leLowest] at h
  below_max zp h := by simp [PackElem.gtMax] at h
  okZp_float _ h _ := h
  lt_quantized _ _ _ _ h := by simp [PackElem.quantized] at h
  lt_float _ x := rfl
  below_zp zp h1 h2 _ := by simp [PackElem.ofZp]

/-- Bitpacking a rational matrix: the bit of (row, channel) is the sign, unused bits are 0. -/
theorem bitpackMatrix_rat {x : List Rat} {rows cols : Nat} {out0 : List Word} {junk : Word}
    (hin : x.length = rows * cols) (hout : out0.length = rows * ((cols + 31) / 32)) :
    ∃ out, bitpackMatrix x rows cols out0 0 junk = some out ∧ IsPacked rows cols out ∧
      ∀ r c, r < rows → c < cols → ∃ w v, out[r * ((cols + 31) / 32) + c / 32]? = some w ∧
        x[r * cols + c]? = some v ∧ (w.getLsbD (c % 32) = true ↔ v < 0) := by
  rw [← packedSize_eq] at *
  obtain ⟨out, h1, h2⟩ := bitpackMatrix_fills (zp := 0) (junk := junk) (out0 := out0) hin (by omega) (by rfl)
    (by simp [PackElem.gtMax])
  refine ⟨out, h1, ⟨by rw [h2.len, hout, packedSize_eq], ?_⟩, ?_⟩
  · intro r k b v hr hk hb hc hv
    rw [← packedSize_eq] at hk hv
    have hidx := row_lt (cols := packedSize cols) hr hk
    rw [h2.hit _ (by omega) hidx] at hv
    rw [← Option.some.inj hv, (div_mod_row hk).1, (div_mod_row hk).2, packedWord, wordOf_getLsbD]
    have : ¬ (32 * k + b < cols) := by omega
    simp [this]
  · intro r c hr hc
    have hk : c / 32 < packedSize cols := by rw [packedSize_eq]; omega
    have hidx := row_lt (cols := packedSize cols) hr hk
    have hx := row_lt (cols := cols) hr hc
    refine ⟨_, x[r * cols + c]'(by omega), h2.hit (r * packedSize cols + c / 32) (by omega) hidx, by simp, ?_⟩
    rw [(div_mod_row hk).1, (div_mod_row hk).2, packedWord, wordOf_getLsbD]
    have e : 32 * (c / 32) + c % 32 = c := by omega
    rw [e]
    have : c % 32 < 32 := by omega
    have h3 : r * cols + c < x.length := by omega
    simp [hc, this, h3, LawfulPackElem.below]

end Verif
