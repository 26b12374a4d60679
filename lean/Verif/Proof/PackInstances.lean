import Verif.Proof.BitpackMatrix

/-! The three element types bitpacking is instantiated with. -/

namespace Verif

theorem toInt_ofInt8 {zp : Int} (h1 : -128 ≤ zp) (h2 : zp ≤ 127) :
    (BitVec.ofInt 8 zp).toInt = zp := by
  rw [BitVec.toInt_ofInt]
  exact Int.bmod_eq_of_le (by omega) (by omega)

instance : LawfulPackElem (BitVec 8) where
  below x zp := decide (x.toInt < zp)
  okZp _ := True
  below_lowest zp h x := by
    have h : zp ≤ -128 := by simpa [PackElem.leLowest] using h
    have := BitVec.le_toInt x
    simp; omega
  below_max zp h x := by
    have h : 127 < zp := by simpa [PackElem.gtMax] using h
    have := BitVec.toInt_lt (x := x)
    simp; omega
  okZp_float _ _ h := by simp [PackElem.quantized] at h
  lt_quantized zp _ h1 h2 _ x := by
    have h1 : ¬ zp ≤ -128 := by simpa [PackElem.leLowest] using h1
    have h2 : ¬ 127 < zp := by simpa [PackElem.gtMax] using h2
    have e := toInt_ofInt8 (zp := zp) (by omega) (by omega)
    show decide (x.toInt < (BitVec.ofInt 8 zp).toInt) = decide (x.toInt < zp)
    rw [e]
  lt_float h := by simp [PackElem.quantized] at h
  below_zp zp h1 h2 _ := by
    have h1 : ¬ zp ≤ -128 := by simpa [PackElem.leLowest] using h1
    have h2 : ¬ 127 < zp := by simpa [PackElem.gtMax] using h2
    have e := toInt_ofInt8 (zp := zp) (by omega) (by omega)
    show decide ((BitVec.ofInt 8 zp).toInt < zp) = false
    rw [e]; simp

theorem toNat_ofInt8 {zp : Int} (h1 : 0 ≤ zp) (h2 : zp ≤ 255) :
    (BitVec.ofInt 8 zp).toNat = zp.toNat := by
  rw [BitVec.toNat_ofInt]
  congr 1
  exact Int.emod_eq_of_lt h1 (by omega)

instance : LawfulPackElem U8 where
  below x zp := decide ((x.val.toNat : Int) < zp)
  okZp _ := True
  below_lowest zp h x := by
    have h : zp ≤ 0 := by simpa [PackElem.leLowest] using h
    simp; omega
  below_max zp h x := by
    have h : 255 < zp := by simpa [PackElem.gtMax] using h
    have := x.val.isLt
    simp; omega
  okZp_float _ _ h := by simp [PackElem.quantized] at h
  lt_quantized zp _ h1 h2 _ x := by
    have h1 : ¬ zp ≤ 0 := by simpa [PackElem.leLowest] using h1
    have h2 : ¬ 255 < zp := by simpa [PackElem.gtMax] using h2
    have e := toNat_ofInt8 (zp := zp) (by omega) (by omega)
    show decide (x.val.toNat < (BitVec.ofInt 8 zp).toNat) = decide ((x.val.toNat : Int) < zp)
    rw [e]
    by_cases h : (x.val.toNat : Int) < zp
    · simp only [h]; simp; omega
    · simp only [h]; simp; omega
  lt_float h := by simp [PackElem.quantized] at h
  below_zp zp h1 h2 _ := by
    have h1 : ¬ zp ≤ 0 := by simpa [PackElem.leLowest] using h1
    have h2 : ¬ 255 < zp := by simpa [PackElem.gtMax] using h2
    have e := toNat_ofInt8 (zp := zp) (by omega) (by omega)
    show decide (((BitVec.ofInt 8 zp).toNat : Int) < zp) = false
    rw [e]; simp; omega

instance : LawfulPackElem F32 where
  below x _ := F32.lt x F32.zero
  okZp zp := zp = 0
  below_lowest zp h := by simp [PackElem.leLowest] at h
  below_max zp h := by simp [PackElem.gtMax] at h
  okZp_float _ h _ := h
  lt_quantized _ _ _ _ h := by simp [PackElem.quantized] at h
  lt_float _ x := rfl
  below_zp zp h1 h2 _ := by
    simp only [PackElem.ofZp]; decide

end Verif
