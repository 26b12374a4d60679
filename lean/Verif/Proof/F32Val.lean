import Verif.Spec.F32Val
import Verif.Proof.Float32
import Mathlib.Tactic.Ring
import Mathlib.Tactic.Positivity
import Mathlib.Order.Monotone.Basic

/-! The value of a binary32 bit pattern: sign, order and representability. -/

namespace Verif

namespace F32

theorem two_zpow_pos (e : Int) : (0 : Rat) < 2 ^ e := zpow_pos (by norm_num) e

/-- The magnitude as a function of the 31 magnitude bits. -/
def magN (k : Nat) : Rat := magOf (k / 2 ^ 23) (k % 2 ^ 23)

theorem magN_zero : magN 0 = 0 := by simp [magN, magOf]

theorem magN_succ (k : Nat) : magN k < magN (k + 1) := by
  unfold magN
  have hm : k % 2 ^ 23 < 2 ^ 23 := Nat.mod_lt _ (by norm_num)
  have hd := Nat.div_add_mod k (2 ^ 23)
  generalize k / 2 ^ 23 = e at *
  generalize k % 2 ^ 23 = m at *
  by_cases h : m + 1 < 2 ^ 23
  · have h1 : (k + 1) / 2 ^ 23 = e := by omega
    have h2 : (k + 1) % 2 ^ 23 = m + 1 := by omega
    rw [h1, h2]
    unfold magOf
    split
    · have := two_zpow_pos (-149)
      push_cast
      linarith
    · have := two_zpow_pos ((e : Int) - 150)
      push_cast
      linarith
  · have h1 : (k + 1) / 2 ^ 23 = e + 1 := by omega
    have h2 : (k + 1) % 2 ^ 23 = 0 := by omega
    have h3 : m = 2 ^ 23 - 1 := by omega
    rw [h1, h2, h3]
    unfold magOf
    rw [if_neg (by omega : ¬ e + 1 = 0)]
    split
    · rename_i he
      subst he
      have e1 : (((0 + 1 : Nat) : Int) - 150) = -149 := by norm_num
      rw [e1]
      have := two_zpow_pos (-149)
      exact mul_lt_mul_of_pos_right (by norm_num) this
    · have e1 : (2 : Rat) ^ (((e + 1 : Nat) : Int) - 150) = 2 * 2 ^ ((e : Int) - 150) := by
        rw [show (((e + 1 : Nat) : Int) - 150) = ((e : Int) - 150) + 1 by push_cast; ring,
          zpow_add_one₀ (by norm_num)]
        ring
      rw [e1]
      have := two_zpow_pos ((e : Int) - 150)
      rw [← mul_assoc]
      exact mul_lt_mul_of_pos_right (by norm_num) this

theorem magN_strictMono : StrictMono magN := strictMono_nat_of_lt_succ magN_succ

theorem magN_nonneg (k : Nat) : 0 ≤ magN k := by
  rw [← magN_zero]; exact magN_strictMono.monotone (Nat.zero_le k)

/-- The 31 magnitude bits are the exponent field and the mantissa field. -/
theorem mag_bits (x : F32) :
    (x.extractLsb' 23 8).toNat = (x.extractLsb' 0 31).toNat / 2 ^ 23 ∧
      (x.extractLsb' 0 23).toNat = (x.extractLsb' 0 31).toNat % 2 ^ 23 := by
  simp only [BitVec.extractLsb'_toNat, Nat.shiftRight_eq_div_pow]
  constructor <;> omega

theorem val_eq (x : F32) : x.val = (if x.msb then -1 else 1) * magN (x.extractLsb' 0 31).toNat := by
  obtain ⟨h1, h2⟩ := mag_bits x
  unfold val magN
  rw [h1, h2]

/-- The value is determined by the key, in increasing order. -/
theorem val_lt_iff (x y : F32) : x.val < y.val ↔ x.key < y.key := by
  rw [val_eq, val_eq]
  unfold key
  generalize (x.extractLsb' 0 31).toNat = a
  generalize (y.extractLsb' 0 31).toNat = b
  have ha := magN_nonneg a
  have hb := magN_nonneg b
  have hz : ∀ k, magN k = 0 ↔ k = 0 := fun k => by
    rw [← magN_zero]; exact magN_strictMono.injective.eq_iff
  have hp : ∀ k, 0 < magN k ↔ 0 < k := fun k => by
    rw [← magN_zero]; exact magN_strictMono.lt_iff_lt
  cases x.msb <;> cases y.msb <;> simp only [if_true, if_false, Bool.false_eq_true, one_mul, neg_one_mul]
  · rw [magN_strictMono.lt_iff_lt]; omega
  · constructor
    · intro h; linarith
    · intro h; omega
  · constructor
    · intro h
      by_contra hc
      have h1 : a = 0 := by omega
      have h2 : b = 0 := by omega
      subst h1 h2
      rw [magN_zero] at h
      linarith
    · intro h
      rcases Nat.eq_zero_or_pos a with h0 | h0
      · have := (hp b).2 (by omega)
        subst h0
        rw [magN_zero]; linarith
      · have := (hp a).2 h0
        linarith
  · rw [neg_lt_neg_iff, magN_strictMono.lt_iff_lt]; omega

theorem not_nan_of_finite {x : F32} (h : x.Finite) : x.isNaN = false := by
  unfold Finite at h
  unfold isNaN
  simp [h]

/-- IEEE `<` on finite floats is `<` on the values. -/
theorem lt_iff {x y : F32} (hx : x.Finite) (hy : y.Finite) : F32.lt x y = true ↔ x.val < y.val := by
  rw [val_lt_iff]
  unfold F32.lt
  simp [not_nan_of_finite hx, not_nan_of_finite hy]

theorem key_zero : F32.zero.key = 0 := by decide

theorem val_zero : F32.zero.val = 0 := by
  rw [val_eq]
  have h1 : F32.zero.msb = false := by decide
  have h2 : (F32.zero.extractLsb' 0 31).toNat = 0 := by decide
  rw [h1, h2, magN_zero]; simp

theorem val_one : F32.one.val = 1 := by decide +kernel

theorem val_negOne : F32.negOne.val = -1 := by decide +kernel

/-- A finite float is negative exactly when its value is. -/
theorem negative_iff {x : F32} (hx : x.Finite) : F32.negative x ↔ x.val < 0 := by
  rw [← val_zero, val_lt_iff, key_zero]
  unfold F32.negative key
  have hn := not_nan_of_finite hx
  have hb : (x.extractLsb' 0 31 ≠ 0#31) ↔ 0 < (x.extractLsb' 0 31).toNat := by
    rw [Nat.pos_iff_ne_zero, Ne, Ne, ← BitVec.toNat_inj]
    simp
  rw [hb]
  generalize (x.extractLsb' 0 31).toNat = k
  cases x.msb
  · simp
  · simp [hn]

/-- The values of finite floats are the binary32 numbers of the rounding specification. -/
theorem val_binary32 {x : F32} (hx : x.Finite) : Binary32 x.val := by
  have hm : (x.extractLsb' 0 23).toNat < 2 ^ 23 := (x.extractLsb' 0 23).isLt
  have he : (x.extractLsb' 23 8).toNat < 255 := by
    have h1 := (x.extractLsb' 23 8).isLt
    have h2 : (x.extractLsb' 23 8).toNat ≠ 255 := by
      intro h
      apply hx
      apply BitVec.eq_of_toNat_eq
      rw [h]; rfl
    omega
  have key : Binary32 (magOf (x.extractLsb' 23 8).toNat (x.extractLsb' 0 23).toNat) := by
    unfold magOf
    split
    · refine ⟨((x.extractLsb' 0 23).toNat : Int), -149, ?_, by norm_num, by norm_num, by push_cast; rfl⟩
      rw [abs_of_nonneg (by omega)]; omega
    · rename_i h0
      refine ⟨((2 ^ 23 + (x.extractLsb' 0 23).toNat : Nat) : Int), ((x.extractLsb' 23 8).toNat : Int) - 150, ?_,
        by omega, by omega, by push_cast; rfl⟩
      rw [abs_of_nonneg (by omega)]; omega
  unfold val
  split
  · rw [neg_one_mul]; exact key.neg
  · rw [one_mul]; exact key

end F32

end Verif
