import Verif.Model.Params
import Verif.Proof.BitpackMatrix

/-! Flat indices of 4-D tensors. -/

namespace Verif

/-- batch of a flat index -/
def dB (d1 d2 d3 i : Nat) : Nat := i / d3 / d2 / d1
/-- row of a flat index -/
def dY (d1 d2 d3 i : Nat) : Nat := i / d3 / d2 % d1
/-- column of a flat index -/
def dX (d2 d3 i : Nat) : Nat := i / d3 % d2
/-- channel of a flat index -/
def dC (d3 i : Nat) : Nat := i % d3

theorem offset4_decode {d1 d2 d3 b y x c : Nat} (hy : y < d1) (hx : x < d2) (hc : c < d3) :
    dB d1 d2 d3 (offset4 d1 d2 d3 b y x c) = b ∧ dY d1 d2 d3 (offset4 d1 d2 d3 b y x c) = y ∧
      dX d2 d3 (offset4 d1 d2 d3 b y x c) = x ∧ dC d3 (offset4 d1 d2 d3 b y x c) = c := by
  unfold dB dY dX dC offset4
  rw [(div_mod_row hc).1, (div_mod_row hc).2, (div_mod_row hx).1, (div_mod_row hx).2,
    (div_mod_row hy).1, (div_mod_row hy).2]
  exact ⟨rfl, rfl, rfl, rfl⟩

theorem offset4_lt {n d1 d2 d3 b y x c : Nat} (hb : b < n) (hy : y < d1) (hx : x < d2)
    (hc : c < d3) : offset4 d1 d2 d3 b y x c < n * d1 * d2 * d3 :=
  row_lt (row_lt (row_lt hb hy) hx) hc

theorem mod_lt_of_lt_mul {i a b : Nat} (h : i < a * b) : i / b < a ∧ i % b < b := by
  have hb : 0 < b := Nat.pos_of_ne_zero (by rintro rfl; simp at h)
  exact ⟨(Nat.div_lt_iff_lt_mul hb).2 h, Nat.mod_lt _ hb⟩

theorem decode_lt {n d1 d2 d3 i : Nat} (h : i < n * d1 * d2 * d3) :
    dB d1 d2 d3 i < n ∧ dY d1 d2 d3 i < d1 ∧ dX d2 d3 i < d2 ∧ dC d3 i < d3 := by
  obtain ⟨h1, h2⟩ := mod_lt_of_lt_mul h
  obtain ⟨h3, h4⟩ := mod_lt_of_lt_mul h1
  obtain ⟨h5, h6⟩ := mod_lt_of_lt_mul h3
  exact ⟨h5, h6, h4, h2⟩

theorem div_mul_add_mod (i d : Nat) : i / d * d + i % d = i := by
  rw [Nat.mul_comm]; exact Nat.div_add_mod i d

theorem offset4_encode (d1 d2 d3 i : Nat) :
    offset4 d1 d2 d3 (dB d1 d2 d3 i) (dY d1 d2 d3 i) (dX d2 d3 i) (dC d3 i) = i := by
  unfold offset4 dB dY dX dC
  rw [div_mul_add_mod, div_mul_add_mod, div_mul_add_mod]

end Verif
