import Verif.Proof.Sum
import Verif.Spec.Bits

/-! Popcounts as sums, and the xor-popcount dot product. -/

namespace Verif

open Finset

theorem length_filter_range (n : Nat) (p : Nat → Bool) :
    ((List.range n).filter p).length = ∑ i ∈ range n, if p i then 1 else 0 := by
  induction n with
  | zero => simp
  | succ n ih =>
    rw [List.range_succ, List.filter_append, List.length_append, ih, sum_range_succ]
    cases h : p n <;> simp [h]

theorem popcount_eq_sum (w : Word) :
    popcount w = ∑ i ∈ range 32, if w.getLsbD i then 1 else 0 :=
  length_filter_range 32 _

theorem xorPopcount_eq_sum (a b : Word) :
    xorPopcount a b = ∑ i ∈ range 32, if a.getLsbD i = b.getLsbD i then 0 else 1 := by
  unfold xorPopcount
  rw [popcount_eq_sum]
  apply sum_congr rfl
  intro i _
  rw [BitVec.getLsbD_xor]
  cases a.getLsbD i <;> cases b.getLsbD i <;> simp

theorem popcount_le (w : Word) : popcount w ≤ 32 := by
  unfold popcount
  exact (List.length_filter_le _ _).trans (by simp)

theorem xorPopcount_le (a b : Word) : xorPopcount a b ≤ 32 := popcount_le _

theorem xorPopcount_comm (a b : Word) : xorPopcount a b = xorPopcount b a := by
  unfold xorPopcount; rw [BitVec.xor_comm]

theorem signVal_mul (x y : Bool) : signVal x * signVal y = 1 - 2 * (if x = y then 0 else 1) := by
  cases x <;> cases y <;> simp [signVal]

/-- The dot product of two packed rows of `n` channels (words `a k`, `b k`) with zero
unused bits. -/
theorem dot_words {n : Nat} (a b : Nat → Word)
    (ha : ∀ k i, k < (n + 31) / 32 → i < 32 → n ≤ 32 * k + i → (a k).getLsbD i = false)
    (hb : ∀ k i, k < (n + 31) / 32 → i < 32 → n ≤ 32 * k + i → (b k).getLsbD i = false) :
    (n : Int) - 2 * ((∑ k ∈ range ((n + 31) / 32), xorPopcount (a k) (b k) : Nat) : Int)
      = ∑ c ∈ range n,
          signVal ((a (c / 32)).getLsbD (c % 32)) * signVal ((b (c / 32)).getLsbD (c % 32)) := by
  let g : Nat → Int := fun c =>
    if (a (c / 32)).getLsbD (c % 32) = (b (c / 32)).getLsbD (c % 32) then 0 else 1
  have h1 : ((∑ k ∈ range ((n + 31) / 32), xorPopcount (a k) (b k) : Nat) : Int)
      = ∑ c ∈ range n, g c := by
    have : ((∑ k ∈ range ((n + 31) / 32), xorPopcount (a k) (b k) : Nat) : Int)
        = ∑ c ∈ range (32 * ((n + 31) / 32)), g c := by
      rw [sum_range_mul]
      push_cast
      apply sum_congr rfl
      intro k _
      rw [xorPopcount_eq_sum]
      push_cast
      apply sum_congr rfl
      intro i hi
      have hi : i < 32 := by simpa using hi
      have e1 : (32 * k + i) / 32 = k := by omega
      have e2 : (32 * k + i) % 32 = i := by omega
      simp only [g, e1, e2]
    rw [this]
    apply sum_range_of_zero (by omega)
    intro c hc hc'
    have h1 := ha (c / 32) (c % 32) (by omega) (by omega) (by omega)
    have h2 := hb (c / 32) (c % 32) (by omega) (by omega) (by omega)
    simp only [g, h1, h2, if_true]
  rw [h1]
  have h2 : ∀ c, signVal ((a (c / 32)).getLsbD (c % 32)) * signVal ((b (c / 32)).getLsbD (c % 32))
      = 1 - 2 * g c := fun c => signVal_mul _ _
  simp only [h2, sum_sub_distrib, mul_sum]
  simp

end Verif
