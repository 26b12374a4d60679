import Verif.Basic.Loop
import Mathlib.Algebra.BigOperators.Intervals
import Mathlib.Algebra.BigOperators.Ring.Finset
import Mathlib.Tactic.Ring
import Mathlib.Tactic.Linarith

/-! Loops that accumulate sums, and sums over blocks. -/

namespace Verif

open Finset

theorem forN_sum {n : Nat} (g : Nat → Nat → Option Nat) (v : Nat → Nat) (a : Nat)
    (hg : ∀ i acc, i < n → g i acc = some (acc + v i)) :
    forN n g a = some (a + ∑ i ∈ range n, v i) := by
  induction n with
  | zero => simp
  | succ n ih =>
    rw [forN_succ, ih (fun i acc hi => hg i acc (by omega))]
    simp only [Option.bind_some]
    rw [hg n _ (by omega), sum_range_succ]
    simp [Nat.add_assoc]

/-- A sum over `n * m` indices as a double sum. -/
theorem sum_range_mul {M : Type*} [AddCommMonoid M] (n m : Nat) (f : Nat → M) :
    ∑ i ∈ range (m * n), f i = ∑ k ∈ range n, ∑ i ∈ range m, f (m * k + i) := by
  induction n with
  | zero => simp
  | succ n ih =>
    rw [Nat.mul_succ, sum_range_add, ih, sum_range_succ]

/-- Terms beyond `n` that vanish can be dropped. -/
theorem sum_range_of_zero {M : Type*} [AddCommMonoid M] {n m : Nat} (h : n ≤ m) (f : Nat → M)
    (hz : ∀ i, n ≤ i → i < m → f i = 0) : ∑ i ∈ range m, f i = ∑ i ∈ range n, f i := by
  symm
  apply sum_subset
  · intro i; simp only [mem_range]; omega
  · intro i hi hn
    simp only [mem_range] at hi hn
    exact hz i (by omega) hi

end Verif
