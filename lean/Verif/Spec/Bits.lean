import Verif.Model.Types

/-!
Specification vocabulary for packed words: the word whose bit `i` is `b i`, and
the ±1 value a bit stands for.
-/

namespace Verif

/-- The 32-bit word whose bit `i` is `b i`. -/
def wordOfAux (b : Nat → Bool) : Nat → Word
  | 0 => 0#32
  | n + 1 => wordOfAux b n ||| (if b n then 1#32 <<< n else 0#32)

/-- The 32-bit word whose bit `i` is `b i`. -/
def wordOf (b : Nat → Bool) : Word := wordOfAux b 32

/-- The value a packed bit represents: bit 0 is `+1`, bit 1 is `-1`
(core/bitpacking/bitpack.h:328-329). -/
def signVal (bit : Bool) : Int := if bit then -1 else 1

theorem getLsbD_one_shl (n i : Nat) : (1#32 <<< n).getLsbD i = (decide (i = n) && decide (i < 32)) := by
  by_cases hi : i < 32 <;> by_cases h : i = n <;>
    simp [BitVec.getLsbD_shiftLeft, hi, h] <;> omega

theorem wordOfAux_getLsbD (b : Nat → Bool) (n i : Nat) :
    (wordOfAux b n).getLsbD i = (decide (i < n) && decide (i < 32) && b i) := by
  induction n with
  | zero => simp [wordOfAux]
  | succ n ih =>
    simp only [wordOfAux, BitVec.getLsbD_or, ih]
    by_cases hin : i = n
    · subst hin
      by_cases hb : b i
      · simp [hb]
      · simp [hb]
    · have h1 : (if b n = true then 1#32 <<< n else 0#32).getLsbD i = false := by
        split
        · rw [getLsbD_one_shl]; simp [hin]
        · simp
      rw [h1]
      have : (decide (i < n + 1)) = decide (i < n) := by
        by_cases h : i < n
        · simp [h]; omega
        · have : ¬ i < n + 1 := by omega
          simp [h, this]
      simp [this]

@[simp] theorem wordOf_getLsbD (b : Nat → Bool) (i : Nat) :
    (wordOf b).getLsbD i = (decide (i < 32) && b i) := by
  unfold wordOf
  rw [wordOfAux_getLsbD]
  by_cases h : i < 32 <;> simp [h]

theorem eq_wordOf {w : Word} {b : Nat → Bool} (h : ∀ i, i < 32 → w.getLsbD i = b i) :
    w = wordOf b := by
  apply BitVec.eq_of_getLsbD_eq
  intro i hi
  rw [wordOf_getLsbD, h i hi]; simp [hi]

theorem wordOf_congr {b b' : Nat → Bool} (h : ∀ i, i < 32 → b i = b' i) : wordOf b = wordOf b' :=
  eq_wordOf (fun i hi => by rw [wordOf_getLsbD, h i hi]; simp [hi])

end Verif
