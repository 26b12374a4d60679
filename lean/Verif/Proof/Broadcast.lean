import Verif.Spec.Broadcast

/-! Lemmas on broadcasting. -/

namespace Verif

/-- `ds` can be broadcast to `rs` (last dimension first). -/
def bcompat : List Nat → List Nat → Prop
  | _, [] => True
  | r :: rs, d :: ds => (d = r ∨ d = 1) ∧ bcompat rs ds
  | [], _ :: _ => False

theorem bcompat_refl : ∀ s, bcompat s s
  | [] => trivial
  | _ :: s => ⟨Or.inl rfl, bcompat_refl s⟩

theorem bcompat_trans : ∀ {rs s a : List Nat}, bcompat rs s → bcompat s a → bcompat rs a
  | rs, s, [], _, _ => by cases rs <;> trivial
  | rs, [], _ :: _, _, h => h.elim
  | [], _ :: _, _ :: _, h, _ => h.elim
  | r :: rs, d :: s, x :: a, h1, h2 => by
    refine ⟨?_, bcompat_trans h1.2 h2.2⟩
    rcases h2.1 with h | h
    · subst h; exact h1.1
    · exact Or.inr h

theorem bdim_compat {x y d : Nat} (h : bdim x y = some d) : (x = d ∨ x = 1) ∧ (y = d ∨ y = 1) := by
  unfold bdim at h
  split at h
  · simp only [Option.some.injEq] at h; omega
  · split at h
    · simp only [Option.some.injEq] at h; omega
    · split at h
      · simp only [Option.some.injEq] at h; omega
      · simp at h

theorem bdim_comm (x y : Nat) : bdim x y = bdim y x := by
  unfold bdim
  by_cases h : x = y
  · subst h; rfl
  · have h' : ¬ y = x := fun e => h e.symm
    rw [if_neg h, if_neg h']
    split
    · rename_i hx
      rw [if_neg (by omega)]
    · rfl

theorem bshapeR_comm : ∀ a b : List Nat, bshapeR a b = bshapeR b a
  | [], b => by cases b <;> rfl
  | x :: a, [] => rfl
  | x :: a, y :: b => by simp only [bshapeR, bdim_comm x y, bshapeR_comm a b]

theorem bshapeR_compat : ∀ {a b rs : List Nat}, bshapeR a b = some rs → bcompat rs a ∧ bcompat rs b
  | [], b, rs, h => by
    simp only [bshapeR, Option.some.injEq] at h; subst h
    exact ⟨by cases b <;> trivial, bcompat_refl _⟩
  | x :: a, [], rs, h => by
    simp only [bshapeR, Option.some.injEq] at h; subst h
    exact ⟨bcompat_refl _, trivial⟩
  | x :: a, y :: b, rs, h => by
    simp only [bshapeR, Option.bind_eq_some_iff, Option.map_eq_some_iff] at h
    obtain ⟨d, hd, r, hr, rfl⟩ := h
    obtain ⟨h1, h2⟩ := bshapeR_compat hr
    obtain ⟨h3, h4⟩ := bdim_compat hd
    exact ⟨⟨h3, h1⟩, ⟨h4, h2⟩⟩

/-- Broadcast indices are in range. -/
theorem bidxR_lt : ∀ {rs ds : List Nat} {n : Nat}, bcompat rs ds → n < rs.prod → bidxR rs ds n < ds.prod
  | rs, [], n, _, _ => by cases rs <;> simp [bidxR]
  | [], _ :: _, _, h, _ => h.elim
  | r :: rs, d :: ds, n, h, hn => by
    rw [List.prod_cons] at hn ⊢
    have hr : 0 < r := Nat.pos_of_ne_zero (by rintro rfl; simp at hn)
    have h1 : n / r < rs.prod := (Nat.div_lt_iff_lt_mul hr).2 (by rw [Nat.mul_comm]; exact hn)
    have ih := bidxR_lt h.2 h1
    have hm : n % r < r := Nat.mod_lt _ hr
    simp only [bidxR]
    have hle : d * (bidxR rs ds (n / r) + 1) ≤ d * ds.prod := Nat.mul_le_mul_left _ ih
    rw [Nat.mul_add, Nat.mul_one] at hle
    split
    · omega
    · rcases h.1 with hd | hd
      · subst hd; omega
      · omega

/-- Broadcasting the result of a first broadcast is broadcasting at once. -/
theorem bidxR_full : ∀ (rs : List Nat) (n : Nat), n < rs.prod → bidxR rs rs n = n
  | [], n, h => by simp only [List.prod_nil] at h; simp only [bidxR]; omega
  | r :: rs, n, h => by
    have hr : 0 < r := Nat.pos_of_ne_zero (by rintro rfl; simp at h)
    rw [List.prod_cons] at h
    have h1 : n / r < rs.prod := (Nat.div_lt_iff_lt_mul hr).2 (by rw [Nat.mul_comm]; exact h)
    simp only [bidxR, bidxR_full rs _ h1]
    have := Nat.mod_add_div n r
    split
    · rename_i hr1; subst hr1; simp at this ⊢
    · exact this

theorem prod_reverse' (s : List Nat) : s.reverse.prod = s.prod := List.prod_reverse s

end Verif
