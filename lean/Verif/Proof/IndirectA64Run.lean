import Verif.Proof.IndirectA64Mem

/-! The stores, the channel loop and the pixel loop of the Aarch64 indirect kernels. -/

namespace Verif

open Finset

/-- `Fills`, except on the positions `B`. -/
structure FillsB {α : Type _} (s0 s : List α) (W B : Nat → Prop) (f : Nat → α) : Prop where
  len : s.length = s0.length
  hit : ∀ i, i < s0.length → W i → ¬ B i → s[i]? = some (f i)
  miss : ∀ i, ¬ W i → ¬ B i → s[i]? = s0[i]?

theorem Fills.toB {α : Type _} {s0 s : List α} {W : Nat → Prop} {f : Nat → α} (h : Fills s0 s W f) (B : Nat → Prop) :
    FillsB s0 s W B f := ⟨h.len, fun i hi hw _ => h.hit i hi hw, fun i hw _ => h.miss i hw⟩

theorem FillsB.toFills {α : Type _} {s0 s : List α} {W W' B : Nat → Prop} {f : Nat → α} (h : FillsB s0 s W B f)
    (hB : ∀ i, ¬ B i) (hW : ∀ i, W' i ↔ W i) : Fills s0 s W' f :=
  ⟨h.len, fun i hi hw => h.hit i hi ((hW i).1 hw) (hB i), fun i hw => h.miss i (fun h' => hw ((hW i).2 h')) (hB i)⟩

/-- A write to a position that is in `B` or with the right value. -/
theorem FillsB.write {α : Type _} {s0 s : List α} {W B : Nat → Prop} {f : Nat → α} {i : Nat} {v : α} (h : FillsB s0 s W B f)
    (hi : i < s0.length) (hv : B i ∨ v = f i) :
    ∃ s', wr s i v = some s' ∧ FillsB s0 s' (fun j => W j ∨ j = i) B f := by
  refine ⟨s.set i v, by simp [wr, h.len, hi], by simp [h.len], ?_, ?_⟩
  · intro j hj hw hb
    rw [List.getElem?_set]
    by_cases e : i = j
    · subst e
      rcases hv with hv | hv
      · exact absurd hv hb
      · rw [if_pos rfl, if_pos (by rw [h.len]; exact hi), hv]
    · rw [if_neg e]
      rcases hw with hw | hw
      · exact h.hit j hj hw hb
      · exact absurd hw.symm e
  · intro j hw hb
    have e : i ≠ j := fun e => hw (Or.inr e.symm)
    rw [List.getElem?_set, if_neg e]
    exact h.miss j (fun h' => hw (Or.inl h')) hb

/-- A write of the right value cleans the position. -/
theorem FillsB.fix {α : Type _} {s0 s : List α} {W B : Nat → Prop} {f : Nat → α} {i : Nat} {v : α} (h : FillsB s0 s W B f)
    (hi : i < s0.length) (hv : v = f i) :
    ∃ s', wr s i v = some s' ∧ FillsB s0 s' (fun j => W j ∨ j = i) (fun j => B j ∧ j ≠ i) f := by
  refine ⟨s.set i v, by simp [wr, h.len, hi], by simp [h.len], ?_, ?_⟩
  · intro j hj hw hb
    rw [List.getElem?_set]
    by_cases e : i = j
    · subst e
      rw [if_pos rfl, if_pos (by rw [h.len]; exact hi), hv]
    · rw [if_neg e]
      have hb' : ¬ B j := fun h' => hb ⟨h', fun e' => e e'.symm⟩
      rcases hw with hw | hw
      · exact h.hit j hj hw hb'
      · exact absurd hw.symm e
  · intro j hw hb
    have e : i ≠ j := fun e => hw (Or.inr e.symm)
    rw [List.getElem?_set, if_neg e]
    exact h.miss j (fun h' => hw (Or.inl h')) (fun h' => hb ⟨h', fun e' => e e'.symm⟩)

theorem FillsB.mono {α : Type _} {s0 s : List α} {W W' B B' : Nat → Prop} {f : Nat → α} (h : FillsB s0 s W B f)
    (hW : ∀ i, W i ↔ W' i) (hB : ∀ i, B i → B' i) : FillsB s0 s W' B' f :=
  ⟨h.len, fun i hi hw hb => h.hit i hi ((hW i).2 hw) (fun h' => hb (hB i h')),
   fun i hw hb => h.miss i (fun h' => hw ((hW i).1 h')) (fun h' => hb (hB i h'))⟩

/-- A row of such writes. -/
theorem FillsB.row {α : Type _} {s0 s : List α} {W B : Nat → Prop} {f : Nat → α} {n o : Nat} {v : Nat → α}
    (h : FillsB s0 s W B f) (hi : ∀ j, j < n → o + j < s0.length) (hv : ∀ j, j < n → B (o + j) ∨ v j = f (o + j)) :
    ∃ s', forN n (fun j out => wr out (o + j) (v j)) s = some s' ∧
      FillsB s0 s' (fun i => W i ∨ ∃ j, j < n ∧ i = o + j) B f := by
  refine forN_inv (n := n) (fun k s => FillsB s0 s (fun i => W i ∨ ∃ j, j < k ∧ i = o + j) B f) ?_ ?_
  · exact h.mono (by simp) (fun _ h => h)
  · intro k s hk hs
    obtain ⟨s', e, h'⟩ := hs.write (hi k hk) (hv k hk)
    refine ⟨s', e, h'.mono ?_ (fun _ h => h)⟩
    intro i
    constructor
    · rintro ((hw | ⟨j, hj, hh⟩) | hw)
      · exact Or.inl hw
      · exact Or.inr ⟨j, by omega, hh⟩
      · exact Or.inr ⟨k, by omega, hw⟩
    · rintro (hw | ⟨j, hj, hh⟩)
      · exact Or.inl (Or.inl hw)
      · by_cases e : j = k
        · subst e; exact Or.inr hh
        · exact Or.inl (Or.inr ⟨j, by omega, hh⟩)

/-- The last row: it cleans everything. -/
theorem FillsB.rowFix {α : Type _} {s0 s : List α} {W : Nat → Prop} {f : Nat → α} {n o : Nat} {v : Nat → α}
    (h : FillsB s0 s W (fun i => ∃ j, j < n ∧ i = o + j) f) (hi : ∀ j, j < n → o + j < s0.length)
    (hv : ∀ j, j < n → v j = f (o + j)) :
    ∃ s', forN n (fun j out => wr out (o + j) (v j)) s = some s' ∧
      Fills s0 s' (fun i => W i ∨ ∃ j, j < n ∧ i = o + j) f := by
  obtain ⟨s', e, h'⟩ := forN_inv (n := n) (s := s) (body := fun j out => wr out (o + j) (v j))
    (fun k s => FillsB s0 s (fun i => W i ∨ ∃ j, j < k ∧ i = o + j) (fun i => ∃ j, k ≤ j ∧ j < n ∧ i = o + j) f)
    (h.mono (by simp) (fun i ⟨j, hj, hh⟩ => ⟨j, by omega, hj, hh⟩))
    (by
      intro k s hk hs
      obtain ⟨s', e, h'⟩ := hs.fix (hi k hk) (hv k hk)
      refine ⟨s', e, h'.mono ?_ ?_⟩
      · intro i
        constructor
        · rintro ((hw | ⟨j, hj, hh⟩) | hw)
          · exact Or.inl hw
          · exact Or.inr ⟨j, by omega, hh⟩
          · exact Or.inr ⟨k, by omega, hw⟩
        · rintro (hw | ⟨j, hj, hh⟩)
          · exact Or.inl (Or.inl hw)
          · by_cases e : j = k
            · subst e; exact Or.inr hh
            · exact Or.inl (Or.inr ⟨j, by omega, hh⟩)
      · rintro i ⟨⟨j, h1, h2, h3⟩, h4⟩
        exact ⟨j, by omega, h2, h3⟩)
  exact ⟨s', e, h'.toFills (fun i ⟨j, h1, h2, _⟩ => by omega) (fun i => Iff.rfl)⟩

/-- Storing the results of one block. -/
theorem nStore_eq {α : Type} {res : Nat → Nat → α} {t : NChan α} {s0 : List α} {W : Nat → Prop} {f : Nat → α} {m : Nat}
    (h : Fills s0 t.out W f) (hm : m = min 8 (t.groupEnd - t.c)) (hm1 : 1 ≤ m)
    (l0 : ∀ j, j < m → t.o0 + j < s0.length) (l1 : ∀ j, j < m → t.o1 + j < s0.length)
    (l2 : ∀ j, j < m → t.o2 + j < s0.length) (l3 : ∀ j, j < m → t.o3 + j < s0.length)
    (v0 : ∀ j, j < m → res 0 j = f (t.o0 + j))
    (v1 : t.o1 = t.o0 ∨ ∀ j, j < m → res 1 j = f (t.o1 + j))
    (v2 : t.o2 = t.o0 ∨ ∀ j, j < m → res 2 j = f (t.o2 + j))
    (v3 : t.o3 = t.o0 ∨ ∀ j, j < m → res 3 j = f (t.o3 + j)) :
    ∃ out, nStore res t = some ⟨t.s, t.o0 + m, t.o1 + m, t.o2 + m, t.o3 + m, t.off, t.groupEnd, t.c + m, out⟩ ∧
      Fills s0 out (fun i => W i ∨ ∃ j, j < m ∧ (i = t.o0 + j ∨ i = t.o1 + j ∨ i = t.o2 + j ∨ i = t.o3 + j)) f := by
  have or' : ∀ {o n : Nat} {r : Nat → α} {j : Nat}, (o = t.o0 ∨ ∀ j, j < m → r j = f (o + j)) → j < n → n ≤ m →
      (∃ j', j' < n ∧ o + j = t.o0 + j') ∨ r j = f (o + j) := by
    intro o n r j h hj hn
    rcases h with h | h
    · exact Or.inl ⟨j, hj, by rw [h]⟩
    · exact Or.inr (h j (by omega))
  unfold nStore
  by_cases c8 : t.c + 8 ≤ t.groupEnd
  · have m8 : m = 8 := by omega
    subst m8
    rw [if_pos c8]
    obtain ⟨o3, e3, f3⟩ := (h.toB (fun i => ∃ j, j < 8 ∧ i = t.o0 + j)).row (v := res 3) l3 (fun j hj => or' v3 hj (by omega))
    obtain ⟨o2, e2, f2⟩ := f3.row (v := res 2) l2 (fun j hj => or' v2 hj (by omega))
    obtain ⟨o1, e1, f1⟩ := f2.row (v := res 1) l1 (fun j hj => or' v1 hj (by omega))
    obtain ⟨o0, e0, f0⟩ := f1.rowFix (v := res 0) l0 v0
    refine ⟨o0, ?_, ?_⟩
    · simp only [e3, e2, e1, e0, Option.bind_eq_bind, Option.bind_some]
    · refine f0.congr ?_ (fun _ _ _ => rfl)
      intro i _
      constructor
      · rintro (hw | ⟨j, hj, hh | hh | hh | hh⟩)
        · exact Or.inl (Or.inl (Or.inl (Or.inl hw)))
        · exact Or.inr ⟨j, hj, hh⟩
        · exact Or.inl (Or.inr ⟨j, hj, hh⟩)
        · exact Or.inl (Or.inl (Or.inr ⟨j, hj, hh⟩))
        · exact Or.inl (Or.inl (Or.inl (Or.inr ⟨j, hj, hh⟩)))
      · rintro ((((hw | ⟨j, hj, hh⟩) | ⟨j, hj, hh⟩) | ⟨j, hj, hh⟩) | ⟨j, hj, hh⟩)
        · exact Or.inl hw
        · exact Or.inr ⟨j, hj, by omega⟩
        · exact Or.inr ⟨j, hj, by omega⟩
        · exact Or.inr ⟨j, hj, by omega⟩
        · exact Or.inr ⟨j, hj, by omega⟩
  · rw [if_neg c8]
    have hn : min 7 (max 1 (t.groupEnd - t.c)) = m := by omega
    have hge : t.groupEnd = t.c + m := by omega
    obtain ⟨out, e, hf⟩ := Fills.loop (s0 := s0) (s := t.out) (n := m) (W0 := W) (f := f)
      (body := fun j out => do
        let out ← wr out (t.o3 + j) (res 3 j)
        let out ← wr out (t.o2 + j) (res 2 j)
        let out ← wr out (t.o1 + j) (res 1 j)
        wr out (t.o0 + j) (res 0 j))
      (fun j i => i = t.o0 + j ∨ i = t.o1 + j ∨ i = t.o2 + j ∨ i = t.o3 + j) h
      (by
        intro j W s hj hs
        have orj : ∀ {o : Nat} {r : Nat → α}, (o = t.o0 ∨ ∀ j, j < m → r j = f (o + j)) →
            o + j = t.o0 + j ∨ r j = f (o + j) := by
          intro o r h
          rcases h with h | h
          · exact Or.inl (by rw [h])
          · exact Or.inr (h j hj)
        obtain ⟨o3, e3, f3⟩ := (hs.toB (fun i => i = t.o0 + j)).write (l3 j hj) (orj v3)
        obtain ⟨o2, e2, f2⟩ := f3.write (l2 j hj) (orj v2)
        obtain ⟨o1, e1, f1⟩ := f2.write (l1 j hj) (orj v1)
        obtain ⟨o0, e0, f0⟩ := f1.fix (l0 j hj) (v0 j hj)
        refine ⟨o0, ?_, f0.toFills (fun i h => h.2 h.1) ?_⟩
        · simp only [e3, e2, e1, e0, Option.bind_eq_bind, Option.bind_some]
        · intro i
          constructor
          · rintro (hw | hh | hh | hh | hh) <;> simp [*]
          · rintro ((((hw | hh) | hh) | hh) | hh) <;> simp [*])
    refine ⟨out, ?_, hf⟩
    rw [← hge]
    simp only [hn]
    simp only [Option.bind_eq_bind] at e ⊢
    rw [e, Option.bind_some]

end Verif
