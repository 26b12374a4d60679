import Verif.Model.OpState
import Verif.Proof.WriteOnly

/-! `Prepare` and `OneTimeSetup`. -/

namespace Verif

namespace Outcome

theorem bind_def {α β : Type} (x : Outcome α) (f : α → Outcome β) : (x >>= f) = Outcome.bind x f := rfl

theorem bind_eq_ok {α β : Type} {x : Outcome α} {f : α → Outcome β} {b : β} :
    (x >>= f) = ok b ↔ ∃ a, x = ok a ∧ f a = ok b := by
  cases x <;> simp [bind_def, Outcome.bind]

theorem ensure_eq_ok {c : Bool} {u : Unit} : ensure c = ok u ↔ c = true := by
  unfold ensure; cases c <;> simp

theorem deref_eq_ok {α : Type} {o : Option α} {a : α} : deref o = ok a ↔ o = some a := by
  cases o <;> simp [deref]

end Outcome

open Outcome

theorem ensure_bind_ok {β : Type} {c : Bool} {f : Unit → Outcome β} {b : β} :
    (ensure c >>= f) = ok b ↔ c = true ∧ f () = ok b := by
  rw [bind_eq_ok]
  constructor
  · rintro ⟨_, h1, h2⟩; exact ⟨ensure_eq_ok.1 h1, h2⟩
  · rintro ⟨h1, h2⟩; exact ⟨(), ensure_eq_ok.2 h1, h2⟩

theorem deref_bind_ok {α β : Type} {o : Option α} {f : α → Outcome β} {b : β} :
    (deref o >>= f) = ok b ↔ ∃ a, o = some a ∧ f a = ok b := by
  rw [bind_eq_ok]; simp only [deref_eq_ok]

theorem prepGroups_eq_ok {kt : KernelType} {cin cout fd g : Nat} :
    prepGroups kt cin cout fd = .ok g ↔
      (fd = packedSize cin ∧ g = 1) ∨
      (fd ≠ packedSize cin ∧ kt ≠ .bgemm ∧ fd ≠ 0 ∧ packedSize cin % fd = 0 ∧ packedSize cin / fd ≠ 0 ∧
        cin / (packedSize cin / fd) % 32 = 0 ∧ cout % (packedSize cin / fd) = 0 ∧ g = packedSize cin / fd) := by
  unfold prepGroups
  by_cases h1 : fd = packedSize cin
  · rw [if_pos h1]
    simp only [h1, Outcome.ok.injEq, true_and, ne_eq, not_true_eq_false, false_and, or_false]
    exact eq_comm
  · rw [if_neg h1, ensure_bind_ok]
    by_cases h2 : fd = 0
    · rw [if_pos h2]
      constructor
      · rintro ⟨_, h⟩; cases h
      · rintro (⟨h, _⟩ | ⟨_, _, h, _⟩)
        · exact absurd h h1
        · exact absurd h2 h
    · rw [if_neg h2, ensure_bind_ok]
      by_cases h3 : packedSize cin / fd = 0
      · simp only [h3, if_true]
        constructor
        · rintro ⟨_, _, h⟩; cases h
        · rintro (⟨h, _⟩ | ⟨_, _, _, _, h, _⟩)
          · exact absurd h h1
          · exact absurd rfl h
      · simp only [h3, if_false, ensure_bind_ok, decide_eq_true_eq, Outcome.ok.injEq]
        constructor
        · rintro ⟨h4, h5, h6, h7, h8⟩
          exact Or.inr ⟨h1, h4, h2, h5, h3, h6, h7, h8.symm⟩
        · rintro (⟨h, _⟩ | ⟨_, h4, _, h5, _, h6, h7, h8⟩)
          · exact absurd h h1
          · exact ⟨h4, h5, h6, h7, h8.symm⟩

theorem prepParams_eq_ok {n : Node} {cout : Nat} {u : Unit} :
    prepParams n cout = .ok u ↔
      (n.outType = .int32 ∧ ∃ t, n.thr = some t ∧ t.dims.length = 1 ∧ t.type = .int32 ∧ t.dims.getD 0 0 = cout) ∨
      (n.outType ≠ .int32 ∧ ∃ m b, n.mult = some m ∧ n.bias = some b ∧ m.type = .float32 ∧ b.type = .float32 ∧
        m.dims.length = 1 ∧ b.dims.length = 1 ∧ m.dims.getD 0 0 = cout ∧ b.dims.getD 0 0 = cout) := by
  unfold prepParams
  by_cases h : n.outType = .int32
  · rw [if_pos h]
    simp only [deref_bind_ok, ensure_bind_ok, ensure_eq_ok, decide_eq_true_eq, h, true_and, ne_eq,
      not_true_eq_false, false_and, or_false]
  · rw [if_neg h]
    simp only [deref_bind_ok, ensure_bind_ok, ensure_eq_ok, decide_eq_true_eq, h, true_and, ne_eq,
      not_false_eq_true, false_and, false_or]
    constructor
    · rintro ⟨m, h1, h2, b, h3, h4, h5, h6, h7, h8⟩
      exact ⟨m, b, h1, h3, h2, h4, h5, h6, h7, h8⟩
    · rintro ⟨m, b, h1, h3, h2, h4, h5, h6, h7, h8⟩
      exact ⟨m, h1, h2, b, h3, h4, h5, h6, h7, h8⟩

/-- Exactly when `Prepare` succeeds, and with which result. -/
theorem prepare_eq_ok {n : Node} {i : InputDesc} {r : Prepared} :
    prepare n i = .ok r ↔ ∃ a g, n.attrs = some a ∧ n.nInputs = 5 ∧ i.dims.length = 4 ∧
      n.filter.dims.length = 4 ∧ n.inType = .int32 ∧ n.filter.type = .int32 ∧
      (n.outType = .int32 ∨ n.outType = .int8 ∨ n.outType = .float32) ∧
      prepGroups n.kt a.cin (n.filter.dims.getD 0 0) (n.filter.dims.getD 3 0) = .ok g ∧
      prepZeroPad n.kt a n.outType = true ∧
      prepParams n (n.filter.dims.getD 0 0) = .ok () ∧
      (n.outType ≠ .int8 ∨ n.outAffine = true) ∧ (n.kt ≠ .indirect ∨ i.dynamic = false) ∧
      (0 ≤ computeOutSize a.padding (i.dims.getD 1 0) (n.filter.dims.getD 1 0) a.strideH a.dilH ∧
        0 ≤ computeOutSize a.padding (i.dims.getD 2 0) (n.filter.dims.getD 2 0) a.strideW a.dilW) ∧
      r = ⟨prepConv a n i g,
        [i.dims.getD 0 0, (prepConv a n i g).outH, (prepConv a n i g).outW,
          if n.outType = .int32 then packedSize (n.filter.dims.getD 0 0) else n.filter.dims.getD 0 0],
        if prepIm2col n.kt a (n.filter.dims.getD 1 0) (n.filter.dims.getD 2 0) then
          some [i.dims.getD 0 0, (prepConv a n i g).outH, (prepConv a n i g).outW,
            packedSize a.cin * n.filter.dims.getD 1 0 * n.filter.dims.getD 2 0] else none⟩ := by
  unfold prepare
  cases ha : n.attrs with
  | none => simp
  | some a =>
    simp only [ensure_bind_ok, decide_eq_true_eq, bind_eq_ok (x := prepGroups _ _ _ _),
      bind_eq_ok (x := prepParams _ _), Outcome.ok.injEq, Option.some.injEq]
    constructor
    · rintro ⟨h1, h2, h3, h4, h5, h6, g, h7, h8, u, h9, h10, h11, h12, h13⟩
      exact ⟨a, g, rfl, h1, h2, h3, h4, h5, h6, h7, h8, h9, h10, by simpa using h11, h12, h13.symm⟩
    · rintro ⟨a', g, rfl, h1, h2, h3, h4, h5, h6, h7, h8, h9, h10, h11, h12, h13⟩
      exact ⟨h1, h2, h3, h4, h5, h6, g, h7, h8, (), h9, h10, by simpa using h11, h12, h13.symm⟩

end Verif
