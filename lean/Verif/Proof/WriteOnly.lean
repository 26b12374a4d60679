import Verif.Model.BGemm

/-! Code that only writes to a buffer: running it twice is running it once. -/

namespace Verif

/-- The last value written to position `i`. -/
def lastW {α : Type} : List (Write α) → Nat → Option α
  | [], _ => none
  | w :: ws, i => (lastW ws i).or (if w.1 = i then some w.2 else none)

theorem applyWrites_spec {α : Type} : ∀ (L : List (Write α)) (s s' : List α),
    applyWrites L s = some s' ↔
      ((∀ w ∈ L, w.1 < s.length) ∧ s'.length = s.length ∧ ∀ i, s'[i]? = ((lastW L i).or s[i]?))
  | [], s, s' => by
    simp only [applyWrites, Option.some.injEq, List.not_mem_nil, false_implies, implies_true, true_and,
      lastW, Option.none_or]
    constructor
    · rintro rfl; exact ⟨rfl, fun _ => rfl⟩
    · rintro ⟨_, h⟩; exact (List.ext_getElem? h).symm
  | w :: L, s, s' => by
    by_cases hw : w.1 < s.length
    · simp only [applyWrites, wr, hw, if_true, Option.bind_some]
      rw [applyWrites_spec L]
      simp only [List.length_set, List.mem_cons, forall_eq_or_imp, hw, true_and, lastW]
      constructor
      · rintro ⟨h1, h2, h3⟩
        refine ⟨h1, h2, fun i => ?_⟩
        rw [h3 i]
        cases lastW L i with
        | some v => simp
        | none =>
          simp only [Option.none_or]
          by_cases hi : w.1 = i
          · subst hi; simp [hw]
          · simp [hi, List.getElem?_set_ne hi]
      · rintro ⟨h1, h2, h3⟩
        refine ⟨h1, h2, fun i => ?_⟩
        rw [h3 i]
        cases lastW L i with
        | some v => simp
        | none =>
          simp only [Option.none_or]
          by_cases hi : w.1 = i
          · subst hi; simp [hw]
          · simp [hi, List.getElem?_set_ne hi]
    · simp only [applyWrites, wr, hw, if_false, Option.bind_none]
      constructor
      · intro h; cases h
      · rintro ⟨h1, _⟩
        exact absurd (h1 w (by simp)) hw

theorem applyWrites_idem {α : Type} {L : List (Write α)} {s s' : List α}
    (h : applyWrites L s = some s') : applyWrites L s' = some s' := by
  rw [applyWrites_spec] at h ⊢
  obtain ⟨h1, h2, h3⟩ := h
  refine ⟨fun w hw => by rw [h2]; exact h1 w hw, rfl, fun i => ?_⟩
  rw [h3 i]
  cases lastW L i <;> simp

theorem applyWrites_append {α : Type} : ∀ (L L' : List (Write α)) (s : List α),
    applyWrites (L ++ L') s = (applyWrites L s).bind (applyWrites L')
  | [], _, _ => rfl
  | w :: L, L', s => by
    simp only [List.cons_append, applyWrites]
    cases wr s w.1 w.2 with
    | none => rfl
    | some s1 => simp only [Option.bind_some]; exact applyWrites_append L L' s1

/-- `f` performs a fixed list of writes (or fails, whatever the buffer). -/
def WriteOnly {α : Type} (f : List α → Option (List α)) : Prop :=
  ∃ t : Option (List (Write α)), ∀ s, f s = t.bind (fun L => applyWrites L s)

theorem WriteOnly.idem {α : Type} {f : List α → Option (List α)} (h : WriteOnly f) {s s' : List α}
    (e : f s = some s') : f s' = some s' := by
  obtain ⟨t, ht⟩ := h
  rw [ht] at e ⊢
  cases t with
  | none => simp at e
  | some L => exact applyWrites_idem e

theorem WriteOnly.wr {α : Type} (i : Nat) (v : α) : WriteOnly (fun s => Verif.wr s i v) :=
  ⟨some [(i, v)], fun s => by simp [applyWrites]⟩

theorem WriteOnly.bindConst {α β : Type} (o : Option β) {f : β → List α → Option (List α)}
    (h : ∀ b, WriteOnly (f b)) : WriteOnly (fun s => o.bind (fun b => f b s)) := by
  cases o with
  | none => exact ⟨none, fun _ => rfl⟩
  | some b => exact h b

theorem WriteOnly.id {α : Type} : WriteOnly (fun s : List α => some s) := ⟨some [], fun _ => rfl⟩

theorem WriteOnly.seq {α : Type} {f g : List α → Option (List α)} (hf : WriteOnly f) (hg : WriteOnly g) :
    WriteOnly (fun s => (f s).bind g) := by
  obtain ⟨t, ht⟩ := hf
  obtain ⟨u, hu⟩ := hg
  cases t with
  | none => exact ⟨none, fun s => by simp [ht]⟩
  | some L =>
    cases u with
    | none => 
      refine ⟨none, fun s => ?_⟩
      simp only [ht, Option.bind_some, Option.bind_none]
      cases applyWrites L s with
      | none => rfl
      | some s1 => simp [hu]
    | some L' =>
      refine ⟨some (L ++ L'), fun s => ?_⟩
      simp only [ht, Option.bind_some, applyWrites_append]
      cases applyWrites L s with
      | none => rfl
      | some s1 => simp [hu]

theorem WriteOnly.forN {α : Type} (n : Nat) {body : Nat → List α → Option (List α)}
    (h : ∀ i, WriteOnly (body i)) : WriteOnly (fun s => Verif.forN n body s) := by
  induction n with
  | zero => exact WriteOnly.id
  | succ n ih =>
    have e : (fun s => Verif.forN (n + 1) body s) = fun s => (Verif.forN n body s).bind (body n) := by
      funext s; rw [forN_succ]
    rw [e]
    exact WriteOnly.seq ih (h n)

theorem zpCache_writeOnly (p : BConv) (filt : List Word) (mult : List Rat) :
    WriteOnly (zpCache p filt mult) := by
  unfold zpCache
  refine WriteOnly.forN _ fun y => WriteOnly.forN _ fun x => WriteOnly.forN _ fun oc => ?_
  refine WriteOnly.bindConst (f := fun c cache => Verif.forN 4 _ cache) _ fun c => ?_
  refine WriteOnly.forN _ fun dir => ?_
  exact WriteOnly.bindConst (f := fun m cache => Verif.wr cache _ _) _ fun m => WriteOnly.wr _ _

end Verif
