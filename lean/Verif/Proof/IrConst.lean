import Verif.Proof.IrTerm

/-! The parameters of the convolutions that the converter creates depend on constants only. -/

namespace Verif.Ir

/-- Every value in `C` is computed, by the nodes of `l`, from values in `C` and not from arguments. -/
def ClosedSet (l : List Node) (C : Nat → Prop) : Prop :=
  ∀ x, C x → ∃ m ∈ l, m.name = x ∧ (∀ k, m.op ≠ .arg k) ∧ ∀ a ∈ m.args, C a

/-- Filter, multiplier, bias and thresholds of all convolutions are in `C`. -/
def ParamsIn (l : List Node) (C : Nat → Prop) : Prop := ∀ n ∈ l, n.op.isBConv = true → ∀ x ∈ n.args.tail, C x

mutual
/-- The result of a pattern is computed from values in `C` only. -/
def Rhs.closed (C : Nat → Prop) : Rhs → Prop
  | .var x => C x
  | .op o _ args => (∀ k, o ≠ .arg k) ∧ Rhs.closedL C args

/-- See `Rhs.closed`. -/
def Rhs.closedL (C : Nat → Prop) : List Rhs → Prop
  | [] => True
  | a :: as => a.closed C ∧ Rhs.closedL C as
end

mutual
/-- The parameters of the convolutions in the result of a pattern are computed from values in `C` only. -/
def Rhs.good (C : Nat → Prop) : Rhs → Prop
  | .var _ => True
  | .op o _ args => (o.isBConv = true → Rhs.closedL C args.tail) ∧ Rhs.goodL C args

/-- See `Rhs.good`. -/
def Rhs.goodL (C : Nat → Prop) : List Rhs → Prop
  | [] => True
  | a :: as => a.good C ∧ Rhs.goodL C as
end

mutual
theorem Rhs.closed_mono {C C' : Nat → Prop} : ∀ (t : Rhs), (∀ x ∈ t.vars, C x → C' x) → t.closed C → t.closed C'
  | .var x, h, hc => h x (by simp [Rhs.vars]) hc
  | .op o ty args, h, hc => ⟨hc.1, Rhs.closedL_mono args (by simpa [Rhs.vars] using h) hc.2⟩

theorem Rhs.closedL_mono {C C' : Nat → Prop} : ∀ (l : List Rhs), (∀ x ∈ Rhs.varsL l, C x → C' x) → Rhs.closedL C l →
    Rhs.closedL C' l
  | [], _, _ => trivial
  | a :: as, h, hc => ⟨Rhs.closed_mono a (fun x hx => h x (by simp [Rhs.varsL, hx])) hc.1,
      Rhs.closedL_mono as (fun x hx => h x (by simp [Rhs.varsL, hx])) hc.2⟩
end

theorem Rhs.varsL_tail {l : List Rhs} {x : Nat} (h : x ∈ Rhs.varsL l.tail) : x ∈ Rhs.varsL l := by
  cases l with
  | nil => exact h
  | cons a l => simp only [Rhs.varsL, List.mem_append]; exact Or.inr h

mutual
theorem Rhs.good_mono {C C' : Nat → Prop} : ∀ (t : Rhs), (∀ x ∈ t.vars, C x → C' x) → t.good C → t.good C'
  | .var x, _, _ => trivial
  | .op o ty args, h, hc => by
    have h' : ∀ x ∈ Rhs.varsL args, C x → C' x := by simpa [Rhs.vars] using h
    exact ⟨fun ho => Rhs.closedL_mono _ (fun x hx => h' x (Rhs.varsL_tail hx)) (hc.1 ho), Rhs.goodL_mono args h' hc.2⟩

theorem Rhs.goodL_mono {C C' : Nat → Prop} : ∀ (l : List Rhs), (∀ x ∈ Rhs.varsL l, C x → C' x) → Rhs.goodL C l →
    Rhs.goodL C' l
  | [], _, _ => trivial
  | a :: as, h, hc => ⟨Rhs.good_mono a (fun x hx => h x (by simp [Rhs.varsL, hx])) hc.1,
      Rhs.goodL_mono as (fun x hx => h x (by simp [Rhs.varsL, hx])) hc.2⟩
end

/-- `E` is closed by the nodes of `l`, given `C`. -/
def Closes (C : Nat → Prop) (l : List Node) (E : Nat → Prop) : Prop :=
  ∀ x, E x → ∃ m ∈ l, m.name = x ∧ (∀ k, m.op ≠ .arg k) ∧ ∀ a ∈ m.args, C a ∨ E a

theorem Closes.union {C : Nat → Prop} {l l' : List Node} {E E' : Nat → Prop} (h : Closes C l E) (h' : Closes C l' E') :
    Closes C (l ++ l') fun x => E x ∨ E' x := by
  rintro x (hx | hx)
  · obtain ⟨m, h1, h2, h3, h4⟩ := h x hx
    exact ⟨m, List.mem_append_left _ h1, h2, h3, fun a ha => (h4 a ha).imp id Or.inl⟩
  · obtain ⟨m, h1, h2, h3, h4⟩ := h' x hx
    exact ⟨m, List.mem_append_right _ h1, h2, h3, fun a ha => (h4 a ha).imp id Or.inr⟩

/-- Related lists of operands and names. -/
theorem closedL_names {C P : Nat → Prop} : ∀ {l : List Rhs} {ns : List Nat},
    List.Forall₂ (fun (a : Rhs) x => a.closed C → P x) l ns → Rhs.closedL C l → ∀ x ∈ ns, P x
  | [], [], _, _ => by simp
  | a :: l, n :: ns, .cons h t, hc => by
    intro x hx
    rcases List.mem_cons.1 hx with rfl | hx
    · exact h hc.1
    · exact closedL_names t hc.2 x hx

theorem forall₂_tail {α β : Type} {R : α → β → Prop} {l : List α} {l' : List β} (h : List.Forall₂ R l l') :
    List.Forall₂ R l.tail l'.tail := by
  cases h with
  | nil => exact .nil
  | cons _ t => exact t

mutual
theorem Rhs.emit_closes (C : Nat → Prop) : ∀ (t : Rhs) (k : Nat), ∃ E, Closes C (t.emit k).2 E ∧
    (t.closed C → C (t.emit k).1 ∨ E (t.emit k).1) ∧
    (t.good C → ParamsIn (t.emit k).2 fun x => C x ∨ E x)
  | .var x, k => by
    refine ⟨fun _ => False, fun _ h => h.elim, fun h => Or.inl h, ?_⟩
    intro _ n hn
    simp [Rhs.emit] at hn
  | .op o ty args, k => by
    obtain ⟨E, h1, h2, h3⟩ := Rhs.emitL_closes C args k
    have hargs : ∀ x ∈ (Rhs.emitL args k).1, Rhs.closedL C args → C x ∨ E x := fun x hx hc => closedL_names h2 hc x hx
    refine ⟨fun x => E x ∨ (x = k + (Rhs.emitL args k).2.length ∧ (Rhs.op o ty args).closed C), ?_, ?_, ?_⟩
    · rintro x (hx | ⟨rfl, hc⟩)
      · obtain ⟨m, e1, e2, e3, e4⟩ := h1 x hx
        exact ⟨m, by simp only [Rhs.emit]; exact List.mem_append_left _ e1, e2, e3, fun a ha => (e4 a ha).imp id Or.inl⟩
      · exact ⟨_, by simp only [Rhs.emit]; exact List.mem_append_right _ (List.mem_singleton.2 rfl), rfl, hc.1,
          fun a ha => (hargs a ha hc.2).imp id Or.inl⟩
    · intro hc
      exact Or.inr (Or.inr ⟨rfl, hc⟩)
    · intro hg n hn hb x hx
      simp only [Rhs.emit, List.mem_append, List.mem_singleton] at hn
      rcases hn with hn | rfl
      · exact (h3 hg.2 n hn hb x hx).imp id Or.inl
      · exact (closedL_names (forall₂_tail h2) (hg.1 hb) x hx).imp id Or.inl

theorem Rhs.emitL_closes (C : Nat → Prop) : ∀ (l : List Rhs) (k : Nat), ∃ E, Closes C (Rhs.emitL l k).2 E ∧
    List.Forall₂ (fun (a : Rhs) x => a.closed C → C x ∨ E x) l (Rhs.emitL l k).1 ∧
    (Rhs.goodL C l → ParamsIn (Rhs.emitL l k).2 fun x => C x ∨ E x)
  | [], k => ⟨fun _ => False, fun _ h => h.elim, by simp only [Rhs.emitL]; exact .nil, by
      intro _ n hn
      simp [Rhs.emitL] at hn⟩
  | a :: as, k => by
    obtain ⟨E, h1, h2, h3⟩ := Rhs.emit_closes C a k
    obtain ⟨E', g1, g2, g3⟩ := Rhs.emitL_closes C as (k + (Rhs.emit a k).2.length)
    simp only [Rhs.emitL]
    refine ⟨fun x => E x ∨ E' x, h1.union g1, .cons (fun hc => (h2 hc).imp id Or.inl) ?_, ?_⟩
    · exact g2.imp fun _ _ h hc => (h hc).imp id Or.inr
    · intro hg n hn hb x hx
      rcases List.mem_append.1 hn with hn | hn
      · exact (h3 hg.1 n hn hb x hx).imp id Or.inl
      · exact (g3 hg.2 n hn hb x hx).imp id Or.inr
end

/-- Some set of values is closed and contains the parameters of all convolutions. -/
def Graph.ClosedParams (g : Graph) : Prop := ∃ C, ClosedSet g.nodes C ∧ ParamsIn g.nodes C

theorem replace_closed {g : Graph} (hg : g.Ssa) {pre post : List Node} {n : Node} {t : Rhs} (he : g.nodes = pre ++ n :: post)
    (hv : ∀ x ∈ t.vars, x ∈ pre.map (·.name)) {C : Nat → Prop} (hC : ClosedSet g.nodes C) (hP : ParamsIn g.nodes C)
    (h1 : C n.name → t.closed C) (h2 : t.good C) : (g.replace pre post n.name t).ClosedParams := by
  have hne : ∀ x ∈ pre.map (·.name), x ≠ n.name := by
    intro x hx
    have := hg.1
    rw [he, List.map_append, List.map_cons, List.nodup_append] at this
    exact this.2.2 x hx n.name (by simp)
  have hsc := hg.scoped
  have hpre : ∀ m ∈ pre, ∀ a ∈ m.args, a ≠ n.name := by
    intro m hm a ha
    obtain ⟨q, q', rfl⟩ := List.append_of_mem hm
    have := hsc.args q m (q' ++ n :: post) (by rw [he]; simp) a ha
    exact hne a (by rw [List.map_append]; exact List.mem_append_left _ this)
  obtain ⟨E, e1, e2, e3⟩ := Rhs.emit_closes (fun x => C x ∧ x ≠ n.name) t g.bound
  have hr : C n.name → (C (t.emit g.bound).1 ∧ (t.emit g.bound).1 ≠ n.name) ∨ E (t.emit g.bound).1 := fun hn =>
    e2 (Rhs.closed_mono t (fun x hx hc => ⟨hc, hne x (hv x hx)⟩) (h1 hn))
  have hsub : ∀ a, C a → (C (substName n.name (t.emit g.bound).1 a) ∧ substName n.name (t.emit g.bound).1 a ≠ n.name) ∨
      E (substName n.name (t.emit g.bound).1 a) := by
    intro a ha
    unfold substName
    split
    · rename_i e; subst e; exact hr ha
    · rename_i e; exact Or.inl ⟨ha, e⟩
  refine ⟨fun x => (C x ∧ x ≠ n.name) ∨ E x, ?_, ?_⟩
  · rintro x (⟨hx, hxn⟩ | hx)
    · obtain ⟨m, m1, rfl, m3, m4⟩ := hC x hx
      rw [he] at m1
      rcases List.mem_append.1 m1 with m1 | m1
      · exact ⟨m, by rw [replace_nodes]; simp [m1], rfl, m3, fun a ha => Or.inl ⟨m4 a ha, hpre m m1 a ha⟩⟩
      · rcases List.mem_cons.1 m1 with rfl | m1
        · exact absurd rfl hxn
        · refine ⟨m.subst n.name (t.emit g.bound).1, ?_, rfl, m3, ?_⟩
          · rw [replace_nodes]
            exact List.mem_append_right _ (List.mem_map_of_mem m1)
          · intro a ha
            obtain ⟨b, hb, rfl⟩ := List.mem_map.1 ha
            exact hsub b (m4 b hb)
    · obtain ⟨m, m1, m2, m3, m4⟩ := e1 x hx
      exact ⟨m, by rw [replace_nodes]; simp [m1], m2, m3, m4⟩
  · intro m hm hb x hx
    rw [replace_nodes, List.mem_append, List.mem_append] at hm
    rcases hm with (hm | hm) | hm
    · exact Or.inl ⟨hP m (by rw [he]; simp [hm]) hb x hx, hpre m hm x (List.mem_of_mem_tail hx)⟩
    · exact e3 (Rhs.good_mono t (fun y hy hc => ⟨hc, hne y (hv y hy)⟩) h2) m hm hb x hx
    · obtain ⟨m0, hm0, rfl⟩ := List.mem_map.1 hm
      have hx' : x ∈ (m0.args.map (substName n.name (t.emit g.bound).1)).tail := hx
      rw [← List.map_tail] at hx'
      obtain ⟨y, hy, rfl⟩ := List.mem_map.1 hx'
      exact hsub y (hP m0 (by rw [he]; simp [hm0]) hb y hy)

theorem erase_closed {g : Graph} {pre post : List Node} {n : Node} (he : g.nodes = pre ++ n :: post)
    (hu : g.uses n.name = 0) (h : g.ClosedParams) : (⟨pre ++ post, g.outs⟩ : Graph).ClosedParams := by
  obtain ⟨C, hC, hP⟩ := h
  have hno := (uses_zero hu).1
  have hsub : ∀ m ∈ pre ++ post, m ∈ g.nodes := by
    intro m hm
    rw [he]
    rcases List.mem_append.1 hm with h | h <;> simp [h]
  refine ⟨fun x => C x ∧ x ≠ n.name, ?_, ?_⟩
  · rintro x ⟨hx, hxn⟩
    obtain ⟨m, m1, rfl, m3, m4⟩ := hC x hx
    refine ⟨m, ?_, rfl, m3, ?_⟩
    · rw [he] at m1
      rcases List.mem_append.1 m1 with m1 | m1
      · exact List.mem_append_left _ m1
      · rcases List.mem_cons.1 m1 with rfl | m1
        · exact absurd rfl hxn
        · exact List.mem_append_right _ m1
    · intro a ha
      exact ⟨m4 a ha, fun e => hno m m1 (e ▸ ha)⟩
  · intro m hm hb x hx
    exact ⟨hP m (hsub m hm) hb x hx, fun e => hno m (hsub m hm) (e ▸ List.mem_of_mem_tail hx)⟩

/-- A pattern keeps the parameters of convolutions closed. -/
def Rule.Keeps (r : Rule) : Prop :=
  ∀ (c : Ctx) (n : Node) (t : Rhs) (C : Nat → Prop), r.apply c n = some t →
    (∀ y m, c.look y = some m → C y → ∀ a ∈ m.args, C a) →
    (∀ y m, c.look y = some m → m.op.isBConv = true → ∀ a ∈ m.args.tail, C a) →
    (n.op.isBConv = true → ∀ a ∈ n.args.tail, C a) →
    t.good C ∧ ((∀ a ∈ n.args, C a) → t.closed C)

theorem step_closed {rules : List Rule} {safe : List Val → Prop} (hl : ∀ r ∈ rules, r.Local) (hk : ∀ r ∈ rules, r.Keeps)
    {g g' : Graph} (hg : g.Ssa) (h : Step rules safe g g') (hc : g.ClosedParams) : g'.ClosedParams := by
  have huniq : ∀ {a b : Node}, a ∈ g.nodes → b ∈ g.nodes → a.name = b.name → a = b := by
    intro a b ha hb e
    have h1 := lookIn_mem hg.1 ha
    rw [e, lookIn_mem hg.1 hb] at h1
    exact (Option.some.inj h1).symm
  cases h with
  | @rewrite pre post n t r hr he hu ha hs =>
    obtain ⟨C, hC, hP⟩ := hc
    have hin : ∀ {y m}, lookIn pre y = some m → m ∈ g.nodes ∧ m.name = y := by
      intro y m hm
      obtain ⟨h1, h2⟩ := lookIn_some hm
      exact ⟨by rw [he]; simp [h1], h2⟩
    have hargs : ∀ m ∈ g.nodes, C m.name → ∀ a ∈ m.args, C a := by
      intro m hm hc
      obtain ⟨m', h1, h2, _, h4⟩ := hC _ hc
      rw [huniq hm h1 h2.symm]
      exact h4
    have hn : n ∈ g.nodes := by rw [he]; simp
    obtain ⟨k1, k2⟩ := hk r hr _ n t C ha
      (fun y m hm hy => by
        obtain ⟨h1, rfl⟩ := hin hm
        exact hargs m h1 hy)
      (fun y m hm hb => hP m (hin hm).1 hb) (hP n hn)
    exact replace_closed hg he (local_vars hg he (hl r hr) ha) hC hP (fun hcn => k2 (hargs n hn hcn)) k1
  | erase he hu => exact erase_closed he hu hc
  | @cse pre post n m he hm heq =>
    obtain ⟨C, hC, hP⟩ := hc
    have hmg : m ∈ g.nodes := by rw [he]; simp [hm]
    have hC1 : ClosedSet g.nodes fun x => C x ∨ (x = m.name ∧ C n.name) := by
      rintro x (hx | ⟨rfl, hx⟩)
      · obtain ⟨k, h1, h2, h3, h4⟩ := hC x hx
        exact ⟨k, h1, h2, h3, fun a ha => Or.inl (h4 a ha)⟩
      · obtain ⟨k, h1, h2, h3, h4⟩ := hC _ hx
        have hk : k = n := huniq h1 (by rw [he]; simp) h2
        subst hk
        exact ⟨m, hmg, rfl, by rw [heq.1]; exact h3, by rw [heq.2.1]; exact fun a ha => Or.inl (h4 a ha)⟩
    refine replace_closed hg he ?_ hC1 (fun k hk hb x hx => Or.inl (hP k hk hb x hx)) ?_ trivial
    · intro x hx
      simp only [Rhs.vars, List.mem_singleton] at hx
      subst hx
      exact List.mem_map.2 ⟨m, hm, rfl⟩
    · rintro (h | ⟨_, h⟩)
      · exact Or.inr ⟨rfl, h⟩
      · exact Or.inr ⟨rfl, h⟩

end Verif.Ir
