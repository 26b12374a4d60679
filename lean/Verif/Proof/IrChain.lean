import Verif.Proof.IrKeeps
import Verif.Model.Pipeline

/-!
The filters of BConv2Ds during the passes: `P` says which operators compute filters, `B` which BConv2Ds there are.
Compare `Proof/IrConst.lean`.
-/

namespace Verif.Ir

variable {P : Op → Prop} {B : Op → Prop}

/-- Every value in `C` is computed, by the nodes of `l` with operators in `P`, from values in `C`. -/
def ChainSet (P : Op → Prop) (l : List Node) (C : Nat → Prop) : Prop :=
  ∀ x, C x → ∃ m ∈ l, m.name = x ∧ P m.op ∧ ∀ a ∈ m.args, C a

/-- All convolutions are in `B`, their filters in `C`. -/
def FiltersIn (B : Op → Prop) (l : List Node) (C : Nat → Prop) : Prop :=
  ∀ n ∈ l, n.op.isBConv = true → B n.op ∧ ∃ f, n.args[1]? = some f ∧ C f

mutual
/-- The result of a pattern is computed by operators in `P` from values in `C`. -/
def Rhs.chained (P : Op → Prop) (C : Nat → Prop) : Rhs → Prop
  | .var x => C x
  | .op o _ args => P o ∧ Rhs.chainedL P C args

/-- See `Rhs.chained`. -/
def Rhs.chainedL (P : Op → Prop) (C : Nat → Prop) : List Rhs → Prop
  | [] => True
  | a :: as => a.chained P C ∧ Rhs.chainedL P C as
end

/-- There is a second operand and it has the property. -/
def second (Q : Rhs → Prop) : List Rhs → Prop
  | _ :: f :: _ => Q f
  | _ => False

mutual
/-- The convolutions in the result of a pattern are in `B`, and their filters computed by operators in `P` from values in
`C`. -/
def Rhs.filt (P B : Op → Prop) (C : Nat → Prop) : Rhs → Prop
  | .var _ => True
  | .op o _ args => (o.isBConv = true → B o ∧ second (Rhs.chained P C) args) ∧ Rhs.filtL P B C args

/-- See `Rhs.filt`. -/
def Rhs.filtL (P B : Op → Prop) (C : Nat → Prop) : List Rhs → Prop
  | [] => True
  | a :: as => a.filt P B C ∧ Rhs.filtL P B C as
end

mutual
theorem Rhs.chained_mono {C C' : Nat → Prop} : ∀ (t : Rhs), (∀ x ∈ t.vars, C x → C' x) → t.chained P C → t.chained P C'
  | .var x, h, hc => h x (by simp [Rhs.vars]) hc
  | .op o ty args, h, hc => ⟨hc.1, Rhs.chainedL_mono args (by simpa [Rhs.vars] using h) hc.2⟩

theorem Rhs.chainedL_mono {C C' : Nat → Prop} : ∀ (l : List Rhs), (∀ x ∈ Rhs.varsL l, C x → C' x) → Rhs.chainedL P C l →
    Rhs.chainedL P C' l
  | [], _, _ => trivial
  | a :: as, h, hc => ⟨Rhs.chained_mono a (fun x hx => h x (by simp [Rhs.varsL, hx])) hc.1,
      Rhs.chainedL_mono as (fun x hx => h x (by simp [Rhs.varsL, hx])) hc.2⟩
end

theorem second_mono {C C' : Nat → Prop} : ∀ {l : List Rhs}, (∀ x ∈ Rhs.varsL l, C x → C' x) →
    second (Rhs.chained P C) l → second (Rhs.chained P C') l
  | _ :: f :: _, h, hc => Rhs.chained_mono f (fun x hx => h x (by simp [Rhs.varsL, hx])) hc

mutual
theorem Rhs.filt_mono {C C' : Nat → Prop} : ∀ (t : Rhs), (∀ x ∈ t.vars, C x → C' x) → t.filt P B C → t.filt P B C'
  | .var x, _, _ => trivial
  | .op o ty args, h, hc => by
    have h' : ∀ x ∈ Rhs.varsL args, C x → C' x := by simpa [Rhs.vars] using h
    exact ⟨fun ho => ⟨(hc.1 ho).1, second_mono h' (hc.1 ho).2⟩, Rhs.filtL_mono args h' hc.2⟩

theorem Rhs.filtL_mono {C C' : Nat → Prop} : ∀ (l : List Rhs), (∀ x ∈ Rhs.varsL l, C x → C' x) → Rhs.filtL P B C l →
    Rhs.filtL P B C' l
  | [], _, _ => trivial
  | a :: as, h, hc => ⟨Rhs.filt_mono a (fun x hx => h x (by simp [Rhs.varsL, hx])) hc.1,
      Rhs.filtL_mono as (fun x hx => h x (by simp [Rhs.varsL, hx])) hc.2⟩
end

/-- `E` is computed by the nodes of `l`, given `C`. -/
def Chains (P : Op → Prop) (C : Nat → Prop) (l : List Node) (E : Nat → Prop) : Prop :=
  ∀ x, E x → ∃ m ∈ l, m.name = x ∧ P m.op ∧ ∀ a ∈ m.args, C a ∨ E a

theorem Chains.union {C : Nat → Prop} {l l' : List Node} {E E' : Nat → Prop} (h : Chains P C l E) (h' : Chains P C l' E') :
    Chains P C (l ++ l') fun x => E x ∨ E' x := by
  rintro x (hx | hx)
  · obtain ⟨m, h1, h2, h3, h4⟩ := h x hx
    exact ⟨m, List.mem_append_left _ h1, h2, h3, fun a ha => (h4 a ha).imp id Or.inl⟩
  · obtain ⟨m, h1, h2, h3, h4⟩ := h' x hx
    exact ⟨m, List.mem_append_right _ h1, h2, h3, fun a ha => (h4 a ha).imp id Or.inr⟩

theorem chainedL_names {C Q : Nat → Prop} : ∀ {l : List Rhs} {ns : List Nat},
    List.Forall₂ (fun (a : Rhs) x => a.chained P C → Q x) l ns → Rhs.chainedL P C l → ∀ x ∈ ns, Q x
  | [], [], _, _ => by simp
  | a :: l, n :: ns, .cons h t, hc => by
    intro x hx
    rcases List.mem_cons.1 hx with rfl | hx
    · exact h hc.1
    · exact chainedL_names t hc.2 x hx

theorem second_names {C Q : Nat → Prop} {l : List Rhs} {ns : List Nat}
    (h : List.Forall₂ (fun (a : Rhs) x => a.chained P C → Q x) l ns) (hc : second (Rhs.chained P C) l) :
    ∃ f, ns[1]? = some f ∧ Q f := by
  cases h with
  | nil => exact hc.elim
  | cons _ h =>
    cases h with
    | nil => exact hc.elim
    | cons h _ => exact ⟨_, rfl, h hc⟩

mutual
theorem Rhs.emit_chains (C : Nat → Prop) : ∀ (t : Rhs) (k : Nat), ∃ E, Chains P C (t.emit k).2 E ∧
    (t.chained P C → C (t.emit k).1 ∨ E (t.emit k).1) ∧
    (t.filt P B C → FiltersIn B (t.emit k).2 fun x => C x ∨ E x)
  | .var x, k => by
    refine ⟨fun _ => False, fun _ h => h.elim, fun h => Or.inl h, ?_⟩
    intro _ n hn
    simp [Rhs.emit] at hn
  | .op o ty args, k => by
    obtain ⟨E, h1, h2, h3⟩ := Rhs.emitL_chains C args k
    have hargs : ∀ x ∈ (Rhs.emitL args k).1, Rhs.chainedL P C args → C x ∨ E x := fun x hx hc => chainedL_names h2 hc x hx
    refine ⟨fun x => E x ∨ (x = k + (Rhs.emitL args k).2.length ∧ (Rhs.op o ty args).chained P C), ?_, ?_, ?_⟩
    · rintro x (hx | ⟨rfl, hc⟩)
      · obtain ⟨m, e1, e2, e3, e4⟩ := h1 x hx
        exact ⟨m, by simp only [Rhs.emit]; exact List.mem_append_left _ e1, e2, e3, fun a ha => (e4 a ha).imp id Or.inl⟩
      · exact ⟨_, by simp only [Rhs.emit]; exact List.mem_append_right _ (List.mem_singleton.2 rfl), rfl, hc.1,
          fun a ha => (hargs a ha hc.2).imp id Or.inl⟩
    · intro hc
      exact Or.inr (Or.inr ⟨rfl, hc⟩)
    · intro hg n hn hb
      simp only [Rhs.emit, List.mem_append, List.mem_singleton] at hn
      rcases hn with hn | rfl
      · obtain ⟨q1, f, q2, q3⟩ := h3 hg.2 n hn hb
        exact ⟨q1, f, q2, q3.imp id Or.inl⟩
      · obtain ⟨f, q2, q3⟩ := second_names h2 (hg.1 hb).2
        exact ⟨(hg.1 hb).1, f, q2, q3.imp id Or.inl⟩

theorem Rhs.emitL_chains (C : Nat → Prop) : ∀ (l : List Rhs) (k : Nat), ∃ E, Chains P C (Rhs.emitL l k).2 E ∧
    List.Forall₂ (fun (a : Rhs) x => a.chained P C → C x ∨ E x) l (Rhs.emitL l k).1 ∧
    (Rhs.filtL P B C l → FiltersIn B (Rhs.emitL l k).2 fun x => C x ∨ E x)
  | [], k => ⟨fun _ => False, fun _ h => h.elim, by simp only [Rhs.emitL]; exact .nil, by
      intro _ n hn
      simp [Rhs.emitL] at hn⟩
  | a :: as, k => by
    obtain ⟨E, h1, h2, h3⟩ := Rhs.emit_chains C a k
    obtain ⟨E', g1, g2, g3⟩ := Rhs.emitL_chains C as (k + (Rhs.emit a k).2.length)
    simp only [Rhs.emitL]
    refine ⟨fun x => E x ∨ E' x, h1.union g1, .cons (fun hc => (h2 hc).imp id Or.inl) ?_, ?_⟩
    · exact g2.imp fun _ _ h hc => (h hc).imp id Or.inr
    · intro hg n hn hb
      rcases List.mem_append.1 hn with hn | hn
      · obtain ⟨q1, f, q2, q3⟩ := h3 hg.1 n hn hb
        exact ⟨q1, f, q2, q3.imp id Or.inl⟩
      · obtain ⟨q1, f, q2, q3⟩ := g3 hg.2 n hn hb
        exact ⟨q1, f, q2, q3.imp id Or.inr⟩
end

/-- The filters of all convolutions are computed by operators in `P`, and the convolutions are in `B`. -/
def Graph.Chained (P B : Op → Prop) (g : Graph) : Prop := ∃ C, ChainSet P g.nodes C ∧ FiltersIn B g.nodes C

theorem replace_chained {g : Graph} (hg : g.Ssa) {pre post : List Node} {n : Node} {t : Rhs} (he : g.nodes = pre ++ n :: post)
    (hv : ∀ x ∈ t.vars, x ∈ pre.map (·.name)) {C : Nat → Prop} (hC : ChainSet P g.nodes C) (hP : FiltersIn B g.nodes C)
    (h1 : C n.name → t.chained P C) (h2 : t.filt P B C) : (g.replace pre post n.name t).Chained P B := by
  have hne : ∀ x ∈ pre.map (·.name), x ≠ n.name := by
    intro x hx
    have := hg.1
    rw [he, List.map_append, List.map_cons, List.nodup_append] at this
    exact this.2.2 x hx n.name (by simp)
  have hsc := hg.scoped
  have hpre : ∀ m ∈ pre, ∀ a ∈ m.args, a ≠ n.name := by
    intro m hm a ha
    obtain ⟨q, q', rfl⟩ := List.append_of_mem hm
    have := hsc.args q m (q' ++ n :: post) (by rw [he]; simp) a ha
    exact hne a (by rw [List.map_append]; exact List.mem_append_left _ this)
  obtain ⟨E, e1, e2, e3⟩ := Rhs.emit_chains (P := P) (B := B) (fun x => C x ∧ x ≠ n.name) t g.bound
  have hr : C n.name → (C (t.emit g.bound).1 ∧ (t.emit g.bound).1 ≠ n.name) ∨ E (t.emit g.bound).1 := fun hn =>
    e2 (Rhs.chained_mono t (fun x hx hc => ⟨hc, hne x (hv x hx)⟩) (h1 hn))
  have hsub : ∀ a, C a → (C (substName n.name (t.emit g.bound).1 a) ∧ substName n.name (t.emit g.bound).1 a ≠ n.name) ∨
      E (substName n.name (t.emit g.bound).1 a) := by
    intro a ha
    unfold substName
    split
    · rename_i e; subst e; exact hr ha
    · rename_i e; exact Or.inl ⟨ha, e⟩
  refine ⟨fun x => (C x ∧ x ≠ n.name) ∨ E x, ?_, ?_⟩
  · rintro x (⟨hx, hxn⟩ | hx)
    · obtain ⟨m, m1, rfl, m3, m4⟩ := hC x hx
      rw [he] at m1
      rcases List.mem_append.1 m1 with m1 | m1
      · exact ⟨m, by rw [replace_nodes]; simp [m1], rfl, m3, fun a ha => Or.inl ⟨m4 a ha, hpre m m1 a ha⟩⟩
      · rcases List.mem_cons.1 m1 with rfl | m1
        · exact absurd rfl hxn
        · refine ⟨m.subst n.name (t.emit g.bound).1, ?_, rfl, m3, ?_⟩
          · rw [replace_nodes]
            exact List.mem_append_right _ (List.mem_map_of_mem m1)
          · intro a ha
            obtain ⟨b, hb, rfl⟩ := List.mem_map.1 ha
            exact hsub b (m4 b hb)
    · obtain ⟨m, m1, m2, m3, m4⟩ := e1 x hx
      exact ⟨m, by rw [replace_nodes]; simp [m1], m2, m3, m4⟩
  · intro m hm hb
    rw [replace_nodes, List.mem_append, List.mem_append] at hm
    rcases hm with (hm | hm) | hm
    · obtain ⟨q1, f, q2, q3⟩ := hP m (by rw [he]; simp [hm]) hb
      exact ⟨q1, f, q2, Or.inl ⟨q3, hpre m hm f (List.mem_of_getElem? q2)⟩⟩
    · exact e3 (Rhs.filt_mono t (fun y hy hc => ⟨hc, hne y (hv y hy)⟩) h2) m hm hb
    · obtain ⟨m0, hm0, rfl⟩ := List.mem_map.1 hm
      obtain ⟨q1, f, q2, q3⟩ := hP m0 (by rw [he]; simp [hm0]) hb
      refine ⟨q1, substName n.name (t.emit g.bound).1 f, ?_, hsub f q3⟩
      show (m0.args.map (substName n.name (t.emit g.bound).1))[1]? = _
      rw [List.getElem?_map, q2]
      rfl

theorem erase_chained {g : Graph} {pre post : List Node} {n : Node} (he : g.nodes = pre ++ n :: post)
    (hu : g.uses n.name = 0) (h : g.Chained P B) : (⟨pre ++ post, g.outs⟩ : Graph).Chained P B := by
  obtain ⟨C, hC, hP⟩ := h
  have hno := (uses_zero hu).1
  have hsub : ∀ m ∈ pre ++ post, m ∈ g.nodes := by
    intro m hm
    rw [he]
    rcases List.mem_append.1 hm with h | h <;> simp [h]
  refine ⟨fun x => C x ∧ x ≠ n.name, ?_, ?_⟩
  · rintro x ⟨hx, hxn⟩
    obtain ⟨m, m1, rfl, m3, m4⟩ := hC x hx
    refine ⟨m, ?_, rfl, m3, ?_⟩
    · rw [he] at m1
      rcases List.mem_append.1 m1 with m1 | m1
      · exact List.mem_append_left _ m1
      · rcases List.mem_cons.1 m1 with rfl | m1
        · exact absurd rfl hxn
        · exact List.mem_append_right _ m1
    · intro a ha
      exact ⟨m4 a ha, fun e => hno m m1 (e ▸ ha)⟩
  · intro m hm hb
    obtain ⟨q1, f, q2, q3⟩ := hP m (hsub m hm) hb
    exact ⟨q1, f, q2, q3, fun e => hno m (hsub m hm) (e ▸ List.mem_of_getElem? q2)⟩

/-- A pattern keeps filters in `P` and convolutions in `B`. -/
def Rule.KeepsF (P B : Op → Prop) (r : Rule) : Prop :=
  ∀ (c : Ctx) (n : Node) (t : Rhs) (C : Nat → Prop), r.apply c n = some t →
    (∀ y m, c.look y = some m → C y → P m.op ∧ ∀ a ∈ m.args, C a) →
    (∀ y m, c.look y = some m → m.op.isBConv = true → B m.op ∧ ∃ f, m.args[1]? = some f ∧ C f) →
    (n.op.isBConv = true → B n.op ∧ ∃ f, n.args[1]? = some f ∧ C f) →
    t.filt P B C ∧ (P n.op → (∀ a ∈ n.args, C a) → t.chained P C)

theorem step_chained {rules : List Rule} {safe : List Val → Prop} (hl : ∀ r ∈ rules, r.Local) (hk : ∀ r ∈ rules, r.KeepsF P B)
    {g g' : Graph} (hg : g.Ssa) (h : Step rules safe g g') (hc : g.Chained P B) : g'.Chained P B := by
  have huniq : ∀ {a b : Node}, a ∈ g.nodes → b ∈ g.nodes → a.name = b.name → a = b := by
    intro a b ha hb e
    have h1 := lookIn_mem hg.1 ha
    rw [e, lookIn_mem hg.1 hb] at h1
    exact (Option.some.inj h1).symm
  cases h with
  | @rewrite pre post n t r hr he hu ha hs =>
    obtain ⟨C, hC, hP⟩ := hc
    have hin : ∀ {y m}, lookIn pre y = some m → m ∈ g.nodes ∧ m.name = y := by
      intro y m hm
      obtain ⟨h1, h2⟩ := lookIn_some hm
      exact ⟨by rw [he]; simp [h1], h2⟩
    have hargs : ∀ m ∈ g.nodes, C m.name → P m.op ∧ ∀ a ∈ m.args, C a := by
      intro m hm hc
      obtain ⟨m', h1, h2, h3, h4⟩ := hC _ hc
      rw [huniq hm h1 h2.symm]
      exact ⟨h3, h4⟩
    have hn : n ∈ g.nodes := by rw [he]; simp
    obtain ⟨k1, k2⟩ := hk r hr _ n t C ha
      (fun y m hm hy => by
        obtain ⟨h1, rfl⟩ := hin hm
        exact hargs m h1 hy)
      (fun y m hm hb => hP m (hin hm).1 hb) (hP n hn)
    exact replace_chained hg he (local_vars hg he (hl r hr) ha) hC hP
      (fun hcn => k2 (hargs n hn hcn).1 (hargs n hn hcn).2) k1
  | erase he hu => exact erase_chained he hu hc
  | @cse pre post n m he hm heq =>
    obtain ⟨C, hC, hP⟩ := hc
    have hmg : m ∈ g.nodes := by rw [he]; simp [hm]
    have hC1 : ChainSet P g.nodes fun x => C x ∨ (x = m.name ∧ C n.name) := by
      rintro x (hx | ⟨rfl, hx⟩)
      · obtain ⟨k, h1, h2, h3, h4⟩ := hC x hx
        exact ⟨k, h1, h2, h3, fun a ha => Or.inl (h4 a ha)⟩
      · obtain ⟨k, h1, h2, h3, h4⟩ := hC _ hx
        have hk : k = n := huniq h1 (by rw [he]; simp) h2
        subst hk
        exact ⟨m, hmg, rfl, by rw [heq.1]; exact h3, by rw [heq.2.1]; exact fun a ha => Or.inl (h4 a ha)⟩
    refine replace_chained hg he ?_ hC1 (fun k hk hb => ⟨(hP k hk hb).1, by
      obtain ⟨f, q2, q3⟩ := (hP k hk hb).2
      exact ⟨f, q2, Or.inl q3⟩⟩) ?_ trivial
    · intro x hx
      simp only [Rhs.vars, List.mem_singleton] at hx
      subst hx
      exact List.mem_map.2 ⟨m, hm, rfl⟩
    · rintro (h | ⟨_, h⟩)
      · exact Or.inr ⟨rfl, h⟩
      · exact Or.inr ⟨rfl, h⟩

end Verif.Ir
