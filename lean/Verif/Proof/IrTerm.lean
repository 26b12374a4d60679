import Verif.Proof.IrPad

/-! Termination of the rewriting: the measure, and its behaviour under the steps of the driver. -/

namespace Verif.Ir

/-! ### Weights -/

/-- The weight of an operation, given which of its operands are constants. -/
def opW : Op → List (Option Val) → Nat
  | .arg _, _ => 0
  | .const _, _ => 0
  | .bin _ _, some _ :: _ => 1
  | .bin _ _, _ => 3
  | .ge, _ => 4
  | .le, _ => 5
  | .lquant, _ => 2
  | .maxPool _ _, _ => 2
  | .bconv _, _ :: some (.s _) :: _ => 1
  | .bconv _, _ => 2
  | .select, _ => 6
  | .sign, _ => 4
  | .conv2d _, _ => 5
  | .pass, _ => 2
  | _, _ => 1

/-- `l'` knows at least the constants that `l` knows. -/
def Knows (l l' : List (Option Val)) : Prop := List.Forall₂ (fun a b => ∀ v, a = some v → b = some v) l l'

theorem opW_mono {o : Op} {l l' : List (Option Val)} (h : Knows l l') : opW o l' ≤ opW o l := by
  cases o <;> simp only [opW, le_refl]
  · -- bin
    cases h with
    | nil => exact le_refl _
    | @cons a b l l' h1 h2 =>
      cases a with
      | some v => rw [h1 v rfl]
      | none => cases b <;> simp
  · -- bconv
    cases h with
    | nil => exact le_refl _
    | @cons a b l l' h1 h2 =>
      cases h2 with
      | nil => exact le_refl _
      | @cons a b l l' h1 h2 =>
        cases a with
        | some v => rw [h1 v rfl]; cases v <;> simp
        | none =>
          cases b with
          | none => simp
          | some w => cases w <;> simp

theorem opW_pos {o : Op} {l : List (Option Val)} (h1 : ∀ k, o ≠ .arg k) (h2 : ∀ v, o ≠ .const v) : 0 < opW o l := by
  cases o with
  | arg k => exact absurd rfl (h1 k)
  | const v => exact absurd rfl (h2 v)
  | bin _ _ => unfold opW; split <;> simp_all
  | bconv _ => unfold opW; split <;> simp_all
  | _ => simp [opW]

/-- The constant a name stands for in a list of nodes. -/
def cstIn (l : List Node) (x : Nat) : Option Val := Ctx.constOf ⟨lookIn l, fun _ => 0⟩ x

theorem cstIn_eq {l : List Node} {u : Nat → Nat} : Ctx.constOf ⟨lookIn l, u⟩ = cstIn l := rfl

theorem cstIn_some {l : List Node} {x : Nat} {v : Val} (h : cstIn l x = some v) :
    ∃ nm ty, lookIn l x = some ⟨nm, .const v, [], ty⟩ := by
  unfold cstIn Ctx.constOf at h
  simp only at h
  split at h
  · rename_i nm u ty hl
    cases h
    exact ⟨nm, ty, hl⟩
  · cases h

theorem cstIn_of {l : List Node} {x nm : Nat} {v : Val} {ty : Option (List Nat)} (h : lookIn l x = some ⟨nm, .const v, [], ty⟩) :
    cstIn l x = some v := by
  unfold cstIn Ctx.constOf
  simp only [h]

theorem lookIn_append_left {l l' : List Node} {x : Nat} (h : x ∈ l.map (·.name)) : lookIn (l ++ l') x = lookIn l x := by
  unfold lookIn
  rw [List.find?_append]
  cases e : l.find? (fun n => n.name == x) with
  | some m => rfl
  | none =>
    exfalso
    rw [List.mem_map] at h
    obtain ⟨m, h1, h2⟩ := h
    have := List.find?_eq_none.1 e m h1
    simp [h2] at this

theorem lookIn_append_some {l l' : List Node} {x : Nat} {m : Node} (h : lookIn l x = some m) : lookIn (l ++ l') x = some m := by
  rw [lookIn_append_left, h]
  obtain ⟨h1, h2⟩ := lookIn_some h
  exact List.mem_map.2 ⟨m, h1, h2⟩

/-- A node is found under its name. -/
theorem lookIn_mem {l : List Node} (h : (l.map (·.name)).Nodup) {n : Node} (hn : n ∈ l) : lookIn l n.name = some n := by
  unfold lookIn
  induction l with
  | nil => cases hn
  | cons a l ih =>
    rw [List.map_cons, List.nodup_cons] at h
    rcases List.mem_cons.1 hn with rfl | hn
    · simp
    · have : a.name ≠ n.name := by
        intro e
        exact h.1 (e ▸ List.mem_map.2 ⟨n, hn, rfl⟩)
      rw [List.find?_cons_of_neg (by simpa using this)]
      exact ih h.2 hn

/-- The weight of a node in a graph. -/
def nodeW (l : List Node) (n : Node) : Nat := opW n.op (n.args.map (cstIn l))

/-- The weight that a node contributes: none if it is not used. -/
def contrib (g : Graph) (n : Node) : Nat := if 0 < g.uses n.name then nodeW g.nodes n else 0

/-- The weight of a graph. -/
def Graph.weight (g : Graph) : Nat := (g.nodes.map (contrib g)).sum

/-- What is known about a result of a pattern: its constant. -/
def Rhs.cst (c : Nat → Option Val) : Rhs → Option Val
  | .var x => c x
  | .op (.const v) _ [] => some v
  | _ => Option.none

mutual
/-- The weight of the operations of a result. -/
def Rhs.weight (c : Nat → Option Val) : Rhs → Nat
  | .var _ => 0
  | .op o _ args => opW o (args.map (Rhs.cst c)) + Rhs.weightL c args

/-- The weight of the operations of operands. -/
def Rhs.weightL (c : Nat → Option Val) : List Rhs → Nat
  | [] => 0
  | a :: as => Rhs.weight c a + Rhs.weightL c as
end

/-! ### Uses -/

theorem uses_pos {g : Graph} {x : Nat} : 0 < g.uses x ↔ (∃ n ∈ g.nodes, x ∈ n.args) ∨ x ∈ g.outs := by
  constructor
  · intro h
    by_contra hc
    rw [not_or, not_exists] at hc
    have : g.uses x = 0 := by
      unfold Graph.uses
      rw [List.count_eq_zero.2 hc.2, Nat.add_zero, List.sum_eq_zero_iff_forall_eq_nat]
      intro k hk
      rw [List.mem_map] at hk
      obtain ⟨n, hn, rfl⟩ := hk
      exact List.count_eq_zero.2 fun hx => hc.1 n ⟨hn, hx⟩
    omega
  · intro h
    by_contra hc
    obtain ⟨h1, h2⟩ := uses_zero (g := g) (x := x) (by omega)
    rcases h with ⟨n, hn, hx⟩ | h
    · exact h1 n hn hx
    · exact h2 h

/-- A value used once, by the root, is not used elsewhere. -/
theorem one_use {g : Graph} {pre post : List Node} {n : Node} (he : g.nodes = pre ++ n :: post) {y : Nat} (hu : g.uses y = 1)
    (hy : y ∈ n.args) : (∀ m ∈ pre, y ∉ m.args) ∧ (∀ m ∈ post, y ∉ m.args) ∧ y ∉ g.outs ∧ n.args.count y = 1 := by
  unfold Graph.uses at hu
  rw [he, List.map_append, List.map_cons, List.sum_append, List.sum_cons] at hu
  have h1 : 0 < n.args.count y := List.count_pos_iff.2 hy
  have h2 : (pre.map fun n => n.args.count y).sum = 0 := by omega
  have h3 : (post.map fun n => n.args.count y).sum = 0 := by omega
  have h4 : g.outs.count y = 0 := by omega
  rw [List.sum_eq_zero_iff_forall_eq_nat] at h2 h3
  refine ⟨?_, ?_, List.count_eq_zero.1 h4, by omega⟩
  · intro m hm
    exact List.count_eq_zero.1 (h2 _ (List.mem_map.2 ⟨m, hm, rfl⟩))
  · intro m hm
    exact List.count_eq_zero.1 (h3 _ (List.mem_map.2 ⟨m, hm, rfl⟩))

theorem sum_le {f f' : Node → Nat} : ∀ {l : List Node}, (∀ n ∈ l, f' n ≤ f n) → (l.map f').sum ≤ (l.map f).sum
  | [], _ => le_refl _
  | a :: l, h => by
    simp only [List.map_cons, List.sum_cons]
    have := sum_le (l := l) fun n hn => h n (by simp [hn])
    have := h a (by simp)
    omega


/-! ### New operations -/

section emit

variable {c : Nat → Option Val} {l : List Node}

mutual
theorem emit_weight (hnd : (l.map (·.name)).Nodup) (hc : ∀ x v, c x = some v → cstIn l x = some v) : ∀ (t : Rhs) (k : Nat),
    (∀ n ∈ (t.emit k).2, n ∈ l) →
      ((t.emit k).2.map (nodeW l)).sum ≤ t.weight c ∧ ∀ v, t.cst c = some v → cstIn l (t.emit k).1 = some v
  | .var x, k, _ => by
    simp only [Rhs.emit, Rhs.weight, List.map_nil, List.sum_nil, le_refl, Rhs.cst, true_and]
    exact hc x
  | .op o ty args, k, h => by
    have ih := emitL_weight hnd hc args k (fun n hn => h n (by simp [Rhs.emit, hn]))
    constructor
    · simp only [Rhs.emit, Rhs.weight, List.map_append, List.sum_append, List.map_cons, List.map_nil, List.sum_cons,
        List.sum_nil]
      have : nodeW l ⟨k + (Rhs.emitL args k).2.length, o, (Rhs.emitL args k).1, ty⟩ ≤ opW o (args.map (Rhs.cst c)) := opW_mono ih.2
      omega
    · intro v hv
      simp only [Rhs.emit] at h ⊢
      cases o <;> simp only [Rhs.cst, reduceCtorEq] at hv
      rename_i w
      cases args with
      | cons _ _ => simp only [Rhs.cst, reduceCtorEq] at hv
      | nil =>
        simp only [Rhs.cst, Option.some.injEq] at hv
        subst hv
        have hm := h ⟨k + (Rhs.emitL [] k).2.length, .const w, (Rhs.emitL [] k).1, ty⟩ (by simp)
        exact cstIn_of (lookIn_mem hnd hm)

theorem emitL_weight (hnd : (l.map (·.name)).Nodup) (hc : ∀ x v, c x = some v → cstIn l x = some v) :
    ∀ (ts : List Rhs) (k : Nat), (∀ n ∈ (Rhs.emitL ts k).2, n ∈ l) →
      ((Rhs.emitL ts k).2.map (nodeW l)).sum ≤ Rhs.weightL c ts ∧
        Knows (ts.map (Rhs.cst c)) ((Rhs.emitL ts k).1.map (cstIn l))
  | [], k, _ => by simp [Rhs.emitL, Rhs.weightL, Knows]
  | a :: as, k, h => by
    simp only [Rhs.emitL, List.mem_append] at h
    obtain ⟨h1, h2⟩ := emit_weight hnd hc a k fun n hn => h n (Or.inl hn)
    obtain ⟨h3, h4⟩ := emitL_weight hnd hc as (k + (Rhs.emit a k).2.length) fun n hn => h n (Or.inr hn)
    simp only [Rhs.emitL, Rhs.weightL, List.map_append, List.sum_append, List.map_cons]
    exact ⟨by omega, List.Forall₂.cons h2 h4⟩
end

end emit

/-! ### Replacing a node -/

section replace

variable {g : Graph} {pre post : List Node} {n : Node} {t : Rhs}

/-- The facts about a replacement. -/
structure Repl (g : Graph) (pre post : List Node) (n : Node) (t : Rhs) : Prop where
  ssa : g.Ssa
  nodes : g.nodes = pre ++ n :: post
  vars : ∀ x ∈ t.vars, x ∈ pre.map (·.name)
  const : ∀ v, cstIn g.nodes n.name = some v →
    cstIn (g.replace pre post n.name t).nodes (t.emit g.bound).1 = some v

theorem Repl.ssa' (h : Repl g pre post n t) : (g.replace pre post n.name t).Ssa := replace_ssa h.ssa h.nodes h.vars

theorem replace_nodes : (g.replace pre post n.name t).nodes =
    pre ++ (t.emit g.bound).2 ++ post.map (Node.subst n.name (t.emit g.bound).1) := rfl

theorem Repl.pre_lt (h : Repl g pre post n t) {x : Nat} (hx : x ∈ pre.map (·.name)) : x < g.bound := by
  rw [List.mem_map] at hx
  obtain ⟨m, hm, rfl⟩ := hx
  exact g.lt_bound_name (by rw [h.nodes]; simp [hm])

theorem Repl.pre_ne (h : Repl g pre post n t) {x : Nat} (hx : x ∈ pre.map (·.name)) : x ≠ n.name := by
  have := h.ssa.1
  rw [h.nodes, List.map_append, List.map_cons, List.nodup_append] at this
  exact this.2.2 x hx n.name (by simp)

/-- Constants stay known. -/
theorem Repl.knows (h : Repl g pre post n t) {x : Nat} {v : Val} (hx : cstIn g.nodes x = some v) :
    cstIn (g.replace pre post n.name t).nodes (substName n.name (t.emit g.bound).1 x) = some v := by
  by_cases hxn : x = n.name
  · subst hxn
    unfold substName
    rw [if_pos rfl]
    exact h.const v hx
  · obtain ⟨nm, ty, hl⟩ := cstIn_some hx
    obtain ⟨h1, h2⟩ := lookIn_some hl
    simp only at h2
    subst h2
    unfold substName
    rw [if_neg hxn]
    have hm : (⟨nm, .const v, [], ty⟩ : Node) ∈ (g.replace pre post n.name t).nodes := by
      rw [h.nodes, List.mem_append, List.mem_cons] at h1
      rw [replace_nodes, List.mem_append, List.mem_append]
      rcases h1 with h1 | h1 | h1
      · exact Or.inl (Or.inl h1)
      · exact absurd (by rw [← h1]) hxn
      · exact Or.inr (List.mem_map.2 ⟨_, h1, rfl⟩)
    exact cstIn_of (lookIn_mem h.ssa'.1 hm)

/-- Only the operands of the new operations may become used. -/
theorem Repl.used (h : Repl g pre post n t) {y : Nat} (hy : y < g.bound) (hu : 0 < (g.replace pre post n.name t).uses y) :
    0 < g.uses y ∨ y ∈ t.vars := by
  obtain ⟨f1, f2⟩ := Rhs.emit_fresh t g.bound
  have hnew : ∀ x, x ∈ (t.emit g.bound).2.map (·.name) → x ≠ y := by
    intro x hx e
    have := f1.mem.1 hx
    omega
  have hsub : ∀ z, y = substName n.name (t.emit g.bound).1 z → (y = z) ∨ y ∈ t.vars := by
    intro z hz
    unfold substName at hz
    split at hz
    · rcases f2 with f | f
      · exact Or.inr (hz ▸ f)
      · exact absurd hz.symm (hnew _ f)
    · exact Or.inl hz
  rw [uses_pos] at hu ⊢
  rw [replace_nodes] at hu
  rcases hu with ⟨k, hk, hyk⟩ | hu
  · rw [List.mem_append, List.mem_append] at hk
    rcases hk with (hk | hk) | hk
    · exact Or.inl (Or.inl ⟨k, by rw [h.nodes]; simp [hk], hyk⟩)
    · obtain ⟨a, b, e⟩ := List.append_of_mem hk
      rcases f1.args a k b e y hyk with h1 | h1
      · exact Or.inr h1
      · exact absurd rfl (hnew y (by rw [e]; simp only [List.map_append, List.mem_append]; exact Or.inl h1))
    · rw [List.mem_map] at hk
      obtain ⟨m, hm, rfl⟩ := hk
      simp only [Node.subst, List.mem_map] at hyk
      obtain ⟨z, hz, e⟩ := hyk
      rcases hsub z e.symm with rfl | h1
      · exact Or.inl (Or.inl ⟨m, by rw [h.nodes]; simp [hm], hz⟩)
      · exact Or.inr h1
  · simp only [Graph.replace, List.mem_map] at hu
    obtain ⟨z, hz, e⟩ := hu
    rcases hsub z e.symm with rfl | h1
    · exact Or.inl (Or.inr hz)
    · exact Or.inr h1

theorem knows_map {f f' : Nat → Option Val} {σ : Nat → Nat} : ∀ {l : List Nat}, (∀ x ∈ l, ∀ v, f x = some v → f' (σ x) = some v) →
    Knows (l.map f) ((l.map σ).map f')
  | [], _ => List.Forall₂.nil
  | a :: l, h => List.Forall₂.cons (h a (by simp)) (knows_map fun x hx => h x (by simp [hx]))

theorem Repl.pre_nodeW (h : Repl g pre post n t) {k : Node} (hk : k ∈ pre) :
    nodeW (g.replace pre post n.name t).nodes k ≤ nodeW g.nodes k := by
  unfold nodeW
  apply opW_mono
  have := knows_map (f := cstIn g.nodes) (f' := cstIn (g.replace pre post n.name t).nodes) (σ := id) (l := k.args) ?_
  · simpa using this
  · intro x hx v hv
    have h1 := h.knows hv
    obtain ⟨a, b, e⟩ := List.append_of_mem hk
    have hx' := h.ssa.2.1 a k (b ++ n :: post) (by rw [h.nodes, e]; simp) x hx
    have hne := h.pre_ne (x := x) (by rw [e, List.map_append, List.mem_append]; exact Or.inl hx')
    unfold substName at h1
    rw [if_neg hne] at h1
    exact h1

theorem Repl.post_contrib (h : Repl g pre post n t) (hv : ∀ x ∈ t.vars, x ∈ pre.map (·.name)) {k : Node} (hk : k ∈ post) :
    contrib (g.replace pre post n.name t) (k.subst n.name (t.emit g.bound).1) ≤ contrib g k := by
  have hmem : k ∈ g.nodes := by rw [h.nodes]; simp [hk]
  have hkn : k.name ∉ pre.map (·.name) := by
    have := h.ssa.1
    rw [h.nodes, List.map_append, List.map_cons, List.nodup_append] at this
    intro hc
    exact this.2.2 k.name hc k.name (List.mem_cons_of_mem _ (List.mem_map.2 ⟨k, hk, rfl⟩)) rfl
  unfold contrib
  by_cases hu : 0 < (g.replace pre post n.name t).uses k.name
  · rw [if_pos (show 0 < (g.replace pre post n.name t).uses (k.subst n.name (t.emit g.bound).1).name from hu)]
    have := h.used (g.lt_bound_name hmem) hu
    have hu' : 0 < g.uses k.name := by
      rcases this with h1 | h1
      · exact h1
      · exact absurd (hv _ h1) hkn
    rw [if_pos hu']
    unfold nodeW
    exact opW_mono (knows_map fun x _ v hx => h.knows hx)
  · rw [if_neg (show ¬ 0 < (g.replace pre post n.name t).uses (k.subst n.name (t.emit g.bound).1).name from hu)]
    omega

theorem Repl.new_weight (h : Repl g pre post n t) :
    ((t.emit g.bound).2.map (contrib (g.replace pre post n.name t))).sum ≤ t.weight (cstIn pre) := by
  refine le_trans (sum_le (f := nodeW (g.replace pre post n.name t).nodes) ?_) ?_
  · intro k _
    unfold contrib
    split
    · exact le_refl _
    · omega
  · refine (emit_weight h.ssa'.1 ?_ t g.bound ?_).1
    · intro x v hx
      obtain ⟨nm, ty, hl⟩ := cstIn_some hx
      rw [replace_nodes, List.append_assoc]
      exact cstIn_of (lookIn_append_some hl)
    · intro k hk
      rw [replace_nodes]
      simp [hk]

theorem Repl.weight_le (h : Repl g pre post n t) :
    (g.replace pre post n.name t).weight ≤ (pre.map (contrib (g.replace pre post n.name t))).sum + t.weight (cstIn pre) +
      (post.map (contrib g)).sum := by
  have h1 := h.new_weight
  have h2 : ((post.map (Node.subst n.name (t.emit g.bound).1)).map (contrib (g.replace pre post n.name t))).sum ≤
      (post.map (contrib g)).sum := by
    rw [List.map_map]
    exact sum_le fun k hk => h.post_contrib h.vars hk
  have e : (g.replace pre post n.name t).weight = (pre.map (contrib (g.replace pre post n.name t))).sum +
      ((t.emit g.bound).2.map (contrib (g.replace pre post n.name t))).sum +
      ((post.map (Node.subst n.name (t.emit g.bound).1)).map (contrib (g.replace pre post n.name t))).sum := by
    conv_lhs => unfold Graph.weight
    rw [replace_nodes, List.map_append, List.map_append, List.sum_append, List.sum_append]
  omega

theorem weight_split (he : g.nodes = pre ++ n :: post) :
    g.weight = (pre.map (contrib g)).sum + contrib g n + (post.map (contrib g)).sum := by
  unfold Graph.weight
  rw [he, List.map_append, List.map_cons, List.sum_append, List.sum_cons]
  omega

/-- A node of `pre` contributes at most what it did, if it was used or is not used now. -/
theorem Repl.pre_contrib (h : Repl g pre post n t) {k : Node} (hk : k ∈ pre)
    (hu : 0 < (g.replace pre post n.name t).uses k.name → 0 < g.uses k.name) :
    contrib (g.replace pre post n.name t) k ≤ contrib g k := by
  unfold contrib
  split
  · rename_i h1
    rw [if_pos (hu h1)]
    exact h.pre_nodeW hk
  · omega

/-- The root's weight is replaced by that of the new operations. -/
theorem Repl.root (h : Repl g pre post n t) (hv : ∀ x ∈ t.vars, 0 < g.uses x) :
    (g.replace pre post n.name t).weight + contrib g n ≤ g.weight + t.weight (cstIn pre) := by
  have h1 := h.weight_le
  have h2 : (pre.map (contrib (g.replace pre post n.name t))).sum ≤ (pre.map (contrib g)).sum := by
    refine sum_le fun k hk => h.pre_contrib hk fun hu => ?_
    rcases h.used (h.pre_lt (List.mem_map.2 ⟨k, hk, rfl⟩)) hu with h3 | h3
    · exact h3
    · exact hv _ h3
  have h3 := weight_split h.nodes
  omega

theorem sum_drop {f f' : Node → Nat} {l : List Node} {m : Node} (hm : m ∈ l) (h : ∀ n ∈ l, f' n ≤ f n) (h0 : f' m = 0) :
    (l.map f').sum + f m ≤ (l.map f).sum := by
  obtain ⟨a, b, rfl⟩ := List.append_of_mem hm
  simp only [List.map_append, List.map_cons, List.sum_append, List.sum_cons]
  have := sum_le (f := f) (f' := f') (l := a) fun n hn => h n (by simp [hn])
  have := sum_le (f := f) (f' := f') (l := b) fun n hn => h n (by simp [hn])
  omega

/-- The weights of the root and of a matched operation with one use are replaced. -/
theorem Repl.inner (h : Repl g pre post n t) (hv : ∀ x ∈ t.vars, 0 < g.uses x) {m : Node} (hm : m ∈ pre)
    (hu : g.uses m.name = 1) (hmn : m.name ∈ n.args) (hmv : m.name ∉ t.vars) :
    (g.replace pre post n.name t).weight + contrib g n + contrib g m ≤ g.weight + t.weight (cstIn pre) := by
  have h1 := h.weight_le
  have hlt := h.pre_lt (List.mem_map.2 ⟨m, hm, rfl⟩)
  have h0 : contrib (g.replace pre post n.name t) m = 0 := by
    unfold contrib
    rw [if_neg]
    rw [uses_pos, replace_nodes]
    obtain ⟨q1, q2, q3, _⟩ := one_use h.nodes hu hmn
    obtain ⟨f1, f2⟩ := Rhs.emit_fresh t g.bound
    have hr : m.name ≠ (t.emit g.bound).1 := by
      intro e
      rcases f2 with f | f
      · exact hmv (e ▸ f)
      · have := f1.mem.1 f; omega
    have hsub : ∀ z, m.name = substName n.name (t.emit g.bound).1 z → m.name = z := by
      intro z hz
      unfold substName at hz
      split at hz
      · exact absurd hz hr
      · exact hz
    rintro (⟨k, hk, hyk⟩ | ho)
    · rw [List.mem_append, List.mem_append] at hk
      rcases hk with (hk | hk) | hk
      · exact q1 k hk hyk
      · obtain ⟨a, b, e⟩ := List.append_of_mem hk
        rcases f1.args a k b e _ hyk with h2 | h2
        · exact hmv h2
        · have := f1.mem.1 (by rw [e]; simp only [List.map_append, List.mem_append]; exact Or.inl h2)
          omega
      · rw [List.mem_map] at hk
        obtain ⟨k', hk', rfl⟩ := hk
        simp only [Node.subst, List.mem_map] at hyk
        obtain ⟨z, hz, e⟩ := hyk
        exact q2 k' hk' (hsub z e.symm ▸ hz)
    · simp only [Graph.replace, List.mem_map] at ho
      obtain ⟨z, hz, e⟩ := ho
      exact q3 (hsub z e.symm ▸ hz)
  have h2 : (pre.map (contrib (g.replace pre post n.name t))).sum + contrib g m ≤ (pre.map (contrib g)).sum := by
    refine sum_drop hm (fun k hk => h.pre_contrib hk fun hu => ?_) h0
    rcases h.used (h.pre_lt (List.mem_map.2 ⟨k, hk, rfl⟩)) hu with h3 | h3
    · exact h3
    · exact hv _ h3
  have h3 := weight_split h.nodes
  omega

end replace

/-! ### Erasing and merging -/

theorem erase_uses {g : Graph} {pre post : List Node} {n : Node} (he : g.nodes = pre ++ n :: post) {x : Nat}
    (h : 0 < Graph.uses ⟨pre ++ post, g.outs⟩ x) : 0 < g.uses x := by
  rw [uses_pos] at h ⊢
  rw [he]
  rcases h with ⟨k, hk, hx⟩ | h
  · refine Or.inl ⟨k, ?_, hx⟩
    simp only [List.mem_append, List.mem_cons] at hk ⊢
    tauto
  · exact Or.inr h

theorem erase_weight {g : Graph} (hg : g.Ssa) {pre post : List Node} {n : Node} (he : g.nodes = pre ++ n :: post)
    (hu : g.uses n.name = 0) : Graph.weight ⟨pre ++ post, g.outs⟩ ≤ g.weight := by
  have hz := uses_zero hu
  have hs' := erase_ssa hg he hu
  have key : ∀ k ∈ pre ++ post, contrib ⟨pre ++ post, g.outs⟩ k ≤ contrib g k := by
    intro k hk
    unfold contrib
    split
    · rename_i h1
      rw [if_pos (erase_uses he h1)]
      unfold nodeW
      apply opW_mono
      have := knows_map (f := cstIn g.nodes) (f' := cstIn (pre ++ post)) (σ := id) (l := k.args) ?_
      · simpa using this
      · intro x hx v hv
        obtain ⟨nm, ty, hl⟩ := cstIn_some hv
        obtain ⟨h2, h3⟩ := lookIn_some hl
        simp only at h3
        subst h3
        have hkg : k ∈ g.nodes := by
          rw [he]
          simp only [List.mem_append, List.mem_cons] at hk ⊢
          tauto
        have hne : nm ≠ n.name := by
          rintro rfl
          exact hz.1 k hkg hx
        have hm : (⟨nm, .const v, [], ty⟩ : Node) ∈ pre ++ post := by
          rw [he] at h2
          simp only [List.mem_append, List.mem_cons] at h2 ⊢
          rcases h2 with h2 | h2 | h2
          · exact Or.inl h2
          · exact absurd (by rw [← h2]) hne
          · exact Or.inr h2
        exact cstIn_of (lookIn_mem hs'.1 hm)
    · omega
  have h1 := weight_split he
  have h2 : Graph.weight ⟨pre ++ post, g.outs⟩ = (pre.map (contrib ⟨pre ++ post, g.outs⟩)).sum +
      (post.map (contrib ⟨pre ++ post, g.outs⟩)).sum := by
    conv_lhs => unfold Graph.weight
    simp only
    rw [List.map_append, List.sum_append]
  have h3 := sum_le (l := pre) fun k hk => key k (by simp [hk])
  have h4 := sum_le (l := post) fun k hk => key k (by simp [hk])
  omega

theorem cse_repl {g : Graph} (hg : g.Ssa) {pre post : List Node} {n m : Node} (he : g.nodes = pre ++ n :: post) (hm : m ∈ pre)
    (heq : m.op = n.op ∧ m.args = n.args ∧ m.ty = n.ty) : Repl g pre post n (.var m.name) := by
  refine ⟨hg, he, ?_, ?_⟩
  · intro x hx
    simp only [Rhs.vars, List.mem_singleton] at hx
    subst hx
    exact List.mem_map.2 ⟨m, hm, rfl⟩
  · intro v hv
    obtain ⟨nm, ty, hl⟩ := cstIn_some hv
    have hn : lookIn g.nodes n.name = some n := lookIn_mem hg.1 (by rw [he]; simp)
    rw [hn] at hl
    cases hl
    have hnd : (pre.map (·.name)).Nodup := by
      have := hg.1
      rw [he, List.map_append, List.nodup_append] at this
      exact this.1
    have hl := lookIn_mem hnd hm
    obtain ⟨nm', op', args', ty'⟩ := m
    simp only at heq
    obtain ⟨rfl, rfl, _⟩ := heq
    exact cstIn_of (lookIn_append_some (lookIn_append_some hl))

theorem cse_weight {g : Graph} (hg : g.Ssa) {pre post : List Node} {n m : Node} (he : g.nodes = pre ++ n :: post) (hm : m ∈ pre)
    (heq : m.op = n.op ∧ m.args = n.args ∧ m.ty = n.ty) : (g.replace pre post n.name (.var m.name)).weight ≤ g.weight := by
  have h := cse_repl hg he hm heq
  have h1 := h.weight_le
  have h3 := weight_split h.nodes
  simp only [Rhs.weight] at h1
  have hnd : (pre.map (·.name)).Nodup := by
    have := hg.1
    rw [he, List.map_append, List.nodup_append] at this
    exact this.1
  have hlt : ∀ k ∈ pre, k.name < g.bound := fun k hk => h.pre_lt (List.mem_map.2 ⟨k, hk, rfl⟩)
  have hother : ∀ k ∈ pre, k.name ≠ m.name → contrib (g.replace pre post n.name (.var m.name)) k ≤ contrib g k := by
    intro k hk hne
    refine h.pre_contrib hk fun hu => ?_
    rcases h.used (hlt k hk) hu with h4 | h4
    · exact h4
    · simp only [Rhs.vars, List.mem_singleton] at h4
      exact absurd h4 hne
  have hmm : contrib (g.replace pre post n.name (.var m.name)) m ≤ contrib g m + contrib g n := by
    by_cases hum : 0 < g.uses m.name
    · have := h.pre_contrib hm fun _ => hum
      omega
    · unfold contrib
      split
      · rename_i hu'
        -- then the root was used
        have hun : 0 < g.uses n.name := by
          by_contra hc
          have hz := uses_zero (g := g) (x := n.name) (by omega)
          apply hum
          rw [uses_pos, replace_nodes] at hu'
          rw [uses_pos]
          simp only [Rhs.emit, List.append_nil] at hu'
          rcases hu' with ⟨k, hk, hx⟩ | ho
          · rw [List.mem_append] at hk
            rcases hk with hk | hk
            · exact Or.inl ⟨k, by rw [he]; simp [hk], hx⟩
            · rw [List.mem_map] at hk
              obtain ⟨k', hk', rfl⟩ := hk
              simp only [Node.subst, List.mem_map] at hx
              obtain ⟨z, hz', e⟩ := hx
              unfold substName at e
              split at e
              · rename_i hzn
                exact absurd (hzn ▸ hz') (hz.1 k' (by rw [he]; simp [hk']))
              · exact Or.inl ⟨k', by rw [he]; simp [hk'], e ▸ hz'⟩
          · simp only [Graph.replace, Rhs.emit, List.mem_map] at ho
            obtain ⟨z, hz', e⟩ := ho
            unfold substName at e
            split at e
            · rename_i hzn
              exact absurd (hzn ▸ hz') hz.2
            · exact Or.inr (e ▸ hz')
        rw [if_pos hun]
        have h4 := h.pre_nodeW hm
        have h5 : nodeW g.nodes m = nodeW g.nodes n := by
          unfold nodeW
          rw [heq.1, heq.2.1]
        omega
      · omega
  have h2 : (pre.map (contrib (g.replace pre post n.name (.var m.name)))).sum ≤ (pre.map (contrib g)).sum + contrib g n := by
    obtain ⟨a, b, e⟩ := List.append_of_mem hm
    rw [e, List.map_append, List.map_cons, List.nodup_append, List.nodup_cons] at hnd
    have s1 := sum_le (l := a) (f := contrib g) (f' := contrib (g.replace pre post n.name (.var m.name))) fun k hk =>
      hother k (by rw [e]; simp [hk]) (hnd.2.2 k.name (List.mem_map.2 ⟨k, hk, rfl⟩) m.name (by simp))
    have s2 := sum_le (l := b) (f := contrib g) (f' := contrib (g.replace pre post n.name (.var m.name))) fun k hk =>
      hother k (by rw [e]; simp [hk]) (fun e' => hnd.2.1.1 (e' ▸ List.mem_map.2 ⟨k, hk, rfl⟩))
    have e1 : ∀ f : Node → Nat, (pre.map f).sum = (a.map f).sum + (f m + (b.map f).sum) := by
      intro f
      rw [e, List.map_append, List.map_cons, List.sum_append, List.sum_cons]
    rw [e1, e1]
    omega
  omega

end Verif.Ir
