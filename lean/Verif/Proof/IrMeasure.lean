import Verif.Proof.IrDec

/-! Termination of the rewriting: every step decreases the measure. -/

namespace Verif.Ir

/-! ### The weight under a pattern -/

section rewrite

variable {g : Graph} {pre post : List Node} {n : Node} {t : Rhs} {r : Rule}

theorem pre_nodup (hg : g.Ssa) (he : g.nodes = pre ++ n :: post) : (pre.map (·.name)).Nodup := by
  have := hg.1
  rw [he, List.map_append, List.nodup_append] at this
  exact this.1

/-- The definitions before the root are those of the graph. -/
theorem cst_pre (he : g.nodes = pre ++ n :: post) {x : Nat} (hx : x ∈ pre.map (·.name)) :
    cstIn g.nodes x = cstIn pre x := by
  unfold cstIn Ctx.constOf
  simp only
  rw [he, lookIn_append_left hx]

theorem args_pre (hg : g.Ssa) (he : g.nodes = pre ++ n :: post) {m : Node} (hm : m ∈ pre) {x : Nat} (hx : x ∈ m.args) :
    x ∈ pre.map (·.name) := by
  obtain ⟨q, q', rfl⟩ := List.append_of_mem hm
  have := hg.2.1 q m (q' ++ n :: post) (by rw [he]; simp) x hx
  rw [List.map_append]
  exact List.mem_append_left _ this

theorem contrib_root (hg : g.Ssa) (he : g.nodes = pre ++ n :: post) (hu : 0 < g.uses n.name) :
    contrib g n = opW n.op (n.args.map (cstIn pre)) := by
  unfold contrib nodeW
  rw [if_pos hu]
  refine congrArg (opW n.op) (List.map_congr_left fun x hx => cst_pre he (hg.2.1 pre n post he x hx))

theorem contrib_pre (hg : g.Ssa) (he : g.nodes = pre ++ n :: post) {m : Node} (hm : m ∈ pre) (hu : 0 < g.uses m.name) :
    contrib g m = opW m.op (m.args.map (cstIn pre)) := by
  unfold contrib nodeW
  rw [if_pos hu]
  refine congrArg (opW m.op) (List.map_congr_left fun x hx => cst_pre he (args_pre hg he hm hx))

/-- The operands of the new operations are used. -/
theorem vars_used (he : g.nodes = pre ++ n :: post) (hl : r.Local) (ha : r.apply ⟨lookIn pre, g.uses⟩ n = some t) :
    ∀ x ∈ t.vars, 0 < g.uses x := by
  intro x hx
  rw [uses_pos]
  left
  rcases hl _ _ _ ha x hx with h | ⟨y, m, h1, h2⟩
  · exact ⟨n, by rw [he]; simp, h⟩
  · exact ⟨m, by rw [he]; simp [(lookIn_some h1).1], h2⟩

theorem repl_of (hg : g.Ssa) (he : g.nodes = pre ++ n :: post) (hl : r.Local)
    (ha : r.apply ⟨lookIn pre, g.uses⟩ n = some t) (hn : ∀ v, n.op ≠ .const v) : Repl g pre post n t := by
  refine ⟨hg, he, local_vars hg he hl ha, ?_⟩
  intro v hv
  obtain ⟨nm, ty, h⟩ := cstIn_some hv
  have hn' : lookIn g.nodes n.name = some n := lookIn_mem hg.1 (by rw [he]; simp)
  rw [hn'] at h
  cases h
  exact absurd rfl (hn v)

/-- A pattern that decreases the weight of what it matched decreases the weight of the graph. -/
theorem dec_weight (hg : g.Ssa) (he : g.nodes = pre ++ n :: post) (hu : 0 < g.uses n.name) (hl : r.Local) (hd : r.Dec)
    (ha : r.apply ⟨lookIn pre, g.uses⟩ n = some t) : (g.replace pre post n.name t).weight < g.weight := by
  obtain ⟨h1, h2⟩ := hd _ _ _ ha
  have hR := repl_of hg he hl ha h1
  have hv := vars_used he hl ha
  have hroot := contrib_root hg he hu
  rw [cstIn_eq] at h2
  rcases h2 with h2 | ⟨y, m, h3, h4, h5, h6, h7⟩
  · have := hR.root hv
    omega
  · obtain ⟨hm, rfl⟩ := lookIn_some h3
    have hin := contrib_pre hg he hm (by simp only at h4; omega)
    have hmv : m.name ∉ t.vars := by
      intro hc
      rcases h6 _ hc with h8 | h8
      · obtain ⟨q, q', e⟩ := List.append_of_mem hm
        have h9 := hg.2.1 q m (q' ++ n :: post) (by rw [he, e]; simp) _ h8
        have h10 := pre_nodup hg he
        rw [e, List.map_append, List.map_cons, List.nodup_append] at h10
        exact h10.2.2 _ h9 m.name (by simp) rfl
      · have := (one_use he h4 h5).2.2.2
        have h9 := List.count_erase_self (a := m.name) (l := n.args)
        have h10 := List.count_pos_iff.2 h8
        omega
    have := hR.inner hv hm h4 h5 hmv
    omega

end rewrite

/-! ### The position of a definition -/

/-- 1 for the operations counted in positions (Dequantize). -/
def isT (n : Node) : Nat :=
  match n.op with
  | .tdequant => 1
  | _ => 0

/-- How many of them there are. -/
def cntT (l : List Node) : Nat := (l.map isT).sum

/-- How many of them there are up to the definition of `x`. -/
def posIn : List Node → Nat → Nat
  | [], _ => 0
  | n :: l, x => isT n + if n.name = x then 0 else posIn l x

theorem posIn_le_cnt : ∀ (l : List Node) (x : Nat), posIn l x ≤ cntT l
  | [], _ => le_refl _
  | n :: l, x => by
    have := posIn_le_cnt l x
    simp only [posIn, cntT, List.map_cons, List.sum_cons] at this ⊢
    split <;> omega

theorem posIn_left : ∀ {l : List Node} (l' : List Node) {x : Nat}, x ∈ l.map (·.name) → posIn (l ++ l') x = posIn l x
  | [], _, _, h => by cases h
  | n :: l, l', x, h => by
    simp only [List.cons_append, posIn]
    by_cases e : n.name = x
    · simp [e]
    · rw [if_neg e, if_neg e, posIn_left l' (by simpa [Ne.symm e] using h)]

theorem posIn_right : ∀ {l : List Node} (l' : List Node) {x : Nat}, x ∉ l.map (·.name) →
    posIn (l ++ l') x = cntT l + posIn l' x
  | [], _, _, _ => by simp [cntT]
  | n :: l, l', x, h => by
    simp only [List.map_cons, List.mem_cons, not_or] at h
    have := posIn_right l' h.2
    simp only [List.cons_append, posIn, if_neg (Ne.symm h.1), this, cntT, List.map_cons, List.sum_cons]
    omega

theorem cntT_append (l l' : List Node) : cntT (l ++ l') = cntT l + cntT l' := by
  simp only [cntT, List.map_append, List.sum_append]

theorem cnt_le_posIn {l l' : List Node} {x : Nat} (h : x ∉ l.map (·.name)) : cntT l ≤ posIn (l ++ l') x := by
  rw [posIn_right l' h]
  omega

theorem posIn_subst (v r : Nat) : ∀ (l : List Node) (x : Nat), posIn (l.map (Node.subst v r)) x = posIn l x
  | [], _ => rfl
  | n :: l, x => by
    simp only [List.map_cons, posIn, posIn_subst v r l x]
    rfl

/-- The position of the third operand of a BConv2D, its multiplier. -/
def mpos (l : List Node) (n : Node) : Nat :=
  match n.op.isBConv, n.args[2]? with
  | true, some m => posIn l m
  | _, _ => 0

theorem mpos_le {l l' : List Node} {n : Node} {σ : Nat → Nat} (h : ∀ x ∈ n.args, posIn l' (σ x) ≤ posIn l x) :
    mpos l' { n with args := n.args.map σ } ≤ mpos l n := by
  obtain ⟨nm, op, args, ty⟩ := n
  unfold mpos
  simp only [List.getElem?_map]
  simp only at h
  cases e : args[2]? with
  | none => cases op <;> exact le_refl _
  | some m =>
    cases op <;> first | exact h m (List.mem_of_getElem? e) | exact le_refl _

/-- The second component of the measure. -/
def Graph.depth (g : Graph) : Nat := (g.nodes.map (mpos g.nodes)).sum

theorem mpos_le' {l l' : List Node} {n : Node} (h : ∀ x ∈ n.args, posIn l' x ≤ posIn l x) : mpos l' n ≤ mpos l n := by
  have := mpos_le (σ := id) (n := n) (l := l) (l' := l') h
  simpa using this

section depth

variable {g : Graph} {pre post : List Node} {n : Node}

theorem post_not_pre (hg : g.Ssa) (he : g.nodes = pre ++ n :: post) {x : Nat} (hx : x ∈ post.map (·.name)) :
    x ∉ pre.map (·.name) ∧ x ≠ n.name := by
  have := hg.1
  rw [he, List.map_append, List.map_cons, List.nodup_append, List.nodup_cons] at this
  refine ⟨fun hc => this.2.2 x hc x (by simp [hx]) rfl, ?_⟩
  rintro rfl
  exact this.2.1.1 hx

theorem root_not_pre (hg : g.Ssa) (he : g.nodes = pre ++ n :: post) : n.name ∉ pre.map (·.name) := by
  have := hg.1
  rw [he, List.map_append, List.map_cons, List.nodup_append] at this
  exact fun hc => this.2.2 _ hc n.name (by simp) rfl

theorem posIn_graph_post (he : g.nodes = pre ++ n :: post) {x : Nat} (hx : x ∉ pre.map (·.name))
    (hn : x ≠ n.name) : posIn g.nodes x = cntT pre + (isT n + posIn post x) := by
  rw [he, posIn_right _ hx]
  simp only [posIn, if_neg (Ne.symm hn)]

theorem posIn_graph_root (hg : g.Ssa) (he : g.nodes = pre ++ n :: post) : posIn g.nodes n.name = cntT pre + isT n := by
  rw [he, posIn_right _ (root_not_pre hg he)]
  simp only [posIn, if_true, Nat.add_zero]

theorem posIn_graph_pre (he : g.nodes = pre ++ n :: post) {x : Nat} (hx : x ∈ pre.map (·.name)) :
    posIn g.nodes x = posIn pre x := by
  rw [he, posIn_left _ hx]

theorem depth_split (he : g.nodes = pre ++ n :: post) : g.depth =
    (pre.map (mpos g.nodes)).sum + mpos g.nodes n + (post.map (mpos g.nodes)).sum := by
  unfold Graph.depth
  conv_lhs => rw [he]
  rw [he, List.map_append, List.map_cons, List.sum_append, List.sum_cons]
  omega

/-- Erasing an unused operation does not increase it. -/
theorem erase_depth (hg : g.Ssa) (he : g.nodes = pre ++ n :: post) (hu : g.uses n.name = 0) :
    Graph.depth ⟨pre ++ post, g.outs⟩ ≤ g.depth := by
  have hz := uses_zero hu
  have key : ∀ k ∈ g.nodes, mpos (pre ++ post) k ≤ mpos g.nodes k := by
    intro k hk
    refine mpos_le' fun x hx => ?_
    have hne : x ≠ n.name := by rintro rfl; exact hz.1 k hk hx
    by_cases hp : x ∈ pre.map (·.name)
    · rw [posIn_left _ hp, posIn_graph_pre he hp]
    · rw [posIn_right _ hp, posIn_graph_post he hp hne]
      omega
  rw [depth_split he]
  unfold Graph.depth
  simp only
  rw [List.map_append, List.sum_append]
  have h1 := sum_le (l := pre) fun k hk => key k (by rw [he]; simp [hk])
  have h2 := sum_le (l := post) fun k hk => key k (by rw [he]; simp [hk])
  omega

/-- Merging equal operations does not increase it. -/
theorem cse_depth (hg : g.Ssa) (he : g.nodes = pre ++ n :: post) {m : Node} (hm : m ∈ pre) :
    (g.replace pre post n.name (.var m.name)).depth ≤ g.depth := by
  have hmn : m.name ∈ pre.map (·.name) := List.mem_map.2 ⟨m, hm, rfl⟩
  have key : ∀ x, posIn (pre ++ post.map (Node.subst n.name m.name)) (substName n.name m.name x) ≤ posIn g.nodes x := by
    intro x
    unfold substName
    split
    · rename_i e
      subst e
      rw [posIn_left _ hmn, posIn_graph_root hg he]
      have := posIn_le_cnt pre m.name
      omega
    · rename_i hne
      by_cases hp : x ∈ pre.map (·.name)
      · rw [posIn_left _ hp, posIn_graph_pre he hp]
      · rw [posIn_right _ hp, posIn_graph_post he hp hne, posIn_subst]
        omega
  rw [depth_split he]
  have e : (g.replace pre post n.name (.var m.name)).nodes = pre ++ post.map (Node.subst n.name m.name) := by
    simp [Graph.replace, Rhs.emit]
  unfold Graph.depth
  rw [e, List.map_append, List.sum_append, List.map_map]
  have h1 := sum_le (l := pre) (f := mpos g.nodes) (f' := mpos (pre ++ post.map (Node.subst n.name m.name))) fun k hk => by
    refine mpos_le' fun x hx => ?_
    have hp := args_pre hg he hk hx
    rw [posIn_left _ hp, posIn_graph_pre he hp]
  have h2 := sum_le (l := post) (f := mpos g.nodes)
    (f' := mpos (pre ++ post.map (Node.subst n.name m.name)) ∘ Node.subst n.name m.name) fun k _ => mpos_le fun x _ => key x
  omega

/-- A node defined by a counted operation lies beyond the nodes before that operation. -/
theorem posIn_lt (hg : g.Ssa) (he : g.nodes = pre ++ n :: post) {m : Node} (hm : m ∈ pre) (ht : isT m = 1) {x : Nat}
    (hx : x ∈ m.args) : posIn pre x < posIn pre m.name := by
  obtain ⟨q, q', e⟩ := List.append_of_mem hm
  have hx' := hg.2.1 q m (q' ++ n :: post) (by rw [he, e]; simp) x hx
  have hnd := pre_nodup hg he
  rw [e, List.map_append, List.map_cons, List.nodup_append] at hnd
  have hmq : m.name ∉ q.map (·.name) := fun hc => hnd.2.2 _ hc m.name (by simp) rfl
  rw [e, posIn_left _ hx', posIn_right _ hmq]
  have := posIn_le_cnt q x
  simp only [posIn, if_true, ht]
  omega

theorem posIn_le_arg (hg : g.Ssa) (he : g.nodes = pre ++ n :: post) {m : Node} (hm : m ∈ pre) {x : Nat} (hx : x ∈ m.args) :
    posIn pre x ≤ posIn pre m.name := by
  obtain ⟨q, q', e⟩ := List.append_of_mem hm
  have hx' := hg.2.1 q m (q' ++ n :: post) (by rw [he, e]; simp) x hx
  have hnd := pre_nodup hg he
  rw [e, List.map_append, List.map_cons, List.nodup_append] at hnd
  have hmq : m.name ∉ q.map (·.name) := fun hc => hnd.2.2 _ hc m.name (by simp) rfl
  rw [e, posIn_left _ hx', posIn_right _ hmq]
  have := posIn_le_cnt q x
  omega

/-- Removing Quantize and Dequantize from the operands of a BConv2D keeps the weight and decreases the depth. -/
theorem strip_measure (hg : g.Ssa) (he : g.nodes = pre ++ n :: post) (hu : 0 < g.uses n.name) {t : Rhs}
    (ha : ruleStripQdq.apply ⟨lookIn pre, g.uses⟩ n = some t) :
    (g.replace pre post n.name t).weight ≤ g.weight ∧ (g.replace pre post n.name t).depth < g.depth := by
  have hl := ruleStripQdq_local
  have hvars := local_vars hg he hl ha
  have hused := vars_used he hl ha
  have hroot := contrib_root hg he hu
  have hR := repl_of hg he hl ha
  obtain ⟨nm, a, x, f, m, b, tt, ty, mn, m1, mty, bn, b1, bty, m1n, s1, z1, m0, m1ty, b1n, s2, z2, b0, b1ty,
    rfl, hbc, hm, hb, hm1, hb1, rfl⟩ := ruleStripQdq_inv ha
  obtain ⟨hm', e1⟩ := lookIn_some hm
  obtain ⟨hm1', e2⟩ := lookIn_some hm1
  simp only at e1 e2
  subst e1
  subst e2
  have p1 : posIn pre m0 ≤ posIn pre m1n := posIn_le_arg hg he hm1' (by simp)
  have p2 : posIn pre m1n < posIn pre mn := posIn_lt hg he hm' rfl (by simp)
  have hmn : mn ∈ pre.map (·.name) := List.mem_map.2 ⟨_, hm', rfl⟩
  have hm0 : m0 ∈ pre.map (·.name) := hvars m0 (by simp [Rhs.vars, Rhs.varsL])
  have hT : ∀ nm' args', isT ⟨nm', a, args', ty⟩ = 0 := by
    intro nm' args'
    cases a <;> first
      | (cases hbc; done)
      | rfl
  constructor
  · have h := (hR (by rintro v rfl; cases hbc)).root hused
    rw [hroot] at h
    simp only [Rhs.weight, Rhs.weightL, List.map_cons, List.map_nil, Rhs.cst, Nat.add_zero] at h
    have e : opW a [cstIn pre x, cstIn pre f, cstIn pre m0, cstIn pre b0, cstIn pre tt] =
        opW a [cstIn pre x, cstIn pre f, cstIn pre mn, cstIn pre b, cstIn pre tt] := by
      cases a <;> first
        | (cases hbc; done)
        | rfl
        | (cases cstIn pre f with
          | none => rfl
          | some v => cases v <;> rfl)
    simp only
    omega
  · have hfresh : g.bound ∉ pre.map (·.name) := fun hc => absurd (lt_of_lt_of_le (show g.bound < g.bound by
        rw [List.mem_map] at hc
        obtain ⟨k, hk, e⟩ := hc
        have := g.lt_bound_name (n := k) (by rw [he]; simp [hk])
        omega) (le_refl _)) (lt_irrefl _)
    have e : (g.replace pre post nm (.op a ty [.var x, .var f, .var m0, .var b0, .var tt])).nodes =
        pre ++ (⟨g.bound, a, [x, f, m0, b0, tt], ty⟩ : Node) :: post.map (Node.subst nm g.bound) := by
      simp [Graph.replace, Rhs.emit, Rhs.emitL]
    rw [depth_split he]
    have key' : ∀ y, y < g.bound → posIn (pre ++ (⟨g.bound, a, [x, f, m0, b0, tt], ty⟩ : Node) ::
        post.map (Node.subst nm g.bound)) (substName nm g.bound y) ≤ posIn g.nodes y := by
      intro y hy
      unfold substName
      split
      · rename_i ey
        subst ey
        rw [posIn_right _ hfresh, posIn_graph_root hg he]
        simp [posIn, hT]
      · rename_i hne
        by_cases hp : y ∈ pre.map (·.name)
        · rw [posIn_left _ hp, posIn_graph_pre he hp]
        · rw [posIn_right _ hp, posIn_graph_post he hp hne]
          simp only [posIn, posIn_subst, hT]
          split <;> omega
    unfold Graph.depth
    rw [e, List.map_append, List.sum_append, List.map_cons, List.sum_cons, List.map_map]
    generalize hL : pre ++ (⟨g.bound, a, [x, f, m0, b0, tt], ty⟩ : Node) :: post.map (Node.subst nm g.bound) = L at key'
    have h1 := sum_le (l := pre) (f := mpos g.nodes) (f' := mpos L) fun k hk => by
      refine mpos_le' fun x hx => ?_
      have hp := args_pre hg he hk hx
      rw [← hL, posIn_left _ hp, posIn_graph_pre he hp]
    have h2 := sum_le (l := post) (f := mpos g.nodes) (f' := mpos L ∘ Node.subst nm g.bound) fun k hk =>
      mpos_le fun x hx => key' x (g.lt_bound_arg (n := k) (by rw [he]; simp [hk]) hx)
    have h3 : mpos L ⟨g.bound, a, [x, f, m0, b0, tt], ty⟩ < mpos g.nodes ⟨nm, a, [x, f, mn, b, tt], ty⟩ := by
      have f1 : mpos L ⟨g.bound, a, [x, f, m0, b0, tt], ty⟩ = posIn L m0 := by simp [mpos, hbc]
      have f2 : mpos g.nodes ⟨nm, a, [x, f, mn, b, tt], ty⟩ = posIn g.nodes mn := by simp [mpos, hbc]
      rw [f1, f2]
      rw [← hL, posIn_left _ hm0, posIn_graph_pre he hmn]
      omega
    omega

end depth

/-! ### The measure -/

/-- Every pattern but `ruleStripQdq` decreases the weight. -/
def Rule.DecOr (r : Rule) : Prop := r.Dec ∨ r = ruleStripQdq

/-- `b` is below `a`. -/
def Below (b a : Graph) : Prop :=
  b.weight < a.weight ∨ (b.weight ≤ a.weight ∧ b.depth < a.depth) ∨
    (b.weight ≤ a.weight ∧ b.depth ≤ a.depth ∧ b.nodes.length < a.nodes.length)

theorem step_below {rules : List Rule} {safe : List Val → Prop} (hl : ∀ r ∈ rules, r.Local) (hd : ∀ r ∈ rules, r.DecOr) {g g' : Graph}
    (hg : g.Ssa) (h : Step rules safe g g') : Below g' g := by
  cases h with
  | rewrite r hr he hu ha hs =>
    rcases hd r hr with h | rfl
    · exact Or.inl (dec_weight hg he hu (hl r hr) h ha)
    · exact Or.inr (Or.inl (strip_measure hg he hu ha))
  | erase he hu =>
    exact Or.inr (Or.inr ⟨erase_weight hg he hu, erase_depth hg he hu, by rw [he]; simp⟩)
  | cse he hm hq =>
    exact Or.inr (Or.inr ⟨cse_weight hg he hm hq, cse_depth hg he hm, by rw [he]; simp [Graph.replace, Rhs.emit]⟩)

theorem below_wf : WellFounded Below := by
  refine Subrelation.wf (r := InvImage (Prod.Lex (· < ·) (Prod.Lex (· < ·) (· < ·)))
    fun g : Graph => (g.weight, g.depth, g.nodes.length)) ?_ (InvImage.wf _ ?_)
  · intro b a h
    show Prod.Lex _ _ (_, _) (_, _)
    rcases h with h | ⟨h1, h2⟩ | ⟨h1, h2, h3⟩
    · exact Prod.Lex.left _ _ h
    · rcases Nat.lt_or_ge b.weight a.weight with h | h
      · exact Prod.Lex.left _ _ h
      · rw [Nat.le_antisymm h1 h]
        exact Prod.Lex.right _ (Prod.Lex.left _ _ h2)
    · rcases Nat.lt_or_ge b.weight a.weight with h | h
      · exact Prod.Lex.left _ _ h
      · rw [Nat.le_antisymm h1 h]
        refine Prod.Lex.right _ ?_
        rcases Nat.lt_or_ge b.depth a.depth with h | h
        · exact Prod.Lex.left _ _ h
        · rw [Nat.le_antisymm h2 h]
          exact Prod.Lex.right _ h3
  · exact WellFounded.prod_lex Nat.lt_wfRel.wf (WellFounded.prod_lex Nat.lt_wfRel.wf Nat.lt_wfRel.wf)

end Verif.Ir
