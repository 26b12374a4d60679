import Verif.Proof.Detection

/-! Lemmas for C70: one step of the pass. -/

namespace Verif.Det

/-- The operation the pattern looks for: options, operands, their dequantized tensors, results. -/
structure Matched (pre : List DNode) (n : DNode) (option : List Nat) (boxes scores anchors b s a r0 r1 r2 r3 : Nat)
    (t0 t1 t2 t3 : TTy) : Prop where
  node : n = ⟨[(r0, t0), (r1, t1), (r2, t2), (r3, t3)], .custom detectionCode option, [boxes, scores, anchors]⟩
  boxes : dequantized pre boxes = some b
  scores : dequantized pre scores = some s
  anchors : dequantized pre anchors = some a
  elems : t0.elem = .int 32 ∧ t1.elem = .int 32 ∧ t2.elem = .f32 ∧ t3.elem = .int 32

theorem rewrite_matched {pre : List DNode} {n : DNode} {option : List Nat} {boxes scores anchors b s a r0 r1 r2 r3 : Nat}
    {t0 t1 t2 t3 : TTy} (m : Matched pre n option boxes scores anchors b s a r0 r1 r2 r3 t0 t1 t2 t3) (g : DGraph)
    (post : List DNode) : g.rewrite pre n post = match g.typeOf s with
      | some ⟨.quant q, _⟩ =>
        match retyped (.int 32) t0, retyped (.int 32) t1, retyped (.quant (scoresType q)) t2, retyped (.int 32) t3 with
        | some u0, some u1, some u2, some u3 =>
          .ok { g with nodes := pre ++ [
            ⟨[(r0, u0), (r1, u1), (g.fresh, u2), (r3, u3)], .custom detectionCode option, [b, s, a]⟩,
            ⟨[(r2, t2)], .dequantize, [g.fresh]⟩] ++ post }
        | _, _, _, _ => .ub
      | _ => .ub := by
  obtain ⟨rfl, h1, h2, h3, h4⟩ := m
  unfold DGraph.rewrite
  simp only [ne_eq, not_true_eq_false, if_false, h1, h2, h3]
  rw [if_pos h4]
  rfl

theorem matched_of {g : DGraph} {pre : List DNode} {n : DNode} {post : List DNode}
    (h : g.rewrite pre n post ≠ .noMatch) : ∃ option boxes scores anchors b s a r0 r1 r2 r3 t0 t1 t2 t3,
      Matched pre n option boxes scores anchors b s a r0 r1 r2 r3 t0 t1 t2 t3 := by
  obtain ⟨results, op, args⟩ := n
  unfold DGraph.rewrite at h
  cases op with
  | dequantize => exact absurd rfl h
  | other _ => exact absurd rfl h
  | custom code option =>
    dsimp only at h
    split at h
    · exact absurd rfl h
    · rename_i hc
      split at h
      · rename_i boxes scores anchors r0 t0 r1 t1 r2 t2 r3 t3
        split at h
        · rename_i b s a h1 h2 h3
          split at h
          · rename_i h4
            have hc' : code = detectionCode := by simpa using hc
            exact ⟨option, boxes, scores, anchors, b, s, a, r0, r1, r2, r3, t0, t1, t2, t3, by rw [hc'], h1, h2, h3, h4⟩
          · exact absurd rfl h
        · exact absurd rfl h
      · exact absurd rfl h

/-- A rewriting: what it matched and what it built. -/
theorem rewrite_inv {g g' : DGraph} {pre : List DNode} {n : DNode} {post : List DNode} (h : g.rewrite pre n post = .ok g') :
    ∃ option boxes scores anchors b s a r0 r1 r2 r3 t0 t1 t2 t3 q sh sh2,
      Matched pre n option boxes scores anchors b s a r0 r1 r2 r3 t0 t1 t2 t3 ∧ g.typeOf s = some ⟨.quant q, sh⟩ ∧
      t2.shape = some sh2 ∧
      g' = { g with nodes := pre ++ ⟨[(r0, t0), (r1, t1), (g.fresh, ⟨.quant (scoresType q), some sh2⟩), (r3, t3)],
          .custom detectionCode option, [b, s, a]⟩ :: ⟨[(r2, t2)], .dequantize, [g.fresh]⟩ :: post } := by
  obtain ⟨option, boxes, scores, anchors, b, s, a, r0, r1, r2, r3, t0, t1, t2, t3, m⟩ :=
    matched_of (g := g) (pre := pre) (n := n) (post := post) (by rw [h]; simp)
  rw [rewrite_matched m] at h
  split at h
  · rename_i q sh ht
    split at h
    · rename_i u0 u1 u2 u3 e0 e1 e2 e3
      obtain ⟨x0, x1, x2, x3⟩ := m.elems
      obtain ⟨s0, y0, rfl⟩ := Option.map_eq_some_iff.1 e0
      obtain ⟨s1, y1, rfl⟩ := Option.map_eq_some_iff.1 e1
      obtain ⟨s2, y2, rfl⟩ := Option.map_eq_some_iff.1 e2
      obtain ⟨s3, y3, rfl⟩ := Option.map_eq_some_iff.1 e3
      have z0 : (⟨.int 32, some s0⟩ : TTy) = t0 := by rw [← x0, ← y0]
      have z1 : (⟨.int 32, some s1⟩ : TTy) = t1 := by rw [← x1, ← y1]
      have z3 : (⟨.int 32, some s3⟩ : TTy) = t3 := by rw [← x3, ← y3]
      refine ⟨option, boxes, scores, anchors, b, s, a, r0, r1, r2, r3, t0, t1, t2, t3, q, sh, s2, m, ht, y2, ?_⟩
      rw [← Outcome.ok.inj h, z0, z1, z3]
      simp
    · exact absurd h (by simp)
  · exact absurd h (by simp)

theorem definer_spec {l : List DNode} {x : Nat} {n : DNode} (h : definer l x = some n) :
    n ∈ l ∧ x ∈ n.results.map (·.1) := by
  have h1 := List.mem_of_find?_eq_some h
  have h2 := List.find?_some h
  simp only [List.any_eq_true, beq_iff_eq] at h2
  obtain ⟨r, hr, rfl⟩ := h2
  exact ⟨h1, List.mem_map_of_mem hr⟩

theorem dequantized_spec {l : List DNode} {x y : Nat} (h : dequantized l x = some y) :
    ∃ rs, ⟨rs, .dequantize, [y]⟩ ∈ l ∧ x ∈ rs.map (·.1) := by
  unfold dequantized at h
  split at h
  · rename_i rs y' e
    obtain rfl := Option.some.inj h
    exact ⟨rs, definer_spec e⟩
  · exact absurd h (by simp)

/-- A dequantized value: the real numbers of its operand. -/
theorem dequantized_val {M : Meaning} {g : DGraph} {E : DEnv} {l : List DNode} (hl : ∀ n ∈ l, n.Holds M g.typeOf E) {x y : Nat}
    (h : dequantized l x = some y) : ∃ t v r, g.typeOf y = some t ∧ E y = some v ∧ realsOf t v = some r ∧ E x = some (.f r) := by
  obtain ⟨rs, hm, hx⟩ := dequantized_spec h
  obtain ⟨targs, vals, res, a1, a2, a3, a4, a5⟩ := hl _ hm
  cases h1 : g.typeOf y with
  | none => simp [h1] at a1
  | some t =>
    cases h2 : E y with
    | none => simp [h2] at a2
    | some v =>
      simp only [List.mapM_cons, h1, List.mapM_nil, Option.pure_def, Option.bind_eq_bind, Option.bind_some,
        Option.some.injEq] at a1
      simp only [List.mapM_cons, h2, List.mapM_nil, Option.pure_def, Option.bind_eq_bind, Option.bind_some,
        Option.some.injEq] at a2
      subst a1 a2
      simp only [Meaning.run, Option.map_eq_some_iff] at a3
      obtain ⟨r, h3, rfl⟩ := a3
      refine ⟨t, v, r, rfl, rfl, h3, ?_⟩
      obtain ⟨p, hp, rfl⟩ := List.mem_map.1 hx
      have hlen := a4.1
      dsimp only at hlen a5 hp
      match rs, hlen with
      | [p'], _ =>
        simp only [List.map_cons, List.map_nil, List.cons.injEq, and_true] at a5
        simp only [List.mem_singleton] at hp
        rw [hp]
        exact a5

/-- A number of an int8 tensor is stored as it is. -/
theorem store_int8 {q : QType} {v : Int} (hs : q.signed = true) (hb : q.bits = 8) (h : q.range.1 ≤ v ∧ v ≤ q.range.2) :
    (scoresType q).store v = v := by
  simp only [QType.range, hs, hb, if_true] at h
  simp only [QType.store, QType.range, scoresType, if_true]
  norm_num at h ⊢
  omega

theorem idx_reals (q : QType) (l : List Int) (hs : q.signed = true) (hb : q.bits = 8)
    (h : ∀ v ∈ l, q.range.1 ≤ v ∧ v ≤ q.range.2) : ∀ (idx : List Nat) (rs : List Rat),
    (idx.mapM fun k => (l.map q.real)[k]?) = some rs →
    ∃ vs, (idx.mapM fun k => (l[k]?).map (scoresType q).store) = some vs ∧ vs.map (scoresType q).real = rs ∧
      ∀ v ∈ vs, (scoresType q).range.1 ≤ v ∧ v ≤ (scoresType q).range.2 := by
  intro idx
  induction idx with
  | nil => intro rs h; exact ⟨[], rfl, by simpa using h, by simp⟩
  | cons k idx ih =>
    intro rs hr
    rw [List.mapM_cons] at hr
    cases hk : l[k]? with
    | none => simp [hk] at hr
    | some v =>
      cases hm : (idx.mapM fun k => (l.map q.real)[k]?) with
      | none => rw [hm] at hr; simp at hr
      | some rs' =>
        rw [hm] at hr
        obtain ⟨vs, e1, e2, e3⟩ := ih rs' hm
        have hv := h v (List.mem_of_getElem? hk)
        have hst := store_int8 hs hb hv
        refine ⟨v :: vs, ?_, ?_, ?_⟩
        · rw [List.mapM_cons, hk, e1]
          simp [hst]
        · simp only [List.getElem?_map, hk, Option.map_some, Option.bind_eq_bind, Option.bind_some, Option.pure_def,
            Option.some.injEq] at hr
          rw [← hr, List.map_cons, e2]
          rfl
        · intro w hw
          rcases List.mem_cons.1 hw with rfl | hw
          · simpa [QType.range, scoresType, hs, hb] using hv
          · exact e3 w hw

end Verif.Det

namespace Verif.Det

theorem typeOf_some {g : DGraph} (hg : g.Ssa) (x : Nat) (t : TTy) : g.typeOf x = some t ↔ (x, t) ∈ g.values :=
  lookup_iff hg.nodup x t

theorem args_mem {g : DGraph} (hg : g.Ssa) {n : DNode} (hn : n ∈ g.nodes) {x : Nat} (hx : x ∈ n.args) :
    x ∈ g.values.map (·.1) := by
  obtain ⟨pre, post, e⟩ := List.append_of_mem hn
  have := hg.args pre n post e x hx
  obtain ⟨r, hr, rfl⟩ := List.mem_map.1 this
  refine List.mem_map_of_mem ?_
  rw [DGraph.values, e]
  simp only [List.mem_append, List.flatMap_append, List.flatMap_cons] at hr ⊢
  rcases hr with hr | hr
  · exact Or.inl hr
  · exact Or.inr (Or.inl hr)

theorem results_mem {g : DGraph} {n : DNode} (hn : n ∈ g.nodes) {r : Nat × TTy} (hr : r ∈ n.results) : r ∈ g.values :=
  List.mem_append_right _ (List.mem_flatMap.2 ⟨n, hn, hr⟩)

/-- Well-formedness and types after a rewriting. -/
theorem rewrite_ssa {g : DGraph} (hg : g.Ssa) {pre post : List DNode} {option : List Nat}
    {boxes scores anchors b s a r0 r1 r2 r3 : Nat} {t0 t1 t2 t3 u : TTy}
    (he : g.nodes = pre ++ ⟨[(r0, t0), (r1, t1), (r2, t2), (r3, t3)], .custom detectionCode option,
      [boxes, scores, anchors]⟩ :: post)
    (hb : dequantized pre boxes = some b) (hs : dequantized pre scores = some s) (ha : dequantized pre anchors = some a) :
    let g' : DGraph := { g with nodes := pre ++ ⟨[(r0, t0), (r1, t1), (g.fresh, u), (r3, t3)], .custom detectionCode option,
      [b, s, a]⟩ :: ⟨[(r2, t2)], .dequantize, [g.fresh]⟩ :: post }
    g'.Ssa ∧ (∀ x, x ≠ g.fresh → g'.typeOf x = g.typeOf x) ∧ g'.typeOf g.fresh = some u := by
  intro g'
  have hf := fresh_not_mem g
  obtain ⟨n1, n2, n3⟩ := (ssa_iff g).1 hg
  have hnv : g.values.map (·.1) = g.params.map (·.1) ++ (names pre ++ ([r0, r1, r2, r3] ++ names post)) := by
    rw [values_names, he, names_append, names_cons]
    rfl
  have hnames' : g'.params.map (·.1) ++ names g'.nodes =
      g.params.map (·.1) ++ (names pre ++ ([r0, r1, g.fresh, r3] ++ ([r2] ++ names post))) := by
    show g.params.map (·.1) ++ names (pre ++ _ :: _ :: post) = _
    rw [names_append, names_cons, names_cons]
    rfl
  have hperm : (g'.params.map (·.1) ++ names g'.nodes).Perm (g.fresh :: g.values.map (·.1)) := by
    rw [hnames', hnv, List.perm_iff_count]
    intro x
    simp only [List.count_append, List.count_cons, List.count_nil]
    omega
  have hnd : (g'.params.map (·.1) ++ names g'.nodes).Nodup :=
    hperm.nodup_iff.2 (List.nodup_cons.2 ⟨hf, hg.nodup⟩)
  have hvals : ∀ x t, (x, t) ∈ g'.values ↔ (x, t) = (g.fresh, u) ∨ (x, t) ∈ g.values := by
    intro x t
    show (x, t) ∈ g.params ++ (pre ++ _ :: _ :: post).flatMap (·.results) ↔ _ ∨ (x, t) ∈ g.params ++ g.nodes.flatMap (·.results)
    rw [he]
    simp only [List.flatMap_append, List.flatMap_cons, List.mem_append, List.mem_cons, List.not_mem_nil, or_false]
    tauto
  have hssa : g'.Ssa := by
    refine (ssa_iff g').2 ⟨hnd, ?_, ?_⟩
    · show Scoped (g.params.map (·.1)) (pre ++ _ :: _ :: post)
      rw [he, scoped_append] at n2
      rw [scoped_append]
      have hpre : ∀ {x y}, dequantized pre x = some y → y ∈ g.params.map (·.1) ++ names pre := by
        intro x y h
        obtain ⟨rs, hm, _⟩ := dequantized_spec h
        obtain ⟨p1, p2, e⟩ := List.append_of_mem hm
        have := (scoped_iff _ _).1 n2.1 p1 _ p2 e y (by simp)
        rcases List.mem_append.1 this with h | h
        · exact List.mem_append_left _ h
        · refine List.mem_append_right _ ?_
          rw [e, names_append]
          exact List.mem_append_left _ h
      refine ⟨n2.1, ?_, ?_, ?_⟩
      · intro x hx
        simp only [List.mem_cons, List.not_mem_nil, or_false] at hx
        rcases hx with rfl | rfl | rfl
        · exact hpre hb
        · exact hpre hs
        · exact hpre ha
      · intro x hx
        simp only [List.mem_cons, List.not_mem_nil, or_false] at hx
        simp [hx]
      · refine scoped_mono _ _ _ ?_ n2.2.2
        intro x hx
        simp only [List.mem_append, List.map_cons, List.map_nil, List.mem_cons, List.not_mem_nil, or_false] at hx ⊢
        tauto
    · intro x hx
      rw [hperm.mem_iff, List.mem_cons]
      exact Or.inr (hg.outs x hx)
  refine ⟨hssa, ?_, ?_⟩
  · intro x hx
    refine lookup_congr hssa.nodup hg.nodup x fun t => ?_
    rw [hvals]
    simp [hx]
  · rw [typeOf_some hssa, hvals]
    exact Or.inl rfl

theorem erase_ssa {g : DGraph} (hg : g.Ssa) {pre post : List DNode} {n : DNode} (he : g.nodes = pre ++ n :: post)
    (hu : ∀ r ∈ n.results, g.used r.1 = false) :
    let g' : DGraph := { g with nodes := pre ++ post }
    g'.Ssa ∧ ∀ x, x ∉ n.results.map (·.1) → g'.typeOf x = g.typeOf x := by
  intro g'
  obtain ⟨n1, n2, n3⟩ := (ssa_iff g).1 hg
  have hu' : ∀ x ∈ n.results.map (·.1), x ∉ g.outs ∧ ∀ m ∈ g.nodes, x ∉ m.args := by
    intro x hx
    obtain ⟨r, hr, rfl⟩ := List.mem_map.1 hx
    have := hu r hr
    simp only [DGraph.used, Bool.or_eq_false_iff, List.contains_eq_mem, decide_eq_false_iff_not, List.any_eq_false,
      decide_eq_true_eq] at this
    exact this
  have hnd : (g'.params.map (·.1) ++ names g'.nodes).Nodup := by
    refine List.Nodup.sublist ?_ n1
    show (g.params.map (·.1) ++ names (pre ++ post)).Sublist _
    rw [he, names_append, names_append, names_cons]
    refine List.Sublist.append (List.Sublist.refl _) (List.Sublist.append (List.Sublist.refl _) ?_)
    exact List.sublist_append_right _ _
  have hvals : ∀ x, x ∉ n.results.map (·.1) → ∀ t, (x, t) ∈ g'.values ↔ (x, t) ∈ g.values := by
    intro x hx t
    have hx' : (x, t) ∉ n.results := fun h => hx (List.mem_map.2 ⟨_, h, rfl⟩)
    show (x, t) ∈ g.params ++ (pre ++ post).flatMap (·.results) ↔ (x, t) ∈ g.params ++ g.nodes.flatMap (·.results)
    rw [he]
    simp only [List.flatMap_append, List.flatMap_cons, List.mem_append]
    tauto
  have hssa : g'.Ssa := by
    refine (ssa_iff g').2 ⟨hnd, ?_, ?_⟩
    · show Scoped (g.params.map (·.1)) (pre ++ post)
      rw [he, scoped_append] at n2
      rw [scoped_append]
      refine ⟨n2.1, scoped_remove _ _ _ ?_ n2.2.2⟩
      rintro x hx ⟨m, hm, hxm⟩
      rcases List.mem_append.1 hx with hx | hx
      · exact hx
      · exact absurd hxm ((hu' x hx).2 m (by rw [he]; simp [hm]))
    · intro x hx
      have hx1 := n3 x hx
      have hx2 : x ∉ n.results.map (·.1) := fun h => (hu' x h).1 hx
      show x ∈ g.params.map (·.1) ++ names (pre ++ post)
      rw [he, names_append, names_cons] at hx1
      rw [names_append]
      simp only [List.mem_append] at hx1 ⊢
      tauto
  exact ⟨hssa, fun x hx => lookup_congr hssa.nodup hg.nodup x (hvals x hx)⟩

/-- The scores a detection operator selects among int8 scores, dequantized. -/
theorem scores_dequantized {q : QType} {sh : Option (List Nat)} {v : DVal} {rs : List Rat} {t2 : TTy} {idx : List Nat} {sc : DVal}
    (hs : q.signed = true) (hb : q.bits = 8) (hv : TTy.has ⟨.quant q, sh⟩ v = true)
    (hr : realsOf ⟨.quant q, sh⟩ v = some rs) (ht : t2.elem = .f32) (h : scoresOf t2 idx (.f rs) = some sc) (sh2 : List Nat) :
    ∃ w r, scoresOf ⟨.quant (scoresType q), some sh2⟩ idx v = some w ∧
      TTy.has ⟨.quant (scoresType q), some sh2⟩ w = true ∧
      realsOf ⟨.quant (scoresType q), some sh2⟩ w = some r ∧ sc = .f r := by
  cases v with
  | f l => simp [realsOf] at hr
  | i l => simp [realsOf] at hr
  | q l =>
    simp only [realsOf, Option.some.injEq] at hr
    subst hr
    simp only [scoresOf, ht, if_true, Option.map_eq_some_iff] at h
    obtain ⟨r, h1, rfl⟩ := h
    simp only [TTy.has, List.all_eq_true, decide_eq_true_eq] at hv
    obtain ⟨vs, e1, e2, e3⟩ := idx_reals q l hs hb hv idx r h1
    refine ⟨.q vs, r, ?_, ?_, ?_, rfl⟩
    · simp only [scoresOf, e1, Option.map_some]
    · simp only [TTy.has, List.all_eq_true, decide_eq_true_eq]
      exact e3
    · simp only [realsOf, e2]

end Verif.Det

namespace Verif.Det

/-- The new operator and the new dequantization compute what the old operator did. -/
theorem rewrite_holds {M : Meaning} {g g' : DGraph} {pre post : List DNode} {n : DNode} (hg : g.Ssa) (hi : g.Int8Scores)
    (he : g.nodes = pre ++ n :: post) (h : g.rewrite pre n post = .ok g') {ins vs : List DVal} (hv : g.eval M ins = some vs) :
    g'.eval M ins = some vs := by
  obtain ⟨option, boxes, scores, anchors, b, s, a, r0, r1, r2, r3, t0, t1, t2, t3, q, sh, sh2, m, hq, hsh, rfl⟩ := rewrite_inv h
  obtain ⟨rfl, hb, hs, ha, x0, x1, x2, x3⟩ := m
  obtain ⟨hg', ty1, ty2⟩ := rewrite_ssa (u := ⟨.quant (scoresType q), some sh2⟩) hg he hb hs ha
  obtain ⟨E, e1, e2, e3, e4⟩ := (eval_iff M hg ins vs).1 hv
  have hpre : ∀ k ∈ pre, k.Holds M g.typeOf E := fun k hk => e3 k (by rw [he]; simp [hk])
  have hmem : ∀ k ∈ pre, k ∈ g.nodes := fun k hk => by rw [he]; simp [hk]
  have hnm : (⟨[(r0, t0), (r1, t1), (r2, t2), (r3, t3)], .custom detectionCode option, [boxes, scores, anchors]⟩ : DNode) ∈
    g.nodes := by rw [he]; simp
  obtain ⟨tb, vb, rb, b1, b2, b3, b4⟩ := dequantized_val hpre hb
  obtain ⟨ts, vsc, rsc, s1, s2, s3, s4⟩ := dequantized_val hpre hs
  obtain ⟨ta, va, ra, a1, a2, a3, a4⟩ := dequantized_val hpre ha
  obtain ⟨targs, vals, res, f1, f2, f3, f4, f5⟩ := e3 _ hnm
  -- the scores have their type
  have hts : ts = ⟨.quant q, sh⟩ := by rw [hq] at s1; exact (Option.some.inj s1).symm
  subst hts
  obtain ⟨v', w1, w2⟩ := typed e1 e2 e3 (s, ⟨.quant q, sh⟩) ((typeOf_some hg _ _).1 hq)
  rw [s2] at w1
  obtain rfl := Option.some.inj w1
  obtain ⟨rs', hd, hd'⟩ := dequantized_spec hs
  obtain ⟨q1, q2⟩ := hi _ option boxes scores anchors (r2, t2) hnm rfl x2 rs' s q sh (hmem _ hd) hd' hq
  -- what the old operator computed
  dsimp only at f1 f2 f3 f4 f5
  simp only [List.mapM_cons, b4, s4, a4, List.mapM_nil, Option.pure_def, Option.bind_eq_bind, Option.bind_some,
    Option.some.injEq] at f2
  subst f2
  obtain ⟨tb', ts', ta', rfl⟩ : ∃ u1 u2 u3, targs = [u1, u2, u3] := by
    cases c1 : g.typeOf boxes with
    | none => simp [c1] at f1
    | some u1 =>
      cases c2 : g.typeOf scores with
      | none => simp [c1, c2] at f1
      | some u2 =>
        cases c3 : g.typeOf anchors with
        | none => simp [c1, c2, c3] at f1
        | some u3 =>
          simp [c1, c2, c3] at f1
          exact ⟨u1, u2, u3, f1.symm⟩
  simp only [Meaning.run, if_true, Detector.run, List.map_cons, List.map_nil, realsOf, Option.bind_eq_bind] at f3
  by_cases g1 : tb'.elem = .f32
  swap
  · simp [g1] at f3
  by_cases g2 : ts'.elem = .f32
  swap
  · simp [g1, g2] at f3
  by_cases g3 : ta'.elem = .f32
  swap
  · simp [g1, g2, g3] at f3
  simp only [g1, g2, g3, if_true, Option.bind_some] at f3
  cases hsel : M.detector.select option rb rsc ra with
  | none => simp [hsel] at f3
  | some p =>
    obtain ⟨ob, oc, idx, on⟩ := p
    simp only [hsel, Option.bind_some] at f3
    cases hsc : scoresOf t2 idx (.f rsc) with
    | none => simp [hsc] at f3
    | some sc =>
      simp only [hsc, Option.bind_some, Option.some.injEq] at f3
      subst f3
      obtain ⟨w, r, k1, k2, k3, rfl⟩ := scores_dequantized q1 q2 w2 s3 x2 hsc sh2
      simp only [List.map_cons, List.map_nil, List.cons.injEq, and_true] at f5
      obtain ⟨z0, z1, z2, z3⟩ := f5
      have hf := fresh_not_mem g
      have hne : ∀ x ∈ g.values.map (·.1), x ≠ g.fresh := fun x hx e => hf (e ▸ hx)
      let E' : DEnv := fun x => if x = g.fresh then some w else E x
      have hE : ∀ x, x ≠ g.fresh → E' x = E x := fun x hx => if_neg hx
      have hEf : E' g.fresh = some w := if_pos rfl
      have hold : ∀ k ∈ g.nodes, k.Holds M g.typeOf E' ∧ k.Holds M
          (DGraph.typeOf { g with nodes := pre ++ ⟨[(r0, t0), (r1, t1), (g.fresh, ⟨.quant (scoresType q), some sh2⟩), (r3, t3)],
            .custom detectionCode option, [b, s, a]⟩ :: ⟨[(r2, t2)], .dequantize, [g.fresh]⟩ :: post }) E' := by
        intro k hk
        have c1 : ∀ x ∈ k.args, x ≠ g.fresh := fun x hx => hne x (args_mem hg hk hx)
        have c2 : ∀ x ∈ k.results.map (·.1), x ≠ g.fresh := by
          intro x hx
          obtain ⟨r, hr, rfl⟩ := List.mem_map.1 hx
          exact hne _ (List.mem_map_of_mem (results_mem hk hr))
        exact ⟨Holds.congr (e3 k hk) (fun _ _ => rfl) (fun x hx => hE x (c1 x hx)) fun x hx => hE x (c2 x hx),
          Holds.congr (e3 k hk) (fun x hx => ty1 x (c1 x hx)) (fun x hx => hE x (c1 x hx)) fun x hx => hE x (c2 x hx)⟩
      have hval : ∀ {x : Nat} {t : TTy}, g.typeOf x = some t → x ≠ g.fresh := by
        intro x t hx
        exact hne x (List.mem_map_of_mem ((typeOf_some hg x t).1 hx))
      have hres : ∀ {x : Nat} {t : TTy}, (x, t) ∈ [(r0, t0), (r1, t1), (r2, t2), (r3, t3)] → x ≠ g.fresh := by
        intro x t hx
        exact hne x (List.mem_map_of_mem (results_mem hnm hx))
      have n0 : r0 ≠ g.fresh := hres (t := t0) (by simp)
      have n1 : r1 ≠ g.fresh := hres (t := t1) (by simp)
      have n2 : r2 ≠ g.fresh := hres (t := t2) (by simp)
      have n3 : r3 ≠ g.fresh := hres (t := t3) (by simp)
      refine (eval_iff M hg' ins vs).2 ⟨E', ?_, e2, ?_, ?_⟩
      · rw [← e1]
        refine List.map_congr_left fun r hr => hE _ (hne _ ?_)
        exact List.mem_map_of_mem (List.mem_append_left _ hr)
      · intro k hk
        replace hk : k ∈ pre ++ _ :: _ :: post := hk
        simp only [List.mem_append, List.mem_cons] at hk
        rcases hk with hk | rfl | rfl | hk
        · exact (hold k (by rw [he]; simp [hk])).2
        · refine ⟨[tb, ⟨.quant q, sh⟩, ta], [vb, vsc, va], [.i ob, .i oc, w, .i on], ?_, ?_, ?_, ?_, ?_⟩
          · simp only [List.mapM_cons, ty1 _ (hval b1), ty1 _ (hval s1), ty1 _ (hval a1), b1, s1, a1]
            rfl
          · simp only [List.mapM_cons, hE _ (hval b1), hE _ (hval s1), hE _ (hval a1), b2, s2, a2]
            rfl
          · simp only [Meaning.run, if_true, Detector.run, List.map_cons, List.map_nil, Option.bind_eq_bind, b3, s3, a3,
              Option.bind_some, hsel, k1]
          · simp only [List.length_cons, List.length_nil, List.zipWith_cons_cons, List.zipWith_nil_left, List.all_cons, id,
              List.all_nil, Bool.and_true, true_and, Bool.and_eq_true] at f4 ⊢
            exact ⟨f4.1, f4.2.1, k2, f4.2.2.2⟩
          · simp only [List.map_cons, List.map_nil, hE _ n0, hE _ n1, hE _ n3, hEf, z0, z1, z3]
        · refine ⟨[⟨.quant (scoresType q), some sh2⟩], [w], [.f r], ?_, ?_, ?_, ?_, ?_⟩
          · simp only [List.mapM_cons, ty2]
            rfl
          · simp only [List.mapM_cons, hEf]
            rfl
          · simp only [Meaning.run, k3, Option.map_some]
          · simp [TTy.has, x2]
          · simp only [List.map_cons, List.map_nil, hE _ n2, z2]
        · exact (hold k (by rw [he]; simp [hk])).2
      · rw [← e4]
        exact mapM_congr' _ fun x hx => hE x (hne x (hg.outs x hx))

theorem erase_holds {M : Meaning} {g : DGraph} {pre post : List DNode} {n : DNode} (hg : g.Ssa)
    (he : g.nodes = pre ++ n :: post) (hu : ∀ r ∈ n.results, g.used r.1 = false) {ins vs : List DVal}
    (hv : g.eval M ins = some vs) : DGraph.eval M { g with nodes := pre ++ post } ins = some vs := by
  obtain ⟨hg', ty⟩ := erase_ssa hg he hu
  obtain ⟨E, e1, e2, e3, e4⟩ := (eval_iff M hg ins vs).1 hv
  refine (eval_iff M hg' ins vs).2 ⟨E, e1, e2, ?_, e4⟩
  intro k hk
  replace hk : k ∈ pre ++ post := hk
  have hk' : k ∈ g.nodes := by
    rw [he]
    simp only [List.mem_append, List.mem_cons] at hk ⊢
    tauto
  refine Holds.congr (e3 k hk') (fun x hx => ty x fun hr => ?_) (fun _ _ => rfl) fun _ _ => rfl
  obtain ⟨r, hr2, rfl⟩ := List.mem_map.1 hr
  have := hu r hr2
  simp only [DGraph.used, Bool.or_eq_false_iff, List.contains_eq_mem, decide_eq_false_iff_not, List.any_eq_false,
    decide_eq_true_eq] at this
  exact this.2 k hk' hx

/-- A step keeps well-formedness, and the types of the values that are still used. -/
theorem step_ssa {g g' : DGraph} (h : DStep g g') (hg : g.Ssa) : g'.Ssa ∧ g'.params = g.params ∧ g'.outs = g.outs ∧
    ∀ x ∈ g.outs, g'.typeOf x = g.typeOf x := by
  cases h with
  | rewrite he h =>
    obtain ⟨option, boxes, scores, anchors, b, s, a, r0, r1, r2, r3, t0, t1, t2, t3, q, sh, sh2, m, hq, hsh, rfl⟩ := rewrite_inv h
    obtain ⟨rfl, hb, hs, ha, x0, x1, x2, x3⟩ := m
    obtain ⟨hg', ty1, ty2⟩ := rewrite_ssa (u := ⟨.quant (scoresType q), some sh2⟩) hg he hb hs ha
    refine ⟨hg', rfl, rfl, fun x hx => ty1 x fun e => fresh_not_mem g (e ▸ hg.outs x hx)⟩
  | erase he ho hu =>
    obtain ⟨hg', ty⟩ := erase_ssa hg he hu
    refine ⟨hg', rfl, rfl, fun x hx => ty x fun hr => ?_⟩
    obtain ⟨r, hr2, rfl⟩ := List.mem_map.1 hr
    have := hu r hr2
    simp only [DGraph.used, Bool.or_eq_false_iff, List.contains_eq_mem, decide_eq_false_iff_not] at this
    exact this.1 hx

theorem step_int8 {g g' : DGraph} (h : DStep g g') (hg : g.Ssa) (hi : g.Int8Scores) : g'.Int8Scores := by
  cases h with
  | @rewrite _ pre post n he h =>
    obtain ⟨option, boxes, scores, anchors, b, s, a, r0, r1, r2, r3, t0, t1, t2, t3, q, sh, sh2, m, hq, hsh, rfl⟩ := rewrite_inv h
    obtain ⟨rfl, hb, hs, ha, x0, x1, x2, x3⟩ := m
    obtain ⟨hg', ty1, ty2⟩ := rewrite_ssa (u := ⟨.quant (scoresType q), some sh2⟩) hg he hb hs ha
    intro rs o bx sc an r hn hr hf rs' y q' sh' hd hsc hty
    simp only [List.mem_append, List.mem_cons, DNode.mk.injEq, reduceCtorEq, false_and, and_false, false_or] at hn
    have hn' : ⟨rs, .custom detectionCode o, [bx, sc, an]⟩ ∈ g.nodes := by
      rw [he]
      rcases hn with hn | ⟨rfl, _, _⟩ | hn
      · simp [hn]
      · simp only [List.getElem?_cons_succ, List.getElem?_cons_zero, Option.some.injEq] at hr
        rw [← hr] at hf
        simp at hf
      · simp [hn]
    simp only [List.mem_append, List.mem_cons, DNode.mk.injEq, reduceCtorEq, false_and, and_false, false_or] at hd
    rcases hd with hd | ⟨rfl, _, hy⟩ | hd
    · have hd' : ⟨rs', .dequantize, [y]⟩ ∈ g.nodes := by rw [he]; simp [hd]
      rw [ty1 y fun e => fresh_not_mem g (e ▸ args_mem hg hd' (by simp))] at hty
      exact hi rs o bx sc an r hn' hr hf rs' y q' sh' hd' hsc hty
    · simp only [List.cons.injEq, and_true] at hy
      rw [hy, ty2] at hty
      simp only [Option.some.injEq, TTy.mk.injEq, ETy.quant.injEq] at hty
      rw [← hty.1]
      exact ⟨rfl, rfl⟩
    · have hd' : ⟨rs', .dequantize, [y]⟩ ∈ g.nodes := by rw [he]; simp [hd]
      rw [ty1 y fun e => fresh_not_mem g (e ▸ args_mem hg hd' (by simp))] at hty
      exact hi rs o bx sc an r hn' hr hf rs' y q' sh' hd' hsc hty
  | @erase pre post n he ho hu =>
    obtain ⟨hg', ty⟩ := erase_ssa hg he hu
    intro rs o bx sc an r hn hr hf rs' y q' sh' hd hsc hty
    have sub : ∀ k ∈ pre ++ post, k ∈ g.nodes := by
      intro k hk
      rw [he]
      simp only [List.mem_append, List.mem_cons] at hk ⊢
      tauto
    rw [ty y fun hr => ?_] at hty
    · exact hi rs o bx sc an r (sub _ hn) hr hf rs' y q' sh' (sub _ hd) hsc hty
    · obtain ⟨r, hr2, rfl⟩ := List.mem_map.1 hr
      have := hu r hr2
      simp only [DGraph.used, Bool.or_eq_false_iff, List.contains_eq_mem, decide_eq_false_iff_not, List.any_eq_false,
        decide_eq_true_eq] at this
      exact this.2 _ (sub _ hd) (by simp)

end Verif.Det
