import Verif.Spec.DetectionRel
import Mathlib.Data.List.Nodup
import Mathlib.Data.List.Perm.Basic
import Mathlib.Tactic.Ring

/-! Lemmas for C70. -/

namespace Verif.Det

/-! ### Names, types -/

theorem lookup_iff {l : List (Nat × TTy)} (h : (l.map (·.1)).Nodup) (x : Nat) (t : TTy) :
    l.lookup x = some t ↔ (x, t) ∈ l := by
  induction l with
  | nil => simp
  | cons p l ih =>
    obtain ⟨y, u⟩ := p
    simp only [List.map_cons, List.nodup_cons, List.mem_map] at h
    obtain ⟨h1, h2⟩ := h
    by_cases e : x = y
    · subst e
      simp only [List.lookup_cons, beq_self_eq_true, Option.some.injEq, List.mem_cons, Prod.mk.injEq, true_and]
      constructor
      · rintro rfl
        exact Or.inl rfl
      · rintro (e | e)
        · exact e.symm
        · exact absurd ⟨(x, t), e, rfl⟩ h1
    · have e' : (x == y) = false := by simp [e]
      simp only [List.lookup_cons, e', ih h2, List.mem_cons, Prod.mk.injEq]
      constructor
      · exact Or.inr
      · rintro (⟨a, _⟩ | a)
        · exact absurd a e
        · exact a

/-- The types of two functions agree where their values agree. -/
theorem lookup_congr {l l' : List (Nat × TTy)} (h : (l.map (·.1)).Nodup) (h' : (l'.map (·.1)).Nodup) (x : Nat)
    (e : ∀ t, (x, t) ∈ l ↔ (x, t) ∈ l') : l.lookup x = l'.lookup x := by
  apply Option.ext
  intro t
  rw [lookup_iff h, lookup_iff h', e]

theorem foldl_max_le (l : List Nat) : ∀ a, a ≤ l.foldl max a ∧ ∀ x ∈ l, x ≤ l.foldl max a := by
  induction l with
  | nil => intro a; simp
  | cons y l ih =>
    intro a
    obtain ⟨h1, h2⟩ := ih (max a y)
    simp only [List.foldl_cons, List.mem_cons, forall_eq_or_imp]
    refine ⟨by omega, by omega, h2⟩

theorem fresh_not_mem (g : DGraph) : g.fresh ∉ g.values.map (·.1) := by
  intro h
  have := (foldl_max_le (g.values.map (·.1)) 0).2 _ h
  unfold DGraph.fresh at this
  omega

/-- The names of the results of some operations. -/
def names (l : List DNode) : List Nat := (l.flatMap (·.results)).map (·.1)

theorem names_append (l l' : List DNode) : names (l ++ l') = names l ++ names l' := by
  simp [names]

theorem names_cons (n : DNode) (l : List DNode) : names (n :: l) = n.results.map (·.1) ++ names l := by
  simp [names]

/-- Operands are defined before they are used. -/
def Scoped : List Nat → List DNode → Prop
  | _, [] => True
  | D, n :: l => (∀ x ∈ n.args, x ∈ D) ∧ Scoped (D ++ n.results.map (·.1)) l

theorem scoped_append (l l' : List DNode) : ∀ D, Scoped D (l ++ l') ↔ Scoped D l ∧ Scoped (D ++ names l) l' := by
  induction l with
  | nil => intro D; simp [Scoped, names]
  | cons n l ih =>
    intro D
    simp only [List.cons_append, Scoped, ih, names_cons, List.append_assoc, and_assoc]

theorem scoped_mono (l : List DNode) : ∀ D D', (∀ x ∈ D, x ∈ D') → Scoped D l → Scoped D' l := by
  induction l with
  | nil => intro _ _ _ _; trivial
  | cons n l ih =>
    intro D D' h hs
    refine ⟨fun x hx => h x (hs.1 x hx), ih _ _ ?_ hs.2⟩
    intro x hx
    simp only [List.mem_append] at hx ⊢
    exact hx.imp (h x) id

/-- Operands that are not used can be forgotten. -/
theorem scoped_remove (l : List DNode) : ∀ D D', (∀ x ∈ D, (∃ n ∈ l, x ∈ n.args) → x ∈ D') → Scoped D l → Scoped D' l := by
  induction l with
  | nil => intro _ _ _ _; trivial
  | cons n l ih =>
    intro D D' h hs
    refine ⟨fun x hx => h x (hs.1 x hx) ⟨n, List.mem_cons_self, hx⟩, ih _ _ ?_ hs.2⟩
    rintro x hx ⟨m, hm, hxm⟩
    simp only [List.mem_append] at hx ⊢
    rcases hx with hx | hx
    · exact Or.inl (h x hx ⟨m, List.mem_cons_of_mem _ hm, hxm⟩)
    · exact Or.inr hx

theorem values_names (g : DGraph) : g.values.map (·.1) = g.params.map (·.1) ++ names g.nodes := by
  simp [DGraph.values, names]

theorem scoped_iff (l : List DNode) : ∀ D, Scoped D l ↔ ∀ pre n post, l = pre ++ n :: post → ∀ x ∈ n.args,
    x ∈ D ++ names pre := by
  induction l with
  | nil => intro D; simp [Scoped]
  | cons m l ih =>
    intro D
    simp only [Scoped, ih]
    constructor
    · rintro ⟨h1, h2⟩ pre n post e x hx
      cases pre with
      | nil =>
        simp only [List.nil_append, List.cons.injEq] at e
        obtain ⟨rfl, rfl⟩ := e
        exact List.mem_append_left _ (h1 x hx)
      | cons p pre =>
        simp only [List.cons_append, List.cons.injEq] at e
        obtain ⟨rfl, e⟩ := e
        have := h2 pre n post e x hx
        rw [names_cons]
        simpa [List.append_assoc] using this
    · intro h
      refine ⟨?_, ?_⟩
      · intro x hx
        have := h [] m l rfl x hx
        simpa [names] using this
      · intro pre n post e x hx
        have := h (m :: pre) n post (by rw [e]; rfl) x hx
        rw [names_cons] at this
        simpa [List.append_assoc] using this

theorem ssa_iff (g : DGraph) : g.Ssa ↔ (g.params.map (·.1) ++ names g.nodes).Nodup ∧
    Scoped (g.params.map (·.1)) g.nodes ∧ ∀ x ∈ g.outs, x ∈ g.params.map (·.1) ++ names g.nodes := by
  constructor
  · rintro ⟨h1, h2, h3⟩
    rw [values_names] at h1
    refine ⟨h1, (scoped_iff _ _).2 ?_, ?_⟩
    · intro pre n post e x hx
      have := h2 pre n post e x hx
      rwa [List.map_append] at this
    · intro x hx
      have := h3 x hx
      rwa [values_names] at this
  · rintro ⟨h1, h2, h3⟩
    refine ⟨by rwa [values_names], ?_, ?_⟩
    · intro pre n post e x hx
      have := (scoped_iff _ _).1 h2 pre n post e x hx
      rwa [List.map_append]
    · intro x hx
      rw [values_names]
      exact h3 x hx

/-! ### Solutions -/

/-- The equation of an operation. -/
def DNode.Holds (M : Meaning) (ty : Nat → Option TTy) (n : DNode) (E : DEnv) : Prop :=
  ∃ targs vals res, n.args.mapM ty = some targs ∧ n.args.mapM E = some vals ∧
    M.run n.op targs (n.results.map (·.2)) vals = some res ∧
    (res.length = n.results.length ∧ (List.zipWith (fun r v => r.2.has v) n.results res).all id) ∧
    n.results.map (fun r => E r.1) = res.map some

theorem bindAll_other (rs : List (Nat × TTy)) : ∀ (env : DEnv) (vs : List DVal) (x : Nat), x ∉ rs.map (·.1) →
    bindAll env rs vs x = env x := by
  induction rs with
  | nil => intro env vs x _; cases vs <;> rfl
  | cons r rs ih =>
    obtain ⟨y, t⟩ := r
    intro env vs x hx
    cases vs with
    | nil => rfl
    | cons v vs =>
      simp only [List.map_cons, List.mem_cons, not_or] at hx
      show bindAll _ rs vs x = env x
      rw [ih _ _ _ hx.2]
      simp [hx.1]

theorem bindAll_map (rs : List (Nat × TTy)) : ∀ (env : DEnv) (vs : List DVal), (rs.map (·.1)).Nodup → vs.length = rs.length →
    rs.map (fun r => bindAll env rs vs r.1) = vs.map some := by
  induction rs with
  | nil => intro env vs _ hl; cases vs <;> simp_all
  | cons r rs ih =>
    obtain ⟨y, t⟩ := r
    intro env vs hn hl
    cases vs with
    | nil => simp at hl
    | cons v vs =>
      simp only [List.map_cons, List.nodup_cons, List.length_cons, Nat.add_right_cancel_iff] at hn hl
      show bindAll (fun z => if z = y then some v else env z) rs vs y ::
        rs.map (fun r => bindAll (fun z => if z = y then some v else env z) rs vs r.1) = some v :: vs.map some
      rw [ih _ _ hn.2 hl, bindAll_other _ _ _ _ hn.1]
      simp

/-- An environment whose values at the results are the bound ones agrees with `bindAll`. -/
theorem bindAll_eq (rs : List (Nat × TTy)) : ∀ (env E : DEnv) (vs : List DVal), (rs.map (·.1)).Nodup →
    rs.map (fun r => E r.1) = vs.map some → ∀ x ∈ rs.map (·.1), bindAll env rs vs x = E x := by
  intro env E vs hn he x hx
  have hl : vs.length = rs.length := by
    have := congrArg List.length he
    simpa using this.symm
  have := bindAll_map rs env vs hn hl
  rw [← he] at this
  obtain ⟨r, hr, rfl⟩ := List.mem_map.1 hx
  exact (List.map_inj_left.1 this) r hr

theorem mapM_congr' {α β : Type} {f f' : α → Option β} : ∀ (l : List α), (∀ x ∈ l, f x = f' x) → l.mapM f = l.mapM f' := by
  intro l
  induction l with
  | nil => intro _; rfl
  | cons a l ih =>
    intro h
    rw [List.mapM_cons, List.mapM_cons, h a List.mem_cons_self, ih fun x hx => h x (List.mem_cons_of_mem _ hx)]

/-- The equation of an operation only depends on types of the operands and the values of its names. -/
theorem Holds.congr {M : Meaning} {ty ty' : Nat → Option TTy} {n : DNode} {E E' : DEnv} (h : n.Holds M ty E)
    (ht : ∀ x ∈ n.args, ty' x = ty x) (ha : ∀ x ∈ n.args, E' x = E x) (hr : ∀ x ∈ n.results.map (·.1), E' x = E x) :
    n.Holds M ty' E' := by
  obtain ⟨targs, vals, res, h1, h2, h3, h4, h5⟩ := h
  refine ⟨targs, vals, res, ?_, ?_, h3, h4, ?_⟩
  · rw [mapM_congr' _ ht, h1]
  · rw [mapM_congr' _ ha, h2]
  · rw [← h5]
    exact List.map_congr_left fun r hm => hr r.1 (List.mem_map_of_mem hm)

theorem run_some {M : Meaning} {ty : Nat → Option TTy} {n : DNode} {env E : DEnv} (h : n.run M ty env = some E) :
    ∃ targs vals res, n.args.mapM ty = some targs ∧ n.args.mapM env = some vals ∧
      M.run n.op targs (n.results.map (·.2)) vals = some res ∧
      (res.length = n.results.length ∧ (List.zipWith (fun r v => r.2.has v) n.results res).all id) ∧
      E = bindAll env n.results res := by
  unfold DNode.run at h
  cases h1 : n.args.mapM ty with
  | none => simp [h1] at h
  | some targs =>
    cases h2 : n.args.mapM env with
    | none => simp [h1, h2] at h
    | some vals =>
      cases h3 : M.run n.op targs (n.results.map (·.2)) vals with
      | none => simp [h1, h2, h3] at h
      | some res =>
        simp only [h1, h2, h3, Option.bind_eq_bind, Option.bind_some] at h
        split at h
        · rename_i hc
          exact ⟨targs, vals, res, rfl, rfl, h3, hc, (Option.some.inj h).symm⟩
        · exact absurd h (by simp)

theorem runAll_sound (M : Meaning) (ty : Nat → Option TTy) (l : List DNode) : ∀ (D : List Nat) (env E : DEnv),
    (D ++ names l).Nodup → Scoped D l → runAll M ty l env = some E →
    (∀ n ∈ l, n.Holds M ty E) ∧ ∀ x, x ∉ names l → E x = env x := by
  induction l with
  | nil =>
    intro D env E _ _ h
    simp only [runAll, Option.some.injEq] at h
    subst h
    simp
  | cons n l ih =>
    intro D env E hn hs h
    simp only [runAll] at h
    cases h1 : n.run M ty env with
    | none => rw [h1] at h; simp at h
    | some E1 =>
      rw [h1, Option.bind_some] at h
      rw [names_cons, ← List.append_assoc] at hn
      obtain ⟨hh, ho⟩ := ih _ _ _ hn hs.2 h
      obtain ⟨targs, vals, res, a1, a2, a3, a4, rfl⟩ := run_some h1
      have hn' := List.nodup_append.1 hn
      have hD := List.nodup_append.1 hn'.1
      have hlt : ∀ x ∈ D ++ n.results.map (·.1), x ∉ names l := fun x hx hx' => hn'.2.2 x hx x hx' rfl
      have hout : ∀ x, x ∉ names (n :: l) → E x = env x := by
        intro x hx
        rw [names_cons, List.mem_append, not_or] at hx
        rw [ho x hx.2, bindAll_other _ _ _ _ hx.1]
      refine ⟨?_, hout⟩
      intro m hm
      rcases List.mem_cons.1 hm with rfl | hm
      · refine ⟨targs, vals, res, a1, ?_, a3, a4, ?_⟩
        · rw [← a2]
          refine mapM_congr' _ fun x hx => hout x ?_
          rw [names_cons, List.mem_append, not_or]
          have hxD := hs.1 x hx
          exact ⟨fun hx' => hD.2.2 x hxD x hx' rfl, hlt x (List.mem_append_left _ hxD)⟩
        · rw [← bindAll_map m.results env res hD.2.1 a4.1]
          refine List.map_congr_left fun r hr => ho r.1 (hlt _ (List.mem_append_right _ (List.mem_map_of_mem hr)))
      · exact hh m hm

theorem runAll_complete (M : Meaning) (ty : Nat → Option TTy) (l : List DNode) : ∀ (D : List Nat) (env E : DEnv),
    (D ++ names l).Nodup → Scoped D l → (∀ n ∈ l, n.Holds M ty E) → (∀ x ∈ D, env x = E x) →
    ∃ E', runAll M ty l env = some E' ∧ ∀ x ∈ D ++ names l, E' x = E x := by
  induction l with
  | nil =>
    intro D env E _ _ _ he
    exact ⟨env, rfl, by simpa [names] using he⟩
  | cons n l ih =>
    intro D env E hn hs hh he
    rw [names_cons, ← List.append_assoc] at hn
    have hn' := List.nodup_append.1 hn
    have hD := List.nodup_append.1 hn'.1
    obtain ⟨targs, vals, res, a1, a2, a3, a4, a5⟩ := hh n List.mem_cons_self
    have h1 : n.run M ty env = some (bindAll env n.results res) := by
      unfold DNode.run
      rw [a1, mapM_congr' _ (fun x hx => he x (hs.1 x hx)), a2]
      simp only [Option.bind_eq_bind, Option.bind_some, a3]
      rw [if_pos a4]
    have he' : ∀ x ∈ D ++ n.results.map (·.1), bindAll env n.results res x = E x := by
      intro x hx
      by_cases hr : x ∈ n.results.map (·.1)
      · exact bindAll_eq _ _ _ _ hD.2.1 a5 x hr
      · rw [bindAll_other _ _ _ _ hr]
        rcases List.mem_append.1 hx with hx | hx
        · exact he x hx
        · exact absurd hx hr
    obtain ⟨E', r1, r2⟩ := ih _ _ E hn hs.2 (fun m hm => hh m (List.mem_cons_of_mem _ hm)) he'
    refine ⟨E', ?_, ?_⟩
    · show (n.run M ty env).bind _ = _
      rw [h1]
      exact r1
    · rw [names_cons, ← List.append_assoc]
      exact r2

/-- What a function computes, by its equations. -/
theorem eval_iff (M : Meaning) {g : DGraph} (hg : g.Ssa) (ins vs : List DVal) :
    g.eval M ins = some vs ↔ ∃ E : DEnv, g.params.map (fun r => E r.1) = ins.map some ∧
      (List.zipWith (fun r v => r.2.has v) g.params ins).all id ∧
      (∀ n ∈ g.nodes, n.Holds M g.typeOf E) ∧ g.outs.mapM E = some vs := by
  obtain ⟨h1, h2, h3⟩ := (ssa_iff g).1 hg
  have hp := (List.nodup_append.1 h1).1
  constructor
  · intro h
    unfold DGraph.eval at h
    split at h
    · rename_i hc
      cases hr : runAll M g.typeOf g.nodes (bindAll (fun _ => none) g.params ins) with
      | none => rw [hr] at h; simp at h
      | some E =>
        rw [hr, Option.bind_some] at h
        obtain ⟨a1, a2⟩ := runAll_sound M g.typeOf g.nodes _ _ _ h1 h2 hr
        refine ⟨E, ?_, hc.2, a1, h⟩
        rw [← bindAll_map g.params (fun _ => none) ins hp hc.1]
        refine List.map_congr_left fun r hm => a2 _ fun hx => ?_
        exact (List.nodup_append.1 h1).2.2 r.1 (List.mem_map_of_mem hm) r.1 hx rfl
    · exact absurd h (by simp)
  · rintro ⟨E, e1, e2, e3, e4⟩
    have hl : ins.length = g.params.length := by
      have := congrArg List.length e1
      simpa using this.symm
    obtain ⟨E', r1, r2⟩ := runAll_complete M g.typeOf g.nodes _ (bindAll (fun _ => none) g.params ins) E h1 h2 e3
      (bindAll_eq _ _ _ _ hp e1)
    unfold DGraph.eval
    rw [if_pos ⟨hl, e2⟩, r1, Option.bind_some, ← e4]
    exact mapM_congr' _ fun x hx => r2 x (h3 x hx)

theorem zip_has {rs : List (Nat × TTy)} : ∀ {vs : List DVal} {E : DEnv},
    (List.zipWith (fun r v => r.2.has v) rs vs).all id = true → rs.map (fun r => E r.1) = vs.map some →
    ∀ r ∈ rs, ∃ v, E r.1 = some v ∧ r.2.has v = true := by
  induction rs with
  | nil => intro _ _ _ _ r hr; simp at hr
  | cons a rs ih =>
    intro vs E h1 h2 r hr
    cases vs with
    | nil => simp at h2
    | cons v vs =>
      simp only [List.zipWith_cons_cons, List.all_cons, id, Bool.and_eq_true, List.map_cons, List.cons.injEq] at h1 h2
      rcases List.mem_cons.1 hr with rfl | hr
      · exact ⟨v, h2.1, h1.1⟩
      · exact ih h1.2 h2.2 r hr

/-- Every value has its type. -/
theorem typed {M : Meaning} {g : DGraph} {ins : List DVal} {E : DEnv}
    (e1 : g.params.map (fun r => E r.1) = ins.map some)
    (e2 : (List.zipWith (fun r v => r.2.has v) g.params ins).all id = true)
    (e3 : ∀ n ∈ g.nodes, n.Holds M g.typeOf E) : ∀ r ∈ g.values, ∃ v, E r.1 = some v ∧ r.2.has v = true := by
  intro r hr
  rcases List.mem_append.1 hr with hr | hr
  · exact zip_has e2 e1 r hr
  · obtain ⟨n, hn, hr⟩ := List.mem_flatMap.1 hr
    obtain ⟨targs, vals, res, _, _, _, a4, a5⟩ := e3 n hn
    exact zip_has a4.2 a5 r hr

end Verif.Det
