import Verif.Proof.PyStrip

/-! One stage of `_strip_lcedequantize_ops_subgraph`. -/

namespace Verif

variable {V : Type}

/-- The graph after the operators with code `c` at its outputs are dropped. -/
def dropOut (c : Option Nat) (sg : SubGraph) : SubGraph :=
  { sg with outputs := sg.outputs.map (fedBy c sg), ops := sg.ops.filter fun o => !decide (AtOutput c sg.outputs o) }

theorem producer_unique {sg : SubGraph} (h : GraphOK sg) {o o' : GOp} (ho : o ∈ sg.ops) (ho' : o' ∈ sg.ops) {i : Int}
    (hi : i ∈ o.outs) (hi' : i ∈ o'.outs) : o = o' := by
  by_contra hne
  have h2 := (List.nodup_flatMap.1 h.producers).2
  have : Std.Symm (Function.onFun List.Disjoint fun o : GOp => o.outs) := ⟨fun a b hab => List.Disjoint.symm hab⟩
  exact h2.forall ho ho' hne hi hi'

/-- What a stage needs. -/
structure StageHyp (c : Option Nat) (okOut okIn : Nat → Bool) (sg : SubGraph) : Prop where
  ok : GraphOK sg
  unary : Unary c sg
  unread : ∀ o ∈ sg.ops, c = some o.code → ∀ t ∈ o.outs, t ∈ sg.outputs → ∀ o' ∈ sg.ops, t ∉ o'.ins
  types : ∀ o ∈ sg.ops, AtOutput c sg.outputs o →
    (∀ t ∈ o.outs, ∀ x, tensorAt sg t = some x → okOut x.type = true) ∧
    (∀ t ∈ o.ins, ∀ x, tensorAt sg t = some x → okIn x.type = true)

theorem pyGet_nonneg {sg : SubGraph} {i : Int} (h : InRange sg i) : ∃ x, pyGet sg.tensors i = some x ∧ tensorAt sg i = some x :=
  ⟨_, by unfold pyGet; rw [if_pos h.1, List.getElem?_eq_getElem h.2], by
    unfold tensorAt; rw [if_pos h.1, List.getElem?_eq_getElem h.2]⟩

theorem findOutputOps_eq {c : Option Nat} {okOut okIn : Nat → Bool} {sg : SubGraph} (h : StageHyp c okOut okIn sg) :
    ∀ ops : List GOp, (∀ o ∈ ops, o ∈ sg.ops) →
      findOutputOps c okOut okIn sg ops = some (ops.filter fun o => decide (AtOutput c sg.outputs o)) := by
  intro ops
  induction ops with
  | nil => intro _; rfl
  | cons o ops ih =>
    intro hm
    have ho := hm o (by simp)
    have ih' := ih fun o ho => hm o (List.mem_cons_of_mem _ ho)
    unfold findOutputOps opMatches
    by_cases hc : c = some o.code
    · obtain ⟨i, t, hi, ht, hne⟩ := h.unary o ho hc
      rw [if_pos hc, hi, ht]
      simp only [Option.bind_eq_bind, Option.bind_some]
      by_cases hto : t ∈ sg.outputs
      · have hat : AtOutput c sg.outputs o := ⟨hc, t, by simp [ht], hto⟩
        obtain ⟨x, hx, hx'⟩ := pyGet_nonneg (h.ok.outs o ho t (by simp [ht]))
        obtain ⟨y, hy, hy'⟩ := pyGet_nonneg (((h.ok.ins o ho i (by simp [hi])).resolve_left hne))
        obtain ⟨h1, h2⟩ := h.types o ho hat
        have g1 := h1 t (by simp [ht]) x hx'
        have g2 := h2 i (by simp [hi]) y hy'
        simp [hto, hx, hy, g1, g2, ih', hat]
      · have hat : ¬ AtOutput c sg.outputs o := by
          rintro ⟨_, u, hu, hu'⟩
          rw [ht, List.mem_singleton] at hu
          exact hto (hu ▸ hu')
        simp [hto, ih', hat]
    · have hat : ¬ AtOutput c sg.outputs o := fun h => hc h.1
      simp [hc, ih', hat]

theorem lookup_filter_map (p : GOp → Bool) (f g : GOp → Int) (t : Int) : ∀ ops : List GOp,
    ((ops.filter p).map fun o => (f o, g o)).lookup t = (ops.find? fun o => p o && decide (f o = t)).map g := by
  intro ops
  induction ops with
  | nil => rfl
  | cons o ops ih =>
    by_cases hp : p o = true
    · rw [List.filter_cons, if_pos hp, List.map_cons, List.lookup_cons, List.find?_cons, ih]
      by_cases hf : f o = t
      · subst hf; simp [hp]
      · have h1 : (t == f o) = false := by
          simp only [beq_eq_false_iff_ne]
          exact fun hc => hf hc.symm
        rw [h1]; simp [hf]
    · rw [List.filter_cons, if_neg hp, List.find?_cons, ih]
      simp [hp]

theorem find?_congr' {α : Type} {p q : α → Bool} : ∀ {l : List α}, (∀ x ∈ l, p x = q x) → l.find? p = l.find? q
  | [], _ => rfl
  | a :: l, h => by
    rw [List.find?_cons, List.find?_cons, h a (by simp), find?_congr' fun x hx => h x (List.mem_cons_of_mem _ hx)]

theorem repl_fedBy {c : Option Nat} {sg : SubGraph} (hu : Unary c sg) {t : Int} (ht : t ∈ sg.outputs) :
    repl ((sg.ops.filter fun o => decide (AtOutput c sg.outputs o)).map fun o => (outOf o, inOf o)) t = fedBy c sg t := by
  unfold repl fedBy
  rw [lookup_filter_map]
  have : (sg.ops.find? fun o => decide (AtOutput c sg.outputs o) && decide (outOf o = t))
      = sg.ops.find? fun o => decide (c = some o.code ∧ o.outs = [t]) := by
    apply find?_congr'
    intro o ho
    rw [Bool.eq_iff_iff]
    simp only [Bool.and_eq_true, decide_eq_true_eq]
    constructor
    · rintro ⟨⟨hc, _⟩, he⟩
      obtain ⟨i, t', _, ht', _⟩ := hu o ho hc
      refine ⟨hc, ?_⟩
      unfold outOf at he
      rw [ht'] at he ⊢
      simp only [List.headD_cons] at he
      rw [he]
    · rintro ⟨hc, he⟩
      refine ⟨⟨hc, t, by simp [he], ht⟩, ?_⟩
      unfold outOf; rw [he]; rfl
  rw [this]
  cases hf : sg.ops.find? fun o => decide (c = some o.code ∧ o.outs = [t]) with
  | none => rfl
  | some o =>
    have h1 := List.find?_some hf
    simp only [decide_eq_true_eq] at h1
    obtain ⟨i, _, hi, _, _⟩ := hu o (List.mem_of_find?_eq_some hf) h1.1
    simp [inOf, hi]

theorem fedBy_cases {c : Option Nat} {sg : SubGraph} (hu : Unary c sg) (t : Int) :
    (∃ o ∈ sg.ops, c = some o.code ∧ o.outs = [t] ∧ o.ins = [fedBy c sg t] ∧ fedBy c sg t ≠ -1) ∨
    (fedBy c sg t = t ∧ ∀ o ∈ sg.ops, c = some o.code → o.outs ≠ [t]) := by
  unfold fedBy
  cases hf : sg.ops.find? fun o => decide (c = some o.code ∧ o.outs = [t]) with
  | none =>
    right
    refine ⟨rfl, fun o ho hc he => ?_⟩
    have := List.find?_eq_none.1 hf o ho
    simp only [decide_eq_true_eq] at this
    exact this ⟨hc, he⟩
  | some o =>
    left
    have h1 := List.find?_some hf
    simp only [decide_eq_true_eq] at h1
    have hm := List.mem_of_find?_eq_some hf
    obtain ⟨i, _, hi, _, hne⟩ := hu o hm h1.1
    refine ⟨o, hm, h1.1, h1.2, ?_, ?_⟩ <;> simp [hi, hne]

/-- The removed indices. -/
def RemovedIs (c : Option Nat) (sg : SubGraph) (R : List Nat) : Prop :=
  ∀ i : Nat, i ∈ R ↔ ∃ o ∈ sg.ops, AtOutput c sg.outputs o ∧ (i : Int) ∈ o.outs

theorem dropOut_noRefs {c : Option Nat} {okOut okIn : Nat → Bool} {sg : SubGraph} (h : StageHyp c okOut okIn sg) {R : List Nat}
    (hR : RemovedIs c sg R) : NoRefs (dropOut c sg) R := by
  have toN : ∀ {i : Int}, 0 ≤ i → i.toNat ∈ R → ∃ o ∈ sg.ops, AtOutput c sg.outputs o ∧ i ∈ o.outs := by
    intro i hi hm
    have := (hR _).1 hm
    rwa [Int.toNat_of_nonneg hi] at this
  have unr : ∀ {i : Int}, (∃ o ∈ sg.ops, AtOutput c sg.outputs o ∧ i ∈ o.outs) → ∀ o' ∈ sg.ops, i ∉ o'.ins := by
    rintro i ⟨o, ho, ⟨hc, t, ht, hto⟩, hi⟩
    obtain ⟨a, b, _, hb, _⟩ := h.unary o ho hc
    rw [hb, List.mem_singleton] at ht hi
    exact h.unread o ho hc i (by simp [hb, hi]) (by rw [hi, ← ht]; exact hto)
  have cond : ∀ {i : Int}, InRange sg i → (¬ ∃ o ∈ sg.ops, AtOutput c sg.outputs o ∧ i ∈ o.outs) →
      Kept (dropOut c sg).tensors.length R i := fun hi hn => ⟨hi.1, hi.2, fun hm => hn (toN hi.1 hm)⟩
  refine ⟨?_, ?_, ?_, ?_⟩
  · intro i hi
    refine cond (h.ok.inputs i hi) ?_
    rintro ⟨o, ho, _, hm⟩
    exact h.ok.notInput o ho i hm hi
  · intro i hi
    obtain ⟨t, ht, rfl⟩ := List.mem_map.1 hi
    rcases fedBy_cases h.unary t with ⟨o, ho, hc, h1, h2, hne⟩ | ⟨he, hno⟩
    · refine cond ((h.ok.ins o ho _ (by rw [h2]; simp)).resolve_left hne) ?_
      intro hx
      exact unr hx o ho (by rw [h2]; simp)
    · rw [he]
      refine cond (h.ok.outputs t ht) ?_
      rintro ⟨o, ho, ⟨hc, _⟩, hm⟩
      obtain ⟨_, b, _, hb, _⟩ := h.unary o ho hc
      rw [hb, List.mem_singleton] at hm
      exact hno o ho hc (by rw [hb, hm])
  · intro o ho i hi
    have ho' := (List.mem_filter.1 ho).1
    rcases h.ok.ins o ho' i hi with he | hr
    · exact .inl he
    · exact .inr (cond hr fun hx => unr hx o ho' hi)
  · intro o ho i hi
    obtain ⟨ho', hk⟩ := List.mem_filter.1 ho
    refine cond (h.ok.outs o ho' i hi) ?_
    rintro ⟨o', ho'', hat, hm⟩
    have := producer_unique h.ok ho' ho'' hi hm
    subst this
    simp [hat] at hk

/-- **One stage**: the operators with code `c` at the outputs are dropped and their outputs removed. -/
theorem stripStage_eq {c : Option Nat} {okOut okIn : Nat → Bool} {sg : SubGraph} (h : StageHyp c okOut okIn sg) :
    ∃ R : List Nat, R.Nodup ∧ RemovedIs c sg R ∧ NoRefs (dropOut c sg) R ∧
      ∀ sigs : List Sig, ∃ sigs', stripStage c okOut okIn sigs sg = some (sigs', renumGraph (dropOut c sg) R) ∧
        ∀ s rest, sigs = s :: rest → (∀ i ∈ s.inputs, i ∈ sg.inputs) → (∀ i ∈ s.outputs, i ∈ sg.outputs) →
          sigs' = { s with inputs := s.inputs.map (renum sg.tensors.length R),
                           outputs := (s.outputs.map (fedBy c sg)).map (renum sg.tensors.length R) } :: rest := by
  let found := sg.ops.filter fun o => decide (AtOutput c sg.outputs o)
  have hfm : ∀ o ∈ found, o ∈ sg.ops ∧ AtOutput c sg.outputs o := fun o ho => by
    have := List.mem_filter.1 ho
    exact ⟨this.1, by simpa using this.2⟩
  have har : ∀ o ∈ found, ∃ i t, o.ins = [i] ∧ o.outs = [t] ∧ i ≠ -1 := fun o ho =>
    h.unary o (hfm o ho).1 (hfm o ho).2.1
  have hA : ∀ o ∈ found, o.outs ≠ [] ∧ o.ins ≠ [] := fun o ho => by
    obtain ⟨i, t, h1, h2, _⟩ := har o ho
    simp [h1, h2]
  have hB : ∀ o ∈ found, ∀ o' ∈ found, inOf o ≠ outOf o' := by
    intro o ho o' ho' he
    obtain ⟨i, t, h1, h2, _⟩ := har o ho
    obtain ⟨i', t', h1', h2', _⟩ := har o' ho'
    obtain ⟨hm', hc', u, hu, huo⟩ := hfm o' ho'
    have : t' ∈ sg.outputs := by
      rw [h2', List.mem_singleton] at hu
      exact hu ▸ huo
    apply h.unread o' hm' hc' t' (by simp [h2']) this o (hfm o ho).1
    unfold inOf outOf at he
    rw [h1, h2'] at he
    simp only [List.headD_cons] at he
    rw [h1, he]
    simp
  obtain ⟨rm, _, hn, hmem⟩ := removeOutputOps_eq found [] sg [] hA hB h.ok.ids List.nodup_nil
  have hpos : ∀ i ∈ rm, InRange sg i := by
    intro i hi
    rcases (hmem i).1 hi with h' | ⟨o, ho, rfl⟩
    · simp at h'
    · obtain ⟨_, t, _, h2, _⟩ := har o ho
      exact h.ok.outs o (hfm o ho).1 _ (by simp [outOf, h2])
  obtain ⟨hN1, hN2⟩ := natIdxs_eq hn fun i hi => (hpos i hi).1
  have hRem : RemovedIs c sg (rm.map Int.toNat) := by
    intro i
    constructor
    · intro hi
      obtain ⟨j, hj, rfl⟩ := List.mem_map.1 hi
      rcases (hmem j).1 hj with h' | ⟨o, ho, rfl⟩
      · simp at h'
      · obtain ⟨_, t, _, h2, _⟩ := har o ho
        refine ⟨o, (hfm o ho).1, (hfm o ho).2, ?_⟩
        rw [Int.toNat_of_nonneg (hpos _ hj).1]
        simp [outOf, h2]
    · rintro ⟨o, ho, hat, hi⟩
      have hof : o ∈ found := List.mem_filter.2 ⟨ho, by simpa using hat⟩
      obtain ⟨_, t, _, h2, _⟩ := har o hof
      rw [h2, List.mem_singleton] at hi
      refine List.mem_map.2 ⟨(i : Int), (hmem _).2 (.inr ⟨o, hof, ?_⟩), by simp⟩
      simp [outOf, h2, hi]
  have hNR := dropOut_noRefs h hRem
  refine ⟨rm.map Int.toNat, hN2, hRem, hNR, ?_⟩
  intro sigs
  obtain ⟨rm2, hrm2, hn2, hmem2⟩ := removeOutputOps_eq found sigs sg [] hA hB h.ok.ids List.nodup_nil
  -- the two sets of removed tensors are the same list: both come from the same run
  have hrmeq : ∀ (fs : List GOp) (s1 s2 : List Sig) (g : SubGraph) (r : List Int) a b,
      removeOutputOps fs (s1, g, r) = some a → removeOutputOps fs (s2, g, r) = some b → a.2 = b.2 := by
    intro fs
    induction fs with
    | nil => intro s1 s2 g r a b h1 h2; simp only [removeOutputOps, Option.some.injEq] at h1 h2; rw [← h1, ← h2]
    | cons o os ih =>
      intro s1 s2 g r a b h1 h2
      unfold removeOutputOps at h1 h2
      cases ho : o.outs[0]? with
      | none => rw [ho] at h1; simp [bind] at h1
      | some x =>
        cases hi : o.ins[0]? with
        | none => rw [ho, hi] at h1; simp [bind] at h1
        | some y =>
          rw [ho, hi] at h1 h2
          simp only [bind, Option.bind] at h1 h2
          exact ih _ _ _ _ _ _ h1 h2
  have hsame : rm2 = rm := by
    have := hrmeq found sigs [] sg [] _ _ hrm2 (by assumption)
    simp only [Prod.mk.injEq] at this
    exact this.2
  subst hsame
  have hops : (sg.ops.filter fun x => decide (x.id ∉ found.map (·.id)))
      = sg.ops.filter fun o => !decide (AtOutput c sg.outputs o) := by
    apply List.filter_congr
    intro o ho
    rw [Bool.eq_iff_iff]
    simp only [decide_eq_true_eq, Bool.not_eq_true', decide_eq_false_iff_not]
    constructor
    · intro hx hat
      exact hx (List.mem_map.2 ⟨o, List.mem_filter.2 ⟨ho, by simpa using hat⟩, rfl⟩)
    · intro hx hm
      obtain ⟨o', ho', he⟩ := List.mem_map.1 hm
      have : o' = o := List.inj_on_of_nodup_map h.ok.ids (hfm o' ho').1 ho he
      exact hx (this ▸ (hfm o' ho').2)
  have hgr : ({ sg with outputs := sg.outputs.map (repl (found.map fun o => (outOf o, inOf o))),
                        ops := sg.ops.filter fun x => decide (x.id ∉ found.map (·.id)) } : SubGraph) = dropOut c sg := by
    unfold dropOut
    rw [hops]
    congr 1
    exact List.map_congr_left fun t ht => repl_fedBy h.unary ht
  rw [hgr] at hrm2
  obtain ⟨sigs', hs1, hs2⟩ := removeTensors_renum
    (updateFirstSig (fun s => { s with outputs := s.outputs.map (repl (found.map fun o => (outOf o, inOf o))) }) sigs)
    (dropOut c sg) (rm2.map Int.toNat) hN2 (by
      intro r hr
      obtain ⟨j, hj, rfl⟩ := List.mem_map.1 hr
      exact (hpos j hj).2) hNR
  refine ⟨sigs', ?_, ?_⟩
  · unfold stripStage
    rw [findOutputOps_eq h sg.ops fun o ho => ho]
    simp only [Option.bind_eq_bind, Option.bind_some]
    rw [hrm2]
    simp only [Option.bind_some, hN1, hs1]
  · rintro s rest rfl hsi hso
    have hout : s.outputs.map (repl (found.map fun o => (outOf o, inOf o))) = s.outputs.map (fedBy c sg) :=
      List.map_congr_left fun t ht => repl_fedBy h.unary (hso t ht)
    have := hs2 _ rest rfl (fun i hi => hNR.inputs i (hsi i hi)) (by
      intro i hi
      change i ∈ s.outputs.map _ at hi
      rw [hout] at hi
      obtain ⟨t, ht, rfl⟩ := List.mem_map.1 hi
      exact hNR.outputs _ (List.mem_map.2 ⟨t, hso t ht, rfl⟩))
    rw [this]
    simp only [hout]
    rfl

/-- **One stage, values**: kept tensors keep their values. -/
theorem finalEnv_stage {c : Option Nat} {okOut okIn : Nat → Bool} {sg : SubGraph} (h : StageHyp c okOut okIn sg)
    {R : List Nat} (hR : RemovedIs c sg R) (sem : OpSem V) (cv : GTensor → Option V) (vals : List V) (i : Int)
    (hi : Kept sg.tensors.length R i) :
    finalEnv sem cv (renumGraph (dropOut c sg) R) vals (renum sg.tensors.length R i) = finalEnv sem cv sg vals i := by
  have hNR := dropOut_noRefs h hR
  rw [show renum sg.tensors.length R i = renum (dropOut c sg).tensors.length R i from rfl,
    finalEnv_renum sem cv _ R hNR vals i hi]
  unfold finalEnv
  refine runOps_drop sem _ (fun i => ∃ o ∈ sg.ops, AtOutput c sg.outputs o ∧ i ∈ o.outs) sg.ops _ _ ?_ ?_ ?_ i ?_
  · intro o ho hk j hj
    exact ⟨o, ho, by simpa using hk, hj⟩
  · rintro o ho hk j hj ⟨o', ho', ⟨hc, u, hu, huo⟩, hm⟩
    obtain ⟨_, b, _, hb, _⟩ := h.unary o' ho' hc
    rw [hb, List.mem_singleton] at hu hm
    exact h.unread o' ho' hc j (by simp [hb, hm]) (by rw [hm, ← hu]; exact huo) o ho hj
  · intro j _; rfl
  · intro hx
    apply hi.2.2
    rw [hR, Int.toNat_of_nonneg hi.1]
    exact hx

theorem renum_inRange {sg : SubGraph} {R : List Nat} {i : Int} (h : Kept sg.tensors.length R i) :
    InRange (renumGraph sg R) (renum sg.tensors.length R i) ∧
    tensorAt (renumGraph sg R) (renum sg.tensors.length R i) = tensorAt sg i := by
  have hs := survivors_get (List.getElem?_eq_getElem h.2.1) h.2.2
  have hl : (renumGraph sg R).tensors[i.toNat - cntBelow R i.toNat]? = some (sg.tensors[i.toNat]'h.2.1) := by
    unfold renumGraph
    rw [List.getElem?_map, hs]; rfl
  rw [renum_kept h]
  constructor
  · refine ⟨by omega, ?_⟩
    rw [Int.toNat_natCast]
    exact lt_of_getElem? hl
  · unfold tensorAt
    rw [if_pos (by omega), if_pos h.1, Int.toNat_natCast, hl, List.getElem?_eq_getElem h.2.1]

theorem flatMap_renum (n : Nat) (R : List Nat) (ops : List GOp) :
    (ops.map (renumOp n R)).flatMap (·.outs) = (ops.flatMap (·.outs)).map (renum n R) := by
  induction ops with
  | nil => rfl
  | cons o ops ih => rw [List.map_cons, List.flatMap_cons, List.flatMap_cons, List.map_append, ih]; rfl

theorem graphOK_renum {sg : SubGraph} (h : GraphOK sg) {R : List Nat} (hR : NoRefs sg R) : GraphOK (renumGraph sg R) := by
  refine ⟨?_, ?_, ?_, ?_, ?_, ?_, ?_⟩
  · unfold renumGraph
    rw [List.map_map]
    exact h.ids
  · unfold renumGraph
    rw [flatMap_renum]
    refine List.Nodup.map_on ?_ h.producers
    intro x hx y hy he
    obtain ⟨o, ho, hxo⟩ := List.mem_flatMap.1 hx
    obtain ⟨o', ho', hyo⟩ := List.mem_flatMap.1 hy
    exact renum_inj (hR.outs o ho x hxo) (hR.outs o' ho' y hyo) he
  · intro o' ho' i hi hin
    obtain ⟨o, ho, rfl⟩ := List.mem_map.1 ho'
    obtain ⟨a, ha, rfl⟩ := List.mem_map.1 hi
    obtain ⟨b, hb, he⟩ := List.mem_map.1 hin
    have := renum_inj (hR.inputs b hb) (hR.outs o ho a ha) he
    exact h.notInput o ho a ha (this ▸ hb)
  · intro i hi
    obtain ⟨a, ha, rfl⟩ := List.mem_map.1 hi
    exact (renum_inRange (hR.inputs a ha)).1
  · intro i hi
    obtain ⟨a, ha, rfl⟩ := List.mem_map.1 hi
    exact (renum_inRange (hR.outputs a ha)).1
  · intro o' ho' i hi
    obtain ⟨o, ho, rfl⟩ := List.mem_map.1 ho'
    obtain ⟨a, ha, rfl⟩ := List.mem_map.1 hi
    rcases hR.ins o ho a ha with rfl | hk
    · exact .inl (renum_neg _ _)
    · exact .inr (renum_inRange hk).1
  · intro o' ho' i hi
    obtain ⟨o, ho, rfl⟩ := List.mem_map.1 ho'
    obtain ⟨a, ha, rfl⟩ := List.mem_map.1 hi
    exact (renum_inRange (hR.outs o ho a ha)).1

theorem graphOK_dropOut {c : Option Nat} {okOut okIn : Nat → Bool} {sg : SubGraph} (h : StageHyp c okOut okIn sg) {R : List Nat}
    (hR : RemovedIs c sg R) : GraphOK (dropOut c sg) := by
  have hNR := dropOut_noRefs h hR
  have hsub : List.Sublist (dropOut c sg).ops sg.ops := List.filter_sublist
  refine ⟨nodup_ids_filter _ h.ok.ids, ?_, ?_, ?_, ?_, ?_, ?_⟩
  · refine h.ok.producers.sublist ?_
    exact List.Sublist.flatMap hsub _
  · intro o ho i hi
    exact h.ok.notInput o (hsub.mem ho) i hi
  · intro i hi
    exact ⟨(hNR.inputs i hi).1, (hNR.inputs i hi).2.1⟩
  · intro i hi
    exact ⟨(hNR.outputs i hi).1, (hNR.outputs i hi).2.1⟩
  · intro o ho i hi
    exact h.ok.ins o (hsub.mem ho) i hi
  · intro o ho i hi
    exact h.ok.outs o (hsub.mem ho) i hi

end Verif
