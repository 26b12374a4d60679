import Verif.Proof.PyGraph

/-!
C38: removing tensors from a model renumbers the references consistently.
-/

namespace Verif

/-- **C38** (what holds). Removing any set of existing tensors succeeds; the new tensor list is the old one without them;
every graph input, graph output and operator operand that referred to a kept tensor still refers to that tensor (whose
position is where the survivor with the old index now is); operators keep their identity, code and options, and so does
the first signature. Missing from the English claim: signatures other than the first, which are left as they are (see
`second_signature_wrong`), and the assumption that the first signature describes the edited subgraph. -/
theorem remove_tensors_keeps_references_partial (sigs : List Sig) (sg : SubGraph) (R : List Nat) (hn : R.Nodup)
    (hlt : ∀ r ∈ R, r < sg.tensors.length) :
    ∃ sigs' sg', removeTensors sigs sg R = some (sigs', sg') ∧
      sg'.tensors = (survivors sg.tensors R).map (·.1) ∧
      SameRefs sg.tensors R sg.inputs sg'.inputs ∧
      SameRefs sg.tensors R sg.outputs sg'.outputs ∧
      List.Forall₂ (fun o o' : GOp => o'.id = o.id ∧ o'.code = o.code ∧ o'.opts = o.opts ∧
        SameRefs sg.tensors R o.ins o'.ins ∧ SameRefs sg.tensors R o.outs o'.outs) sg.ops sg'.ops ∧
      (∀ s rest, sigs = s :: rest → ∃ s', sigs' = s' :: rest ∧ s'.subgraph = s.subgraph ∧
        SameRefs sg.tensors R s.inputs s'.inputs ∧ SameRefs sg.tensors R s.outputs s'.outputs) := by
  rcases removeTensors_cases sigs sg R hn hlt with ⟨m, h1, h2, he⟩ | he
  · refine ⟨_, _, he, rfl, sameRefs_id h1 h2 _, sameRefs_id h1 h2 _, ?_, ?_⟩
    · exact List.forall₂_same.2 fun o _ => ⟨rfl, rfl, rfl, sameRefs_id h1 h2 _, sameRefs_id h1 h2 _⟩
    · rintro s rest rfl
      exact ⟨s, rfl, rfl, sameRefs_id h1 h2 _, sameRefs_id h1 h2 _⟩
  · refine ⟨_, _, he, rfl, sameRefs_renum _ _ _, sameRefs_renum _ _ _, ?_, ?_⟩
    · rw [List.forall₂_map_right_iff]
      exact List.forall₂_same.2 fun o _ => ⟨rfl, rfl, rfl, sameRefs_renum _ _ _, sameRefs_renum _ _ _⟩
    · rintro s rest rfl
      exact ⟨_, rfl, rfl, sameRefs_sig _ _ _, sameRefs_sig _ _ _⟩

/-- A graph with four tensors; tensor 1 is removed: references to 2 and 3 move to 1 and 2. -/
example : removeTensors [⟨0, [0], [3]⟩] ⟨[⟨0, 10⟩, ⟨0, 11⟩, ⟨9, 12⟩, ⟨2, 13⟩], [0], [3, 1], [⟨7, 0, 0, [0, -1], [2]⟩, ⟨8, 1, 0, [2], [3]⟩]⟩ [1]
    = some ([⟨0, [0], [2]⟩], ⟨[⟨0, 10⟩, ⟨9, 12⟩, ⟨2, 13⟩], [0], [2, -1],
        [⟨7, 0, 0, [0, -1], [1]⟩, ⟨8, 1, 0, [1], [2]⟩]⟩) := by decide +kernel

/-- The fast path: removing the last two tensors leaves all references as they are. -/
example : removeTensors [] ⟨[⟨0, 10⟩, ⟨0, 11⟩, ⟨9, 12⟩, ⟨2, 13⟩], [0], [1], []⟩ [3, 2]
    = some ([], ⟨[⟨0, 10⟩, ⟨0, 11⟩], [0], [1], []⟩) := by decide +kernel

/-- **C38** fails for a second signature of the same subgraph: its output index, which referred to the int32 tensor, now
is past the end of the tensor list. -/
theorem second_signature_wrong :
    ∃ (sigs : List Sig) (sg : SubGraph) (R : List Nat) (sigs' : List Sig) (sg' : SubGraph) (s s' : Sig),
      R.Nodup ∧ (∀ r ∈ R, r < sg.tensors.length) ∧ removeTensors sigs sg R = some (sigs', sg') ∧
      sigs[1]? = some s ∧ sigs'[1]? = some s' ∧ s.subgraph = 0 ∧ s.outputs = [2] ∧ 2 ∉ R ∧
      ¬ SameRefs sg.tensors R s.outputs s'.outputs := by
  refine ⟨[⟨0, [0], [2]⟩, ⟨0, [0], [2]⟩], ⟨[⟨0, 10⟩, ⟨0, 11⟩, ⟨2, 12⟩], [0], [2], []⟩, [1],
    [⟨0, [0], [1]⟩, ⟨0, [0], [2]⟩], ⟨[⟨0, 10⟩, ⟨2, 12⟩], [0], [1], []⟩, ⟨0, [0], [2]⟩, ⟨0, [0], [2]⟩, by decide,
    by decide, by decide +kernel, rfl, rfl, rfl, rfl, by decide, ?_⟩
  rintro ⟨_, h⟩
  obtain ⟨j, h1, h2⟩ := h 0 2 ⟨2, 12⟩ rfl rfl (by decide)
  have : j = 2 := by
    simp at h1; omega
  subst this
  revert h2
  decide

/-! ### Exactly when another signature stays right -/

theorem survivors_idx_nodup (ts : List GTensor) (R : List Nat) : ((survivors ts R).map (·.2)).Nodup := by
  have h1 : (ts.zipIdx.map (·.2)).Nodup := by
    rw [List.zipIdx_map_snd]
    exact List.nodup_range'
  exact h1.sublist ((List.filter_sublist).map _)

/-- Numbers that are left as they are refer to the same tensors exactly when no tensor before them is removed. -/
theorem sameRefs_unchanged_iff (ts : List GTensor) (R : List Nat) (xs : List Int) :
    SameRefs ts R xs xs ↔ ∀ i : Nat, (i : Int) ∈ xs → i < ts.length → i ∉ R → ∀ r ∈ R, i < r := by
  constructor
  · rintro ⟨_, h⟩ i hx hi hR r hr
    obtain ⟨k, hk⟩ := List.mem_iff_getElem?.1 hx
    obtain ⟨t, ht⟩ : ∃ t, ts[i]? = some t := ⟨_, List.getElem?_eq_getElem hi⟩
    obtain ⟨j, h1, h2⟩ := h k i t hk ht hR
    rw [hk] at h1
    have hj : j = i := by
      have := Option.some.inj h1
      omega
    subst hj
    have h3 := survivors_get ht hR
    by_contra hlt
    have hne : r ≠ j := fun e => hR (e ▸ hr)
    have hc : 0 < cntBelow R j := by
      rcases Nat.eq_zero_or_pos (cntBelow R j) with h0 | h0
      · exfalso
        have : ∀ m, r < m → 0 < cntBelow R m := by
          intro m
          induction m with
          | zero => intro h; omega
          | succ m ih =>
            intro h
            rw [cntBelow_succ]
            by_cases e : r = m
            · subst e; rw [if_pos hr]; omega
            · have := ih (by omega); omega
        have := this j (by omega)
        omega
      · exact h0
    have hn := survivors_idx_nodup ts R
    have e1 : ((survivors ts R).map (·.2))[j]? = some j := by rw [List.getElem?_map, h2]; rfl
    have e2 : ((survivors ts R).map (·.2))[j - cntBelow R j]? = some j := by rw [List.getElem?_map, h3]; rfl
    have hle := cntBelow_le R j
    obtain ⟨l1, g1⟩ := List.getElem?_eq_some_iff.1 e1
    obtain ⟨l2, g2⟩ := List.getElem?_eq_some_iff.1 e2
    have := (List.Nodup.getElem_inj_iff hn (hi := l1) (hj := l2)).1 (by rw [g1, g2])
    omega
  · intro h
    refine ⟨rfl, fun k i t hk ht hR => ⟨i, hk, ?_⟩⟩
    have h0 := cntBelow_eq_zero (R := R) (k := i) fun r hr =>
      Nat.le_of_lt (h i (List.mem_iff_getElem?.2 ⟨k, hk⟩) (lt_of_getElem? ht) hR r hr)
    have := survivors_get ht hR
    rwa [h0, Nat.sub_zero] at this

/-- **C38**, signatures other than the first, exactly: they are left as they are, and such a signature of the edited subgraph
still refers to the same tensors if and only if no removed tensor comes before one of the tensors it keeps. -/
theorem C38_other_signatures_exact (s0 : Sig) (rest : List Sig) (sg : SubGraph) (R : List Nat) (hn : R.Nodup)
    (hlt : ∀ r ∈ R, r < sg.tensors.length) :
    ∃ s0' sg', removeTensors (s0 :: rest) sg R = some (s0' :: rest, sg') ∧
      sg'.tensors = (survivors sg.tensors R).map (·.1) ∧
      ∀ s ∈ rest, (SameRefs sg.tensors R s.inputs s.inputs ∧ SameRefs sg.tensors R s.outputs s.outputs) ↔
        ∀ i : Nat, ((i : Int) ∈ s.inputs ∨ (i : Int) ∈ s.outputs) → i < sg.tensors.length → i ∉ R → ∀ r ∈ R, i < r := by
  obtain ⟨sigs', sg', h1, h2, _, _, _, h3⟩ := remove_tensors_keeps_references_partial (s0 :: rest) sg R hn hlt
  obtain ⟨s0', rfl, _⟩ := h3 s0 rest rfl
  refine ⟨s0', sg', h1, h2, fun s _ => ?_⟩
  rw [sameRefs_unchanged_iff, sameRefs_unchanged_iff]
  constructor
  · rintro ⟨a, b⟩ i (h | h)
    · exact a i h
    · exact b i h
  · intro h
    exact ⟨fun i hi => h i (Or.inl hi), fun i hi => h i (Or.inr hi)⟩

end Verif
