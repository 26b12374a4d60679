import Verif.Props.PyIo
import Mathlib.Algebra.Order.BigOperators.Group.List
import Mathlib.Algebra.Order.Ring.Nat

/-!
The values of a graph as the solution of its equations, and renumbering in the presence of references to removed tensors.
-/

namespace Verif

variable {V : Type}

/-- The final value of an operator's output is what the operator computes from the final values of its inputs. -/
theorem runOps_fix (sem : OpSem V) {ops : List GOp} (hn : (ops.flatMap (·.outs)).Nodup)
    (hord : ∀ l1 o l2, ops = l1 ++ o :: l2 → ∀ i ∈ o.ins, ∀ o' ∈ o :: l2, i ∉ o'.outs) (e : GEnv V) {o : GOp}
    (ho : o ∈ ops) {t : Int} (ht : t ∈ o.outs) :
    runOps sem ops e t = writeOuts e o.outs (sem o.code o.opts (o.ins.map (runOps sem ops e))) t := by
  obtain ⟨l1, l2, rfl⟩ := List.append_of_mem ho
  have hsplit : runOps sem (l1 ++ o :: l2) e = runOps sem l2 (stepOp sem (runOps sem l1 e) o) := by
    unfold runOps
    rw [List.foldl_append]; rfl
  have hins : o.ins.map (runOps sem (l1 ++ o :: l2) e) = o.ins.map (runOps sem l1 e) := by
    apply List.map_congr_left
    intro i hi
    have := hord l1 o l2 rfl i hi
    rw [hsplit, runOps_of_notMem _ _ _ _ fun o' ho' => this o' (List.mem_cons_of_mem _ ho')]
    exact writeOuts_of_notMem (this o (by simp))
  rw [List.flatMap_append, List.flatMap_cons] at hn
  obtain ⟨_, hn2, hd⟩ := List.nodup_append'.1 hn
  obtain ⟨_, _, hd2⟩ := List.nodup_append'.1 hn2
  have h1 : ∀ o' ∈ l1, t ∉ o'.outs := fun o' ho' hm =>
    hd (List.mem_flatMap.2 ⟨o', ho', hm⟩) (List.mem_append_left _ ht)
  have h2 : ∀ o' ∈ l2, t ∉ o'.outs := fun o' ho' hm => hd2 ht (List.mem_flatMap.2 ⟨o', ho', hm⟩)
  rw [hins, hsplit, runOps_of_notMem _ _ _ _ h2]
  unfold stepOp writeOuts
  rw [runOps_of_notMem _ _ _ _ h1]

/-- A function on references that renumbers kept tensors and maps the others to references without tensor. -/
structure Renumbers (ts : List GTensor) (R : List Nat) (ρ : Int → Int) : Prop where
  kept : ∀ i, Kept ts.length R i → ρ i = renum ts.length R i
  lost : ∀ i, ¬ Kept ts.length R i → ρ i < 0 ∨ (survivors ts R).length ≤ (ρ i).toNat

/-- An operator with mapped references. -/
def mapOp (ρ : Int → Int) (o : GOp) : GOp := { o with ins := o.ins.map ρ, outs := o.outs.map ρ }

/-- A graph without the tensors `R` and with mapped references. -/
def mapGraph (sg : SubGraph) (R : List Nat) (ρ : Int → Int) : SubGraph :=
  { tensors := (survivors sg.tensors R).map (·.1), inputs := sg.inputs.map ρ, outputs := sg.outputs.map ρ,
    ops := sg.ops.map (mapOp ρ) }

/-- Removing tensors, whatever refers to them. -/
theorem removeTensors_any (sigs : List Sig) (sg : SubGraph) (R : List Nat) (hn : R.Nodup)
    (hlt : ∀ r ∈ R, r < sg.tensors.length) :
    ∃ (ρ : Int → Int) (sigs' : List Sig), Renumbers sg.tensors R ρ ∧
      removeTensors sigs sg R = some (sigs', mapGraph sg R ρ) ∧
      ∀ s rest, sigs = s :: rest → (∀ i ∈ s.inputs, Kept sg.tensors.length R i) →
        (∀ i ∈ s.outputs, Kept sg.tensors.length R i) →
        sigs' = { s with inputs := s.inputs.map ρ, outputs := s.outputs.map ρ } :: rest := by
  rcases removeTensors_cases sigs sg R hn hlt with ⟨m, h1, h2, he⟩ | he
  · refine ⟨id, sigs, ⟨fun i hi => (renum_id h1 h2 hi).symm, ?_⟩, ?_, ?_⟩
    · intro i hi
      by_cases hi0 : i < 0
      · exact .inl hi0
      · right
        have hle : (survivors sg.tensors R).length ≤ sg.tensors.length := by
          unfold survivors
          exact (List.length_filter_le _ _).trans (by simp)
        by_cases hr : i.toNat < sg.tensors.length
        · have him : i.toNat ∈ R := by
            by_contra hx
            exact hi ⟨by omega, hr, hx⟩
          have hm := h2 _ him
          have := congrArg List.length (survivors_take (ts := sg.tensors) (R := R) (m := m) (by omega) h1)
          rw [List.length_map, List.length_take] at this
          simp only [id]
          omega
        · simp only [id]
          omega
    · rw [he]
      unfold mapGraph
      have : sg.ops.map (mapOp id) = sg.ops := by
        conv_rhs => rw [← List.map_id sg.ops]
        apply List.map_congr_left
        intro o _
        simp [mapOp]
      rw [this]
      simp
    · rintro s rest rfl _ _
      simp
  · refine ⟨renum sg.tensors.length R, _, ⟨fun i _ => rfl, ?_⟩, he, ?_⟩
    · intro i hi
      left
      unfold renum
      unfold Kept at hi
      rw [if_neg hi]
      decide
    · rintro s rest rfl hi ho
      simp only [updateFirstSig, updateSigTensors_kept hi, updateSigTensors_kept ho]

variable {ts : List GTensor} {R : List Nat} {ρ : Int → Int}

theorem Renumbers.get (h : Renumbers ts R ρ) {i : Int} (hi : Kept ts.length R i) :
    0 ≤ ρ i ∧ (survivors ts R)[(ρ i).toNat]? = some (ts[i.toNat]'hi.2.1, i.toNat) := by
  have hs := survivors_get (List.getElem?_eq_getElem hi.2.1) hi.2.2
  rw [h.kept i hi, renum_kept hi]
  exact ⟨by omega, by rw [Int.toNat_natCast]; exact hs⟩

theorem Renumbers.inj (h : Renumbers ts R ρ) {i j : Int} (hj : Kept ts.length R j) (he : ρ i = ρ j) : i = j := by
  by_cases hi : Kept ts.length R i
  · rw [h.kept i hi, h.kept j hj] at he
    exact renum_inj hi hj he
  · obtain ⟨h0, hs⟩ := h.get hj
    have := (List.getElem?_eq_some_iff.1 hs).1
    rcases h.lost i hi with hx | hx
    · omega
    · rw [he] at hx
      omega

/-- What the values of the mapped graph satisfy, on the references of the graph before. -/
theorem finalEnv_map (sem : OpSem V) (cv : GTensor → Option V) (sg : SubGraph) {R : List Nat} {ρ : Int → Int}
    (hρ : Renumbers sg.tensors R ρ) (hin : ∀ i ∈ sg.inputs, Kept sg.tensors.length R i)
    (hout : ∀ o ∈ sg.ops, ∀ i ∈ o.outs, Kept sg.tensors.length R i) (hn : (sg.ops.flatMap (·.outs)).Nodup)
    (hord : ∀ l1 o l2, sg.ops = l1 ++ o :: l2 → ∀ i ∈ o.ins, ∀ o' ∈ o :: l2, i ∉ o'.outs) (vals : List V)
    (E' : GEnv V) (hE : E' = fun i => finalEnv sem cv (mapGraph sg R ρ) vals (ρ i)) :
    (∀ o ∈ sg.ops, ∀ t ∈ o.outs, E' t = writeOuts (initEnv cv sg vals) o.outs (sem o.code o.opts (o.ins.map E')) t) ∧
    (∀ i, Kept sg.tensors.length R i → (∀ o ∈ sg.ops, i ∉ o.outs) → E' i = initEnv cv sg vals i) ∧
    (∀ i, ¬ Kept sg.tensors.length R i → E' i = none) := by
  have hinit : ∀ i, Kept sg.tensors.length R i → initEnv cv (mapGraph sg R ρ) vals (ρ i) = initEnv cv sg vals i := by
    intro i hi
    obtain ⟨h0, hs⟩ := hρ.get hi
    unfold initEnv mapGraph
    simp only []
    rw [lookup_zip_map _ fun a ha hf => hρ.inj hi hf, if_pos h0, if_pos hi.1, List.getElem?_map, hs,
      List.getElem?_eq_getElem hi.2.1]
    rfl
  have hnotout : ∀ i, (∀ o ∈ sg.ops, i ∉ o.outs) → ∀ o' ∈ (mapGraph sg R ρ).ops, ρ i ∉ o'.outs := by
    intro i hi o' ho' hm
    obtain ⟨o, ho, rfl⟩ := List.mem_map.1 ho'
    obtain ⟨a, ha, he⟩ := List.mem_map.1 hm
    have := hρ.inj (hout o ho a ha) he.symm
    exact hi o ho (this ▸ ha)
  subst hE
  refine ⟨?_, ?_, ?_⟩
  · intro o ho t ht
    have hn' : ((mapGraph sg R ρ).ops.flatMap (·.outs)).Nodup := by
      have : (mapGraph sg R ρ).ops.flatMap (·.outs) = (sg.ops.flatMap (·.outs)).map ρ := by
        unfold mapGraph
        simp only []
        clear hn hord hnotout ho hout
        induction sg.ops with
        | nil => rfl
        | cons o ops ih => rw [List.map_cons, List.flatMap_cons, List.flatMap_cons, List.map_append, ih]; rfl
      rw [this]
      refine List.Nodup.map_on ?_ hn
      intro x _ y hy he
      obtain ⟨o', ho', hyo⟩ := List.mem_flatMap.1 hy
      exact hρ.inj (hout o' ho' y hyo) he
    have hord' : ∀ l1 o l2, (mapGraph sg R ρ).ops = l1 ++ o :: l2 → ∀ i ∈ o.ins, ∀ o' ∈ o :: l2, i ∉ o'.outs := by
      intro l1 p l2 he i hi p' hp' hm
      obtain ⟨k1, k2, hk, rfl, hk2⟩ := List.map_eq_append_iff.1 he
      obtain ⟨o1, k3, rfl, rfl, rfl⟩ := List.map_eq_cons_iff.1 hk2
      obtain ⟨a, ha, rfl⟩ := List.mem_map.1 hi
      have : ∃ o2 ∈ o1 :: k3, p' = mapOp ρ o2 := by
        rcases List.mem_cons.1 hp' with rfl | hp'
        · exact ⟨o1, by simp, rfl⟩
        · obtain ⟨o2, ho2, rfl⟩ := List.mem_map.1 hp'
          exact ⟨o2, List.mem_cons_of_mem _ ho2, rfl⟩
      obtain ⟨o2, ho2, rfl⟩ := this
      obtain ⟨b, hb, hab⟩ := List.mem_map.1 hm
      have hb2 := hρ.inj (hout o2 (by rw [hk]; exact List.mem_append_right _ ho2) b hb) hab.symm
      exact hord k1 o1 k3 hk a ha o2 ho2 (hb2 ▸ hb)
    have := runOps_fix sem hn' hord' (initEnv cv (mapGraph sg R ρ) vals) (o := mapOp ρ o)
      (List.mem_map.2 ⟨o, ho, rfl⟩) (t := ρ t) (List.mem_map.2 ⟨t, ht, rfl⟩)
    refine Eq.trans this ?_
    unfold writeOuts mapOp
    simp only []
    rw [lookup_zip_map _ fun a ha hf => hρ.inj (hout o ho t ht) hf, hinit t (hout o ho t ht), List.map_map]
    rfl
  · intro i hi hno
    refine Eq.trans (runOps_of_notMem _ _ _ _ (hnotout i hno)) (hinit i hi)
  · intro i hi
    have hno : ∀ o ∈ sg.ops, i ∉ o.outs := fun o ho hm => hi (hout o ho i hm)
    refine Eq.trans (runOps_of_notMem _ _ _ _ (hnotout i hno)) ?_
    unfold initEnv
    rw [lookup_zip_none]
    · rcases hρ.lost i hi with hx | hx
      · rw [if_neg (by omega)]
      · by_cases h0 : 0 ≤ ρ i
        · rw [if_pos h0, List.getElem?_eq_none (by unfold mapGraph; simp only [List.length_map]; exact hx)]
          rfl
        · rw [if_neg h0]
    · intro hm
      obtain ⟨a, ha, he⟩ := List.mem_map.1 hm
      have := hρ.inj (hin a ha) he.symm
      exact hi (this ▸ hin a ha)

end Verif
