import Verif.Proof.PyGraph

/-! Removing operators at the outputs or inputs of a graph, and renumbering, preserve the values of the other tensors. -/

namespace Verif

variable {V : Type}

/-- References an index may have after tensors `R` are removed. -/
def Kept (n : Nat) (R : List Nat) (i : Int) : Prop := 0 ≤ i ∧ i.toNat < n ∧ i.toNat ∉ R

theorem renum_kept {n : Nat} {R : List Nat} {i : Int} (h : Kept n R i) :
    renum n R i = ((i.toNat - cntBelow R i.toNat : Nat) : Int) := if_pos h

theorem renum_neg (n : Nat) (R : List Nat) : renum n R (-1) = -1 := by
  unfold renum
  rw [if_neg]
  omega

theorem renum_inj {ts : List GTensor} {R : List Nat} {i j : Int} (hi : Kept ts.length R i) (hj : Kept ts.length R j)
    (h : renum ts.length R i = renum ts.length R j) : i = j := by
  rw [renum_kept hi, renum_kept hj] at h
  have h' : i.toNat - cntBelow R i.toNat = j.toNat - cntBelow R j.toNat := by exact_mod_cast h
  have a := survivors_get (List.getElem?_eq_getElem hi.2.1) hi.2.2
  have b := survivors_get (List.getElem?_eq_getElem hj.2.1) hj.2.2
  rw [h', b] at a
  have := (Prod.mk.inj (Option.some.inj a)).2
  have := hi.1
  have := hj.1
  omega

/-- An operator with renumbered references. -/
def renumOp (n : Nat) (R : List Nat) (o : GOp) : GOp :=
  { o with ins := o.ins.map (renum n R), outs := o.outs.map (renum n R) }

/-- A graph without the tensors `R`. -/
def renumGraph (sg : SubGraph) (R : List Nat) : SubGraph :=
  { tensors := (survivors sg.tensors R).map (·.1), inputs := sg.inputs.map (renum sg.tensors.length R),
    outputs := sg.outputs.map (renum sg.tensors.length R), ops := sg.ops.map (renumOp sg.tensors.length R) }

/-- No reference to a removed tensor. -/
structure NoRefs (sg : SubGraph) (R : List Nat) : Prop where
  inputs : ∀ i ∈ sg.inputs, Kept sg.tensors.length R i
  outputs : ∀ i ∈ sg.outputs, Kept sg.tensors.length R i
  ins : ∀ o ∈ sg.ops, ∀ i ∈ o.ins, i = -1 ∨ Kept sg.tensors.length R i
  outs : ∀ o ∈ sg.ops, ∀ i ∈ o.outs, Kept sg.tensors.length R i

theorem lookup_map_inj {α : Type} (f : Int → Int) (i : Int) : ∀ (l : List (Int × α)), (∀ p ∈ l, f p.1 = f i → p.1 = i) →
    (l.map fun p => (f p.1, p.2)).lookup (f i) = l.lookup i
  | [], _ => rfl
  | (a, v) :: l, h => by
    rw [List.map_cons, List.lookup_cons, List.lookup_cons, lookup_map_inj f i l fun p hp => h p (List.mem_cons_of_mem _ hp)]
    by_cases he : i = a
    · subst he; simp
    · have h1 : (i == a) = false := by simpa using he
      have h2 : (f i == f a) = false := by
        simp only [beq_eq_false_iff_ne]
        intro hc
        exact he (h (a, v) (by simp) hc.symm).symm
      rw [h1, h2]

theorem zip_map_left' {α : Type} (f : Int → Int) : ∀ (l : List Int) (vs : List α),
    (l.map f).zip vs = (l.zip vs).map fun p => (f p.1, p.2)
  | [], _ => rfl
  | _ :: _, [] => rfl
  | a :: l, v :: vs => by simp [zip_map_left' f l vs]

theorem lookup_zip_map {α : Type} {f : Int → Int} {i : Int} {l : List Int} (vs : List α) (h : ∀ a ∈ l, f a = f i → a = i) :
    ((l.map f).zip vs).lookup (f i) = (l.zip vs).lookup i := by
  rw [zip_map_left']
  apply lookup_map_inj
  rintro ⟨a, v⟩ hp
  exact h a (List.of_mem_zip hp).1

theorem lookup_zip_none {α : Type} {i : Int} : ∀ {l : List Int} (vs : List α), i ∉ l → (l.zip vs).lookup i = none
  | [], _, _ => rfl
  | _ :: _, [], _ => rfl
  | a :: l, v :: vs, h => by
    have h1 : (i == a) = false := by
      simp only [beq_eq_false_iff_ne]
      rintro rfl
      exact h (by simp)
    rw [List.zip_cons_cons, List.lookup_cons, h1]
    exact lookup_zip_none vs fun hc => h (List.mem_cons_of_mem _ hc)

theorem writeOuts_of_notMem {e : GEnv V} {outs : List Int} {vs : List (Option V)} {i : Int} (h : i ∉ outs) :
    writeOuts e outs vs i = e i := by
  unfold writeOuts
  rw [lookup_zip_none _ h]

/-- Renumbered graphs compute the same values. -/
theorem runOps_renum (sem : OpSem V) (ts : List GTensor) (R : List Nat) : ∀ (ops : List GOp) (e e' : GEnv V),
    (∀ o ∈ ops, ∀ i ∈ o.ins, i = -1 ∨ Kept ts.length R i) → (∀ o ∈ ops, ∀ i ∈ o.outs, Kept ts.length R i) →
    (∀ i, Kept ts.length R i → e' (renum ts.length R i) = e i) → e (-1) = none → e' (-1) = none →
    (∀ i, Kept ts.length R i → runOps sem (ops.map (renumOp ts.length R)) e' (renum ts.length R i) = runOps sem ops e i) ∧
    runOps sem ops e (-1) = none ∧ runOps sem (ops.map (renumOp ts.length R)) e' (-1) = none := by
  intro ops
  induction ops with
  | nil => intro e e' _ _ h1 h2 h3; exact ⟨h1, h2, h3⟩
  | cons o ops ih =>
    intro e e' hi ho h1 h2 h3
    have hin : (o.ins.map (renum ts.length R)).map e' = o.ins.map e := by
      rw [List.map_map]
      apply List.map_congr_left
      intro i him
      rcases hi o (by simp) i him with rfl | hk
      · simp [renum_neg, h2, h3]
      · exact h1 i hk
    have key := ih (stepOp sem e o) (stepOp sem e' (renumOp ts.length R o))
      (fun o ho => hi o (List.mem_cons_of_mem _ ho)) (fun o' ho' => ho o' (List.mem_cons_of_mem _ ho'))
      (by
        intro i hk
        unfold stepOp renumOp writeOuts
        simp only [hin]
        rw [lookup_zip_map _ fun a ha hf => renum_inj (ho o (by simp) a ha) hk hf, h1 i hk])
      (by
        unfold stepOp
        rw [writeOuts_of_notMem, h2]
        intro hm
        have := (ho o (by simp) _ hm).1
        omega)
      (by
        unfold stepOp
        rw [writeOuts_of_notMem, h3]
        intro hm
        obtain ⟨a, ha, hf⟩ := List.mem_map.1 hm
        rw [renum_kept (ho o (by simp) a ha)] at hf
        omega)
    exact key

/-- **Renumbering**: a kept tensor has, at its new index, the same value. -/
theorem finalEnv_renum (sem : OpSem V) (cv : GTensor → Option V) (sg : SubGraph) (R : List Nat) (h : NoRefs sg R)
    (vals : List V) (i : Int) (hi : Kept sg.tensors.length R i) :
    finalEnv sem cv (renumGraph sg R) vals (renum sg.tensors.length R i) = finalEnv sem cv sg vals i := by
  unfold finalEnv
  refine (runOps_renum sem sg.tensors R sg.ops _ _ h.ins h.outs ?_ ?_ ?_).1 i hi
  · intro j hj
    unfold initEnv renumGraph
    simp only []
    rw [lookup_zip_map _ fun a ha hf => renum_inj (h.inputs a ha) hj hf]
    have hs := survivors_get (List.getElem?_eq_getElem hj.2.1) hj.2.2
    rw [renum_kept hj, if_pos (by omega), if_pos hj.1, Int.toNat_natCast, List.getElem?_map, hs,
      List.getElem?_eq_getElem hj.2.1]
    rfl
  · unfold initEnv
    rw [lookup_zip_none _ fun hm => by have := (h.inputs _ hm).1; omega]
    simp
  · unfold initEnv
    rw [lookup_zip_none]
    · simp
    · intro hm
      obtain ⟨a, ha, hf⟩ := List.mem_map.1 hm
      rw [renum_kept (h.inputs a ha)] at hf
      omega

theorem renum_id {n : Nat} {R : List Nat} {m : Nat} (h : ∀ i, i < n → (i ∈ R ↔ m ≤ i)) (hm : ∀ r ∈ R, m ≤ r) {i : Int}
    (hi : Kept n R i) : renum n R i = i := by
  rw [renum_kept hi, cntBelow_eq_zero]
  · have := hi.1
    omega
  · intro r hr
    have h1 := hm r hr
    have h2 : ¬ m ≤ i.toNat := fun hc => hi.2.2 ((h _ hi.2.1).2 hc)
    omega

theorem updateSigTensors_kept {n : Nat} {R : List Nat} {xs : List Int} (h : ∀ i ∈ xs, Kept n R i) :
    updateSigTensors (dictOf n R) xs = xs.map (renum n R) := by
  unfold updateSigTensors
  apply List.map_congr_left
  intro i hi
  obtain ⟨h0, h1⟩ := h i hi
  obtain ⟨k, rfl⟩ := Int.eq_ofNat_of_zero_le h0
  rw [renum_kept (h _ hi)]
  simp only [dictGet_dictOf, Int.toNat_natCast] at h1 ⊢
  rw [if_pos h1]

/-- Removing tensors nobody refers to: the graph is renumbered, and so is the first signature if it refers to kept tensors. -/
theorem removeTensors_renum (sigs : List Sig) (sg : SubGraph) (R : List Nat) (hn : R.Nodup)
    (hlt : ∀ r ∈ R, r < sg.tensors.length) (h : NoRefs sg R) :
    ∃ sigs', removeTensors sigs sg R = some (sigs', renumGraph sg R) ∧
      ∀ s rest, sigs = s :: rest → (∀ i ∈ s.inputs, Kept sg.tensors.length R i) →
        (∀ i ∈ s.outputs, Kept sg.tensors.length R i) →
        sigs' = { s with inputs := s.inputs.map (renum sg.tensors.length R),
                         outputs := s.outputs.map (renum sg.tensors.length R) } :: rest := by
  have mid : ∀ {m : Nat}, (∀ i, i < sg.tensors.length → (i ∈ R ↔ m ≤ i)) → (∀ r ∈ R, m ≤ r) → ∀ xs : List Int,
      (∀ i ∈ xs, i = -1 ∨ Kept sg.tensors.length R i) → xs.map (renum sg.tensors.length R) = xs := by
    intro m h1 h2 xs hx
    conv_rhs => rw [← List.map_id xs]
    apply List.map_congr_left
    intro i hi
    rcases hx i hi with rfl | hk
    · exact renum_neg _ _
    · exact renum_id h1 h2 hk
  rcases removeTensors_cases sigs sg R hn hlt with ⟨m, h1, h2, he⟩ | he
  · refine ⟨sigs, ?_, ?_⟩
    · rw [he]
      unfold renumGraph
      rw [mid h1 h2 _ fun i hi => .inr (h.inputs i hi), mid h1 h2 _ fun i hi => .inr (h.outputs i hi)]
      have : sg.ops.map (renumOp sg.tensors.length R) = sg.ops := by
        conv_rhs => rw [← List.map_id sg.ops]
        apply List.map_congr_left
        intro o ho
        unfold renumOp
        rw [mid h1 h2 _ (h.ins o ho), mid h1 h2 _ fun i hi => .inr (h.outs o ho i hi)]
        rfl
      rw [this]
    · rintro s rest rfl hi ho
      rw [mid h1 h2 _ fun i hi' => .inr (hi i hi'), mid h1 h2 _ fun i hi' => .inr (ho i hi')]
  · refine ⟨_, he, ?_⟩
    rintro s rest rfl hi ho
    simp only [updateFirstSig, updateSigTensors_kept hi, updateSigTensors_kept ho]

/-- Dropping operators whose outputs no remaining operator reads changes only those outputs. -/
theorem runOps_drop (sem : OpSem V) (keep : GOp → Bool) (D : Int → Prop) : ∀ (ops : List GOp) (e e' : GEnv V),
    (∀ o ∈ ops, keep o = false → ∀ i ∈ o.outs, D i) → (∀ o ∈ ops, keep o = true → ∀ i ∈ o.ins, ¬ D i) →
    (∀ i, ¬ D i → e' i = e i) → ∀ i, ¬ D i → runOps sem (ops.filter keep) e' i = runOps sem ops e i := by
  intro ops
  induction ops with
  | nil => intro e e' _ _ h; exact h
  | cons o ops ih =>
    intro e e' h1 h2 h
    have h1' : ∀ o ∈ ops, keep o = false → ∀ i ∈ o.outs, D i := fun o ho => h1 o (List.mem_cons_of_mem _ ho)
    have h2' : ∀ o ∈ ops, keep o = true → ∀ i ∈ o.ins, ¬ D i := fun o ho => h2 o (List.mem_cons_of_mem _ ho)
    by_cases hk : keep o = true
    · rw [List.filter_cons, if_pos hk]
      refine ih (stepOp sem e o) (stepOp sem e' o) h1' h2' ?_
      intro i hi
      have : o.ins.map e' = o.ins.map e := List.map_congr_left fun j hj => h j (h2 o (by simp) hk j hj)
      unfold stepOp writeOuts
      rw [this, h i hi]
    · rw [List.filter_cons, if_neg hk]
      refine ih (stepOp sem e o) e' h1' h2' ?_
      intro i hi
      unfold stepOp
      rw [writeOuts_of_notMem fun hm => hi (h1 o (by simp) (by simpa using hk) i hm), h i hi]

/-- The final value of a tensor no later operator writes. -/
theorem runOps_of_notMem (sem : OpSem V) (i : Int) : ∀ (ops : List GOp) (e : GEnv V), (∀ o ∈ ops, i ∉ o.outs) →
    runOps sem ops e i = e i := by
  intro ops
  induction ops with
  | nil => intro e _; rfl
  | cons o ops ih =>
    intro e h
    have := ih (stepOp sem e o) fun o ho => h o (List.mem_cons_of_mem _ ho)
    unfold runOps at this ⊢
    rw [List.foldl_cons, this]
    exact writeOuts_of_notMem (h o (by simp))

/-- Dropping operators at the inputs: their outputs `Q` become inputs with the values `fin` they would have; the tensors `F`
they read are not read by the remaining operators; tensors are written once and read after they are written. -/
theorem runOps_dropIn (sem : OpSem V) (keep : GOp → Bool) (F : Int → Prop) (fin : GEnv V) : ∀ (ops : List GOp) (e e' : GEnv V),
    runOps sem ops e = fin →
    (∀ o ∈ ops, keep o = true → ∀ i ∈ o.ins, ¬ F i) →
    (ops.flatMap (·.outs)).Nodup →
    (∀ l1 o l2, ops = l1 ++ o :: l2 → ∀ i ∈ o.ins, ∀ o' ∈ o :: l2, i ∉ o'.outs) →
    (∀ i, ¬ F i → (∀ o ∈ ops, keep o = false → i ∉ o.outs) → e' i = e i) →
    (∀ o ∈ ops, keep o = false → ∀ i ∈ o.outs, e' i = fin i) →
    ∀ i, ¬ F i → runOps sem (ops.filter keep) e' i = fin i := by
  intro ops
  induction ops with
  | nil =>
    intro e e' hf _ _ _ h _ i hi
    subst hf
    exact h i hi (by simp)
  | cons o ops ih =>
    intro e e' hf h1 hnd htop h hq
    have hf' : runOps sem ops (stepOp sem e o) = fin := hf
    have h1' : ∀ o ∈ ops, keep o = true → ∀ i ∈ o.ins, ¬ F i := fun o ho => h1 o (List.mem_cons_of_mem _ ho)
    rw [List.flatMap_cons, List.nodup_append] at hnd
    obtain ⟨hn1, hn2, hdis⟩ := hnd
    have htop' : ∀ l1 o' l2, ops = l1 ++ o' :: l2 → ∀ i ∈ o'.ins, ∀ o'' ∈ o' :: l2, i ∉ o''.outs := by
      intro l1 o' l2 he
      exact htop (o :: l1) o' l2 (by rw [he]; rfl)
    have hnot : ∀ i ∈ o.outs, ∀ o' ∈ ops, i ∉ o'.outs := fun i hi o' ho' hm =>
      hdis i hi i (List.mem_flatMap.2 ⟨o', ho', hm⟩) rfl
    by_cases hk : keep o = true
    · rw [List.filter_cons, if_pos hk]
      refine ih (stepOp sem e o) (stepOp sem e' o) hf' h1' hn2 htop' ?_ ?_
      · intro i hi hni
        have hin : o.ins.map e' = o.ins.map e := by
          apply List.map_congr_left
          intro j hj
          apply h j (h1 o (by simp) hk j hj)
          intro o' ho' _
          exact htop [] o ops rfl j hj o' ho'
        unfold stepOp writeOuts
        rw [hin]
        by_cases hm : ((o.outs.zip (sem o.code o.opts (o.ins.map e))).lookup i).isSome
        · obtain ⟨v, hv⟩ := Option.isSome_iff_exists.1 hm
          rw [hv]
        · rw [Option.not_isSome_iff_eq_none.1 hm]
          simp only []
          apply h i hi
          intro o' ho' hk'
          rcases List.mem_cons.1 ho' with rfl | ho'
          · rw [hk] at hk'; cases hk'
          · exact hni o' ho' hk'
      · intro o' ho' hk' i hi
        unfold stepOp
        rw [writeOuts_of_notMem fun hm => hnot i hm o' ho' hi]
        exact hq o' (List.mem_cons_of_mem _ ho') hk' i hi
    · have hk0 : keep o = false := by simpa using hk
      rw [List.filter_cons, if_neg hk]
      refine ih (stepOp sem e o) e' hf' h1' hn2 htop' ?_ ?_
      · intro i hi hni
        by_cases hm : i ∈ o.outs
        · rw [hq o (by simp) hk0 i hm, ← hf', runOps_of_notMem _ _ _ _ (hnot i hm)]
        · unfold stepOp
          rw [writeOuts_of_notMem hm]
          apply h i hi
          intro o' ho' hk'
          rcases List.mem_cons.1 ho' with rfl | ho'
          · exact hm
          · exact hni o' ho' hk'
      · intro o' ho' hk' i hi
        exact hq o' (List.mem_cons_of_mem _ ho') hk' i hi

/-- Replacement of references by a list of pairs. -/
def repl (ps : List (Int × Int)) (x : Int) : Int := (ps.lookup x).getD x

theorem repl_cons {a b : Int} {ps : List (Int × Int)} (hb : b ∉ ps.map (·.1)) (x : Int) :
    repl ((a, b) :: ps) x = repl ps (if x = a then b else x) := by
  unfold repl
  rw [List.lookup_cons]
  by_cases h : x = a
  · subst h
    simp only [beq_self_eq_true, if_true, Option.getD_some]
    rw [List.lookup_eq_none_iff.2]
    · rfl
    · rintro ⟨p, q⟩ hp
      simp only [bne_iff_ne, ne_eq]
      rintro rfl
      exact hb (List.mem_map.2 ⟨_, hp, rfl⟩)
  · have h1 : (x == a) = false := by simpa using h
    rw [h1, if_neg h]

/-- First output and first input of an operator. -/
def outOf (o : GOp) : Int := o.outs.headD 0
/-- First input. -/
def inOf (o : GOp) : Int := o.ins.headD 0

theorem head?_ok {l : List Int} (h : l ≠ []) : l[0]? = some (l.headD 0) := by
  cases l with
  | nil => exact absurd rfl h
  | cons a l => rfl

theorem npReplace_repl {a b : Int} {ps : List (Int × Int)} (hb : b ∉ ps.map (·.1)) (xs : List Int) :
    (npReplace xs a b).map (repl ps) = xs.map (repl ((a, b) :: ps)) := by
  unfold npReplace
  rw [List.map_map]
  apply List.map_congr_left
  intro x _
  exact (repl_cons hb x).symm

theorem eraseP_id {ops : List GOp} (hid : (ops.map (·.id)).Nodup) (k : Nat) :
    ops.eraseP (fun x => x.id == k) = ops.filter fun x => decide (x.id ≠ k) := by
  induction ops with
  | nil => rfl
  | cons o ops ih =>
    rw [List.map_cons, List.nodup_cons] at hid
    by_cases h : o.id = k
    · subst h
      rw [List.eraseP_cons_of_pos (by simp), List.filter_cons, if_neg (by simp)]
      symm
      apply List.filter_eq_self.2
      intro x hx
      simp only [decide_eq_true_eq]
      intro hc
      exact hid.1 (hc ▸ List.mem_map.2 ⟨x, hx, rfl⟩)
    · rw [List.eraseP_cons_of_neg (by simpa using h), List.filter_cons, if_pos (by simpa using h), ih hid.2]

theorem nodup_ids_filter {ops : List GOp} (p : GOp → Bool) (hid : (ops.map (·.id)).Nodup) :
    ((ops.filter p).map (·.id)).Nodup := hid.sublist (List.Sublist.map _ List.filter_sublist)

theorem updateFirstSig_comp (f g : Sig → Sig) (l : List Sig) : updateFirstSig g (updateFirstSig f l) = updateFirstSig (g ∘ f) l := by
  cases l <;> rfl

theorem removeOutputOps_eq : ∀ (found : List GOp) (sigs : List Sig) (sg : SubGraph) (rm : List Int),
    (∀ o ∈ found, o.outs ≠ [] ∧ o.ins ≠ []) → (∀ o ∈ found, ∀ o' ∈ found, inOf o ≠ outOf o') →
    (sg.ops.map (·.id)).Nodup → rm.Nodup →
    ∃ rm', removeOutputOps found (sigs, sg, rm) = some
      (updateFirstSig (fun s => { s with outputs := s.outputs.map (repl (found.map fun o => (outOf o, inOf o))) }) sigs,
       { sg with outputs := sg.outputs.map (repl (found.map fun o => (outOf o, inOf o))),
                 ops := sg.ops.filter fun x => decide (x.id ∉ found.map (·.id)) }, rm') ∧
      rm'.Nodup ∧ ∀ i, i ∈ rm' ↔ i ∈ rm ∨ ∃ o ∈ found, outOf o = i := by
  intro found
  induction found with
  | nil =>
    intro sigs sg rm _ _ _ hr
    refine ⟨rm, ?_, hr, by simp⟩
    have e1 : ∀ xs : List Int, xs.map (repl []) = xs := fun xs => by
      conv_rhs => rw [← List.map_id xs]
      rfl
    simp only [removeOutputOps, List.map_nil, e1]
    have e2 : sg.ops.filter (fun x => decide (x.id ∉ ([] : List Nat))) = sg.ops := List.filter_eq_self.2 (by simp)
    rw [e2]
    cases sigs <;> rfl
  | cons o os ih =>
    intro sigs sg rm h1 h2 hid hr
    obtain ⟨ho, hi⟩ := h1 o (by simp)
    have hnew : (if outOf o ∈ rm then rm else outOf o :: rm).Nodup := by
      by_cases h : outOf o ∈ rm
      · rwa [if_pos h]
      · rw [if_neg h]; exact List.nodup_cons.2 ⟨h, hr⟩
    have hmem : ∀ i, i ∈ (if outOf o ∈ rm then rm else outOf o :: rm) ↔ i ∈ rm ∨ outOf o = i := by
      intro i
      by_cases h : outOf o ∈ rm
      · rw [if_pos h]
        exact ⟨.inl, fun hc => hc.elim id fun he => he ▸ h⟩
      · rw [if_neg h, List.mem_cons]
        constructor
        · rintro (rfl | h)
          · exact .inr rfl
          · exact .inl h
        · rintro (h | rfl)
          · exact .inr h
          · exact .inl rfl
    have hb : inOf o ∉ (os.map fun o => (outOf o, inOf o)).map (·.1) := by
      rw [List.map_map]
      intro hc
      obtain ⟨o', ho', he⟩ := List.mem_map.1 hc
      exact h2 o (by simp) o' (List.mem_cons_of_mem _ ho') he.symm
    have hid' : ((sg.ops.eraseP fun x => x.id == o.id).map (·.id)).Nodup := by
      rw [eraseP_id hid]; exact nodup_ids_filter _ hid
    obtain ⟨rm', hrm, hn, hm⟩ := ih
      (updateFirstSig (fun s => { s with outputs := npReplace s.outputs (outOf o) (inOf o) }) sigs)
      { sg with outputs := npReplace sg.outputs (outOf o) (inOf o), ops := sg.ops.eraseP fun x => x.id == o.id }
      (if outOf o ∈ rm then rm else outOf o :: rm)
      (fun o ho => h1 o (List.mem_cons_of_mem _ ho))
      (fun o ho o' ho' => h2 o (List.mem_cons_of_mem _ ho) o' (List.mem_cons_of_mem _ ho')) hid' hnew
    refine ⟨rm', ?_, hn, ?_⟩
    · unfold removeOutputOps
      rw [head?_ok ho, head?_ok hi]
      simp only [bind, Option.bind]
      change removeOutputOps os _ = _ at hrm
      rw [show o.outs.headD 0 = outOf o from rfl, show o.ins.headD 0 = inOf o from rfl, hrm, updateFirstSig_comp]
      simp only [List.map_cons, Function.comp_def, npReplace_repl hb]
      rw [eraseP_id hid, List.filter_filter]
      have : ∀ x : GOp, (decide (x.id ∉ os.map (·.id)) && decide (x.id ≠ o.id)) = decide (x.id ∉ o.id :: os.map (·.id)) := by
        intro x
        rw [Bool.eq_iff_iff]
        simp only [Bool.and_eq_true, decide_eq_true_eq, List.mem_cons, not_or]
        tauto
      simp only [this]
    · intro i
      rw [hm, hmem]
      constructor
      · rintro ((h | h) | ⟨o', ho', he⟩)
        · exact .inl h
        · exact .inr ⟨o, by simp, h⟩
        · exact .inr ⟨o', List.mem_cons_of_mem _ ho', he⟩
      · rintro (h | ⟨o', ho', he⟩)
        · exact .inl (.inl h)
        · rcases List.mem_cons.1 ho' with rfl | ho'
          · exact .inl (.inr he)
          · exact .inr ⟨o', ho', he⟩

theorem removeInputOps_eq : ∀ (found : List GOp) (sigs : List Sig) (sg : SubGraph) (rm : List Int),
    (∀ o ∈ found, o.outs ≠ [] ∧ o.ins ≠ []) → (∀ o ∈ found, ∀ o' ∈ found, outOf o ≠ inOf o') →
    (sg.ops.map (·.id)).Nodup → rm.Nodup →
    ∃ rm', removeInputOps found (sigs, sg, rm) = some
      (updateFirstSig (fun s => { s with inputs := s.inputs.map (repl (found.map fun o => (inOf o, outOf o))) }) sigs,
       { sg with inputs := sg.inputs.map (repl (found.map fun o => (inOf o, outOf o))),
                 ops := sg.ops.filter fun x => decide (x.id ∉ found.map (·.id)) }, rm') ∧
      rm'.Nodup ∧ ∀ i, i ∈ rm' ↔ i ∈ rm ∨ ∃ o ∈ found, inOf o = i := by
  intro found
  induction found with
  | nil =>
    intro sigs sg rm _ _ _ hr
    refine ⟨rm, ?_, hr, by simp⟩
    have e1 : ∀ xs : List Int, xs.map (repl []) = xs := fun xs => by
      conv_rhs => rw [← List.map_id xs]
      rfl
    simp only [removeInputOps, List.map_nil, e1]
    have e2 : sg.ops.filter (fun x => decide (x.id ∉ ([] : List Nat))) = sg.ops := List.filter_eq_self.2 (by simp)
    rw [e2]
    cases sigs <;> rfl
  | cons o os ih =>
    intro sigs sg rm h1 h2 hid hr
    obtain ⟨ho, hi⟩ := h1 o (by simp)
    have hnew : (if inOf o ∈ rm then rm else inOf o :: rm).Nodup := by
      by_cases h : inOf o ∈ rm
      · rwa [if_pos h]
      · rw [if_neg h]; exact List.nodup_cons.2 ⟨h, hr⟩
    have hmem : ∀ i, i ∈ (if inOf o ∈ rm then rm else inOf o :: rm) ↔ i ∈ rm ∨ inOf o = i := by
      intro i
      by_cases h : inOf o ∈ rm
      · rw [if_pos h]
        exact ⟨.inl, fun hc => hc.elim id fun he => he ▸ h⟩
      · rw [if_neg h, List.mem_cons]
        constructor
        · rintro (rfl | h)
          · exact .inr rfl
          · exact .inl h
        · rintro (h | rfl)
          · exact .inr h
          · exact .inl rfl
    have hb : outOf o ∉ (os.map fun o => (inOf o, outOf o)).map (·.1) := by
      rw [List.map_map]
      intro hc
      obtain ⟨o', ho', he⟩ := List.mem_map.1 hc
      exact h2 o (by simp) o' (List.mem_cons_of_mem _ ho') he.symm
    have hid' : ((sg.ops.eraseP fun x => x.id == o.id).map (·.id)).Nodup := by
      rw [eraseP_id hid]; exact nodup_ids_filter _ hid
    obtain ⟨rm', hrm, hn, hm⟩ := ih
      (updateFirstSig (fun s => { s with inputs := npReplace s.inputs (inOf o) (outOf o) }) sigs)
      { sg with inputs := npReplace sg.inputs (inOf o) (outOf o), ops := sg.ops.eraseP fun x => x.id == o.id }
      (if inOf o ∈ rm then rm else inOf o :: rm)
      (fun o ho => h1 o (List.mem_cons_of_mem _ ho))
      (fun o ho o' ho' => h2 o (List.mem_cons_of_mem _ ho) o' (List.mem_cons_of_mem _ ho')) hid' hnew
    refine ⟨rm', ?_, hn, ?_⟩
    · unfold removeInputOps
      rw [head?_ok ho, head?_ok hi]
      simp only [bind, Option.bind]
      change removeInputOps os _ = _ at hrm
      rw [show o.outs.headD 0 = outOf o from rfl, show o.ins.headD 0 = inOf o from rfl, hrm, updateFirstSig_comp]
      simp only [List.map_cons, Function.comp_def, npReplace_repl hb]
      rw [eraseP_id hid, List.filter_filter]
      have : ∀ x : GOp, (decide (x.id ∉ os.map (·.id)) && decide (x.id ≠ o.id)) = decide (x.id ∉ o.id :: os.map (·.id)) := by
        intro x
        rw [Bool.eq_iff_iff]
        simp only [Bool.and_eq_true, decide_eq_true_eq, List.mem_cons, not_or]
        tauto
      simp only [this]
    · intro i
      rw [hm, hmem]
      constructor
      · rintro ((h | h) | ⟨o', ho', he⟩)
        · exact .inl h
        · exact .inr ⟨o, by simp, h⟩
        · exact .inr ⟨o', List.mem_cons_of_mem _ ho', he⟩
      · rintro (h | ⟨o', ho', he⟩)
        · exact .inl (.inl h)
        · rcases List.mem_cons.1 ho' with rfl | ho'
          · exact .inl (.inr he)
          · exact .inr ⟨o', ho', he⟩

theorem natIdxs_eq : ∀ {rm : List Int}, rm.Nodup → (∀ i ∈ rm, 0 ≤ i) →
    natIdxs rm = some (rm.map Int.toNat) ∧ (rm.map Int.toNat).Nodup
  | [], _, _ => ⟨rfl, by simp⟩
  | i :: is, hn, h => by
    rw [List.nodup_cons] at hn
    obtain ⟨h1, h2⟩ := natIdxs_eq hn.2 fun j hj => h j (List.mem_cons_of_mem _ hj)
    have hi := h i (by simp)
    refine ⟨by unfold natIdxs; rw [if_pos hi, h1]; rfl, ?_⟩
    rw [List.map_cons, List.nodup_cons]
    refine ⟨?_, h2⟩
    intro hc
    obtain ⟨j, hj, he⟩ := List.mem_map.1 hc
    have := h j (List.mem_cons_of_mem _ hj)
    have : j = i := by omega
    exact hn.1 (this ▸ hj)

end Verif
