import Verif.Spec.Graph
import Mathlib.Data.List.Sort
import Mathlib.Data.List.Nodup
import Mathlib.Data.List.Basic
import Mathlib.Data.List.Range
import Mathlib.Data.Finset.Card
import Mathlib.Data.Finset.Range
import Mathlib.Order.Interval.Finset.Nat

/-! Lemmas about `removeTensors`. -/

namespace Verif

/-- Number of removed indices below `k`. -/
def cntBelow (R : List Nat) (k : Nat) : Nat := ((List.range k).filter fun i => decide (i ∈ R)).length

theorem cntBelow_succ (R : List Nat) (k : Nat) : cntBelow R (k + 1) = cntBelow R k + if k ∈ R then 1 else 0 := by
  unfold cntBelow
  rw [List.range_succ, List.filter_append, List.length_append]
  by_cases h : k ∈ R <;> simp [h]

theorem cntBelow_le (R : List Nat) (k : Nat) : cntBelow R k ≤ k := by
  unfold cntBelow
  exact le_trans (List.length_filter_le _ _) (by simp)

/-- The dictionary. -/
def dictOf (n : Nat) (R : List Nat) : List (Nat × Nat) :=
  ((List.range n).filter fun i => decide (i ∉ R)).map fun i => (i, i - cntBelow R i)

theorem oldToNew_eq (n : Nat) (R : List Nat) : oldToNew n R = some (dictOf n R, cntBelow R n) := by
  unfold oldToNew
  obtain ⟨s, h1, h2⟩ := forN_inv (n := n) (s := (([], 0) : List (Nat × Nat) × Nat))
    (body := fun idx (s : List (Nat × Nat) × Nat) =>
      if idx ∈ R then some (s.1, s.2 + 1) else some (s.1 ++ [(idx, idx - s.2)], s.2))
    (fun k s => s = (dictOf k R, cntBelow R k)) (by simp [dictOf, cntBelow])
    (by
      rintro k s hk rfl
      by_cases h : k ∈ R
      · refine ⟨_, by rw [if_pos h], ?_⟩
        rw [cntBelow_succ, if_pos h]
        simp [dictOf, List.range_succ, List.filter_append, h]
      · refine ⟨_, by rw [if_neg h], ?_⟩
        rw [cntBelow_succ, if_neg h]
        simp [dictOf, List.range_succ, List.filter_append, h])
  rw [h1, h2]

theorem lookup_map_graph (l : List Nat) (f : Nat → Nat) (i : Nat) :
    (l.map fun a => (a, f a)).lookup i = if i ∈ l then some (f i) else none := by
  induction l with
  | nil => simp
  | cons a l ih =>
    rw [List.map_cons, List.lookup_cons, ih]
    by_cases h : i = a
    · subst h; simp
    · have : (i == a) = false := by simpa using h
      rw [this]
      simp [h]

theorem dictGet_dictOf (n : Nat) (R : List Nat) (i : Nat) :
    dictGet (dictOf n R) (i : Int) = if i < n ∧ i ∉ R then some (i - cntBelow R i) else none := by
  unfold dictGet dictOf
  rw [if_pos (by omega), Int.toNat_natCast, lookup_map_graph]
  simp

theorem filter_getElem {α : Type} (p : α → Bool) (l : List α) (i : Nat) (hi : i < l.length) (hp : p l[i] = true) :
    (l.filter p)[((l.take i).filter p).length]? = some l[i] := by
  conv_lhs => rw [← List.take_append_drop i l]
  rw [List.filter_append, List.getElem?_append_right (by simp), List.take_append_drop]
  simp only [Nat.sub_self]
  rw [List.drop_eq_getElem_cons hi, List.filter_cons, if_pos hp]
  rfl

theorem length_filter_not (p : Nat → Bool) (l : List Nat) : (l.filter fun i => !p i).length + (l.filter p).length = l.length := by
  induction l with
  | nil => rfl
  | cons a l ih => by_cases h : p a = true <;> simp [h] <;> omega

theorem zipIdx_filter_take (ts : List GTensor) (R : List Nat) (i : Nat) (hi : i ≤ ts.length) :
    ((ts.zipIdx.take i).filter fun p => decide (p.2 ∉ R)).length = i - cntBelow R i := by
  have h1 : ((ts.zipIdx.take i).filter fun p => decide (p.2 ∉ R)).length
      = (((ts.zipIdx.take i).map (·.2)).filter fun k => decide (k ∉ R)).length := by
    rw [List.filter_map, List.length_map]; rfl
  rw [h1, List.map_take, List.zipIdx_map_snd, ← List.range_eq_range', List.take_range, Nat.min_eq_left hi]
  have := length_filter_not (fun k => decide (k ∈ R)) (List.range i)
  rw [List.length_range] at this
  unfold cntBelow
  have h2 : (List.range i).filter (fun k => decide (k ∉ R)) = (List.range i).filter (fun k => !decide (k ∈ R)) := by
    apply List.filter_congr
    intro x _
    simp
  rw [h2]; omega

/-- The survivor that had index `i`. -/
theorem survivors_get {ts : List GTensor} {R : List Nat} {i : Nat} {t : GTensor} (ht : ts[i]? = some t) (hi : i ∉ R) :
    (survivors ts R)[i - cntBelow R i]? = some (t, i) := by
  obtain ⟨hlt, he⟩ := List.getElem?_eq_some_iff.1 ht
  have := filter_getElem (fun p : GTensor × Nat => decide (p.2 ∉ R)) ts.zipIdx i (by simpa using hlt) (by simpa using hi)
  rw [zipIdx_filter_take _ _ _ hlt.le] at this
  unfold survivors
  rw [this]
  simp [he]

/-- Popping decreasing indices leaves the survivors. -/
theorem popAll_eq (is : List Nat) : ∀ ts : List GTensor, (is.Pairwise (· > ·)) → (∀ i ∈ is, i < ts.length) →
    popAll ts is = some ((survivors ts is).map (·.1)) := by
  induction is with
  | nil =>
    intro ts _ _
    simp [popAll, survivors]
  | cons a is ih =>
    intro ts hs hlt
    obtain ⟨ha, hs'⟩ := List.pairwise_cons.1 hs
    have hal : a < ts.length := hlt a (by simp)
    unfold popAll
    rw [if_pos hal, ih _ hs' (by
      intro i hi
      rw [List.length_eraseIdx, if_pos hal]
      have := ha i hi
      omega)]
    congr 1
    unfold survivors
    rw [List.eraseIdx_eq_take_drop_succ]
    conv_rhs => rw [← List.take_append_drop a ts, List.drop_eq_getElem_cons hal]
    rw [List.zipIdx_append, List.zipIdx_append, List.zipIdx_cons, List.filter_append, List.filter_append, List.map_append,
      List.map_append, List.filter_cons, List.length_take, Nat.min_eq_left hal.le]
    have e1 : (List.zipIdx (List.take a ts)).filter (fun p => decide (p.2 ∉ is))
        = (List.zipIdx (List.take a ts)).filter (fun p => decide (p.2 ∉ a :: is)) := by
      apply List.filter_congr
      rintro ⟨x, k⟩ hx
      have := List.snd_lt_of_mem_zipIdx hx
      simp only [List.length_take] at this
      have hne : k ≠ a := by omega
      simp [hne]
    have e2 : ((ts.drop (a + 1)).zipIdx (0 + a)).filter (fun p => decide (p.2 ∉ is)) = (ts.drop (a + 1)).zipIdx (0 + a) := by
      apply List.filter_eq_self.2
      rintro ⟨x, k⟩ hx
      have h1 := List.le_snd_of_mem_zipIdx hx
      simp only [decide_eq_true_eq]
      intro hk
      have := ha k hk
      omega
    have e3 : ((ts.drop (a + 1)).zipIdx (0 + a + 1)).filter (fun p => decide (p.2 ∉ a :: is))
        = (ts.drop (a + 1)).zipIdx (0 + a + 1) := by
      apply List.filter_eq_self.2
      rintro ⟨x, k⟩ hx
      have h1 := List.le_snd_of_mem_zipIdx hx
      simp only [decide_eq_true_eq, List.mem_cons, not_or]
      refine ⟨by omega, fun hk => ?_⟩
      have := ha k hk
      omega
    rw [e1, e2, e3]
    simp

theorem survivors_congr (ts : List GTensor) {R R' : List Nat} (h : ∀ i, i ∈ R ↔ i ∈ R') : survivors ts R = survivors ts R' := by
  unfold survivors
  apply List.filter_congr
  intro p _
  simp [h]

theorem foldl_min_le (xs : List Nat) : ∀ x : Nat, xs.foldl min x ≤ x ∧ (∀ y ∈ xs, xs.foldl min x ≤ y) ∧
    (xs.foldl min x = x ∨ xs.foldl min x ∈ xs) := by
  induction xs with
  | nil => intro x; simp
  | cons a xs ih =>
    intro x
    obtain ⟨h1, h2, h3⟩ := ih (min x a)
    rw [List.foldl_cons]
    refine ⟨by omega, ?_, ?_⟩
    · intro y hy
      rcases List.mem_cons.1 hy with rfl | hy
      · omega
      · exact h2 y hy
    · rcases h3 with h3 | h3
      · rcases Nat.le_total x a with h | h
        · left; rw [h3]; omega
        · right; rw [h3, Nat.min_eq_right h]; simp
      · right; exact List.mem_cons_of_mem _ h3

theorem setMin_le {r : Nat} {rs : List Nat} : ∀ i ∈ r :: rs, setMin r rs ≤ i := by
  intro i hi
  obtain ⟨h1, h2, _⟩ := foldl_min_le rs r
  rcases List.mem_cons.1 hi with rfl | hi
  · exact h1
  · exact h2 i hi

/-- The fast path condition: exactly the last indices are removed. -/
theorem fast_path {n r : Nat} {rs : List Nat} (hn : (r :: rs).Nodup) (hlt : ∀ i ∈ r :: rs, i < n)
    (h : (setMin r rs : Int) = (n : Int) - (r :: rs).length) (i : Nat) (hi : i < n) : i ∈ r :: rs ↔ setMin r rs ≤ i := by
  refine ⟨fun h => setMin_le i h, fun h2 => ?_⟩
  have hsub : (r :: rs).toFinset ⊆ Finset.Ico (setMin r rs) n := by
    intro x hx
    rw [List.mem_toFinset] at hx
    rw [Finset.mem_Ico]
    exact ⟨setMin_le x hx, hlt x hx⟩
  have hc : (Finset.Ico (setMin r rs) n).card ≤ (r :: rs).toFinset.card := by
    rw [List.toFinset_card_of_nodup hn, Nat.card_Ico]
    have := hlt r (by simp)
    omega
  have := Finset.eq_of_subset_of_card_le hsub hc
  rw [← List.mem_toFinset, this, Finset.mem_Ico]
  exact ⟨h2, hi⟩

theorem survivors_take {ts : List GTensor} {R : List Nat} {m : Nat} (hm : m ≤ ts.length)
    (h : ∀ i, i < ts.length → (i ∈ R ↔ m ≤ i)) : (survivors ts R).map (·.1) = ts.take m := by
  unfold survivors
  conv_lhs => rw [← List.take_append_drop m ts]
  rw [List.zipIdx_append, List.filter_append, List.map_append]
  have e1 : (List.zipIdx (List.take m ts)).filter (fun p => decide (p.2 ∉ R)) = List.zipIdx (List.take m ts) := by
    apply List.filter_eq_self.2
    rintro ⟨x, k⟩ hx
    have := List.snd_lt_of_mem_zipIdx hx
    simp only [List.length_take] at this
    simp only [decide_eq_true_eq]
    rw [h k (by omega)]; omega
  have e2 : ((ts.drop m).zipIdx (0 + (ts.take m).length)).filter (fun p => decide (p.2 ∉ R)) = [] := by
    apply List.filter_eq_nil_iff.2
    rintro ⟨x, k⟩ hx
    have h1 := List.le_snd_of_mem_zipIdx hx
    have h2 := List.snd_lt_add_of_mem_zipIdx hx
    simp only [List.length_take, List.length_drop] at h1 h2
    simp only [decide_eq_true_eq, not_not]
    rw [h k (by omega)]; omega
  rw [e1, e2]
  simp

theorem cntBelow_eq_zero {R : List Nat} {k : Nat} (h : ∀ r ∈ R, k ≤ r) : cntBelow R k = 0 := by
  unfold cntBelow
  rw [List.length_eq_zero_iff, List.filter_eq_nil_iff]
  intro i hi
  have := List.mem_range.1 hi
  simp only [decide_eq_true_eq]
  intro hr
  have := h i hr
  omega

/-- Where a reference goes: kept tensors move down past the removed ones; anything else becomes -1. -/
def renum (n : Nat) (R : List Nat) (i : Int) : Int :=
  if 0 ≤ i ∧ i.toNat < n ∧ i.toNat ∉ R then ((i.toNat - cntBelow R i.toNat : Nat) : Int) else -1

theorem updateTensors_eq (n : Nat) (R : List Nat) (xs : List Int) : updateTensors (dictOf n R) xs = xs.map (renum n R) := by
  unfold updateTensors
  apply List.map_congr_left
  intro i _
  unfold renum
  by_cases h0 : 0 ≤ i
  · obtain ⟨k, rfl⟩ := Int.eq_ofNat_of_zero_le h0
    simp only [dictGet_dictOf, Int.toNat_natCast]
    by_cases h1 : k < n ∧ k ∉ R
    · rw [if_pos h1, if_pos ⟨h0, h1⟩]
    · rw [if_neg h1, if_neg fun h => h1 h.2]
  · rw [if_neg (by omega)]
    simp [dictGet, h0]

theorem updateSigTensors_get (n : Nat) (R : List Nat) (xs : List Int) (k i : Nat) (h : xs[k]? = some (i : Int)) (hi : i < n)
    (hR : i ∉ R) : (updateSigTensors (dictOf n R) xs)[k]? = some ((i - cntBelow R i : Nat) : Int) := by
  unfold updateSigTensors
  rw [List.getElem?_map, h, Option.map_some]
  simp only [dictGet_dictOf, if_pos (show i < n ∧ i ∉ R from ⟨hi, hR⟩)]

theorem lt_of_getElem? {α : Type} {l : List α} {i : Nat} {x : α} (h : l[i]? = some x) : i < l.length :=
  (List.getElem?_eq_some_iff.1 h).1

theorem sameRefs_renum (ts : List GTensor) (R : List Nat) (xs : List Int) : SameRefs ts R xs (xs.map (renum ts.length R)) := by
  refine ⟨by simp, fun k i t hk ht hR => ⟨i - cntBelow R i, ?_, survivors_get ht hR⟩⟩
  rw [List.getElem?_map, hk, Option.map_some]
  unfold renum
  simp only [Int.toNat_natCast]
  rw [if_pos ⟨by omega, lt_of_getElem? ht, hR⟩]

theorem sameRefs_sig (ts : List GTensor) (R : List Nat) (xs : List Int) :
    SameRefs ts R xs (updateSigTensors (dictOf ts.length R) xs) :=
  ⟨by simp [updateSigTensors], fun k i _t hk ht hR =>
    ⟨i - cntBelow R i, updateSigTensors_get _ _ _ _ _ hk (lt_of_getElem? ht) hR, survivors_get ht hR⟩⟩

/-- When only the last tensors are removed, references stay. -/
theorem sameRefs_id {ts : List GTensor} {R : List Nat} {m : Nat}
    (h : ∀ i, i < ts.length → (i ∈ R ↔ m ≤ i)) (hm : ∀ r ∈ R, m ≤ r) (xs : List Int) : SameRefs ts R xs xs := by
  refine ⟨rfl, fun k i t hk ht hR => ⟨i, hk, ?_⟩⟩
  have hlt := lt_of_getElem? ht
  have him : ¬ m ≤ i := fun hc => hR ((h i hlt).2 hc)
  have hc : cntBelow R i = 0 := cntBelow_eq_zero fun r hr => by have := hm r hr; omega
  have := survivors_get ht hR
  rwa [hc, Nat.sub_zero] at this

theorem sorted_desc {R : List Nat} (hn : R.Nodup) : (R.insertionSort (· ≥ ·)).Pairwise (· > ·) ∧
    ∀ i, i ∈ R.insertionSort (· ≥ ·) ↔ i ∈ R := by
  have h1 : (R.insertionSort (· ≥ ·)).Pairwise (· ≥ ·) := List.pairwise_insertionSort _ R
  have h2 : (R.insertionSort (· ≥ ·)).Perm R := List.perm_insertionSort _ R
  have h3 : (R.insertionSort (· ≥ ·)).Nodup := h2.nodup_iff.2 hn
  refine ⟨?_, fun i => h2.mem_iff⟩
  refine (h1.and h3).imp ?_
  intro a b ⟨hab, hne⟩
  omega

/-- What `_remove_tensors_from_model` returns, for any set of existing tensors. -/
theorem removeTensors_cases (sigs : List Sig) (sg : SubGraph) (R : List Nat) (hn : R.Nodup)
    (hlt : ∀ r ∈ R, r < sg.tensors.length) :
    ((∃ m : Nat, (∀ i, i < sg.tensors.length → (i ∈ R ↔ m ≤ i)) ∧ (∀ r ∈ R, m ≤ r) ∧
      removeTensors sigs sg R = some (sigs, { sg with tensors := (survivors sg.tensors R).map (·.1) })) ∨
    removeTensors sigs sg R = some (updateFirstSig (fun s => { s with
          inputs := updateSigTensors (dictOf sg.tensors.length R) s.inputs,
          outputs := updateSigTensors (dictOf sg.tensors.length R) s.outputs }) sigs,
        { tensors := (survivors sg.tensors R).map (·.1), inputs := sg.inputs.map (renum sg.tensors.length R),
          outputs := sg.outputs.map (renum sg.tensors.length R),
          ops := sg.ops.map fun o => { o with ins := o.ins.map (renum sg.tensors.length R),
                                              outs := o.outs.map (renum sg.tensors.length R) } })) := by
  cases R with
  | nil =>
    left
    refine ⟨sg.tensors.length, fun i hi => by simp; omega, by simp, ?_⟩
    simp [removeTensors, survivors]
  | cons r rs =>
    by_cases h : (setMin r rs : Int) = (sg.tensors.length : Int) - (r :: rs).length
    · left
      have hf := fast_path hn hlt h
      refine ⟨setMin r rs, fun i hi => hf i hi, fun i hi => setMin_le i hi, ?_⟩
      unfold removeTensors
      simp only []
      rw [if_pos h, survivors_take (m := setMin r rs) (by omega) (fun i hi => hf i hi)]
    · right
      unfold removeTensors
      simp only []
      rw [if_neg h, oldToNew_eq]
      obtain ⟨s1, s2⟩ := sorted_desc hn
      have hp := popAll_eq _ sg.tensors s1 (fun i hi => hlt i ((s2 i).1 hi))
      rw [survivors_congr _ s2] at hp
      simp only [bind, Option.bind, hp, updateTensors_eq]

end Verif
