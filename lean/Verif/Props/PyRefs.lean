import Verif.Proof.PyIoExact

/-!
C38: what becomes of the references to the removed tensors.
-/

namespace Verif

/-- The references `new` to the removed tensors among the references `old` refer to no tensor of `sg'`. -/
def NoTensor (R : List Nat) (sg' : SubGraph) (old new : List Int) : Prop :=
  new.length = old.length ∧
  ∀ (k i : Nat) (j : Int), old[k]? = some (i : Int) → i ∈ R → new[k]? = some j → tensorAt sg' j = none

theorem noTensor_map {sg : SubGraph} {R : List Nat} {ρ : Int → Int} (h : Renumbers sg.tensors R ρ) (xs : List Int) :
    NoTensor R (mapGraph sg R ρ) xs (xs.map ρ) := by
  refine ⟨by simp, fun k i j hk hi hj => ?_⟩
  rw [List.getElem?_map, hk] at hj
  simp only [Option.map_some, Option.some.injEq] at hj
  subst hj
  unfold tensorAt
  rcases h.lost (i : Int) (fun hc => hc.2.2 (by simpa using hi)) with hx | hx
  · rw [if_neg (by omega)]
  · by_cases h0 : 0 ≤ ρ i
    · rw [if_pos h0, List.getElem?_eq_none]
      unfold mapGraph
      simpa using hx
    · rw [if_neg h0]

theorem updateSigTensors_removed {n : Nat} {R : List Nat} {xs : List Int} {k i : Nat} (hk : xs[k]? = some (i : Int)) (hi : i ∈ R) :
    (updateSigTensors (dictOf n R) xs)[k]? = some (i : Int) := by
  unfold updateSigTensors
  rw [List.getElem?_map, hk]
  simp only [Option.map_some, dictGet_dictOf]
  rw [if_neg (fun h => h.2 hi)]

/-- **C38**, references to the removed tensors: those of the graph and of its operators refer to no tensor afterwards. Those of
the first signature keep their number. -/
theorem C38_removed_references (sigs : List Sig) (sg : SubGraph) (R : List Nat) (hn : R.Nodup)
    (hlt : ∀ r ∈ R, r < sg.tensors.length) :
    ∃ sigs' sg', removeTensors sigs sg R = some (sigs', sg') ∧
      NoTensor R sg' sg.inputs sg'.inputs ∧ NoTensor R sg' sg.outputs sg'.outputs ∧
      List.Forall₂ (fun o o' : GOp => NoTensor R sg' o.ins o'.ins ∧ NoTensor R sg' o.outs o'.outs) sg.ops sg'.ops ∧
      ∀ s rest, sigs = s :: rest → ∃ s', sigs' = s' :: rest ∧ ∀ k i : Nat, i ∈ R →
        (s.inputs[k]? = some (i : Int) → s'.inputs[k]? = some (i : Int)) ∧
        (s.outputs[k]? = some (i : Int) → s'.outputs[k]? = some (i : Int)) := by
  obtain ⟨ρ, sigs', hρ, he, -⟩ := removeTensors_any sigs sg R hn hlt
  refine ⟨sigs', _, he, noTensor_map hρ _, noTensor_map hρ _, ?_, ?_⟩
  · unfold mapGraph
    simp only []
    rw [List.forall₂_map_right_iff]
    exact List.forall₂_same.2 fun o _ => ⟨noTensor_map hρ _, noTensor_map hρ _⟩
  · rintro s rest rfl
    rcases removeTensors_cases (s :: rest) sg R hn hlt with ⟨m, h1, h2, he'⟩ | he'
    · rw [he] at he'
      simp only [Option.some.injEq, Prod.mk.injEq] at he'
      exact ⟨s, he'.1, fun k i _ => ⟨id, id⟩⟩
    · rw [he] at he'
      simp only [Option.some.injEq, Prod.mk.injEq] at he'
      refine ⟨_, he'.1, fun k i hi => ⟨fun hk => ?_, fun hk => ?_⟩⟩
      · exact updateSigTensors_removed hk hi
      · exact updateSigTensors_removed hk hi

/-- The number that the signature keeps can be that of another tensor: the signature's output was the removed tensor 1 and now is
the int32 tensor, the graph's own output refers to no tensor. -/
theorem C38_signature_other_tensor :
    removeTensors [⟨0, [0], [1]⟩] ⟨[⟨0, 10⟩, ⟨0, 11⟩, ⟨2, 12⟩], [0], [1], []⟩ [1]
      = some ([⟨0, [0], [1]⟩], ⟨[⟨0, 10⟩, ⟨2, 12⟩], [0], [-1], []⟩) := by decide +kernel

end Verif
