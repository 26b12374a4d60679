import Verif.Model.BatchSize

/-! C42: the batch size pass. -/

namespace Verif

/-- The type with its leading dimension set to 1 when that dimension is dynamic. -/
def batchOne : MType → MType
  | .ranked (d :: ds) elem enc => if d = kDynamic then .ranked (1 :: ds) elem enc else .ranked (d :: ds) elem enc
  | t => t

theorem setBatchSize_eq (t : MType) : (setBatchSize t).getD t = batchOne t := by
  cases t with
  | ranked shape elem enc =>
    cases shape with
    | nil => simp [setBatchSize, batchOne]
    | cons d ds =>
      simp only [setBatchSize, batchOne, List.length_cons, List.getElem?_cons_zero, Option.some.injEq, List.set_cons_zero]
      by_cases h : d = kDynamic
      · simp [h]
      · simp [h]
  | unranked e => rfl
  | other i => rfl

theorem updateTypes_eq (ts : List MType) : updateTypes ts = some (ts.map batchOne) := by
  unfold updateTypes
  obtain ⟨s, h1, h2, h3⟩ := forN_inv (n := ts.length) (s := ts)
    (body := updateStep)
    (fun k s => s.length = ts.length ∧ ∀ i, s[i]? = if i < k then (ts[i]?).map batchOne else ts[i]?)
    ⟨rfl, fun i => by simp⟩
    (by
      intro k s hk ⟨hl, hs⟩
      have hk' : s[k]? = some ts[k] := by rw [hs k, if_neg (by omega)]; simp [hk]
      have hb := setBatchSize_eq ts[k]
      cases hsb : setBatchSize ts[k] with
      | none =>
        refine ⟨s, by simp only [updateStep, rd, hk', hsb, Option.bind_eq_bind, Option.bind_some], hl, fun i => ?_⟩
        rw [hs i]
        by_cases hik : i = k
        · subst hik
          rw [hsb] at hb
          simp only [Option.getD_none] at hb
          rw [if_neg (by omega), if_pos (by omega)]
          simp [hk, ← hb]
        · by_cases h1 : i < k
          · rw [if_pos h1, if_pos (by omega)]
          · rw [if_neg h1, if_neg (by omega)]
      | some t' =>
        have hks : k < s.length := by omega
        refine ⟨s.set k t', by simp only [updateStep, rd, wr, hk', hsb, Option.bind_eq_bind, Option.bind_some, if_pos hks], by simpa using hl, fun i => ?_⟩
        rw [hsb] at hb
        simp only [Option.getD_some] at hb
        by_cases hik : i = k
        · subst hik
          rw [if_pos (by omega), List.getElem?_set_self hks]
          simp [hk, hb]
        · rw [List.getElem?_set_ne (by omega), hs i]
          by_cases h1 : i < k
          · rw [if_pos h1, if_pos (by omega)]
          · rw [if_neg h1, if_neg (by omega)])
  rw [h1]
  congr 1
  apply List.ext_getElem?
  intro i
  rw [h3 i, List.getElem?_map]
  by_cases hi : i < ts.length
  · rw [if_pos hi]
  · rw [if_neg hi, List.getElem?_eq_none (by omega)]; rfl

/-- **C42.** The pass succeeds on every function; it keeps the number of inputs, the results, and every type except that the
dynamic leading dimension of an input becomes 1 (other dimensions, element types and encodings stay); afterwards no input
has a dynamic leading dimension; if signature and block arguments agreed before, they agree after; running it again
changes nothing. -/
theorem C42_set_batch_size (f : MFunc) :
    ∃ g, setBatchSizePass f = some g ∧ g.results = f.results ∧
      g.inputs.length = f.inputs.length ∧ g.args.length = f.args.length ∧
      (∀ (i : Nat) (t : MType), f.inputs[i]? = some t →
        (∀ ds elem enc, t = MType.ranked (kDynamic :: ds) elem enc → g.inputs[i]? = some (MType.ranked (1 :: ds) elem enc)) ∧
        ((∀ ds elem enc, t ≠ MType.ranked (kDynamic :: ds) elem enc) → g.inputs[i]? = some t)) ∧
      (∀ (i : Nat) ds elem enc, g.inputs[i]? ≠ some (MType.ranked (kDynamic :: ds) elem enc)) ∧
      (f.inputs = f.args → g.inputs = g.args) ∧
      setBatchSizePass g = some g := by
  have idem : ∀ t, batchOne (batchOne t) = batchOne t := by
    intro t
    cases t with
    | ranked shape elem enc =>
      cases shape with
      | nil => rfl
      | cons d ds =>
        by_cases h : d = kDynamic
        · simp [batchOne, h, kDynamic]
        · simp [batchOne, h]
    | unranked e => rfl
    | other i => rfl
  refine ⟨⟨f.inputs.map batchOne, f.results, f.args.map batchOne⟩, ?_, rfl, by simp, by simp, ?_, ?_, ?_, ?_⟩
  · unfold setBatchSizePass
    simp only [updateTypes_eq, Option.bind_eq_bind, Option.bind_some]
  · intro i t ht
    constructor
    · rintro ds elem enc rfl
      simp [ht, batchOne]
    · intro hne
      have : batchOne t = t := by
        cases t with
        | ranked shape elem enc =>
          cases shape with
          | nil => rfl
          | cons d ds =>
            by_cases h : d = kDynamic
            · exact absurd (by rw [h]) (hne ds elem enc)
            · simp [batchOne, h]
        | unranked e => rfl
        | other i => rfl
      simp [ht, this]
  · intro i ds elem enc h
    rw [List.getElem?_map] at h
    obtain ⟨t, _, ht⟩ := Option.map_eq_some_iff.1 h
    cases t with
    | ranked shape elem' enc' =>
      cases shape with
      | nil => simp [batchOne] at ht
      | cons d ds' =>
        by_cases h : d = kDynamic
        · simp [batchOne, h, kDynamic] at ht
        · simp [batchOne, h] at ht
    | unranked e => simp [batchOne] at ht
    | other i => simp [batchOne] at ht
  · intro h; simp only [h]
  · unfold setBatchSizePass
    simp only [updateTypes_eq, Option.bind_eq_bind, Option.bind_some, List.map_map]
    have : batchOne ∘ batchOne = batchOne := funext idem
    rw [this]

/-- Non-vacuity: a function with a dynamic batch (and a dynamic inner dimension, which stays). -/
example : setBatchSizePass ⟨[.ranked [kDynamic, 32, kDynamic] 0 0, .ranked [4] 1 0, .other 7], [.unranked 3],
      [.ranked [kDynamic, 32, kDynamic] 0 0, .ranked [4] 1 0, .other 7]⟩
    = some ⟨[.ranked [1, 32, kDynamic] 0 0, .ranked [4] 1 0, .other 7], [.unranked 3],
      [.ranked [1, 32, kDynamic] 0 0, .ranked [4] 1 0, .other 7]⟩ := by decide +kernel

end Verif
