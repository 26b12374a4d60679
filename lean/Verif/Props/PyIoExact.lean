import Verif.Proof.PyIoExact

/-!
C40, exactly: when converting the inputs and outputs of an integer-quantized model to int8 preserves what it computes.
-/

namespace Verif

variable {V : Type}

/-- Hypotheses restricted to the converted sides. -/
structure IoWeak (q d : Option Nat) (sg : SubGraph) : Prop where
  ok : GraphOK sg
  order : ∀ l1 o l2, sg.ops = l1 ++ o :: l2 → ∀ i ∈ o.ins, ∀ o' ∈ o :: l2, i ∉ o'.outs
  unaryQ : Unary q sg
  unaryD : Unary d sg
  ne : ∀ k, q = some k → d ≠ some k

theorem remF_input' {q d : Option Nat} {sg : SubGraph} (h : IoWeak q d sg) {i : Int} (hi : RemF q sg i) : i ∈ sg.inputs := by
  obtain ⟨o, ho, ⟨hc, f, hf, hfi⟩, hio⟩ := hi
  obtain ⟨a, b, ha, _, _⟩ := h.unaryQ o ho hc
  rw [ha, List.mem_singleton] at hf hio
  rw [hio, ← hf]; exact hfi

/-- What the call returns, for every graph of the right types. -/
theorem modify_io_run (codes : List OpCode) (qc dc : Option Nat)
    (hqc : CodeIs (fun c => c.builtin == opQuantize) codes qc)
    (hdc : CodeIs (fun c => c.builtin == opDequantize) codes dc) (hsome : qc ≠ none ∨ dc ≠ none) (intIn intOut : Bool)
    (sg : SubGraph) (h : IoTyped qc dc sg) (sigs : List Sig) :
    ∃ (R : List Nat) (ρ : Int → Int) (sigs' : List Sig), IoWeak (if intIn then qc else none) (if intOut then dc else none) sg ∧
      (∀ i : Nat, i ∈ R ↔ RemF (if intIn then qc else none) sg i ∨ RemD (if intOut then dc else none) sg i) ∧
      Renumbers sg.tensors R ρ ∧
      modifyIo codes intIn intOut sigs sg
        = some (sigs', mapGraph (dropIo (if intIn then qc else none) (if intOut then dc else none) sg) R ρ) ∧
      ∀ s rest, sigs = s :: rest → (∀ i ∈ s.inputs, i ∈ sg.inputs) → (∀ i ∈ s.outputs, i ∈ sg.outputs) →
        (∀ i ∈ s.inputs, Kept sg.tensors.length R (quantOf (if intIn then qc else none) sg i)) →
        (∀ i ∈ s.outputs, Kept sg.tensors.length R (fedBy (if intOut then dc else none) sg i)) →
        sigs' = { s with inputs := s.inputs.map fun i => ρ (quantOf (if intIn then qc else none) sg i),
                         outputs := s.outputs.map fun i => ρ (fedBy (if intOut then dc else none) sg i) } :: rest := by
  have hdis : ∀ k, qc = some k → dc ≠ some k := by
    intro k hq hd
    obtain ⟨x, hx, hp⟩ := (hqc k).1 hq
    obtain ⟨y, hy, hp'⟩ := (hdc k).1 hd
    rw [hx] at hy
    simp only [Option.some.injEq] at hy
    subst hy
    simp only [beq_iff_eq] at hp hp'
    rw [hp] at hp'
    exact absurd hp' (by decide)
  have hdc' : CodeIs (fun c => !(c.builtin == opQuantize) && c.builtin == opDequantize) codes dc := by
    intro i
    rw [hdc i]
    constructor
    · rintro ⟨x, hx, hp⟩
      refine ⟨x, hx, ?_⟩
      simp only [beq_iff_eq] at hp
      simp only [hp]; decide
    · rintro ⟨x, hx, hp⟩
      simp only [Bool.and_eq_true] at hp
      exact ⟨x, hx, hp.2⟩
  generalize hq : (if intIn then qc else none) = q at *
  generalize hd : (if intOut then dc else none) = d at *
  have hIo : IoWeak q d sg := by
    refine ⟨h.ok, h.order, ?_, ?_, ?_⟩
    · intro o ho hc
      apply h.unaryQ o ho
      rw [← hc, ← hq]
      rw [← hq] at hc
      cases intIn
      · simp at hc
      · rfl
    · intro o ho hc
      apply h.unaryD o ho
      rw [← hc, ← hd]
      rw [← hd] at hc
      cases intOut
      · simp at hc
      · rfl
    · intro k hk hk'
      rw [← hq] at hk
      rw [← hd] at hk'
      cases intIn
      · simp at hk
      · cases intOut
        · simp at hk'
        · exact hdis k hk hk'
  have hatD : ∀ {o : GOp}, AtOutput d sg.outputs o → AtOutput dc sg.outputs o := by
    intro o ho
    rw [← hd] at ho
    cases intOut
    · exact absurd ho.1 (by simp)
    · exact ho
  let qs := sg.ops.filter fun o => decide (AtInput q sg.inputs o)
  let ds := sg.ops.filter fun o => decide (AtOutput d sg.outputs o)
  have hqm : ∀ o ∈ qs, o ∈ sg.ops ∧ AtInput q sg.inputs o := fun o ho => by
    have := List.mem_filter.1 ho
    exact ⟨this.1, by simpa using this.2⟩
  have hdm : ∀ o ∈ ds, o ∈ sg.ops ∧ AtOutput d sg.outputs o := fun o ho => by
    have := List.mem_filter.1 ho
    exact ⟨this.1, by simpa using this.2⟩
  have hqa : ∀ o ∈ qs, ∃ i t, o.ins = [i] ∧ o.outs = [t] ∧ i ≠ -1 ∧ i ∈ sg.inputs := fun o ho => by
    obtain ⟨i, t, h1, h2, h3⟩ := hIo.unaryQ o (hqm o ho).1 (hqm o ho).2.1
    exact ⟨i, t, h1, h2, h3, remF_input' hIo ⟨o, (hqm o ho).1, (hqm o ho).2, by simp [h1]⟩⟩
  have hda : ∀ o ∈ ds, ∃ i t, o.ins = [i] ∧ o.outs = [t] ∧ i ≠ -1 := fun o ho =>
    hIo.unaryD o (hdm o ho).1 (hdm o ho).2.1
  obtain ⟨rm1, hrm1, hn1, hmem1⟩ := removeInputOps_eq qs sigs sg [] (fun o ho => by
      obtain ⟨i, t, h1, h2, _⟩ := hqa o ho
      simp [h1, h2]) (by
      intro o ho o' ho' he
      obtain ⟨i, t, h1, h2, _⟩ := hqa o ho
      obtain ⟨i', t', h1', h2', _, hin'⟩ := hqa o' ho'
      simp only [outOf, inOf, h2, h1', List.headD_cons] at he
      exact hIo.ok.notInput o (hqm o ho).1 t (by simp [h2]) (he ▸ hin')) hIo.ok.ids List.nodup_nil
  generalize hs1 : updateFirstSig (fun s => { s with inputs := s.inputs.map (repl (qs.map fun o => (inOf o, outOf o))) }) sigs
    = sigs1 at *
  generalize hg1 : ({ sg with inputs := sg.inputs.map (repl (qs.map fun o => (inOf o, outOf o))),
                              ops := sg.ops.filter fun x => decide (x.id ∉ qs.map (·.id)) } : SubGraph) = sg1 at *
  obtain ⟨rm2, hrm2, hn2, hmem2⟩ := removeOutputOps_eq ds sigs1 sg1 rm1 (fun o ho => by
      obtain ⟨i, t, h1, h2, _⟩ := hda o ho
      simp [h1, h2]) (by
      intro o ho o' ho' he
      obtain ⟨i, t, h1, h2, _⟩ := hda o ho
      obtain ⟨i', t', h1', h2', _⟩ := hda o' ho'
      simp only [outOf, inOf, h1, h2', List.headD_cons] at he
      have hr := (hIo.ok.ins o (hdm o ho).1 i (by simp [h1])).resolve_left (by assumption)
      obtain ⟨x, _, hx⟩ := pyGet_nonneg hr
      have t1 := (h.typesD o (hdm o ho).1 (hatD (hdm o ho).2)).2 i (by simp [h1]) x hx
      have t2 := (h.typesD o' (hdm o' ho').1 (hatD (hdm o' ho').2)).1 t' (by simp [h2']) x (by rw [← he]; exact hx)
      rw [t1] at t2
      exact absurd t2 (by decide))
    (by rw [← hg1]; exact nodup_ids_filter _ hIo.ok.ids) hn1
  have hsrc : ∀ i, i ∈ rm2 ↔ RemF q sg i ∨ RemD d sg i := by
    intro i
    rw [hmem2, hmem1]
    constructor
    · rintro ((hx | ⟨o, ho, rfl⟩) | ⟨o, ho, rfl⟩)
      · simp at hx
      · obtain ⟨i, t, h1, h2, _⟩ := hqa o ho
        exact .inl ⟨o, (hqm o ho).1, (hqm o ho).2, by simp [inOf, h1]⟩
      · obtain ⟨i, t, h1, h2, _⟩ := hda o ho
        exact .inr ⟨o, (hdm o ho).1, (hdm o ho).2, by simp [outOf, h2]⟩
    · rintro (⟨o, ho, hat, hm⟩ | ⟨o, ho, hat, hm⟩)
      · have hof : o ∈ qs := List.mem_filter.2 ⟨ho, by simpa using hat⟩
        obtain ⟨a, t, h1, h2, _⟩ := hqa o hof
        refine .inl (.inr ⟨o, hof, ?_⟩)
        rw [h1, List.mem_singleton] at hm
        simp [inOf, h1, hm]
      · have hof : o ∈ ds := List.mem_filter.2 ⟨ho, by simpa using hat⟩
        obtain ⟨a, t, h1, h2, _⟩ := hda o hof
        refine .inr ⟨o, hof, ?_⟩
        rw [h2, List.mem_singleton] at hm
        simp [outOf, h2, hm]
  have hpos : ∀ i ∈ rm2, InRange sg i := by
    intro i hi
    rcases (hsrc i).1 hi with hx | ⟨o, ho, _, hm⟩
    · exact hIo.ok.inputs i (remF_input' hIo hx)
    · exact hIo.ok.outs o ho i hm
  obtain ⟨hN1, hN2⟩ := natIdxs_eq hn2 fun i hi => (hpos i hi).1
  have hR : ∀ i : Nat, i ∈ rm2.map Int.toNat ↔ RemF q sg i ∨ RemD d sg i := by
    intro i
    rw [← hsrc]
    constructor
    · intro hi
      obtain ⟨j, hj, rfl⟩ := List.mem_map.1 hi
      rwa [Int.toNat_of_nonneg (hpos _ hj).1]
    · intro hi
      exact List.mem_map.2 ⟨_, hi, by simp⟩
  generalize rm2.map Int.toNat = R at *
  have idq : ∀ o ∈ sg.ops, o.id ∉ qs.map (·.id) ↔ ¬ AtInput q sg.inputs o := by
    intro o ho
    constructor
    · intro hx hat
      exact hx (List.mem_map.2 ⟨o, List.mem_filter.2 ⟨ho, by simpa using hat⟩, rfl⟩)
    · intro hx hm
      obtain ⟨o', ho', he⟩ := List.mem_map.1 hm
      have : o' = o := List.inj_on_of_nodup_map hIo.ok.ids (hqm o' ho').1 ho he
      exact hx (this ▸ (hqm o' ho').2)
  have idd : ∀ o ∈ sg.ops, o.id ∉ ds.map (·.id) ↔ ¬ AtOutput d sg.outputs o := by
    intro o ho
    constructor
    · intro hx hat
      exact hx (List.mem_map.2 ⟨o, List.mem_filter.2 ⟨ho, by simpa using hat⟩, rfl⟩)
    · intro hx hm
      obtain ⟨o', ho', he⟩ := List.mem_map.1 hm
      have : o' = o := List.inj_on_of_nodup_map hIo.ok.ids (hdm o' ho').1 ho he
      exact hx (this ▸ (hdm o' ho').2)
  have hgr : ({ sg1 with outputs := sg1.outputs.map (repl (ds.map fun o => (outOf o, inOf o))),
                         ops := sg1.ops.filter fun x => decide (x.id ∉ ds.map (·.id)) } : SubGraph) = dropIo q d sg := by
    rw [← hg1]
    unfold dropIo
    simp only []
    have e1 : sg.inputs.map (repl (qs.map fun o => (inOf o, outOf o))) = sg.inputs.map (quantOf q sg) :=
      List.map_congr_left fun t ht => repl_quantOf hIo.unaryQ ht
    have e2 : sg.outputs.map (repl (ds.map fun o => (outOf o, inOf o))) = sg.outputs.map (fedBy d sg) :=
      List.map_congr_left fun t ht => repl_fedBy hIo.unaryD ht
    rw [e1, e2, List.filter_filter]
    congr 1
    apply List.filter_congr
    intro o ho
    rw [Bool.eq_iff_iff]
    simp only [decide_eq_true_eq, Bool.and_eq_true]
    rw [idq o ho, idd o ho]
    tauto
  rw [hgr] at hrm2
  have hlt : ∀ r ∈ R, r < (dropIo q d sg).tensors.length := by
    intro r hr
    change r < sg.tensors.length
    rcases (hR r).1 hr with hx | ⟨o, ho, _, hm⟩
    · have := (hIo.ok.inputs _ (remF_input' hIo hx)).2
      simpa using this
    · have := (hIo.ok.outs o ho _ hm).2
      simpa using this
  obtain ⟨ρ, sigs', hρ, hs2, hs3⟩ := removeTensors_any
    (updateFirstSig (fun s => { s with outputs := s.outputs.map (repl (ds.map fun o => (outOf o, inOf o))) }) sigs1)
    (dropIo q d sg) R hN2 hlt
  refine ⟨R, ρ, sigs', hIo, hR, hρ, ?_, ?_⟩
  · unfold modifyIo
    simp only [findCodes_codeIs hqc hdc']
    rw [if_neg]
    · rw [findIoOps_eq h hdis sg.ops fun o ho => ho]
      simp only [Option.bind_eq_bind, Option.bind_some]
      have a1 : (if intIn = true then removeInputOps (sg.ops.filter fun o => decide (AtInput qc sg.inputs o)) (sigs, sg, [])
          else some (sigs, sg, [])) = some (sigs1, sg1, rm1) := by
        rw [← hrm1]
        cases hb : intIn with
        | true =>
          rw [hb, if_pos rfl] at hq
          rw [if_pos rfl, hq]
        | false =>
          rw [hb, if_neg (by simp)] at hq
          rw [if_neg (by simp)]
          have : qs = [] := by
            apply List.filter_eq_nil_iff.2
            intro o _
            rw [← hq]
            simp [AtInput]
          rw [this]; rfl
      rw [a1]
      simp only [Option.bind_some]
      have a2 : (if intOut = true then removeOutputOps (sg.ops.filter fun o => decide (AtOutput dc sg.outputs o)) (sigs1, sg1, rm1)
          else some (sigs1, sg1, rm1)) = removeOutputOps ds (sigs1, sg1, rm1) := by
        cases hb : intOut with
        | true =>
          rw [hb, if_pos rfl] at hd
          rw [if_pos rfl, hd]
        | false =>
          rw [hb, if_neg (by simp)] at hd
          rw [if_neg (by simp)]
          have : ds = [] := by
            apply List.filter_eq_nil_iff.2
            intro o _
            rw [← hd]
            simp [AtOutput]
          rw [this]; rfl
      rw [a2, hrm2]
      simp only [Option.bind_some, hN1, hs2]
    · intro hb
      simp only [Bool.and_eq_true, Option.isNone_iff_eq_none] at hb
      exact hsome.elim (fun hc => hc hb.1) (fun hc => hc hb.2)
  · rintro s rest rfl hsi hso hki hko
    rw [← hs1] at hs3
    have e1 : s.inputs.map (repl (qs.map fun o => (inOf o, outOf o))) = s.inputs.map (quantOf q sg) :=
      List.map_congr_left fun t ht => repl_quantOf hIo.unaryQ (hsi t ht)
    have e2 : s.outputs.map (repl (ds.map fun o => (outOf o, inOf o))) = s.outputs.map (fedBy d sg) :=
      List.map_congr_left fun t ht => repl_fedBy hIo.unaryD (hso t ht)
    simp only [updateFirstSig, e1, e2] at hs3
    rw [hs3 _ rest rfl]
    · simp only [List.map_map]
      rfl
    · intro i hi
      obtain ⟨t, ht, rfl⟩ := List.mem_map.1 hi
      exact hki t ht
    · intro i hi
      obtain ⟨t, ht, rfl⟩ := List.mem_map.1 hi
      exact hko t ht


section values

variable {q d : Option Nat} {sg : SubGraph} {R : List Nat} {ρ : Int → Int}

/-- The references that are kept. -/
theorem kept_of (hR : ∀ i : Nat, i ∈ R ↔ RemF q sg i ∨ RemD d sg i) {i : Int} (hi : InRange sg i) (h1 : ¬ RemF q sg i)
    (h2 : ¬ RemD d sg i) : Kept sg.tensors.length R i := by
  refine ⟨hi.1, hi.2, fun hm => ?_⟩
  have := (hR _).1 hm
  rw [Int.toNat_of_nonneg hi.1] at this
  exact this.elim h1 h2

theorem not_kept_of (hR : ∀ i : Nat, i ∈ R ↔ RemF q sg i ∨ RemD d sg i) {i : Int} (h : RemF q sg i ∨ RemD d sg i) :
    ¬ Kept sg.tensors.length R i := by
  rintro ⟨h0, _, h2⟩
  apply h2
  rw [hR, Int.toNat_of_nonneg h0]
  exact h

/-- The new inputs are kept tensors that no remaining operator produces. -/
theorem newInput_kept (h : IoWeak q d sg) (hR : ∀ i : Nat, i ∈ R ↔ RemF q sg i ∨ RemD d sg i) {f : Int}
    (hf : f ∈ sg.inputs) : Kept sg.tensors.length R (quantOf q sg f) ∧
      ∀ o ∈ (dropIo q d sg).ops, quantOf q sg f ∉ o.outs := by
  rcases quantOf_cases h.unaryQ f with ⟨o, ho, hc, h1, h2⟩ | ⟨he, hno⟩
  · have hat : AtInput q sg.inputs o := ⟨hc, f, by simp [h1], hf⟩
    have hm : quantOf q sg f ∈ o.outs := by rw [h2]; simp
    refine ⟨kept_of hR (h.ok.outs o ho _ hm) ?_ ?_, ?_⟩
    · intro hx
      exact h.ok.notInput o ho _ hm (remF_input' h hx)
    · rintro ⟨o', ho', hat', hm'⟩
      have := producer_unique h.ok ho ho' hm hm'
      subst this
      exact h.ne _ hc hat'.1
    · intro o' ho' hm'
      obtain ⟨ho2, hk⟩ := List.mem_filter.1 ho'
      simp only [decide_eq_true_eq] at hk
      have := producer_unique h.ok ho ho2 hm hm'
      subst this
      exact hk.1 hat
  · rw [he]
    refine ⟨kept_of hR (h.ok.inputs f hf) ?_ ?_, ?_⟩
    · rintro ⟨o, ho, hat, hm⟩
      obtain ⟨a, b, ha, _, _⟩ := h.unaryQ o ho hat.1
      rw [ha, List.mem_singleton] at hm
      exact hno o ho hat.1 (by rw [ha, hm])
    · rintro ⟨o, ho, _, hm⟩
      exact h.ok.notInput o ho f hm hf
    · intro o' ho' hm'
      exact h.ok.notInput o' (List.mem_filter.1 ho').1 f hm' hf

theorem newInput_iff (h : IoWeak q d sg) {o : GOp} (ho : o ∈ sg.ops) {t : Int} (ht : t ∈ o.outs)
    (hm : t ∈ sg.inputs.map (quantOf q sg)) : AtInput q sg.inputs o ∧ ∀ f ∈ o.ins, quantOf q sg f = t := by
  obtain ⟨f, hf, rfl⟩ := List.mem_map.1 hm
  rcases quantOf_cases h.unaryQ f with ⟨o', ho', hc, h1, h2⟩ | ⟨he, _⟩
  · have := producer_unique h.ok ho ho' ht (by rw [h2]; simp)
    subst this
    refine ⟨⟨hc, f, by simp [h1], hf⟩, ?_⟩
    intro g hg
    rw [h1, List.mem_singleton] at hg
    rw [hg]
  · rw [he] at ht
    exact absurd hf (h.ok.notInput o ho f ht)

/-- What the values `E'` of the new graph, on the references of the old one, satisfy; `E`: the values of the old one. -/
structure NewValues (sem : OpSem V) (cv : GTensor → Option V) (q d : Option Nat) (sg : SubGraph) (vals' : List V)
    (E E' : GEnv V) : Prop where
  op : ∀ o ∈ sg.ops, ¬ AtInput q sg.inputs o → ¬ AtOutput d sg.outputs o → ∀ t ∈ o.outs,
    E' t = writeOuts (initEnv cv (dropIo q d sg) vals') o.outs (sem o.code o.opts (o.ins.map E')) t
  input : ∀ t ∈ sg.inputs.map (quantOf q sg), E' t = E t
  /-- nothing else has a value but constants -/
  rest : ∀ t, t ∉ sg.inputs.map (quantOf q sg) → (∀ o ∈ (dropIo q d sg).ops, t ∉ o.outs) → InRange sg t →
    ¬ RemF q sg t → ¬ RemD d sg t → E' t = (tensorAt sg t).bind cv
  lost : ∀ t, RemF q sg t ∨ RemD d sg t ∨ ¬ InRange sg t → E' t = none

theorem newValues (h : IoWeak q d sg) (hR : ∀ i : Nat, i ∈ R ↔ RemF q sg i ∨ RemD d sg i) (hρ : Renumbers sg.tensors R ρ)
    (sem : OpSem V) (cv : GTensor → Option V) (vals vals' : List V)
    (hv : sg.inputs.map (fun f => finalEnv sem cv sg vals (quantOf q sg f)) = vals'.map some) :
    NewValues sem cv q d sg vals' (finalEnv sem cv sg vals)
      (fun i => finalEnv sem cv (mapGraph (dropIo q d sg) R ρ) vals' (ρ i)) := by
  have hsub : List.Sublist (dropIo q d sg).ops sg.ops := List.filter_sublist
  have hmem : ∀ o ∈ (dropIo q d sg).ops, o ∈ sg.ops ∧ ¬ AtInput q sg.inputs o ∧ ¬ AtOutput d sg.outputs o := by
    intro o ho
    obtain ⟨h1, h2⟩ := List.mem_filter.1 ho
    simp only [decide_eq_true_eq] at h2
    exact ⟨h1, h2⟩
  have hout : ∀ o ∈ (dropIo q d sg).ops, ∀ i ∈ o.outs, Kept sg.tensors.length R i := by
    intro o ho i hi
    obtain ⟨h1, h2, h3⟩ := hmem o ho
    refine kept_of hR (h.ok.outs o h1 i hi) ?_ ?_
    · intro hx
      exact h.ok.notInput o h1 i hi (remF_input' h hx)
    · rintro ⟨o', ho', hat, hm⟩
      have := producer_unique h.ok h1 ho' hi hm
      subst this
      exact h3 hat
  have hin : ∀ i ∈ (dropIo q d sg).inputs, Kept sg.tensors.length R i := by
    intro i hi
    obtain ⟨f, hf, rfl⟩ := List.mem_map.1 hi
    exact (newInput_kept h hR hf).1
  have hord : ∀ l1 o l2, (dropIo q d sg).ops = l1 ++ o :: l2 → ∀ i ∈ o.ins, ∀ o' ∈ o :: l2, i ∉ o'.outs := by
    intro l1 o l2 he i hi o' ho'
    obtain ⟨k1, k2, hk, rfl, hk2⟩ := List.filter_eq_append_iff.1 (show sg.ops.filter _ = _ from he)
    obtain ⟨m1, m2, rfl, _, _, hm⟩ := List.filter_eq_cons_iff.1 hk2
    refine h.order (k1 ++ m1) o m2 (by rw [hk]; simp) i hi o' ?_
    rcases List.mem_cons.1 ho' with rfl | ho'
    · simp
    · rw [← hm] at ho'
      exact List.mem_cons_of_mem _ (List.mem_filter.1 ho').1
  obtain ⟨a1, a2, a3⟩ := finalEnv_map sem cv (dropIo q d sg) (R := R) (ρ := ρ) hρ hin hout
    (h.ok.producers.sublist (List.Sublist.flatMap hsub _)) hord vals' _ rfl
  have hv' : (sg.inputs.map (quantOf q sg)).map (finalEnv sem cv sg vals) = vals'.map some := by
    rw [List.map_map]; exact hv
  refine ⟨?_, ?_, ?_, ?_⟩
  · intro o ho h1 h2 t ht
    exact a1 o (List.mem_filter.2 ⟨ho, by simpa using ⟨h1, h2⟩⟩) t ht
  · intro t ht
    obtain ⟨v, hl, hg⟩ := lookup_zip_some hv' t ht
    rw [hg]
    obtain ⟨f, hf, rfl⟩ := List.mem_map.1 ht
    obtain ⟨k1, k2⟩ := newInput_kept h hR hf
    rw [a2 _ k1 k2]
    unfold initEnv
    rw [show ((dropIo q d sg).inputs.zip vals').lookup (quantOf q sg f) = some v from hl]
  · intro t ht hno hr h1 h2
    rw [a2 t (kept_of hR hr h1 h2) hno]
    unfold initEnv
    rw [lookup_zip_none _ (show t ∉ (dropIo q d sg).inputs from ht), if_pos hr.1, tensorAt, if_pos hr.1]
    rfl
  · intro t ht
    refine a3 t ?_
    rcases ht with h1 | h1 | h1
    · exact not_kept_of hR (.inl h1)
    · exact not_kept_of hR (.inr h1)
    · exact fun hk => h1 ⟨hk.1, hk.2.1⟩

/-- A tensor that is not lost keeps its value. -/
theorem not_lost_value (h : IoWeak q d sg) {sem : OpSem V} {cv : GTensor → Option V} {vals vals' : List V} {E' : GEnv V}
    (hE : NewValues sem cv q d sg vals' (finalEnv sem cv sg vals) E') :
    ∀ (n : Nat) (l1 l2 : List GOp), l1.length = n → sg.ops = l1 ++ l2 → ∀ t, (∀ o ∈ l2, t ∉ o.outs) → ¬ Lost q d sg t →
      E' t = finalEnv sem cv sg vals t := by
  have hF : ∀ {t}, ¬ Lost q d sg t → ¬ RemF q sg t := by
    rintro t hl ⟨o, ho, hat, hm⟩
    exact hl (.input o t ho hat hm)
  have hD : ∀ {t}, ¬ Lost q d sg t → ¬ RemD d sg t := by
    rintro t hl ⟨o, ho, hat, hm⟩
    exact hl (.output o t ho hat hm)
  intro n
  induction n with
  | zero =>
    intro l1 l2 hl he t hno hlost
    have hl1 : l1 = [] := List.length_eq_zero_iff.1 hl
    subst hl1
    have hno' : ∀ o ∈ sg.ops, t ∉ o.outs := by rw [he]; exact hno
    by_cases hin : t ∈ sg.inputs.map (quantOf q sg)
    · exact hE.input t hin
    have hin' : t ∉ sg.inputs := by
      intro hm
      rcases quantOf_cases h.unaryQ t with ⟨o, ho, hc, h1, _⟩ | ⟨he', _⟩
      · exact hF hlost ⟨o, ho, ⟨hc, t, by simp [h1], hm⟩, by simp [h1]⟩
      · exact hin (List.mem_map.2 ⟨t, hm, he'⟩)
    have hold : finalEnv sem cv sg vals t = if 0 ≤ t then (sg.tensors[t.toNat]?).bind cv else none := by
      unfold finalEnv
      rw [runOps_of_notMem _ _ _ _ hno']
      unfold initEnv
      rw [lookup_zip_none _ hin']
    rw [hold]
    by_cases hr : InRange sg t
    · rw [hE.rest t hin (fun o ho => hno' o (List.mem_filter.1 ho).1) hr (hF hlost) (hD hlost), tensorAt, if_pos hr.1,
        if_pos hr.1]
    · rw [hE.lost t (.inr (.inr hr))]
      by_cases h0 : 0 ≤ t
      · rw [if_pos h0, List.getElem?_eq_none (by
          by_contra hc
          exact hr ⟨h0, by omega⟩)]
        rfl
      · rw [if_neg h0]
  | succ n ih =>
    intro l1 l2 hl he t hno hlost
    have hne : l1 ≠ [] := by
      rintro rfl
      simp at hl
    obtain ⟨l0, o, rfl⟩ : ∃ l0 o, l1 = l0 ++ [o] := ⟨l1.dropLast, l1.getLast hne, (List.dropLast_append_getLast hne).symm⟩
    have hl0 : l0.length = n := by simpa using hl
    have he' : sg.ops = l0 ++ o :: l2 := by rw [he]; simp
    have ho : o ∈ sg.ops := by rw [he']; simp
    by_cases hto : t ∈ o.outs
    · by_cases h1 : AtInput q sg.inputs o
      · obtain ⟨hc, f, hf, hfi⟩ := h1
        have hq : quantOf q sg f = t := by
          by_contra hx
          exact hlost (.second o f t ho ⟨hc, f, hf, hfi⟩ hf hto hx)
        exact hE.input t (List.mem_map.2 ⟨f, hfi, hq⟩)
      · by_cases h2 : AtOutput d sg.outputs o
        · exact absurd (.output o t ho h2 hto) hlost
        · rw [hE.op o ho h1 h2 t hto]
          have hfix := runOps_fix sem h.ok.producers h.order (initEnv cv sg vals) ho hto
          refine Eq.trans ?_ hfix.symm
          have hins : o.ins.map E' = o.ins.map (runOps sem sg.ops (initEnv cv sg vals)) := by
            apply List.map_congr_left
            intro i hi
            exact ih l0 (o :: l2) hl0 he' i (h.order l0 o l2 he' i hi) fun hx => hlost (.step o i t ho h1 h2 hi hx hto)
          have hinit : initEnv cv (dropIo q d sg) vals' t = initEnv cv sg vals t := by
            unfold initEnv
            rw [lookup_zip_none _ (h.ok.notInput o ho t hto), lookup_zip_none _ (show t ∉ (dropIo q d sg).inputs from
              fun hm => h1 (newInput_iff h ho hto hm).1)]
            rfl
          rw [hins]
          unfold writeOuts
          rw [hinit]
    · refine ih l0 (o :: l2) hl0 he' t ?_ hlost
      intro o' ho'
      rcases List.mem_cons.1 ho' with rfl | ho'
      · exact hto
      · exact hno o' ho'

/-- Operators that count the values that reach them. -/
def countSem (n : Nat) : OpSem Nat := fun _ _ xs => List.replicate n (some (1 + (xs.map (·.getD 0)).sum))

theorem lookup_replicate {α : Type} (x : α) (t : Int) : ∀ (outs : List Int) (n : Nat), outs.length ≤ n → t ∈ outs →
    (outs.zip (List.replicate n x)).lookup t = some x
  | [], _, _, h => by simp at h
  | a :: outs, 0, hn, _ => by simp at hn
  | a :: outs, n + 1, hn, h => by
    rw [List.replicate_succ, List.zip_cons_cons, List.lookup_cons]
    by_cases he : t = a
    · subst he; simp
    · have h1 : (t == a) = false := by simpa using he
      rw [h1]
      exact lookup_replicate x t outs n (by simpa using hn) ((List.mem_cons.1 h).resolve_left he)

theorem writeOuts_count {e : GEnv Nat} {outs : List Int} {n c o : Nat} {xs : List (Option Nat)} {t : Int}
    (hn : outs.length ≤ n) (ht : t ∈ outs) :
    writeOuts e outs (countSem n c o xs) t = some (1 + (xs.map (·.getD 0)).sum) := by
  unfold writeOuts countSem
  rw [lookup_replicate _ _ _ _ hn ht]

theorem lookup_ones : ∀ (l : List Int) (t : Int), t ∈ l → (l.zip (l.map fun _ => 1)).lookup t = some 1
  | [], _, h => by simp at h
  | a :: l, t, h => by
    rw [List.map_cons, List.zip_cons_cons, List.lookup_cons]
    by_cases he : t = a
    · subst he; simp
    · have h1 : (t == a) = false := by simpa using he
      rw [h1]
      exact lookup_ones l t ((List.mem_cons.1 h).resolve_left he)

/-- A lost tensor loses its value, for the counting operators. -/
theorem lost_value (h : IoWeak q d sg) {n : Nat} (hn : ∀ o ∈ sg.ops, o.outs.length ≤ n) {vals' : List Nat} {E E' : GEnv Nat}
    (hEdef : E = finalEnv (countSem n) (fun _ => none) sg (sg.inputs.map fun _ => 1))
    (hE : NewValues (countSem n) (fun _ => none) q d sg vals' E E') :
    ∀ t, Lost q d sg t → (E' t).getD 0 < (E t).getD 0 := by
  have hprod : ∀ o ∈ sg.ops, ∀ t ∈ o.outs, E t = some (1 + ((o.ins.map E).map (·.getD 0)).sum) := by
    intro o ho t ht
    have := runOps_fix (countSem n) h.ok.producers h.order (initEnv (fun _ => none) sg (sg.inputs.map fun _ => 1)) ho ht
    rw [hEdef]
    refine Eq.trans this ?_
    exact writeOuts_count (hn o ho) ht
  have hprod' : ∀ o ∈ sg.ops, ¬ AtInput q sg.inputs o → ¬ AtOutput d sg.outputs o → ∀ t ∈ o.outs,
      E' t = some (1 + ((o.ins.map E').map (·.getD 0)).sum) := by
    intro o ho h1 h2 t ht
    rw [hE.op o ho h1 h2 t ht]
    exact writeOuts_count (hn o ho) ht
  have hrest : ∀ t, t ∉ sg.inputs.map (quantOf q sg) → (∀ o ∈ (dropIo q d sg).ops, t ∉ o.outs) → E' t = none := by
    intro t h1 h2
    by_cases hr : RemF q sg t ∨ RemD d sg t ∨ ¬ InRange sg t
    · exact hE.lost t hr
    · push Not at hr
      rw [hE.rest t h1 h2 hr.2.2 hr.1 hr.2.1]
      cases tensorAt sg t <;> rfl
  have hremoved : ∀ o ∈ sg.ops, AtInput q sg.inputs o ∨ AtOutput d sg.outputs o → ∀ t ∈ o.outs,
      ∀ o' ∈ (dropIo q d sg).ops, t ∉ o'.outs := by
    intro o ho hat t ht o' ho' hm
    obtain ⟨h1, h2⟩ := List.mem_filter.1 ho'
    simp only [decide_eq_true_eq] at h2
    have := producer_unique h.ok ho h1 ht hm
    subst this
    exact hat.elim h2.1 h2.2
  have hle : ∀ (m : Nat) (l1 l2 : List GOp), l1.length = m → sg.ops = l1 ++ l2 → ∀ t, (∀ o ∈ l2, t ∉ o.outs) →
      (E' t).getD 0 ≤ (E t).getD 0 := by
    intro m
    induction m with
    | zero =>
      intro l1 l2 hl he t hno
      have hl1 : l1 = [] := List.length_eq_zero_iff.1 hl
      subst hl1
      by_cases hin : t ∈ sg.inputs.map (quantOf q sg)
      · rw [hE.input t hin]
      · rw [hrest t hin fun o ho => hno o (by
          have := (List.mem_filter.1 ho).1
          rw [he] at this
          exact this)]
        exact Nat.zero_le _
    | succ m ih =>
      intro l1 l2 hl he t hno
      have hne : l1 ≠ [] := by
        rintro rfl
        simp at hl
      obtain ⟨l0, o, rfl⟩ : ∃ l0 o, l1 = l0 ++ [o] :=
        ⟨l1.dropLast, l1.getLast hne, (List.dropLast_append_getLast hne).symm⟩
      have hl0 : l0.length = m := by simpa using hl
      have he' : sg.ops = l0 ++ o :: l2 := by rw [he]; simp
      have ho : o ∈ sg.ops := by rw [he']; simp
      by_cases hto : t ∈ o.outs
      · by_cases hin : t ∈ sg.inputs.map (quantOf q sg)
        · rw [hE.input t hin]
        by_cases hat : AtInput q sg.inputs o ∨ AtOutput d sg.outputs o
        · rw [hrest t hin (hremoved o ho hat t hto)]
          exact Nat.zero_le _
        · push Not at hat
          rw [hprod o ho t hto, hprod' o ho hat.1 hat.2 t hto, List.map_map, List.map_map]
          simp only [Option.getD_some]
          refine Nat.add_le_add_left ?_ 1
          refine List.sum_le_sum fun i hi => ?_
          exact ih l0 (o :: l2) hl0 he' i (h.order l0 o l2 he' i hi)
      · refine ih l0 (o :: l2) hl0 he' t ?_
        intro o' ho'
        rcases List.mem_cons.1 ho' with rfl | ho'
        · exact hto
        · exact hno o' ho'
  have hle' : ∀ t, (E' t).getD 0 ≤ (E t).getD 0 := fun t => hle _ sg.ops [] rfl (by simp) t (by simp)
  have hpos : ∀ o ∈ sg.ops, ∀ t ∈ o.outs, 0 < (E t).getD 0 := by
    intro o ho t ht
    rw [hprod o ho t ht]
    simp only [Option.getD_some]
    omega
  intro t hl
  induction hl with
  | input o f ho hat hf =>
    rw [hE.lost f (.inl ⟨o, ho, hat, hf⟩)]
    have hfi := remF_input' h ⟨o, ho, hat, hf⟩
    have : E f = some 1 := by
      rw [hEdef]
      unfold finalEnv
      rw [runOps_of_notMem _ _ _ _ fun o' ho' hm => h.ok.notInput o' ho' f hm hfi]
      unfold initEnv
      rw [lookup_ones _ _ hfi]
    rw [this]
    decide
  | output o t ho hat ht =>
    rw [hE.lost t (.inr (.inl ⟨o, ho, hat, ht⟩))]
    exact hpos o ho t ht
  | second o f t ho hat hf ht hne =>
    rw [hrest t (fun hm => hne ((newInput_iff h ho ht hm).2 f hf)) (hremoved o ho (.inl hat) t ht)]
    exact hpos o ho t ht
  | step o i t ho h1 h2 hi _ ht ih =>
    rw [hprod o ho t ht, hprod' o ho h1 h2 t ht, List.map_map, List.map_map]
    simp only [Option.getD_some]
    refine Nat.add_lt_add_left ?_ 1
    exact List.sum_lt_sum _ _ (fun j _ => hle' j) ⟨i, hi, ih⟩

end values

/-- **C40**, exactly. Let `qc`, `dc` be the codes of Quantize and Dequantize. For every graph of the right types
`modify_integer_quantized_model_io_type` succeeds, whatever else reads the tensors it removes; and the new graph computes on the
int8 tensors what the original computes after its input Quantize and before its output Dequantize operators, if and only if no
new output is a tensor that the removal leaves without a value (`Lost`). -/
theorem C40_exact (codes : List OpCode) (qc dc : Option Nat)
    (hqc : CodeIs (fun c => c.builtin == opQuantize) codes qc)
    (hdc : CodeIs (fun c => c.builtin == opDequantize) codes dc) (hsome : qc ≠ none ∨ dc ≠ none) (intIn intOut : Bool)
    (sg : SubGraph) (h : IoTyped qc dc sg) (sigs : List Sig) :
    ∃ (sg' : SubGraph) (sigs' : List Sig), modifyIo codes intIn intOut sigs sg = some (sigs', sg') ∧
      (Converted (if intIn then qc else none) (if intOut then dc else none) sg sg' ↔
        ∀ t ∈ sg.outputs, ¬ Lost (if intIn then qc else none) (if intOut then dc else none) sg
          (fedBy (if intOut then dc else none) sg t)) := by
  obtain ⟨R, ρ, sigs', hIo, hR, hρ, hrun, -⟩ := modify_io_run codes qc dc hqc hdc hsome intIn intOut sg h sigs
  generalize (if intIn then qc else none) = q at *
  generalize (if intOut then dc else none) = d at *
  refine ⟨_, sigs', hrun, ?_, ?_⟩
  · intro hc t ht hl
    let n := (sg.ops.map fun o => o.outs.length).sum
    have hn : ∀ o ∈ sg.ops, o.outs.length ≤ n := fun o ho =>
      List.le_sum_of_mem (List.mem_map.2 ⟨o, ho, rfl⟩)
    let E : GEnv Nat := finalEnv (countSem n) (fun _ => none) sg (sg.inputs.map fun _ => 1)
    have hsome' : ∀ f ∈ sg.inputs, ∃ v, E (quantOf q sg f) = some v := by
      intro f hf
      rcases quantOf_cases hIo.unaryQ f with ⟨o, ho, _, _, h2⟩ | ⟨he, _⟩
      · have := runOps_fix (countSem n) hIo.ok.producers hIo.order (initEnv (fun _ => none) sg (sg.inputs.map fun _ => 1)) ho
          (t := quantOf q sg f) (by rw [h2]; simp)
        exact ⟨_, this.trans (writeOuts_count (hn o ho) (by rw [h2]; simp))⟩
      · refine ⟨1, ?_⟩
        change finalEnv _ _ _ _ _ = _
        rw [he]
        unfold finalEnv
        rw [runOps_of_notMem _ _ _ _ fun o' ho' hm => hIo.ok.notInput o' ho' f hm hf]
        unfold initEnv
        rw [lookup_ones _ _ hf]
    let vals' := sg.inputs.map fun f => (E (quantOf q sg f)).getD 0
    have hv : sg.inputs.map (fun f => E (quantOf q sg f)) = vals'.map some := by
      change _ = (sg.inputs.map _).map some
      rw [List.map_map]
      apply List.map_congr_left
      intro f hf
      obtain ⟨v, hv⟩ := hsome' f hf
      simp [hv]
    have hval := hc.values Nat (countSem n) (fun _ => none) (sg.inputs.map fun _ => 1) vals' hv
    unfold evalGraph at hval
    change ((sg.outputs.map _).map _).map _ = _ at hval
    rw [List.map_map, List.map_map] at hval
    have heq := List.map_inj_left.1 hval t ht
    have hlt := lost_value hIo hn (E := E) rfl (newValues hIo hR hρ (countSem n) (fun _ => none) _ vals' hv) _ hl
    simp only [Function.comp] at heq
    beta_reduce at hlt
    rw [heq] at hlt
    exact absurd hlt (Nat.lt_irrefl _)
  · intro hno
    have hko : ∀ t ∈ sg.outputs, Kept sg.tensors.length R (fedBy d sg t) := by
      intro t ht
      refine kept_of hR ?_ ?_ ?_
      · rcases fedBy_cases hIo.unaryD t with ⟨o, ho, hc, h1, h2, hne⟩ | ⟨he, _⟩
        · exact (hIo.ok.ins o ho _ (by rw [h2]; simp)).resolve_left hne
        · rw [he]; exact hIo.ok.outputs t ht
      · rintro ⟨o, ho, hat, hm⟩
        exact hno t ht (.input o _ ho hat hm)
      · rintro ⟨o, ho, hat, hm⟩
        exact hno t ht (.output o _ ho hat hm)
    have htens : ∀ i, Kept sg.tensors.length R i → tensorAt (mapGraph (dropIo q d sg) R ρ) (ρ i) = tensorAt sg i := by
      intro i hi
      obtain ⟨h0, hs⟩ := hρ.get hi
      unfold tensorAt
      rw [if_pos h0, if_pos hi.1, List.getElem?_eq_getElem hi.2.1]
      unfold mapGraph
      simp only []
      rw [List.getElem?_map, show (survivors (dropIo q d sg).tensors R)[(ρ i).toNat]? = _ from hs]
      rfl
    refine ⟨?_, ?_, ?_, ?_⟩
    · change ((sg.inputs.map _).map _).map _ = _
      rw [List.map_map, List.map_map]
      apply List.map_congr_left
      intro t ht
      exact htens _ (newInput_kept hIo hR ht).1
    · change ((sg.outputs.map _).map _).map _ = _
      rw [List.map_map, List.map_map]
      apply List.map_congr_left
      intro t ht
      exact htens _ (hko t ht)
    · unfold opKinds mapGraph
      simp only []
      rw [List.map_map]
      rfl
    · intro V sem cv vals vals' hv
      unfold evalGraph
      change ((sg.outputs.map _).map _).map _ = _
      rw [List.map_map, List.map_map]
      apply List.map_congr_left
      intro t ht
      exact not_lost_value hIo (newValues hIo hR hρ sem cv vals vals' hv) _ sg.ops [] rfl (by simp) _ (by simp) (hno t ht)

/-- The graphs of `modify_io_preserves_function_partial` lose nothing. -/
theorem convertible_not_lost {qc dc : Option Nat} {intIn intOut : Bool} {sg : SubGraph}
    (h : Convertible qc dc (if intIn then qc else none) (if intOut then dc else none) sg)
    (hne : ∀ k, qc = some k → dc ≠ some k) : ∀ t ∈ sg.outputs,
      ¬ Lost (if intIn then qc else none) (if intOut then dc else none) sg (fedBy (if intOut then dc else none) sg t) := by
  have hq : ∀ k, (if intIn then qc else none) = some k → qc = some k := by
    intro k hk
    cases intIn
    · simp at hk
    · exact hk
  have hd : ∀ k, (if intOut then dc else none) = some k → dc = some k := by
    intro k hk
    cases intOut
    · simp at hk
    · exact hk
  have huD : Unary (if intOut then dc else none) sg := fun o ho hc => h.unaryD o ho (hd _ hc)
  have huQ : Unary (if intIn then qc else none) sg := fun o ho hc => h.unaryQ o ho (hq _ hc)
  generalize (if intIn then qc else none) = q at *
  generalize (if intOut then dc else none) = d at *
  have hDout : ∀ o ∈ sg.ops, AtOutput d sg.outputs o → ∀ t ∈ o.outs, t ∈ sg.outputs ∧ ∀ o' ∈ sg.ops, t ∉ o'.ins := by
    rintro o ho ⟨hc, u, hu, hu'⟩ t ht
    obtain ⟨_, b, _, hb, _⟩ := huD o ho hc
    rw [hb, List.mem_singleton] at hu ht
    subst hu ht
    exact ⟨hu', h.unreadD o ho hc t (by simp [hb]) hu'⟩
  have key : ∀ i, Lost q d sg i → RemF q sg i ∨ RemD d sg i := by
    intro i hl
    induction hl with
    | input o f ho hat hf => exact .inl ⟨o, ho, hat, hf⟩
    | output o t ho hat ht => exact .inr ⟨o, ho, hat, ht⟩
    | second o f t ho hat hf ht hne' =>
      exfalso
      apply hne'
      rcases quantOf_cases huQ f with ⟨o', ho', _, h1, h2⟩ | ⟨_, hno⟩
      · have := (h.onlyQ o ho hat f hf).1 o' ho' (by simp [h1])
        subst this
        rw [h2, List.mem_singleton] at ht
        exact ht.symm
      · obtain ⟨a, b, ha, _, _⟩ := huQ o ho hat.1
        rw [ha, List.mem_singleton] at hf
        exact absurd (by rw [ha, hf]) (hno o ho hat.1)
    | step o i t ho h1 h2 hi _ _ ih =>
      exfalso
      rcases ih with ⟨o', ho', hat, hm⟩ | ⟨o', ho', hat, hm⟩
      · have := (h.onlyQ o' ho' hat i hm).1 o ho hi
        subst this
        exact h1 hat
      · exact (hDout o' ho' hat i hm).2 o ho hi
  intro t ht hl
  rcases fedBy_cases huD t with ⟨o, ho, hc, _, h2, _⟩ | ⟨he, hno⟩
  · rcases key _ hl with ⟨o', ho', hat, hm⟩ | ⟨o', ho', hat, hm⟩
    · have := (h.onlyQ o' ho' hat _ hm).1 o ho (by rw [h2]; simp)
      subst this
      exact hne _ (hq _ hat.1) (hd _ hc)
    · exact (hDout o' ho' hat _ hm).2 o ho (by rw [h2]; simp)
  · rw [he] at hl
    rcases key _ hl with ⟨o', ho', hat, hm⟩ | ⟨o', ho', hat, hm⟩
    · exact (h.onlyQ o' ho' hat t hm).2 ht
    · obtain ⟨_, b, _, hb, _⟩ := huD o' ho' hat.1
      rw [hb, List.mem_singleton] at hm
      exact hno o' ho' hat.1 (by rw [hb, hm])

/-- A graph whose input 0 is quantized twice, to 1 and to 2; both results are dequantized, to 3 and to 4; the graph outputs are
`outs`. -/
def exampleTwice (outs : List Int) : SubGraph :=
  ⟨[⟨0, 0⟩, ⟨9, 1⟩, ⟨9, 2⟩, ⟨0, 3⟩, ⟨0, 4⟩], [0], outs,
    [⟨0, 0, 0, [0], [1]⟩, ⟨1, 0, 0, [0], [2]⟩, ⟨2, 2, 0, [1], [3]⟩, ⟨3, 2, 0, [2], [4]⟩]⟩

theorem exampleTwice_typed (outs : List Int) (ho : ∀ i ∈ outs, i = 3 ∨ i = 4) :
    IoTyped (some 0) (some 2) (exampleTwice outs) := by
  have mem : ∀ o ∈ (exampleTwice outs).ops, o = ⟨0, 0, 0, [0], [1]⟩ ∨ o = ⟨1, 0, 0, [0], [2]⟩ ∨ o = ⟨2, 2, 0, [1], [3]⟩ ∨
      o = ⟨3, 2, 0, [2], [4]⟩ := by
    intro o h
    simpa only [exampleTwice, List.mem_cons, List.not_mem_nil, or_false] using h
  refine ⟨⟨by simp [exampleTwice], by simp [exampleTwice], ?_, ?_, ?_, ?_, ?_⟩, ?_, ?_, ?_, ?_, ?_⟩
  · intro o h i hi
    rcases mem o h with rfl | rfl | rfl | rfl <;> simp_all [exampleTwice]
  · intro i hi
    simp only [exampleTwice, List.mem_singleton] at hi
    subst hi
    exact ⟨by decide, by simp [exampleTwice]⟩
  · intro i hi
    rcases ho i hi with rfl | rfl
    · exact ⟨by decide, by simp [exampleTwice]⟩
    · exact ⟨by decide, by simp [exampleTwice]⟩
  · intro o h i hi
    right
    rcases mem o h with rfl | rfl | rfl | rfl <;>
      (simp only [List.mem_singleton] at hi; subst hi; exact ⟨by decide, by simp [exampleTwice]⟩)
  · intro o h i hi
    rcases mem o h with rfl | rfl | rfl | rfl <;>
      (simp only [List.mem_singleton] at hi; subst hi; exact ⟨by decide, by simp [exampleTwice]⟩)
  · intro l1 o l2 he
    match l1, he with
    | [], he =>
      simp only [exampleTwice, List.nil_append, List.cons.injEq] at he
      obtain ⟨rfl, rfl⟩ := he; decide
    | [_], he =>
      simp only [exampleTwice, List.cons_append, List.nil_append, List.cons.injEq] at he
      obtain ⟨_, rfl, rfl⟩ := he; decide
    | [_, _], he =>
      simp only [exampleTwice, List.cons_append, List.nil_append, List.cons.injEq] at he
      obtain ⟨_, _, rfl, rfl⟩ := he; decide
    | [_, _, _], he =>
      simp only [exampleTwice, List.cons_append, List.nil_append, List.cons.injEq] at he
      obtain ⟨_, _, _, rfl, rfl⟩ := he; decide
    | _ :: _ :: _ :: _ :: _, he => simp [exampleTwice] at he
  · intro o h hc
    rcases mem o h with rfl | rfl | rfl | rfl
    · exact ⟨0, 1, rfl, rfl, by decide⟩
    · exact ⟨0, 2, rfl, rfl, by decide⟩
    · cases hc
    · cases hc
  · intro o h hc
    rcases mem o h with rfl | rfl | rfl | rfl
    · cases hc
    · cases hc
    · exact ⟨1, 3, rfl, rfl, by decide⟩
    · exact ⟨2, 4, rfl, rfl, by decide⟩
  · intro o h hat
    rcases mem o h with rfl | rfl | rfl | rfl
    · refine ⟨?_, ?_⟩ <;> (intro t ht x hx; simp only [List.mem_singleton] at ht; subst ht; simp [tensorAt, exampleTwice] at hx; rw [← hx]; rfl)
    · refine ⟨?_, ?_⟩ <;> (intro t ht x hx; simp only [List.mem_singleton] at ht; subst ht; simp [tensorAt, exampleTwice] at hx; rw [← hx]; rfl)
    · cases hat.1
    · cases hat.1
  · intro o h hat
    rcases mem o h with rfl | rfl | rfl | rfl
    · cases hat.1
    · cases hat.1
    · refine ⟨?_, ?_⟩ <;> (intro t ht x hx; simp only [List.mem_singleton] at ht; subst ht; simp [tensorAt, exampleTwice] at hx; rw [← hx]; rfl)
    · refine ⟨?_, ?_⟩ <;> (intro t ht x hx; simp only [List.mem_singleton] at ht; subst ht; simp [tensorAt, exampleTwice] at hx; rw [← hx]; rfl)

/-- Both sides of the equivalence occur: with output 4, behind the second Quantize, the call succeeds and breaks the model; with
output 3 it preserves the model, although the input is shared. -/
example : (∃ sg' sigs', modifyIo exampleIoCodes true true [] (exampleTwice [4]) = some (sigs', sg') ∧
      ¬ Converted (some 0) (some 2) (exampleTwice [4]) sg') ∧
    ∃ sg' sigs', modifyIo exampleIoCodes true true [] (exampleTwice [3]) = some (sigs', sg') ∧
      Converted (some 0) (some 2) (exampleTwice [3]) sg' := by
  constructor
  · obtain ⟨sg', sigs', h1, h2⟩ := C40_exact exampleIoCodes (some 0) (some 2) exampleIoCodes_ok.1 exampleIoCodes_ok.2
      (.inl (by decide)) true true _ (exampleTwice_typed [4] (by simp)) []
    refine ⟨sg', sigs', h1, fun hc => h2.1 hc 4 (by simp [exampleTwice]) ?_⟩
    exact .second ⟨1, 0, 0, [0], [2]⟩ 0 2 (by simp [exampleTwice]) ⟨rfl, 0, by simp, by simp [exampleTwice]⟩ (by simp) (by simp)
      (by decide)
  · obtain ⟨sg', sigs', h1, h2⟩ := C40_exact exampleIoCodes (some 0) (some 2) exampleIoCodes_ok.1 exampleIoCodes_ok.2
      (.inl (by decide)) true true _ (exampleTwice_typed [3] (by simp)) []
    refine ⟨sg', sigs', h1, h2.2 ?_⟩
    intro t ht hl
    simp only [exampleTwice, List.mem_singleton] at ht
    subst ht
    have key : ∀ i, Lost (some 0) (some 2) (exampleTwice [3]) i → i ≠ 1 := by
      intro i hl
      induction hl with
      | input o f ho hat hf =>
        simp only [exampleTwice, List.mem_cons, List.not_mem_nil, or_false] at ho
        rcases ho with rfl | rfl | rfl | rfl
        · simp at hf; omega
        · simp at hf; omega
        · cases hat.1
        · cases hat.1
      | output o t ho hat ht =>
        simp only [exampleTwice, List.mem_cons, List.not_mem_nil, or_false] at ho
        rcases ho with rfl | rfl | rfl | rfl
        · cases hat.1
        · cases hat.1
        · simp at ht; omega
        · simp at ht; omega
      | second o f t ho hat hf ht hne =>
        simp only [exampleTwice, List.mem_cons, List.not_mem_nil, or_false] at ho
        rcases ho with rfl | rfl | rfl | rfl
        · simp at hf ht
          subst hf ht
          exact absurd (by decide) hne
        · simp at ht; omega
        · cases hat.1
        · cases hat.1
      | step o i t ho h1 h2 hi _ ht ih =>
        simp only [exampleTwice, List.mem_cons, List.not_mem_nil, or_false] at ho
        rcases ho with rfl | rfl | rfl | rfl
        · exact absurd ⟨rfl, 0, by simp, by simp [exampleTwice]⟩ h1
        · simp at ht; omega
        · simp at ht; omega
        · simp at ht; omega
    exact key _ hl (by decide)

end Verif
