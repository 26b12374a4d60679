import Verif.Props.PyStrip

/-!
C40: converting the inputs and outputs of an integer-quantized model to int8.
-/

namespace Verif

variable {V : Type}

theorem pyGet_ok {sg : SubGraph} {i : Int} (h : InRange sg i) {x : GTensor} (hx : tensorAt sg i = some x) :
    pyGet sg.tensors i = some x := by
  obtain ⟨y, h1, h2⟩ := pyGet_nonneg h
  rw [h1, ← h2, hx]

theorem findIoOps_eq {qc dc : Option Nat} {sg : SubGraph} (h : IoTyped qc dc sg)
    (hne : ∀ k, qc = some k → dc ≠ some k) : ∀ ops : List GOp, (∀ o ∈ ops, o ∈ sg.ops) →
      findIoOps qc dc sg ops = some (ops.filter fun o => decide (AtInput qc sg.inputs o),
        ops.filter fun o => decide (AtOutput dc sg.outputs o)) := by
  intro ops
  induction ops with
  | nil => intro _; rfl
  | cons o ops ih =>
    intro hm
    have ho := hm o (by simp)
    have ih' := ih fun o ho => hm o (List.mem_cons_of_mem _ ho)
    have tail : ¬ AtInput qc sg.inputs o → (do
        let md ← opMatches dc o o.outs sg.outputs
        if md then do
          let f ← o.outs[0]?
          let q ← o.ins[0]?
          let tf ← pyGet sg.tensors f
          let tq ← pyGet sg.tensors q
          if tf.type == tyFloat32 && tq.type == tyInt8 then do
            let (a, b) ← findIoOps qc dc sg ops
            some (a, o :: b)
          else none
        else findIoOps qc dc sg ops) = some ((o :: ops).filter fun o => decide (AtInput qc sg.inputs o),
        (o :: ops).filter fun o => decide (AtOutput dc sg.outputs o)) := by
      intro hin
      unfold opMatches
      by_cases hc : dc = some o.code
      · obtain ⟨i, t, hi, ht, hne'⟩ := h.unaryD o ho hc
        rw [if_pos hc, hi, ht]
        simp only [Option.bind_eq_bind, Option.bind_some]
        by_cases hto : t ∈ sg.outputs
        · have hat : AtOutput dc sg.outputs o := ⟨hc, t, by simp [ht], hto⟩
          obtain ⟨x, hx, hx'⟩ := pyGet_nonneg (h.ok.outs o ho t (by simp [ht]))
          obtain ⟨y, hy, hy'⟩ := pyGet_nonneg (((h.ok.ins o ho i (by simp [hi])).resolve_left hne'))
          obtain ⟨h1, h2⟩ := h.typesD o ho hat
          have g1 := h1 t (by simp [ht]) x hx'
          have g2 := h2 i (by simp [hi]) y hy'
          simp [hto, hx, hy, g1, g2, ih', hat, hin]
        · have hat : ¬ AtOutput dc sg.outputs o := by
            rintro ⟨_, u, hu, hu'⟩
            rw [ht, List.mem_singleton] at hu
            exact hto (hu ▸ hu')
          simp [hto, ih', hat, hin]
      · have hat : ¬ AtOutput dc sg.outputs o := fun h => hc h.1
        simp [hc, ih', hat, hin]
    unfold findIoOps
    by_cases hc : qc = some o.code
    · obtain ⟨i, t, hi, ht, hne'⟩ := h.unaryQ o ho hc
      by_cases hto : i ∈ sg.inputs
      · have hat : AtInput qc sg.inputs o := ⟨hc, i, by simp [hi], hto⟩
        have hnat : ¬ AtOutput dc sg.outputs o := fun hx => hne _ hc hx.1
        obtain ⟨x, hx, hx'⟩ := pyGet_nonneg (h.ok.outs o ho t (by simp [ht]))
        obtain ⟨y, hy, hy'⟩ := pyGet_nonneg (((h.ok.ins o ho i (by simp [hi])).resolve_left hne'))
        obtain ⟨h1, h2⟩ := h.typesQ o ho hat
        have g1 := h1 i (by simp [hi]) y hy'
        have g2 := h2 t (by simp [ht]) x hx'
        simp [opMatches, hc, hi, ht, hto, hx, hy, g1, g2]
        rw [hc] at ih'
        simp [ih']
        rw [hc] at hat
        simp [hat, hnat]
      · have hat : ¬ AtInput qc sg.inputs o := by
          rintro ⟨_, u, hu, hu'⟩
          rw [hi, List.mem_singleton] at hu
          exact hto (hu ▸ hu')
        have hmq : opMatches qc o o.ins sg.inputs = some false := by simp [opMatches, hc, hi, hto]
        rw [hmq]
        exact tail hat
    · have hat : ¬ AtInput qc sg.inputs o := fun h => hc h.1
      have hmq : opMatches qc o o.ins sg.inputs = some false := by simp [opMatches, hc]
      rw [hmq]
      exact tail hat

theorem quantOf_cases {c : Option Nat} {sg : SubGraph} (hu : Unary c sg) (f : Int) :
    (∃ o ∈ sg.ops, c = some o.code ∧ o.ins = [f] ∧ o.outs = [quantOf c sg f]) ∨
    (quantOf c sg f = f ∧ ∀ o ∈ sg.ops, c = some o.code → o.ins ≠ [f]) := by
  unfold quantOf
  cases hf : sg.ops.find? fun o => decide (c = some o.code ∧ o.ins = [f]) with
  | none =>
    right
    refine ⟨rfl, fun o ho hc he => ?_⟩
    have := List.find?_eq_none.1 hf o ho
    simp only [decide_eq_true_eq] at this
    exact this ⟨hc, he⟩
  | some o =>
    left
    have h1 := List.find?_some hf
    simp only [decide_eq_true_eq] at h1
    have hm := List.mem_of_find?_eq_some hf
    obtain ⟨i, t, hi, ht, _⟩ := hu o hm h1.1
    exact ⟨o, hm, h1.1, h1.2, by simp [ht]⟩

theorem repl_quantOf {c : Option Nat} {sg : SubGraph} (hu : Unary c sg) {f : Int} (hf : f ∈ sg.inputs) :
    repl ((sg.ops.filter fun o => decide (AtInput c sg.inputs o)).map fun o => (inOf o, outOf o)) f = quantOf c sg f := by
  unfold repl quantOf
  rw [lookup_filter_map]
  have : (sg.ops.find? fun o => decide (AtInput c sg.inputs o) && decide (inOf o = f))
      = sg.ops.find? fun o => decide (c = some o.code ∧ o.ins = [f]) := by
    apply find?_congr'
    intro o ho
    rw [Bool.eq_iff_iff]
    simp only [Bool.and_eq_true, decide_eq_true_eq]
    constructor
    · rintro ⟨⟨hc, _⟩, he⟩
      obtain ⟨i, t', hi', ht', _⟩ := hu o ho hc
      refine ⟨hc, ?_⟩
      unfold inOf at he
      rw [hi'] at he ⊢
      simp only [List.headD_cons] at he
      rw [he]
    · rintro ⟨hc, he⟩
      refine ⟨⟨hc, f, by simp [he], hf⟩, ?_⟩
      unfold inOf; rw [he]; rfl
  rw [this]
  cases hfi : sg.ops.find? fun o => decide (c = some o.code ∧ o.ins = [f]) with
  | none => rfl
  | some o =>
    have h1 := List.find?_some hfi
    simp only [decide_eq_true_eq] at h1
    obtain ⟨i, t, hi, ht, _⟩ := hu o (List.mem_of_find?_eq_some hfi) h1.1
    simp [outOf, ht]

/-- The graph before renumbering. -/
def dropIo (q d : Option Nat) (sg : SubGraph) : SubGraph :=
  { sg with inputs := sg.inputs.map (quantOf q sg), outputs := sg.outputs.map (fedBy d sg),
            ops := sg.ops.filter fun o => decide (¬ AtInput q sg.inputs o ∧ ¬ AtOutput d sg.outputs o) }

/-- The tensors removed at the inputs. -/
def RemF (q : Option Nat) (sg : SubGraph) (i : Int) : Prop := ∃ o ∈ sg.ops, AtInput q sg.inputs o ∧ i ∈ o.ins
/-- The tensors removed at the outputs. -/
def RemD (d : Option Nat) (sg : SubGraph) (i : Int) : Prop := ∃ o ∈ sg.ops, AtOutput d sg.outputs o ∧ i ∈ o.outs

/-- Hypotheses restricted to the converted sides. -/
structure IoHyp (q d : Option Nat) (sg : SubGraph) : Prop where
  ok : GraphOK sg
  order : ∀ l1 o l2, sg.ops = l1 ++ o :: l2 → ∀ i ∈ o.ins, ∀ o' ∈ o :: l2, i ∉ o'.outs
  unaryQ : Unary q sg
  unaryD : Unary d sg
  onlyQ : ∀ o ∈ sg.ops, AtInput q sg.inputs o → ∀ f ∈ o.ins, (∀ o' ∈ sg.ops, f ∈ o'.ins → o' = o) ∧ f ∉ sg.outputs
  unreadD : ∀ o ∈ sg.ops, d = some o.code → ∀ t ∈ o.outs, t ∈ sg.outputs → ∀ o' ∈ sg.ops, t ∉ o'.ins
  ne : ∀ k, q = some k → d ≠ some k

theorem remF_input {q d : Option Nat} {sg : SubGraph} (h : IoHyp q d sg) {i : Int} (hi : RemF q sg i) : i ∈ sg.inputs := by
  obtain ⟨o, ho, ⟨hc, f, hf, hfi⟩, hio⟩ := hi
  obtain ⟨a, b, ha, _, _⟩ := h.unaryQ o ho hc
  rw [ha, List.mem_singleton] at hf hio
  rw [hio, ← hf]; exact hfi

theorem remD_output {q d : Option Nat} {sg : SubGraph} (h : IoHyp q d sg) {i : Int} (hi : RemD d sg i) :
    i ∈ sg.outputs ∧ ∀ o' ∈ sg.ops, i ∉ o'.ins := by
  obtain ⟨o, ho, ⟨hc, t, ht, hto⟩, hio⟩ := hi
  obtain ⟨a, b, _, hb, _⟩ := h.unaryD o ho hc
  rw [hb, List.mem_singleton] at ht hio
  have : i ∈ sg.outputs := by rw [hio, ← ht]; exact hto
  exact ⟨this, h.unreadD o ho hc i (by simp [hb, hio]) this⟩

theorem dropIo_noRefs {q d : Option Nat} {sg : SubGraph} (h : IoHyp q d sg) {R : List Nat}
    (hR : ∀ i : Nat, i ∈ R ↔ RemF q sg i ∨ RemD d sg i) : NoRefs (dropIo q d sg) R := by
  have cond : ∀ {i : Int}, InRange sg i → ¬ RemF q sg i → ¬ RemD d sg i → Kept (dropIo q d sg).tensors.length R i := by
    intro i hi h1 h2
    refine ⟨hi.1, hi.2, fun hm => ?_⟩
    have := (hR _).1 hm
    rw [Int.toNat_of_nonneg hi.1] at this
    exact this.elim h1 h2
  refine ⟨?_, ?_, ?_, ?_⟩
  · intro i hi
    obtain ⟨f, hf, rfl⟩ := List.mem_map.1 hi
    rcases quantOf_cases h.unaryQ f with ⟨o, ho, hc, h1, h2⟩ | ⟨he, hno⟩
    · refine cond (h.ok.outs o ho _ (by rw [h2]; simp)) ?_ ?_
      · intro hx
        exact h.ok.notInput o ho _ (by rw [h2]; simp) (remF_input h hx)
      · rintro ⟨o', ho', hat, hm⟩
        have := producer_unique h.ok ho ho' (i := quantOf q sg f) (by rw [h2]; simp) hm
        subst this
        exact h.ne _ hc hat.1
    · rw [he]
      refine cond (h.ok.inputs f hf) ?_ ?_
      · rintro ⟨o, ho, hat, hm⟩
        obtain ⟨a, b, ha, _, _⟩ := h.unaryQ o ho hat.1
        rw [ha, List.mem_singleton] at hm
        exact hno o ho hat.1 (by rw [ha, hm])
      · rintro ⟨o, ho, _, hm⟩
        exact h.ok.notInput o ho f hm hf
  · intro i hi
    obtain ⟨t, ht, rfl⟩ := List.mem_map.1 hi
    rcases fedBy_cases h.unaryD t with ⟨o, ho, hc, h1, h2, hne⟩ | ⟨he, hno⟩
    · refine cond ((h.ok.ins o ho _ (by rw [h2]; simp)).resolve_left hne) ?_ ?_
      · rintro ⟨o', ho', hat, hm⟩
        have := (h.onlyQ o' ho' hat _ hm).1 o ho (by rw [h2]; simp)
        subst this
        exact h.ne _ hat.1 hc
      · intro hx
        exact (remD_output h hx).2 o ho (by rw [h2]; simp)
    · rw [he]
      refine cond (h.ok.outputs t ht) ?_ ?_
      · rintro ⟨o, ho, hat, hm⟩
        exact (h.onlyQ o ho hat t hm).2 ht
      · rintro ⟨o, ho, ⟨hc, _⟩, hm⟩
        obtain ⟨_, b, _, hb, _⟩ := h.unaryD o ho hc
        rw [hb, List.mem_singleton] at hm
        exact hno o ho hc (by rw [hb, hm])
  · intro o ho i hi
    obtain ⟨ho', hk⟩ := List.mem_filter.1 ho
    simp only [decide_eq_true_eq] at hk
    rcases h.ok.ins o ho' i hi with he | hr
    · exact .inl he
    · refine .inr (cond hr ?_ ?_)
      · rintro ⟨o2, ho2, hat, hm⟩
        have := (h.onlyQ o2 ho2 hat i hm).1 o ho' hi
        subst this
        exact hk.1 hat
      · intro hx
        exact (remD_output h hx).2 o ho' hi
  · intro o ho i hi
    obtain ⟨ho', hk⟩ := List.mem_filter.1 ho
    simp only [decide_eq_true_eq] at hk
    refine cond (h.ok.outs o ho' i hi) ?_ ?_
    · intro hx
      exact h.ok.notInput o ho' i hi (remF_input h hx)
    · rintro ⟨o', ho'', hat, hm⟩
      have := producer_unique h.ok ho' ho'' hi hm
      subst this
      exact hk.2 hat

theorem lookup_zip_some {g : Int → Option V} : ∀ {l : List Int} {vs : List V}, l.map g = vs.map some → ∀ i ∈ l,
    ∃ v, (l.zip vs).lookup i = some v ∧ g i = some v
  | [], _, _, i, hi => by simp at hi
  | a :: l, [], h, _, _ => by simp at h
  | a :: l, v :: vs, h, i, hi => by
    simp only [List.map_cons, List.cons.injEq] at h
    rw [List.zip_cons_cons, List.lookup_cons]
    by_cases he : i = a
    · subst he
      exact ⟨v, by simp, h.1⟩
    · have h1 : (i == a) = false := by simpa using he
      rw [h1]
      exact lookup_zip_some h.2 i ((List.mem_cons.1 hi).resolve_left he)

theorem finalEnv_io {q d : Option Nat} {sg : SubGraph} (h : IoHyp q d sg) (sem : OpSem V) (cv : GTensor → Option V)
    (vals vals' : List V)
    (hv : sg.inputs.map (fun f => finalEnv sem cv sg vals (quantOf q sg f)) = vals'.map some) (i : Int)
    (h1 : ¬ RemF q sg i) (h2 : ¬ RemD d sg i) :
    finalEnv sem cv (dropIo q d sg) vals' i = finalEnv sem cv sg vals i := by
  have hv' : (sg.inputs.map (quantOf q sg)).map (finalEnv sem cv sg vals) = vals'.map some := by
    rw [List.map_map]; exact hv
  let e' : GEnv V := initEnv cv (dropIo q d sg) vals'
  have hin : ∀ j ∈ sg.inputs.map (quantOf q sg), e' j = finalEnv sem cv sg vals j := by
    intro j hj
    obtain ⟨v, hl, hg⟩ := lookup_zip_some hv' j hj
    change initEnv cv (dropIo q d sg) vals' j = _
    unfold initEnv dropIo
    simp only []
    rw [hl, hg]
  have hq : ∀ o ∈ sg.ops, AtInput q sg.inputs o → ∀ j ∈ o.outs, j ∈ sg.inputs.map (quantOf q sg) := by
    rintro o ho ⟨hc, f, hf, hfi⟩ j hj
    obtain ⟨a, b, ha, hb, _⟩ := h.unaryQ o ho hc
    rw [ha, List.mem_singleton] at hf
    subst hf
    rw [hb, List.mem_singleton] at hj
    subst hj
    refine List.mem_map.2 ⟨f, hfi, ?_⟩
    rcases quantOf_cases h.unaryQ f with ⟨o', ho', hc', h1', h2'⟩ | ⟨he, hno⟩
    · have := (h.onlyQ o ho ⟨hc, f, by simp [ha], hfi⟩ f (by simp [ha])).1 o' ho' (by simp [h1'])
      subst this
      rw [hb] at h2'
      simpa using h2'.symm
    · exact absurd ha (hno o ho hc)
  have step1 : ∀ j, ¬ RemF q sg j →
      runOps sem (sg.ops.filter fun o => !decide (AtInput q sg.inputs o)) e' j = finalEnv sem cv sg vals j := by
    refine runOps_dropIn sem (fun o => !decide (AtInput q sg.inputs o)) (RemF q sg) (finalEnv sem cv sg vals) sg.ops
      (initEnv cv sg vals) e' rfl ?_ h.ok.producers h.order ?_ ?_
    · rintro o ho hk j hj ⟨o2, ho2, hat, hm⟩
      have := (h.onlyQ o2 ho2 hat j hm).1 o ho hj
      subst this
      simp [hat] at hk
    · intro j hj hno
      by_cases hji : j ∈ sg.inputs
      · have hqj : quantOf q sg j = j := by
          rcases quantOf_cases h.unaryQ j with ⟨o, ho, hc, h1', _⟩ | ⟨he, _⟩
          · exact absurd ⟨o, ho, ⟨hc, j, by simp [h1'], hji⟩, by simp [h1']⟩ hj
          · exact he
        rw [hin j (List.mem_map.2 ⟨j, hji, hqj⟩)]
        exact runOps_of_notMem _ _ _ _ fun o ho hm => h.ok.notInput o ho j hm hji
      · have hjn : j ∉ sg.inputs.map (quantOf q sg) := by
          intro hm
          obtain ⟨f, hf, he⟩ := List.mem_map.1 hm
          rcases quantOf_cases h.unaryQ f with ⟨o, ho, hc, h1', h2'⟩ | ⟨he', _⟩
          · refine hno o ho ?_ (by rw [h2', he]; simp)
            simp only [Bool.not_eq_false', decide_eq_true_eq]
            exact ⟨hc, f, by simp [h1'], hf⟩
          · rw [he'] at he
            exact hji (he ▸ hf)
        change initEnv cv (dropIo q d sg) vals' j = initEnv cv sg vals j
        unfold initEnv dropIo
        simp only []
        rw [lookup_zip_none _ hjn, lookup_zip_none _ hji]
    · intro o ho hk j hj
      simp only [Bool.not_eq_false', decide_eq_true_eq] at hk
      exact hin j (hq o ho hk j hj)
  rw [← step1 i h1]
  have hops : (dropIo q d sg).ops = (sg.ops.filter fun o => !decide (AtInput q sg.inputs o)).filter
      fun o => !decide (AtOutput d sg.outputs o) := by
    unfold dropIo
    simp only []
    rw [List.filter_filter]
    apply List.filter_congr
    intro o _
    rw [Bool.eq_iff_iff]
    simp only [decide_eq_true_eq, Bool.and_eq_true, Bool.not_eq_true', decide_eq_false_iff_not]
    tauto
  unfold finalEnv
  rw [hops]
  refine runOps_drop sem _ (RemD d sg) _ _ _ ?_ ?_ (fun _ _ => rfl) i h2
  · intro o ho hk j hj
    exact ⟨o, (List.mem_filter.1 ho).1, by simpa using hk, hj⟩
  · intro o ho hk j hj hx
    exact (remD_output h hx).2 o (List.mem_filter.1 ho).1 hj

/-- **C40**. Let `qc`, `dc` be the codes of Quantize and Dequantize; `q`, `d` those of the converted sides. For every
convertible graph `modify_integer_quantized_model_io_type` succeeds, and the new graph computes on the int8 tensors what
the original computes after its input Quantize and before its output Dequantize operators. The first signature, if it
names inputs and outputs of this graph, follows the graph. -/
theorem modify_io_preserves_function_partial (codes : List OpCode) (qc dc : Option Nat)
    (hqc : CodeIs (fun c => c.builtin == opQuantize) codes qc)
    (hdc : CodeIs (fun c => c.builtin == opDequantize) codes dc) (hsome : qc ≠ none ∨ dc ≠ none) (intIn intOut : Bool)
    (sg : SubGraph) (h : Convertible qc dc (if intIn then qc else none) (if intOut then dc else none) sg) (sigs : List Sig) :
    ∃ (sg' : SubGraph) (sigs' : List Sig) (fi fo : Int → Int), modifyIo codes intIn intOut sigs sg = some (sigs', sg') ∧
      Converted (if intIn then qc else none) (if intOut then dc else none) sg sg' ∧
      sg'.inputs = sg.inputs.map fi ∧ sg'.outputs = sg.outputs.map fo ∧
      ∀ s rest, sigs = s :: rest → (∀ i ∈ s.inputs, i ∈ sg.inputs) → (∀ i ∈ s.outputs, i ∈ sg.outputs) →
        sigs' = { s with inputs := s.inputs.map fi, outputs := s.outputs.map fo } :: rest := by
  have hdis : ∀ k, qc = some k → dc ≠ some k := by
    intro k hq hd
    obtain ⟨x, hx, hp⟩ := (hqc k).1 hq
    obtain ⟨y, hy, hp'⟩ := (hdc k).1 hd
    rw [hx] at hy
    simp only [Option.some.injEq] at hy
    subst hy
    simp only [beq_iff_eq] at hp hp'
    rw [hp] at hp'
    exact absurd hp' (by decide)
  have hdc' : CodeIs (fun c => !(c.builtin == opQuantize) && c.builtin == opDequantize) codes dc := by
    intro i
    rw [hdc i]
    constructor
    · rintro ⟨x, hx, hp⟩
      refine ⟨x, hx, ?_⟩
      simp only [beq_iff_eq] at hp
      simp only [hp]; decide
    · rintro ⟨x, hx, hp⟩
      simp only [Bool.and_eq_true] at hp
      exact ⟨x, hx, hp.2⟩
  generalize hq : (if intIn then qc else none) = q at *
  generalize hd : (if intOut then dc else none) = d at *
  have hIo : IoHyp q d sg := by
    refine ⟨h.ok, h.order, ?_, ?_, h.onlyQ, h.unreadD, ?_⟩
    · intro o ho hc
      apply h.unaryQ o ho
      rw [← hc, ← hq]
      rw [← hq] at hc
      cases intIn
      · simp at hc
      · rfl
    · intro o ho hc
      apply h.unaryD o ho
      rw [← hc, ← hd]
      rw [← hd] at hc
      cases intOut
      · simp at hc
      · rfl
    · intro k hk hk'
      rw [← hq] at hk
      rw [← hd] at hk'
      cases intIn
      · simp at hk
      · cases intOut
        · simp at hk'
        · exact hdis k hk hk'
  let qs := sg.ops.filter fun o => decide (AtInput q sg.inputs o)
  let ds := sg.ops.filter fun o => decide (AtOutput d sg.outputs o)
  have hqm : ∀ o ∈ qs, o ∈ sg.ops ∧ AtInput q sg.inputs o := fun o ho => by
    have := List.mem_filter.1 ho
    exact ⟨this.1, by simpa using this.2⟩
  have hdm : ∀ o ∈ ds, o ∈ sg.ops ∧ AtOutput d sg.outputs o := fun o ho => by
    have := List.mem_filter.1 ho
    exact ⟨this.1, by simpa using this.2⟩
  have hqa : ∀ o ∈ qs, ∃ i t, o.ins = [i] ∧ o.outs = [t] ∧ i ≠ -1 ∧ i ∈ sg.inputs := fun o ho => by
    obtain ⟨i, t, h1, h2, h3⟩ := hIo.unaryQ o (hqm o ho).1 (hqm o ho).2.1
    exact ⟨i, t, h1, h2, h3, remF_input hIo ⟨o, (hqm o ho).1, (hqm o ho).2, by simp [h1]⟩⟩
  have hda : ∀ o ∈ ds, ∃ i t, o.ins = [i] ∧ o.outs = [t] ∧ i ≠ -1 := fun o ho =>
    hIo.unaryD o (hdm o ho).1 (hdm o ho).2.1
  obtain ⟨rm1, hrm1, hn1, hmem1⟩ := removeInputOps_eq qs sigs sg [] (fun o ho => by
      obtain ⟨i, t, h1, h2, _⟩ := hqa o ho
      simp [h1, h2]) (by
      intro o ho o' ho' he
      obtain ⟨i, t, h1, h2, _⟩ := hqa o ho
      obtain ⟨i', t', h1', h2', _, hin'⟩ := hqa o' ho'
      simp only [outOf, inOf, h2, h1', List.headD_cons] at he
      exact hIo.ok.notInput o (hqm o ho).1 t (by simp [h2]) (he ▸ hin')) hIo.ok.ids List.nodup_nil
  generalize hs1 : updateFirstSig (fun s => { s with inputs := s.inputs.map (repl (qs.map fun o => (inOf o, outOf o))) }) sigs
    = sigs1 at *
  generalize hg1 : ({ sg with inputs := sg.inputs.map (repl (qs.map fun o => (inOf o, outOf o))),
                              ops := sg.ops.filter fun x => decide (x.id ∉ qs.map (·.id)) } : SubGraph) = sg1 at *
  obtain ⟨rm2, hrm2, hn2, hmem2⟩ := removeOutputOps_eq ds sigs1 sg1 rm1 (fun o ho => by
      obtain ⟨i, t, h1, h2, _⟩ := hda o ho
      simp [h1, h2]) (by
      intro o ho o' ho' he
      obtain ⟨i, t, h1, h2, _⟩ := hda o ho
      obtain ⟨i', t', h1', h2', _⟩ := hda o' ho'
      simp only [outOf, inOf, h1, h2', List.headD_cons] at he
      exact (remD_output hIo (i := i) ⟨o', (hdm o' ho').1, (hdm o' ho').2, by rw [h2', he]; simp⟩).2 o (hdm o ho).1 (by simp [h1]))
    (by rw [← hg1]; exact nodup_ids_filter _ hIo.ok.ids) hn1
  have hsrc : ∀ i, i ∈ rm2 ↔ RemF q sg i ∨ RemD d sg i := by
    intro i
    rw [hmem2, hmem1]
    constructor
    · rintro ((hx | ⟨o, ho, rfl⟩) | ⟨o, ho, rfl⟩)
      · simp at hx
      · obtain ⟨i, t, h1, h2, _⟩ := hqa o ho
        exact .inl ⟨o, (hqm o ho).1, (hqm o ho).2, by simp [inOf, h1]⟩
      · obtain ⟨i, t, h1, h2, _⟩ := hda o ho
        exact .inr ⟨o, (hdm o ho).1, (hdm o ho).2, by simp [outOf, h2]⟩
    · rintro (⟨o, ho, hat, hm⟩ | ⟨o, ho, hat, hm⟩)
      · have hof : o ∈ qs := List.mem_filter.2 ⟨ho, by simpa using hat⟩
        obtain ⟨a, t, h1, h2, _⟩ := hqa o hof
        refine .inl (.inr ⟨o, hof, ?_⟩)
        rw [h1, List.mem_singleton] at hm
        simp [inOf, h1, hm]
      · have hof : o ∈ ds := List.mem_filter.2 ⟨ho, by simpa using hat⟩
        obtain ⟨a, t, h1, h2, _⟩ := hda o hof
        refine .inr ⟨o, hof, ?_⟩
        rw [h2, List.mem_singleton] at hm
        simp [outOf, h2, hm]
  have hpos : ∀ i ∈ rm2, InRange sg i := by
    intro i hi
    rcases (hsrc i).1 hi with hx | ⟨o, ho, _, hm⟩
    · exact hIo.ok.inputs i (remF_input hIo hx)
    · exact hIo.ok.outs o ho i hm
  obtain ⟨hN1, hN2⟩ := natIdxs_eq hn2 fun i hi => (hpos i hi).1
  have hR : ∀ i : Nat, i ∈ rm2.map Int.toNat ↔ RemF q sg i ∨ RemD d sg i := by
    intro i
    rw [← hsrc]
    constructor
    · intro hi
      obtain ⟨j, hj, rfl⟩ := List.mem_map.1 hi
      rwa [Int.toNat_of_nonneg (hpos _ hj).1]
    · intro hi
      exact List.mem_map.2 ⟨_, hi, by simp⟩
  have hNR := dropIo_noRefs hIo hR
  generalize rm2.map Int.toNat = R at *
  have idq : ∀ o ∈ sg.ops, o.id ∉ qs.map (·.id) ↔ ¬ AtInput q sg.inputs o := by
    intro o ho
    constructor
    · intro hx hat
      exact hx (List.mem_map.2 ⟨o, List.mem_filter.2 ⟨ho, by simpa using hat⟩, rfl⟩)
    · intro hx hm
      obtain ⟨o', ho', he⟩ := List.mem_map.1 hm
      have : o' = o := List.inj_on_of_nodup_map hIo.ok.ids (hqm o' ho').1 ho he
      exact hx (this ▸ (hqm o' ho').2)
  have idd : ∀ o ∈ sg.ops, o.id ∉ ds.map (·.id) ↔ ¬ AtOutput d sg.outputs o := by
    intro o ho
    constructor
    · intro hx hat
      exact hx (List.mem_map.2 ⟨o, List.mem_filter.2 ⟨ho, by simpa using hat⟩, rfl⟩)
    · intro hx hm
      obtain ⟨o', ho', he⟩ := List.mem_map.1 hm
      have : o' = o := List.inj_on_of_nodup_map hIo.ok.ids (hdm o' ho').1 ho he
      exact hx (this ▸ (hdm o' ho').2)
  have hgr : ({ sg1 with outputs := sg1.outputs.map (repl (ds.map fun o => (outOf o, inOf o))),
                         ops := sg1.ops.filter fun x => decide (x.id ∉ ds.map (·.id)) } : SubGraph) = dropIo q d sg := by
    rw [← hg1]
    unfold dropIo
    simp only []
    have e1 : sg.inputs.map (repl (qs.map fun o => (inOf o, outOf o))) = sg.inputs.map (quantOf q sg) :=
      List.map_congr_left fun t ht => repl_quantOf hIo.unaryQ ht
    have e2 : sg.outputs.map (repl (ds.map fun o => (outOf o, inOf o))) = sg.outputs.map (fedBy d sg) :=
      List.map_congr_left fun t ht => repl_fedBy hIo.unaryD ht
    rw [e1, e2, List.filter_filter]
    congr 1
    apply List.filter_congr
    intro o ho
    rw [Bool.eq_iff_iff]
    simp only [decide_eq_true_eq, Bool.and_eq_true]
    rw [idq o ho, idd o ho]
    tauto
  rw [hgr] at hrm2
  have hlt : ∀ r ∈ R, r < (dropIo q d sg).tensors.length := by
    intro r hr
    change r < sg.tensors.length
    rcases (hR r).1 hr with hx | ⟨o, ho, _, hm⟩
    · have := (hIo.ok.inputs _ (remF_input hIo hx)).2
      simpa using this
    · have := (hIo.ok.outs o ho _ hm).2
      simpa using this
  obtain ⟨sigs', hs2, hs3⟩ := removeTensors_renum
    (updateFirstSig (fun s => { s with outputs := s.outputs.map (repl (ds.map fun o => (outOf o, inOf o))) }) sigs1)
    (dropIo q d sg) R hN2 hlt hNR
  refine ⟨renumGraph (dropIo q d sg) R, sigs', fun i => renum sg.tensors.length R (quantOf q sg i),
    fun i => renum sg.tensors.length R (fedBy d sg i), ?_, ⟨?_, ?_, ?_, ?_⟩, ?_, ?_, ?_⟩
  · unfold modifyIo
    simp only [findCodes_codeIs hqc hdc']
    rw [if_neg]
    · rw [findIoOps_eq h.toIoTyped hdis sg.ops fun o ho => ho]
      simp only [Option.bind_eq_bind, Option.bind_some]
      have a1 : (if intIn = true then removeInputOps (sg.ops.filter fun o => decide (AtInput qc sg.inputs o)) (sigs, sg, [])
          else some (sigs, sg, [])) = some (sigs1, sg1, rm1) := by
        rw [← hrm1]
        cases hb : intIn with
        | true =>
          rw [hb, if_pos rfl] at hq
          rw [if_pos rfl, hq]
        | false =>
          rw [hb, if_neg (by simp)] at hq
          rw [if_neg (by simp)]
          have : qs = [] := by
            apply List.filter_eq_nil_iff.2
            intro o _
            rw [← hq]
            simp [AtInput]
          rw [this]; rfl
      rw [a1]
      simp only [Option.bind_some]
      have a2 : (if intOut = true then removeOutputOps (sg.ops.filter fun o => decide (AtOutput dc sg.outputs o)) (sigs1, sg1, rm1)
          else some (sigs1, sg1, rm1)) = removeOutputOps ds (sigs1, sg1, rm1) := by
        cases hb : intOut with
        | true =>
          rw [hb, if_pos rfl] at hd
          rw [if_pos rfl, hd]
        | false =>
          rw [hb, if_neg (by simp)] at hd
          rw [if_neg (by simp)]
          have : ds = [] := by
            apply List.filter_eq_nil_iff.2
            intro o _
            rw [← hd]
            simp [AtOutput]
          rw [this]; rfl
      rw [a2, hrm2]
      simp only [Option.bind_some, hN1, hs2]
    · intro hb
      simp only [Bool.and_eq_true, Option.isNone_iff_eq_none] at hb
      exact hsome.elim (fun hc => hc hb.1) (fun hc => hc hb.2)
  · change ((sg.inputs.map _).map _).map _ = _
    rw [List.map_map, List.map_map]
    apply List.map_congr_left
    intro t ht
    exact (renum_inRange (sg := dropIo q d sg) (hNR.inputs _ (List.mem_map.2 ⟨t, ht, rfl⟩))).2
  · change ((sg.outputs.map _).map _).map _ = _
    rw [List.map_map, List.map_map]
    apply List.map_congr_left
    intro t ht
    exact (renum_inRange (sg := dropIo q d sg) (hNR.outputs _ (List.mem_map.2 ⟨t, ht, rfl⟩))).2
  · unfold opKinds renumGraph
    rw [List.map_map]
    rfl
  · intro V sem cv vals vals' hv
    unfold evalGraph
    change ((sg.outputs.map _).map _).map _ = _
    rw [List.map_map, List.map_map]
    apply List.map_congr_left
    intro t ht
    have hk := hNR.outputs _ (List.mem_map.2 ⟨t, ht, rfl⟩)
    simp only [Function.comp]
    rw [finalEnv_renum sem cv _ R hNR vals' _ hk]
    apply finalEnv_io hIo sem cv vals vals' hv
    · intro hx
      apply hk.2.2
      rw [hR, Int.toNat_of_nonneg hk.1]
      exact .inl hx
    · intro hx
      apply hk.2.2
      rw [hR, Int.toNat_of_nonneg hk.1]
      exact .inr hx
  · change (sg.inputs.map _).map _ = _
    rw [List.map_map]; rfl
  · change (sg.outputs.map _).map _ = _
    rw [List.map_map]; rfl
  · rintro s rest rfl hsi hso
    rw [← hs1] at hs3
    have e1 : s.inputs.map (repl (qs.map fun o => (inOf o, outOf o))) = s.inputs.map (quantOf q sg) :=
      List.map_congr_left fun t ht => repl_quantOf hIo.unaryQ (hsi t ht)
    have e2 : s.outputs.map (repl (ds.map fun o => (outOf o, inOf o))) = s.outputs.map (fedBy d sg) :=
      List.map_congr_left fun t ht => repl_fedBy hIo.unaryD (hso t ht)
    simp only [updateFirstSig, e1, e2] at hs3
    rw [hs3 _ rest rfl]
    · simp only [List.map_map]
      rfl
    · intro i hi
      obtain ⟨t, ht, rfl⟩ := List.mem_map.1 hi
      exact hNR.inputs _ (List.mem_map.2 ⟨t, hsi t ht, rfl⟩)
    · intro i hi
      obtain ⟨t, ht, rfl⟩ := List.mem_map.1 hi
      exact hNR.outputs _ (List.mem_map.2 ⟨t, hso t ht, rfl⟩)

/-- A quantized model: Quantize (code 0) of the float input 0 to 1, an int8 operator (code 1), Dequantize (code 2) of 2 to
the float output 3; a second float input 4 is used directly and its result 5 is a second output. -/
def exampleIo : SubGraph :=
  ⟨[⟨0, 0⟩, ⟨9, 1⟩, ⟨9, 2⟩, ⟨0, 3⟩, ⟨0, 4⟩, ⟨0, 5⟩], [0, 4], [3, 5],
    [⟨0, 0, 0, [0], [1]⟩, ⟨1, 1, 0, [1, -1], [2]⟩, ⟨2, 2, 0, [2], [3]⟩, ⟨3, 3, 0, [4], [5]⟩]⟩

/-- Its operator codes. -/
def exampleIoCodes : List OpCode := [⟨false, opQuantize⟩, ⟨false, 3⟩, ⟨false, opDequantize⟩, ⟨false, 0⟩]

theorem exampleIoCodes_ok : CodeIs (fun c => c.builtin == opQuantize) exampleIoCodes (some 0) ∧
    CodeIs (fun c => c.builtin == opDequantize) exampleIoCodes (some 2) := by
  constructor <;> intro i <;> (match i with
    | 0 => simp [exampleIoCodes, opDequantize, opQuantize]
    | 1 => simp [exampleIoCodes, opQuantize, opDequantize]
    | 2 => simp [exampleIoCodes, opDequantize, opQuantize]
    | 3 => simp [exampleIoCodes, opDequantize, opQuantize]
    | n + 4 => simp [exampleIoCodes])

/-- The example meets the hypotheses of C40. -/
theorem exampleIo_convertible : Convertible (some 0) (some 2) (some 0) (some 2) exampleIo := by
  refine ⟨⟨⟨by decide, by decide, by decide, ?_, ?_, ?_, ?_⟩, ?_, ?_, ?_, ?_, ?_⟩, ?_, by decide⟩
  · unfold InRange; decide
  · unfold InRange; decide
  · unfold InRange; decide
  · unfold InRange; decide
  · intro l1 o l2 he
    match l1, he with
    | [], he =>
      simp only [exampleIo, List.nil_append, List.cons.injEq] at he
      obtain ⟨rfl, rfl⟩ := he; decide
    | [_], he =>
      simp only [exampleIo, List.cons_append, List.nil_append, List.cons.injEq] at he
      obtain ⟨_, rfl, rfl⟩ := he; decide
    | [_, _], he =>
      simp only [exampleIo, List.cons_append, List.nil_append, List.cons.injEq] at he
      obtain ⟨_, _, rfl, rfl⟩ := he; decide
    | [_, _, _], he =>
      simp only [exampleIo, List.cons_append, List.nil_append, List.cons.injEq] at he
      obtain ⟨_, _, _, rfl, rfl⟩ := he; decide
    | _ :: _ :: _ :: _ :: _, he => simp [exampleIo] at he
  · intro o ho hc
    simp only [exampleIo, List.mem_cons, List.not_mem_nil, or_false] at ho
    rcases ho with rfl | rfl | rfl | rfl
    · exact ⟨0, 1, rfl, rfl, by decide⟩
    · cases hc
    · cases hc
    · cases hc
  · intro o ho hc
    simp only [exampleIo, List.mem_cons, List.not_mem_nil, or_false] at ho
    rcases ho with rfl | rfl | rfl | rfl
    · cases hc
    · cases hc
    · exact ⟨2, 3, rfl, rfl, by decide⟩
    · cases hc
  · intro o ho hat
    simp only [exampleIo, List.mem_cons, List.not_mem_nil, or_false] at ho
    rcases ho with rfl | rfl | rfl | rfl
    · refine ⟨?_, ?_⟩ <;> (intro t ht x hx; simp only [List.mem_singleton] at ht; subst ht; simp [tensorAt, exampleIo] at hx; rw [← hx]; rfl)
    · cases hat.1
    · cases hat.1
    · cases hat.1
  · intro o ho hat
    simp only [exampleIo, List.mem_cons, List.not_mem_nil, or_false] at ho
    rcases ho with rfl | rfl | rfl | rfl
    · cases hat.1
    · cases hat.1
    · refine ⟨?_, ?_⟩ <;> (intro t ht x hx; simp only [List.mem_singleton] at ht; subst ht; simp [tensorAt, exampleIo] at hx; rw [← hx]; rfl)
    · cases hat.1
  · intro o ho hat
    simp only [exampleIo, List.mem_cons, List.not_mem_nil, or_false] at ho
    rcases ho with rfl | rfl | rfl | rfl
    · decide
    · cases hat.1
    · cases hat.1
    · cases hat.1

/-- The converted example. -/
example : modifyIo exampleIoCodes true true [⟨0, [0, 4], [3, 5]⟩] exampleIo
    = some ([⟨0, [0, 2], [1, 3]⟩], ⟨[⟨9, 1⟩, ⟨9, 2⟩, ⟨0, 4⟩, ⟨0, 5⟩], [0, 2], [1, 3],
        [⟨1, 1, 0, [0, -1], [1]⟩, ⟨3, 3, 0, [2], [3]⟩]⟩) := by decide +kernel

/-- The hypothesis on readers of the float input is needed: when one graph input feeds two Quantize operators, the call
succeeds but the output of the second one is neither an input nor produced by an operator, so the result has no value. -/
theorem modify_io_breaks_shared_input :
    ∃ (sg sg' : SubGraph) (sigs' : List Sig), GraphOK sg ∧ modifyIo exampleIoCodes true true [] sg = some (sigs', sg') ∧
      ∃ (sem : OpSem Nat) (vals : List Nat),
        evalGraph sem (fun _ => none) sg vals = [some 7, some 7] ∧
        ∀ vals', (evalGraph sem (fun _ => none) sg' vals')[1]? = some none := by
  refine ⟨⟨[⟨0, 0⟩, ⟨9, 1⟩, ⟨9, 2⟩, ⟨0, 3⟩, ⟨0, 4⟩], [0], [3, 4],
      [⟨0, 0, 0, [0], [1]⟩, ⟨1, 0, 0, [0], [2]⟩, ⟨2, 2, 0, [1], [3]⟩, ⟨3, 2, 0, [2], [4]⟩]⟩,
    ⟨[⟨9, 1⟩, ⟨9, 2⟩], [0], [0, 1], []⟩, [], ⟨by decide, by decide, by decide, ?_, ?_, ?_, ?_⟩,
    by decide +kernel, fun _ _ xs => xs, [7], by decide +kernel, ?_⟩
  · unfold InRange; decide
  · unfold InRange; decide
  · unfold InRange; decide
  · unfold InRange; decide
  · intro vals'
    cases vals' <;> simp [evalGraph, finalEnv, runOps, initEnv, List.lookup]

/-- The hypothesis that a converted input is not a graph output is needed: the call succeeds, the output refers to no tensor and
has no value. -/
theorem modify_io_breaks_input_as_output :
    ∃ (sg sg' : SubGraph) (sigs' : List Sig), GraphOK sg ∧ (∀ o ∈ sg.ops, ∀ o' ∈ sg.ops, ∀ f ∈ o.ins, f ∈ o'.ins → o' = o) ∧
      modifyIo exampleIoCodes true true [] sg = some (sigs', sg') ∧
      sg'.outputs.map (tensorAt sg') = [Option.none, some ⟨9, 1⟩] ∧
      ∃ (sem : OpSem Nat) (vals : List Nat),
        evalGraph sem (fun _ => none) sg vals = [some 7, some 7] ∧
        ∀ vals', (evalGraph sem (fun _ => none) sg' vals')[0]? = some none := by
  refine ⟨⟨[⟨0, 0⟩, ⟨9, 1⟩, ⟨0, 2⟩], [0], [0, 2], [⟨0, 0, 0, [0], [1]⟩, ⟨1, 2, 0, [1], [2]⟩]⟩,
    ⟨[⟨9, 1⟩], [0], [-1, 0], []⟩, [], ⟨by decide, by decide, by decide, ?_, ?_, ?_, ?_⟩, by decide,
    by decide +kernel, by decide, fun _ _ xs => xs, [7], by decide +kernel, ?_⟩
  · unfold InRange; decide
  · unfold InRange; decide
  · unfold InRange; decide
  · unfold InRange; decide
  · intro vals'
    cases vals' <;> simp [evalGraph, finalEnv, runOps, initEnv, List.lookup]

/-- The hypothesis that a removed output is read by no operator is needed: the call succeeds, the reader is left with an absent
input, and its result has no value. -/
theorem modify_io_breaks_read_output :
    ∃ (sg sg' : SubGraph) (sigs' : List Sig), GraphOK sg ∧ modifyIo exampleIoCodes true true [] sg = some (sigs', sg') ∧
      sg'.ops = [⟨1, 1, 0, [-1], [1]⟩] ∧
      ∃ (sem : OpSem Nat) (vals : List Nat),
        evalGraph sem (fun _ => none) sg vals = [some 7, some 7] ∧
        ∀ vals', (evalGraph sem (fun _ => none) sg' vals')[1]? = some none := by
  refine ⟨⟨[⟨9, 0⟩, ⟨0, 1⟩, ⟨0, 2⟩], [0], [1, 2], [⟨0, 2, 0, [0], [1]⟩, ⟨1, 1, 0, [1], [2]⟩]⟩,
    ⟨[⟨9, 0⟩, ⟨0, 2⟩], [0], [0, 1], [⟨1, 1, 0, [-1], [1]⟩]⟩, [], ⟨by decide, by decide, by decide, ?_, ?_, ?_, ?_⟩,
    by decide +kernel, rfl, fun _ _ xs => xs, [7], by decide +kernel, ?_⟩
  · unfold InRange; decide
  · unfold InRange; decide
  · unfold InRange; decide
  · unfold InRange; decide
  · intro vals'
    cases vals' <;> simp [evalGraph, finalEnv, runOps, stepOp, writeOuts, initEnv, List.lookup]

/-- What an accepting run of the search loop has checked. -/
theorem findIoOps_types {qc dc : Option Nat} {sg : SubGraph} : ∀ {ops : List GOp} {r : List GOp × List GOp},
    findIoOps qc dc sg ops = some r → ∀ o ∈ ops, ∀ i t x y, o.ins = [i] → o.outs = [t] → 0 ≤ i → 0 ≤ t →
      tensorAt sg i = some x → tensorAt sg t = some y →
      (qc = some o.code → i ∈ sg.inputs → x.type = tyFloat32 ∧ y.type = tyInt8) ∧
      (dc = some o.code → qc ≠ some o.code → t ∈ sg.outputs → y.type = tyFloat32 ∧ x.type = tyInt8) := by
  intro ops
  induction ops with
  | nil => intro r _ o ho; cases ho
  | cons a ops ih =>
    intro r h o ho i t x y hin hout hi0 ht0 hx hy
    rw [findIoOps] at h
    cases hm : opMatches qc a a.ins sg.inputs with
    | none => rw [hm] at h; cases h
    | some m =>
      rw [hm] at h
      simp only [Option.bind_eq_bind, Option.bind_some] at h
      rcases List.mem_cons.1 ho with rfl | ho'
      · simp only [tensorAt, if_pos hi0, if_pos ht0] at hx hy
        constructor
        · intro hc hii
          have hmt : m = true := by
            unfold opMatches at hm
            rw [if_pos hc, hin] at hm
            simp only [Option.some.injEq] at hm
            rw [← hm]; exact decide_eq_true hii
          rw [if_pos hmt, hout, hin] at h
          simp only [List.getElem?_cons_zero, Option.bind_some, pyGet, if_pos ht0, if_pos hi0, hx, hy] at h
          by_cases hok : (x.type == tyFloat32 && y.type == tyInt8) = true
          · simpa using hok
          · rw [if_neg hok] at h; cases h
        · intro hc hq hto
          have hmf : m = false := by
            unfold opMatches at hm
            rw [if_neg hq] at hm
            simpa using hm.symm
          have hd : opMatches dc o o.outs sg.outputs = some true := by
            unfold opMatches
            rw [if_pos hc, hout]
            simp [hto]
          rw [if_neg (by simp [hmf]), hd] at h
          simp only [Option.bind_some, if_true, hout, hin, List.getElem?_cons_zero, pyGet, if_pos ht0, if_pos hi0, hx, hy] at h
          by_cases hok : (y.type == tyFloat32 && x.type == tyInt8) = true
          · simpa using hok
          · rw [if_neg hok] at h; cases h
      · by_cases hmt : m = true
        · rw [if_pos hmt] at h
          simp only [Option.bind_eq_some_iff] at h
          obtain ⟨_, _, _, _, tf, _, tq, _, h⟩ := h
          by_cases hok : (tf.type == tyFloat32 && tq.type == tyInt8) = true
          · rw [if_pos hok] at h
            simp only [Option.bind_eq_some_iff] at h
            obtain ⟨rest, hr, _⟩ := h
            exact ih hr o ho' i t x y hin hout hi0 ht0 hx hy
          · rw [if_neg hok] at h; cases h
        · rw [if_neg hmt] at h
          simp only [Option.bind_eq_some_iff] at h
          obtain ⟨md, _, h⟩ := h
          by_cases hd : md = true
          · rw [if_pos hd] at h
            simp only [Option.bind_eq_some_iff] at h
            obtain ⟨_, _, _, _, tf, _, tq, _, h⟩ := h
            by_cases hok : (tf.type == tyFloat32 && tq.type == tyInt8) = true
            · rw [if_pos hok] at h
              simp only [Option.bind_eq_some_iff] at h
              obtain ⟨rest, hr, _⟩ := h
              exact ih hr o ho' i t x y hin hout hi0 ht0 hx hy
            · rw [if_neg hok] at h; cases h
          · rw [if_neg hd] at h
            exact ih h o ho' i t x y hin hout hi0 ht0 hx hy

/-- **C40**, validation: whatever sides are to be converted, the call raises when a Quantize that reads a graph input does
not turn float into int8, or a Dequantize that produces a graph output does not turn int8 into float. No assumption on the
rest of the graph. -/
theorem modify_io_raises_on_types (codes : List OpCode) (qc dc : Option Nat)
    (hqc : CodeIs (fun c => c.builtin == opQuantize) codes qc)
    (hdc : CodeIs (fun c => c.builtin == opDequantize) codes dc) (intIn intOut : Bool) (sigs : List Sig) (sg : SubGraph)
    (o : GOp) (ho : o ∈ sg.ops) (i t : Int) (x y : GTensor) (hin : o.ins = [i]) (hout : o.outs = [t]) (hi0 : 0 ≤ i)
    (ht0 : 0 ≤ t) (hx : tensorAt sg i = some x) (hy : tensorAt sg t = some y)
    (hbad : (qc = some o.code ∧ i ∈ sg.inputs ∧ ¬(x.type = tyFloat32 ∧ y.type = tyInt8)) ∨
      (dc = some o.code ∧ t ∈ sg.outputs ∧ ¬(y.type = tyFloat32 ∧ x.type = tyInt8))) :
    modifyIo codes intIn intOut sigs sg = none := by
  by_contra hne
  obtain ⟨r, hr⟩ := Option.ne_none_iff_exists'.1 hne
  have hdc' : CodeIs (fun c => !(c.builtin == opQuantize) && c.builtin == opDequantize) codes dc := by
    intro i
    rw [hdc i]
    constructor
    · rintro ⟨x, hx, hp⟩
      refine ⟨x, hx, ?_⟩
      simp only [beq_iff_eq] at hp
      simp only [hp]; decide
    · rintro ⟨x, hx, hp⟩
      simp only [Bool.and_eq_true] at hp
      exact ⟨x, hx, hp.2⟩
  have hdis : ∀ k, dc = some k → qc ≠ some k := by
    intro k hd hq
    obtain ⟨x, hx, hp⟩ := (hqc k).1 hq
    obtain ⟨y, hy, hp'⟩ := (hdc k).1 hd
    rw [hx] at hy
    simp only [Option.some.injEq] at hy
    subst hy
    simp only [beq_iff_eq] at hp hp'
    rw [hp] at hp'
    exact absurd hp' (by decide)
  unfold modifyIo at hr
  rw [findCodes_codeIs hqc hdc'] at hr
  have hsome : ¬ ((qc.isNone && dc.isNone) = true) := by
    rcases hbad with ⟨h, _⟩ | ⟨h, _⟩ <;> simp [h]
  rw [if_neg hsome] at hr
  simp only [Option.bind_eq_bind, Option.bind_eq_some_iff] at hr
  obtain ⟨⟨qs, ds⟩, hf, _⟩ := hr
  obtain ⟨h1, h2⟩ := findIoOps_types hf o ho i t x y hin hout hi0 ht0 hx hy
  rcases hbad with ⟨hc, hm, hb⟩ | ⟨hc, hm, hb⟩
  · exact hb (h1 hc hm)
  · exact hb (h2 hc (hdis _ hc) hm)

/-- A uint8 model (type 3): the call raises. -/
example : modifyIo exampleIoCodes true false [] ⟨[⟨0, 0⟩, ⟨3, 1⟩], [0], [1], [⟨0, 0, 0, [0], [1]⟩]⟩ = none :=
  modify_io_raises_on_types exampleIoCodes (some 0) (some 2) exampleIoCodes_ok.1 exampleIoCodes_ok.2 true false [] _
    ⟨0, 0, 0, [0], [1]⟩ (by simp) 0 1 ⟨0, 0⟩ ⟨3, 1⟩ rfl rfl (by decide) (by decide) rfl rfl
    (Or.inl ⟨rfl, by simp, by decide⟩)

/-- Python indexing of a list of tensors, as the library uses it: from the front, from the end, and out of range. -/
theorem C40_python_indexing {α : Type} (xs ys : List α) (x : α) :
    pyGet (xs ++ x :: ys) xs.length = some x ∧ pyGet (xs ++ x :: ys) (-(ys.length + 1 : Int)) = some x ∧
    pyGet xs xs.length = none ∧ pyGet xs (-(xs.length + 1 : Int)) = none := by
  refine ⟨?_, ?_, ?_, ?_⟩
  · simp [pyGet]
  · unfold pyGet
    rw [if_neg (by omega), if_pos (by simp)]
    have e : (((xs ++ x :: ys).length : Int) + -(ys.length + 1 : Int)).toNat = xs.length := by
      simp only [List.length_append, List.length_cons]; omega
    rw [e]; simp
  · simp [pyGet]
  · unfold pyGet
    rw [if_neg (by omega), if_neg (by omega)]

example : pyGet [4, 5, 6] (-1) = some 6 ∧ pyGet [4, 5, 6] (-4) = none :=
  ⟨(C40_python_indexing [4, 5] [] 6).2.1, (C40_python_indexing [4, 5, 6] [] 6).2.2.2⟩

end Verif
