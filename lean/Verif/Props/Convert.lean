import Verif.Spec.Convert
import Verif.Props.PyIo
import Verif.Basic.KernelRfl

/-!
C65: the entry points of the converter honour their options.
-/

namespace Verif.Convert

theorem beq_eq (a b : DType) : (a == b) = decide (a = b) := by
  by_cases h : a = b <;> simp [h]

theorem validateOptions_eq (w : World) (o : Opts) : validateOptions w o = .ok () ↔ o.Valid ∧ w.eager = true := by
  unfold validateOptions
  constructor
  · intro h
    repeat' split at h
    all_goals first
      | (cases h; done)
      | skip
    rename_i h1 h2 h3 h4
    simp only [Bool.not_eq_true', Bool.or_eq_false_iff, not_and, Bool.not_eq_false] at h1 h2 h3 h4
    refine ⟨⟨?_, ?_, ?_⟩, h4⟩
    · by_cases hx : o.inType = .float32
      · exact .inl hx
      · exact .inr (by simpa using h1 (by simpa using hx))
    · by_cases hx : o.outType = .float32
      · exact .inl hx
      · exact .inr (by simpa using h2 (by simpa using hx))
    · by_cases hx : o.target = "arm"
      · exact .inl hx
      · exact .inr (by simpa using h3 (by simpa using hx))
  · rintro ⟨⟨h1, h2, h3⟩, h4⟩
    rw [if_neg, if_neg, if_neg, if_neg]
    · simp [h4]
    · rcases h3 with h | h <;> simp [h]
    · rcases h2 with h | h <;> simp [h]
    · rcases h1 with h | h <;> simp [h]

theorem validateOptions_error {w : World} {o : Opts} (h : ¬ (o.Valid ∧ w.eager = true)) :
    validateOptions w o = .error .valueError ∨ validateOptions w o = .error .runtimeError := by
  rw [← validateOptions_eq] at h
  unfold validateOptions at h ⊢
  repeat' split
  all_goals first
    | exact .inl rfl
    | exact .inr rfl
    | skip
  simp_all

/-- **C65**, invalid options: both functions raise a ValueError or a RuntimeError, and nothing is converted (the result is
the same whatever saving, tracing and converting would do). -/
theorem C65_invalid_options (o : Opts) (w : World) (d : Nat) (h : ¬ (o.Valid ∧ w.eager = true)) :
    ∃ e : PyErr, (e = .valueError ∨ e = .runtimeError) ∧ ∀ w' : World, w'.eager = w.eager →
      convertSavedModel w' o d = .error e ∧
      (w'.isModel = true → (w'.policy = none ∨ w'.policy = some "float32") → convertKerasModel w' o = .error e) := by
  have key : ∀ w' : World, w'.eager = w.eager → validateOptions w' o = validateOptions w o := by
    intro w' hw; unfold validateOptions; rw [hw]
  have fin : ∀ e, validateOptions w o = .error e → ∀ w' : World, w'.eager = w.eager →
      convertSavedModel w' o d = .error e ∧
      (w'.isModel = true → (w'.policy = none ∨ w'.policy = some "float32") → convertKerasModel w' o = .error e) := by
    intro e he w' hw
    refine ⟨?_, fun hm hp => ?_⟩
    · unfold convertSavedModel; rw [key w' hw, he]; rfl
    · unfold convertKerasModel
      rw [key w' hw, he, hm]
      rcases hp with hp | hp <;> rw [hp] <;> rfl
  rcases validateOptions_error h with he | he
  · exact ⟨_, .inl rfl, fin _ he⟩
  · exact ⟨_, .inr rfl, fin _ he⟩

/-- Something that is not a Keras model, or uses mixed precision, is refused before anything is converted. -/
theorem C65_not_a_model (o : Opts) (w : World)
    (h : w.isModel = false ∨ (∃ p, w.policy = some p ∧ p ≠ "float32")) : convertKerasModel w o = .error .valueError := by
  unfold convertKerasModel
  cases hm : w.isModel with
  | false => rfl
  | true =>
    rcases h with h | ⟨p, hp, hne⟩
    · rw [hm] at h; cases h
    · simp [hp, hne]

/-- **C65**, `convert_saved_model`: what it returns. With float32 on both sides the C++ converter's model unchanged,
otherwise that model with the requested sides converted (C40); the target and the default range reach the C++ converter. -/
theorem C65_saved_result (o : Opts) (w : World) (d : Nat) (m : GModel) :
    convertSavedModel w o d = .ok m ↔
      o.Valid ∧ w.eager = true ∧ ∃ v m0, w.version d = .ok v ∧ (v = 1 ∨ v = 2) ∧
        w.convertSaved d v o.target o.range = .ok m0 ∧
        (if o.inType = .float32 ∧ o.outType = .float32 then m = m0
          else modifyModel m0 (decide (o.inType = .int8)) (decide (o.outType = .int8)) = .ok m) := by
  have hmod : ∀ m0, modifyFor o m0 = .ok m ↔ (if o.inType = .float32 ∧ o.outType = .float32 then m = m0
          else modifyModel m0 (decide (o.inType = .int8)) (decide (o.outType = .int8)) = .ok m) := by
    intro m0
    unfold modifyFor
    by_cases h1 : o.inType = .float32 <;> by_cases h2 : o.outType = .float32 <;> simp [h1, h2, beq_eq] <;> exact eq_comm
  unfold convertSavedModel
  constructor
  · intro h
    cases hv : validateOptions w o with
    | error e => rw [hv] at h; cases h
    | ok u =>
      rw [hv] at h
      obtain ⟨h1, h2⟩ := (validateOptions_eq w o).1 (by rw [hv])
      cases hver : w.version d with
      | error e => rw [hver] at h; cases h
      | ok v =>
        rw [hver] at h
        replace h : (if v = 1 ∨ v = 2 then (do
            let m ← w.convertSaved d v o.target o.range
            modifyFor o m) else Except.error PyErr.valueError) = Except.ok m := h
        split at h
        · rename_i hvv
          cases hc : w.convertSaved d v o.target o.range with
          | error e => rw [hc] at h; cases h
          | ok m0 =>
            rw [hc] at h
            exact ⟨h1, h2, v, m0, rfl, hvv, hc, (hmod m0).1 h⟩
        · cases h
  · rintro ⟨h1, h2, v, m0, hver, hvv, hc, hm⟩
    rw [(validateOptions_eq w o).2 ⟨h1, h2⟩, hver]
    change (if v = 1 ∨ v = 2 then (do
            let m ← w.convertSaved d v o.target o.range
            modifyFor o m) else Except.error PyErr.valueError) = Except.ok m
    rw [if_pos hvv, hc]
    exact (hmod m0).2 hm

/-- The saved-model way of `convert_keras_model` succeeds with `m`. -/
theorem savedAttempt_ok (o : Opts) (w : World) (m : GModel) : savedAttempt w o = .ok m ↔
    ∃ d, w.mkdtemp = .ok d ∧ w.save d = .ok () ∧ w.rmdtemp d = .ok () ∧ convertSavedModel w o d = .ok m := by
  unfold savedAttempt
  cases hd : w.mkdtemp with
  | error e => simp [bind, Except.bind]
  | ok d =>
    cases hs : w.save d <;> cases hr : w.rmdtemp d <;> simp [bind, Except.bind, hs, hr]

/-- **C65**, `convert_keras_model`: when the model can be saved and converted as a saved model, the result is exactly what
`convert_saved_model` returns for the saved model with the same options. -/
theorem C65_keras_via_saved (o : Opts) (w : World) (d : Nat) (m : GModel) (hm : w.isModel = true)
    (hp : w.policy = none ∨ w.policy = some "float32") (h1 : w.mkdtemp = .ok d) (h2 : w.save d = .ok ())
    (h3 : w.rmdtemp d = .ok ()) (h4 : convertSavedModel w o d = .ok m) : convertKerasModel w o = .ok m := by
  have hv := (C65_saved_result o w d m).1 h4
  unfold convertKerasModel
  rw [(validateOptions_eq w o).2 ⟨hv.1, hv.2.1⟩, hm, (savedAttempt_ok o w m).2 ⟨d, h1, h2, h3, h4⟩]
  rcases hp with hp | hp <;> rw [hp] <;> rfl

/-- **C65**: a valid call fails only when both ways of converting fail. -/
theorem C65_keras_total (o : Opts) (w : World) (hm : w.isModel = true)
    (hp : w.policy = none ∨ w.policy = some "float32") (hv : o.Valid) (he : w.eager = true) :
    (∃ m, convertKerasModel w o = .ok m) ↔ (∃ m, savedAttempt w o = .ok m) ∨ ∃ m, graphAttempt w o = .ok m := by
  have : convertKerasModel w o = match savedAttempt w o with
    | .ok m => .ok m
    | .error _ => graphAttempt w o := by
    unfold convertKerasModel
    rw [(validateOptions_eq w o).2 ⟨hv, he⟩, hm]
    rcases hp with hp | hp <;> rw [hp] <;> rfl
  rw [this]
  cases savedAttempt w o with
  | ok m => simp
  | error e => simp

theorem containsTrainingQuantOp_iff (f : Frozen) : containsTrainingQuantOp f.nodes f.library = true ↔ HasFakeQuant f := by
  unfold containsTrainingQuantOp HasFakeQuant
  simp only [Bool.or_eq_true, List.any_eq_true, List.contains_iff_mem]
  constructor
  · rintro (⟨x, h1, h2⟩ | ⟨g, h1, x, h2, h3⟩)
    · exact ⟨x, h2, .inl h1⟩
    · exact ⟨x, h3, .inr ⟨g, h1, h2⟩⟩
  · rintro ⟨x, h1, h2 | ⟨g, h2, h3⟩⟩
    · exact .inl ⟨x, h2, h1⟩
    · exact .inr ⟨g, h2, x, h3, h1⟩

theorem allSome : ∀ {l : List (Option Nat)}, none ∉ l → ∃ s : List Nat, l = s.map some
  | [], _ => ⟨[], rfl⟩
  | none :: l, h => absurd (by simp) h
  | some a :: l, h => by
    obtain ⟨s, hs⟩ := allSome (l := l) (fun hm => h (by simp [hm]))
    exact ⟨a :: s, by simp [hs]⟩

/-- The check of an input: it succeeds exactly for shapes that are known but for the batch size. -/
theorem checkShape_ok (t : FTensor) (l : List (Option Nat)) : checkShape t = .ok l ↔
    ∃ s : List Nat, l = s.map some ∧ ShapeOf t s := by
  unfold checkShape ShapeOf
  cases hs : t.shape with
  | none => simp
  | some l0 =>
    simp only []
    split
    · rename_i hn
      constructor
      · intro h; cases h
      · rintro ⟨s, rfl, h | ⟨rest, rfl, h⟩⟩
        · cases h
          rw [← List.map_drop, List.mem_map] at hn
          obtain ⟨_, _, hh⟩ := hn
          cases hh
        · cases h
          simp at hn
    · rename_i hn
      match l0, hn with
      | [], hn =>
        simp only [Except.ok.injEq]
        constructor
        · rintro rfl; exact ⟨[], rfl, .inl rfl⟩
        · rintro ⟨s, rfl, h | ⟨rest, rfl, h⟩⟩
          · cases s with
            | nil => rfl
            | cons a s => simp at h
          · simp at h
      | none :: rest, hn =>
        obtain ⟨r, hr⟩ := allSome (l := rest) (by simpa using hn)
        subst hr
        simp only [Except.ok.injEq]
        constructor
        · rintro rfl; exact ⟨1 :: r, rfl, .inr ⟨r, rfl, rfl⟩⟩
        · rintro ⟨s, rfl, h | ⟨rest, rfl, h⟩⟩
          · cases s with
            | nil => simp at h
            | cons a s => simp at h
          · simp only [Option.some.injEq, List.cons.injEq, true_and] at h
            rw [List.map_cons, h]
      | some a :: rest, hn =>
        obtain ⟨r, hr⟩ := allSome (l := rest) (by simpa using hn)
        subst hr
        simp only [Except.ok.injEq]
        constructor
        · rintro rfl; exact ⟨a :: r, rfl, .inl rfl⟩
        · rintro ⟨s, rfl, h | ⟨rest, rfl, h⟩⟩
          · simpa using h
          · simp at h

theorem mapM_checkShape : ∀ {ts : List FTensor} {ls : List (List (Option Nat))}, ts.mapM checkShape = .ok ls ↔
    ∃ ss : List (List Nat), ls = ss.map (·.map some) ∧ List.Forall₂ ShapeOf ts ss
  | [], ls => by
    simp only [List.mapM_nil, pure, Except.pure, Except.ok.injEq]
    constructor
    · rintro rfl; exact ⟨[], rfl, .nil⟩
    · rintro ⟨ss, rfl, h⟩; cases h; rfl
  | t :: ts, ls => by
    have ih := fun ls => mapM_checkShape (ts := ts) (ls := ls)
    rw [List.mapM_cons]
    constructor
    · intro h
      cases hc : checkShape t with
      | error e => rw [hc] at h; cases h
      | ok l =>
        rw [hc] at h
        cases hr : ts.mapM checkShape with
        | error e => rw [hr] at h; cases h
        | ok ls' =>
          rw [hr] at h
          cases h
          obtain ⟨s, rfl, h1⟩ := (checkShape_ok t l).1 hc
          obtain ⟨ss, rfl, h2⟩ := (ih _).1 hr
          exact ⟨s :: ss, rfl, .cons h1 h2⟩
    · rintro ⟨ss, rfl, h⟩
      cases h with
      | cons h1 h2 =>
        rw [(checkShape_ok _ _).2 ⟨_, rfl, h1⟩, (ih _).2 ⟨_, rfl, h2⟩]
        rfl

/-- **C65**, the conversion without a saved model: what it returns. It sees the data inputs in order with static shapes
(an unknown batch size is 1; any other unknown dimension raises); it quantizes exactly when the model contains a fake
quantization operator or a default range is given; and only then the requested input and output types have an effect. -/
theorem C65_graph_result (o : Opts) (w : World) (hv : o.Valid) (m : GModel) :
    graphAttempt w o = .ok m ↔
      ∃ (f : Frozen) (ss : List (List Nat)) (q : Bool) (m0 : GModel), w.freeze = .ok f ∧
        List.Forall₂ ShapeOf (f.inputs.filter fun t => t.dtype ≠ .resource) ss ∧
        (q = true ↔ HasFakeQuant f ∨ o.range ≠ none) ∧
        w.convertGraph ⟨f.bytes, (f.inputs.filter fun t => t.dtype ≠ .resource).map (·.name),
          (f.inputs.filter fun t => t.dtype ≠ .resource).map (·.dtype), ss.map (·.map some), f.outputs.map (·.name), q,
          o.target, o.range⟩ = .ok m0 ∧
        (if q = true ∧ (o.inType = .int8 ∨ o.outType = .int8) then
          modifyModel m0 (decide (o.inType = .int8)) (decide (o.outType = .int8)) = .ok m else m = m0) := by
  have hdi : ∀ f : Frozen, dataInputs f = f.inputs.filter fun t => t.dtype ≠ .resource := by
    intro f
    unfold dataInputs
    congr 1
    funext t
    by_cases h : t.dtype = .resource <;> simp [h]
  have hsq : ∀ f, shouldQuantize o f = true ↔ HasFakeQuant f ∨ o.range ≠ none := by
    intro f
    unfold shouldQuantize
    rw [Bool.or_eq_true, containsTrainingQuantOp_iff, Option.isSome_iff_ne_none]
  have hmod : ∀ (q : Bool) (m0 : GModel), (if q = true then modifyFor o m0 else Except.ok m0) = Except.ok m ↔
      (if q = true ∧ (o.inType = .int8 ∨ o.outType = .int8) then
          modifyModel m0 (decide (o.inType = .int8)) (decide (o.outType = .int8)) = .ok m else m = m0) := by
    intro q m0
    unfold modifyFor
    rcases hv.inType with h1 | h1 <;> rcases hv.outType with h2 | h2 <;> cases q <;>
      simp [h1, h2, beq_eq] <;> exact eq_comm
  unfold graphAttempt
  constructor
  · intro h
    cases hf : w.freeze with
    | error e => rw [hf] at h; cases h
    | ok f =>
      rw [hf] at h
      replace h : (do
          let shapes ← (dataInputs f).mapM checkShape
          let m ← w.convertGraph
            { bytes := f.bytes, inputs := (dataInputs f).map (·.name), dtypes := (dataInputs f).map (·.dtype),
              shapes := shapes, outputs := f.outputs.map (·.name), shouldQuantize := shouldQuantize o f,
              target := o.target, range := o.range }
          if shouldQuantize o f then modifyFor o m else .ok m) = Except.ok m := h
      cases hs : (dataInputs f).mapM checkShape with
      | error e => rw [hs] at h; cases h
      | ok ls =>
        rw [hs] at h
        obtain ⟨ss, rfl, h2⟩ := mapM_checkShape.1 hs
        replace h : (do
          let m ← w.convertGraph
            { bytes := f.bytes, inputs := (dataInputs f).map (·.name), dtypes := (dataInputs f).map (·.dtype),
              shapes := ss.map (·.map some), outputs := f.outputs.map (·.name), shouldQuantize := shouldQuantize o f,
              target := o.target, range := o.range }
          if shouldQuantize o f then modifyFor o m else .ok m) = Except.ok m := h
        cases hc : w.convertGraph
            { bytes := f.bytes, inputs := (dataInputs f).map (·.name), dtypes := (dataInputs f).map (·.dtype),
              shapes := ss.map (·.map some), outputs := f.outputs.map (·.name), shouldQuantize := shouldQuantize o f,
              target := o.target, range := o.range } with
        | error e => rw [hc] at h; cases h
        | ok m0 =>
          rw [hc] at h
          rw [hdi] at h2 hc
          exact ⟨f, ss, shouldQuantize o f, m0, rfl, h2, hsq f, hc, (hmod _ _).1 h⟩
  · rintro ⟨f, ss, q, m0, hf, h2, hq, hc, hm⟩
    have : q = shouldQuantize o f := by rw [Bool.eq_iff_iff, hq, hsq]
    subst this
    rw [hf]
    rw [← hdi] at h2 hc
    change (do
          let shapes ← (dataInputs f).mapM checkShape
          let m ← w.convertGraph
            { bytes := f.bytes, inputs := (dataInputs f).map (·.name), dtypes := (dataInputs f).map (·.dtype),
              shapes := shapes, outputs := f.outputs.map (·.name), shouldQuantize := shouldQuantize o f,
              target := o.target, range := o.range }
          if shouldQuantize o f then modifyFor o m else .ok m) = Except.ok m
    rw [mapM_checkShape.2 ⟨ss, rfl, h2⟩]
    change (do
          let m ← w.convertGraph
            { bytes := f.bytes, inputs := (dataInputs f).map (·.name), dtypes := (dataInputs f).map (·.dtype),
              shapes := ss.map (·.map some), outputs := f.outputs.map (·.name), shouldQuantize := shouldQuantize o f,
              target := o.target, range := o.range }
          if shouldQuantize o f then modifyFor o m else .ok m) = Except.ok m
    rw [hc]
    exact (hmod _ _).2 hm

/-- What a reference to an input of the converted main graph refers to has type int8 if a Quantize reads it. -/
theorem quantOf_type {qc dc q : Option Nat} {sg : SubGraph} (h : IoTyped qc dc sg) (hq : q = qc ∨ q = none)
    {f : Int} (hf : f ∈ sg.inputs) :
    (tensorAt sg (quantOf q sg f)).map (·.type) =
      if ∃ o ∈ sg.ops, q = some o.code ∧ o.ins = [f] then some tyInt8 else (tensorAt sg f).map (·.type) := by
  rcases hq with hq | hq
  · subst hq
    rcases quantOf_cases h.unaryQ f with ⟨o, ho, hc, h1, h2⟩ | ⟨he, hno⟩
    · rw [if_pos ⟨o, ho, hc, h1⟩]
      obtain ⟨x, hx, hy⟩ := pyGet_nonneg (h.ok.outs o ho (quantOf q sg f) (by rw [h2]; simp))
      have := (h.typesQ o ho ⟨hc, f, by rw [h1]; simp, hf⟩).2 (quantOf q sg f) (by rw [h2]; simp) x
      rw [hy] at *
      simp_all
    · rw [if_neg, he]
      rintro ⟨o, ho, hc, h1⟩
      exact hno o ho hc h1
  · subst hq
    rw [if_neg (by rintro ⟨_, _, h, _⟩; cases h)]
    refine congrArg (fun t => (tensorAt sg t).map (·.type)) ?_
    unfold quantOf
    rw [List.find?_eq_none.2 (by simp)]

/-- The same for outputs. -/
theorem fedBy_type {qc dc d : Option Nat} {sg : SubGraph} (h : IoTyped qc dc sg) (hd : d = dc ∨ d = none)
    {f : Int} (hf : f ∈ sg.outputs) :
    (tensorAt sg (fedBy d sg f)).map (·.type) =
      if ∃ o ∈ sg.ops, d = some o.code ∧ o.outs = [f] then some tyInt8 else (tensorAt sg f).map (·.type) := by
  rcases hd with hd | hd
  · subst hd
    unfold fedBy
    cases hfd : sg.ops.find? fun o => decide (d = some o.code ∧ o.outs = [f]) with
    | none =>
      rw [if_neg]
      rintro ⟨o, ho, hc, h1⟩
      have := List.find?_eq_none.1 hfd o ho
      simp [hc, h1] at this
    | some o =>
      have h1 := List.find?_some hfd
      simp only [decide_eq_true_eq] at h1
      have hm := List.mem_of_find?_eq_some hfd
      rw [if_pos ⟨o, hm, h1⟩]
      obtain ⟨i, t, hi, ht, hne⟩ := h.unaryD o hm h1.1
      simp only [hi, List.headD_cons]
      have hr : InRange sg i := (h.ok.ins o hm i (by rw [hi]; simp)).resolve_left hne
      obtain ⟨x, hx, hy⟩ := pyGet_nonneg hr
      have := (h.typesD o hm ⟨h1.1, f, by rw [h1.2]; simp, hf⟩).2 i (by rw [hi]; simp) x
      rw [hy] at *
      simp_all
  · subst hd
    rw [if_neg (by rintro ⟨_, _, h, _⟩; cases h)]
    refine congrArg (fun t => (tensorAt sg t).map (·.type)) ?_
    unfold fedBy
    rw [List.find?_eq_none.2 (by simp)]

/-- **C65**, the types of the inputs and outputs (partial). Let `m0` be the model the C++ converter made, with a convertible
main graph `sg` (C40). Then the conversion of the requested sides succeeds; its main graph computes what C40 says; and the
k-th input has type int8 if int8 inputs were requested and a Quantize reads the k-th input of `sg`, otherwise its type is
unchanged; outputs likewise. Missing from the full claim: an input that no Quantize reads keeps its type
(`C65_unquantized_input_witness`), and `convert_keras_model` may not get here at all (`C65_float_model_witness`). -/
theorem C65_io_types_partial (m0 : GModel) (sg : SubGraph) (rest : List SubGraph) (hsg : m0.subgraphs = sg :: rest)
    (qc dc : Option Nat) (hqc : CodeIs (fun c => c.builtin == opQuantize) m0.codes qc)
    (hdc : CodeIs (fun c => c.builtin == opDequantize) m0.codes dc) (hsome : qc ≠ none ∨ dc ≠ none) (intIn intOut : Bool)
    (h : Convertible qc dc (if intIn then qc else none) (if intOut then dc else none) sg) :
    ∃ (m : GModel) (sg' : SubGraph), modifyModel m0 intIn intOut = .ok m ∧ m.subgraphs = sg' :: rest ∧ m.codes = m0.codes ∧
      Converted (if intIn then qc else none) (if intOut then dc else none) sg sg' ∧
      inTypes m = sg.inputs.map (fun i =>
        if intIn = true ∧ ∃ o ∈ sg.ops, qc = some o.code ∧ o.ins = [i] then some tyInt8 else (tensorAt sg i).map (·.type)) ∧
      outTypes m = sg.outputs.map (fun i =>
        if intOut = true ∧ ∃ o ∈ sg.ops, dc = some o.code ∧ o.outs = [i] then some tyInt8
        else (tensorAt sg i).map (·.type)) := by
  obtain ⟨sg', sigs', fi, fo, h1, h2, -⟩ := modify_io_preserves_function_partial m0.codes qc dc hqc hdc hsome intIn intOut
    sg h m0.sigs
  refine ⟨{ m0 with sigs := sigs', subgraphs := sg' :: rest }, sg', ?_, rfl, rfl, h2, ?_, ?_⟩
  · unfold modifyModel
    rw [hsg]
    simp only [h1]
  · unfold inTypes
    simp only []
    have := congrArg (List.map (Option.map (·.type))) h2.inputs
    rw [List.map_map, List.map_map] at this
    refine this.trans ?_
    apply List.map_congr_left
    intro f hf
    refine (quantOf_type h.toIoTyped (by cases intIn <;> simp) hf).trans ?_
    cases intIn <;> simp
  · unfold outTypes
    simp only []
    have := congrArg (List.map (Option.map (·.type))) h2.outputs
    rw [List.map_map, List.map_map] at this
    refine this.trans ?_
    apply List.map_congr_left
    intro f hf
    refine (fedBy_type h.toIoTyped (by cases intOut <;> simp) hf).trans ?_
    cases intOut <;> simp

/-- A world in which the saved-model conversion yields `m` and the other one too, for a model with the single data input
`[None, 4]` and no fake quantization. -/
def simpleWorld (m : GModel) : World where
  isModel := true
  policy := some "float32"
  eager := true
  mkdtemp := .ok 0
  save := fun _ => .ok ()
  rmdtemp := fun _ => .ok ()
  version := fun _ => .ok 1
  convertSaved := fun _ _ _ _ => .ok m
  freeze := .ok ⟨[⟨0, .float32, some [none, some 4]⟩, ⟨1, .resource, some []⟩], [⟨2, .float32, none⟩], ["MatMul"], [], 7⟩
  convertGraph := fun _ => .ok m

/-- A float model: one operator from input 0 to output 1. -/
def floatModel : GModel := ⟨[⟨false, 9⟩], [⟨[⟨0, 0⟩, ⟨0, 1⟩], [0], [1], [⟨0, 0, 0, [0], [1]⟩]⟩], []⟩

/-- A quantized model as the converter makes it (`exampleIo` of C40). -/
def quantModel : GModel := ⟨exampleIoCodes, [exampleIo], [⟨0, [0, 4], [3, 5]⟩]⟩

/-- The full claim is false: int8 inputs and outputs are requested for a float model, `convert_saved_model` raises,
but `convert_keras_model` swallows this exception, converts again without quantization and returns a model with float
inputs and outputs. -/
theorem C65_float_model_witness :
    convertSavedModel (simpleWorld floatModel) ⟨.int8, .int8, "arm", none⟩ 0 = .error .valueError ∧
    ∃ m, convertKerasModel (simpleWorld floatModel) ⟨.int8, .int8, "arm", none⟩ = .ok m ∧
      inTypes m = [some tyFloat32] ∧ outTypes m = [some tyFloat32] := by
  refine ⟨by rfl, floatModel, by rfl, by decide, by decide⟩

/-- The full claim is false of `convert_saved_model` too: the second input is not quantized, int8 inputs are requested,
and the call succeeds with a float input. -/
theorem C65_unquantized_input_witness :
    ∃ m, convertSavedModel (simpleWorld quantModel) ⟨.int8, .float32, "arm", none⟩ 0 = .ok m ∧
      inTypes m = [some tyInt8, some tyFloat32] := by
  refine ⟨⟨exampleIoCodes, [⟨[⟨9, 1⟩, ⟨9, 2⟩, ⟨0, 3⟩, ⟨0, 4⟩, ⟨0, 5⟩], [0, 3], [2, 4],
    [⟨1, 1, 0, [0, -1], [1]⟩, ⟨2, 2, 0, [1], [2]⟩, ⟨3, 3, 0, [3], [4]⟩]⟩], [⟨0, [0, 3], [2, 4]⟩]⟩, ?_, by decide +kernel⟩
  kernel_rfl

/-- The hypotheses of the theorems can be met: valid options, a static shape with unknown batch size, a convertible model. -/
example : Opts.Valid ⟨.int8, .float32, "xcore", some (-3, 3)⟩ ∧ ShapeOf ⟨0, .float32, some [none, some 4]⟩ [1, 4] ∧
    (∃ m, convertKerasModel (simpleWorld quantModel) ⟨.int8, .int8, "arm", none⟩ = .ok m) ∧
    Convertible (some 0) (some 2) (some 0) (some 2) exampleIo := by
  refine ⟨⟨.inr rfl, .inl rfl, .inr rfl⟩, .inr ⟨[4], rfl, rfl⟩, ?_, exampleIo_convertible⟩
  obtain ⟨m, sg', h, -⟩ := C65_io_types_partial quantModel exampleIo [] rfl (some 0) (some 2) exampleIoCodes_ok.1
    exampleIoCodes_ok.2 (.inl (by decide)) true true exampleIo_convertible
  refine ⟨m, C65_keras_via_saved _ _ 0 m rfl (.inr rfl) rfl rfl rfl ?_⟩
  exact (C65_saved_result _ _ _ _).2 ⟨⟨.inr rfl, .inr rfl, .inl rfl⟩, rfl, 1, quantModel, rfl, .inl rfl, rfl, h⟩

end Verif.Convert
