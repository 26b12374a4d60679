import Verif.Spec.GlueRel
import Verif.Props.Convert
import Verif.Props.Pipeline
import Verif.Props.File

/-!
C71: what a Python call makes the C++ converter do, and what the model file consists of.
-/

namespace Verif.Convert

open Verif.Ir

/-! ### The number of inputs -/

theorem split_length (l acc : List Char) : (List.splitOnPPrepend (· == ',') l acc).length = l.count ',' + 1 := by
  induction l generalizing acc with
  | nil => simp
  | cons a l ih =>
    have ih0 : (List.splitOnP (· == ',') l).length = l.count ',' + 1 := ih []
    rw [List.splitOnPPrepend_cons_eq_if, List.count_cons]
    by_cases h : a = ','
    · subst h
      rw [if_pos (by simp), List.length_cons, ih0]
      simp
    · rw [if_neg (by simpa using h), ih, if_neg (by simpa using h)]

theorem splitOn_length (l : List Char) : (l.splitOn ',').length = l.count ',' + 1 := split_length l []

/-- The entry function found by the loop. -/
theorem findEntry_some {l : List (Option (Option String))} {a : Option String} {r : Option (Option String)} :
    findEntry l (some a) = .ok r ↔ r = some a ∧ ∀ e ∈ l, e = none := by
  induction l with
  | nil => simp [findEntry, eq_comm]
  | cons x l ih =>
    cases x with
    | none => simp [findEntry, ih]
    | some y => simp [findEntry]

theorem findEntry_none {l : List (Option (Option String))} {r : Option (Option String)} :
    findEntry l none = .ok r ↔ (r = none ∧ ∀ e ∈ l, e = none) ∨
      ∃ l1 a l2, l = l1 ++ some a :: l2 ∧ (∀ e ∈ l1 ++ l2, e = none) ∧ r = some a := by
  induction l with
  | nil =>
    constructor
    · intro h; cases h; exact .inl ⟨rfl, by simp⟩
    · rintro (⟨rfl, _⟩ | ⟨l1, a, l2, h, _⟩)
      · rfl
      · simp at h
  | cons x l ih =>
    cases x with
    | none =>
      rw [findEntry, ih]
      constructor
      · rintro (⟨rfl, h⟩ | ⟨l1, a, l2, rfl, h, rfl⟩)
        · exact .inl ⟨rfl, by simpa using h⟩
        · exact .inr ⟨none :: l1, a, l2, rfl, by simpa using h, rfl⟩
      · rintro (⟨rfl, h⟩ | ⟨l1, a, l2, h0, h, rfl⟩)
        · exact .inl ⟨rfl, by simpa using h⟩
        · cases l1 with
          | nil => cases h0
          | cons b l1 =>
            cases h0
            exact .inr ⟨l1, a, l2, rfl, by simpa using h, rfl⟩
    | some y =>
      rw [findEntry, findEntry_some]
      constructor
      · rintro ⟨rfl, h⟩
        exact .inr ⟨[], y, l, rfl, by simpa using h, rfl⟩
      · rintro (⟨rfl, h⟩ | ⟨l1, a, l2, h0, h, rfl⟩)
        · exact absurd (h (some y) (by simp)) (by simp)
        · cases l1 with
          | nil => cases h0; exact ⟨rfl, by simpa using h⟩
          | cons b l1 =>
            cases h0
            exact absurd (h (some y) (by simp)) (by simp)

theorem findEntry_error : ∀ {l : List (Option (Option String))} {acc : Option (Option String)} {e : PyErr},
    findEntry l acc = .error e → e = .runtimeError
  | [], _, _, h => by cases h
  | none :: _, _, _, h => findEntry_error (by simpa [findEntry] using h)
  | some _ :: _, none, _, h => findEntry_error (by simpa [findEntry] using h)
  | some _ :: _, some _, _, h => by cases h; rfl

/-- **C71, inputs.** The number of inputs is found exactly if there is one entry function and it has a list of names;
otherwise there is a RuntimeError. -/
theorem C71_inputs (m : Module) : (∀ k, getNumInputs m = .ok k ↔ HasInputs m k) ∧
    ((¬ ∃ k, HasInputs m k) → getNumInputs m = .error .runtimeError) := by
  have key : ∀ k, getNumInputs m = .ok k ↔ HasInputs m k := by
    intro k
    unfold getNumInputs HasInputs
    cases h : findEntry m.entries none with
    | error e =>
      constructor
      · intro h; cases h
      · rintro ⟨l1, names, l2, h1, h2, -⟩
        rw [findEntry_none.2 (.inr ⟨l1, some names, l2, h1, h2, rfl⟩)] at h
        cases h
    | ok r =>
      have hr := findEntry_none.1 h
      have uniq : ∀ l1 names l2, m.entries = l1 ++ some (some names) :: l2 → (∀ e ∈ l1 ++ l2, e = none) →
          r = some (some names) := by
        intro l1 names l2 h1 h2
        rw [findEntry_none.2 (.inr ⟨l1, some names, l2, h1, h2, rfl⟩)] at h
        cases h; rfl
      rcases hr with ⟨rfl, h0⟩ | ⟨l1, a, l2, h1, h2, rfl⟩
      · constructor
        · intro h; cases h
        · rintro ⟨l1, names, l2, h1, h2, -⟩
          have := uniq l1 names l2 h1 h2
          cases this
      · cases a with
        | none =>
          constructor
          · intro h; cases h
          · rintro ⟨l1, names, l2, h1, h2, -⟩
            have := uniq l1 names l2 h1 h2
            cases this
        | some names =>
          constructor
          · intro h
            cases h
            exact ⟨l1, names, l2, h1, h2, splitOn_length _⟩
          · rintro ⟨l1', names', l2', h1', h2', rfl⟩
            have := uniq l1' names' l2' h1' h2'
            cases this
            exact congrArg Except.ok (splitOn_length _)
  refine ⟨key, fun h => ?_⟩
  cases e : getNumInputs m with
  | ok k => exact absurd ⟨k, (key k).1 e⟩ h
  | error e' =>
    unfold getNumInputs at e
    cases hf : findEntry m.entries none with
    | error e2 =>
      rw [hf] at e
      cases e
      rw [findEntry_error hf]
    | ok r =>
      rw [hf] at e
      rcases r with _ | _ | names <;> cases e <;> rfl

/-- A function without inputs counts as one with one input: the empty list of names has one (empty) piece. -/
theorem C71_no_input_witness : HasInputs ⟨[some (some "")], false, ⟨[], []⟩⟩ 1 := ⟨[], "", [], rfl, by simp, by decide⟩

/-! ### Quantization -/

theorem quantSpecs_ok (range : Option (Rat × Rat)) (k : Nat) (quant post : Bool) :
    QuantFor range k quant post (quantSpecs range k quant post) := by
  refine ⟨?_, ?_⟩
  · rintro rfl
    exact ⟨rfl, rfl, rfl, rfl⟩
  · rintro rfl
    cases range with
    | none => simp [quantSpecs, List.mem_replicate]
    | some r =>
      obtain ⟨a, b⟩ := r
      simp [quantSpecs, List.mem_replicate]

theorem postPasses_ok (range : Option (Rat × Rat)) (k : Nat) (quant post : Bool) :
    postPasses (quantSpecs range k quant post) = conversionPasses quant range.isSome := by
  cases quant <;> cases range <;> rfl

/-! ### The C++ functions -/

section

variable {c : Cpp} {F : Foreign} {safe : Graph → List Val → Prop}

/-- The part of the result that follows for every function that reaches the passes. -/
theorem written_of_passes (hc : CppOk c F safe) {t : Target} {q : QuantSpecs} {quant ranges : Bool} {body g : Graph}
    (hb : Good (safe body) body) (h : c.passes t q (conversionPasses quant ranges) body = some g) :
    PassRuns (decide (t = .arm)) F (safe body) (conversionPasses quant ranges) body g ∧ g.PackedFilters ∧
      g.PaddingOk (decide (t = .arm)) ∧ g.ActivationsOk ∧ ∃ file, g.toFile.legalize = some file := by
  have hr := hc.runs _ _ _ _ _ h
  obtain ⟨h1, h2, h3⟩ := C69_weights quant ranges hc.foreign hb.ssa hb.noBConv hb.value hr
  refine ⟨hr, h1, h2, h3, ?_⟩
  cases e : g.toFile.legalize with
  | some file => exact ⟨file, rfl⟩
  | none =>
    exfalso
    obtain ⟨n, hn, o, ho, ha⟩ := (C72_undefined _).1 e
    simp only [Graph.toFile, List.mem_map] at hn
    obtain ⟨n', hn', rfl⟩ := hn
    cases ho
    apply ha
    have := h3 n' hn'
    cases hop : n'.op <;> simp only [Op.ActOk]
    all_goals
      have := this _ (by rw [hop]; rfl)
      rcases this with h | h | h | h <;> rw [h] <;> simp

/-- A module is converted: what a success means, and that every failure is a RuntimeError. -/
theorem convertModule_ok (hc : CppOk c F safe) (t : Target) (range : Option (Rat × Rat)) (k : Nat) (quant session : Bool)
    (tags : List String) (m : Module) :
    (∀ r, convertModule c t (quantSpecs range k quant session) tags session m = .ok r →
      ∃ body g file, Written c F safe (decide (t = .arm)) quant session range k tags m body g file r) ∧
    (∀ e, convertModule c t (quantSpecs range k quant session) tags session m = .error e → e = .runtimeError) := by
  have hgood : ∀ m1 m2, c.pre m = some m1 → (if session then c.freeze m1 else some m1) = some m2 →
      Good (safe m2.body) m2.body := by
    intro m1 m2 h1 h2
    cases session with
    | true => exact hc.freeze _ _ h2
    | false => cases h2; exact hc.pre _ _ h1
  unfold convertModule
  rw [postPasses_ok]
  split
  · exact ⟨fun _ h => (by cases h), fun _ h => by cases h; rfl⟩
  rename_i hcf
  cases h1 : c.pre m with
  | none => exact ⟨fun _ h => (by cases h), fun _ h => by cases h; rfl⟩
  | some m1 =>
    simp only
    cases h2 : (if session then c.freeze m1 else some m1) with
    | none => exact ⟨fun _ h => (by cases h), fun _ h => by cases h; rfl⟩
    | some m2 =>
      simp only
      cases h3 : c.passes t (quantSpecs range k quant session) (conversionPasses quant range.isSome) m2.body with
      | none => exact ⟨fun _ h => (by cases h), fun _ h => by cases h; rfl⟩
      | some g =>
        simp only
        obtain ⟨k1, k2, k3, k4, file, k5⟩ := written_of_passes hc (hgood m1 m2 h1 h2) h3
        rw [k5]
        simp only
        cases h4 : c.exportFile tags file with
        | none => exact ⟨fun _ h => (by cases h), fun _ h => by cases h; rfl⟩
        | some r0 =>
          simp only
          split
          · rename_i hver
            refine ⟨fun r h => ?_, fun _ h => (by cases h)⟩
            cases h
            refine ⟨m2.body, g, file, ?_⟩
            refine ⟨by simpa using hcf, ⟨m1, h1, ?_, ?_⟩, hgood m1 m2 h1 h2, ⟨t, _, quantSpecs_ok range k quant session, h3⟩, k1, k2,
              k3, k4, k5, C72_no_lq_left k5, h4, hver⟩
            · rintro rfl; cases h2; rfl
            · rintro rfl; exact ⟨m2, h2, rfl⟩
          · exact ⟨fun _ h => (by cases h), fun _ h => by cases h; rfl⟩

theorem getLceTarget_ok {s : String} {t : Target} (h : getLceTarget s = .ok t) :
    (s = "arm" ∨ s = "xcore") ∧ (decide (t = .arm) = decide (s = "arm")) := by
  unfold getLceTarget at h
  split at h
  · rename_i hs; cases h; subst hs; exact ⟨.inl rfl, by decide⟩
  split at h
  · rename_i hs; cases h; subst hs; exact ⟨.inr rfl, by decide⟩
  · cases h

theorem getLceTarget_error {s : String} {e : PyErr} (h : getLceTarget s = .error e) : e = .runtimeError := by
  unfold getLceTarget at h
  split at h
  · cases h
  split at h
  · cases h
  · cases h; rfl

/-- `convert_saved_model`'s call of the C++ function. -/
theorem cppSaved_ok (hc : CppOk c F safe) (d v : Nat) (target : String) (range : Option (Rat × Rat)) :
    (∀ r, cppSaved c d v target range = .ok r →
      ∃ m k body g file, c.registerOps = true ∧ c.importSaved d v ["serve"] ["serving_default"] = some m ∧ HasInputs m k ∧
        Written c F safe (decide (target = "arm")) true true range k ["serve"] m body g file r) ∧
    (∀ e, cppSaved c d v target range = .error e → e = .runtimeError) := by
  unfold cppSaved convertSavedCpp
  cases ht : getLceTarget target with
  | error e => exact ⟨fun _ h => (by cases h), fun _ h => by cases h; exact getLceTarget_error ht⟩
  | ok t =>
    have hta := (getLceTarget_ok ht).2
    rw [← hta]
    simp only [bind, Except.bind, List.isEmpty_cons, Bool.false_eq_true, if_false]
    split
    · exact ⟨fun _ h => (by cases h), fun _ h => by cases h; rfl⟩
    rename_i hreg
    cases hm : c.importSaved d v ["serve"] ["serving_default"] with
    | none => exact ⟨fun _ h => (by cases h), fun _ h => by cases h; rfl⟩
    | some m =>
      simp only
      cases hk : getNumInputs m with
      | error e =>
        refine ⟨fun _ h => (by cases h), fun e' h => ?_⟩
        cases h
        have := (C71_inputs m).2 (by rintro ⟨k, h⟩; rw [((C71_inputs m).1 k).2 h] at hk; cases hk)
        rw [this] at hk
        cases hk; rfl
      | ok k =>
        obtain ⟨h1, h2⟩ := convertModule_ok hc t range k true true ["serve"] m
        refine ⟨fun r h => ?_, fun e h => h2 e h⟩
        obtain ⟨body, g, file, h⟩ := h1 r h
        exact ⟨m, k, body, g, file, by simpa using hreg, rfl, ((C71_inputs m).1 k).1 hk, h⟩

theorem mapM_id_some {s : List Nat} : (s.map some).mapM id = some s := by
  induction s with
  | nil => rfl
  | cons a s ih => rw [List.map_cons, List.mapM_cons, ih]; rfl

theorem mapM_shapes {ss : List (List Nat)} : (ss.map (·.map some)).mapM (fun s => s.mapM id) = some ss := by
  induction ss with
  | nil => rfl
  | cons a s ih => rw [List.map_cons, List.mapM_cons, ih, mapM_id_some]; rfl

/-- The call of the C++ function without saved model, for static shapes. -/
theorem cppGraph_ok (hc : CppOk c F safe) (a : GraphArgs) (ss : List (List Nat)) (hs : a.shapes = ss.map (·.map some)) :
    (∀ r, cppGraph c a = .ok r →
      ∃ m body g file, c.loadGraphDef a.bytes = true ∧
        c.parseInputs a.inputs a.dtypes (ss.map fun s => if s = [] then none else some s) = true ∧
        c.parseOutputs a.outputs = true ∧
        c.importGraph a.bytes a.inputs a.dtypes (ss.map fun s => if s = [] then none else some s) a.outputs
          = some m ∧
        Written c F safe (decide (a.target = "arm")) a.shouldQuantize false a.range a.inputs.length [] m body g file r) ∧
    (∀ e, cppGraph c a = .error e → e = .runtimeError) := by
  have hsh : ss.map translateShape = ss.map fun s => if s = [] then none else some s := by
    apply List.map_congr_left
    intro s _
    unfold translateShape
    cases s <;> simp
  unfold cppGraph
  rw [hs, mapM_shapes]
  simp only
  split
  · exact ⟨fun _ h => (by cases h), fun _ h => by cases h; rfl⟩
  rename_i hl
  cases ht : getLceTarget a.target with
  | error e => exact ⟨fun _ h => (by cases h), fun _ h => by cases h; exact getLceTarget_error ht⟩
  | ok t =>
    have hta := (getLceTarget_ok ht).2
    rw [← hta]
    simp only [bind, Except.bind]
    rw [hsh]
    split
    · exact ⟨fun _ h => (by cases h), fun _ h => by cases h; rfl⟩
    rename_i hi
    split
    · exact ⟨fun _ h => (by cases h), fun _ h => by cases h; rfl⟩
    rename_i ho
    cases hm : c.importGraph a.bytes a.inputs a.dtypes (ss.map fun s => if s = [] then none else some s) a.outputs with
    | none => exact ⟨fun _ h => (by cases h), fun _ h => by cases h; rfl⟩
    | some m =>
      obtain ⟨h1, h2⟩ := convertModule_ok hc t a.range a.inputs.length a.shouldQuantize false [] m
      refine ⟨fun r h => ?_, fun e h => h2 e h⟩
      obtain ⟨body, g, file, h⟩ := h1 r h
      exact ⟨m, body, g, file, by simpa using hl, by simpa using hi, by simpa using ho, rfl, h⟩

/-! ### The Python calls -/

/-- **C71, `convert_saved_model`.** A model that is returned comes from the directory's serving signature: for the target
that was asked for, with int8 quantization (always) with the default range that was given, through all passes, to a file whose binary
convolutions have packed filters, implemented paddings and activations, and in which no operator of the `lq` dialect is
left; then the types of the inputs and outputs are changed if that was asked for. -/
theorem C71_saved (hc : CppOk c F safe) (w : World) (o : Opts) (d : Nat) (r : GModel)
    (h : convertSavedModel (w.withCpp c) o d = .ok r) :
    ∃ v m k body g file r0, w.version d = .ok v ∧ (v = 1 ∨ v = 2) ∧
      c.registerOps = true ∧ c.importSaved d v ["serve"] ["serving_default"] = some m ∧ HasInputs m k ∧
      Written c F safe (decide (o.target = "arm")) true true o.range k ["serve"] m body g file r0 ∧
      (if o.inType = .float32 ∧ o.outType = .float32 then r = r0
        else modifyModel r0 (decide (o.inType = .int8)) (decide (o.outType = .int8)) = .ok r) := by
  obtain ⟨_, _, v, r0, h1, h2, h3, h4⟩ := (C65_saved_result _ _ _ _).1 h
  obtain ⟨m, k, body, g, file, h0, h5, h6, h7⟩ := (cppSaved_ok hc d v o.target o.range).1 r0 h3
  exact ⟨v, m, k, body, g, file, r0, h1, h2, h0, h5, h6, h7, h4⟩

/-- **C71, `convert_keras_model` without a saved model.** The frozen function with the static shapes of its data inputs (an
empty shape is passed on as an unknown one) goes through the passes for the target; the quantization passes run exactly if
there is a fake-quantization operator or a default range. -/
theorem C71_graph (hc : CppOk c F safe) (w : World) (o : Opts) (hv : o.Valid) (r : GModel)
    (h : graphAttempt (w.withCpp c) o = .ok r) :
    ∃ (f : Frozen) (ss : List (List Nat)) (q : Bool) (m : Module) (body g : Graph) (file : FileGraph) (r0 : GModel),
      w.freeze = .ok f ∧ List.Forall₂ ShapeOf (f.inputs.filter fun t => t.dtype ≠ .resource) ss ∧
      (q = true ↔ HasFakeQuant f ∨ o.range ≠ none) ∧ c.loadGraphDef f.bytes = true ∧
      c.parseInputs ((f.inputs.filter fun t => t.dtype ≠ .resource).map (·.name))
        ((f.inputs.filter fun t => t.dtype ≠ .resource).map (·.dtype))
        (ss.map fun s => if s = [] then none else some s) = true ∧
      c.parseOutputs (f.outputs.map (·.name)) = true ∧
      c.importGraph f.bytes ((f.inputs.filter fun t => t.dtype ≠ .resource).map (·.name))
        ((f.inputs.filter fun t => t.dtype ≠ .resource).map (·.dtype)) (ss.map fun s => if s = [] then none else some s)
        (f.outputs.map (·.name)) = some m ∧
      Written c F safe (decide (o.target = "arm")) q false o.range (f.inputs.filter fun t => t.dtype ≠ .resource).length []
        m body g file r0 ∧
      (if q = true ∧ (o.inType = .int8 ∨ o.outType = .int8) then
        modifyModel r0 (decide (o.inType = .int8)) (decide (o.outType = .int8)) = .ok r else r = r0) := by
  obtain ⟨f, ss, q, r0, h1, h2, h3, h4, h5⟩ := (C65_graph_result _ _ hv _).1 h
  obtain ⟨m, body, g, file, e1, e2, e3, h6, h7⟩ := (cppGraph_ok hc _ ss rfl).1 r0 h4
  refine ⟨f, ss, q, m, body, g, file, r0, h1, h2, h3, e1, e2, e3, h6, ?_, h5⟩
  simpa only [List.length_map] using h7

/-- **C71, `convert_keras_model`.** A model that is returned was converted in one of these two ways: from the saved model in
the temporary directory, or, when that failed, from the frozen function. -/
theorem C71_keras (w : World) (o : Opts) (r : GModel) (h : convertKerasModel (w.withCpp c) o = .ok r) :
    (∃ d, w.mkdtemp = .ok d ∧ w.save d = .ok () ∧ w.rmdtemp d = .ok () ∧
      convertSavedModel (w.withCpp c) o d = .ok r) ∨
    ((∀ r', savedAttempt (w.withCpp c) o ≠ .ok r') ∧ graphAttempt (w.withCpp c) o = .ok r) := by
  unfold convertKerasModel at h
  split at h
  · cases h
  split at h
  · cases h
  cases hv : validateOptions (w.withCpp c) o with
  | error e => rw [hv] at h; cases h
  | ok u =>
    rw [hv] at h
    simp only [bind, Except.bind] at h
    cases hs : savedAttempt (w.withCpp c) o with
    | ok m =>
      rw [hs] at h
      cases h
      exact .inl ((savedAttempt_ok _ _ _).1 hs)
    | error e =>
      rw [hs] at h
      refine .inr ⟨fun r' h' => ?_, h⟩
      cases h'

/-- **C71, exceptions.** Every failure in the C++ functions reaches Python as a RuntimeError. -/
theorem C71_errors (hc : CppOk c F safe) :
    (∀ d v target range e, cppSaved c d v target range = .error e → e = .runtimeError) ∧
    (∀ a : GraphArgs, (∀ s ∈ a.shapes, none ∉ s) → ∀ e, cppGraph c a = .error e → e = .runtimeError) := by
  refine ⟨fun d v target range => (cppSaved_ok hc d v target range).2, fun a ha => ?_⟩
  have : ∃ ss : List (List Nat), a.shapes = ss.map (·.map some) := by
    generalize a.shapes = l at ha
    induction l with
    | nil => exact ⟨[], rfl⟩
    | cons s l ih =>
      obtain ⟨ss, hss⟩ := ih fun s' hs => ha s' (by simp [hs])
      obtain ⟨s', rfl⟩ := allSome (ha s (by simp))
      exact ⟨s' :: ss, by rw [hss]; rfl⟩
  obtain ⟨ss, hss⟩ := this
  exact (cppGraph_ok hc a ss hss).2

/-- **C71, from the Python call to the outputs (float models).** `convert_keras_model`'s conversion without saved model
succeeds for a model without fake quantization, no default range being given. Then the model file, run with the kernels of
any registration, refuses an inference exactly in the cases listed for C63 and otherwise writes the results of the function
TensorFlow delivered, for all arguments for which no rewriting step was exceptional and no node is among the excluded cases
of C63. Partial: the passes of C63 and C61 that are partial, and models with quantization. -/
theorem C71_float_outputs_partial (hc : CppOk c F safe) (w : World) (o : Opts) (hv : o.Valid) (r : GModel)
    (h : graphAttempt (w.withCpp c) o = .ok r) {f : Frozen} (hf : w.freeze = .ok f) (hq : ¬ HasFakeQuant f)
    (hr : o.range = none) :
    ∃ (m : Module) (body g : Graph) (file : FileGraph),
      Written c F safe (decide (o.target = "arm")) false false none
        (f.inputs.filter fun t => t.dtype ≠ .resource).length [] m body g file r ∧
      ∀ (reg : Reg) (cfg : Cfg) (ins vs : List Val) (mins : List MVal),
        (∀ n ∈ g.nodes, n.op.Below (2 ^ 31)) → safe body ins → cfg.Scheduled → g.Tame reg.kernel ins →
        List.Forall₂ Rep ins mins → body.eval ins = some vs →
        (g.Rejected { cfg with kt := reg.kernel } ins → file.exec reg cfg mins = .error) ∧
        (¬ g.Rejected { cfg with kt := reg.kernel } ins →
          ∃ ms, file.exec reg cfg mins = .ok ms ∧ List.Forall₂ Rep vs ms) := by
  obtain ⟨f', ss, q, m, body, g, file, r0, h1, h2, h3, -, -, -, h4, h5, h6⟩ := C71_graph hc w o hv r h
  rw [hf] at h1
  cases h1
  have hq' : q = false := by
    cases q with
    | false => rfl
    | true =>
      rcases h3.1 rfl with h | h
      · exact absurd h hq
      · exact absurd hr h
  subst hq'
  rw [hr] at h5
  simp only [Bool.false_eq_true, false_and, if_false] at h6
  subst h6
  refine ⟨m, body, g, file, h5, fun reg cfg ins vs mins hb hi hsch ht hm he => ?_⟩
  obtain ⟨k1, k2⟩ := C61_pipeline_partial _ hc.foreign h5.good.ssa h5.good.noBConv h5.passes hi he
  obtain ⟨k3, _⟩ := C69_constants _ hc.foreign h5.good.ssa h5.good.noBConv h5.good.value h5.passes
  rw [C72_inference reg cfg h5.written hb]
  exact C63_inference (cfg := { cfg with kt := reg.kernel }) k1 k3 hsch ht hm k2

end

/-! ### An example -/

/-- All passes, when TensorFlow's and TFLite's do nothing: `none` if one of them is not finished after so many rewritings. -/
def convertC (arm : Bool) (k : Nat) : List PassKind → Graph → Option Graph
  | [], g => some g
  | p :: ps, g =>
    if p.isForeign = true then convertC arm k ps g
    else
      let g' := if p = .lceQuantize then g.dce g.nodes.length else greedy (p.rules arm ⟨[], []⟩) k g
      if finishedB (p.rules arm ⟨[], []⟩) g' = true then convertC arm k ps g' else none

theorem convertC_runs {arm : Bool} {k : Nat} {safe : List Val → Prop} : ∀ {ps : List PassKind} {g g' : Graph},
    convertC arm k ps g = some g' → PassRuns arm ⟨[], []⟩ safe ps g g'
  | [], _, _, h => by cases h; exact .nil _
  | p :: ps, g, g', h => by
    unfold convertC at h
    split at h
    · rename_i hf
      exact .cons ⟨.refl g, fun h => by rw [hf] at h; cases h⟩ (convertC_runs h)
    · rename_i hf
      have hst : Steps (p.rules arm ⟨[], []⟩) safe g
          (if p = .lceQuantize then g.dce g.nodes.length else greedy (p.rules arm ⟨[], []⟩) k g) := by
        split
        · exact dce_steps _ (.refl g)
        · rename_i hp
          exact greedy_steps (fun r hr => pass_static hp (by simpa using hf) r hr) k (.refl g)
      simp only at h
      generalize (if p = .lceQuantize then g.dce g.nodes.length else greedy (p.rules arm ⟨[], []⟩) k g) = g1 at h hst
      split at h
      · rename_i hfin
        refine .cons ⟨?_, fun _ => finished_of_check hfin⟩ (convertC_runs h)
        have hq : p ≠ .quantForeign := by rintro rfl; exact hf rfl
        rw [if_neg hq]
        exact hst
      · cases h

/-- A TensorFlow that always imports the float block of C61's example, whose passes do nothing, and that writes the number of
operators into the file. -/
def exampleCpp : Cpp where
  loadGraphDef _ := true
  parseInputs _ _ _ := true
  parseOutputs _ := true
  importGraph _ _ _ _ _ := some ⟨[some (some "x")], false, exBlock⟩
  registerOps := true
  importSaved _ _ _ _ := some ⟨[none, some (some "x")], false, exBlock⟩
  pre _ := some ⟨[], false, exBlock⟩
  freeze _ := some ⟨[], false, exBlock⟩
  passes t _ ps g := convertC (decide (t = .arm)) 20 ps g
  exportFile _ F := some ⟨[⟨false, F.nodes.length⟩], [], []⟩
  verify _ := true
  ub := .error .other

/-- The assumptions of the theorems are met. -/
theorem exampleCpp_ok : CppOk exampleCpp ⟨[], []⟩ fun _ _ => True := by
  have hg : Good (fun _ => True) exBlock := by
    obtain ⟨vs, hv⟩ : ∃ vs, exBlock.eval exArg = some vs := Option.isSome_iff_exists.1 (by decide +kernel)
    exact ⟨ssa_of_check (by decide) (by decide), by decide, exArg, vs, trivial, hv⟩
  exact ⟨noForeign_ok, fun _ _ _ _ _ h => convertC_runs h, fun _ _ h => by cases h; exact hg, fun _ _ h => by cases h; exact hg⟩

/-- Both ways of converting succeed for both targets, with a default range or without. -/
example : ∀ target ∈ ["arm", "xcore"], ∀ range ∈ [none, some ((-3 : Rat), (3 : Rat))],
    ∃ r r', convertSavedModel ((simpleWorld floatModel).withCpp exampleCpp) ⟨.float32, .float32, target, range⟩ 0 = .ok r ∧
      convertKerasModel ((simpleWorld floatModel).withCpp exampleCpp) ⟨.float32, .float32, target, range⟩ = .ok r ∧
      graphAttempt ((simpleWorld floatModel).withCpp exampleCpp) ⟨.float32, .float32, target, range⟩ = .ok r' := by
  intro target ht range hr
  simp only [List.mem_cons, List.not_mem_nil, or_false] at ht hr
  rcases ht with rfl | rfl <;> rcases hr with rfl | rfl <;>
    exact ⟨⟨[⟨false, 7⟩], [], []⟩, ⟨[⟨false, 7⟩], [], []⟩, by kernel_rfl, by kernel_rfl, by kernel_rfl⟩

/-- A check for the sizes of attributes. -/
def belowB : Op → Bool
  | .bmaxPool _ => false
  | .bconv a => decide (a.strideH < 2 ^ 31 ∧ a.strideW < 2 ^ 31 ∧ a.dilH < 2 ^ 31 ∧ a.dilW < 2 ^ 31 ∧ a.padValue < 2 ^ 31 ∧ a.cin < 2 ^ 31)
  | .bconvI8 _ _ _ => false
  | _ => true

/-- The file made from the float block, run with the reference kernel or the optimized one: the hypotheses on the converted
graph are met, and the file computes the packed bits of the block's value. -/
example : ∀ useRef : Bool, ∃ (g : Graph) (file : FileGraph),
    exampleCpp.passes .xcore .float (conversionPasses false false) exBlock = some g ∧ g.toFile.legalize = some file ∧
    (∀ n ∈ g.nodes, n.op.Below (2 ^ 31)) ∧ (exCfg .reference false).Scheduled ∧
    g.Tame (Reg.kernel ⟨true, useRef, false⟩) exArg ∧ List.Forall₂ Rep exArg (exArg.map .plain) ∧
    exBlock.eval exArg = some [.s ⟨[1, 2, 2, 2], [true, true, true, false, true, true, true, false]⟩] ∧
    file.exec ⟨true, useRef, false⟩ (exCfg .reference false) (exArg.map .plain) =
      .ok [.words [1, 2, 2, 1] [3#32, 1#32, 3#32, 1#32]] := by
  intro useRef
  have h : ((exampleCpp.passes .xcore .float (conversionPasses false false) exBlock).bind fun g =>
      g.toFile.legalize.map fun F => (g.nodes.all (fun n => belowB n.op),
        g.tameB (Reg.kernel ⟨true, useRef, false⟩) exArg)) = some (true, true) := by
    cases useRef <;> decide +kernel
  have e : ((exampleCpp.passes .xcore .float (conversionPasses false false) exBlock).bind fun g =>
      g.toFile.legalize.map fun F => F.exec ⟨true, useRef, false⟩ (exCfg .reference false) (exArg.map .plain))
      = some (.ok [.words [1, 2, 2, 1] [3#32, 1#32, 3#32, 1#32]]) := by
    cases useRef
    · kernel_rfl
    · kernel_rfl
  rw [Option.bind_eq_some_iff] at h e
  obtain ⟨g, hg, h⟩ := h
  obtain ⟨g', hg', e⟩ := e
  rw [hg] at hg'
  cases hg'
  rw [Option.map_eq_some_iff] at h e
  obtain ⟨file, hf, h⟩ := h
  obtain ⟨file', hf', e⟩ := e
  rw [hf] at hf'
  cases hf'
  simp only [Prod.mk.injEq] at h
  refine ⟨g, file, hg, hf, ?_, exCfg_scheduled _ _, Graph.tameB_iff h.2, ?_, ?_, e⟩
  · intro n hn
    have := List.all_eq_true.1 h.1 n hn
    revert this
    cases n.op <;> simp [belowB, Op.Below, BConvAttrs.Below]
  · exact .cons rfl .nil
  · kernel_rfl

end Verif.Convert
