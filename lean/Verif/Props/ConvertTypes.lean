import Verif.Props.Convert
import Verif.Props.PyIoExact

/-!
C65, exactly: the types of the inputs and outputs after the requested conversion, without assumptions on who else reads
the converted tensors.
-/

namespace Verif.Convert

instance (n : Nat) (R : List Nat) (i : Int) : Decidable (Kept n R i) := by unfold Kept; infer_instance

/-- The tensor behind a mapped reference. -/
theorem tensorAt_map {sg : SubGraph} {R : List Nat} {ρ : Int → Int} (hρ : Renumbers sg.tensors R ρ) (i : Int) :
    (tensorAt (mapGraph sg R ρ) (ρ i)).map (·.type) =
      if Kept sg.tensors.length R i then (tensorAt sg i).map (·.type) else none := by
  by_cases hi : Kept sg.tensors.length R i
  · obtain ⟨h0, hs⟩ := hρ.get hi
    rw [if_pos hi]
    unfold tensorAt mapGraph
    rw [if_pos h0, if_pos hi.1]
    simp only [List.getElem?_map, hs, List.getElem?_eq_getElem hi.2.1]
    rfl
  · rw [if_neg hi]
    unfold tensorAt mapGraph
    rcases hρ.lost i hi with hx | hx
    · rw [if_neg (by omega)]
      rfl
    · by_cases h0 : 0 ≤ ρ i
      · rw [if_pos h0, List.getElem?_eq_none (by simpa using hx)]
        rfl
      · rw [if_neg h0]
        rfl

/-- Which output references are kept: all but inputs of the graph that lost their tensor to a removed Quantize. -/
theorem newOutput_kept {qc dc q d : Option Nat} {sg : SubGraph} {R : List Nat} (ht : IoTyped qc dc sg)
    (hq : q = qc ∨ q = none) (hd : d = dc ∨ d = none) (h : IoWeak q d sg)
    (hR : ∀ i : Nat, i ∈ R ↔ RemF q sg i ∨ RemD d sg i) {f : Int} (hf : f ∈ sg.outputs) :
    Kept sg.tensors.length R (fedBy d sg f) ↔
      (∃ o ∈ sg.ops, d = some o.code ∧ o.outs = [f]) ∨ ¬ (f ∈ sg.inputs ∧ ∃ o ∈ sg.ops, q = some o.code ∧ o.ins = [f]) := by
  have hrem : ∀ {i : Int}, RemF q sg i → i ∈ sg.inputs ∧ ∃ o ∈ sg.ops, q = some o.code ∧ o.ins = [i] := by
    rintro i ⟨o, ho, hat, hm⟩
    obtain ⟨a, b, ha, _, _⟩ := h.unaryQ o ho hat.1
    have hi := remF_input' h ⟨o, ho, hat, hm⟩
    rw [ha, List.mem_singleton] at hm
    exact ⟨hi, o, ho, hat.1, by rw [ha, hm]⟩
  rcases fedBy_cases h.unaryD f with ⟨o, ho, hc, h1, h2, hne⟩ | ⟨he, hno⟩
  · refine ⟨fun _ => .inl ⟨o, ho, hc, h1⟩, fun _ => ?_⟩
    have hd' : d = dc := hd.resolve_right (by rw [hc]; simp)
    subst hd'
    have hin : fedBy d sg f ∈ o.ins := by rw [h2]; simp
    have hr : InRange sg (fedBy d sg f) := (h.ok.ins o ho _ hin).resolve_left hne
    obtain ⟨x, _, hx⟩ := pyGet_nonneg hr
    have t1 := (ht.typesD o ho ⟨hc, f, by rw [h1]; simp, hf⟩).2 _ hin x hx
    refine kept_of hR hr ?_ ?_
    · rintro ⟨o', ho', hat, hm⟩
      have hq' : q = qc := hq.resolve_right (by rw [hat.1]; simp)
      subst hq'
      have t2 := (ht.typesQ o' ho' hat).1 _ hm x hx
      rw [t1] at t2
      exact absurd t2 (by decide)
    · rintro ⟨o', ho', hat, hm⟩
      have t2 := (ht.typesD o' ho' hat).1 _ hm x hx
      rw [t1] at t2
      exact absurd t2 (by decide)
  · rw [he]
    constructor
    · intro hk
      right
      rintro ⟨hi, o, ho, hc, h1⟩
      exact not_kept_of hR (.inl ⟨o, ho, ⟨hc, f, by rw [h1]; simp, hi⟩, by rw [h1]; simp⟩) hk
    · rintro (⟨o, ho, hc, h1⟩ | hx)
      · exact absurd h1 (hno o ho hc)
      · refine kept_of hR (h.ok.outputs f hf) (fun hr => hx (hrem hr)) ?_
        rintro ⟨o, ho, hat, hm⟩
        obtain ⟨a, b, _, hb, _⟩ := h.unaryD o ho hat.1
        rw [hb, List.mem_singleton] at hm
        exact hno o ho hat.1 (by rw [hb, hm])

/-- **C65**, the types of the inputs and outputs, exactly. For every model whose main graph is well-formed, ordered and has
the types the call checks, the conversion of the requested sides succeeds. The k-th input is int8 if int8 inputs were
requested and a Quantize reads it; otherwise its type is unchanged. The k-th output is int8 if int8 outputs were requested
and a Dequantize produces it; it has no tensor at all if it is an input whose Quantize was removed; otherwise its type is
unchanged. -/
theorem C65_io_types_exact (m0 : GModel) (sg : SubGraph) (rest : List SubGraph) (hsg : m0.subgraphs = sg :: rest)
    (qc dc : Option Nat) (hqc : CodeIs (fun c => c.builtin == opQuantize) m0.codes qc)
    (hdc : CodeIs (fun c => c.builtin == opDequantize) m0.codes dc) (hsome : qc ≠ none ∨ dc ≠ none) (intIn intOut : Bool)
    (h : IoTyped qc dc sg) :
    ∃ (m : GModel) (sg' : SubGraph), modifyModel m0 intIn intOut = .ok m ∧ m.subgraphs = sg' :: rest ∧ m.codes = m0.codes ∧
      inTypes m = sg.inputs.map (fun i =>
        if intIn = true ∧ ∃ o ∈ sg.ops, qc = some o.code ∧ o.ins = [i] then some tyInt8 else (tensorAt sg i).map (·.type)) ∧
      outTypes m = sg.outputs.map (fun i =>
        if intOut = true ∧ ∃ o ∈ sg.ops, dc = some o.code ∧ o.outs = [i] then some tyInt8
        else if intIn = true ∧ i ∈ sg.inputs ∧ ∃ o ∈ sg.ops, qc = some o.code ∧ o.ins = [i] then none
        else (tensorAt sg i).map (·.type)) := by
  obtain ⟨R, ρ, sigs', hw, hR, hρ, hrun, -⟩ := modify_io_run m0.codes qc dc hqc hdc hsome intIn intOut sg h m0.sigs
  have hq : (if intIn = true then qc else none) = qc ∨ (if intIn = true then qc else none) = none := by
    cases intIn <;> simp
  have hd : (if intOut = true then dc else none) = dc ∨ (if intOut = true then dc else none) = none := by
    cases intOut <;> simp
  have eq1 : ∀ i, (∃ o ∈ sg.ops, (if intIn = true then qc else none) = some o.code ∧ o.ins = [i]) ↔
      (intIn = true ∧ ∃ o ∈ sg.ops, qc = some o.code ∧ o.ins = [i]) := by
    intro i; cases intIn <;> simp
  have eq2 : ∀ i, (∃ o ∈ sg.ops, (if intOut = true then dc else none) = some o.code ∧ o.outs = [i]) ↔
      (intOut = true ∧ ∃ o ∈ sg.ops, dc = some o.code ∧ o.outs = [i]) := by
    intro i; cases intOut <;> simp
  generalize (if intIn = true then qc else none) = q at *
  generalize (if intOut = true then dc else none) = d at *
  refine ⟨{ m0 with sigs := sigs', subgraphs := mapGraph (dropIo q d sg) R ρ :: rest }, _, ?_, rfl, rfl, ?_, ?_⟩
  · unfold modifyModel
    rw [hsg]
    simp only [hrun]
  · unfold inTypes
    change ((sg.inputs.map (quantOf q sg)).map ρ).map _ = _
    rw [List.map_map, List.map_map]
    apply List.map_congr_left
    intro f hf
    refine (tensorAt_map (sg := dropIo q d sg) hρ (quantOf q sg f)).trans ?_
    change (if Kept sg.tensors.length R (quantOf q sg f) then (tensorAt sg (quantOf q sg f)).map (·.type) else none) = _
    rw [if_pos (newInput_kept hw hR hf).1]
    refine (quantOf_type h hq hf).trans ?_
    simp only [eq1]
  · unfold outTypes
    change ((sg.outputs.map (fedBy d sg)).map ρ).map _ = _
    rw [List.map_map, List.map_map]
    apply List.map_congr_left
    intro f hf
    refine (tensorAt_map (sg := dropIo q d sg) hρ (fedBy d sg f)).trans ?_
    have hk := newOutput_kept h hq hd hw hR hf
    have hty := fedBy_type h hd hf
    change (if Kept sg.tensors.length R (fedBy d sg f) then (tensorAt sg (fedBy d sg f)).map (·.type) else none) = _
    rw [hty]
    simp only [hk, eq1, eq2]
    by_cases c1 : intOut = true ∧ ∃ o ∈ sg.ops, dc = some o.code ∧ o.outs = [f]
    · rw [if_pos c1, if_pos (.inl c1), if_pos c1]
    · rw [if_neg c1, if_neg c1]
      by_cases c2 : intIn = true ∧ f ∈ sg.inputs ∧ ∃ o ∈ sg.ops, qc = some o.code ∧ o.ins = [f]
      · rw [if_pos c2, if_neg]
        rintro (hx | hx)
        · exact c1 hx
        · exact hx ⟨c2.2.1, c2.1, c2.2.2⟩
      · rw [if_neg c2, if_pos]
        right
        rintro ⟨x, y, z⟩
        exact c2 ⟨y, x, z⟩

/-- **C65**: when the request for int8 is honoured. All inputs are int8 exactly when every input is read by a Quantize or
was int8 already; all outputs exactly when every output is produced by a Dequantize, or was int8 already. -/
theorem C65_int8_iff (m0 : GModel) (sg : SubGraph) (rest : List SubGraph) (hsg : m0.subgraphs = sg :: rest)
    (qc dc : Option Nat) (hqc : CodeIs (fun c => c.builtin == opQuantize) m0.codes qc)
    (hdc : CodeIs (fun c => c.builtin == opDequantize) m0.codes dc) (hsome : qc ≠ none ∨ dc ≠ none)
    (h : IoTyped qc dc sg) :
    ∃ m : GModel, modifyModel m0 true true = .ok m ∧
      ((∀ t ∈ inTypes m, t = some tyInt8) ↔ ∀ i ∈ sg.inputs,
        (∃ o ∈ sg.ops, qc = some o.code ∧ o.ins = [i]) ∨ (tensorAt sg i).map (·.type) = some tyInt8) ∧
      ((∀ t ∈ outTypes m, t = some tyInt8) ↔ ∀ i ∈ sg.outputs,
        (∃ o ∈ sg.ops, dc = some o.code ∧ o.outs = [i]) ∨ (tensorAt sg i).map (·.type) = some tyInt8) := by
  obtain ⟨m, sg', h1, -, -, h2, h3⟩ := C65_io_types_exact m0 sg rest hsg qc dc hqc hdc hsome true true h
  refine ⟨m, h1, ?_, ?_⟩
  · rw [h2, List.forall_mem_map]
    refine forall₂_congr fun i _ => ?_
    by_cases c : ∃ o ∈ sg.ops, qc = some o.code ∧ o.ins = [i]
    · simp [c]
    · simp [c]
  · rw [h3, List.forall_mem_map]
    refine forall₂_congr fun i _ => ?_
    by_cases c : ∃ o ∈ sg.ops, dc = some o.code ∧ o.outs = [i]
    · simp [c]
    · by_cases c2 : i ∈ sg.inputs ∧ ∃ o ∈ sg.ops, qc = some o.code ∧ o.ins = [i]
      · obtain ⟨hi, o, ho, hc, hio⟩ := c2
        obtain ⟨x, _, hx⟩ := pyGet_nonneg (h.ok.inputs i hi)
        have t := (h.typesQ o ho ⟨hc, i, by rw [hio]; simp, hi⟩).1 i (by rw [hio]; simp) x hx
        have hx' : tensorAt sg i = some x := hx
        rw [hx']
        simp only [Option.map_some, t, true_and]
        rw [if_neg c, if_pos ⟨hi, o, ho, hc, hio⟩]
        constructor
        · intro hf; cases hf
        · rintro (hf | hf)
          · exact absurd hf c
          · exact absurd hf (by decide)
      · simp [c, c2]

/-- The hypotheses can be met, by a model with one quantized and one float input and output: the request is not honoured. -/
example : ∃ m : GModel, modifyModel quantModel true true = .ok m ∧ ¬ (∀ t ∈ inTypes m, t = some tyInt8) ∧
    ¬ (∀ t ∈ outTypes m, t = some tyInt8) := by
  obtain ⟨m, h1, h2, h3⟩ := C65_int8_iff quantModel exampleIo [] rfl (some 0) (some 2) exampleIoCodes_ok.1
    exampleIoCodes_ok.2 (.inl (by decide)) exampleIo_convertible.toIoTyped
  refine ⟨m, h1, ?_, ?_⟩
  · rw [h2]; decide +kernel
  · rw [h3]; decide +kernel

end Verif.Convert
