import Verif.Model.PyGraph

/-!
Specification of edits of a model graph: what it means that a reference still refers to the same tensor, and the meaning
of a graph (execute the operators in order, for arbitrary operator semantics).
-/

namespace Verif

/-- The tensors that are not removed, in order, each with the index it had. -/
def survivors (ts : List GTensor) (remove : List Nat) : List (GTensor × Nat) :=
  ts.zipIdx.filter fun p => decide (p.2 ∉ remove)

/-- The references `new` are the references `old` after removal: as many, and a reference to a kept tensor refers to the
same tensor in the new tensor list. -/
def SameRefs (ts : List GTensor) (remove : List Nat) (old new : List Int) : Prop :=
  new.length = old.length ∧
  ∀ (k i : Nat) (t : GTensor), old[k]? = some (i : Int) → ts[i]? = some t → i ∉ remove →
    ∃ j : Nat, new[k]? = some (j : Int) ∧ (survivors ts remove)[j]? = some (t, i)

/-- The values of the tensors during an execution; `none`: no value yet. -/
abbrev GEnv (V : Type) := Int → Option V

/-- The meaning of the operators: operator code and options, input values (`none` for an absent input), output values. -/
abbrev OpSem (V : Type) := Nat → Nat → List (Option V) → List (Option V)

/-- Storing the outputs of an operator. -/
def writeOuts {V : Type} (e : GEnv V) (outs : List Int) (vs : List (Option V)) : GEnv V := fun i =>
  match (outs.zip vs).lookup i with
  | some v => v
  | none => e i

/-- Executing an operator. -/
def stepOp {V : Type} (sem : OpSem V) (e : GEnv V) (o : GOp) : GEnv V :=
  writeOuts e o.outs (sem o.code o.opts (o.ins.map e))

/-- Executing operators in order. -/
def runOps {V : Type} (sem : OpSem V) (ops : List GOp) (e : GEnv V) : GEnv V := ops.foldl (stepOp sem) e

/-- The values before the first operator: the given inputs, and constants (`cv`: the constant a tensor holds, if any). -/
def initEnv {V : Type} (cv : GTensor → Option V) (sg : SubGraph) (vals : List V) : GEnv V := fun i =>
  match (sg.inputs.zip vals).lookup i with
  | some v => some v
  | none => if 0 ≤ i then (sg.tensors[i.toNat]?).bind cv else none

/-- The values of all tensors after an inference. -/
def finalEnv {V : Type} (sem : OpSem V) (cv : GTensor → Option V) (sg : SubGraph) (vals : List V) : GEnv V :=
  runOps sem sg.ops (initEnv cv sg vals)

/-- The outputs of an inference. -/
def evalGraph {V : Type} (sem : OpSem V) (cv : GTensor → Option V) (sg : SubGraph) (vals : List V) : List (Option V) :=
  sg.outputs.map (finalEnv sem cv sg vals)

/-- The index of an existing tensor. -/
def InRange (sg : SubGraph) (i : Int) : Prop := 0 ≤ i ∧ i.toNat < sg.tensors.length

/-- A well-formed graph: operators are distinct objects, a tensor has at most one producer, graph inputs have none, and
references are to existing tensors (operator inputs may be absent). -/
structure GraphOK (sg : SubGraph) : Prop where
  ids : (sg.ops.map (·.id)).Nodup
  producers : (sg.ops.flatMap (·.outs)).Nodup
  notInput : ∀ o ∈ sg.ops, ∀ i ∈ o.outs, i ∉ sg.inputs
  inputs : ∀ i ∈ sg.inputs, InRange sg i
  outputs : ∀ i ∈ sg.outputs, InRange sg i
  ins : ∀ o ∈ sg.ops, ∀ i ∈ o.ins, i = -1 ∨ InRange sg i
  outs : ∀ o ∈ sg.ops, ∀ i ∈ o.outs, InRange sg i

/-- The operators with code `c` have one input and one output. -/
def Unary (c : Option Nat) (sg : SubGraph) : Prop :=
  ∀ o ∈ sg.ops, c = some o.code → ∃ i t, o.ins = [i] ∧ o.outs = [t] ∧ i ≠ -1

/-- The tensor fed to the operator with code `c` that produces `t`; `t` itself when no such operator produces it. -/
def fedBy (c : Option Nat) (sg : SubGraph) (t : Int) : Int :=
  match sg.ops.find? fun o => decide (c = some o.code ∧ o.outs = [t]) with
  | some o => o.ins.headD t
  | none => t

/-- The operator has code `c` and produces one of the graph outputs `outs`. -/
def AtOutput (c : Option Nat) (outs : List Int) (o : GOp) : Prop := c = some o.code ∧ ∃ t ∈ o.outs, t ∈ outs

instance (c : Option Nat) (outs : List Int) (o : GOp) : Decidable (AtOutput c outs o) := by unfold AtOutput; infer_instance

/-- The tensor a reference refers to. -/
def tensorAt (sg : SubGraph) (i : Int) : Option GTensor := if 0 ≤ i then sg.tensors[i.toNat]? else none

/-- `c` is the index of the only operator code with the property, or `none` if there is no such code. -/
def CodeIs (p : OpCode → Bool) (codes : List OpCode) (c : Option Nat) : Prop :=
  ∀ i : Nat, c = some i ↔ ∃ x, codes[i]? = some x ∧ p x = true

/-- The packed tensor behind a graph output `t`: step over the Dequantize operator (code `dc`) that produces it, if any,
then over the LceDequantize operator (code `lc`), if any. -/
def packedOf (lc dc : Option Nat) (sg : SubGraph) (t : Int) : Int := fedBy lc sg (fedBy dc sg t)

/-- What C39 assumes of a graph: it is well formed; LceDequantize and Dequantize operators have one input and one output;
the tensors that would be removed are not consumed by other operators; the types are those the code insists on. -/
structure Strippable (lc dc : Option Nat) (sg : SubGraph) : Prop where
  ok : GraphOK sg
  unaryL : Unary lc sg
  unaryD : Unary dc sg
  /-- the output of a Dequantize at a graph output is read by nobody -/
  unreadD : ∀ o ∈ sg.ops, dc = some o.code → ∀ t ∈ o.outs, t ∈ sg.outputs → ∀ o' ∈ sg.ops, t ∉ o'.ins
  /-- the output of an LceDequantize at (or one Dequantize before) a graph output is read by Dequantizes at outputs only -/
  unreadL : ∀ o ∈ sg.ops, lc = some o.code → ∀ u ∈ o.outs, u ∈ sg.outputs.map (fedBy dc sg) →
    ∀ o' ∈ sg.ops, u ∈ o'.ins → AtOutput dc sg.outputs o'
  typesD : ∀ o ∈ sg.ops, AtOutput dc sg.outputs o →
    (∀ t ∈ o.outs, ∀ x, tensorAt sg t = some x → x.type = tyFloat32) ∧
    (∀ t ∈ o.ins, ∀ x, tensorAt sg t = some x → x.type = tyInt8)
  typesL : ∀ o ∈ sg.ops, AtOutput lc (sg.outputs.map (fedBy dc sg)) o →
    (∀ t ∈ o.outs, ∀ x, tensorAt sg t = some x → x.type = tyFloat32 ∨ x.type = tyInt8) ∧
    (∀ t ∈ o.ins, ∀ x, tensorAt sg t = some x → x.type = tyInt32)

/-- The operators of a graph without their references. -/
def opKinds (ops : List GOp) : List (Nat × Nat × Nat) := ops.map fun o => (o.id, o.code, o.opts)

/-- The graph `sg'` is the graph `sg` with the packed tensors as outputs and otherwise the same: the k-th output tensor is
the tensor behind the k-th output; the input tensors are the same; the operators are the same in the same order, without
the removed ones; and for every meaning of operators and constants and every input the outputs have the values those
tensors had. -/
structure Stripped (lc dc : Option Nat) (sg sg' : SubGraph) : Prop where
  outputs : sg'.outputs.map (tensorAt sg') = sg.outputs.map (fun t => tensorAt sg (packedOf lc dc sg t))
  inputs : sg'.inputs.map (tensorAt sg') = sg.inputs.map (tensorAt sg)
  ops : opKinds sg'.ops = opKinds (sg.ops.filter fun o =>
    decide (¬ AtOutput dc sg.outputs o ∧ ¬ AtOutput lc (sg.outputs.map (fedBy dc sg)) o))
  values : ∀ (V : Type) (sem : OpSem V) (cv : GTensor → Option V) (vals : List V),
    evalGraph sem cv sg' vals = sg.outputs.map fun t => finalEnv sem cv sg vals (packedOf lc dc sg t)

/-- The operator has code `c` and reads one of the graph inputs `ins`. -/
def AtInput (c : Option Nat) (ins : List Int) (o : GOp) : Prop := c = some o.code ∧ ∃ f ∈ o.ins, f ∈ ins

instance (c : Option Nat) (ins : List Int) (o : GOp) : Decidable (AtInput c ins o) := by unfold AtInput; infer_instance

/-- The tensor the operator with code `c` that reads `f` produces; `f` itself when no such operator reads it. -/
def quantOf (c : Option Nat) (sg : SubGraph) (f : Int) : Int :=
  match sg.ops.find? fun o => decide (c = some o.code ∧ o.ins = [f]) with
  | some o => o.outs.headD f
  | none => f

/-- The graphs with int8 tensors inside that the call can work on, for the codes `qc`, `dc` of Quantize and Dequantize: well
formed, operators in order, these operators with one input and one output and, at the graph's inputs and outputs, with the
types the call checks. -/
structure IoTyped (qc dc : Option Nat) (sg : SubGraph) : Prop where
  ok : GraphOK sg
  /-- operators come after the producers of what they read -/
  order : ∀ l1 o l2, sg.ops = l1 ++ o :: l2 → ∀ i ∈ o.ins, ∀ o' ∈ o :: l2, i ∉ o'.outs
  unaryQ : Unary qc sg
  unaryD : Unary dc sg
  typesQ : ∀ o ∈ sg.ops, AtInput qc sg.inputs o →
    (∀ t ∈ o.ins, ∀ x, tensorAt sg t = some x → x.type = tyFloat32) ∧
    (∀ t ∈ o.outs, ∀ x, tensorAt sg t = some x → x.type = tyInt8)
  typesD : ∀ o ∈ sg.ops, AtOutput dc sg.outputs o →
    (∀ t ∈ o.outs, ∀ x, tensorAt sg t = some x → x.type = tyFloat32) ∧
    (∀ t ∈ o.ins, ∀ x, tensorAt sg t = some x → x.type = tyInt8)

/-- What C40 assumes of a graph, for the codes `qc`, `dc` of Quantize and Dequantize and the codes `q`, `d` of the
operators to remove (`none`: this side is not converted). -/
structure Convertible (qc dc q d : Option Nat) (sg : SubGraph) : Prop extends IoTyped qc dc sg where
  /-- a converted graph input is read by its Quantize operator only and is not a graph output -/
  onlyQ : ∀ o ∈ sg.ops, AtInput q sg.inputs o → ∀ f ∈ o.ins, (∀ o' ∈ sg.ops, f ∈ o'.ins → o' = o) ∧ f ∉ sg.outputs
  /-- a converted graph output is read by no operator -/
  unreadD : ∀ o ∈ sg.ops, d = some o.code → ∀ t ∈ o.outs, t ∈ sg.outputs → ∀ o' ∈ sg.ops, t ∉ o'.ins

/-- The tensors that have no value any more when the Quantize operators (code `q`) at the inputs and the Dequantize operators
(code `d`) at the outputs are removed: the float tensors in front of a removed Quantize and behind a removed Dequantize; the
output of a removed Quantize that does not take the place of its input, another one having taken it; and what the remaining
operators compute from such tensors. -/
inductive Lost (q d : Option Nat) (sg : SubGraph) : Int → Prop
  | input (o : GOp) (f : Int) : o ∈ sg.ops → AtInput q sg.inputs o → f ∈ o.ins → Lost q d sg f
  | output (o : GOp) (t : Int) : o ∈ sg.ops → AtOutput d sg.outputs o → t ∈ o.outs → Lost q d sg t
  | second (o : GOp) (f t : Int) : o ∈ sg.ops → AtInput q sg.inputs o → f ∈ o.ins → t ∈ o.outs → quantOf q sg f ≠ t →
      Lost q d sg t
  | step (o : GOp) (i t : Int) : o ∈ sg.ops → ¬ AtInput q sg.inputs o → ¬ AtOutput d sg.outputs o → i ∈ o.ins →
      Lost q d sg i → t ∈ o.outs → Lost q d sg t

/-- The graph `sg'` computes, from the values after the input Quantize operators (code `q`), the values before the output
Dequantize operators (code `d`): its input and output tensors are those tensors, it has the same operators without the
removed ones, and for every meaning of operators and constants and every input `vals` of the original, if `vals'` are the
values of the quantized inputs, then its outputs on `vals'` are the values of the tensors before Dequantize. -/
structure Converted (q d : Option Nat) (sg sg' : SubGraph) : Prop where
  inputs : sg'.inputs.map (tensorAt sg') = sg.inputs.map (fun t => tensorAt sg (quantOf q sg t))
  outputs : sg'.outputs.map (tensorAt sg') = sg.outputs.map (fun t => tensorAt sg (fedBy d sg t))
  ops : opKinds sg'.ops = opKinds (sg.ops.filter fun o => decide (¬ AtInput q sg.inputs o ∧ ¬ AtOutput d sg.outputs o))
  values : ∀ (V : Type) (sem : OpSem V) (cv : GTensor → Option V) (vals vals' : List V),
    sg.inputs.map (fun f => finalEnv sem cv sg vals (quantOf q sg f)) = vals'.map some →
    evalGraph sem cv sg' vals' = sg.outputs.map fun t => finalEnv sem cv sg vals (fedBy d sg t)

end Verif
