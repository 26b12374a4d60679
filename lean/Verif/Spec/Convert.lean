import Verif.Model.Convert
import Verif.Spec.Graph

/-!
What the documentation of `convert_saved_model` and `convert_keras_model` promises about options and shapes.
-/

namespace Verif.Convert

/-- The options the documentation allows. -/
structure Opts.Valid (o : Opts) : Prop where
  inType : o.inType = .float32 ∨ o.inType = .int8
  outType : o.outType = .float32 ∨ o.outType = .int8
  target : o.target = "arm" ∨ o.target = "xcore"

/-- The static shape `s` is the shape of `t`, an unknown batch size taken as 1. -/
def ShapeOf (t : FTensor) (s : List Nat) : Prop :=
  t.shape = some (s.map some) ∨ ∃ rest, s = 1 :: rest ∧ t.shape = some (none :: rest.map some)

/-- The model contains a fake-quantization operator. -/
def HasFakeQuant (f : Frozen) : Prop :=
  ∃ op ∈ ["FakeQuantWithMinMaxVars", "FakeQuantWithMinMaxVarsPerChannel", "FakeQuantWithMinMaxArgs",
    "FakeQuantWithMinMaxArgsPerChannel", "QuantizeAndDequantizeV2", "QuantizeAndDequantizeV3"],
    op ∈ f.nodes ∨ ∃ g ∈ f.library, op ∈ g

/-- The types of the inputs (outputs) of a model: those of the main graph. -/
def inTypes (m : GModel) : List (Option Nat) :=
  match m.subgraphs with
  | [] => []
  | sg :: _ => sg.inputs.map fun i => (tensorAt sg i).map (·.type)

/-- See `inTypes`. -/
def outTypes (m : GModel) : List (Option Nat) :=
  match m.subgraphs with
  | [] => []
  | sg :: _ => sg.outputs.map fun i => (tensorAt sg i).map (·.type)

/-- The schema's number of a requested type. -/
def DType.code : DType → Nat
  | .int8 => tyInt8
  | _ => tyFloat32

end Verif.Convert
