import Verif.Model.PredictLce
import Verif.Spec.SessionRel

/-! Conditions for C66: `predict` of a converted model. -/

namespace Verif.Ir

/-- The elements of a float or int8 tensor. -/
def Val.numbers : Val → Option (List Rat)
  | .f t => some t.data
  | .q t _ _ => some (t.data.map fun z : Int => (z : Rat))
  | _ => Option.none

/-- The state of an interpreter with the converted graph `g'` after some history of inferences in scope and `Prepare` calls
for any shapes. -/
def Reachable (kt : KernelType) (g g' : Graph) (safe : List Val → Prop) (D : Nat → InputDesc) (st : State) : Prop :=
  ∃ es, (∀ cfg k mins, Event.infer cfg k mins ∈ es → ∃ ins vs, InScope kt g g' safe D cfg ins mins vs) ∧
    g'.session kt es State.new = some st

/-- Scale and zero point of an int8 tensor. -/
def Val.quant : Val → Option (Rat × Int)
  | .q _ sc zp => some (sc, zp)
  | _ => Option.none

/-- The sample with the elements `d` (one list per input, in C order) is the list of tensors `ins`: the same elements, the
shapes and the quantization of the model's inputs. It is in scope, the original graph gives `vs` for it, and these are
float or int8 tensors of the shapes of the model's outputs. -/
structure SampleOk (kt : KernelType) (g g' : Graph) (safe : List Val → Prop) (D : Nat → InputDesc) (cfgs : Nat → Cfg)
    (inputs outputs : List IoSpec) (d : List (List Rat)) (ins vs : List Val) : Prop where
  sample : ins.map (fun v => (v.numbers, v.shape, v.quant)) =
    (inputs.zip d).map fun p => (some p.2, p.1.spec.dims, p.1.quant)
  scope : ∀ j, InScope kt g g' safe D { cfgs j with kt := kt } ins (ins.map .plain) vs
  outs : vs.map (fun v => (v.numbers.isSome, v.shape)) = outputs.map fun t => (true, t.spec.dims)

/-- No node refuses the sample. -/
def Accepted (kt : KernelType) (g' : Graph) (cfgs : Nat → Cfg) (ins : List Val) : Prop :=
  ∀ j, ¬ g'.Rejected { cfgs j with kt := kt } ins

end Verif.Ir
