import Verif.Model.PredictFl
import Verif.Spec.PredictRel
import Verif.Spec.SessionFlRel

/-! Conditions for C76: `predict` of a converted model in floating-point arithmetic. -/

namespace Verif.Ir

/-- The state of an interpreter with the converted graph `g'`, on a target with arithmetic `R`, after some history of inferences in
scope (each with its own tolerances) and `Prepare` calls for any shapes. -/
def ReachableFl (R : FlEnv) (kt : KernelType) (g g' : Graph) (safe : List Val → Prop) (D : Nat → InputDesc) (st : State) : Prop :=
  ∃ es, (∀ F cfg k mins, EventFl.infer F cfg k mins ∈ es → ∃ T ins vs, InScopeFl R kt g g' safe D F T cfg ins mins vs) ∧
    g'.sessionFl R kt es State.new = some st

/-- As `SampleOk`: the sample with the elements `d` is the list of tensors `ins`, is in scope with the tolerances `T`, and the
original graph gives `vs` for it, which are float or int8 tensors of the shapes of the model's outputs. -/
structure SampleOkFl (R : FlEnv) (kt : KernelType) (g g' : Graph) (safe : List Val → Prop) (D : Nat → InputDesc) (Fs : Nat → FlCfg)
    (cfgs : Nat → Cfg) (inputs outputs : List IoSpec) (T : Nat → Rat) (d : List (List Rat)) (ins vs : List Val) : Prop where
  sample : ins.map (fun v => (v.numbers, v.shape, v.quant)) =
    (inputs.zip d).map fun p => (some p.2, p.1.spec.dims, p.1.quant)
  scope : ∀ j, InScopeFl R kt g g' safe D { Fs j with R := R } T { cfgs j with kt := kt } ins (ins.map .plain) vs
  outs : vs.map (fun v => (v.numbers.isSome, v.shape)) = outputs.map fun t => (true, t.spec.dims)

/-- The numbers `l` are those of the tensor `v`, each with an error of at most `ε`. -/
def NumbersNear (ε : Rat) (v : Val) (l : List Rat) : Prop :=
  ∃ x, v.numbers = some x ∧ List.Forall₂ (fun a b => |b - a| ≤ ε) x l

end Verif.Ir
