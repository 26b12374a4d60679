import Verif.Model.Predict
import Verif.Model.Session

/-!
Model of `LiteInterpreterWrapper` (`/repo/larq_compute_engine/tflite/python/interpreter_wrapper_lite.cc`) on a converted
graph: the interpreter of `Model/Predict.lean` whose `Invoke` is an inference of `Model/Session.lean`.

Elements of arrays are numbers: floats are exact rationals, int8 elements are integers. The delegate (`use_xnnpack`) only
replaces TFLite's own operators, which are a contract here. Undefined behaviour in an inference gives an arbitrary result.
-/

namespace Verif.Ir

/-- `RegisterLCECustomOps` and `Register_BCONV_2D` (lce_ops_register.h:25-51, bconv2d.cc:568-599): which BConv2D
kernel is registered. `withRuy`: compiled with `TFLITE_WITH_RUY`. -/
def registeredKernel (withRuy useReference useIndirect : Bool) : KernelType :=
  if useReference then .reference
  else if useIndirect then .indirect
  else if withRuy then .bgemm
  else .reference

/-- A tensor of the model's interface: type, shape, and scale and zero point if it is an int8 tensor. -/
structure IoSpec where
  spec : TensorSpec
  quant : Option (Rat × Int)

/-- The input tensor after `memcpy` from a numpy array with the elements `d` (interpreter_wrapper_utils.h:167). -/
def IoSpec.val (t : IoSpec) (d : List Rat) : Val :=
  match t.quant with
  | none => .f ⟨t.spec.dims, d⟩
  | some (s, z) => .q ⟨t.spec.dims, d.map Rat.floor⟩ s z

/-- The elements of an output tensor. -/
def MVal.numbers : MVal → Option (List Rat)
  | .plain (.f t) => some t.data
  | .plain (.q t _ _) => some (t.data.map fun z : Int => (z : Rat))
  | _ => none

/-- The interpreter with a converted graph. Its state counts the inferences, so that every inference has its own
environment (`cfgs`, `calls`: schedules, buffer contents, superfluous `Prepare` calls). -/
def lceInterp (kt : KernelType) (g : Graph) (inputs outputs : List IoSpec) (cfgs : Nat → Cfg) (calls : Nat → Calls)
    (ub : Option ((Nat × State) × List (List Rat))) : Interp (Nat × State) Rat where
  inputs := inputs.map (·.spec)
  outputs := outputs.map (·.spec)
  invoke := fun s ins =>
    match g.step { cfgs s.1 with kt := kt } (calls s.1) ((List.zipWith IoSpec.val inputs ins).map .plain) s.2 with
    | (.ok ms, st) => (ms.mapM MVal.numbers).map fun l => ((s.1 + 1, st), l)
    | (.error, _) => none
    | (.ub, _) => ub

end Verif.Ir
