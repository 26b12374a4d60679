import Verif.Model.PredictLce
import Verif.Model.SessionFl

/-!
Model of `LiteInterpreterWrapper` (`/repo/larq_compute_engine/tflite/python/interpreter_wrapper_lite.cc`) on a converted graph, in
floating-point arithmetic: the interpreter of `Model/Predict.lean` whose `Invoke` is an inference of `Model/SessionFl.lean`.
-/

namespace Verif.Ir

/-- As `lceInterp`, on a target with arithmetic `R`: every inference has its own order of writes, rounding to integers and TFLite
kernels (`Fs`). -/
def lceInterpFl (R : FlEnv) (kt : KernelType) (g : Graph) (inputs outputs : List IoSpec) (Fs : Nat → FlCfg) (cfgs : Nat → Cfg)
    (calls : Nat → Calls) (ub : Option ((Nat × State) × List (List Rat))) : Interp (Nat × State) Rat where
  inputs := inputs.map (·.spec)
  outputs := outputs.map (·.spec)
  invoke := fun s ins =>
    match g.stepFl { Fs s.1 with R := R } { cfgs s.1 with kt := kt } (calls s.1)
        ((List.zipWith IoSpec.val inputs ins).map .plain) s.2 with
    | (.ok ms, st) => (ms.mapM MVal.numbers).map fun l => ((s.1 + 1, st), l)
    | (.error, _) => none
    | (.ub, _) => ub

end Verif.Ir
