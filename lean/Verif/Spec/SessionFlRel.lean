import Verif.Model.SessionFl
import Verif.Spec.SessionRel
import Verif.Spec.ExecFlRel

/-! Conditions on histories for C75. -/

namespace Verif.Ir

/-- As `Graph.InputsAt`, for an inference in floating-point arithmetic: in an inference by a new interpreter, the input tensor of
every BConv2D `nm` that is reached has the shape, allocation type and address `D nm`. -/
def Graph.InputsAtFl (g : Graph) (F : FlCfg) (cfg : Cfg) (ins : List MVal) (D : Nat → InputDesc) : Prop :=
  ∀ pre n post, g.nodes = pre ++ n :: post → n.op.isBConv = true →
    ∀ env x m, execNodesFl F cfg ins pre (fun _ => none) = .ok env → n.args.head? = some x → env x = some m →
      (⟨(m.desc.map (·.dims)).getD [], cfg.dyn n.name, cfg.loc n.name⟩ : InputDesc) = D n.name

/-- An inference in the scope of C74, on a target with arithmetic `R`: as `InScope`, and the tolerances `T` are consistent. -/
structure InScopeFl (R : FlEnv) (kt : KernelType) (g g' : Graph) (safe : List Val → Prop) (D : Nat → InputDesc) (F : FlCfg)
    (T : Nat → Rat) (cfg : Cfg) (ins : List Val) (mins : List MVal) (vs : List Val) : Prop where
  arith : F.R = R
  proper : F.Proper
  kernel : cfg.kt = kt
  results : g.eval ins = some vs
  safe : safe ins
  scheduled : cfg.Scheduled
  tame : g'.Tame kt ins
  tolerances : g'.Tolerances F T ins
  tensors : List.Forall₂ Rep ins mins
  inputs : kt = .indirect → g'.InputsAtFl F cfg mins D

end Verif.Ir
