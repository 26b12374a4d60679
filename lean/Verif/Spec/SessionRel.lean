import Verif.Model.Session
import Verif.Spec.ExecRel

/-! Conditions on graphs and histories for C64. -/

namespace Verif.Ir

/-- Filter, multiplier, bias and thresholds of every BConv2D are constants of the model file (possibly the absent
tensor). -/
def Graph.ConstParams (g : Graph) : Prop :=
  ∀ n ∈ g.nodes, n.op.isBConv = true → ∀ x ∈ n.args.tail, ∃ c ∈ g.nodes, c.name = x ∧ c.args = [] ∧
    ∃ v, c.op = .const v ∧ v.wf = true

/-- No operation has constant operands only: constant folding has nothing left to do. -/
def Graph.Folded (g : Graph) : Prop :=
  ∀ pre n post, g.nodes = pre ++ n :: post → ruleFold.apply ⟨lookIn pre, g.uses⟩ n = none

/-- The parameters (filter, multiplier, bias, thresholds) of every BConv2D do not depend on the arguments of the graph: some
set of values contains all of them and, with a value, the operands of the operation that computes it, which is no argument
of the graph. True of every graph without BConv2D, which is what the conversion starts from. -/
def Graph.ParamsFixed (g : Graph) : Prop :=
  ∃ C : Nat → Prop, (∀ x, C x → ∃ m ∈ g.nodes, m.name = x ∧ (∀ k, m.op ≠ .arg k) ∧ ∀ a ∈ m.args, C a) ∧
    ∀ n ∈ g.nodes, n.op.isBConv = true → ∀ x ∈ n.args.tail, C x

/-- In an inference by a new interpreter, the input tensor of every BConv2D `nm` that is reached has the shape, allocation
type and address `D nm`. -/
def Graph.InputsAt (g : Graph) (cfg : Cfg) (ins : List MVal) (D : Nat → InputDesc) : Prop :=
  ∀ pre n post, g.nodes = pre ++ n :: post → n.op.isBConv = true →
    ∀ env x m, execNodes cfg ins pre (fun _ => none) = .ok env → n.args.head? = some x → env x = some m →
      (⟨(m.desc.map (·.dims)).getD [], cfg.dyn n.name, cfg.loc n.name⟩ : InputDesc) = D n.name

/-- An inference in the scope of C63: the arguments `ins` stand for themselves in the tensors `mins`, the original graph
`g` has the results `vs` for them, no rewriting step that led to the converted graph `g'` is exceptional for them, and no
node of `g'` is among the excluded cases; for the indirect kernel the inputs are where they always are. -/
structure InScope (kt : KernelType) (g g' : Graph) (safe : List Val → Prop) (D : Nat → InputDesc) (cfg : Cfg)
    (ins : List Val) (mins : List MVal) (vs : List Val) : Prop where
  kernel : cfg.kt = kt
  results : g.eval ins = some vs
  safe : safe ins
  scheduled : cfg.Scheduled
  tame : g'.Tame kt ins
  tensors : List.Forall₂ Rep ins mins
  inputs : kt = .indirect → g'.InputsAt cfg mins D

end Verif.Ir
