import Verif.Model.OpState

/-!
Model of the rewrite `FuseActFnIntoConvOpPat`
(`/repo/larq_compute_engine/mlir/transforms/optimize_patterns_common.td:115-183`).
-/

namespace Verif

/-- `IsConstantValue` (mlir/transforms/common.h:9-16): every element equals the expected value. -/
def isConstantValue (values : List Rat) (expected : Rat) : Bool := values.all (fun v => v == expected)

/-- The rewrite of a BConv2D followed by the activation operator `ac`, as a change of the node
(optimize_patterns_common.td:117-179): multiplier 1, bias 0, no activation yet, and VALID padding (first
pattern) or SAME padding with `pad_values = 1` (second pattern). `none`: no match. The one-use condition on
the intermediate value is not modelled. -/
def fuseAct (ac : Act) (n : Node) : Option Node :=
  match n.attrs with
  | none => none
  | some a =>
    if a.act = .none ∧ isConstantValue n.multData 1 = true ∧ isConstantValue n.biasData 0 = true ∧
        (a.padding = .valid ∨ (a.padding = .same ∧ a.padValue = 1)) then
      some { n with attrs := some { a with act := ac } }
    else none

end Verif
