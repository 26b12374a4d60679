import Verif.Spec.Broadcast
import Verif.Model.FuseAct
import Verif.Model.Quantization

/-!
Model of the converter patterns that recognise binary quantizers:
`/repo/larq_compute_engine/mlir/transforms/prepare_patterns_common.td:26-70` and the comparison patterns of
`/repo/larq_compute_engine/mlir/transforms/optimize_patterns_common.td:16-37`.

The TensorFlow operators (Sign, AddV2, Select, SelectV2, BroadcastTo, LogicalNot, GreaterEqual, LessEqual, Sub) are
outside /repo; their contracts are stated here. `fl` is the rounding of a float addition.
-/

namespace Verif

/-- TensorFlow `Sign` on numbers. -/
def tfSign (x : Rat) : Rat := if x < 0 then -1 else if x = 0 then 0 else 1

/-- The matched graph `Sign(AddV2(Sign(x), c))` (prepare_patterns_common.td:65-70). The value `c` is not
constrained. -/
def signGraph (fl : Rat → Rat) (x c : Tens) : Option Tens :=
  (broadcastOp (fun a b => fl (a + b)) (x.map tfSign) c).map (TensOf.map tfSign)

/-- TensorFlow `SelectV2`: broadcasts its three operands. -/
def selectV2 (cond : TensOf Bool) (x y : Tens) : Option Tens :=
  (bshapeR cond.shape.reverse x.shape.reverse).bind fun s =>
    (bshapeR s y.shape.reverse).map fun rs =>
      ⟨rs.reverse, (List.range rs.prod).map fun n =>
        if cond.data.getD (bidxR rs cond.shape.reverse n) false
        then x.data.getD (bidxR rs x.shape.reverse n) 0 else y.data.getD (bidxR rs y.shape.reverse n) 0⟩

/-- TensorFlow `Select`: `x` and `y` have the same shape, and the condition has that shape, or is a scalar, or is a
vector with one element per row (first dimension) of `x`. -/
def selectV1 (cond : TensOf Bool) (x y : Tens) : Option Tens :=
  if x.shape ≠ y.shape then none
  else if cond.shape = x.shape then
    some ⟨x.shape, (List.range x.shape.prod).map fun n =>
      if cond.data.getD n false then x.data.getD n 0 else y.data.getD n 0⟩
  else if cond.shape = [] then
    some ⟨x.shape, (List.range x.shape.prod).map fun n =>
      if cond.data.getD 0 false then x.data.getD n 0 else y.data.getD n 0⟩
  else match x.shape with
    | [] => none
    | d :: ds =>
      if cond.shape = [d] then
        some ⟨x.shape, (List.range x.shape.prod).map fun n =>
          if cond.data.getD (n / ds.prod) false then x.data.getD n 0 else y.data.getD n 0⟩
      else none

/-- The two patterns of `QuantDequantPatterns` (prepare_patterns_common.td:27-58): the condition tensor given to
LceQuantize, `BroadcastTo(cond, shape(select))` or `BroadcastTo(LogicalNot(cond), shape(select))`; `none`: no
match. -/
def wherePattern (cond : TensOf Bool) (x y : Tens) (outShape : List Nat) : Option (TensOf Bool) :=
  if isConstantValue x.data 1 = true ∧ isConstantValue y.data (-1) = true then
    some (broadcastTo false cond outShape)
  else if isConstantValue x.data (-1) = true ∧ isConstantValue y.data 1 = true then
    some (broadcastTo false (cond.map (!·)) outShape)
  else none

/-- TFLite `GreaterEqual` and `LessEqual` with broadcasting. -/
def geTens (x t : Tens) : Option (TensOf Bool) := broadcastG 0 0 (fun a b => decide (b ≤ a)) x t

/-- see `geTens` -/
def leTens (x t : Tens) : Option (TensOf Bool) := broadcastG 0 0 (fun a b => decide (a ≤ b)) x t

/-- What LceQuantize gets after the rewrite of `LceQuantize(GreaterEqual(x, t))`: `x` when `t` is the constant zero
(optimize_patterns_common.td:16-22, with priority), otherwise `Sub(x, t)` (lines 24-31). -/
def geRewrite (fl : Rat → Rat) (x t : Tens) (tConst : Bool) : Option Tens :=
  if tConst = true ∧ isConstantValue t.data 0 = true then some x
  else broadcastOp (fun a b => fl (a - b)) x t

end Verif
