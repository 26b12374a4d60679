import Verif.Spec.Broadcast

/-!
Model of the rewrites `FuseAddOrSubWithBConv2D` and `FuseMulOrDivWithBConv2D`
(`/repo/larq_compute_engine/mlir/transforms/optimize_patterns_common.td:38-112`): an Add, Sub, Mul
or Div of a BConv2D with a constant `v` on the right becomes an operation on the constant bias (and
multiplier).

Simplification: the arithmetic is exact; the pass folds the constants in float32.
-/

namespace Verif

/-- The operators matched by the two multiclasses (optimize_patterns_common.td:73-74, 110-111). -/
inductive BinOp where
  | add
  | sub
  | mul
  | div
deriving DecidableEq, Repr

/-- What the operator computes on two numbers. -/
def BinOp.fn : BinOp → Rat → Rat → Rat
  | .add => (· + ·)
  | .sub => (· - ·)
  | .mul => (· * ·)
  | .div => (· / ·)

/-- The rewrite of the constant operands: `(multiplier, bias)` of the new BConv2D
(optimize_patterns_common.td:57-62 and 93-99). The shapes are not checked
("TODO: Check shapes before fusing"). -/
def fuseAffine (op : BinOp) (v : Tens) (mb : Tens × Tens) : Option (Tens × Tens) :=
  match op with
  | .add | .sub => (broadcastOp op.fn mb.2 v).map fun b => (mb.1, b)
  | .mul | .div => (broadcastOp op.fn mb.1 v).bind fun m => (broadcastOp op.fn mb.2 v).map fun b => (m, b)

/-- The rewrite applied to a chain of operators, the first of the list being the closest to the
BConv2D. -/
def fuseChain : List (BinOp × Tens) → Tens × Tens → Option (Tens × Tens)
  | [], mb => some mb
  | (op, v) :: l, mb => (fuseAffine op v mb).bind (fuseChain l)

/-- The original graph: the operators applied one after the other to a tensor. -/
def runChain : List (BinOp × Tens) → Tens → Option Tens
  | [], t => some t
  | (op, v) :: l, t => (broadcastOp op.fn t v).bind (runChain l)

end Verif
