import Verif.Model.Padding

/-!
Model of `/repo/larq_compute_engine/mlir/transforms/set_batch_size.cc`.
-/

namespace Verif

/-- An MLIR type, as far as the pass looks at it: a ranked tensor (shape of int64 dimensions, element type, encoding), an
unranked tensor, or anything else. Element types, encodings and other types are opaque numbers. -/
inductive MType where
  | ranked (shape : List Int) (elem enc : Nat)
  | unranked (elem : Nat)
  | other (id : Nat)
deriving DecidableEq, Repr

/-- `SetBatchSize` (set_batch_size.cc:9-23); `none` is the null type. `clone` keeps element type and encoding (MLIR
contract). -/
def setBatchSize : MType → Option MType
  | .ranked shape elem enc =>
    if shape.length > 0 ∧ shape[0]? = some kDynamic then some (.ranked (shape.set 0 1) elem enc) else none
  | .unranked _ => none
  | .other _ => none

/-- A function: its signature and the types of its block arguments. -/
structure MFunc where
  inputs : List MType
  results : List MType
  args : List MType
deriving DecidableEq, Repr

/-- One iteration of the loops of set_batch_size.cc:43-46 and 54-58: element `i` of the list is replaced when the new type
is not null. -/
def updateStep (i : Nat) (s : List MType) : Option (List MType) := do
  let t ← rd s i
  match setBatchSize t with
  | some t' => wr s i t'
  | none => some s

/-- The loops of set_batch_size.cc:43-46 and 54-58. -/
def updateTypes (ts : List MType) : Option (List MType) := forN ts.length updateStep ts

/-- `SetBatchSizePass::runOnOperation` (set_batch_size.cc:30-59). -/
def setBatchSizePass (f : MFunc) : Option MFunc := do
  let ins ← updateTypes f.inputs
  let args ← updateTypes f.args
  some { inputs := ins, results := f.results, args := args }

end Verif
