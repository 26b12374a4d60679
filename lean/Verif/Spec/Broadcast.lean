import Mathlib.Algebra.Order.Ring.Rat
import Mathlib.Algebra.BigOperators.Group.List.Basic

/-!
Specification of tensors and of elementwise operations with NumPy broadcasting, which is what the
TensorFlow (Lite) operators Add, Sub, Mul and Div compute (in exact arithmetic).
-/

namespace Verif

/-- A tensor: shape and elements in row-major order. -/
structure TensOf (α : Type) where
  shape : List Nat
  data : List α
deriving DecidableEq, Repr

/-- A tensor of numbers. -/
abbrev Tens := TensOf Rat

/-- As many elements as the shape says. -/
def TensOf.Wf {α : Type} (t : TensOf α) : Prop := t.data.length = t.shape.prod

/-- Two dimensions are compatible when they are equal or one of them is 1. -/
def bdim (x y : Nat) : Option Nat := if x = y then some x else if x = 1 then some y else if y = 1 then some x else none

/-- Shapes are aligned at the last dimension; here they are written last dimension first. -/
def bshapeR : List Nat → List Nat → Option (List Nat)
  | [], b => some b
  | a, [] => some a
  | x :: a, y :: b => (bdim x y).bind fun d => (bshapeR a b).map (d :: ·)

/-- The element of an operand of shape `ds` that element `n` of a result of shape `rs` uses (shapes
last dimension first): a dimension of size 1 is repeated. -/
def bidxR : List Nat → List Nat → Nat → Nat
  | r :: rs, d :: ds, n => (if d = 1 then 0 else n % r) + d * bidxR rs ds (n / r)
  | _, _, _ => 0

/-- The elementwise operation `f` with broadcasting; `none` when the shapes are incompatible. (`da` and `db` are
never used on well-formed tensors.) -/
def broadcastG {α β γ : Type} (da : α) (db : β) (f : α → β → γ) (a : TensOf α) (b : TensOf β) : Option (TensOf γ) :=
  (bshapeR a.shape.reverse b.shape.reverse).map fun rs =>
    ⟨rs.reverse, (List.range rs.prod).map fun n =>
      f (a.data.getD (bidxR rs a.shape.reverse n) da) (b.data.getD (bidxR rs b.shape.reverse n) db)⟩

/-- `broadcastG` on numbers. -/
def broadcastOp (f : Rat → Rat → Rat) (a b : Tens) : Option Tens := broadcastG 0 0 f a b

/-- The elementwise operation `g`. -/
def TensOf.map {α β : Type} (g : α → β) (t : TensOf α) : TensOf β := ⟨t.shape, t.data.map g⟩

/-- `BroadcastTo(t, shape)`. -/
def broadcastTo {α : Type} (da : α) (t : TensOf α) (shape : List Nat) : TensOf α :=
  ⟨shape, (List.range shape.prod).map fun n => t.data.getD (bidxR shape.reverse t.shape.reverse n) da⟩

end Verif
