import Verif.Model.Quantization

/-!
Model of conversion-time constant folding of LceQuantize and LceDequantize:
`/repo/larq_compute_engine/mlir/transforms/bitpack.cc` and the two `fold` methods of
`/repo/larq_compute_engine/mlir/ir/lce_ops.cc`.
-/

namespace Verif

/-- Result of a `fold` method. -/
inductive Folded (α : Type) where
  /-- undefined behaviour (indexing a shape out of range, a failed cast, ...) -/
  | ub
  /-- `nullptr`: the op is left in the graph -/
  | keep
  /-- the op is replaced by a constant of this shape -/
  | const (shape : List Nat) (data : α)
  deriving DecidableEq

/-- `Bitpack` (mlir/transforms/bitpack.cc:19-56), called by `QuantizeOp::fold` (mlir/ir/lce_ops.cc:73-78) with a
constant operand. The shape is indexed at 0..3; only float constants are folded. A `bool` or int8 constant is
returned as `nullptr` (line 47-50) after the shape has been indexed. -/
def foldQuantize (shape : List Nat) (x : TData) (junk : Word) : Folded (List Word) :=
  match shape with
  | d0 :: d1 :: d2 :: d3 :: _ =>
    let rows := d0 * d1 * d2
    match x with
    | .f32 xs =>
      match bitpackMatrix xs rows d3 (List.replicate (rows * packedSize d3) 0#32) 0 junk with
      | some q => .const [d0, d1, d2, packedSize d3] q
      | none => .ub
    | _ => .keep
  | _ => .ub

/-- Whether the shape check of `Unpack` (mlir/transforms/bitpack.cc:63-75) passes; `none` for an out-of-range index. -/
def unpackShapeOk (inShape outShape : List Nat) : Option Bool :=
  match inShape, outShape with
  | i0 :: i1 :: i2 :: i3 :: _, o0 :: o1 :: o2 :: o3 :: _ =>
    some (i0 == o0 && i1 == o1 && i2 == o2 && i3 == packedSize o3)
  | _, _ => none

/-- Rows and columns of `Unpack` (mlir/transforms/bitpack.cc:67-69). -/
def unpackDims : List Nat → Nat × Nat
  | o0 :: o1 :: o2 :: o3 :: _ => (o0 * o1 * o2, o3)
  | _ => (0, 0)

/-- `Unpack` (mlir/transforms/bitpack.cc:58-108) with a float result type, called by `DequantizeOp::fold`
(mlir/ir/lce_ops.cc:80-85). The static-shape check (line 60) is represented by `outShape` being a list of numbers. -/
def foldDequantizeF32 (inShape outShape : List Nat) (w : List Word) : Folded (List F32) :=
  match unpackShapeOk inShape outShape with
  | none => .ub
  | some false => .keep
  | some true =>
    let (rows, cols) := unpackDims outShape
    match unpackMatrix w rows cols (List.replicate (rows * cols) F32.zero) F32.one F32.negOne with
    | some y => .const outShape y
    | none => .ub

/-- The two int8 values of `Unpack` (mlir/transforms/bitpack.cc:94-99). `fl64` is the rounding of the double division,
`fl` the conversion of the double to the `float` parameter of `round` (core/types.h:79-94, TfLiteRound branch: the
converter does not run on Arm Thumb). `scale` is the double scale of the quantized type. -/
def foldInt8Values (fl64 fl : Rat → Rat) (scale : Rat) (zp : Int) : Option (BitVec 8 × BitVec 8) := do
  let a ← toInt32 (roundHalfAway (fl (fl64 (1 / scale))))
  let b ← toInt32 (roundHalfAway (fl (fl64 (-1 / scale))))
  let hi ← toInt32 (zp + a)
  let lo ← toInt32 (zp + b)
  some (BitVec.ofInt 8 (saturate hi), BitVec.ofInt 8 (saturate lo))

/-- `Unpack` (mlir/transforms/bitpack.cc:58-108) with a quantized int8 result type. -/
def foldDequantizeI8 (fl64 fl : Rat → Rat) (inShape outShape : List Nat) (scale : Rat) (zp : Int) (w : List Word) :
    Folded (List (BitVec 8)) :=
  match unpackShapeOk inShape outShape with
  | none => .ub
  | some false => .keep
  | some true =>
    let (rows, cols) := unpackDims outShape
    match foldInt8Values fl64 fl scale zp with
    | none => .ub
    | some (zb, ob) =>
      match unpackMatrix w rows cols (List.replicate (rows * cols) 0#8) zb ob with
      | some y => .const outShape y
      | none => .ub

/-- `Unpack` (mlir/transforms/bitpack.cc:58-108) with a `bool` (i1) result type: the shape checks come first, then the
`cast` to `UniformQuantizedType` of line 92 fails. -/
def foldDequantizeBool (inShape outShape : List Nat) : Folded (List Bool) :=
  match unpackShapeOk inShape outShape with
  | none => .ub
  | some false => .keep
  | some true => .ub

end Verif
