import Verif.Model.Bitpack

/-!
Model of `/repo/larq_compute_engine/tflite/kernels/quantization.cc`: the
LceQuantize and LceDequantize operators.
-/

namespace Verif

/-- The content of an unpacked tensor, with the quantization parameters TFLite
keeps in `TfLiteTensor::params`. -/
inductive TData where
  /-- `kTfLiteFloat32` -/
  | f32 (xs : List F32)
  /-- `kTfLiteInt8` with `params.scale`, `params.zero_point` -/
  | i8 (xs : List (BitVec 8)) (scale : Rat) (zp : Int)
  /-- `kTfLiteBool` -/
  | bool (xs : List Bool)

/-- The object representation of a C++ `bool` (quantization.cc:91-95 assumes false
is the all-zero byte; `true` is 1 on every supported ABI). -/
def boolByte (b : Bool) : U8 := if b then ⟨1#8⟩ else ⟨0#8⟩

/-- `QuantizePrepare` (quantization.cc:20-42): the shape of the output. `none` when
the rank is 0 (index -1). The checks on types and on the rank of the output tensor
are represented by the input being a `TData`. -/
def quantizePrepare (shape : List Nat) : Option (List Nat) :=
  match shape.getLast? with
  | none => none
  | some c => some (shape.dropLast ++ [packedSize c])

/-- `QuantizeEval` (quantization.cc:77-118). `out` is the allocated output tensor;
`junk` the indeterminate initial content of the bit-field union. -/
def quantizeEval (shape : List Nat) (x : TData) (out : List Word) (junk : Word) :
    Option (List Word) :=
  match x with
  | .f32 xs => bitpackTensor shape xs 0 out junk
  | .i8 xs _ zp => bitpackTensor shape xs zp out junk
  | .bool xs => bitpackTensor shape (xs.map boolByte) 1 out junk

/-- `DequantizePrepare` (quantization.cc:44-75): whether the input and output
shapes are accepted. -/
def dequantizePrepare (inShape outShape : List Nat) : Bool :=
  inShape.length == outShape.length &&
  inShape.dropLast == outShape.dropLast &&
  (match inShape.getLast?, outShape.getLast? with
   | some p, some u => p == packedSize u
   | _, _ => false)

/-- Conversion of a float (given by its exact value) that is integral to `int`:
undefined when out of range. -/
def toInt32 (x : Int) : Option Int := if -(2 ^ 31) ≤ x ∧ x < 2 ^ 31 then some x else none

/-- The int8 values for a 0-bit and a 1-bit (quantization.cc:137-141). `fl` is the
rounding of the float division. The narrowing to `std::int8_t` is exact because of
the min/max when `zp` is in the int8 range and `offset >= 0`; otherwise it wraps
(`BitVec.ofInt 8`). -/
def dequantInt8Values (fl : Rat → Rat) (scale : Rat) (zp : Int) :
    Option (BitVec 8 × BitVec 8) := do
  let offset ← toInt32 (roundHalfAway (fl (1 / scale)))
  let hi ← toInt32 (zp + offset)
  let lo ← toInt32 (zp - offset)
  some (BitVec.ofInt 8 (min 127 hi), BitVec.ofInt 8 (max (-128) lo))

/-- `DequantizeEval` (quantization.cc:120-154), float output. -/
def dequantizeEvalF32 (outShape : List Nat) (inp : List Word) (out : List F32) :
    Option (List F32) := do
  let cols ← outShape.getLast?
  unpackMatrix inp outShape.dropLast.prod cols out F32.one F32.negOne

/-- `DequantizeEval` (quantization.cc:120-154), int8 output (lines 136-144). -/
def dequantizeEvalI8 (fl : Rat → Rat) (outShape : List Nat) (scale : Rat) (zp : Int)
    (inp : List Word) (out : List (BitVec 8)) : Option (List (BitVec 8)) := do
  let cols ← outShape.getLast?
  let (zb, ob) ← dequantInt8Values fl scale zp
  unpackMatrix inp outShape.dropLast.prod cols out zb ob

/-- `DequantizeEval` (quantization.cc:120-154), bool output (lines 145-147). -/
def dequantizeEvalBool (outShape : List Nat) (inp : List Word) (out : List Bool) :
    Option (List Bool) := do
  let cols ← outShape.getLast?
  unpackMatrix inp outShape.dropLast.prod cols out true false

end Verif
