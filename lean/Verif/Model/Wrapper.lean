import Verif.Model.Predict

/-!
Model of `InterpreterWrapperBase` (`/repo/larq_compute_engine/tflite/python/interpreter_wrapper_utils.h`) at the level of
bytes, tensor structs and struct addresses. `Model/Predict.lean` is the view of the same class with elements instead of bytes.

Simplifications: Python objects that are not arrays, and `pybind11::array::ensure` (line 282), are not modelled: the inputs
are C-contiguous arrays. Floats in quantization parameters are rationals (no NaN). `MINIMAL_CHECK(interpreter_)` always holds
after a successful construction. The texts of error messages are left out: every error is a `RuntimeError`.
-/

namespace Verif.Wrap

/-- A byte. -/
abbrev Byte := BitVec 8

/-- `TfLiteType`: the eight types the wrapper knows, `kTfLiteNoType`, and all others (float16, uint32, complex64, …). -/
inductive TfType where
  | float32 | uint8 | int8 | int16 | int32 | int64 | bool | string | noType
  | other (k : Nat)
deriving DecidableEq, Repr

/-- numpy dtype objects, by identity (`.is`): the eight objects `pybind11::dtype::of` returns, and all others (also those
that compare equal to one of the eight without being the same object), with their item size. -/
inductive Dtype where
  | float32 | uint8 | int8 | int16 | int32 | int64 | bool | charPtr
  | other (itemsize : Nat)
deriving DecidableEq, Repr

/-- `TfLiteTypeFromPyType` (interpreter_wrapper_utils.h:96-106). -/
def tfTypeFromPy : Dtype → TfType
  | .float32 => .float32
  | .uint8 => .uint8
  | .int8 => .int8
  | .int16 => .int16
  | .int32 => .int32
  | .int64 => .int64
  | .bool => .bool
  | .charPtr => .string
  | .other _ => .noType

/-- `PyTypeFromTfLiteType` (interpreter_wrapper_utils.h:108-131). -/
def pyTypeFromTf : TfType → Except PyErr Dtype
  | .float32 => .ok .float32
  | .uint8 => .ok .uint8
  | .int8 => .ok .int8
  | .int16 => .ok .int16
  | .int32 => .ok .int32
  | .int64 => .ok .int64
  | .bool => .ok .bool
  | .string => .ok .charPtr
  | .noType => .error .runtimeError
  | .other _ => .error .runtimeError

/-- `itemsize` of the dtypes the wrapper makes. -/
def Dtype.itemsize : Dtype → Nat
  | .float32 => 4
  | .uint8 => 1
  | .int8 => 1
  | .int16 => 2
  | .int32 => 4
  | .int64 => 8
  | .bool => 1
  | .charPtr => 8
  | .other k => k

/-- `TfLiteAffineQuantization`: its arrays may be null. -/
structure Affine where
  scale : Option (List Rat)
  zeroPoint : Option (List Int)
deriving DecidableEq, Repr

/-- `TfLiteTensor`, the fields the wrapper uses. `quantization`: `none` unless `quantization.type` is
`kTfLiteAffineQuantization`; then `quantization.params`, which may be null. -/
structure Tensor where
  type : TfType
  dims : List Int
  bytes : Nat
  data : List Byte
  /-- `params.scale` -/
  legacyScale : Rat
  /-- `params.zero_point` -/
  legacyZeroPoint : Int
  quantization : Option (Option Affine)
deriving DecidableEq, Repr

/-- A C-contiguous numpy array: dtype object, shape, and `nbytes` bytes of data. -/
structure ByteArr where
  dtype : Dtype
  shape : List Int
  data : List Byte
deriving DecidableEq, Repr

/-- The loop over the dimensions in `SetTensorFromNumpy` (interpreter_wrapper_utils.h:152-159), from dimension `j` on. -/
def dimsAgree (t a : List Int) (j : Nat) : Bool :=
  if h : j < a.length then
    if t[j]? ≠ some a[j] then false else dimsAgree t a (j + 1)
  else true
termination_by a.length - j

/-- `SetTensorFromNumpy` (interpreter_wrapper_utils.h:133-169): the tensor after the call, or the exception. -/
def setTensor (t : Tensor) (a : ByteArr) : Except PyErr Tensor :=
  let type := tfTypeFromPy a.dtype
  if type ≠ t.type then .error .runtimeError
  else if a.shape.length ≠ t.dims.length then .error .runtimeError
  else if ¬ dimsAgree t.dims a.shape 0 then .error .runtimeError
  else
    let size := a.data.length
    if size ≠ t.bytes then .error .runtimeError
    else .ok { t with data := a.data ++ t.data.drop size }

/-- The state of the wrapper and its interpreter: the tensor structs by address, the address `interpreter_->tensor(i)` of
every tensor, the wrapper's cache `tensors`, and everything else in the interpreter. -/
structure St (K : Type) where
  heap : Nat → Tensor
  addr : Nat → Nat
  cache : List (Nat × Nat)
  rest : K

/-- The model: `interpreter_->inputs()`, `interpreter_->outputs()`, and `Invoke`, which may change everything but the
wrapper's cache. -/
structure Runtime (K : Type) where
  inputs : List Nat
  outputs : List Nat
  invoke : (Nat → Tensor) → (Nat → Nat) → K → Bool × (Nat → Tensor) × (Nat → Nat) × K

variable {K β : Type}

/-- `get_tensor` (interpreter_wrapper_utils.h:76-82): the address, and the state with the cache extended. -/
def getTensor (s : St K) (i : Nat) : Nat × St K :=
  match s.cache.lookup i with
  | some p => (p, s)
  | none => (s.addr i, { s with cache := (i, s.addr i) :: s.cache })

/-- The loop `for (auto tensor_id : tensors)` of `get_types`, `get_shapes`, `get_zero_points`, `get_scales` and of the end of
`predict`: `f` on every tensor, appended to a list; an exception ends it. -/
def overTensors (f : Tensor → Except PyErr β) : List Nat → St K → Except PyErr (List β) × St K
  | [], s => (.ok [], s)
  | i :: is, s =>
    let (p, s) := getTensor s i
    match f (s.heap p) with
    | .error e => (.error e, s)
    | .ok b =>
      match overTensors f is s with
      | (.error e, s) => (.error e, s)
      | (.ok bs, s) => (.ok (b :: bs), s)

/-- The body of `get_types` (interpreter_wrapper_utils.h:177-180). -/
def typeOf (t : Tensor) : Except PyErr Dtype := pyTypeFromTf t.type

/-- The body of `get_shapes` (interpreter_wrapper_utils.h:191-197). -/
def shapeOf (t : Tensor) : Except PyErr (List Int) := .ok t.dims

/-- The body of `get_zero_points` (interpreter_wrapper_utils.h:208-230). -/
def zeroPointOf (t : Tensor) : Except PyErr (Option Int) :=
  match t.quantization with
  | some none => .error .runtimeError
  | some (some a) =>
    match a.zeroPoint with
    | none => .error .runtimeError
    | some zs => if zs.all (· == t.legacyZeroPoint) then .ok (some t.legacyZeroPoint) else .error .runtimeError
  | none => .ok none

/-- A reported scale: `None`, a float or a list of floats. -/
inductive PyScale where
  | none
  | one (s : Rat)
  | many (l : List Rat)
deriving DecidableEq, Repr

/-- The body of `get_scales` (interpreter_wrapper_utils.h:241-265). -/
def scaleOf (t : Tensor) : Except PyErr PyScale :=
  match t.quantization with
  | some Option.none => .error .runtimeError
  | some (some a) =>
    match a.scale with
    | Option.none => .error .runtimeError
    | some [s] => if s = t.legacyScale then .ok (.one t.legacyScale) else .error .runtimeError
    | some ss => .ok (.many ss)
  | Option.none => .ok .none

/-- `get_input_types` and so on (interpreter_wrapper_utils.h:37-72), by the list of tensors. -/
def getTypes (ids : List Nat) (s : St K) : Except PyErr (List Dtype) × St K := overTensors typeOf ids s
/-- See `getTypes`. -/
def getShapes (ids : List Nat) (s : St K) : Except PyErr (List (List Int)) × St K := overTensors shapeOf ids s
/-- See `getTypes`. -/
def getZeroPoints (ids : List Nat) (s : St K) : Except PyErr (List (Option Int)) × St K := overTensors zeroPointOf ids s
/-- See `getTypes`. -/
def getScales (ids : List Nat) (s : St K) : Except PyErr (List PyScale) × St K := overTensors scaleOf ids s

/-- The loop over the inputs in `predict` (interpreter_wrapper_utils.h:281-288). -/
def setInputs : List Nat → List ByteArr → St K → Except PyErr Unit × St K
  | i :: is, a :: as, s =>
    let (p, s) := getTensor s i
    match setTensor (s.heap p) a with
    | .error e => (.error e, s)
    | .ok t => setInputs is as { s with heap := fun q => if q = p then t else s.heap q }
  | _, _, s => (.ok (), s)

/-- The body of the last loop in `predict` (interpreter_wrapper_utils.h:293-300): a new array with a copy of the data, as many
bytes as the type and the shape say. -/
def arrayOf (t : Tensor) : Except PyErr ByteArr :=
  match pyTypeFromTf t.type with
  | .error e => .error e
  | .ok d => .ok ⟨d, t.dims, t.data.take (d.itemsize * (t.dims.map Int.toNat).prod)⟩

/-- `predict` (interpreter_wrapper_utils.h:269-303). -/
def predict (rt : Runtime K) (ins : List ByteArr) (s : St K) : Except PyErr (List ByteArr) × St K :=
  if ins.length ≠ rt.inputs.length then (.error .runtimeError, s)
  else
    match setInputs rt.inputs ins s with
    | (.error e, s) => (.error e, s)
    | (.ok (), s) =>
      match rt.invoke s.heap s.addr s.rest with
      | (ok, heap, addr, rest) =>
        let s := { s with heap := heap, addr := addr, rest := rest }
        if ¬ ok then (.error .runtimeError, s) else overTensors arrayOf rt.outputs s

end Verif.Wrap
