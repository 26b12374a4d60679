import Verif.Model.Wrapper

/-!
`InterpreterBase.predict` (`/repo/larq_compute_engine/tflite/python/interpreter_base.py:73-98`) on top of the byte-level model of
the C++ wrapper (Model/Wrapper.lean): the Python code slices, expands and concatenates numpy arrays, the wrapper copies their bytes
into the tensors and returns new arrays with copies of the tensors' bytes. Exceptions leave the interpreter in the state reached so
far.

An element of a numpy array is the list of its bytes. Simplification: as in Model/Predict.lean.
-/

namespace Verif.Wrap

variable {K : Type}

/-- The number that stands for a dtype object in `NpArray`. -/
def Dtype.code : Dtype → Nat
  | .float32 => 0
  | .uint8 => 1
  | .int8 => 2
  | .int16 => 3
  | .int32 => 4
  | .int64 => 5
  | .bool => 6
  | .charPtr => 7
  | .other k => 8 + k

/-- The dtype object that a number stands for. -/
def Dtype.ofCode : Nat → Dtype
  | 0 => .float32
  | 1 => .uint8
  | 2 => .int8
  | 3 => .int16
  | 4 => .int32
  | 5 => .int64
  | 6 => .bool
  | 7 => .charPtr
  | k + 8 => .other k

/-- The C-contiguous buffer of an array that is passed to the wrapper (interpreter_wrapper_utils.h:282,
`pybind11::array::ensure(…, c_style)`). -/
def buffer (a : NpArray (List Byte)) : ByteArr := ⟨Dtype.ofCode a.dtype, a.shape.map Int.ofNat, a.data.flatten⟩

/-- The elements, `k` bytes each, of a buffer of `n` elements. -/
def chunks (k n : Nat) (l : List Byte) : List (List Byte) := (List.range n).map fun j => (l.drop (j * k)).take k

/-- An array that the wrapper returns (interpreter_wrapper_utils.h:293-300), seen by numpy. -/
def ofBuffer (b : ByteArr) : NpArray (List Byte) :=
  ⟨b.dtype.code, b.shape.map Int.toNat, chunks b.dtype.itemsize (b.shape.map Int.toNat).prod b.data⟩

/-- The generator expression `(self.interpreter.predict(inputs) for inputs in data_iterator)` (interpreter_base.py:91), run to its
end or to the first exception. -/
def predictSamples (rt : Runtime K) : List (List (NpArray (List Byte))) → St K →
    Except PyErr (List (List (NpArray (List Byte)))) × St K
  | [], s => (.ok [], s)
  | ins :: rest, s =>
    match predict rt (ins.map buffer) s with
    | (.error e, s) => (.error e, s)
    | (.ok o, s) =>
      match predictSamples rt rest s with
      | (.error e, s) => (.error e, s)
      | (.ok os, s) => (.ok (o.map ofBuffer :: os), s)

/-- `InterpreterBase.predict` (interpreter_base.py:73-98); `len(self.output_shapes)` reads the shapes through the wrapper. -/
def pyPredict (rt : Runtime K) (x : PyInput (List Byte)) (s : St K) : Except PyErr (PyRes (List Byte)) × St K :=
  match dataGenerator x with
  | .error e => (.error e, s)
  | .ok samples =>
    match predictSamples rt samples s with
    | (.error e, s) => (.error e, s)
    | (.ok preds, s) =>
      match (pyZip preds).mapM npConcat with
      | .error e => (.error e, s)
      | .ok outputs =>
        match getShapes rt.outputs s with
        | (.error e, s) => (.error e, s)
        | (.ok shapes, s) =>
          if shapes.length = 1 then
            match outputs[0]? with
            | some a => (.ok (.one a), s)
            | none => (.error .indexError, s)
          else (.ok (.many outputs), s)

end Verif.Wrap
