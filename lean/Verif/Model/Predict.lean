import Verif.Basic.Loop

/-!
Model of `/repo/larq_compute_engine/tflite/python/interpreter_base.py` (`data_generator`, `predict`) and of
`InterpreterWrapperBase::predict` / `SetTensorFromNumpy` in `interpreter_wrapper_utils.h`, with the few numpy and Python
operations they use. Python exceptions are values of `Except PyErr`.

Simplifications: array elements are an abstract type `α` and element types a number; the data is listed in C order (the
wrapper asks for `c_style` arrays, interpreter_wrapper_utils.h:264); `tensor->bytes` is taken to be consistent with the
tensor's type and shape, so the byte-count check of lines 161-166 follows from the shape check; output shapes are static;
`verbose` (tqdm) only prints.
-/

namespace Verif

/-- Kinds of Python exceptions. -/
inductive PyErr where
  | typeError | valueError | indexError | runtimeError
deriving DecidableEq, Repr

/-- A numpy array (or numpy scalar, when the shape is empty). -/
structure NpArray (α : Type) where
  /-- element type -/
  dtype : Nat
  /-- shape -/
  shape : List Nat
  /-- elements in C order -/
  data : List α
deriving DecidableEq, Repr

variable {α S : Type}

/-- `iter(a)` of a numpy array: the subarrays along the first axis; `TypeError` for a 0-d array. -/
def npIter (a : NpArray α) : Except PyErr (List (NpArray α)) :=
  match a.shape with
  | [] => .error .typeError
  | n :: rest => .ok ((List.range n).map fun i => ⟨a.dtype, rest, (a.data.drop (i * rest.prod)).take rest.prod⟩)

/-- `np.expand_dims(a, axis=0)`. -/
def expandDims (a : NpArray α) : NpArray α := ⟨a.dtype, 1 :: a.shape, a.data⟩

/-- Length of the shortest list; `none` when there are no lists. -/
def minLen {β : Type} : List (List β) → Option Nat
  | [] => none
  | l :: ls => some (match minLen ls with | none => l.length | some m => min l.length m)

/-- Python's `zip(*ls)` on finite iterables: it stops with the shortest one, and `zip()` is empty. -/
def pyZip {β : Type} (ls : List (List β)) : List (List β) :=
  match minLen ls with
  | none => []
  | some m => (List.range m).map fun i => ls.filterMap (·[i]?)

/-- The argument of `predict`: an array, a list of arrays, an iterator over arrays or lists, or something else. -/
inductive PyInput (α : Type) where
  | array (a : NpArray α)
  | list (l : List (NpArray α))
  | iter (items : List (NpArray α ⊕ List (NpArray α)))
  | other

/-- `data_generator` (interpreter_base.py:10-27), as the list of what it yields. -/
def dataGenerator : PyInput α → Except PyErr (List (List (NpArray α)))
  | .array a => do
    let rows ← npIter a
    .ok (rows.map fun r => [expandDims r])
  | .list l => do
    let its ← l.mapM npIter
    .ok ((pyZip its).map fun ins => ins.map expandDims)
  | .iter items => .ok (items.map fun it =>
      match it with
      | .inl a => [expandDims a]
      | .inr l => l.map expandDims)
  | .other => .error .valueError

/-- A tensor of the model: type and shape. -/
structure TensorSpec where
  /-- element type -/
  dtype : Nat
  /-- shape -/
  dims : List Nat
deriving DecidableEq, Repr

/-- The wrapped TFLite interpreter: its input and output tensors, and `Invoke` as a transition on the interpreter's state
given the contents of the input tensors (`none`: a status other than `kTfLiteOk`). -/
structure Interp (S α : Type) where
  /-- `interpreter_->inputs()` -/
  inputs : List TensorSpec
  /-- `interpreter_->outputs()` -/
  outputs : List TensorSpec
  /-- `Invoke`, returning the contents of the output tensors -/
  invoke : S → List (List α) → Option (S × List (List α))

/-- The checks of `SetTensorFromNumpy` (interpreter_wrapper_utils.h:132-169). -/
def setTensorOk (t : TensorSpec) (a : NpArray α) : Bool := a.dtype == t.dtype && a.shape == t.dims

/-- `InterpreterWrapperBase::predict` (interpreter_wrapper_utils.h:251-285). -/
def wrapperPredict (itp : Interp S α) (s : S) (ins : List (NpArray α)) : Except PyErr (S × List (NpArray α)) :=
  if ins.length ≠ itp.inputs.length then .error .runtimeError
  else if ¬ (List.zipWith setTensorOk itp.inputs ins).all id then .error .runtimeError
  else match itp.invoke s (ins.map (·.data)) with
    | none => .error .runtimeError
    | some (s', outs) => .ok (s', List.zipWith (fun t d => ⟨t.dtype, t.dims, d⟩) itp.outputs outs)

/-- The generator expression `(self.interpreter.predict(inputs) for inputs in data_iterator)` (interpreter_base.py:91), run
to its end. -/
def predictAll (itp : Interp S α) : S → List (List (NpArray α)) → Except PyErr (S × List (List (NpArray α)))
  | s, [] => .ok (s, [])
  | s, ins :: rest => do
    let (s, o) ← wrapperPredict itp s ins
    let (s, os) ← predictAll itp s rest
    .ok (s, o :: os)

/-- `np.concatenate(batches)` along the first axis, for arrays of one element type: the arrays must have at least one
dimension and equal trailing dimensions. -/
def npConcat (as : List (NpArray α)) : Except PyErr (NpArray α) :=
  match as with
  | [] => .error .valueError
  | a :: _ =>
    if as.all (fun b => b.shape.length ≠ 0 && b.shape.tail == a.shape.tail) then
      .ok ⟨a.dtype, (as.map fun b => b.shape.headD 0).sum :: a.shape.tail, as.flatMap (·.data)⟩
    else .error .valueError

/-- What `predict` returns: an array, or a list of arrays. -/
inductive PyRes (α : Type) where
  | one (a : NpArray α)
  | many (l : List (NpArray α))
deriving DecidableEq, Repr

/-- `InterpreterBase.predict` (interpreter_base.py:73-98). -/
def predict (itp : Interp S α) (s : S) (x : PyInput α) : Except PyErr (S × PyRes α) := do
  let samples ← dataGenerator x
  let (s, preds) ← predictAll itp s samples
  let outputs ← (pyZip preds).mapM npConcat
  if itp.outputs.length = 1 then
    match outputs[0]? with
    | some a => .ok (s, .one a)
    | none => .error .indexError
  else .ok (s, .many outputs)

end Verif
