import Verif.Model.PyGraph

/-!
Model of `/repo/larq_compute_engine/mlir/python/converter.py`: the entry points `convert_saved_model` and
`convert_keras_model`.

Everything the functions call that is not in the file (Keras, TensorFlow's tracing, the file system, the C++ conversion) is
a field of `World`, so the theorems hold whatever it does. An exception is `.error`. The tensors of a graph are named by
numbers. Flatbuffers are the parsed `GModel`; parsing and serializing them is the identity. Warnings are not modelled
(a warnings filter that turns them into exceptions is excluded).
-/

namespace Verif.Convert

/-- `tf.DType`, as far as the file distinguishes them. -/
inductive DType
  | float32
  | int8
  | resource
  | other (n : Nat)
deriving DecidableEq, Repr

/-- The classes of exceptions. -/
inductive PyErr
  | valueError
  | runtimeError
  | other
deriving DecidableEq, Repr

/-- The keyword arguments of `convert_saved_model` and `convert_keras_model` (converter.py:93-100, 158-165). -/
structure Opts where
  inType : DType
  outType : DType
  target : String
  range : Option (Rat × Rat)
deriving DecidableEq

/-- A tensor of a concrete function: name, dtype, `shape` (`none`: unknown rank; a dimension may be `None`). -/
structure FTensor where
  name : Nat
  dtype : DType
  shape : Option (List (Option Nat))
deriving DecidableEq, Repr

/-- A frozen concrete function: inputs, outputs, the `op` of the nodes of its graph and of its library functions, and the
serialized graph. -/
structure Frozen where
  inputs : List FTensor
  outputs : List FTensor
  nodes : List String
  library : List (List String)
  bytes : Nat
deriving DecidableEq, Repr

/-- The arguments of `convert_graphdef_to_tflite_flatbuffer` (converter.py:260-269). -/
structure GraphArgs where
  bytes : Nat
  inputs : List Nat
  dtypes : List DType
  shapes : List (List (Option Nat))
  outputs : List Nat
  shouldQuantize : Bool
  target : String
  range : Option (Rat × Rat)

/-- The rest of the world, for one model: is it a `tf.keras.Model`, the name of its `dtype_policy` if it has one, is eager
execution on; the temporary directory, saving the model into it, and its removal; the version of a saved model; the two C++
conversions; tracing and freezing the model. -/
structure World where
  isModel : Bool
  policy : Option String
  eager : Bool
  mkdtemp : Except PyErr Nat
  save : Nat → Except PyErr Unit
  rmdtemp : Nat → Except PyErr Unit
  version : Nat → Except PyErr Nat
  convertSaved : Nat → Nat → String → Option (Rat × Rat) → Except PyErr GModel
  freeze : Except PyErr Frozen
  convertGraph : GraphArgs → Except PyErr GModel

/-- `training_quant_ops` (converter.py:43-50). -/
def trainingQuantOps : List String :=
  ["FakeQuantWithMinMaxVars", "FakeQuantWithMinMaxVarsPerChannel", "FakeQuantWithMinMaxArgs",
    "FakeQuantWithMinMaxArgsPerChannel", "QuantizeAndDequantizeV2", "QuantizeAndDequantizeV3"]

/-- `_contains_training_quant_op` (converter.py:41-59). -/
def containsTrainingQuantOp (nodes : List String) (library : List (List String)) : Bool :=
  nodes.any (fun n => trainingQuantOps.contains n) ||
    library.any (fun f => f.any fun n => trainingQuantOps.contains n)

/-- `_validate_options` (converter.py:62-90). -/
def validateOptions (w : World) (o : Opts) : Except PyErr Unit :=
  if !(o.inType == .float32 || o.inType == .int8) then .error .valueError
  else if !(o.outType == .float32 || o.outType == .int8) then .error .valueError
  else if !(o.target == "arm" || o.target == "xcore") then .error .valueError
  else if !w.eager then .error .runtimeError
  else .ok ()

/-- `modify_integer_quantized_model_io_type` (util.py:176-222) on the whole model: the main subgraph is number 0. -/
def modifyModel (m : GModel) (intIn intOut : Bool) : Except PyErr GModel :=
  match m.subgraphs with
  | [] => .error .other
  | sg :: rest =>
    match modifyIo m.codes intIn intOut m.sigs sg with
    | none => .error .valueError
    | some (sigs, sg) => .ok { m with sigs := sigs, subgraphs := sg :: rest }

/-- The last step of both functions (converter.py:148-155, 271-280) when it is reached. -/
def modifyFor (o : Opts) (m : GModel) : Except PyErr GModel :=
  if o.inType != .float32 || o.outType != .float32 then modifyModel m (o.inType == .int8) (o.outType == .int8)
  else .ok m

/-- `convert_saved_model` (converter.py:93-155) of the directory `d`. -/
def convertSavedModel (w : World) (o : Opts) (d : Nat) : Except PyErr GModel := do
  validateOptions w o
  let v ← w.version d
  if v = 1 ∨ v = 2 then do
    let m ← w.convertSaved d v o.target o.range
    modifyFor o m
  else .error .valueError

/-- The `try` block of `convert_keras_model` (converter.py:203-214): leaving the `with` statement removes the directory,
also when the body raised; an exception while removing it replaces the result. -/
def savedAttempt (w : World) (o : Opts) : Except PyErr GModel := do
  let d ← w.mkdtemp
  let r := (do
    w.save d
    convertSavedModel w o d)
  w.rmdtemp d
  r

/-- The check of one input tensor and the shape it has afterwards (converter.py:245-258). -/
def checkShape (t : FTensor) : Except PyErr (List (Option Nat)) :=
  match t.shape with
  | none => .error .valueError
  | some l =>
    if none ∈ l.drop 1 then .error .valueError
    else match l with
      | none :: rest => .ok (some 1 :: rest)
      | l => .ok l

/-- `tensor.dtype != tf.dtypes.resource` (converter.py:231-233). -/
def dataInputs (f : Frozen) : List FTensor := f.inputs.filter fun t => t.dtype != .resource

/-- `should_quantize` (converter.py:238-241). -/
def shouldQuantize (o : Opts) (f : Frozen) : Bool := containsTrainingQuantOp f.nodes f.library || o.range.isSome

/-- The conversion without a saved model (converter.py:229-280). -/
def graphAttempt (w : World) (o : Opts) : Except PyErr GModel := do
  let f ← w.freeze
  let shapes ← (dataInputs f).mapM checkShape
  let m ← w.convertGraph
    { bytes := f.bytes, inputs := (dataInputs f).map (·.name), dtypes := (dataInputs f).map (·.dtype), shapes := shapes,
      outputs := f.outputs.map (·.name), shouldQuantize := shouldQuantize o f, target := o.target, range := o.range }
  if shouldQuantize o f then modifyFor o m else .ok m

/-- `convert_keras_model` (converter.py:158-280). -/
def convertKerasModel (w : World) (o : Opts) : Except PyErr GModel :=
  if !w.isModel then .error .valueError
  else if w.policy.isSome && w.policy != some "float32" then .error .valueError
  else do
    validateOptions w o
    match savedAttempt w o with
    | .ok m => .ok m
    | .error _ => graphAttempt w o

end Verif.Convert
