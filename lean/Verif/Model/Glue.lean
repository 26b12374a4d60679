import Verif.Model.Convert
import Verif.Model.Pipeline
import Verif.Model.File

/-!
Model of the C++ functions between `converter.py` and the passes:
`/repo/larq_compute_engine/mlir/python/common.cc`, `graphdef_tfl_flatbuffer.cc`, `saved_model_tfl_flatbuffer.cc` and
`/repo/larq_compute_engine/mlir/tf_to_tfl_flatbuffer.cc`.

What TensorFlow, TFLite and MLIR do (importing, the passes before freezing, freezing variables, exporting a flatbuffer) is
a field of `Cpp`, so the theorems hold whatever it does; the passes after freezing are a field about which the theorems
assume that it runs the passes it is given. Names of tensors are numbers, as in `Model/Convert.lean`. `std::runtime_error`
becomes Python's RuntimeError; a failed conversion of arguments by pybind11 is `.other`.
-/

namespace Verif.Convert

open Verif.Ir (Graph FileGraph PassKind conversionPasses)

/-- `LCETarget`. -/
inductive Target where
  | arm
  | xcore
deriving DecidableEq, Repr

/-- `GetLCETarget` (common.cc:30-38). -/
def getLceTarget (s : String) : Except PyErr Target :=
  if s = "arm" then .ok .arm else if s = "xcore" then .ok .xcore else .error .runtimeError

/-- An imported module: for each function, its attribute `tf.entry_function` if it has one, of which only the entry `inputs`
is read; does it contain operators of control flow v1; the body of the entry function. -/
structure Module where
  entries : List (Option (Option String))
  controlFlowV1 : Bool
  body : Graph

/-- The loop of `GetNumInputs` (common.cc:42-54): the attribute of the entry function so far. -/
def findEntry : List (Option (Option String)) → Option (Option String) → Except PyErr (Option (Option String))
  | [], acc => .ok acc
  | none :: l, acc => findEntry l acc
  | some a :: l, none => findEntry l (some a)
  | some _ :: _, some _ => .error .runtimeError

/-- `GetNumInputs` (common.cc:40-70), with the exception its caller throws (saved_model_tfl_flatbuffer.cc:83-86);
`StringRef::split` keeps empty pieces. -/
def getNumInputs (m : Module) : Except PyErr Nat := do
  match ← findEntry m.entries none with
  | none => .error .runtimeError
  | some none => .error .runtimeError
  | some (some names) => .ok (names.toList.splitOn ',').length

/-- The fields of `QuantizationSpecs` that are set: `inference_type` is QINT8 (else FLOAT); `input_ranges`;
`post_training_quantization`; `default_ranges`. -/
structure QuantSpecs where
  int8 : Bool
  inputRanges : List (Option Rat × Option Rat)
  postTraining : Bool
  defaultRanges : Option Rat × Option Rat
deriving DecidableEq

/-- The default of TensorFlow. -/
def QuantSpecs.float : QuantSpecs := ⟨false, [], false, (none, none)⟩

/-- The first part of `ConvertMLIRModuleToTFLiteFlatBuffer` (common.cc:72-117). -/
def quantSpecs (range : Option (Rat × Rat)) (numInputs : Nat) (shouldQuantize markPost : Bool) : QuantSpecs :=
  if shouldQuantize then
    match range with
    | none => ⟨true, List.replicate numInputs (none, none), false, (none, none)⟩
    | some (a, b) => ⟨true, List.replicate numInputs (none, none), markPost, (some a, some b)⟩
  else .float

/-- `AddPostVariableFreezingTFToLCETFLConversionPasses` (tf_tfl_passes.cc:121-291) for these specs: the quantization passes
run for an integer inference type (`RunPropagationAndRewriteQuantizationPasses`; tf_tfl_passes.cc:260-263), those for
default ranges if an end of the range is given (tf_tfl_passes.cc:38-39). -/
def postPasses (q : QuantSpecs) : List PassKind :=
  conversionPasses q.int8 (q.defaultRanges.1.isSome || q.defaultRanges.2.isSome)

/-- What TensorFlow, TFLite and MLIR do. `ub`: what happens when the behaviour of the program is undefined. -/
structure Cpp where
  loadGraphDef : Nat → Bool
  parseInputs : List Nat → List DType → List (Option (List Nat)) → Bool
  parseOutputs : List Nat → Bool
  importGraph : Nat → List Nat → List DType → List (Option (List Nat)) → List Nat → Option Module
  registerOps : Bool
  /-- directory, version, tags, exported names -/
  importSaved : Nat → Nat → List String → List String → Option Module
  /-- `AddPreVariableFreezingTFToLCETFLConversionPasses` -/
  pre : Module → Option Module
  freeze : Module → Option Module
  /-- the passes after freezing, but the last one -/
  passes : Target → QuantSpecs → List PassKind → Graph → Option Graph
  /-- `MlirToFlatBufferTranslateFunction` with the saved model's tags -/
  exportFile : List String → FileGraph → Option GModel
  verify : FileGraph → Bool
  ub : Except PyErr GModel

/-- `ConvertTFExecutorToTFLOrFlatbuffer` (tf_to_tfl_flatbuffer.cc:61-149) without `export_to_mlir`, and the exception for
every failure (common.cc:124-126). `session`: a session is given. `LegalizeLCE` is the last pass (tf_tfl_passes.cc:289). -/
def convertModule (c : Cpp) (t : Target) (q : QuantSpecs) (tags : List String) (session : Bool) (m : Module) :
    Except PyErr GModel :=
  if m.controlFlowV1 then .error .runtimeError
  else match c.pre m with
    | none => .error .runtimeError
    | some m1 =>
      match (if session then c.freeze m1 else some m1) with
      | none => .error .runtimeError
      | some m2 =>
        match c.passes t q (postPasses q) m2.body with
        | none => .error .runtimeError
        | some g =>
          match g.toFile.legalize with
          | none => c.ub
          | some F =>
            match c.exportFile tags F with
            | none => .error .runtimeError
            | some r => if c.verify F then .ok r else .error .runtimeError

/-- Empty shapes become unknown ones (graphdef_tfl_flatbuffer.cc:31-39). -/
def translateShape (s : List Nat) : Option (List Nat) := if 0 < s.length then some s else none

/-- `ConvertGraphDefToTFLiteFlatBuffer` (graphdef_tfl_flatbuffer.cc:16-79). A `None` in a shape cannot be converted to
`std::vector<int>` (pybind11). -/
def cppGraph (c : Cpp) (a : GraphArgs) : Except PyErr GModel :=
  match a.shapes.mapM (fun s => s.mapM id) with
  | none => .error .other
  | some shapes =>
    if !c.loadGraphDef a.bytes then .error .runtimeError
    else do
      let t ← getLceTarget a.target
      let sh := shapes.map translateShape
      if !c.parseInputs a.inputs a.dtypes sh then .error .runtimeError
      else if !c.parseOutputs a.outputs then .error .runtimeError
      else match c.importGraph a.bytes a.inputs a.dtypes sh a.outputs with
        | none => .error .runtimeError
        | some m => convertModule c t (quantSpecs a.range a.inputs.length a.shouldQuantize false) [] false m

/-- `ConvertSavedModelToTFLiteFlatBuffer` (saved_model_tfl_flatbuffer.cc:34-95). -/
def convertSavedCpp (c : Cpp) (d : Nat) (tags names : List String) (version : Nat) (target : String)
    (range : Option (Rat × Rat)) : Except PyErr GModel := do
  let t ← getLceTarget target
  if names.isEmpty then .error .runtimeError
  else if !c.registerOps then .error .runtimeError
  else match c.importSaved d version tags names with
    | none => .error .runtimeError
    | some m => do
      let k ← getNumInputs m
      convertModule c t (quantSpecs range k true true) tags true m

/-- The call in `convert_saved_model` (converter.py:122-146): `tf.saved_model.SERVING` and
`tf.saved_model.DEFAULT_SERVING_SIGNATURE_DEF_KEY`. -/
def cppSaved (c : Cpp) (d version : Nat) (target : String) (range : Option (Rat × Rat)) : Except PyErr GModel :=
  convertSavedCpp c d ["serve"] ["serving_default"] version target range

/-- The world of `Model/Convert.lean` with the C++ functions filled in. -/
def World.withCpp (w : World) (c : Cpp) : World := { w with convertSaved := cppSaved c, convertGraph := cppGraph c }

end Verif.Convert
