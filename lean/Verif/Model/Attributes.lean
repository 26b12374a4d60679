import Verif.Model.OpState
import Verif.Model.BMaxPool

/-!
Model of how operator attributes travel from the converter to the runtime and back:
`/repo/larq_compute_engine/mlir/ir/lce_ops.cc` (`buildCustomOptions`),
`/repo/larq_compute_engine/mlir/transforms/legalize_tflite.cc`,
`/repo/larq_compute_engine/mlir/transforms/translate_tflite.cc`, the `Init` functions of
`/repo/larq_compute_engine/tflite/kernels/{bconv2d,bmaxpool}.cc`,
`/repo/larq_compute_engine/tflite/kernels/utils.h` and
`/repo/larq_compute_engine/tflite/kernels/lce_ops_register.h`.

The flexbuffers library is a contract: a finished map of integer entries reads back as the same
map. `none` as a result of a conversion function stands for undefined behaviour.
-/

namespace Verif

/-- A flexbuffers map with integer (int64) entries, in the order they were added. -/
abbrev FlexMap := List (String × BitVec 64)

/-- `m[key].IsNull()`: no such entry. -/
def FlexMap.isNull (m : FlexMap) (k : String) : Bool := (m.lookup k).isNone

/-- `m[key].AsInt32()`: the low 32 bits of the entry, 0 for a missing one. -/
def FlexMap.asInt32 (m : FlexMap) (k : String) : BitVec 32 := ((m.lookup k).getD 0#64).setWidth 32

/-- `fbb.Int(key, getX())`: the MLIR accessor of an `I32Attr` returns `uint32_t`, which is
converted to `int64_t` without sign extension. -/
def flexInt (v : BitVec 32) : BitVec 64 := v.setWidth 64

/-- The attributes of `lq.Bconv2d` (lce_ops.td:141-152). Integer attributes are 32-bit patterns. -/
structure ConvOpAttrs where
  channelsIn : BitVec 32
  dilH : BitVec 32
  dilW : BitVec 32
  act : String
  padValues : BitVec 32
  padding : String
  strideH : BitVec 32
  strideW : BitVec 32
deriving DecidableEq, Repr

/-- The attributes of `lq.BMaxPool2d` (lce_ops.td:168-175). -/
structure PoolOpAttrs where
  padding : String
  strideW : BitVec 32
  strideH : BitVec 32
  filtW : BitVec 32
  filtH : BitVec 32
deriving DecidableEq, Repr

/-- `ConvertPaddingAttr` (lce_ops.cc:12-16); a string without a case is undefined behaviour. -/
def paddingCode (s : String) : Option Nat :=
  if s = "SAME" then some 0 else if s = "VALID" then some 1 else none

/-- `ConvertActivationAttr` (lce_ops.cc:18-25). The schema values are those listed in
lce_ops.td:24-29. -/
def activationCode (s : String) : Option Nat :=
  if s = "NONE" then some 0 else if s = "RELU" then some 1 else if s = "RELU_N1_TO_1" then some 2
  else if s = "RELU6" then some 3 else none

/-- `Bconv2dOp::buildCustomOptions` (lce_ops.cc:36-51). -/
def bconvOptions (a : ConvOpAttrs) : Option FlexMap := do
  let act ← activationCode a.act
  let pad ← paddingCode a.padding
  some [("channels_in", flexInt a.channelsIn), ("dilation_height_factor", flexInt a.dilH),
    ("dilation_width_factor", flexInt a.dilW), ("fused_activation_function", BitVec.ofNat 64 act),
    ("pad_values", flexInt a.padValues), ("padding", BitVec.ofNat 64 pad),
    ("stride_height", flexInt a.strideH), ("stride_width", flexInt a.strideW)]

/-- `BMaxPool2dOp::buildCustomOptions` (lce_ops.cc:53-64). -/
def poolOptions (a : PoolOpAttrs) : Option FlexMap := do
  let pad ← paddingCode a.padding
  some [("padding", BitVec.ofNat 64 pad), ("stride_width", flexInt a.strideW),
    ("stride_height", flexInt a.strideH), ("filter_width", flexInt a.filtW),
    ("filter_height", flexInt a.filtH)]

/-- `TfLitePadding`. -/
inductive RtPadding where
  | same
  | valid
  | unknown
deriving DecidableEq, Repr

/-- `ConvertPadding` (utils.h:28-36). -/
def convertPadding (v : BitVec 32) : RtPadding :=
  if v = 0#32 then .same else if v = 1#32 then .valid else .unknown

/-- `ConvertActivation` (utils.h:10-25). -/
def convertActivation (v : BitVec 32) : Act :=
  if v = 0#32 then .none else if v = 1#32 then .relu else if v = 2#32 then .reluN1To1
  else if v = 3#32 then .relu6 else .none

/-- What `Init` of BConv2D leaves in `OpData` when it succeeds. -/
structure RtConvAttrs where
  strideH : BitVec 32
  strideW : BitVec 32
  dilH : BitVec 32
  dilW : BitVec 32
  padding : RtPadding
  padValue : BitVec 32
  cin : BitVec 32
  act : Act
deriving DecidableEq, Repr

/-- `Init` (bconv2d.cc:83-128): `none` when `successfully_initialized` stays false. -/
def bconvInit (m : FlexMap) : Option RtConvAttrs :=
  if m.isNull "stride_height" then none
  else if m.isNull "stride_width" then none
  else if m.isNull "dilation_height_factor" then none
  else if m.isNull "dilation_width_factor" then none
  else if m.isNull "padding" then none
  else if m.isNull "pad_values" then none
  else if m.isNull "channels_in" then none
  else if m.isNull "fused_activation_function" then none
  else
    let pv := m.asInt32 "pad_values"
    if pv ≠ 0#32 ∧ pv ≠ 1#32 then none
    else some
      { strideH := m.asInt32 "stride_height", strideW := m.asInt32 "stride_width",
        dilH := m.asInt32 "dilation_height_factor", dilW := m.asInt32 "dilation_width_factor",
        padding := convertPadding (m.asInt32 "padding"), padValue := pv,
        cin := m.asInt32 "channels_in",
        act := convertActivation (m.asInt32 "fused_activation_function") }

/-- The attributes as `Prepare` is modelled on them: non-negative integers and a known padding
(simplification of `Model/OpState.lean`; `none` outside it). -/
def RtConvAttrs.attrs (r : RtConvAttrs) : Option Attrs :=
  if r.strideH.msb || r.strideW.msb || r.dilH.msb || r.dilW.msb || r.padValue.msb || r.cin.msb then none
  else match r.padding with
    | .same => some ⟨r.strideH.toNat, r.strideW.toNat, r.dilH.toNat, r.dilW.toNat, .same, r.padValue.toNat, r.cin.toNat, r.act⟩
    | .valid => some ⟨r.strideH.toNat, r.strideW.toNat, r.dilH.toNat, r.dilW.toNat, .valid, r.padValue.toNat, r.cin.toNat, r.act⟩
    | .unknown => none

/-- What `Init` of BMaxPool2D stores. -/
structure RtPoolAttrs where
  filtH : BitVec 32
  filtW : BitVec 32
  strideH : BitVec 32
  strideW : BitVec 32
  padding : RtPadding
deriving DecidableEq, Repr

/-- `Init` (bmaxpool.cc:21-34): no checks. -/
def poolInit (m : FlexMap) : RtPoolAttrs :=
  { filtH := m.asInt32 "filter_height", filtW := m.asInt32 "filter_width",
    strideH := m.asInt32 "stride_height", strideW := m.asInt32 "stride_width",
    padding := convertPadding (m.asInt32 "padding") }

/-- `ConvertActivationAttr` of the importer (translate_tflite.cc:8-15): control falls off the end of
a non-void function (undefined) for other values. -/
def activationName (v : BitVec 32) : Option String :=
  if v = 0#32 then some "NONE" else if v = 1#32 then some "RELU" else if v = 2#32 then some "RELU_N1_TO_1"
  else if v = 3#32 then some "RELU6" else none

/-- `ConvertPaddingAttr` of the importer (translate_tflite.cc:17-20). -/
def paddingName (v : BitVec 32) : Option String :=
  if v = 0#32 then some "SAME" else if v = 1#32 then some "VALID" else none

/-- The importer on a `LceBconv2d` custom op (translate_tflite.cc:64-83). -/
def importBconv (m : FlexMap) : Option ConvOpAttrs := do
  let act ← activationName (m.asInt32 "fused_activation_function")
  let pad ← paddingName (m.asInt32 "padding")
  some { channelsIn := m.asInt32 "channels_in", dilH := m.asInt32 "dilation_height_factor",
         dilW := m.asInt32 "dilation_width_factor", act := act,
         padValues := m.asInt32 "pad_values", padding := pad,
         strideH := m.asInt32 "stride_height", strideW := m.asInt32 "stride_width" }

/-- The importer on a `LceBMaxPool2d` custom op (translate_tflite.cc:53-63). -/
def importPool (m : FlexMap) : Option PoolOpAttrs := do
  let pad ← paddingName (m.asInt32 "padding")
  some { padding := pad, strideW := m.asInt32 "stride_width", strideH := m.asInt32 "stride_height",
         filtW := m.asInt32 "filter_width", filtH := m.asInt32 "filter_height" }

/-! ### Operator names -/

/-- The operators of the `lq` dialect. -/
inductive LceOp where
  | quantize
  | dequantize
  | bconv2d
  | bmaxpool2d
deriving DecidableEq, Repr

/-- `getOperationName()` (lce_ops.td:84, 104, 122, 158; dialect name `lq`, line 56). -/
def LceOp.name : LceOp → String
  | .quantize => "lq.Quantize"
  | .dequantize => "lq.Dequantize"
  | .bconv2d => "lq.Bconv2d"
  | .bmaxpool2d => "lq.BMaxPool2d"

/-- The custom code in the file (legalize_tflite.cc:36-38). -/
def LceOp.customCode (o : LceOp) : String := "Lce" ++ String.ofList (o.name.toList.drop 3)

/-- A registered kernel. -/
inductive Kernel where
  | quantize
  | dequantize
  | bconv2d (kt : KernelType)
  | bmaxpool2d
deriving DecidableEq, Repr

/-- `RegisterLCECustomOps` (lce_ops_register.h:25-57) and `Register_BCONV_2D`
(bconv2d.cc:586-592): the kernel under a custom code. `ruy`: built with `TFLITE_WITH_RUY`. -/
def registered (ruy useRef useIndirect : Bool) (code : String) : Option Kernel :=
  if code = "LceQuantize" then some .quantize
  else if code = "LceDequantize" then some .dequantize
  else if code = "LceBconv2d" then
    some (.bconv2d (if useRef then .reference else if useIndirect then .indirect
      else if ruy then .bgemm else .reference))
  else if code = "LceBMaxPool2d" then some .bmaxpool2d
  else none

/-- The dispatch of the importer (translate_tflite.cc:46-64). -/
def importCode (code : String) : Option LceOp :=
  if code = "LceQuantize" then some .quantize
  else if code = "LceDequantize" then some .dequantize
  else if code = "LceBMaxPool2d" then some .bmaxpool2d
  else if code = "LceBconv2d" then some .bconv2d
  else none

end Verif
