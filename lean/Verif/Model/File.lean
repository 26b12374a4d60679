import Verif.Model.Attributes
import Verif.Model.Exec

/-!
Model of the step between the converter's graph and the model file, in both directions, and of running the file:
`/repo/larq_compute_engine/mlir/transforms/legalize_tflite.cc` (operators of the `lq` dialect become custom operators
with serialized options), `/repo/larq_compute_engine/mlir/transforms/translate_tflite.cc` (and back), and the kernels the
interpreter finds for custom operators (`lce_ops_register.h`, the `Init` functions).

Simplifications: both passes are modelled as visiting every operator once (the greedy driver applies the one pattern to
every operator that it matches; the constant folding it also performs is the subject of C34 and C61). The translation of a
custom operator that is not LCE's changes nothing but reports success (translate_tflite.cc:83), so that the driver visits
it again until its limit: the result is the same. `none` stands for undefined behaviour. The flatbuffer itself is
TFLite's and not modelled: a file holds the operators, their operands and the types of their results.
-/

namespace Verif.Ir

/-- The element type of a result: int32 for binary tensors, float32, or int8 with scale and zero point. -/
inductive RType where
  | words
  | float
  | int8 (scale : Rat) (zp : Int)
deriving DecidableEq

/-- An operator: of the `lq` dialect or TFLite's own, or a custom operator with its options. -/
inductive FileOp where
  | builtin (o : Op)
  | custom (code : String) (opts : FlexMap) (rt : RType)

structure FileNode where
  name : Nat
  op : FileOp
  args : List Nat
  ty : Option (List Nat)

/-- A function with custom operators. -/
structure FileGraph where
  nodes : List FileNode
  outs : List Nat

/-- The name of an activation in an operator's attribute (lce_ops.td:24-29). `Act.other` stands for those the runtime
does not implement. -/
def Act.attr : Act → String
  | .none => "NONE"
  | .relu => "RELU"
  | .reluN1To1 => "RELU_N1_TO_1"
  | .relu6 => "RELU6"
  | .other => "TANH"

/-- The name of a padding in an operator's attribute (lce_ops.td:31-34). -/
def paddingAttr : Padding → String
  | .same => "SAME"
  | .valid => "VALID"

/-- The attributes of `lq.Bconv2d` as stored in the IR: 32-bit integers and strings (lce_ops.td:141-152). -/
def BConvAttrs.opAttrs (a : BConvAttrs) : ConvOpAttrs :=
  { channelsIn := BitVec.ofNat 32 a.cin, dilH := BitVec.ofNat 32 a.dilH, dilW := BitVec.ofNat 32 a.dilW,
    act := Act.attr a.act, padValues := BitVec.ofNat 32 a.padValue, padding := paddingAttr a.padding,
    strideH := BitVec.ofNat 32 a.strideH, strideW := BitVec.ofNat 32 a.strideW }

/-- The attributes of `lq.BMaxPool2d` as stored in the IR (lce_ops.td:168-175). -/
def poolOpAttrs (a : PoolAttrs) : PoolOpAttrs :=
  { padding := paddingAttr a.padding, strideW := BitVec.ofNat 32 a.strideW, strideH := BitVec.ofNat 32 a.strideH,
    filtW := BitVec.ofNat 32 a.filtW, filtH := BitVec.ofNat 32 a.filtH }

/-- `LegalizeToCustomOp` (legalize_tflite.cc:23-42): the operator's options, its result type, and `"Lce"` followed by
the operator's name in the dialect. -/
def legalizeOp : FileOp → Option FileOp
  | .custom c m rt => some (.custom c m rt)
  | .builtin .lquant => some (.custom LceOp.quantize.customCode [] .words)
  | .builtin .ldequant => some (.custom LceOp.dequantize.customCode [] .float)
  | .builtin (.ldequantI8 s z) => some (.custom LceOp.dequantize.customCode [] (.int8 s z))
  | .builtin (.bmaxPool a) => (poolOptions (poolOpAttrs a)).map fun m => .custom LceOp.bmaxpool2d.customCode m .words
  | .builtin (.bconv a) => (bconvOptions a.opAttrs).map fun m =>
      .custom LceOp.bconv2d.customCode m (if a.outBits then .words else .float)
  | .builtin (.bconvI8 a s z) => (bconvOptions a.opAttrs).map fun m => .custom LceOp.bconv2d.customCode m (.int8 s z)
  | .builtin o => some (.builtin o)

def legalizeNode (n : FileNode) : Option FileNode := (legalizeOp n.op).map fun o => { n with op := o }

/-- The pass `tfl-legalize-lce` (legalize_tflite.cc:44-55). -/
def FileGraph.legalize (g : FileGraph) : Option FileGraph :=
  (g.nodes.mapM legalizeNode).map fun l => ⟨l, g.outs⟩

/-- An activation from its name in an attribute. -/
def Act.ofAttr (s : String) : Act :=
  if s = "NONE" then .none else if s = "RELU" then .relu else if s = "RELU_N1_TO_1" then .reluN1To1
  else if s = "RELU6" then .relu6 else .other

/-- A padding from its name in an attribute. -/
def paddingOfAttr (s : String) : Padding := if s = "SAME" then .same else .valid

/-- The attributes of an `lq.Bconv2d` with a given result type. -/
def convAttrsOf (a : ConvOpAttrs) (outBits : Bool) : BConvAttrs :=
  { strideH := a.strideH.toNat, strideW := a.strideW.toNat, dilH := a.dilH.toNat, dilW := a.dilW.toNat,
    padding := paddingOfAttr a.padding, padValue := a.padValues.toNat, cin := a.channelsIn.toNat,
    act := Act.ofAttr a.act, outBits := outBits }

def poolAttrsOf (a : PoolOpAttrs) : PoolAttrs :=
  { filtH := a.filtH.toNat, filtW := a.filtW.toNat, strideH := a.strideH.toNat, strideW := a.strideW.toNat,
    padding := paddingOfAttr a.padding }

/-- `TranslateToLCEPattern` (translate_tflite.cc:40-84): BMaxPool2D takes operand 0, BConv2D operands 0 to 4 (it is
undefined when there are fewer), the other two take all. A result type the operator cannot have is left out (`none`). -/
def translateNode (n : FileNode) : Option FileNode :=
  match n.op with
  | .builtin _ => some n
  | .custom code m rt =>
    match importCode code with
    | none => some n
    | some .quantize =>
      match rt with
      | .words => some { n with op := .builtin .lquant }
      | _ => none
    | some .dequantize =>
      match rt with
      | .float => some { n with op := .builtin .ldequant }
      | .int8 s z => some { n with op := .builtin (.ldequantI8 s z) }
      | .words => none
    | some .bmaxpool2d =>
      match rt, n.args with
      | .words, x :: _ => (importPool m).map fun a => { n with op := .builtin (.bmaxPool (poolAttrsOf a)), args := [x] }
      | _, _ => none
    | some .bconv2d =>
      match n.args with
      | x :: f :: mu :: b :: t :: _ => (importBconv m).map fun a =>
        { n with
          op := .builtin (match rt with
            | .words => .bconv (convAttrsOf a true)
            | .float => .bconv (convAttrsOf a false)
            | .int8 s z => .bconvI8 (convAttrsOf a false) s z)
          args := [x, f, mu, b, t] }
      | _ => none

/-- The pass `lce-translate-tfl` (translate_tflite.cc:87-93). -/
def FileGraph.translate (g : FileGraph) : Option FileGraph :=
  (g.nodes.mapM translateNode).map fun l => ⟨l, g.outs⟩

/-- A graph as a function without custom operators. -/
def Graph.toFile (g : Graph) : FileGraph := ⟨g.nodes.map fun n => ⟨n.name, .builtin n.op, n.args, n.ty⟩, g.outs⟩

/-! ### Running a file -/

/-- Which kernels were registered: built with ruy, and the two flags of `RegisterLCECustomOps`. -/
structure Reg where
  ruy : Bool
  useRef : Bool
  useIndirect : Bool

/-- The BConv2D node as `Init` and `Prepare` see it: attributes from the options, types from the tensors. -/
def fileBConvNode (kt : KernelType) (m : FlexMap) (rt : RType) (x f mu b t : MVal) : Verif.Node :=
  { kt := kt
    attrs := (bconvInit m).bind RtConvAttrs.attrs
    nInputs := 5
    inType := (x.desc.map (·.type)).getD .other
    filter := f.desc.getD ⟨.other, []⟩
    filtData := f.bits
    mult := mu.desc
    multData := mu.floats
    bias := b.desc
    biasData := b.floats
    thr := t.desc
    thrData := t.ints
    outType := match rt with
      | .words => .int32
      | .float => .float32
      | .int8 _ _ => .int8
    outAffine := match rt with
      | .int8 _ _ => true
      | _ => false
    scale := match rt with
      | .int8 s _ => s
      | _ => 1
    zp := match rt with
      | .int8 _ z => z
      | _ => 0 }

/-- LceBconv2d: `Init`, `Prepare` and `Eval` (bconv2d.cc:83-302, 499-566). -/
def fileBConv (cfg : Cfg) (kt : KernelType) (nm : Nat) (m : FlexMap) (rt : RType) (x f mu b t : MVal) : Outcome MVal :=
  let node := fileBConvNode kt m rt x f mu b t
  let i : InputDesc := ⟨(x.desc.map (·.dims)).getD [], cfg.dyn nm, cfg.loc nm⟩
  (prepare node i).bind fun r =>
    let c : RunCfg := ⟨cfg.fat nm,
      cfg.blocks nm (if rt = .words then 32 else 1) r.p.cout (r.p.batches * r.p.outH * r.p.outW), roundHalfAway⟩
    let out : OutBuf := match rt with
      | .words => .w (buf (cfg.bufW nm) r.outDims.prod)
      | .int8 _ _ => .i ((buf (cfg.bufB nm) r.outDims.prod).map BitVec.toInt)
      | .float => .f (buf (cfg.bufR nm) r.outDims.prod)
    match (freshMachine node i).bind fun k => output node c k x.bits out with
    | some (.f d) => .ok (.plain (.f ⟨r.outDims, d⟩))
    | some (.w d) => .ok (.words r.outDims d)
    | some (.i d) => .ok (.plain (.q ⟨r.outDims, d⟩ node.scale (match rt with
      | .int8 _ z => z
      | _ => 0)))
    | none => .ub

/-- The attributes of BMaxPool2D as `Prepare` is modelled on them: non-negative integers and a known padding. -/
def rtPoolAttrs (r : RtPoolAttrs) : Option PoolAttrs :=
  if r.filtH.msb || r.filtW.msb || r.strideH.msb || r.strideW.msb then none
  else match r.padding with
    | .same => some ⟨r.filtH.toNat, r.filtW.toNat, r.strideH.toNat, r.strideW.toNat, .same⟩
    | .valid => some ⟨r.filtH.toNat, r.filtW.toNat, r.strideH.toNat, r.strideW.toNat, .valid⟩
    | .unknown => none

/-- One custom operator: the interpreter finds the kernel under the custom code (a model with an unknown code is
refused), its `Init` reads the options, and it runs. A result type the kernel does not know is refused. -/
def execCustom (reg : Reg) (cfg : Cfg) (nm : Nat) (ty : Option (List Nat)) (code : String) (m : FlexMap) (rt : RType)
    (l : List MVal) : Outcome MVal :=
  match registered reg.ruy reg.useRef reg.useIndirect code, l with
  | some .quantize, [x] => if rt = .words then execQuantize cfg nm x else .error
  | some .dequantize, [x] =>
    match rt with
    | .float => execDequantize cfg nm ty x
    | .int8 s z => execDequantizeI8 cfg nm ty s z x
    | .words => .error
  | some .bmaxpool2d, [x] =>
    if rt = .words then
      match rtPoolAttrs (poolInit m) with
      | some a => execBMaxPool cfg nm a x
      | none => .error
    else .error
  | some (.bconv2d kt), [x, f, mu, b, t] => fileBConv cfg kt nm m rt x f mu b t
  | _, _ => .error

/-- One operator of a file. Operators of the `lq` dialect cannot be in a file. -/
def execFileOp (reg : Reg) (cfg : Cfg) (ins : List MVal) (nm : Nat) (ty : Option (List Nat)) : FileOp → List MVal →
    Outcome MVal
  | .custom code m rt, l => execCustom reg cfg nm ty code m rt l
  | .builtin .lquant, _ => .error
  | .builtin .ldequant, _ => .error
  | .builtin (.ldequantI8 _ _), _ => .error
  | .builtin (.bmaxPool _), _ => .error
  | .builtin (.bconv _), _ => .error
  | .builtin (.bconvI8 _ _ _), _ => .error
  | .builtin o, l => execOp cfg ins nm ty o l

/-- Execute nodes in order. -/
def execFileNodes (reg : Reg) (cfg : Cfg) (ins : List MVal) : List FileNode → (Nat → Option MVal) →
    Outcome (Nat → Option MVal)
  | [], env => .ok env
  | n :: l, env =>
    match n.args.mapM env with
    | none => .error
    | some ms => (execFileOp reg cfg ins n.name n.ty n.op ms).bind fun m =>
      execFileNodes reg cfg ins l fun x => if x = n.name then some m else env x

/-- One inference of a file. -/
def FileGraph.exec (reg : Reg) (cfg : Cfg) (g : FileGraph) (ins : List MVal) : Outcome (List MVal) :=
  (execFileNodes reg cfg ins g.nodes fun _ => none).bind fun env =>
    match g.outs.mapM env with
    | none => .error
    | some l => .ok l

end Verif.Ir
