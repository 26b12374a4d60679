import Verif.Model.Ir
import Verif.Model.Quantization
import Verif.Model.PackRat
import Verif.Model.OpState
import Verif.Model.BMaxPool
import Verif.Spec.History

/-!
Model of one inference of a converted graph: the interpreter executes the nodes in order; each node runs its kernel on
the buffers of its operands.

The operators of the Larq Compute Engine run the kernels of `/repo/larq_compute_engine/tflite/kernels/`, as modelled in
`Model/Quantization.lean`, `Model/OpState.lean` and `Model/BMaxPool.lean`, on tensors of packed words. All other
operators compute what `Spec/IrSem.lean` says (a contract for TFLite's own kernels), and cannot be given packed words.

Simplifications: every tensor has its own buffer (memory planning is not modelled); every kernel starts from a new
`OpData` (for what happens over several inferences see C20, C47 and C64); floats are exact rational numbers. The initial
contents of all output buffers, the schedules of ruy's threads, buffer addresses and allocation types are arbitrary.
-/

namespace Verif.Ir

/-- A tensor at run time: binary tensors are packed words, everything else is as in the graph. -/
inductive MVal where
  | plain (v : Val)
  | words (dims : List Nat) (d : List Word)

/-- What the graph does not determine. The functions take the name of a node. -/
structure Cfg where
  /-- which BConv2D kernels are registered (`lce_ops_register.h`) -/
  kt : KernelType
  /-- ruy's choices: kernel mode, and blocks for an alignment of rows, a number of rows and of columns -/
  fat : Nat → Bool
  blocks : Nat → Nat → Nat → Nat → List Blk
  /-- is the input of the node a dynamic tensor, and where is its buffer -/
  dyn : Nat → Bool
  loc : Nat → Nat
  /-- the contents of the output buffers before the kernel runs -/
  bufW : Nat → Nat → Word
  bufR : Nat → Nat → Rat
  bufB : Nat → Nat → BitVec 8
  /-- indeterminate memory in `bitpack_bitfield` -/
  junk : Nat → Word

/-- A buffer of `k` elements with arbitrary contents. -/
def buf {α : Type} (g : Nat → α) (k : Nat) : List α := (List.range k).map g

/-- Reaching undefined behaviour (`none`) in a kernel. -/
def orUb {α β : Type} (f : α → β) : Option α → Outcome β
  | none => .ub
  | some a => .ok (f a)

/-- LceQuantize: `QuantizePrepare` and `QuantizeEval` (quantization.cc:20-42, 77-118). -/
def execQuantize (cfg : Cfg) (nm : Nat) : MVal → Outcome MVal
  | .plain (.f t) =>
    match quantizePrepare t.shape with
    | none => .ub
    | some dims => orUb (.words dims) (bitpackTensor t.shape t.data 0 (buf (cfg.bufW nm) dims.prod) (cfg.junk nm))
  | .plain (.b t) =>
    match quantizePrepare t.shape with
    | none => .ub
    | some dims => orUb (.words dims) (quantizeEval t.shape (.bool t.data) (buf (cfg.bufW nm) dims.prod) (cfg.junk nm))
  | .plain (.q t s z) =>
    match quantizePrepare t.shape with
    | none => .ub
    | some dims => orUb (.words dims) (quantizeEval t.shape (.i8 (t.data.map (BitVec.ofInt 8)) s z)
        (buf (cfg.bufW nm) dims.prod) (cfg.junk nm))
  | _ => .error

/-- LceDequantize to float: `DequantizePrepare` and `DequantizeEval` (quantization.cc:44-75, 120-154). The shape of the
output is the static shape in the model file; without one this model stops with an error. -/
def execDequantize (cfg : Cfg) (nm : Nat) (ty : Option (List Nat)) : MVal → Outcome MVal
  | .words dims d =>
    match ty with
    | none => .error
    | some sh =>
      if dequantizePrepare dims sh then
        orUb (fun y => .plain (.f ⟨sh, y⟩))
          (sh.getLast?.bind fun cols => unpackMatrix d sh.dropLast.prod cols (buf (cfg.bufR nm) sh.prod) 1 (-1))
      else .error
  | .plain _ => .error

/-- LceDequantize to int8 (quantization.cc:136-144). -/
def execDequantizeI8 (cfg : Cfg) (nm : Nat) (ty : Option (List Nat)) (s : Rat) (z : Int) : MVal → Outcome MVal
  | .words dims d =>
    match ty with
    | none => .error
    | some sh =>
      if dequantizePrepare dims sh then
        orUb (fun y => .plain (.q ⟨sh, y.map BitVec.toInt⟩ s z))
          (dequantizeEvalI8 id sh s z d (buf (cfg.bufB nm) sh.prod))
      else .error
  | .plain _ => .error

/-- Type and shape of a tensor; nothing for an absent one. -/
def MVal.desc : MVal → Option Tensor
  | .words dims _ => some ⟨.int32, dims⟩
  | .plain (.f t) => some ⟨.float32, t.shape⟩
  | .plain (.i t) => some ⟨.int32, t.shape⟩
  | .plain (.q t _ _) => some ⟨.int8, t.shape⟩
  | .plain (.b t) => some ⟨.other, t.shape⟩
  | .plain (.s t) => some ⟨.other, t.shape⟩
  | .plain .none => none

/-- The contents of an int32 tensor of packed words. -/
def MVal.bits : MVal → List Word
  | .words _ d => d
  | .plain (.i t) => t.data.map (BitVec.ofInt 32)
  | .plain _ => []

/-- The contents of a float tensor. -/
def MVal.floats : MVal → List Rat
  | .plain (.f t) => t.data
  | _ => []

/-- The contents of an int32 tensor of numbers. -/
def MVal.ints : MVal → List Int
  | .plain (.i t) => t.data
  | .words _ d => d.map BitVec.toInt
  | _ => []

/-- The BConv2D node as the runtime sees it: kernel, attributes (`Init` fails when `pad_values` is neither 0 nor 1,
bconv2d.cc:112-117) and tensors. `q`: scale and zero point of an int8 result. -/
def bconvNode (kt : KernelType) (q : Option (Rat × Int)) (a : BConvAttrs) (x f m b t : MVal) : Verif.Node :=
  { kt := kt
    attrs := if a.padValue = 0 ∨ a.padValue = 1 then
        some ⟨a.strideH, a.strideW, a.dilH, a.dilW, a.padding, a.padValue, a.cin, a.act⟩ else none
    nInputs := 5
    inType := (x.desc.map (·.type)).getD .other
    filter := f.desc.getD ⟨.other, []⟩
    filtData := f.bits
    mult := m.desc
    multData := m.floats
    bias := b.desc
    biasData := b.floats
    thr := t.desc
    thrData := t.ints
    outType := if a.outBits then .int32 else if q.isSome then .int8 else .float32
    outAffine := q.isSome
    scale := (q.map (·.1)).getD 1
    zp := (q.map (·.2)).getD 0 }

/-- LceBconv2d: `Init`, `Prepare` and `Eval` (bconv2d.cc:83-302, 499-566). -/
def execBConv (cfg : Cfg) (nm : Nat) (q : Option (Rat × Int)) (a : BConvAttrs) (x f m b t : MVal) : Outcome MVal :=
  let node := bconvNode cfg.kt q a x f m b t
  let i : InputDesc := ⟨(x.desc.map (·.dims)).getD [], cfg.dyn nm, cfg.loc nm⟩
  (prepare node i).bind fun r =>
    let c : RunCfg := ⟨cfg.fat nm,
      cfg.blocks nm (if a.outBits then 32 else 1) r.p.cout (r.p.batches * r.p.outH * r.p.outW), roundHalfAway⟩
    let out : OutBuf := if a.outBits then .w (buf (cfg.bufW nm) r.outDims.prod) else if q.isSome then
      .i ((buf (cfg.bufB nm) r.outDims.prod).map BitVec.toInt) else .f (buf (cfg.bufR nm) r.outDims.prod)
    match (freshMachine node i).bind fun k => output node c k x.bits out with
    | some (.f d) => .ok (.plain (.f ⟨r.outDims, d⟩))
    | some (.w d) => .ok (.words r.outDims d)
    | some (.i d) => .ok (.plain (.q ⟨r.outDims, d⟩ node.scale ((q.map (·.2)).getD 0)))
    | none => .ub

/-- LceBMaxPool2d: `Prepare` and `Eval` (bmaxpool.cc:40-91). -/
def execBMaxPool (cfg : Cfg) (nm : Nat) (a : PoolAttrs) : MVal → Outcome MVal
  | .words dims d =>
    match poolPrepare 1 1 true true a dims with
    | none => .error
    | some (p, od) => orUb (.words od) (bmaxpool p d (buf (cfg.bufW nm) od.prod))
  | .plain _ => .error

/-- A constant: binary constants are stored as packed words (`Bitpack`, mlir/transforms/bitpack.cc:19-56, also
used by `QuantizeOp::fold`). -/
def execConst (cfg : Cfg) (nm : Nat) : Val → Outcome MVal
  | .s t =>
    match t.shape.getLast? with
    | none => .error
    | some c => orUb (.words (t.shape.dropLast ++ [packedSize c]))
        (bitpackMatrix (t.data.map bitVal) t.shape.dropLast.prod c
          (List.replicate (t.shape.dropLast.prod * packedSize c) 0#32) 0 (cfg.junk nm))
  | v => .ok (.plain v)

/-- The value of a tensor that is not packed. -/
def MVal.plain? : MVal → Option Val
  | .plain v => some v
  | .words _ _ => none

/-- Operators that are not from the Larq Compute Engine. -/
def execPlain (o : Op) (ty : Option (List Nat)) (l : List MVal) : Outcome MVal :=
  match l.mapM MVal.plain? with
  | none => .error
  | some vs =>
    match o.run [] ty vs with
    | none => .error
    | some (.s _) => .error
    | some v => .ok (.plain v)

/-- One node. -/
def execOp (cfg : Cfg) (ins : List MVal) (nm : Nat) (ty : Option (List Nat)) : Op → List MVal → Outcome MVal
  | .arg k, [] => match ins[k]? with
    | none => .error
    | some m => .ok m
  | .const v, [] => execConst cfg nm v
  | .ident, [m] => .ok m
  | .pass, [m] => .ok m
  | .lquant, [m] => execQuantize cfg nm m
  | .ldequant, [m] => execDequantize cfg nm ty m
  | .ldequantI8 s z, [m] => execDequantizeI8 cfg nm ty s z m
  | .bmaxPool a, [m] => execBMaxPool cfg nm a m
  | .bconv a, [x, f, m, b, t] => execBConv cfg nm none a x f m b t
  | .bconvI8 a s z, [x, f, m, b, t] => execBConv cfg nm (some (s, z)) a x f m b t
  | .arg _, _ => .error
  | o, l => execPlain o ty l

/-- Execute nodes in order (the interpreter's `Invoke`). -/
def execNodes (cfg : Cfg) (ins : List MVal) : List Node → (Nat → Option MVal) → Outcome (Nat → Option MVal)
  | [], env => .ok env
  | n :: l, env =>
    match n.args.mapM env with
    | none => .error
    | some ms => (execOp cfg ins n.name n.ty n.op ms).bind fun m =>
      execNodes cfg ins l fun x => if x = n.name then some m else env x

/-- One inference. -/
def Graph.exec (cfg : Cfg) (g : Graph) (ins : List MVal) : Outcome (List MVal) :=
  (execNodes cfg ins g.nodes fun _ => none).bind fun env =>
    match g.outs.mapM env with
    | none => .error
    | some l => .ok l

end Verif.Ir
