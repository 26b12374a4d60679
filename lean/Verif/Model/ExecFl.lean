import Verif.Model.Exec
import Verif.Model.ZeroPaddingFl

/-!
Model of one inference of a converted graph in floating-point arithmetic. It is `Model/Exec.lean` except that

* a BConv2D with float or int8 result computes with rounding (`Model/FloatOutput.lean`, `Model/ZeroPaddingFl.lean`), also in
  `OneTimeSetup`, and the interleaving of the writes of ruy's threads is arbitrary;
* LceDequantize to int8 divides in float;
* operators that are not from the Larq Compute Engine compute an arbitrary function `pf` (TFLite's own kernels), about which
  `Spec/ExecFlRel.lean` assumes an accuracy.

Simplifications: those of `Model/Exec.lean` and `Model/FloatOutput.lean` (no overflow to infinity, no NaN, no negative zero).
-/

namespace Verif.Ir

/-- What determines the numbers: the arithmetic of the target, the rounding of a float to an integer, the order of the writes of
a node's matrix product, and TFLite's kernels for the operators that are not from the Larq Compute Engine. -/
structure FlCfg where
  R : FlEnv
  rnd : Rat → Int
  order : Nat → {α : Type} → List (Write α) → List (Write α)
  pf : Op → Option (List Nat) → List Val → Option Val

/-- The kernels with float result (bconv2d.cc:324-391, 418-518). The reference kernel does not use the corrections `OneTimeSetup`
computes. -/
def kernelFloatFl (F : FlCfg) (kt : KernelType) (nm : Nat) (fat : Bool) (blocks : List Blk) (p : BConv) (act : Act)
    (mult bias : List Rat) (inp filt : List Word) (out : List Rat) : Option (List Rat) :=
  match kt with
  | .reference => (zpSetupFl F.R p filt mult).bind fun _ => evalRefFloatFl F.R p act mult bias inp filt out
  | .bgemm => evalBGemmFloatFl F.R p fat blocks (F.order nm) act mult bias inp filt out
  | .indirect => evalIndFloatFl F.R p act mult bias inp filt out

/-- The kernels with int8 result (bconv2d.cc:324-391, 418-518); the corrections for zero padding are not used. -/
def kernelInt8Fl (F : FlCfg) (kt : KernelType) (nm : Nat) (fat : Bool) (blocks : List Blk) (p : BConv) (act : Act)
    (mult bias : List Rat) (scale zp : Rat) (inp filt : List Word) (out : List Int) : Option (List Int) :=
  (zpSetupFl F.R p filt mult).bind fun _ => match kt with
  | .reference => evalRefInt8Fl F.R F.rnd p act mult bias scale zp inp filt out
  | .bgemm => do
    let t ← otSetupFl F.R p act mult bias scale zp
    let trs ← bgemmTraces p fat blocks inp filt (t.runInt8Fl F.R F.rnd)
    applyWrites (F.order nm trs.flatten) out
  | .indirect => do
    let t ← otSetupFl F.R p act mult bias scale zp
    bconvIndirect p inp filt (t.runInt8Fl F.R F.rnd) out

/-- LceBconv2d: `Init`, `Prepare` and `Eval` (bconv2d.cc:83-302, 499-566) on a new `OpData`. With binary result there is no
floating-point arithmetic. -/
def execBConvFl (F : FlCfg) (cfg : Cfg) (nm : Nat) (q : Option (Rat × Int)) (a : BConvAttrs) (x f m b t : MVal) : Outcome MVal :=
  if a.outBits then execBConv cfg nm q a x f m b t else
  let node := bconvNode cfg.kt q a x f m b t
  let i : InputDesc := ⟨(x.desc.map (·.dims)).getD [], cfg.dyn nm, cfg.loc nm⟩
  (prepare node i).bind fun r =>
    let blocks := cfg.blocks nm 1 r.p.cout (r.p.batches * r.p.outH * r.p.outW)
    match q with
    | none => orUb (fun d => .plain (.f ⟨r.outDims, d⟩)) (kernelFloatFl F cfg.kt nm (cfg.fat nm) blocks r.p a.act m.floats b.floats
        x.bits f.bits (buf (cfg.bufR nm) r.outDims.prod))
    | some (s, z) => orUb (fun d => .plain (.q ⟨r.outDims, d⟩ s z)) (kernelInt8Fl F cfg.kt nm (cfg.fat nm) blocks r.p a.act
        m.floats b.floats s z x.bits f.bits ((buf (cfg.bufB nm) r.outDims.prod).map BitVec.toInt))

/-- LceDequantize to int8 (quantization.cc:136-144): `1.0 / scale` is rounded to float. -/
def execDequantizeI8Fl (F : FlCfg) (cfg : Cfg) (nm : Nat) (ty : Option (List Nat)) (s : Rat) (z : Int) : MVal → Outcome MVal
  | .words dims d =>
    match ty with
    | none => .error
    | some sh =>
      if dequantizePrepare dims sh then
        orUb (fun y => .plain (.q ⟨sh, y.map BitVec.toInt⟩ s z))
          (dequantizeEvalI8 F.R.fl sh s z d (buf (cfg.bufB nm) sh.prod))
      else .error
  | .plain _ => .error

/-- Operators that are not from the Larq Compute Engine: they do not take or make packed words. -/
def execPlainFl (F : FlCfg) (o : Op) (ty : Option (List Nat)) (l : List MVal) : Outcome MVal :=
  match l.mapM MVal.plain? with
  | none => .error
  | some vs =>
    match F.pf o ty vs with
    | none => .error
    | some (.s _) => .error
    | some v => .ok (.plain v)

/-- One node. -/
def execOpFl (F : FlCfg) (cfg : Cfg) (ins : List MVal) (nm : Nat) (ty : Option (List Nat)) : Op → List MVal → Outcome MVal
  | .arg k, [] => match ins[k]? with
    | none => .error
    | some m => .ok m
  | .const v, [] => execConst cfg nm v
  | .ident, [m] => .ok m
  | .pass, [m] => .ok m
  | .lquant, [m] => execQuantize cfg nm m
  | .ldequant, [m] => execDequantize cfg nm ty m
  | .ldequantI8 s z, [m] => execDequantizeI8Fl F cfg nm ty s z m
  | .bmaxPool a, [m] => execBMaxPool cfg nm a m
  | .bconv a, [x, f, m, b, t] => execBConvFl F cfg nm none a x f m b t
  | .bconvI8 a s z, [x, f, m, b, t] => execBConvFl F cfg nm (some (s, z)) a x f m b t
  | .arg _, _ => .error
  | o, l => execPlainFl F o ty l

/-- Execute nodes in order (the interpreter's `Invoke`). -/
def execNodesFl (F : FlCfg) (cfg : Cfg) (ins : List MVal) : List Node → (Nat → Option MVal) → Outcome (Nat → Option MVal)
  | [], env => .ok env
  | n :: l, env =>
    match n.args.mapM env with
    | none => .error
    | some ms => (execOpFl F cfg ins n.name n.ty n.op ms).bind fun m =>
      execNodesFl F cfg ins l fun x => if x = n.name then some m else env x

/-- One inference. -/
def Graph.execFl (F : FlCfg) (cfg : Cfg) (g : Graph) (ins : List MVal) : Outcome (List MVal) :=
  (execNodesFl F cfg ins g.nodes fun _ => none).bind fun env =>
    match g.outs.mapM env with
    | none => .error
    | some l => .ok l

end Verif.Ir
