import Verif.Model.ExecFl
import Verif.Model.Session

/-!
Model of an interpreter over its lifetime, in floating-point arithmetic: `Model/Session.lean` with the arithmetic of
`Model/ExecFl.lean`. The state of a node is the same (`OpData`): the parameters `OneTimeSetup` keeps are floats, computed with
the rounding of the target; the setup is redone on the old vectors when `Prepare` was called.
-/

namespace Verif

/-- The loop of bconv2d.cc:370-380 on existing vectors, with rounding. -/
def otFuseFromFl (R : FlEnv) (p : BConv) (k : Int) (mult bias : List Rat) (scale zp : Rat) (m0 b0 : List Rat) :
    Option (List Rat × List Rat) :=
  forN p.cout (fun i (s : List Rat × List Rat) => do
    let postMul ← rd mult i
    let postBias ← rd bias i
    let m ← wr s.1 i (R.fl (R.dl (R.dl (-1 * postMul) / scale)))
    let b ← wr s.2 i (R.fl (R.dl (R.dl (R.dl (postBias + R.dl ((k : Rat) * postMul)) / scale) + zp)))
    some (m, b)) (m0, b0)

/-- `OneTimeSetup` (bconv2d.cc:324-391) on the current state, with rounding. -/
def oneTimeSetupFl (R : FlEnv) (n : Node) (act : Act) (st : OpData) : Option OpData := do
  let padBuf ← (if st.p.zeroPadding then
      zpCacheWith (ZpOps.fl R) st.p n.filtData n.multData (vresize st.padBuf (zpCacheSize st.p))
    else some st.padBuf)
  let k ← chk32 ((st.p.filtH * st.p.filtW * (st.p.cin / st.p.groups) : Nat) : Int)
  let scale := if n.outType = .int8 then n.scale else 1
  let zp := if n.outType = .int8 then n.zp else 0
  let (m, b) ← otFuseFromFl R st.p k n.multData n.biasData scale zp
    (vresize st.ot.multiplier (st.p.cout + 4)) (vresize st.ot.bias (st.p.cout + 4))
  let (lo, hi) := activationRange act
  let lo := max lo (-1 * k)
  let hi := min hi k
  let cmin ← chk32 (-1 * hi + k)
  let cmax ← chk32 (-1 * lo + k)
  some { st with padBuf := padBuf, ot := ⟨cmin, cmax, m, b⟩, setupDone := true }

/-- `EvalRef` (bconv2d.cc:499-518) after setup, float or int8 result. -/
def evalRefFl (R : FlEnv) (n : Node) (c : RunCfg) (st : OpData) (inp : List Word) : OutBuf → Option OutBuf
  | .f o => (bconvReference st.p inp n.filtData (st.ot.runFloatFl R) o).map .f
  | .i o => (bconvReference st.p inp n.filtData (st.ot.runInt8Fl R c.rnd) o).map .i
  | .w _ => none

/-- `EvalOptBGEMM` (bconv2d.cc:418-462) after setup. -/
def evalBGemmFl (R : FlEnv) (order : {α : Type} → List (Write α) → List (Write α)) (n : Node) (c : RunCfg) (st : OpData)
    (inp : List Word) : OutBuf → Option OutBuf
  | .f o => do
    let trs ← bgemmTraces st.p c.fat c.blocks inp n.filtData (st.ot.runFloatFl R)
    let o ← applyWrites (order trs.flatten) o
    (zpFinishFl R st.p st.padBuf o).map .f
  | .i o => do
    let trs ← bgemmTraces st.p c.fat c.blocks inp n.filtData (st.ot.runInt8Fl R c.rnd)
    (applyWrites (order trs.flatten) o).map .i
  | .w _ => none

/-- `EvalOptIndirectBGEMM` (bconv2d.cc:464-497) after setup: the kernel, with its copy of the output transform, is only created
when there is none, and reads the buffer the input had at that time. -/
def evalIndirectFl (R : FlEnv) (n : Node) (c : RunCfg) (st : OpData) (loc : Nat) (inp : List Word) (out : OutBuf) :
    Option (OpData × OutBuf) := do
  let sk ← (match st.kernel with
    | some sk => some sk
    | none => (mkKernel st.p n.filtData).map (fun K => ⟨K, loc, st.ot⟩))
  let mem := if sk.loc = loc then inp else []
  let o ← (match out with
    | .f o => do
      let o ← iRun sk.K mem (sk.ot.runFloatFl R) o
      (zpFinishFl R st.p st.padBuf o).map OutBuf.f
    | .i o => (iRun sk.K mem (sk.ot.runInt8Fl R c.rnd) o).map .i
    | .w _ => none)
  some ({ st with kernel := some sk }, o)

/-- `Eval` (bconv2d.cc:551-566) with float or int8 result. -/
def invokeFl (R : FlEnv) (order : {α : Type} → List (Write α) → List (Write α)) (n : Node) (c : RunCfg) (m : Machine)
    (inp : List Word) (out : OutBuf) : Option (Machine × OutBuf) := do
  let a ← n.attrs
  let st ← (if m.op.setupDone then some m.op else oneTimeSetupFl R n a.act m.op)
  match n.kt with
  | .reference => (evalRefFl R n c st inp out).map (fun o => ({ m with op := st }, o))
  | .bgemm => (evalBGemmFl R order n c st inp out).map (fun o => ({ m with op := st }, o))
  | .indirect => (evalIndirectFl R n c st m.cur.loc inp out).map (fun (st, o) => ({ m with op := st }, o))

end Verif

namespace Verif.Ir

/-- LceBconv2d in an inference (`stepBConv`), with rounding. With binary result there is no floating-point arithmetic (the padding
corrections, which `OneTimeSetup` computes in any case, are not used). -/
def stepBConvFl (F : FlCfg) (cfg : Cfg) (again : Bool) (left : BConv) (nm : Nat) (q : Option (Rat × Int)) (a : BConvAttrs)
    (x f m b t : MVal) (s : NodeState) : Outcome MVal × NodeState :=
  if a.outBits then stepBConv cfg again left nm q a x f m b t s else
  let node := bconvNode cfg.kt q a x f m b t
  let i : InputDesc := ⟨(x.desc.map (·.dims)).getD [], cfg.dyn nm, cfg.loc nm⟩
  let pr : Outcome (List Nat) × NodeState :=
    if again || s.stale node.inType i then callPrepare node i left s else (.ok ((s.last.map (·.outDims)).getD []), s)
  match pr with
  | (.error, s) => (.error, s)
  | (.ub, s) => (.ub, s)
  | (.ok dims, s) =>
    let c : RunCfg := ⟨cfg.fat nm, cfg.blocks nm 1 s.op.p.cout (s.op.p.batches * s.op.p.outH * s.op.p.outW), F.rnd⟩
    let out : OutBuf := if q.isSome then .i ((buf (cfg.bufB nm) dims.prod).map BitVec.toInt)
      else .f (buf (cfg.bufR nm) dims.prod)
    match invokeFl F.R (F.order nm) node c ⟨s.op, i⟩ x.bits out with
    | some (k, .f d) => (.ok (.plain (.f ⟨dims, d⟩)), { s with op := k.op })
    | some (k, .w d) => (.ok (.words dims d), { s with op := k.op })
    | some (k, .i d) => (.ok (.plain (.q ⟨dims, d⟩ node.scale ((q.map (·.2)).getD 0))), { s with op := k.op })
    | none => (.ub, s)

/-- One node, on its state. -/
def stepOpFl (F : FlCfg) (cfg : Cfg) (k : Calls) (ins : List MVal) (nm : Nat) (ty : Option (List Nat)) (o : Op) (l : List MVal)
    (s : NodeState) : Outcome MVal × NodeState :=
  match o, l with
  | .bconv a, [x, f, m, b, t] => stepBConvFl F cfg (k.again nm) (k.left nm) nm none a x f m b t s
  | .bconvI8 a sc z, [x, f, m, b, t] => stepBConvFl F cfg (k.again nm) (k.left nm) nm (some (sc, z)) a x f m b t s
  | o, l => (execOpFl F cfg ins nm ty o l, s)

/-- Execute nodes in order. An error ends the inference. -/
def stepNodesFl (F : FlCfg) (cfg : Cfg) (k : Calls) (ins : List MVal) : List Node → (Nat → Option MVal) → State →
    Outcome (Nat → Option MVal) × State
  | [], env, st => (.ok env, st)
  | n :: l, env, st =>
    match n.args.mapM env with
    | none => (.error, st)
    | some ms =>
      match stepOpFl F cfg k ins n.name n.ty n.op ms (st n.name) with
      | (.ok m, s) => stepNodesFl F cfg k ins l (fun x => if x = n.name then some m else env x)
          (fun x => if x = n.name then s else st x)
      | (.error, s) => (.error, fun x => if x = n.name then s else st x)
      | (.ub, s) => (.ub, fun x => if x = n.name then s else st x)

/-- One inference on the current state. -/
def Graph.stepFl (F : FlCfg) (cfg : Cfg) (k : Calls) (g : Graph) (ins : List MVal) (st : State) : Outcome (List MVal) × State :=
  match stepNodesFl F cfg k ins g.nodes (fun _ => none) st with
  | (.ok env, st) => (match g.outs.mapM env with
    | none => .error
    | some l => .ok l, st)
  | (.error, st) => (.error, st)
  | (.ub, st) => (.ub, st)

/-- What happens to an interpreter: a `Prepare` of some node for some input description, or an inference, in which the order of
the writes, the rounding to integers and TFLite's own kernels are as in `F`. -/
inductive EventFl where
  | prepare (nm : Nat) (i : InputDesc) (left : BConv)
  | infer (F : FlCfg) (cfg : Cfg) (k : Calls) (ins : List MVal)

/-- The lifetime of an interpreter on a target with arithmetic `R`; `none`: undefined behaviour was reached. -/
def Graph.sessionFl (R : FlEnv) (kt : KernelType) (g : Graph) : List EventFl → State → Option State
  | [], st => some st
  | .prepare nm i left :: l, st =>
    match g.convNode kt nm with
    | none => g.sessionFl R kt l st
    | some nd =>
      match callPrepare nd i left (st nm) with
      | (.ub, _) => none
      | (_, s) => g.sessionFl R kt l fun x => if x = nm then s else st x
  | .infer F cfg k ins :: l, st =>
    match g.stepFl { F with R := R } { cfg with kt := kt } k ins st with
    | (.ub, _) => none
    | (_, st') => g.sessionFl R kt l st'

end Verif.Ir
