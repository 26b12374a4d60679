import Verif.Model.Exec

/-!
Model of an interpreter over its lifetime: many inferences, resizes and failed resizes, with the state that BConv2D nodes
keep between calls (`OpData`, bconv2d.cc:44-72).

The interpreter (TFLite, a contract) calls `Prepare` of a node when the description of its input changes, and at any other
time it likes (`AllocateTensors` prepares all nodes; dynamic tensors make `Invoke` prepare again), and then `Eval`. The
state of a node is the `OpData` of `Model/OpState.lean`. The other operators of the Larq Compute Engine keep nothing from
one inference to the next that `Prepare` does not recompute from the current shapes, so they are executed as in
`Model/Exec.lean`.
-/

namespace Verif.Ir

/-- The last successful `Prepare` of a node: type and description of the input, shape of the output. -/
structure Last where
  type : TType
  desc : InputDesc
  outDims : List Nat

/-- What a BConv2D node keeps between calls. `last = none`: `Prepare` was never called, or the last call failed. -/
structure NodeState where
  op : OpData
  last : Option Last

/-- After `Init` (bconv2d.cc:83-132). -/
def NodeState.new : NodeState := ⟨OpData.new, none⟩

/-- `Prepare` (bconv2d.cc:134-302). When it fails, the parameters may have been partly overwritten (`left`); the flag
`one_time_setup_complete` is reset at the very end (line 297), so not in this case. -/
def callPrepare (nd : Verif.Node) (i : InputDesc) (left : BConv) (s : NodeState) : Outcome (List Nat) × NodeState :=
  match prepare nd i with
  | .ok r => (.ok r.outDims, ⟨{ s.op with p := r.p, setupDone := false }, some ⟨nd.inType, i, r.outDims⟩⟩)
  | .error => (.error, ⟨{ s.op with p := left }, none⟩)
  | .ub => (.ub, s)

/-- Must `Prepare` be called: the input is not the one of the last call. -/
def NodeState.stale (s : NodeState) (ty : TType) (i : InputDesc) : Bool :=
  match s.last with
  | none => true
  | some l => !(decide (l.type = ty) && decide (l.desc = i))

/-- LceBconv2d in an inference: `Prepare` if the input changed or `again` says so, then `Eval` (bconv2d.cc:134-302,
499-566) on the current state. -/
def stepBConv (cfg : Cfg) (again : Bool) (left : BConv) (nm : Nat) (q : Option (Rat × Int)) (a : BConvAttrs)
    (x f m b t : MVal) (s : NodeState) : Outcome MVal × NodeState :=
  let node := bconvNode cfg.kt q a x f m b t
  let i : InputDesc := ⟨(x.desc.map (·.dims)).getD [], cfg.dyn nm, cfg.loc nm⟩
  let pr : Outcome (List Nat) × NodeState :=
    if again || s.stale node.inType i then callPrepare node i left s else (.ok ((s.last.map (·.outDims)).getD []), s)
  match pr with
  | (.error, s) => (.error, s)
  | (.ub, s) => (.ub, s)
  | (.ok dims, s) =>
    let c : RunCfg := ⟨cfg.fat nm,
      cfg.blocks nm (if a.outBits then 32 else 1) s.op.p.cout (s.op.p.batches * s.op.p.outH * s.op.p.outW), roundHalfAway⟩
    let out : OutBuf := if a.outBits then .w (buf (cfg.bufW nm) dims.prod) else if q.isSome then
      .i ((buf (cfg.bufB nm) dims.prod).map BitVec.toInt) else .f (buf (cfg.bufR nm) dims.prod)
    match invoke node c ⟨s.op, i⟩ x.bits out with
    | some (k, .f d) => (.ok (.plain (.f ⟨dims, d⟩)), { s with op := k.op })
    | some (k, .w d) => (.ok (.words dims d), { s with op := k.op })
    | some (k, .i d) => (.ok (.plain (.q ⟨dims, d⟩ node.scale ((q.map (·.2)).getD 0))), { s with op := k.op })
    | none => (.ub, s)

/-- When `Prepare` is called without need, and what it leaves behind when it fails, for each node. -/
structure Calls where
  again : Nat → Bool
  left : Nat → BConv

/-- One node, on its state. -/
def stepOp (cfg : Cfg) (k : Calls) (ins : List MVal) (nm : Nat) (ty : Option (List Nat)) (o : Op) (l : List MVal)
    (s : NodeState) : Outcome MVal × NodeState :=
  match o, l with
  | .bconv a, [x, f, m, b, t] => stepBConv cfg (k.again nm) (k.left nm) nm none a x f m b t s
  | .bconvI8 a sc z, [x, f, m, b, t] => stepBConv cfg (k.again nm) (k.left nm) nm (some (sc, z)) a x f m b t s
  | o, l => (execOp cfg ins nm ty o l, s)

/-- The state of all nodes. -/
abbrev State := Nat → NodeState

/-- Execute nodes in order. An error ends the inference. -/
def stepNodes (cfg : Cfg) (k : Calls) (ins : List MVal) : List Node → (Nat → Option MVal) → State →
    Outcome (Nat → Option MVal) × State
  | [], env, st => (.ok env, st)
  | n :: l, env, st =>
    match n.args.mapM env with
    | none => (.error, st)
    | some ms =>
      match stepOp cfg k ins n.name n.ty n.op ms (st n.name) with
      | (.ok m, s) => stepNodes cfg k ins l (fun x => if x = n.name then some m else env x)
          (fun x => if x = n.name then s else st x)
      | (.error, s) => (.error, fun x => if x = n.name then s else st x)
      | (.ub, s) => (.ub, fun x => if x = n.name then s else st x)

/-- One inference on the current state. -/
def Graph.step (cfg : Cfg) (k : Calls) (g : Graph) (ins : List MVal) (st : State) : Outcome (List MVal) × State :=
  match stepNodes cfg k ins g.nodes (fun _ => none) st with
  | (.ok env, st) => (match g.outs.mapM env with
    | none => .error
    | some l => .ok l, st)
  | (.error, st) => (.error, st)
  | (.ub, st) => (.ub, st)

/-- A constant tensor of the model file. -/
def constTensor : Val → Option MVal := fun v =>
  match execConst ⟨.reference, fun _ => true, fun _ _ _ _ => [], fun _ => false, fun _ => 0, fun _ _ => 0#32, fun _ _ => 0,
    fun _ _ => 0#8, fun _ => 0#32⟩ 0 v with
  | .ok m => some m
  | _ => none

/-- The constant tensor with this name. -/
def Graph.constOf (g : Graph) (x : Nat) : Option MVal :=
  match lookIn g.nodes x with
  | some ⟨_, .const v, _, _⟩ => constTensor v
  | _ => none

/-- The BConv2D node with this name as `Prepare` sees it outside an inference: the constant tensors come from the model
file, the input is a tensor of packed words. -/
def Graph.convNode (kt : KernelType) (g : Graph) (nm : Nat) : Option Verif.Node :=
  let go (q : Option (Rat × Int)) (a : BConvAttrs) (f m b t : Nat) : Option Verif.Node := do
    some (bconvNode kt q a (.words [] []) (← g.constOf f) (← g.constOf m) (← g.constOf b) (← g.constOf t))
  match lookIn g.nodes nm with
  | some ⟨_, .bconv a, [_, f, m, b, t], _⟩ => go none a f m b t
  | some ⟨_, .bconvI8 a s z, [_, f, m, b, t], _⟩ => go (some (s, z)) a f m b t
  | _ => none

/-- What happens to an interpreter: a `Prepare` of some node for some input description (by a resize, successful or
not), or an inference. -/
inductive Event where
  | prepare (nm : Nat) (i : InputDesc) (left : BConv)
  | infer (cfg : Cfg) (k : Calls) (ins : List MVal)

/-- The lifetime of an interpreter; `none`: undefined behaviour was reached. Errors do not end it. -/
def Graph.session (kt : KernelType) (g : Graph) : List Event → State → Option State
  | [], st => some st
  | .prepare nm i left :: l, st =>
    match g.convNode kt nm with
    | none => g.session kt l st
    | some nd =>
      match callPrepare nd i left (st nm) with
      | (.ub, _) => none
      | (_, s) => g.session kt l fun x => if x = nm then s else st x
  | .infer cfg k ins :: l, st =>
    match g.step { cfg with kt := kt } k ins st with
    | (.ub, _) => none
    | (_, st') => g.session kt l st'

/-- A new interpreter. -/
def State.new : State := fun _ => NodeState.new

end Verif.Ir
