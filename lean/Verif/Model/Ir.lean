import Verif.Spec.IrSem
import Verif.Model.Thresholds
import Verif.Model.FuseAct
import Verif.Model.BinaryFilter
import Verif.Model.Padding

/-!
Model of the converter's graph rewriting: the mechanics of `applyPatternsAndFoldGreedily` (MLIR, not in `/repo`;
called from `OptimizeLCE::runOnOperation`, `/repo/larq_compute_engine/mlir/transforms/optimize.cc:258-270`, and from the
other passes) and the patterns of

* `/repo/larq_compute_engine/mlir/transforms/optimize_patterns_common.td`,
* `/repo/larq_compute_engine/mlir/transforms/optimize_patterns_target_arm.td`,
* `/repo/larq_compute_engine/mlir/transforms/bitpack_activations_patterns.td`,
* `/repo/larq_compute_engine/mlir/transforms/bitpack_weights_patterns.td`,
* `/repo/larq_compute_engine/mlir/transforms/op_removal_patterns.td`,
* `/repo/larq_compute_engine/mlir/transforms/prepare_patterns_common.td` and `prepare_patterns_target_arm.td`,
* `/repo/larq_compute_engine/mlir/transforms/fuse_padding.td`,
* `/repo/larq_compute_engine/mlir/transforms/quantize_patterns.td`.

Which node the driver visits next, which of the matching patterns it takes, when it folds constants, and when it erases
unused operations is left open: `Step` allows every choice.

Simplifications: one block without regions, operators without side effects and with one result; constants in exact
arithmetic (float32 in the code); a binary tensor is its bits (see `Spec/IrSem.lean`); locations and names of
operations are left out. Not modelled: `ConvertTFDilatedConvOp` of TensorFlow. `BitpackWeights` runs before the
quantization pass, so its pattern only matches convolutions whose result is not int8.
-/

namespace Verif.Ir

/-! ### Replacing a node -/

/-- The result of a pattern: a value that exists already, or a new operation. -/
inductive Rhs where
  | var (x : Nat)
  | op (o : Op) (ty : Option (List Nat)) (args : List Rhs)

mutual
/-- Create the operations of a result, operands first, with the new names `k`, `k + 1`, ...: the name of the result
and the new nodes (the code generated by mlir-tblgen for the right-hand side of a `Pat`). -/
def Rhs.emit : Rhs → Nat → Nat × List Node
  | .var x, _ => (x, [])
  | .op o ty args, k =>
    let e := Rhs.emitL args k
    (k + e.2.length, e.2 ++ [⟨k + e.2.length, o, e.1, ty⟩])

/-- `emit` for a list of operands. -/
def Rhs.emitL : List Rhs → Nat → List Nat × List Node
  | [], _ => ([], [])
  | a :: as, k =>
    let e := Rhs.emit a k
    let e' := Rhs.emitL as (k + e.2.length)
    (e.1 :: e'.1, e.2 ++ e'.2)
end

/-- Replace a use of `v` by `r`. -/
def substName (v r x : Nat) : Nat := if x = v then r else x

/-- Replace the uses of `v` by `r` in a node. -/
def Node.subst (v r : Nat) (n : Node) : Node := { n with args := n.args.map (substName v r) }

/-- How often `x` is used as an operand or returned (`hasOneUse` is `uses = 1`). -/
def Graph.uses (g : Graph) (x : Nat) : Nat := (g.nodes.map fun n => n.args.count x).sum + g.outs.count x

/-- A number larger than every name in the graph. -/
def Graph.bound (g : Graph) : Nat :=
  ((g.nodes.flatMap fun n => n.name :: n.args) ++ g.outs).foldr max 0 + 1

/-- `rewriter.replaceOp`: create the new operations just before the node between `pre` and `post` whose result is `v`,
replace all uses of `v`, and erase the node. -/
def Graph.replace (g : Graph) (pre post : List Node) (v : Nat) (t : Rhs) : Graph :=
  let e := t.emit g.bound
  ⟨pre ++ e.2 ++ post.map (Node.subst v e.1), g.outs.map (substName v e.1)⟩

/-! ### Patterns -/

/-- What a pattern can see besides the root: the definitions of values, and their numbers of uses. -/
structure Ctx where
  look : Nat → Option Node
  uses : Nat → Nat

/-- The node among `pre` that defines `x`. -/
def lookIn (pre : List Node) (x : Nat) : Option Node := pre.find? fun n => n.name == x

/-- A pattern. `exc`: matches on which the pattern is known to change the function; `excAt`: matches on which it is known
to change the result for some arguments (the environment holds the values for these arguments). Neither is part of the
code. -/
structure Rule where
  apply : Ctx → Node → Option Rhs
  exc : Ctx → Node → Bool
  excAt : Env → Ctx → Node → Bool := fun _ _ _ => false

/-- The constant a value is defined by (`Arith_ConstantOp`; also `TFL_NoValueOp`, as the constant `Val.none`). -/
def Ctx.constOf (c : Ctx) (x : Nat) : Option Val :=
  match c.look x with
  | some ⟨_, .const v, [], _⟩ => some v
  | _ => Option.none

/-- The static shape of a value. -/
def Ctx.shapeOf (c : Ctx) (x : Nat) : Option (List Nat) := (c.look x).bind (·.ty)

/-- A float constant as a new operation. -/
def Rhs.constF (t : Tens) : Rhs := .op (.const (.f t)) Option.none []

/-- `Quantize(GreaterEqual(x, 0))` becomes `Quantize(x)` (optimize_patterns_common.td:16-22). The exception: the zero
constant may enlarge the shape (it does not if it is a scalar, or if `x` has the shape of the comparison). -/
def ruleGeZero : Rule where
  apply c n :=
    match n with
    | ⟨_, .lquant, [g], ty⟩ =>
      match c.look g with
      | some ⟨_, .ge, [x, z], _⟩ =>
        match c.constOf z with
        | some (.f t) => if isConstantValue t.data 0 = true ∧ c.uses g = 1 then some (.op .lquant ty [.var x]) else Option.none
        | _ => Option.none
      | _ => Option.none
    | _ => Option.none
  exc c n :=
    match n with
    | ⟨_, .lquant, [g], _⟩ =>
      match c.look g with
      | some ⟨_, .ge, [x, z], gty⟩ =>
        !(c.constOf z).any (fun v => v.shape == []) && !((c.shapeOf x).isSome && c.shapeOf x == gty)
      | _ => false
    | _ => false

/-- `Quantize(GreaterEqual(x, t))` becomes `Quantize(Sub(x, t))` (optimize_patterns_common.td:24-30). -/
def ruleGe : Rule where
  apply c n :=
    match n with
    | ⟨_, .lquant, [g], ty⟩ =>
      match c.look g with
      | some ⟨_, .ge, [x, t], _⟩ =>
        if c.uses g = 1 then some (.op .lquant ty [.op (.bin .sub .none) Option.none [.var x, .var t]]) else Option.none
      | _ => Option.none
    | _ => Option.none
  exc _ _ := false

/-- `Quantize(LessEqual(l, r))` becomes `Quantize(GreaterEqual(r, l))` (optimize_patterns_common.td:32-37). -/
def ruleLe : Rule where
  apply c n :=
    match n with
    | ⟨_, .lquant, [g], ty⟩ =>
      match c.look g with
      | some ⟨_, .le, [l, r], _⟩ =>
        if c.uses g = 1 then some (.op .lquant ty [.op .ge Option.none [.var r, .var l]]) else Option.none
      | _ => Option.none
    | _ => Option.none
  exc _ _ := false

/-- The constant `v` has one value per channel or a single value, for a bias of shape `s`. -/
def perChannelShape (v s : List Nat) : Bool := v == [] || v == [1] || v == s

/-- `FuseAddOrSubWithBConv2D` (optimize_patterns_common.td:40-74): `sub` chooses TFL_SubOp. The exception: the constant
is neither a single value nor one-dimensional with one value per channel (C29). -/
def ruleFuseAddSub (sub : Bool) : Rule where
  apply c n :=
    match n with
    | ⟨_, .bin op .none, [y, v], ty⟩ =>
      match c.look y with
      | some ⟨_, .bconv a, [x, f, m, b, t], _⟩ =>
        match c.constOf b, c.constOf v with
        | some (.f bt), some (.f vt) =>
          if op = (if sub then .sub else .add) ∧ c.uses y = 1 then
            some (.op (.bconv a) ty [.var x, .var f, .var m,
              .op (.bin op .none) Option.none [.constF bt, .constF vt], .var t])
          else Option.none
        | _, _ => Option.none
      | _ => Option.none
    | _ => Option.none
  exc c n :=
    match n with
    | ⟨_, .bin _ _, [y, v], _⟩ =>
      match c.look y with
      | some ⟨_, .bconv _, [_, _, _, b, _], _⟩ =>
        match c.constOf b, c.constOf v with
        | some (.f bt), some (.f vt) => !perChannelShape vt.shape bt.shape
        | _, _ => false
      | _ => false
    | _ => false

/-- `FuseMulOrDivWithBConv2D` (optimize_patterns_common.td:76-111): `div` chooses TFL_DivOp. Same exception. -/
def ruleFuseMulDiv (div : Bool) : Rule where
  apply c n :=
    match n with
    | ⟨_, .bin op .none, [y, v], ty⟩ =>
      match c.look y with
      | some ⟨_, .bconv a, [x, f, m, b, t], _⟩ =>
        match c.constOf m, c.constOf b, c.constOf v with
        | some (.f mt), some (.f bt), some (.f vt) =>
          if op = (if div then .div else .mul) ∧ c.uses y = 1 then
            some (.op (.bconv a) ty [.var x, .var f,
              .op (.bin op .none) Option.none [.constF mt, .constF vt],
              .op (.bin op .none) Option.none [.constF bt, .constF vt], .var t])
          else Option.none
        | _, _, _ => Option.none
      | _ => Option.none
    | _ => Option.none
  exc c n :=
    match n with
    | ⟨_, .bin _ _, [y, v], _⟩ =>
      match c.look y with
      | some ⟨_, .bconv _, [_, _, _, b, _], _⟩ =>
        match c.constOf b, c.constOf v with
        | some (.f bt), some (.f vt) => !perChannelShape vt.shape bt.shape
        | _, _ => false
      | _ => false
    | _ => false

/-- `FuseActFnIntoConvOpPat` (optimize_patterns_common.td:115-183) for the activation `ac`, both patterns. -/
def ruleFuseAct (ac : Act) : Rule where
  apply c n :=
    match n with
    | ⟨_, .act ac', [y], ty⟩ =>
      match c.look y with
      | some ⟨_, .bconv a, [x, f, m, b, t], _⟩ =>
        match c.constOf m, c.constOf b with
        | some (.f mt), some (.f bt) =>
          if ac' = ac ∧ isConstantValue mt.data 1 = true ∧ isConstantValue bt.data 0 = true ∧ a.act = .none ∧
              (a.padding = .valid ∨ (a.padding = .same ∧ a.padValue = 1)) ∧ c.uses y = 1 then
            some (.op (.bconv { a with act := ac }) ty [.var x, .var f, .constF mt, .constF bt, .var t])
          else Option.none
        | _, _ => Option.none
      | _ => Option.none
    | _ => Option.none
  exc _ _ := false

/-- The binary max pool pattern (optimize_patterns_target_arm.td:4-22). The exception: a fused activation after which
no value is negative (C24). -/
def ruleMaxPool : Rule where
  apply c n :=
    match n with
    | ⟨_, .lquant, [y], ty⟩ =>
      match c.look y with
      | some ⟨_, .maxPool pa _, [x], _⟩ =>
        if c.uses y = 1 then some (.op (.bmaxPool pa) ty [.op .lquant Option.none [.var x]]) else Option.none
      | _ => Option.none
    | _ => Option.none
  exc c n :=
    match n with
    | ⟨_, .lquant, [y], _⟩ =>
      match c.look y with
      | some ⟨_, .maxPool _ act, [_], _⟩ => decide (act = .relu ∨ act = .relu6)
      | _ => false
    | _ => false

/-- `WriteBitpackedActivationsPat` (bitpack_activations_patterns.td:20-60), with `GetSignsOfVectorAndBroadcast4D` and
`GetBitpackedOutputThresholds` (optimize.cc:187-247): VALID with `pad_values = 0`, or (`same`) SAME with
`pad_values = 1`. -/
def ruleBitpackActivations (same : Bool) : Rule where
  apply c n :=
    match n with
    | ⟨_, .lquant, [y], ty⟩ =>
      match c.look y with
      | some ⟨_, .bconv a, [x, f, m, b, t], _⟩ =>
        match c.constOf f, c.constOf m, c.constOf b, c.constOf t with
        | some (.f ft), some (.f mt), some (.f bt), some .none =>
          if a.padding = (if same then .same else .valid) ∧ a.padValue = (if same then 1 else 0) ∧ c.uses y = 1 then
            some (.op (.bconv { a with outBits := true }) ty [.var x,
              .op (.bin .mul .none) Option.none [.constF ft, .constF ⟨[mt.shape.getD 0 0, 1, 1, 1], signsOf mt.data⟩],
              .op (.const .none) Option.none [], .op (.const .none) Option.none [],
              .op (.const (.i ⟨[min mt.data.length bt.data.length],
                bitpackedThresholds id (ft.shape.getD 1 0) (ft.shape.getD 2 0) (ft.shape.getD 3 0) a.act mt.data bt.data⟩))
                Option.none []])
          else Option.none
        | _, _, _, _ => Option.none
      | _ => Option.none
    | _ => Option.none
  exc _ _ := false

/-- The patterns of the optimization pass for a target (optimize.cc:258-270; optimize_patterns_common.td for every
target, optimize_patterns_target_arm.td for Arm, and bitpack_activations_patterns.td). -/
def optimizeRules (arm : Bool) : List Rule :=
  [ruleGeZero, ruleGe, ruleLe, ruleFuseAddSub false, ruleFuseAddSub true, ruleFuseMulDiv true, ruleFuseMulDiv false,
    ruleFuseAct .relu, ruleFuseAct .reluN1To1, ruleFuseAct .relu6, ruleBitpackActivations false,
    ruleBitpackActivations true] ++ if arm then [ruleMaxPool] else []

/-- Bitpacking the constant filter of a BConv2D (bitpack_weights_patterns.td:13-42; `IsConv2DFilter`,
bitpack_weights.cc:24-29). -/
def ruleBitpackWeights : Rule where
  apply c n :=
    match n with
    | ⟨_, .bconv a, [x, f, m, b, t], ty⟩ =>
      match c.constOf f with
      | some (.f ft) =>
        if ft.shape.length = 4 then
          some (.op (.bconv a) ty [.var x, .op (.const (.s (ft.map fun v => decide (v < 0)))) Option.none [], .var m,
            .var b, .var t])
        else Option.none
      | _ => Option.none
    | _ => Option.none
  exc _ _ := false

/-- CheckNumerics, Snapshot, StopGradient and PlaceholderWithDefault become Identity
(op_removal_patterns.td:15-18). -/
def rulePass : Rule where
  apply _ n :=
    match n with
    | ⟨_, .pass, [x], ty⟩ => some (.op .ident ty [.var x])
    | _ => Option.none
  exc _ _ := false

/-- Identity is removed (op_removal_patterns.td:23-24). -/
def ruleIdentity : Rule where
  apply _ n :=
    match n with
    | ⟨_, .ident, [x], _⟩ => some (.var x)
    | _ => Option.none
  exc _ _ := false

/-- Constant folding: an operator with constant operands becomes the constant of its result (the folders of the
operators: `QuantizeOp::fold` and `DequantizeOp::fold`, mlir/ir/lce_ops.cc:63-85, and those of TensorFlow and TFLite;
which of them fold is left open). -/
def ruleFold : Rule where
  apply c n :=
    match n.op with
    | .arg _ => Option.none
    | .const _ => Option.none
    | o => ((n.args.mapM c.constOf).bind (o.run [] n.ty)).map fun v => .op (.const v) n.ty []
  exc _ _ := false

/-! ### The patterns of the preparation pass -/

/-- Every weight of an output channel has the magnitude of the channel's first weight. -/
def sameMagnitudes (fh fw ci co : Nat) (f : List Rat) : Bool :=
  (List.range (fh * fw * ci * co)).all fun k => |f.getD k 0| == |f.getD (hwio fw ci co 0 0 0 (k % co)) 0|

/-- The BConv2D that the two patterns for convolutions build (prepare_patterns_common.td:105-125 and 145-162). -/
def prepared (a : ConvAttrs) (pv cin : Nat) (ty : Option (List Nat)) (x : Nat) (fh fw ci co : Nat) (f : List Rat) : Rhs :=
  let scale : Tens := ⟨[co], scaleVector fw ci co f⟩
  .op (.bconv { a with padValue := pv, cin := cin, act := .none, outBits := false }) ty [.var x,
    .op .transpose Option.none [.op (.bin .div .none) Option.none [.constF ⟨[fh, fw, ci, co], f⟩, .constF scale]],
    .constF scale, .constF ⟨[co], List.replicate co 0⟩, .op (.const .none) Option.none []]

/-- `PrepareBConvPadValue0Pat` (prepare_patterns_common.td:90-127, prepare_patterns_target_arm.td:4): VALID padding,
or (`same`, only for Arm) SAME. The static shape of the input must be known (`HasValidFilterShape`,
`GetNumChannels`). The exception: weights of one output channel with different magnitudes (C31). -/
def rulePrepare (same : Bool) : Rule where
  apply c n :=
    match n with
    | ⟨_, .conv2d a, [y, f], ty⟩ =>
      match c.look y, c.constOf f with
      | some ⟨_, .ldequant, [x], some [_, _, _, cin]⟩, some (.f ⟨[fh, fw, ci, co], fd⟩) =>
        if a.padding = (if same then .same else .valid) ∧ isBinaryFilter fh fw ci co fd = true ∧
            hasValidFilterShape cin ci = true then
          some (prepared a 0 cin ty x fh fw ci co fd)
        else Option.none
      | _, _ => Option.none
    | _ => Option.none
  exc c n :=
    match n with
    | ⟨_, .conv2d _, [_, f], _⟩ =>
      match c.constOf f with
      | some (.f ⟨[fh, fw, ci, co], fd⟩) =>
        !sameMagnitudes fh fw ci co fd || !decide (2 * (fh * fw * ci) < 2147483648)
      | _ => false
    | _ => false

/-- The numbers of a `[4, 2]` padding tensor. -/
def padsOf (t : TensOf Int) : Option Pads :=
  match t.shape, t.data with
  | [4, 2], [n0, n1, h0, h1, w0, w1, c0, c1] =>
    if 0 ≤ n0 ∧ 0 ≤ n1 ∧ 0 ≤ h0 ∧ 0 ≤ h1 ∧ 0 ≤ w0 ∧ 0 ≤ w1 ∧ 0 ≤ c0 ∧ 0 ≤ c1 then
      some ⟨(n0.toNat, n1.toNat), (h0.toNat, h1.toNat), (w0.toNat, w1.toNat), (c0.toNat, c1.toNat)⟩
    else Option.none
  | _, _ => Option.none

/-- A padding with ones followed by a VALID convolution becomes SAME with ones (prepare_patterns_common.td:129-168).
The exceptions: those of `rulePrepare`, and strides above 1 for which the padding is not the one SAME uses (C28). -/
def rulePadConv : Rule where
  apply c n :=
    match n with
    | ⟨_, .conv2d a, [z, f], some oshape⟩ =>
      match c.look z, c.constOf f with
      | some ⟨_, .pad, [y, pd, pv], _⟩, some (.f ⟨[fh, fw, ci, co], fd⟩) =>
        match c.look y, c.constOf pd, c.constOf pv with
        | some ⟨_, .ldequant, [x], some [_, _, _, cin]⟩, some (.i pt), some (.f vt) =>
          match padsOf pt, c.shapeOf x with
          | some pads, some ishape =>
            if a.padding = .valid ∧ isBinaryFilter fh fw ci co fd = true ∧ vt.data = [1] ∧
                isSamePadding pads (ishape.map fun d => (d : Int)) (oshape.map fun d => (d : Int)) a.strideH a.strideW
                  = true ∧
                hasValidFilterShape cin ci = true then
              some (prepared { a with padding := .same } 1 cin (some oshape) x fh fw ci co fd)
            else Option.none
          | _, _ => Option.none
        | _, _, _ => Option.none
      | _, _ => Option.none
    | _ => Option.none
  exc c n :=
    match n with
    | ⟨_, .conv2d a, [z, f], some [_, oh, ow, _]⟩ =>
      match c.look z, c.constOf f with
      | some ⟨_, .pad, [y, pd, _], _⟩, some (.f ⟨[fh, fw, ci, co], fd⟩) =>
        match c.look y, (c.constOf pd) with
        | some ⟨_, .ldequant, [x], _⟩, some (.i pt) =>
          match padsOf pt, c.shapeOf x with
          | some pads, some [_, h, w, _] =>
            !(sameMagnitudes fh fw ci co fd && decide (2 * (fh * fw * ci) < 2147483648 ∧
              (a.strideH = 1 ∨ pads.h.1 = computePadding a.strideH a.dilH h fh oh) ∧
              (a.strideW = 1 ∨ pads.w.1 = computePadding a.strideW a.dilW w fw ow) ∧
              h + a.strideH < 2147483648 ∧ w + a.strideW < 2147483648 ∧ oh < 2147483648 ∧ ow < 2147483648))
          | _, _ => false
        | _, _ => false
      | _, _ => false
    | _ => false

/-- `Sign(AddV2(Sign(x), c))` and `Sign(AddV2(c, Sign(x)))` become `LceDequantize(LceQuantize(x))`
(prepare_patterns_common.td:61-66). The exceptions: `c` is not a constant with all elements strictly between 0 and 1
(C32), or may enlarge the shape. -/
def ruleSign (swap : Bool) : Rule where
  apply c n :=
    match n with
    | ⟨_, .sign, [s], ty⟩ =>
      match c.look s with
      | some ⟨_, .bin .add .none, [u, v], _⟩ =>
        match c.look (if swap then v else u) with
        | some ⟨_, .sign, [x], _⟩ => some (.op .ldequant ty [.op .lquant Option.none [.var x]])
        | _ => Option.none
      | _ => Option.none
    | _ => Option.none
  exc c n :=
    match n with
    | ⟨_, .sign, [s], ty⟩ =>
      match c.look s with
      | some ⟨_, .bin .add .none, [u, v], _⟩ =>
        match c.look (if swap then v else u) with
        | some ⟨_, .sign, [x], _⟩ =>
          !((c.shapeOf x).isSome && c.shapeOf x == ty && c.shapeOf x != some [] &&
            (c.constOf (if swap then u else v)).any fun k =>
              match k with
              | .f t => t.data.all fun e => decide (0 < e ∧ e < 1)
              | _ => false)
        | _ => false
      | _ => false
    | _ => false

/-- `SelectV2(cond, 1, -1)` becomes `LceDequantize(LceQuantize(BroadcastTo(cond, shape)))`, and with `neg` the pattern
for `SelectV2(cond, -1, 1)` (prepare_patterns_common.td:27-58). The shape is read from the result of the select, which
must have a static shape for the new operations to be valid. -/
def ruleSelect (neg : Bool) : Rule where
  apply c n :=
    match n with
    | ⟨_, .select, [k, x, y], some shape⟩ =>
      match c.constOf x, c.constOf y with
      | some (.f xt), some (.f yt) =>
        if isConstantValue xt.data (if neg then -1 else 1) = true ∧ isConstantValue yt.data (if neg then 1 else -1) = true then
          some (.op .ldequant (some shape) [.op .lquant Option.none [.op (.broadcastTo shape) Option.none
            [if neg then .op .not Option.none [.var k] else .var k]]])
        else Option.none
      | _, _ => Option.none
    | _ => Option.none
  exc _ n := n.ty == some []

/-- The patterns of the preparation pass (prepare_patterns_common.td, prepare_patterns_target_arm.td,
op_removal_patterns.td; prepare_tf.cc:164-181). -/
def prepareRules (arm : Bool) : List Rule :=
  [ruleSelect false, ruleSelect true, ruleSign false, ruleSign true, rulePrepare false, rulePadConv, rulePass,
    ruleIdentity] ++ if arm then [rulePrepare true] else []

/-- A BroadcastTo that does not change a static shape is removed (`BroadcastToOp::fold` of TensorFlow, not in `/repo`;
it applies to the operations made by `ruleSelect`). -/
def ruleBroadcast : Rule where
  apply c n :=
    match n with
    | ⟨_, .broadcastTo shape, [x], _⟩ => if c.shapeOf x = some shape then some (.var x) else Option.none
    | _ => Option.none
  exc _ _ := false

/-! ### The patterns of the padding pass -/

/-- No padding value (Pad), or the single constant 0 (`ConstFloatValueIs`, fuse_padding.td:8-12). -/
def zeroPad : Bool → List (Option Val) → Bool
  | false, [] => true
  | true, [some (.f t)] => t.data == [0]
  | _, _ => false

/-- Padding with zeros before a VALID convolution becomes SAME (fuse_padding.td:22-136): `v2` for PadV2 with the constant
0, `dw` for depthwise convolutions. The exception: strides above 1 for which the padding is not the one SAME uses
(C28). -/
def ruleFusePad (v2 dw : Bool) : Rule where
  apply c n :=
    match n with
    | ⟨_, .tflConv a act dw', [z, f, b], some oshape⟩ =>
      match c.look z with
      | some ⟨_, .pad, y :: pd :: rest, _⟩ =>
        match c.constOf pd with
        | some (.i pt) =>
          match padsOf pt, c.shapeOf y with
          | some pads, some ishape =>
            if dw' = dw ∧ a.padding = .valid ∧ zeroPad v2 (rest.map c.constOf) = true ∧ c.uses z = 1 ∧
                isSamePadding pads (ishape.map fun d => (d : Int)) (oshape.map fun d => (d : Int)) a.strideH a.strideW
                  = true then
              some (.op (.tflConv { a with padding := .same } act dw) (some oshape) [.var y, .var f, .var b])
            else Option.none
          | _, _ => Option.none
        | _ => Option.none
      | _ => Option.none
    | _ => Option.none
  exc c n :=
    match n with
    | ⟨_, .tflConv a _ _, [z, f, _], some [_, oh, ow, _]⟩ =>
      match c.look z with
      | some ⟨_, .pad, y :: pd :: _, _⟩ =>
        match c.constOf pd, c.shapeOf f with
        | some (.i pt), some [_, fh, fw, _] =>
          match padsOf pt, c.shapeOf y with
          | some pads, some [_, h, w, _] =>
            !decide ((a.strideH = 1 ∨ pads.h.1 = computePadding a.strideH a.dilH h fh oh) ∧
              (a.strideW = 1 ∨ pads.w.1 = computePadding a.strideW a.dilW w fw ow) ∧
              h + a.strideH < 2147483648 ∧ w + a.strideW < 2147483648 ∧ oh < 2147483648 ∧ ow < 2147483648)
          | _, _ => false
        | _, _ => true
      | _ => false
    | _ => false

/-- The patterns of the padding pass. -/
def fusePadRules : List Rule := [ruleFusePad false false, ruleFusePad false true, ruleFusePad true false,
  ruleFusePad true true]

/-! ### The patterns of the quantization pass -/

/-- `Dequantize(Quantize(t))` is exactly `t`. -/
def requantizes (t : Tens) (scale : Rat) (zp : Int) : Bool :=
  t.data.all fun v => scale * ((quantInt8 scale zp v - zp : Int) : Rat) == v

/-- A BConv2D, with float, binary or int8 result. -/
def Op.isBConv : Op → Bool
  | .bconv _ => true
  | .bconvI8 _ _ _ => true
  | _ => false

/-- Removing Quantize and Dequantize from the multiplier and the bias (quantize_patterns.td:6-36). The exception:
quantization changes the multiplier or the bias. -/
def ruleStripQdq : Rule where
  apply c n :=
    match n with
    | ⟨_, o, [x, f, m, b, t], ty⟩ =>
      if o.isBConv = true then
        match c.look m, c.look b with
        | some ⟨_, .tdequant, [m1], _⟩, some ⟨_, .tdequant, [b1], _⟩ =>
          match c.look m1, c.look b1 with
          | some ⟨_, .tquant _ _, [m0], _⟩, some ⟨_, .tquant _ _, [b0], _⟩ =>
            some (.op o ty [.var x, .var f, .var m0, .var b0, .var t])
          | _, _ => Option.none
        | _, _ => Option.none
      else Option.none
    | _ => Option.none
  exc c n :=
    match n with
    | ⟨_, _, [_, _, m, b, _], _⟩ =>
      match c.look m, c.look b with
      | some ⟨_, .tdequant, [m1], _⟩, some ⟨_, .tdequant, [b1], _⟩ =>
        match c.look m1, c.look b1 with
        | some ⟨_, .tquant s1 z1, [m0], _⟩, some ⟨_, .tquant s2 z2, [b0], _⟩ =>
          match c.constOf m0, c.constOf b0 with
          | some (.f mt), some (.f bt) => !(requantizes mt s1 z1 && requantizes bt s2 z2)
          | _, _ => true
        | _, _ => false
      | _, _ => false
    | _ => false

/-- `t` lies halfway between two integers. -/
def isTie (t : Rat) : Bool := decide (t - (t.floor : Rat) = 1 / 2)

/-- `Quantize(LceBconv2d(...))` becomes the convolution with int8 result (quantize_patterns.td:41-70). The exception: a
result `v` of the float convolution for which `v / scale` is a tie, and `v / scale` and `v / scale + zero point` are on
different sides of zero (C36). -/
def ruleFuseQuantize : Rule where
  apply c n :=
    match n with
    | ⟨_, .tquant s z, [y], ty⟩ =>
      match c.look y with
      | some ⟨_, .bconv a, [x, f, m, b, t], _⟩ =>
        if c.uses y = 1 then some (.op (.bconvI8 a s z) ty [.var x, .var f, .var m, .var b, .var t]) else Option.none
      | _ => Option.none
    | _ => Option.none
  exc _ _ := false
  excAt env _ n :=
    match n with
    | ⟨_, .tquant s z, [y], _⟩ =>
      match env y with
      | some (.f t) => t.data.any fun v => isTie (v / s) && (decide (v / s < 0) != decide (v / s + z < 0))
      | _ => false
    | _ => false

/-- `Quantize(LceDequantize(x))` becomes `LceDequantize(x)` with int8 result (quantize_patterns.td:72-74). -/
def ruleDequantInt8 : Rule where
  apply c n :=
    match n with
    | ⟨_, .tquant s z, [y], ty⟩ =>
      match c.look y with
      | some ⟨_, .ldequant, [x], _⟩ => if c.uses y = 1 then some (.op (.ldequantI8 s z) ty [.var x]) else Option.none
      | _ => Option.none
    | _ => Option.none
  exc _ _ := false

/-- `LceQuantize(Dequantize(x))` becomes `LceQuantize(x)` (quantize_patterns.td:76-78). -/
def ruleQuantInt8 : Rule where
  apply c n :=
    match n with
    | ⟨_, .lquant, [y], ty⟩ =>
      match c.look y with
      | some ⟨_, .tdequant, [x], _⟩ => if c.uses y = 1 then some (.op .lquant ty [.var x]) else Option.none
      | _ => Option.none
    | _ => Option.none
  exc _ _ := false

/-- The patterns of the quantization pass. -/
def quantizeRules : List Rule := [ruleStripQdq, ruleFuseQuantize, ruleDequantInt8, ruleQuantInt8]

/-- All patterns of all passes for a target. -/
def allRules (arm : Bool) : List Rule :=
  prepareRules arm ++ [ruleBroadcast] ++ optimizeRules arm ++ [ruleBitpackWeights] ++ fusePadRules ++ quantizeRules ++
    [ruleFold]

/-! ### The driver -/

/-- One step of the greedy driver or of the canonicalization and CSE passes between the patterns' passes, whichever it
chooses. `safe`: arguments of the function for which no match is exceptional.

* `rewrite`: a pattern matches a node that is used (the driver erases an unused operation instead of matching it);
* `erase`: an unused operation is removed;
* `cse`: an operation equal to an earlier one is replaced by it. -/
inductive Step (rules : List Rule) (safe : List Val → Prop) : Graph → Graph → Prop
  | rewrite {g : Graph} {pre post : List Node} {n : Node} {t : Rhs} (r : Rule) (hr : r ∈ rules)
      (hg : g.nodes = pre ++ n :: post) (hu : 0 < g.uses n.name)
      (ha : r.apply ⟨lookIn pre, g.uses⟩ n = some t)
      (hs : ∀ ins, safe ins → r.exc ⟨lookIn pre, g.uses⟩ n = false ∧
        r.excAt (runNodes ins pre fun _ => Option.none) ⟨lookIn pre, g.uses⟩ n = false) :
      Step rules safe g (g.replace pre post n.name t)
  | erase {g : Graph} {pre post : List Node} {n : Node} (hg : g.nodes = pre ++ n :: post) (hu : g.uses n.name = 0) :
      Step rules safe g ⟨pre ++ post, g.outs⟩
  | cse {g : Graph} {pre post : List Node} {n m : Node} (hg : g.nodes = pre ++ n :: post) (hm : m ∈ pre)
      (he : m.op = n.op ∧ m.args = n.args ∧ m.ty = n.ty) :
      Step rules safe g (g.replace pre post n.name (.var m.name))

/-- Any number of steps. -/
inductive Steps (rules : List Rule) (safe : List Val → Prop) : Graph → Graph → Prop
  | refl (g : Graph) : Steps rules safe g g
  | step {g g' g'' : Graph} (h : Steps rules safe g g') (s : Step rules safe g' g'') : Steps rules safe g g''

end Verif.Ir
