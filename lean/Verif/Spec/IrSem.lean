import Verif.Spec.Broadcast
import Verif.Spec.Activation
import Verif.Spec.Block
import Verif.Spec.Pool
import Verif.Model.FuseAffine
import Verif.Model.QuantPatterns

/-!
Specification of what the operators of a graph in the converter mean, in exact arithmetic: a tensor is a value, an
operator is a (partial) function from values to a value. This file knows nothing about rewriting.

* A float32 tensor holds rational numbers. There is no rounding, overflow, NaN or infinity; a division by zero has no
  value.
* A binary tensor (the int32 tensors made by `LceQuantize`) is denoted by its bits, with the shape before packing;
  `true` stands for -1. How bits are packed into words is the subject of C01 to C05.
* An operator has no value when its operands are not of the kinds and shapes it requires.
-/

namespace Verif.Ir

open Finset

/-- The value of a tensor. -/
inductive Val where
  /-- float32 -/
  | f (t : Tens)
  /-- binary: `true` is -1 -/
  | s (t : TensOf Bool)
  /-- bool (i1) -/
  | b (t : TensOf Bool)
  /-- int32 numbers: thresholds, paddings -/
  | i (t : TensOf Int)
  /-- int8 with scale and zero point -/
  | q (t : TensOf Int) (scale : Rat) (zp : Int)
  /-- the absent optional operand (`NoValueOp`) -/
  | none
deriving DecidableEq

/-- The shape of a value. -/
def Val.shape : Val → List Nat
  | .f t => t.shape
  | .s t => t.shape
  | .b t => t.shape
  | .i t => t.shape
  | .q t _ _ => t.shape
  | .none => []

/-- As many elements as the shape says; for int8 a positive scale, and elements and zero point between -128 and 127. -/
def Val.wf : Val → Bool
  | .f t => t.data.length == t.shape.prod
  | .s t => t.data.length == t.shape.prod
  | .b t => t.data.length == t.shape.prod
  | .i t => t.data.length == t.shape.prod
  | .q t scale zp => t.data.length == t.shape.prod && decide (0 < scale) && t.data.all (fun v => decide (-128 ≤ v ∧ v ≤ 127))
      && decide (-128 ≤ zp ∧ zp ≤ 127)
  | .none => true

/-- The tensor of shape `[n, h, w, c]` with element `g b y x k` at `(b, y, x, k)`. -/
def mk4 {α : Type} (n h w c : Nat) (g : Nat → Nat → Nat → Nat → α) : TensOf α :=
  ⟨[n, h, w, c], (List.range (n * h * w * c)).map fun i => g (i / c / w / h) (i / c / w % h) (i / c % w) (i % c)⟩

/-- The number a bit stands for. -/
def bitVal (v : Bool) : Rat := if v then -1 else 1

/-! ### Convolution -/

/-- Strides, dilations and padding of a convolution. -/
structure ConvAttrs where
  strideH : Nat
  strideW : Nat
  dilH : Nat
  dilW : Nat
  padding : Padding
deriving DecidableEq, Repr

/-- The sizes of a convolution of an input of shape `[n, h, w, cin]` with `co` filters of size `fh * fw * ci`. -/
def geom (a : ConvAttrs) (padValue n h w cin co fh fw ci : Nat) : Option BConv :=
  let oh := computeOutSize a.padding h fh a.strideH a.dilH
  let ow := computeOutSize a.padding w fw a.strideW a.dilW
  if 0 < a.strideH ∧ 0 < a.strideW ∧ 0 < a.dilH ∧ 0 < a.dilW ∧ 0 < fh ∧ 0 < fw ∧ 0 < ci ∧ 0 < cin ∧
      0 < co ∧ cin % ci = 0 ∧ co % (cin / ci) = 0 ∧ 0 ≤ oh ∧ 0 ≤ ow then
    some { batches := n, inH := h, inW := w, inDepth := (cin + 31) / 32, cin := cin, filtH := fh, filtW := fw,
           filtDepth := (ci + 31) / 32, cout := co, groups := cin / ci, strideH := a.strideH, strideW := a.strideW,
           dilH := a.dilH, dilW := a.dilW, padding := a.padding,
           padH := computePadding a.strideH a.dilH h fh oh, padW := computePadding a.strideW a.dilW w fw ow,
           padValue := padValue, outH := oh.toNat, outW := ow.toNat }
  else none

/-- The convolution at `(b, oy, ox, oc)`: `x` gives the elements of the input in row-major order, `pad` is the value
outside the image, `wt fy fx c oc` the weights. -/
def convAt (p : BConv) (pad : Rat) (x : Nat → Rat) (wt : Nat → Nat → Nat → Nat → Rat) (b oy ox oc : Nat) : Rat :=
  ∑ fy ∈ range p.filtH, ∑ fx ∈ range p.filtW, ∑ c ∈ range p.cinG,
    (let iy : Int := (oy : Int) * p.strideH - p.padH + p.dilH * fy
     let ix : Int := (ox : Int) * p.strideW - p.padW + p.dilW * fx
     if 0 ≤ iy ∧ iy < p.inH ∧ 0 ≤ ix ∧ ix < p.inW then
       x (((b * p.inH + iy.toNat) * p.inW + ix.toNat) * p.cin + (oc / (p.cout / p.groups) * p.cinG + c))
     else pad) * wt fy fx c oc

/-- TensorFlow's Conv2D: float input, HWIO filter, padding with zeros. -/
def conv2dEval (a : ConvAttrs) : List Val → Option Val
  | [.f x, .f w] =>
    match x.shape, w.shape with
    | [n, h, wd, cin], [fh, fw, ci, co] =>
      (geom a 0 n h wd cin co fh fw ci).map fun p => .f (mk4 n p.outH p.outW co
        (convAt p 0 (fun k => x.data.getD k 0) (fun fy fx c oc => w.data.getD (((fy * fw + fx) * ci + c) * co + oc) 0)))
    | _, _ => Option.none
  | _ => Option.none

/-- The attributes of a BConv2D; `outBits`: its result type is the int32 of binary tensors (else float32). -/
structure BConvAttrs extends ConvAttrs where
  padValue : Nat
  cin : Nat
  act : Act
  outBits : Bool
deriving DecidableEq, Repr

/-- The signs of a filter, given as floats (none of which may be zero) or as bits. -/
def Val.signs : Val → Option (List Rat)
  | .f t => if t.data.all (fun x => x != 0) then some (t.data.map signR) else Option.none
  | .s t => some (t.data.map bitVal)
  | _ => Option.none

/-- The binary convolution. Operands: binary input, filter (OHWI), multiplier, bias, thresholds. Outside the image the
input is 1, or 0 for SAME padding with `pad_values = 0`.

* float result: `activation(convolution) * multiplier + bias`;
* binary result: bit 1 (that is, -1) iff the number of products equal to -1, which is `(K - convolution) / 2` for `K`
  products, is larger than the threshold. -/
def bconvEval (a : BConvAttrs) : List Val → Option Val
  | [.s x, filt, m, bi, thr] =>
    match x.shape, filt.shape, filt.signs with
    | [n, h, w, cin], [co, fh, fw, ci], some ws =>
      if cin = a.cin ∧ (ci = cin ∨ ci % 32 = 0) ∧ 2 * (fh * fw * ci) < 2147483648 then
        (geom a.toConvAttrs a.padValue n h w cin co fh fw ci).bind fun p =>
          let cv := convAt p (if a.padding = .same ∧ a.padValue = 0 then 0 else 1)
            (fun k => bitVal (x.data.getD k false)) (fun fy fx c oc => ws.getD (((oc * fh + fy) * fw + fx) * ci + c) 0)
          match a.outBits, m, bi, thr with
          | false, .f m, .f bi, .none =>
            if m.shape = [co] ∧ bi.shape = [co] then
              some (.f (mk4 n p.outH p.outW co fun b y x c =>
                a.act.real (cv b y x c) * m.data.getD c 0 + bi.data.getD c 0))
            else Option.none
          | true, _, _, .i t =>
            if t.shape = [co] then
              some (.s (mk4 n p.outH p.outW co fun b y x c =>
                decide (((fh * fw * ci : Nat) - cv b y x c) / 2 > (t.data.getD c 0 : Rat))))
            else Option.none
          | _, _, _, _ => Option.none
      else Option.none
    | _, _, _ => Option.none
  | _ => Option.none

/-- The binary convolution with int8 result: the float result divided by the scale, plus the zero point, rounded (ties
away from zero) and saturated. -/
def bconvI8Eval (a : BConvAttrs) (scale : Rat) (zp : Int) (l : List Val) : Option Val :=
  match bconvEval a l with
  | some (.f t) => some (.q (t.map fun v => clampInt8 (roundHalfAway (v / scale + zp))) scale zp)
  | _ => Option.none

/-! ### Pooling -/

/-- The image positions in the window of output `(oy, ox)`. -/
def windowPos (p : Pool) (oy ox : Nat) : List (Nat × Nat) :=
  ((List.range p.inH).flatMap fun iy => (List.range p.inW).map fun ix => (iy, ix)).filter fun q =>
    decide (q.1 < p.inH ∧ q.2 < p.inW ∧ Pool.covers oy p.strideH p.padH p.filtH q.1 ∧
      Pool.covers ox p.strideW p.padW p.filtW q.2)

/-- The largest number of a list. -/
def maxList : List Rat → Rat
  | [] => 0
  | x :: xs => xs.foldl max x

/-- MaxPool2D with a fused activation. -/
def maxPoolEval (a : PoolAttrs) (act : Act) : List Val → Option Val
  | [.f x] =>
    match x.shape with
    | [n, h, w, c] => (poolPrepare 1 1 true true a [n, h, w, c]).map fun pr =>
      .f (mk4 n pr.1.outH pr.1.outW c fun b oy ox k => act.real (maxList ((windowPos pr.1 oy ox).map fun q =>
        x.data.getD (((b * h + q.1) * w + q.2) * c + k) 0)))
    | _ => Option.none
  | _ => Option.none

/-- LceBMaxPool2d: the largest of -1 and 1 in each window is -1 iff all are. -/
def bmaxPoolEval (a : PoolAttrs) : List Val → Option Val
  | [.s x] =>
    match x.shape with
    | [n, h, w, c] => (poolPrepare 1 1 true true a [n, h, w, c]).map fun pr =>
      .s (mk4 n pr.1.outH pr.1.outW c fun b oy ox k => (windowPos pr.1 oy ox).all fun q =>
        x.data.getD (((b * h + q.1) * w + q.2) * c + k) false)
    | _ => Option.none
  | _ => Option.none

/-! ### Elementwise operators -/

/-- Add, Sub, Mul, Div with broadcasting and a fused activation. -/
def binEval (op : BinOp) (act : Act) : List Val → Option Val
  | [.f x, .f y] =>
    if op = .div ∧ ¬ y.data.all (fun v => v != 0) then Option.none
    else (broadcastOp op.fn x y).map fun t => .f (t.map act.real)
  | _ => Option.none

/-- Relu, Relu1, Relu6. -/
def actEval (act : Act) : List Val → Option Val
  | [.f x] => some (.f (x.map act.real))
  | _ => Option.none

/-- GreaterEqual. -/
def geEval : List Val → Option Val
  | [.f x, .f y] => (broadcastG 0 0 (fun u v : Rat => decide (v ≤ u)) x y).map .b
  | _ => Option.none

/-- LessEqual. -/
def leEval : List Val → Option Val
  | [.f x, .f y] => (broadcastG 0 0 (fun u v : Rat => decide (u ≤ v)) x y).map .b
  | _ => Option.none

/-- LceQuantize: the bit is 1 for negative numbers; for `false`; for int8 values below the zero point. The tensor needs
a last dimension. -/
def lquantEval : List Val → Option Val
  | [.f x] => if x.shape = [] then Option.none else some (.s (x.map fun v => decide (v < 0)))
  | [.b x] => if x.shape = [] then Option.none else some (.s (x.map fun v => !v))
  | [.q x _ zp] => if x.shape = [] then Option.none else some (.s (x.map fun v => decide (v < zp)))
  | _ => Option.none

/-- LceDequantize to float. -/
def ldequantEval : List Val → Option Val
  | [.s x] => some (.f (x.map bitVal))
  | _ => Option.none

/-- The int8 value that stands for the number `v`. -/
def quantInt8 (scale : Rat) (zp : Int) (v : Rat) : Int := clampInt8 (roundHalfAway (v / scale) + zp)

/-- TFL Quantize: float to int8. -/
def tquantEval (scale : Rat) (zp : Int) : List Val → Option Val
  | [.f x] => some (.q (x.map (quantInt8 scale zp)) scale zp)
  | _ => Option.none

/-- TFL Dequantize: int8 to float. -/
def tdequantEval : List Val → Option Val
  | [.q x s z] => some (.f (x.map fun v => s * ((v - z : Int) : Rat)))
  | _ => Option.none

/-- LceDequantize to int8. -/
def ldequantI8Eval (scale : Rat) (zp : Int) : List Val → Option Val
  | [.s x] => some (.q (x.map fun v => clampInt8 (zp + roundHalfAway (bitVal v / scale))) scale zp)
  | _ => Option.none

/-- TensorFlow's Sign. -/
def signEval : List Val → Option Val
  | [.f x] => some (.f (x.map tfSign))
  | _ => Option.none

/-- SelectV2. -/
def selectEval : List Val → Option Val
  | [.b c, .f x, .f y] => (selectV2 c x y).map .f
  | _ => Option.none

/-- LogicalNot. -/
def notEval : List Val → Option Val
  | [.b c] => some (.b (c.map (!·)))
  | _ => Option.none

/-- BroadcastTo a known shape; only when the operand can be broadcast to it. -/
def broadcastToEval (shape : List Nat) : List Val → Option Val
  | [.b c] => if bshapeR c.shape.reverse shape.reverse = some shape.reverse then some (.b (broadcastTo false c shape))
    else Option.none
  | _ => Option.none

/-- Transpose of a 4-dimensional tensor with the permutation 3, 0, 1, 2 (HWIO to OHWI). -/
def transposeEval : List Val → Option Val
  | [.f x] =>
    match x.shape with
    | [fh, fw, ci, co] => some (.f (mk4 co fh fw ci fun o y k c => x.data.getD (((y * fw + k) * ci + c) * co + o) 0))
    | _ => Option.none
  | _ => Option.none

/-- Padding of a 4-dimensional tensor with the number `pv`; the paddings are the 8 numbers of a `[4, 2]` tensor. -/
def padCore (x : Tens) (p : TensOf Int) (pv : Rat) : Option Val :=
  match x.shape, p.data with
  | [n, h, w, c], [n0, n1, h0, h1, w0, w1, c0, c1] =>
    if 0 ≤ n0 ∧ 0 ≤ n1 ∧ 0 ≤ h0 ∧ 0 ≤ h1 ∧ 0 ≤ w0 ∧ 0 ≤ w1 ∧ 0 ≤ c0 ∧ 0 ≤ c1 ∧ p.shape = [4, 2] then
      some (.f (mk4 (n0.toNat + n + n1.toNat) (h0.toNat + h + h1.toNat) (w0.toNat + w + w1.toNat)
        (c0.toNat + c + c1.toNat) fun b y z k =>
          if n0.toNat ≤ b ∧ b < n0.toNat + n ∧ h0.toNat ≤ y ∧ y < h0.toNat + h ∧ w0.toNat ≤ z ∧ z < w0.toNat + w ∧
              c0.toNat ≤ k ∧ k < c0.toNat + c then
            x.data.getD ((((b - n0.toNat) * h + (y - h0.toNat)) * w + (z - w0.toNat)) * c + (k - c0.toNat)) 0
          else pv))
    else Option.none
  | _, _ => Option.none

/-- PadV2 (with a value) and Pad (with zeros). -/
def padEval : List Val → Option Val
  | [.f x, .i p, .f v] =>
    match v.data with
    | [pv] => padCore x p pv
    | _ => Option.none
  | [.f x, .i p] => padCore x p 0
  | _ => Option.none

/-- TFLite's Conv2D (OHWI filter) and, with `dw`, DepthwiseConv2D (filter `[1, height, width, out channels]`), with bias
and fused activation. -/
def tflConvEval (a : ConvAttrs) (act : Act) (dw : Bool) : List Val → Option Val
  | [.f x, .f w, .f bi] =>
    match x.shape, w.shape with
    | [n, h, wd, cin], [co', fh, fw, ci'] =>
      let co := if dw then ci' else co'
      let ci := if dw then 1 else ci'
      if (dw = true → co' = 1) ∧ bi.shape = [co] then
        (geom a 0 n h wd cin co fh fw ci).map fun p => .f (mk4 n p.outH p.outW co fun b y z oc =>
          act.real (convAt p 0 (fun k => x.data.getD k 0) (fun fy fx c oc =>
            w.data.getD (if dw then (fy * fw + fx) * co + oc else ((oc * fh + fy) * fw + fx) * ci + c) 0) b y z oc
            + bi.data.getD oc 0))
      else Option.none
    | _, _ => Option.none
  | _ => Option.none

/-- The operators. -/
inductive Op where
  /-- the `k`-th argument of the function -/
  | arg (k : Nat)
  | const (v : Val)
  | bin (op : BinOp) (act : Act)
  | act (a : Act)
  | ge
  | le
  | lquant
  | ldequant
  | tquant (scale : Rat) (zp : Int)
  | tdequant
  | ldequantI8 (scale : Rat) (zp : Int)
  | maxPool (a : PoolAttrs) (act : Act)
  | bmaxPool (a : PoolAttrs)
  | bconv (a : BConvAttrs)
  /-- with int8 result -/
  | bconvI8 (a : BConvAttrs) (scale : Rat) (zp : Int)
  | conv2d (a : ConvAttrs)
  | sign
  | select
  | not
  | broadcastTo (shape : List Nat)
  | transpose
  /-- Pad and PadV2 -/
  | pad
  | tflConv (a : ConvAttrs) (act : Act) (dw : Bool)
  /-- TensorFlow's Identity -/
  | ident
  /-- CheckNumerics, Snapshot, StopGradient and PlaceholderWithDefault, on the path on which they pass their operand
  on -/
  | pass
  /-- any other operator -/
  | other (fn : List Val → Option Val)

/-- What an operator computes from its operands, when the function is called with the arguments `ins`. -/
def Op.eval (ins : List Val) : Op → List Val → Option Val
  | .arg k, [] => ins[k]?
  | .arg _, _ => Option.none
  | .const v, [] => some v
  | .const _, _ => Option.none
  | .bin op a, l => binEval op a l
  | .act a, l => actEval a l
  | .ge, l => geEval l
  | .le, l => leEval l
  | .lquant, l => lquantEval l
  | .ldequant, l => ldequantEval l
  | .tquant sc z, l => tquantEval sc z l
  | .tdequant, l => tdequantEval l
  | .ldequantI8 sc z, l => ldequantI8Eval sc z l
  | .maxPool a fa, l => maxPoolEval a fa l
  | .bmaxPool a, l => bmaxPoolEval a l
  | .bconv a, l => bconvEval a l
  | .bconvI8 a sc z, l => bconvI8Eval a sc z l
  | .conv2d a, l => conv2dEval a l
  | .sign, l => signEval l
  | .select, l => selectEval l
  | .not, l => notEval l
  | .broadcastTo sh, l => broadcastToEval sh l
  | .transpose, l => transposeEval l
  | .pad, l => padEval l
  | .tflConv a fa dw, l => tflConvEval a fa dw l
  | .ident, [v] => some v
  | .ident, _ => Option.none
  | .pass, [v] => some v
  | .pass, _ => Option.none
  | .other fn, l => fn l

/-- The value of a node: the operator's, if it is well formed and has the shape the node's type declares (`none`: no
static shape). -/
def Op.run (ins : List Val) (o : Op) (ty : Option (List Nat)) (l : List Val) : Option Val :=
  (o.eval ins l).bind fun v => if v.wf = true ∧ (ty = Option.none ∨ ty = some v.shape) then some v else Option.none

/-! ### Graphs -/

/-- A node: the name of its result, operator, operand names, static shape of the result. -/
structure Node where
  name : Nat
  op : Op
  args : List Nat
  ty : Option (List Nat)

/-- A function: nodes in order, and the names it returns. -/
structure Graph where
  nodes : List Node
  outs : List Nat

/-- The values of names. -/
abbrev Env := Nat → Option Val

/-- The value of one node. -/
def Node.eval (ins : List Val) (env : Env) (n : Node) : Option Val :=
  (n.args.mapM env).bind (n.op.run ins n.ty)

/-- Execute nodes in order. -/
def runNodes (ins : List Val) : List Node → Env → Env
  | [], env => env
  | n :: l, env => runNodes ins l fun x => if x = n.name then n.eval ins env else env x

/-- The results of the function for the arguments `ins`; `none` if one of them has no value. -/
def Graph.eval (g : Graph) (ins : List Val) : Option (List Val) :=
  g.outs.mapM (runNodes ins g.nodes fun _ => Option.none)

/-- Every operand is the result of an earlier node, results have different names, and the function returns results
(single static assignment). -/
def Graph.Ssa (g : Graph) : Prop :=
  (g.nodes.map (·.name)).Nodup ∧
  (∀ pre n post, g.nodes = pre ++ n :: post → ∀ x ∈ n.args, x ∈ pre.map (·.name)) ∧
  ∀ x ∈ g.outs, x ∈ g.nodes.map (·.name)

end Verif.Ir
