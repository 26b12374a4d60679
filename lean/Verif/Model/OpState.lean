import Verif.Model.IndirectEval
import Verif.Model.BGemm

/-!
Model of the BConv2D operator as TFLite sees it: `Init`, `Prepare`, `OneTimeSetup` and `Eval`
of `/repo/larq_compute_engine/tflite/kernels/bconv2d.cc`, with the state `OpData` that survives
between calls.

Simplifications: attributes are non-negative; `padding` values other than SAME (0) and VALID (1)
are not modelled; the kernels are the portable ones; float arithmetic is exact. The weights,
multipliers, biases and thresholds are constants of the model file, so they are fixed for a node;
the input tensor may be resized and its buffer may move.
-/

namespace Verif

/-- Outcome of a TFLite entry point: undefined behaviour, `kTfLiteError`, or success. -/
inductive Outcome (α : Type) where
  | ub
  | error
  | ok (a : α)
deriving Repr

namespace Outcome

/-- Sequencing. -/
def bind {α β : Type} : Outcome α → (α → Outcome β) → Outcome β
  | ub, _ => ub
  | error, _ => error
  | ok a, f => f a

instance : Monad Outcome where
  pure := ok
  bind := Outcome.bind

/-- `TF_LITE_ENSURE` and its variants. -/
def ensure (c : Bool) : Outcome Unit := if c then ok () else error

/-- Use of a pointer that must not be null. -/
def deref {α : Type} : Option α → Outcome α
  | none => ub
  | some a => ok a

end Outcome

/-- `KernelType` (bconv2d.cc:31-40). -/
inductive KernelType where
  | reference
  | bgemm
  | indirect
deriving DecidableEq, Repr

/-- The tensor types that matter here. -/
inductive TType where
  | float32
  | int8
  | int32
  | other
deriving DecidableEq, Repr

/-- What `Prepare` reads of a constant tensor. -/
structure Tensor where
  type : TType
  dims : List Nat
deriving DecidableEq, Repr

/-- The attributes read by `Init` into `OpData` (bconv2d.cc:83-132). -/
structure Attrs where
  strideH : Nat
  strideW : Nat
  dilH : Nat
  dilW : Nat
  padding : Padding
  padValue : Nat
  cin : Nat
  act : Act
deriving DecidableEq, Repr

/-- The parts of a node that never change: kernel, attributes (`none`: `Init` failed, see
`Model/Attributes.lean`), tensor
descriptions and constant data. An optional input that is absent has no description and no
data. -/
structure Node where
  kt : KernelType
  attrs : Option Attrs
  nInputs : Nat
  inType : TType
  filter : Tensor
  filtData : List Word
  mult : Option Tensor
  multData : List Rat
  bias : Option Tensor
  biasData : List Rat
  thr : Option Tensor
  thrData : List Int
  outType : TType
  outAffine : Bool
  scale : Rat
  zp : Rat

/-- The input tensor: shape, allocation type and the address of its buffer. -/
structure InputDesc where
  dims : List Nat
  dynamic : Bool
  loc : Nat
deriving DecidableEq, Repr

/-- What `Prepare` computes: the parameters, the output shape, the im2col shape. -/
structure Prepared where
  p : BConv
  outDims : List Nat
  im2col : Option (List Nat)
deriving Repr

/-- The groups computation of `Prepare` (bconv2d.cc:167-189). Division by zero is undefined
behaviour. -/
def prepGroups (kt : KernelType) (cin cout fd : Nat) : Outcome Nat :=
  if fd = packedSize cin then .ok 1
  else do
    .ensure (kt ≠ .bgemm)
    if fd = 0 then .ub
    else do
      .ensure (packedSize cin % fd = 0)
      let groups := packedSize cin / fd
      if groups = 0 then .ub
      else do
        .ensure (cin / groups % 32 = 0)
        .ensure (cout % groups = 0)
        .ok groups

/-- The zero-padding condition of `Prepare` (bconv2d.cc:191-203). -/
def prepZeroPad (kt : KernelType) (a : Attrs) (outType : TType) : Bool :=
  if a.padding = .same ∧ a.padValue = 0 then
    (decide (kt = .reference) && decide (a.cin % 2 = 0)) ||
      (decide (kt ≠ .reference) && decide (outType = .float32) && decide (a.act = .none))
  else true

/-- The checks on the parameter tensors (bconv2d.cc:215-236). -/
def prepParams (n : Node) (cout : Nat) : Outcome Unit :=
  if n.outType = .int32 then do
    let t ← .deref n.thr
    .ensure (t.dims.length = 1)
    .ensure (t.type = .int32)
    .ensure (t.dims.getD 0 0 = cout)
  else do
    let m ← .deref n.mult
    .ensure (m.type = .float32)
    let b ← .deref n.bias
    .ensure (b.type = .float32)
    .ensure (m.dims.length = 1)
    .ensure (b.dims.length = 1)
    .ensure (m.dims.getD 0 0 = cout)
    .ensure (b.dims.getD 0 0 = cout)

/-- `need_im2col` (bconv2d.cc:256-262). -/
def prepIm2col (kt : KernelType) (a : Attrs) (fh fw : Nat) : Bool :=
  decide (kt = .bgemm) &&
    (a.strideW != 1 || a.strideH != 1 || a.dilW != 1 || a.dilH != 1 || fw != 1 || fh != 1)

/-- The parameters, given the groups. -/
def prepConv (a : Attrs) (n : Node) (i : InputDesc) (groups : Nat) : BConv :=
  let fh := n.filter.dims.getD 1 0
  let fw := n.filter.dims.getD 2 0
  let inH := i.dims.getD 1 0
  let inW := i.dims.getD 2 0
  let oh := computeOutSize a.padding inH fh a.strideH a.dilH
  let ow := computeOutSize a.padding inW fw a.strideW a.dilW
  { batches := i.dims.getD 0 0, inH := inH, inW := inW, inDepth := i.dims.getD 3 0, cin := a.cin,
    filtH := fh, filtW := fw, filtDepth := n.filter.dims.getD 3 0, cout := n.filter.dims.getD 0 0,
    groups := groups, strideH := a.strideH, strideW := a.strideW, dilH := a.dilH, dilW := a.dilW,
    padding := a.padding,
    padH := computePadding a.strideH a.dilH inH fh oh,
    padW := computePadding a.strideW a.dilW inW fw ow,
    padValue := a.padValue, outH := oh.toNat, outW := ow.toNat }

/-- The decisions of `Prepare` (bconv2d.cc:134-302). `ResizeTensor` fails on a negative
dimension (contract). -/
def prepare (n : Node) (i : InputDesc) : Outcome Prepared := do
  match n.attrs with
  | none => .error
  | some a => do
    .ensure (n.nInputs = 5)
    .ensure (i.dims.length = 4)
    .ensure (n.filter.dims.length = 4)
    .ensure (n.inType = .int32)
    .ensure (n.filter.type = .int32)
    .ensure (n.outType = .int32 ∨ n.outType = .int8 ∨ n.outType = .float32)
    let cout := n.filter.dims.getD 0 0
    let groups ← prepGroups n.kt a.cin cout (n.filter.dims.getD 3 0)
    .ensure (prepZeroPad n.kt a n.outType)
    let p := prepConv a n i groups
    prepParams n cout
    .ensure (n.outType ≠ .int8 ∨ n.outAffine)
    .ensure (n.kt ≠ .indirect ∨ !i.dynamic)
    .ensure (0 ≤ computeOutSize a.padding p.inH p.filtH p.strideH p.dilH ∧
      0 ≤ computeOutSize a.padding p.inW p.filtW p.strideW p.dilW)
    let im2col := if prepIm2col n.kt a p.filtH p.filtW then
      some [p.batches, p.outH, p.outW, packedSize a.cin * p.filtH * p.filtW] else none
    .ok ⟨p, [p.batches, p.outH, p.outW, if n.outType = .int32 then packedSize cout else cout], im2col⟩

/-! ### State and evaluation -/

/-- `indirect_bgemm_kernel`: the kernel with the address the indirection pointers were computed
from and its copy of the output transform (kernel_4x2_portable.h:24-33). -/
structure SavedKernel where
  K : IKernel
  loc : Nat
  ot : OTParams

/-- `OpData` (bconv2d.cc:44-72). -/
structure OpData where
  p : BConv
  setupDone : Bool
  ot : OTParams
  padBuf : List Rat
  kernel : Option SavedKernel

/-- `new OpData{}` (bconv2d.cc:84); the numbers are not read before `Prepare` sets them. -/
def OpData.new : OpData :=
  { p := { batches := 0, inH := 0, inW := 0, inDepth := 0, cin := 0, filtH := 0, filtW := 0,
           filtDepth := 0, cout := 0, groups := 0, strideH := 0, strideW := 0, dilH := 0, dilW := 0,
           padding := .same, padH := 0, padW := 0, padValue := 0, outH := 0, outW := 0 }
    setupDone := false, ot := ⟨0, 0, [], []⟩, padBuf := [], kernel := none }

/-- `std::vector::resize`: keeps the old elements, appends zeros. -/
def vresize (xs : List Rat) (n : Nat) : List Rat := xs.take n ++ List.replicate (n - xs.length) 0

/-- The loop of bconv2d.cc:370-380 on existing vectors. -/
def otFuseFrom (p : BConv) (k : Int) (mult bias : List Rat) (scale zp : Rat) (m0 b0 : List Rat) :
    Option (List Rat × List Rat) :=
  forN p.cout (fun i (s : List Rat × List Rat) => do
    let postMul ← rd mult i
    let postBias ← rd bias i
    let m ← wr s.1 i (-1 * postMul / scale)
    let b ← wr s.2 i ((postBias + (k : Rat) * postMul) / scale + zp)
    some (m, b)) (m0, b0)

/-- `OneTimeSetup` (bconv2d.cc:324-391) on the current state. -/
def oneTimeSetup (n : Node) (act : Act) (st : OpData) : Option OpData := do
  let padBuf ← (if st.p.zeroPadding then
      zpCache st.p n.filtData n.multData (vresize st.padBuf (zpCacheSize st.p))
    else some st.padBuf)
  if n.outType = .float32 ∨ n.outType = .int8 then do
    let k ← chk32 ((st.p.filtH * st.p.filtW * (st.p.cin / st.p.groups) : Nat) : Int)
    let scale := if n.outType = .int8 then n.scale else 1
    let zp := if n.outType = .int8 then n.zp else 0
    let (m, b) ← otFuseFrom st.p k n.multData n.biasData scale zp
      (vresize st.ot.multiplier (st.p.cout + 4)) (vresize st.ot.bias (st.p.cout + 4))
    let (lo, hi) := activationRange act
    let lo := max lo (-1 * k)
    let hi := min hi k
    let cmin ← chk32 (-1 * hi + k)
    let cmax ← chk32 (-1 * lo + k)
    some { st with padBuf := padBuf, ot := ⟨cmin, cmax, m, b⟩, setupDone := true }
  else some { st with padBuf := padBuf, setupDone := true }

/-- The output tensor's data. -/
inductive OutBuf where
  | f (data : List Rat)
  | i (data : List Int)
  | w (data : List Word)
deriving Repr, DecidableEq

/-- What varies between two invocations besides the input: ruy's block decomposition and
kernel mode, and the rounding used by the build. -/
structure RunCfg where
  fat : Bool
  blocks : List Blk
  rnd : Rat → Int

/-- The operator, its input tensor's current description. -/
structure Machine where
  op : OpData
  cur : InputDesc

/-- `EvalRef` (bconv2d.cc:499-518) after setup. -/
def evalRef (n : Node) (c : RunCfg) (st : OpData) (inp : List Word) (out : OutBuf) : Option OutBuf :=
  match n.outType, out with
  | .float32, .f o => (bconvReference st.p inp n.filtData st.ot.runFloat o).map .f
  | .int8, .i o => (bconvReference st.p inp n.filtData (st.ot.runInt8 c.rnd) o).map .i
  | .int32, .w o => (bconvReferenceBits st.p inp n.filtData (runThreshold n.thrData) o).map .w
  | _, _ => none

/-- `EvalOptBGEMM` (bconv2d.cc:418-462) after setup. -/
def evalBGemm (n : Node) (c : RunCfg) (st : OpData) (inp : List Word) (out : OutBuf) : Option OutBuf :=
  match n.outType, out with
  | .float32, .f o => do
    let o ← bconvBGemm st.p c.fat c.blocks inp n.filtData st.ot.runFloat o
    (zpFinish st.p st.padBuf o).map .f
  | .int8, .i o => (bconvBGemm st.p c.fat c.blocks inp n.filtData (st.ot.runInt8 c.rnd) o).map .i
  | .int32, .w o => (bconvBGemmBits st.p c.fat c.blocks inp n.filtData (runThreshold n.thrData) o).map .w
  | _, _ => none

/-- `EvalOptIndirectBGEMM` (bconv2d.cc:464-497) after setup: the kernel is only created when
there is none. Its pointers go to the buffer the input had at that time (`mem`: reads elsewhere
are undefined behaviour). -/
def evalIndirect (n : Node) (c : RunCfg) (st : OpData) (loc : Nat) (inp : List Word) (out : OutBuf) :
    Option (OpData × OutBuf) := do
  let sk ← (match st.kernel with
    | some sk => some sk
    | none => (mkKernel st.p n.filtData).map (fun K => ⟨K, loc, st.ot⟩))
  let mem := if sk.loc = loc then inp else []
  let o ← (match n.outType, out with
    | .float32, .f o => do
      let o ← iRun sk.K mem sk.ot.runFloat o
      (zpFinish st.p st.padBuf o).map OutBuf.f
    | .int8, .i o => (iRun sk.K mem (sk.ot.runInt8 c.rnd) o).map .i
    | .int32, .w o => (iDispatchBits sk.K mem (runThreshold n.thrData) o).map .w
    | _, _ => none)
  some ({ st with kernel := some sk }, o)

/-- `Eval` (bconv2d.cc:551-566): one-time setup if needed, then the kernel. -/
def invoke (n : Node) (c : RunCfg) (m : Machine) (inp : List Word) (out : OutBuf) :
    Option (Machine × OutBuf) := do
  let a ← n.attrs
  let st ← (if m.op.setupDone then some m.op else oneTimeSetup n a.act m.op)
  match n.kt with
  | .reference => (evalRef n c st inp out).map (fun o => ({ m with op := st }, o))
  | .bgemm => (evalBGemm n c st inp out).map (fun o => ({ m with op := st }, o))
  | .indirect => (evalIndirect n c st m.cur.loc inp out).map (fun (st, o) => ({ m with op := st }, o))

/-- Resizing the input and `Prepare` on the existing `OpData` (bconv2d.cc:134-302); `none` when
it does not succeed. -/
def resize (n : Node) (i : InputDesc) (m : Machine) : Option Machine :=
  match prepare n i with
  | .ok r => some { op := { m.op with p := r.p, setupDone := false }, cur := i }
  | _ => none

/-- A call made by the user. -/
inductive Call where
  | resize (i : InputDesc)
  | invoke (c : RunCfg) (inp : List Word) (out : OutBuf)

/-- A history of calls. -/
def runHistory (n : Node) : List Call → Machine → Option Machine
  | [], m => some m
  | .resize i :: cs, m => (resize n i m).bind (runHistory n cs)
  | .invoke c inp out :: cs, m => (invoke n c m inp out).bind (fun r => runHistory n cs r.1)

/-- A new interpreter. -/
def Machine.new : Machine := ⟨OpData.new, ⟨[], false, 0⟩⟩

end Verif
