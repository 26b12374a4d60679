import Verif.Model.Pipeline
import Verif.Proof.Ir
import Mathlib.Algebra.Order.Group.Unbundled.Abs

/-!
What is said about the passes of the converter (C69): the assumptions on the passes of TensorFlow and TFLite, and the
properties of the graphs that the passes produce.
-/

namespace Verif.Ir

/-! ### Assumptions on patterns that are not in `/repo` -/

mutual
/-- The result of a pattern contains no BConv2D. -/
def Rhs.noBConv : Rhs → Prop
  | .var _ => True
  | .op o _ args => o.isBConv = false ∧ Rhs.noBConvL args

/-- See `Rhs.noBConv`. -/
def Rhs.noBConvL : List Rhs → Prop
  | [] => True
  | a :: as => a.noBConv ∧ Rhs.noBConvL as
end

mutual
/-- The result of a pattern is computed from values in `C`, not from arguments of the function. -/
def Rhs.from (C : Nat → Prop) : Rhs → Prop
  | .var x => C x
  | .op o _ args => (∀ k, o ≠ .arg k) ∧ Rhs.fromL C args

/-- See `Rhs.from`. -/
def Rhs.fromL (C : Nat → Prop) : List Rhs → Prop
  | [] => True
  | a :: as => a.from C ∧ Rhs.fromL C as
end

/-- A pattern of TensorFlow or TFLite that knows nothing about BConv2D: it uses operands of operations it looked at, does
not rewrite constants, and makes no BConv2D. -/
structure Neutral (r : Rule) : Prop where
  uses : ∀ c n t, r.apply c n = some t → ∀ x ∈ t.vars, x ∈ n.args ∨ ∃ y m, c.look y = some m ∧ x ∈ m.args
  consts : ∀ c n v, n.op = .const v → r.apply c n = Option.none
  noBConv : ∀ c n t, r.apply c n = some t → t.noBConv

/-- A pattern of TensorFlow or TFLite that keeps what the graph computes, in addition: its result has the value of the root
unless the match is exceptional; what it makes from values that do not depend on the arguments does not either. -/
structure Faithful (r : Rule) : Prop extends Neutral r where
  value : ∀ ins env c n t, (∀ x m, c.look x = some m → env x = m.eval ins env) →
    (∀ x v, env x = some v → v.wf = true) → r.apply c n = some t → r.exc c n = false → r.excAt env c n = false →
    ∀ v, n.eval ins env = some v → t.eval ins env = some v
  depends : ∀ c n t (C : Nat → Prop), r.apply c n = some t →
    (∀ y m, c.look y = some m → C y → ∀ a ∈ m.args, C a) → (∀ a ∈ n.args, C a) → t.from C

/-- The assumptions on the patterns of TensorFlow and TFLite. -/
structure ForeignOk (F : Foreign) : Prop where
  faithful : ∀ r ∈ F.rules, Faithful r
  neutral : ∀ r ∈ F.quant, Neutral r

/-! ### Properties of the graphs -/

/-- The filter of every BConv2D is a constant that holds bits, with four dimensions. -/
def Graph.PackedFilters (g : Graph) : Prop :=
  ∀ n ∈ g.nodes, n.op.isBConv = true → ∃ x f rest, n.args = x :: f :: rest ∧
    ∃ c ∈ g.nodes, c.name = f ∧ ∃ t, c.op = .const (.s t) ∧ t.shape.length = 4

/-- The attributes of a BConv2D. -/
def Op.bconvAttrs : Op → Option BConvAttrs
  | .bconv a => some a
  | .bconvI8 a _ _ => some a
  | _ => Option.none

/-- Every BConv2D has VALID padding, or SAME padding with ones, or (only for Arm) SAME padding with zeros. -/
def Graph.PaddingOk (arm : Bool) (g : Graph) : Prop :=
  ∀ n ∈ g.nodes, ∀ a, n.op.bconvAttrs = some a →
    (a.padding = .valid ∧ a.padValue = 0) ∨ (a.padding = .same ∧ a.padValue = 1) ∨
      (arm = true ∧ a.padding = .same ∧ a.padValue = 0)

/-- The runtime implements the activation of every BConv2D. -/
def Graph.ActivationsOk (g : Graph) : Prop :=
  ∀ n ∈ g.nodes, ∀ a, n.op.bconvAttrs = some a → a.act = .none ∨ a.act = .relu ∨ a.act = .reluN1To1 ∨ a.act = .relu6

/-- `x` is the float constant `t`. -/
def Graph.FloatConstant (g : Graph) (x : Nat) (t : Tens) : Prop :=
  ∃ c ∈ g.nodes, c.name = x ∧ c.args = [] ∧ c.op = .const (.f t)

/-- A convolution with float operators that could be binary: its input is the float form of a binary tensor with a
static shape, the filter is a constant whose weights have, in each output channel, the same magnitude (not tiny); there is
one group, or the channels of a group fill whole words; VALID padding or, for Arm, SAME. -/
def Graph.FloatConvLeft (arm : Bool) (g : Graph) : Prop :=
  ∃ n ∈ g.nodes, ∃ y ∈ g.nodes, ∃ a f x d0 d1 d2 cin fh fw ci co fd,
    n.op = .conv2d a ∧ n.args = [y.name, f] ∧ y.op = .ldequant ∧ y.args = [x] ∧ y.ty = some [d0, d1, d2, cin] ∧
    g.FloatConstant f ⟨[fh, fw, ci, co], fd⟩ ∧
    (∀ h w i o, h < fh → w < fw → i < ci → o < co →
      |fd.getD (((h * fw + w) * ci + i) * co + o) 0| = |fd.getD o 0| ∧ (1 : Rat) / 8388608 < |fd.getD o 0|) ∧
    0 < ci ∧ (ci = cin ∨ (ci ∣ cin ∧ 32 ∣ ci)) ∧ (a.padding = .valid ∨ (arm = true ∧ a.padding = .same))

/-- An operation that could be part of the BConv2D whose result it is the only one to use:

* LceQuantize, so that the BConv2D could write bits;
* Add, Sub, Mul, Div by a constant;
* Relu, Relu1 or Relu6, if the multiplier is 1, the bias 0 and there is no activation function yet;

the first and the last only without SAME padding with zeros. -/
def Graph.BConvUserLeft (g : Graph) : Prop :=
  ∃ n ∈ g.nodes, ∃ y ∈ g.nodes, ∃ a rest, y.op = .bconv a ∧ n.args = y.name :: rest ∧ g.uses y.name = 1 ∧
    ((n.op = .lquant ∧ rest = [] ∧ ¬ (a.padding = .same ∧ a.padValue = 0)) ∨
     (∃ op v t, n.op = .bin op .none ∧ rest = [v] ∧ g.FloatConstant v t) ∨
     (∃ ac x f m b th mt bt, n.op = .act ac ∧ ac ∈ [Act.relu, .reluN1To1, .relu6] ∧ rest = [] ∧ a.act = .none ∧ y.args = [x, f, m, b, th] ∧
        g.FloatConstant m mt ∧ (∀ v ∈ mt.data, v = 1) ∧ g.FloatConstant b bt ∧ (∀ v ∈ bt.data, v = 0) ∧
        ¬ (a.padding = .same ∧ a.padValue = 0)))

/-- LceQuantize of a comparison, or (for Arm) of a max pool, whose result it is the only one to use. -/
def Graph.QuantizeLeft (arm : Bool) (g : Graph) : Prop :=
  ∃ n ∈ g.nodes, ∃ y ∈ g.nodes, n.op = .lquant ∧ n.args = [y.name] ∧ g.uses y.name = 1 ∧
    (y.op = .ge ∨ y.op = .le ∨ (arm = true ∧ ∃ a act, y.op = .maxPool a act))

end Verif.Ir
