import Verif.Model.OpState

/-!
Specification of which BConv2D nodes are supported, written from the documentation of the
operator: it does not mention how `Prepare` decides.
-/

namespace Verif

/-- A filter of `cout` output channels whose pixels have `fd` words fits `cin` input channels
with `g` groups: either one group and `fd = ceil(cin / 32)`, or at least two groups of exactly
`32 * fd` channels each, which divide the output channels. The im2col BGEMM kernel does not
support groups. -/
def GroupsOk (kt : KernelType) (cin cout fd g : Nat) : Prop :=
  (g = 1 ∧ fd = (cin + 31) / 32) ∨
  (2 ≤ g ∧ kt ≠ .bgemm ∧ 0 < fd ∧ cin = g * (32 * fd) ∧ cout % g = 0)

/-- A parameter tensor: one-dimensional, of the given type, one element per output channel. -/
def ParamOk (t : Option Tensor) (ty : TType) (cout : Nat) : Prop := t = some ⟨ty, [cout]⟩

/-- The supported nodes. -/
structure Supported (n : Node) (i : InputDesc) (a : Attrs) (g : Nat) : Prop where
  inputs : n.nInputs = 5
  types : n.inType = .int32 ∧ n.filter.type = .int32
  shapes : ∃ b h w d cout fh fw fd, i.dims = [b, h, w, d] ∧ n.filter.dims = [cout, fh, fw, fd] ∧
    GroupsOk n.kt a.cin cout fd g ∧
    0 ≤ computeOutSize a.padding h fh a.strideH a.dilH ∧ 0 ≤ computeOutSize a.padding w fw a.strideW a.dilW ∧
    ((n.outType = .int32 ∧ ParamOk n.thr .int32 cout) ∨
     (n.outType = .int8 ∧ n.outAffine = true ∧ ParamOk n.mult .float32 cout ∧ ParamOk n.bias .float32 cout) ∨
     (n.outType = .float32 ∧ ParamOk n.mult .float32 cout ∧ ParamOk n.bias .float32 cout))
  zeroPad : a.padding = .same → a.padValue = 0 →
    (n.kt = .reference ∧ 2 ∣ a.cin) ∨ (n.kt ≠ .reference ∧ n.outType = .float32 ∧ a.act = .none)
  static : n.kt = .indirect → i.dynamic = false

/-- The tensors of a node have the data their shapes promise: an input of shape
`b x h x w x ceil(cin/32)` words, a filter of shape `cout x fh x fw x fd` words with `g` groups,
both with unused bits zero; a non-empty filter, positive strides, and a dot product length that
fits the int32 arithmetic. -/
structure TensorsOk (n : Node) (a : Attrs) (i : InputDesc) (inp : List Word)
    (b h w cout fh fw fd g : Nat) : Prop where
  dims : i.dims = [b, h, w, (a.cin + 31) / 32]
  fdims : n.filter.dims = [cout, fh, fw, fd]
  groups : g * fd = (a.cin + 31) / 32
  pos : 0 < a.cin ∧ 0 < cout ∧ 0 < fh ∧ 0 < fw ∧ 1 ≤ a.strideH ∧ 1 ≤ a.strideW
  padValue : a.padValue = 0 ∨ a.padValue = 1
  inLen : inp.length = b * h * w * ((a.cin + 31) / 32)
  filtLen : n.filtData.length = cout * fh * fw * fd
  inUnused : ∀ q k c, q < b * h * w → k < (a.cin + 31) / 32 → c < 32 → a.cin ≤ 32 * k + c →
    (inp.getD (q * ((a.cin + 31) / 32) + k) 0#32).getLsbD c = false
  filtUnused : ∀ q k c, q < cout * fh * fw → k < fd → c < 32 → a.cin / g ≤ 32 * k + c →
    (n.filtData.getD (q * fd + k) 0#32).getLsbD c = false
  bound : 2 * (fh * fw * (a.cin / g)) < 2147483648

/-- The value of the padding pixels: 0 for SAME padding with `pad_values = 0`, else 1. -/
def Attrs.padded (a : Attrs) : Int := if a.padding = .same ∧ a.padValue = 0 then 0 else 1

end Verif
