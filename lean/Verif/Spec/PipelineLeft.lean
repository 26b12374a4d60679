import Verif.Spec.PipelineRel

/-!
What the passes must not leave behind: float forms of a sign, convolutions that are padded with ones or zeros, and pairs of
operators that the int8 fusions remove.
-/

namespace Verif.Ir

/-- A sign computed with float operators: `Sign(Sign(x) + c)` with the operands in either order, or a Select with static
shape between the constants 1 and -1, in either order. -/
def Graph.SignLeft (g : Graph) : Prop :=
  (∃ n ∈ g.nodes, ∃ s ∈ g.nodes, ∃ y ∈ g.nodes, ∃ c x, n.op = .sign ∧ n.args = [s.name] ∧ s.op = .bin .add .none ∧
    (s.args = [y.name, c] ∨ s.args = [c, y.name]) ∧ y.op = .sign ∧ y.args = [x]) ∨
  (∃ n ∈ g.nodes, ∃ k t e tt et shape, n.op = .select ∧ n.args = [k, t, e] ∧ n.ty = some shape ∧ g.FloatConstant t tt ∧
    g.FloatConstant e et ∧ (((∀ v ∈ tt.data, v = 1) ∧ ∀ v ∈ et.data, v = -1) ∨ ((∀ v ∈ tt.data, v = -1) ∧ ∀ v ∈ et.data, v = 1)))

/-- Padding by `b` before and `e` after a dimension of size `n`, and then a window with a stride that gives `out`, is
what a convolution with SAME padding may do: `out` is `n / stride` rounded up, and `e` is `b` or `b + 1`. -/
def SameShaped (n out stride b e : Nat) : Prop :=
  0 < stride ∧ n + stride < 2 ^ 31 ∧ out = (n + stride - 1) / stride ∧ (e = b ∨ e = b + 1)

/-- A convolution with float operators that could be binary with SAME padding by ones: as `FloatConvLeft`, but between the
binary tensor (with static shape) and the convolution, with VALID padding, there is a constant padding of height and width
with the number 1. -/
def Graph.OnePaddedConvLeft (g : Graph) : Prop :=
  ∃ n ∈ g.nodes, ∃ z ∈ g.nodes, ∃ y ∈ g.nodes, ∃ x ∈ g.nodes, ∃ a f pd pv d0 d1 d2 cin i0 h w i3 o0 oh ow o3 fh fw ci co fd vt,
    ∃ t b l r : Nat, n.op = .conv2d a ∧ n.args = [z.name, f] ∧ n.ty = some [o0, oh, ow, o3] ∧ z.op = .pad ∧
    z.args = [y.name, pd, pv] ∧ y.op = .ldequant ∧ y.args = [x.name] ∧ y.ty = some [d0, d1, d2, cin] ∧
    x.ty = some [i0, h, w, i3] ∧ g.FloatConstant f ⟨[fh, fw, ci, co], fd⟩ ∧
    (∀ i j k o, i < fh → j < fw → k < ci → o < co →
      |fd.getD (((i * fw + j) * ci + k) * co + o) 0| = |fd.getD o 0| ∧ (1 : Rat) / 8388608 < |fd.getD o 0|) ∧
    0 < ci ∧ (ci = cin ∨ (ci ∣ cin ∧ 32 ∣ ci)) ∧ a.padding = .valid ∧ g.FloatConstant pv vt ∧ vt.data = [1] ∧
    (∃ c ∈ g.nodes, c.name = pd ∧ c.args = [] ∧ c.op = .const (.i ⟨[4, 2], [0, 0, t, b, l, r, 0, 0]⟩)) ∧
    SameShaped h oh a.strideH t b ∧ SameShaped w ow a.strideW l r

/-- A TFLite convolution (depthwise or not) with VALID padding that is the only user of a padding of height and width with
zeros that SAME padding may do (Pad, or PadV2 with the constant 0), all shapes being static. -/
def Graph.ZeroPaddedConvLeft (g : Graph) : Prop :=
  ∃ n ∈ g.nodes, ∃ z ∈ g.nodes, ∃ y ∈ g.nodes, ∃ a act dw f b pd rest i0 h w i3 o0 oh ow o3, ∃ t e l r : Nat,
    n.op = .tflConv a act dw ∧ n.args = [z.name, f, b] ∧ n.ty = some [o0, oh, ow, o3] ∧ a.padding = .valid ∧
    z.op = .pad ∧ z.args = y.name :: pd :: rest ∧ g.uses z.name = 1 ∧ y.ty = some [i0, h, w, i3] ∧
    (∃ c ∈ g.nodes, c.name = pd ∧ c.args = [] ∧ c.op = .const (.i ⟨[4, 2], [0, 0, t, e, l, r, 0, 0]⟩)) ∧
    (rest = [] ∨ ∃ pv vt, rest = [pv] ∧ g.FloatConstant pv vt ∧ vt.data = [0]) ∧
    SameShaped h oh a.strideH t e ∧ SameShaped w ow a.strideW l r

/-- What is left of quantization around the LCE operators: an int8 Quantize that is the only user of a BConv2D with float
result or of an LceDequantize, an LceQuantize that is the only user of a Dequantize, or a BConv2D whose multiplier and bias
are both quantized and dequantized. -/
def Graph.Int8Left (g : Graph) : Prop :=
  (∃ n ∈ g.nodes, ∃ y ∈ g.nodes, ∃ s z a x f m b t, n.op = .tquant s z ∧ n.args = [y.name] ∧ g.uses y.name = 1 ∧
    y.op = .bconv a ∧ y.args = [x, f, m, b, t]) ∨
  (∃ n ∈ g.nodes, ∃ y ∈ g.nodes, ∃ s z x, n.op = .tquant s z ∧ n.args = [y.name] ∧ g.uses y.name = 1 ∧
    y.op = .ldequant ∧ y.args = [x]) ∨
  (∃ n ∈ g.nodes, ∃ y ∈ g.nodes, ∃ x, n.op = .lquant ∧ n.args = [y.name] ∧ g.uses y.name = 1 ∧
    y.op = .tdequant ∧ y.args = [x]) ∨
  (∃ n ∈ g.nodes, ∃ m ∈ g.nodes, ∃ b ∈ g.nodes, ∃ m1 ∈ g.nodes, ∃ b1 ∈ g.nodes, ∃ x f t m0 b0 s1 z1 s2 z2,
    ((∃ a, n.op = .bconv a) ∨ ∃ a s z, n.op = .bconvI8 a s z) ∧ n.args = [x, f, m.name, b.name, t] ∧
    m.op = .tdequant ∧ m.args = [m1.name] ∧ m1.op = .tquant s1 z1 ∧ m1.args = [m0] ∧
    b.op = .tdequant ∧ b.args = [b1.name] ∧ b1.op = .tquant s2 z2 ∧ b1.args = [b0])

end Verif.Ir
