import Verif.Model.Exec
import Verif.Spec.Quant
import Verif.Spec.ZeroPad

/-!
What it means that a tensor at run time stands for a value of the graph, and in which cases an inference is refused or
the kernels of C13, C17 and C47 are known to go wrong. This file knows nothing about how the kernels work.
-/

namespace Verif.Ir

/-- The tensor `m` stands for the value `v`. For a binary tensor with `c` channels: every pixel takes `ceil(c / 32)`
words, channel `k` is bit `k % 32` of word `k / 32`, a set bit is -1, the unused bits are 0. All other tensors are the
value itself. -/
def Rep : Val → MVal → Prop
  | .s t, .words dims d => ∃ lead c, t.shape = lead ++ [c] ∧ dims = lead ++ [(c + 31) / 32] ∧ IsPacked lead.prod c d ∧
      ∀ r k, r < lead.prod → k < c →
        (d.getD (r * ((c + 31) / 32) + k / 32) 0#32).getLsbD (k % 32) = t.data.getD (r * c + k) false
  | .s _, .plain _ => False
  | v, .plain v' => v' = v
  | _, .words _ _ => False

/-- ruy covers the result with blocks, whichever it chooses. -/
def Cfg.Scheduled (cfg : Cfg) : Prop :=
  ∀ nm k rows cols, 0 < k → Schedule rows cols k 1 (cfg.blocks nm k rows cols)

/-- The operands of a node are not among the cases in which a kernel is known to go wrong:

* optimized kernels, SAME padding with zeros: every output pixel is one the kernels correct (C17; so it is when the dilated filter
  is not larger than the image, and C17 shows that the kernels are wrong for some input otherwise);
* a BConv2D with binary result does not pad with zeros (C47);
* the indirect kernel with binary result: the output channels of a group are a multiple of 4, and the rounded-up dot
  product length fits (C13);
* a BConv2D with int8 result: no value the convolution can take (a number between minus and plus the number of products)
  is larger than 2^30 in units of the scale (so that it can be converted to an integer);
* LceDequantize to int8: `1 / scale` is at most 2^30 (likewise). -/
def tameOp (kt : KernelType) : Op → List Val → Prop
  | .bconv a, [x, f, _, _, _] => ∀ n h w cin co fh fw ci, x.shape = [n, h, w, cin] → f.shape = [co, fh, fw, ci] →
      (kt ≠ .reference → a.padding = .same → a.padValue = 0 →
        ∀ p, geom a.toConvAttrs a.padValue n h w cin co fh fw ci = some p → ∀ y z, y < p.outH → z < p.outW → p.Corrected y z) ∧
      (a.outBits = true → ¬ (a.padding = .same ∧ a.padValue = 0)) ∧
      (kt = .indirect → a.outBits = true →
        co / (cin / ci) % 4 = 0 ∧ 2 * (32 * (fh * fw * ((ci + 31) / 32))) < 2147483648)
  | .bconvI8 a s z, [_, f, .f m, .f b, _] => ∀ co fh fw ci, f.shape = [co, fh, fw, ci] → ∀ (k : Int) (c : Nat),
      -((fh * fw * ci : Nat) : Int) ≤ k → k ≤ (fh * fw * ci : Nat) → c < co →
        |(a.act.real k * m.data.getD c 0 + b.data.getD c 0) / s + z| ≤ 1073741824
  | .ldequantI8 s _, _ => 1 / s ≤ 1073741824
  | _, _ => True

/-- The cases in which a BConv2D with the filter `f` is refused; `int8`: the type of its result is int8. -/
def bconvRejected (cfg : Cfg) (nm : Nat) (a : BConvAttrs) (int8 : Bool) (f : Val) : Prop :=
  (∀ t, f ≠ .s t) ∨ 1 < a.padValue ∨ (cfg.kt = .bgemm ∧ f.shape.getD 3 0 ≠ a.cin) ∨
  (a.padding = .same ∧ a.padValue = 0 ∧ ¬ ((cfg.kt = .reference ∧ 2 ∣ a.cin) ∨
    (cfg.kt ≠ .reference ∧ a.outBits = false ∧ int8 = false ∧ a.act = .none))) ∨
  (cfg.kt = .indirect ∧ cfg.dyn nm = true)

/-- The cases in which an inference is refused with an error:

* BConv2D: the filter is not packed; `pad_values` is neither 0 nor 1; groups with the BGEMM kernel; padding with zeros,
  unless it is the reference kernel and the number of channels is even, or an optimized kernel with float result (neither
  binary nor int8) and no activation; the indirect kernel with a dynamic input;
* LceDequantize: no static shape (this model's restriction);
* a binary constant without dimensions;
* an operator the model does not know (`other`) that uses or makes binary tensors. -/
def rejected (cfg : Cfg) (nm : Nat) (ty : Option (List Nat)) : Op → List Val → Prop
  | .const (.s t), _ => t.shape = []
  | .ldequant, _ => ty = none
  | .ldequantI8 _ _, _ => ty = none
  | .bconv a, [_, f, _, _, _] => bconvRejected cfg nm a false f
  | .bconvI8 a _ _, [_, f, _, _, _] => bconvRejected cfg nm a true f
  | .other fn, l => (∃ t, Val.s t ∈ l) ∨ ∃ t, fn l = some (.s t)
  | _, _ => False

/-- Some node of the graph is refused, for the arguments `ins`. -/
def Graph.Rejected (cfg : Cfg) (g : Graph) (ins : List Val) : Prop :=
  ∃ n ∈ g.nodes, ∃ l, n.args.mapM (runNodes ins g.nodes fun _ => none) = some l ∧ rejected cfg n.name n.ty n.op l

/-- No node is among the cases in which a kernel is known to go wrong, for the arguments `ins`. -/
def Graph.Tame (kt : KernelType) (g : Graph) (ins : List Val) : Prop :=
  ∀ n ∈ g.nodes, ∀ l, n.args.mapM (runNodes ins g.nodes fun _ => none) = some l → tameOp kt n.op l

end Verif.Ir
