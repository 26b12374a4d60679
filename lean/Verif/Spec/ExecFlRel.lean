import Verif.Model.ExecFl
import Verif.Spec.ExecRel
import Verif.Spec.Float32
import Verif.Spec.Float64

/-!
Tolerances for an inference in floating-point arithmetic: how far a tensor may be from the exact value, and for every node what
must hold so that operands within their tolerances give a result within its tolerance. This file knows nothing about how the
kernels work.
-/

namespace Verif.Ir

/-- `v'` is within `ε` of `v`: the same kind of tensor and shape; floats (and int8 numbers) differ by at most `ε`; everything
else, in particular a binary tensor, is equal. -/
def Val.Near (ε : Rat) : Val → Val → Prop
  | .f t, v' => ∃ d, v' = .f ⟨t.shape, d⟩ ∧ List.Forall₂ (fun x y => |y - x| ≤ ε) t.data d
  | .q t sc zp, v' => ∃ d, v' = .q ⟨t.shape, d⟩ sc zp ∧ List.Forall₂ (fun x y => |((y - x : Int) : Rat)| ≤ ε ∧ -128 ≤ y ∧ y ≤ 127) t.data d
  | v, v' => v' = v

/-- The tensor `m` stands for a value within `ε` of `v`. -/
def RepNear (ε : Rat) (v : Val) (m : MVal) : Prop := ∃ v', v.Near ε v' ∧ Rep v' m

/-- Float arithmetic rounds to nearest, floats are rounded to a nearest integer (any rule for ties), and threads only reorder
writes. -/
structure FlCfg.Proper (F : FlCfg) : Prop where
  f32 : RoundsToNearest F.R.fl
  f64 : RoundsToNearest64 F.R.dl
  rnd : ∀ y : Rat, |(F.rnd y : Rat) - y| ≤ 1 / 2
  order : ∀ nm {α : Type} (l : List (Write α)), (F.order nm l).Perm l

/-- Multiplier `m` and bias `b` of a convolution with dot products of length `K` are multiples of the same power of two,
small enough that no rounding occurs. -/
def DyadicPair (K : Nat) (m b : Rat) : Prop :=
  ∃ M B q : Int, -149 ≤ q ∧ q ≤ 103 ∧ m = (M : Rat) * 2 ^ q ∧ b = (B : Rat) * 2 ^ q ∧ |B| + 2 * ((K : Int) * |M|) ≤ 2 ^ 24

/-- With float result: the numbers are in the range of C58 and C73, and either the bound of C73 is within the tolerance `ε`, or
no rounding occurs. -/
def bconvFlOk (ε : Rat) (f : Val) (m b : Tens) : Prop :=
  ∀ co fh fw ci, f.shape = [co, fh, fw, ci] → 2 * (fh * fw * ci) ≤ 2 ^ 24 ∧
    ((∀ c, c < co → Binary32 (m.data.getD c 0) ∧
        |b.data.getD c 0| + 4 * (((fh * fw * ci : Nat) : Rat) * |m.data.getD c 0|) ≤ 2 ^ (125 : Int) ∧
        (|b.data.getD c 0| + ((fh * fw * ci : Nat) : Rat) * |m.data.getD c 0|) * (8 / 2 ^ 24) + 2 ^ (-146 : Int) ≤ ε) ∨
      (∀ c, c < co → DyadicPair (fh * fw * ci) (m.data.getD c 0) (b.data.getD c 0)))

/-- With int8 result: the numbers are in the range of C59, and either the tolerance is at least 1, or no value the convolution
can take is so close to a half-integer that it may be rounded differently. -/
def bconvI8FlOk (ε : Rat) (a : BConvAttrs) (s : Rat) (z : Int) (f : Val) (m b : Tens) : Prop :=
  ∀ co fh fw ci, f.shape = [co, fh, fw, ci] → 2 * (fh * fw * ci) ≤ 2 ^ 24 ∧ (2 : Rat) ^ (-40 : Int) ≤ s ∧ s ≤ 2 ^ (40 : Int) ∧
    (∀ c, c < co → Binary32 (m.data.getD c 0) ∧
      (|b.data.getD c 0| + ((fh * fw * ci : Nat) : Rat) * |m.data.getD c 0|) / s + |(z : Rat)| ≤ 2 ^ 20) ∧
    (1 ≤ ε ∨ ∀ c, c < co → ∀ k n : Int, |k| ≤ ((fh * fw * ci : Nat) : Int) →
      ((|b.data.getD c 0| + ((fh * fw * ci : Nat) : Rat) * |m.data.getD c 0|) / s + |(z : Rat)|) * (7 / 2 ^ 24) + 2 ^ (-123 : Int) <
        |(a.act.real k * m.data.getD c 0 + b.data.getD c 0) / s + z - ((n : Rat) + 1 / 2)|)

/-- For a node with operands `l` of tolerances `es` and a result of tolerance `ε`:

* LceQuantize: no number is closer to the boundary between the two signs (0, or the zero point of an int8 tensor) than its
  tolerance;
* LceDequantize to int8: `1 / scale` is not so close to a half-integer that it may be rounded differently, or the tolerance is
  at least 1;
* BConv2D: the operands are exact; see `bconvFlOk`, `bconvI8FlOk`;
* an operator that only passes its operand on: the tolerance does not shrink;
* an operator that is not from the Larq Compute Engine: TFLite's kernel, given operands within their tolerances, returns a
  result within its tolerance. -/
def flOp (F : FlCfg) (ty : Option (List Nat)) (ε : Rat) (es : List Rat) : Op → List Val → Prop
  | .arg _, _ => True
  | .const _, _ => True
  | .ident, _ => ∀ e ∈ es, e ≤ ε
  | .pass, _ => ∀ e ∈ es, e ≤ ε
  | .lquant, [.f t] => ∀ e ∈ es, ∀ v ∈ t.data, (v < 0 → v + e < 0) ∧ (0 ≤ v → 0 ≤ v - e)
  | .lquant, [.q t _ z] => ∀ e ∈ es, ∀ v ∈ t.data, (v < z → (v : Rat) + e < z) ∧ (z ≤ v → (z : Rat) ≤ v - e)
  | .lquant, _ => True
  | .ldequant, _ => True
  | .ldequantI8 s _, _ => 1 ≤ ε ∨ ∀ n : Int, 1 / s / 2 ^ 24 + 2 ^ (-150 : Int) < |1 / s - ((n : Rat) + 1 / 2)|
  | .bmaxPool _, _ => True
  | .bconv a, [_, f, .f m, .f b, _] => (∀ e ∈ es, e = 0) ∧ (a.outBits = false → bconvFlOk ε f m b)
  | .bconv _, _ => ∀ e ∈ es, e = 0
  | .bconvI8 a s z, [_, f, .f m, .f b, _] => (∀ e ∈ es, e = 0) ∧ bconvI8FlOk ε a s z f m b
  | .bconvI8 _ _ _, _ => ∀ e ∈ es, e = 0
  | o, l => ∀ l', List.Forall₂ (fun p v' => Val.Near p.2 p.1 v') (l.zip es) l' →
      ∃ v', F.pf o ty l' = some v' ∧ ∀ v, o.run [] ty l = some v → v.Near ε v'

/-- The tolerances `T` of the tensors of a graph are consistent, for the arguments `ins`. -/
def Graph.Tolerances (F : FlCfg) (T : Nat → Rat) (g : Graph) (ins : List Val) : Prop :=
  (∀ nm, 0 ≤ T nm) ∧
  ∀ n ∈ g.nodes, ∀ l, n.args.mapM (runNodes ins g.nodes fun _ => none) = some l → flOp F n.ty (T n.name) (n.args.map T) n.op l

end Verif.Ir
