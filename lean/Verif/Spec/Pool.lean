import Verif.Model.BMaxPool
import Verif.Spec.Quant

/-!
Specification of max pooling, independent of the kernel.
-/

namespace Verif

namespace Pool

/-- Is image row (column) `i` covered by output position `o`: the window starts at
`o * stride - pad` and has `filt` positions. -/
def covers (o stride pad filt i : Nat) : Prop :=
  (o : Int) * stride - pad ≤ i ∧ (i : Int) < (o : Int) * stride - pad + filt

instance (o stride pad filt i : Nat) : Decidable (covers o stride pad filt i) := by
  unfold covers; infer_instance

/-- The image positions in the window of output `(oy, ox)`. -/
def window (p : Pool) (oy ox iy ix : Nat) : Prop :=
  iy < p.inH ∧ ix < p.inW ∧ covers oy p.strideH p.padH p.filtH iy ∧ covers ox p.strideW p.padW p.filtW ix

/-- The output size and padding are TFLite's for the given attributes. -/
structure Geom (p : Pool) : Prop where
  strides : 1 ≤ p.strideH ∧ 1 ≤ p.strideW
  filt : 1 ≤ p.filtH ∧ 1 ≤ p.filtW
  outH : (p.outH : Int) = computeOutSize p.padding p.inH p.filtH p.strideH 1
  outW : (p.outW : Int) = computeOutSize p.padding p.inW p.filtW p.strideW 1
  padH : p.padH = computePadding p.strideH 1 p.inH p.filtH p.outH
  padW : p.padW = computePadding p.strideW 1 p.inW p.filtW p.outW

end Pool

/-- The value of element `i` on a linear scale: floats that are not NaN by their position on the
number line, int8 by its value. -/
def TData.keyAt (x : TData) (i : Nat) : Option Int :=
  match x with
  | .f32 xs => (xs[i]?).bind (fun v => if v.isNaN then none else some v.key)
  | .i8 xs _ _ => (xs[i]?).map (·.toInt)
  | .bool _ => none

/-- Same element type and quantization parameters. -/
def TData.sameType : TData → TData → Prop
  | .f32 _, .f32 _ => True
  | .i8 _ s z, .i8 _ s' z' => s = s' ∧ z = z'
  | _, _ => False

/-- `y` is the max pool of `x` (with `C` channels): every element of `y` is the largest value of
its window (no NaN in any window). This is the contract of TFLite's MaxPool2D without fused
activation. -/
def IsMaxPool (p : Pool) (C : Nat) (x y : TData) : Prop :=
  ∀ b oy ox c, b < p.batches → oy < p.outH → ox < p.outW → c < C →
    ∃ m, y.keyAt (((b * p.outH + oy) * p.outW + ox) * C + c) = some m ∧
      (∃ iy ix, p.window oy ox iy ix ∧ x.keyAt (((b * p.inH + iy) * p.inW + ix) * C + c) = some m) ∧
      ∀ iy ix, p.window oy ox iy ix →
        ∃ v, x.keyAt (((b * p.inH + iy) * p.inW + ix) * C + c) = some v ∧ v ≤ m

/-- A fused activation function on non-NaN floats, on the linear scale of `F32.key` (`6.0f` is
`0x40C00000`): clamping to the activation's range. -/
def Act.onKey : Act → Int → Int
  | .relu, m => max m 0
  | .relu6, m => min (max m 0) (F32.key 0x40C00000#32)
  | .reluN1To1, m => min (max m (F32.key F32.negOne)) (F32.key F32.one)
  | .none, m => m
  | .other, m => m

/-- `y` is TFLite's float MaxPool2D of `x` with fused activation `act`. -/
def IsMaxPoolAct (p : Pool) (C : Nat) (act : Act) (x y : List F32) : Prop :=
  ∃ y0, IsMaxPool p C (.f32 x) (.f32 y0) ∧ y.length = y0.length ∧
    ∀ i m, (TData.f32 y0).keyAt i = some m → (TData.f32 y).keyAt i = some (act.onKey m)

end Verif
