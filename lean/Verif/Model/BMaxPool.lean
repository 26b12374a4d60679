import Verif.Model.Params

/-!
Model of `/repo/larq_compute_engine/core/bmaxpool.h` and
`/repo/larq_compute_engine/tflite/kernels/bmaxpool.cc`.

Simplifications: attributes are non-negative; `int` is unbounded; padding values other than SAME
and VALID are not modelled; a pointer may be advanced past the end of the input as long as it is
not dereferenced (the code does so after the last row of a window).
-/

namespace Verif

/-- The attributes read by `Init` (bmaxpool.cc:23-37). -/
structure PoolAttrs where
  filtH : Nat
  filtW : Nat
  strideH : Nat
  strideW : Nat
  padding : Padding
deriving DecidableEq, Repr

/-- `BMaxPoolParams` (bmaxpool.h:14-21) with the input shape `[batches, inH, inW, ch]` (`ch` words)
and the output height and width. -/
structure Pool where
  filtH : Nat
  filtW : Nat
  strideH : Nat
  strideW : Nat
  padding : Padding
  padH : Nat
  padW : Nat
  batches : Nat
  inH : Nat
  inW : Nat
  ch : Nat
  outH : Nat
  outW : Nat
deriving DecidableEq, Repr

/-- `Prepare` (bmaxpool.cc:43-79) for an input of shape `dims`; `tyIn`, `tyOut`: are input and
output int32; `none` when it fails (`ResizeTensor` fails on a negative dimension). The second
component is the output shape. -/
def poolPrepare (nIn nOut : Nat) (tyIn tyOut : Bool) (a : PoolAttrs) (dims : List Nat) :
    Option (Pool × List Nat) :=
  if nIn = 1 ∧ nOut = 1 ∧ dims.length = 4 ∧ tyIn ∧ tyOut ∧ a.strideH ≠ 0 ∧ a.strideW ≠ 0 ∧
      a.filtH ≠ 0 ∧ a.filtW ≠ 0 then
    let h := dims.getD 1 0
    let w := dims.getD 2 0
    let oh := computeOutSize a.padding h a.filtH a.strideH 1
    let ow := computeOutSize a.padding w a.filtW a.strideW 1
    if 0 ≤ oh ∧ 0 ≤ ow then
      some ({ filtH := a.filtH, filtW := a.filtW, strideH := a.strideH, strideW := a.strideW,
              padding := a.padding,
              padH := computePadding a.strideH 1 h a.filtH oh,
              padW := computePadding a.strideW 1 w a.filtW ow,
              batches := dims.getD 0 0, inH := h, inW := w, ch := dims.getD 3 0,
              outH := oh.toNat, outW := ow.toNat },
            [dims.getD 0 0, oh.toNat, ow.toNat, dims.getD 3 0])
    else none
  else none

/-- bmaxpool.h:46-60, one dimension: `(in_x, filter_x_count)`. -/
def poolWindow (o stride pad filt inS : Nat) : Int × Int :=
  let origin : Int := (o : Int) * stride - pad
  let start := max 0 (-origin)
  let inX := origin + start
  (inX, min ((filt : Int) - start) ((inS : Int) - inX))

/-- bmaxpool.h:75-86: the loops over one window for one word; the state is `(max, in_ptr)`. -/
def poolWord (p : Pool) (inp : List Word) (cx cy ptr : Int) : Option Word :=
  (forN cy.toNat (fun _ (st : Word × Int) => do
    let st ← forN cx.toNat (fun _ (st : Word × Int) => do
      let v ← rdI inp st.2
      some (st.1 &&& v, st.2 + (p.ch : Int))) st
    some (st.1, st.2 + (p.ch : Int) * ((p.inW : Int) - cx))) (~~~0#32, ptr)).map (·.1)

/-- `BMaxPool` (bmaxpool.h:23-90). -/
def bmaxpool (p : Pool) (inp : List Word) (out : List Word) : Option (List Word) :=
  forN p.batches (fun b out =>
    forN p.outH (fun oy out =>
      forN p.outW (fun ox out =>
        let wx := poolWindow ox p.strideW p.padW p.filtW p.inW
        let wy := poolWindow oy p.strideH p.padH p.filtH p.inH
        let base : Int := (((b : Int) * p.inH + wy.1) * p.inW + wx.1) * p.ch
        forN p.ch (fun c out => do
          let v ← poolWord p inp wx.2 wy.2 (base + c)
          wr out (offset4 p.outH p.outW p.ch b oy ox c) v) out) out) out) out

end Verif
