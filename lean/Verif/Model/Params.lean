import Verif.Model.Bitpack

/-!
Convolution parameters and shapes, and the contracts of the TFLite helper functions
that `Prepare` calls (they are not in /repo; they are part of the trusted base).
-/

namespace Verif

/-- `TfLitePadding`. -/
inductive Padding where
  | same
  | valid
deriving DecidableEq, Repr

/-- `TfLiteFusedActivation`; `other` stands for the activations TFLite defines but
LCE does not handle (tanh, sign-bit, sigmoid). -/
inductive Act where
  | none
  | relu
  | reluN1To1
  | relu6
  | other
deriving DecidableEq, Repr

/-- Effective size of a dilated filter. -/
def effSize (filter dilation : Nat) : Nat := (filter - 1) * dilation + 1

/-- TFLite `ComputeOutSize` (tensorflow/lite/kernels/padding.h), used through
`ComputePaddingHeightWidth` in tflite/kernels/bconv2d.cc:206-213 and
tflite/kernels/bmaxpool.cc. C++ `int` division truncates. -/
def computeOutSize (p : Padding) (inSize filter stride dilation : Nat) : Int :=
  match p with
  | .same => ((inSize : Int) + stride - 1).tdiv stride
  | .valid => ((inSize : Int) + stride - effSize filter dilation).tdiv stride

/-- TFLite `ComputePaddingWithOffset` (tensorflow/lite/kernels/padding.h). -/
def computePadding (stride dilation inSize filter : Nat) (outSize : Int) : Nat :=
  let total : Int := (outSize - 1) * stride + effSize filter dilation - inSize
  let total := max total 0
  (total.tdiv 2).toNat

/-- TFLite `CalculateActivationRange<int32_t>`
(tensorflow/lite/kernels/kernel_util.h); used in bconv2d.cc:377-379. -/
def activationRange : Act → Int × Int
  | .relu => (0, 2147483647)
  | .relu6 => (0, 6)
  | .reluN1To1 => (-1, 1)
  | .none => (-2147483648, 2147483647)
  | .other => (-2147483648, 2147483647)

/-- The shapes and parameters of one binary convolution as the kernels see them:
`BConv2DParams` (core/bconv2d/params.h:12-33) together with the input shape
`[batches, inH, inW, inDepth]` (packed), the filter shape
`[cout, filtH, filtW, filtDepth]` (packed) and the output height and width. -/
structure BConv where
  batches : Nat
  inH : Nat
  inW : Nat
  /-- number of words per input pixel -/
  inDepth : Nat
  /-- `channels_in`: number of (unpacked) input channels -/
  cin : Nat
  filtH : Nat
  filtW : Nat
  /-- number of words per filter pixel -/
  filtDepth : Nat
  /-- `channels_out` -/
  cout : Nat
  groups : Nat
  strideH : Nat
  strideW : Nat
  dilH : Nat
  dilW : Nat
  padding : Padding
  padH : Nat
  padW : Nat
  /-- `pad_value`, 0 or 1 -/
  padValue : Nat
  outH : Nat
  outW : Nat
deriving Repr

/-- The output size and the padding are those computed in `Prepare` by
`ComputePaddingHeightWidth` (bconv2d.cc:206-213). -/
structure BConv.Geom (p : BConv) : Prop where
  outH : (p.outH : Int) = computeOutSize p.padding p.inH p.filtH p.strideH p.dilH
  outW : (p.outW : Int) = computeOutSize p.padding p.inW p.filtW p.strideW p.dilW
  padH : p.padH = computePadding p.strideH p.dilH p.inH p.filtH p.outH
  padW : p.padW = computePadding p.strideW p.dilW p.inW p.filtW p.outW

/-- TFLite `Offset(shape, i0, i1, i2, i3)` for a 4-D shape with dimensions
`[_, d1, d2, d3]`. -/
def offset4 (d1 d2 d3 : Nat) (i0 i1 i2 i3 : Nat) : Nat := ((i0 * d1 + i1) * d2 + i2) * d3 + i3

end Verif
