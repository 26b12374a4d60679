import Verif.Model.OpState
import Verif.Model.Quantization

/-!
Model of the rewrites of `/repo/larq_compute_engine/mlir/transforms/quantize_patterns.td` that move TFLite's
Quantize/Dequantize operators into LCE operators, and of those two TFLite operators.
-/

namespace Verif

/-- TFLite's `QUANTIZE` on one element (external contract, TFLite `AffineQuantize`): the float division `x / scale`
(rounded by `fl`), `TfLiteRound`, conversion to int32, addition of the zero point in int32, clamping to int8. `none` when
the conversion or the addition is undefined. -/
def tflQuantize (fl : Rat → Rat) (scale : Rat) (zp : Int) (x : Rat) : Option Int := do
  let r ← toInt32 (roundHalfAway (fl (x / scale)))
  let v ← toInt32 (r + zp)
  some (min 127 (max (-128) v))

/-- TFLite's `DEQUANTIZE` on one int8 element (external contract): `scale * (q - zp)` in float arithmetic; the integer
difference is exact in float. -/
def tflDequantize (fl : Rat → Rat) (scale : Rat) (zp : Int) (q : BitVec 8) : Rat := fl (scale * ((q.toInt - zp : Int) : Rat))

/-- The rewrite `Quantize(BConv2D)` to a BConv2D with quantized output (quantize_patterns.td:39-67): the same operands
and attributes, only the result type changes. The only condition is that the float result has one use (not modelled). -/
def fuseOutputQuant (scale : Rat) (zp : Int) (n : Node) : Option Node :=
  if n.outType = .float32 then some { n with outType := .int8, outAffine := true, scale := scale, zp := zp } else none

end Verif
