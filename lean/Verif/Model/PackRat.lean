import Verif.Model.Bitpack
import Mathlib.Algebra.Order.Ring.Rat

/-!
Bitpacking of finite floats represented as rationals: the instantiation of
`bitpack_matrix` for `float` (`/repo/larq_compute_engine/core/bitpacking/bitpack.h:113-207`)
used by the converter's `Bitpack` (`/repo/larq_compute_engine/mlir/transforms/bitpack.cc:19-56`).
-/

namespace Verif

/-- `float`, finite values as rationals (both zeros are `0`); see the instance for `F32`. -/
instance : PackElem Rat where
  lt a b := decide (a < b)
  quantized := false
  zero := 0
  leLowest _ := false
  gtMax _ := false
  ofZp _ := 0

/-- `Bitpack` (mlir/transforms/bitpack.cc:19-56) of a constant float tensor of shape
`[d0, d1, d2, d3]`: `bitpack_matrix` into a value-initialised vector. -/
def bitpackConst (d0 d1 d2 d3 : Nat) (x : List Rat) (junk : Word) : Option (List Word) :=
  bitpackMatrix x (d0 * d1 * d2) d3 (List.replicate (d0 * d1 * d2 * packedSize d3) 0#32) 0 junk

end Verif
