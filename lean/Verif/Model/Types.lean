import Verif.Basic.Loop

/-!
Model of `/repo/larq_compute_engine/core/types.h` and of the scalar element types
that the bitpacking code is instantiated with.
-/

namespace Verif

/-- `TBitpacked = std::int32_t` (core/types.h:41). Only its bit pattern matters to
the kernels, so it is a `BitVec 32`. -/
abbrev Word := BitVec 32

/-- `bitpacking_bitwidth` (core/types.h:42-43). -/
abbrev W : Nat := 32

/-- `std::bitset<32>(w).count()`: number of set bits, counted bit by bit
(used by core/types.h:45-47). -/
def popcount (w : Word) : Nat := ((List.range 32).filter (fun i => w.getLsbD i)).length

/-- `xor_popcount` (core/types.h:45-47). -/
def xorPopcount (a b : Word) : Nat := popcount (a ^^^ b)

/-- `CeilDiv` (core/types.h:96-99); the code uses it on non-negative ints. -/
def ceilDiv (a b : Nat) : Nat := (a + b - 1) / b

/-- `Ceil` (core/types.h:101-104). -/
def ceilMul (a b : Nat) : Nat := ceilDiv a b * b

/-- `saturate` (core/types.h:49-60, and the same function in
core/bconv2d/output_transform.h:17-27), non-Arm branch; the Arm `ssat` instruction
has the same meaning. `x` is the int32 value. -/
def saturate (x : Int) : Int :=
  let x := min x 127
  max x (-128)

/-- `shift_saturate<shift>` (core/types.h:62-77), non-Arm branch. `>>` on a signed
int is an arithmetic shift. -/
def shiftSaturate (shift : Nat) (x : Int) : Int :=
  let x := x >>> shift
  let x := min x 127
  max x (-128)

/-- `FastBoundsCheck` (core/types.h:31-33): both ints are converted to `unsigned`
and compared. Here on 32-bit patterns. -/
def fastBoundsCheck (index limit : BitVec 32) : Bool := index.toNat < limit.toNat

/-- Round half away from zero on a rational: what `TfLiteRound` (`std::round`)
computes on the exact value (TFLite kernels/internal/cppmath.h; used in
core/types.h:79-94 and core/bconv2d/output_transform.h:29-44, the non-thumb
branch). -/
def roundHalfAway (x : Rat) : Int :=
  if 0 ≤ x then (x + 1 / 2).floor else -((-x + 1 / 2).floor)

/-- Round half to even: the Thumb branch (`vcvtr`) of `round`
(core/types.h:82-90, core/bconv2d/output_transform.h:32-40). -/
def roundHalfEven (x : Rat) : Int :=
  let f := x.floor
  let d := x - f
  if d < 1 / 2 then f
  else if 1 / 2 < d then f + 1
  else if f % 2 = 0 then f else f + 1

/-- The IEEE-754 binary32 bit pattern of a C++ `float`. -/
abbrev F32 := BitVec 32

namespace F32

/-- NaN: exponent all ones and non-zero mantissa. -/
def isNaN (x : F32) : Bool :=
  (x.extractLsb' 23 8 == 255#8) && !(x.extractLsb' 0 23 == 0#23)

/-- Position of a non-NaN float on the number line: the magnitude bits, negated
when the sign bit is set. `+0` and `-0` both map to `0`. -/
def key (x : F32) : Int :=
  if x.msb then -((x.extractLsb' 0 31).toNat : Int) else ((x.extractLsb' 0 31).toNat : Int)

/-- IEEE `<`: false if an operand is NaN. -/
def lt (a b : F32) : Bool := !a.isNaN && !b.isNaN && decide (a.key < b.key)

/-- IEEE `+0.0`. -/
def zero : F32 := 0#32
/-- IEEE `1.0f`. -/
def one : F32 := 0x3F800000#32
/-- IEEE `-1.0f`. -/
def negOne : F32 := 0xBF800000#32

end F32

end Verif
