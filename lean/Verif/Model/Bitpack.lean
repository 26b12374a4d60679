import Verif.Model.Types

/-!
Model of `/repo/larq_compute_engine/core/bitpacking/bitpack.h` (portable path) and
`core/bitpacking/utils.h`.

A pointer into a buffer is an index into the list that is the buffer. The
templates are instantiated in the repo with `float`, `std::int8_t` and
`std::uint8_t` (for bool); what the code needs of `TIn` is the class `PackElem`.
-/

namespace Verif

/-- What `bitpack.h` uses of its template parameter `TIn`. -/
class PackElem (α : Type) where
  /-- C++ `operator<` on `TIn` -/
  lt : α → α → Bool
  /-- `!std::is_floating_point<TIn>` (bitpack.h:200) -/
  quantized : Bool
  /-- literal `0` converted to `TIn` (bitpack.h:159 `fptr[0] < 0`, bitpack.h:239) -/
  zero : α
  /-- `zero_point <= std::numeric_limits<TIn>::lowest()` (bitpack.h:259) -/
  leLowest : Int → Bool
  /-- `zero_point > std::numeric_limits<TIn>::max()` (bitpack.h:265) -/
  gtMax : Int → Bool
  /-- `static_cast<TIn>(zero_point)` for a zero point in range (bitpack.h:292) -/
  ofZp : Int → α

/-- `std::int8_t` -/
instance : PackElem (BitVec 8) where
  lt a b := a.slt b
  quantized := true
  zero := 0#8
  leLowest zp := decide (zp ≤ -128)
  gtMax zp := decide (127 < zp)
  ofZp zp := BitVec.ofInt 8 zp

/-- `std::uint8_t`, used for bool tensors (tflite/kernels/quantization.cc:91-111). -/
structure U8 where
  /-- the byte -/
  val : BitVec 8
deriving DecidableEq, Repr

instance : PackElem U8 where
  lt a b := a.val.ult b.val
  quantized := true
  zero := ⟨0#8⟩
  leLowest zp := decide (zp ≤ 0)
  gtMax zp := decide (255 < zp)
  ofZp zp := ⟨BitVec.ofInt 8 zp⟩

/-- `float`. An `std::int32_t` zero point is never `<= -FLT_MAX` or `> FLT_MAX`
(3.4e38). `static_cast<float>(0) = +0.0`; other zero points fail the DCHECK of
bitpack.h:204 before being used, so their conversion is irrelevant. -/
instance : PackElem F32 where
  lt a b := F32.lt a b
  quantized := false
  zero := F32.zero
  leLowest _ := false
  gtMax _ := false
  ofZp _ := F32.zero

variable {α : Type} [PackElem α]

/-- `GetBitpackedSize` (bitpack.h:24-26). -/
def packedSize (n : Nat) : Nat := ceilDiv n W

/-- `GetBitpackedMatrixSize` (bitpack.h:28-30). -/
def packedMatrixSize (rows cols : Nat) : Nat := rows * packedSize cols

/-- Assigning bit-field `b<i>` of the union (little-endian layout: field `b<i>` is
bit `i`); bitpack.h:78-109, 159-190. -/
def setBit (w : Word) (i : Nat) (b : Bool) : Word :=
  if b then w ||| (1#32 <<< i) else w &&& ~~~(1#32 <<< i)

/-- `bitpack_bitfield_quantized` (bitpack.h:32-111) with `in = inp + p`. The 32
assignments are written as a loop. The initial union content is irrelevant since
all 32 fields are assigned; it is a parameter `junk` (indeterminate value). -/
def bitpackBitfieldQ (inp : List α) (p : Nat) (zp : α) (junk : Word) : Option Word :=
  forN 32 (fun i w => (rd inp (p + i)).map fun x => setBit w i (PackElem.lt x zp)) junk

/-- `bitpack_bitfield(fptr, buf)` for floats (bitpack.h:113-192): compares with `0`. -/
def bitpackBitfieldF (inp : List α) (p : Nat) (junk : Word) : Option Word :=
  forN 32 (fun i w => (rd inp (p + i)).map fun x => setBit w i (PackElem.lt x PackElem.zero)) junk

/-- `bitpack_bitfield(in, out, zero_point)` (bitpack.h:194-207), returning the word
to be stored in `*out`. The `TFLITE_DCHECK_EQ(zero_point, 0)` of the float branch
(line 204) is on the value passed down from `bitpack_matrix`; it is modelled in
`bitpackMatrix`. -/
def bitpackBitfield (inp : List α) (p : Nat) (zp : α) (junk : Word) : Option Word :=
  if PackElem.quantized α then bitpackBitfieldQ inp p zp junk else bitpackBitfieldF inp p junk

/-- `bitpack_array` without `__aarch64__` (bitpack.h:209-245), with
`input_array = inp + ip` and `bitpacked_array = out + op`. -/
def bitpackArray (inp : List α) (ip n : Nat) (out : List Word) (op : Nat) (zp : α)
    (junk : Word) : Option (List Word) := do
  let numPacked := n / W
  let left := n - W * numPacked
  -- while (num_packed_elems--)
  let out ← forN numPacked (fun i out => do
    let w ← bitpackBitfield inp (ip + W * i) zp junk
    wr out (op + i) w) out
  if left ≠ 0 then do
    -- std::array<TIn, 32> padding_buffer = {{0}}; memcpy; fill with zero_point
    let buf ← forN left (fun i buf => do
      let x ← rd inp (ip + W * numPacked + i)
      wr buf i x) (List.replicate W (PackElem.zero : α))
    let buf ← forN (W - left) (fun i buf => wr buf (left + i) zp) buf
    let w ← bitpackBitfield buf 0 zp junk
    wr out (op + numPacked) w
  else some out

/-- `std::fill(out + a, out + a + n, v)` as used in bitpack.h:261, 272, 282. -/
def fillRange (out : List Word) (a n : Nat) (v : Word) : Option (List Word) :=
  forN n (fun i out => wr out (a + i) v) out

/-- `bitpack_matrix` (bitpack.h:247-308). The `int` expression
`(1 << (cols % 32)) - 1` of line 279 is computed on 32-bit patterns; for
`cols % 32 = 31` the C++ subtraction overflows `int` (INT_MIN - 1), which is
modelled as undefined behaviour. -/
def bitpackMatrix (inp : List α) (rows cols : Nat) (out : List Word) (zp : Int)
    (junk : Word) : Option (List Word) :=
  let outCols := packedSize cols
  if PackElem.leLowest α zp then
    fillRange out 0 (rows * outCols) 0#32
  else if PackElem.gtMax α zp then
    if cols % W = 0 then
      fillRange out 0 (rows * outCols) (~~~ 0#32)
    else if cols % W = 31 then none
    else
      let valueWithPadding : Word := (1#32 <<< (cols % W)) - 1#32
      forN rows (fun r out => do
        let out ← fillRange out (r * outCols) (outCols - 1) (~~~ 0#32)
        wr out ((r + 1) * outCols - 1) valueWithPadding) out
  else if !(PackElem.quantized α) ∧ zp ≠ 0 then none  -- TFLITE_DCHECK_EQ(zero_point, 0), bitpack.h:204
  else
    let z : α := PackElem.ofZp zp
    if cols % W = 0 then
      bitpackArray inp 0 (cols * rows) out 0 z junk
    else
      forN rows (fun r out => bitpackArray inp (r * cols) cols out (r * outCols) z junk) out

/-- `unpack_bitfield` (bitpack.h:310-318), writing at `out + op`. -/
def unpackBitfield {β : Type} (w : Word) (out : List β) (op n : Nat) (zeroBit oneBit : β) :
    Option (List β) :=
  forN n (fun i out =>
    wr out (op + i) (if (w &&& (1#32 <<< i)) ≠ 0#32 then oneBit else zeroBit)) out

/-- `unpack_matrix` (bitpack.h:320-346). The running pointers `in_ptr`, `out_ptr`
are part of the state. -/
def unpackMatrix {β : Type} (inp : List Word) (rows cols : Nat) (out : List β)
    (zeroBit oneBit : β) : Option (List β) := do
  let (_, _, out) ← forN rows (fun _ (st : Nat × Nat × List β) => do
    let numFull := cols / W
    let left := cols - W * numFull
    let (ip, op, out) ← forN numFull (fun _ (st : Nat × Nat × List β) => do
      let (ip, op, out) := st
      let w ← rd inp ip
      let out ← unpackBitfield w out op W zeroBit oneBit
      some (ip + 1, op + W, out)) st
    if left ≠ 0 then do
      let w ← rd inp ip
      let out ← unpackBitfield w out op left zeroBit oneBit
      some (ip + 1, op + left, out)
    else some (ip, op, out)) (0, 0, out)
  some out

/-- `bitpack_tensor` (core/bitpacking/utils.h:21-33): packs along the last
dimension. `FlatSizeSkipDim(shape, dims-1)` is the product of the other
dimensions. `none` for a rank-0 shape (`Dims(-1)`). -/
def bitpackTensor (shape : List Nat) (inp : List α) (zp : Int) (out : List Word)
    (junk : Word) : Option (List Word) := do
  let cols ← shape.getLast?
  let rows := shape.dropLast.prod
  bitpackMatrix inp rows cols out zp junk

/-- `GetBitpackedTensorSize` (core/bitpacking/utils.h:13-19). `none` for a rank-0 shape (`Dims(-1)`). -/
def packedTensorSize (shape : List Nat) : Option Nat := do
  let cols ← shape.getLast?
  let rows := shape.dropLast.prod
  some (packedMatrixSize rows cols)

/-- `bitpacked_shape` (core/bitpacking/utils.h:35-41). -/
def bitpackedShape (shape : List Nat) : List Nat :=
  match shape.getLast? with
  | none => []
  | some c => shape.dropLast ++ [packedSize c]

end Verif
