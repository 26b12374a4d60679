import Verif.Model.Bitpack
import Verif.Basic.While

/-!
Model of `/repo/larq_compute_engine/core/bitpacking/bitpack_aarch64.h` and of the `__aarch64__` branch of `bitpack_array`
(bitpack.h:218-228): the two inline assembly routines as instruction lists (produced from the header by
`tools/gen_a64_bitpack.py`) executed by a small semantics of the NEON instructions they use.

Simplifications: a vector register is a function from byte lanes (16 are used) to bytes; addresses are offsets from the
start of the input (in bytes) and output (in words) buffers; `n` is a natural number (`size_t` below 2^63, so that the signed
condition `ge` is the unsigned one); little-endian target (the code checks `FLATBUFFERS_LITTLEENDIAN`).
-/

namespace Verif

/-- The instructions used by bitpack_aarch64.h. Loads and stores post-increment `in_ptr` by 32 and `out_ptr` by 16 bytes. -/
inductive A64Instr where
  /-- `ld2 {va.8h, vb.8h}, [in_ptr], #32` -/
  | ld2h (a b : Nat)
  /-- `ld2 {va.16b, vb.16b}, [in_ptr], #32` -/
  | ld2b (a b : Nat)
  /-- `uzp1 vd.16b, va.16b, vb.16b` -/
  | uzp1 (d a b : Nat)
  /-- `uzp2 vd.16b, va.16b, vb.16b` -/
  | uzp2 (d a b : Nat)
  /-- `sri vd.16b, va.16b, #k` -/
  | sri (d a k : Nat)
  /-- `sqsub vd.16b, va.16b, vb.16b` -/
  | sqsub (d a b : Nat)
  /-- `st1 {vd.4s}, [out_ptr], #16` -/
  | st1 (d : Nat)
  /-- `sub n, n, #k` -/
  | subN (k : Nat)
  /-- `cmp n, #k` -/
  | cmpN (k : Nat)
  /-- `dup vd.16b, zero_byte` -/
  | dup (d : Nat)
deriving DecidableEq, Repr

/-- The part of the processor state the routines use. `ok` is cleared by an access outside the buffers. -/
structure A64State where
  /-- vector registers, by byte lane -/
  regs : Nat → Nat → BitVec 8
  /-- `in_ptr`, in bytes -/
  inp : Nat
  /-- `n` -/
  n : Nat
  /-- `out_ptr`, in words -/
  out : Nat
  /-- the operands of the last `cmp` -/
  cmpA : Nat
  /-- second operand -/
  cmpB : Nat
  /-- the output buffer -/
  buf : List Word
  /-- no access outside the buffers so far -/
  ok : Bool

/-- The input memory: its size in bytes and its content. -/
structure A64Mem where
  /-- size in bytes -/
  size : Nat
  /-- content -/
  byte : Nat → BitVec 8

/-- Writing a vector register. -/
def setReg (r : Nat → Nat → BitVec 8) (d : Nat) (v : Nat → BitVec 8) : Nat → Nat → BitVec 8 :=
  fun i => if i = d then v else r i

/-- `uzp1`: even lanes of `a`, then of `b`. -/
def laneUzp1 (a b : Nat → BitVec 8) : Nat → BitVec 8 := fun j => if j < 8 then a (2 * j) else b (2 * j - 16)
/-- `uzp2`: odd lanes of `a`, then of `b`. -/
def laneUzp2 (a b : Nat → BitVec 8) : Nat → BitVec 8 := fun j => if j < 8 then a (2 * j + 1) else b (2 * j + 1 - 16)
/-- `sri #k` on one byte: the top `k` bits of the destination are kept, the source shifted right fills the rest. -/
def byteSri (k : Nat) (d s : BitVec 8) : BitVec 8 := (d &&& ~~~(BitVec.allOnes 8 >>> k)) ||| (s >>> k)
/-- `sqsub` on one byte: signed saturating subtraction. -/
def byteSqsub (a b : BitVec 8) : BitVec 8 := BitVec.ofInt 8 (max (-128) (min 127 (a.toInt - b.toInt)))
/-- Word `w` of a register stored with `st1 .4s` (little-endian). -/
def laneWord (v : Nat → BitVec 8) (w : Nat) : Word := v (4 * w + 3) ++ v (4 * w + 2) ++ v (4 * w + 1) ++ v (4 * w)

/-- One instruction. -/
def a64Exec (mem : A64Mem) (zb : BitVec 8) (i : A64Instr) (s : A64State) : A64State :=
  match i with
  | .ld2h a b =>
    { s with
      regs := setReg (setReg s.regs a fun j => mem.byte (s.inp + 4 * (j / 2) + j % 2)) b
        fun j => mem.byte (s.inp + 4 * (j / 2) + 2 + j % 2)
      inp := s.inp + 32
      ok := s.ok && decide (s.inp + 32 ≤ mem.size) }
  | .ld2b a b =>
    { s with
      regs := setReg (setReg s.regs a fun j => mem.byte (s.inp + 2 * j)) b fun j => mem.byte (s.inp + 2 * j + 1)
      inp := s.inp + 32
      ok := s.ok && decide (s.inp + 32 ≤ mem.size) }
  | .uzp1 d a b => { s with regs := setReg s.regs d (laneUzp1 (s.regs a) (s.regs b)) }
  | .uzp2 d a b => { s with regs := setReg s.regs d (laneUzp2 (s.regs a) (s.regs b)) }
  | .sri d a k => { s with regs := setReg s.regs d fun j => byteSri k (s.regs d j) (s.regs a j) }
  | .sqsub d a b => { s with regs := setReg s.regs d fun j => byteSqsub (s.regs a j) (s.regs b j) }
  | .st1 d =>
    { s with
      buf := (((s.buf.set s.out (laneWord (s.regs d) 0)).set (s.out + 1) (laneWord (s.regs d) 1)).set (s.out + 2)
        (laneWord (s.regs d) 2)).set (s.out + 3) (laneWord (s.regs d) 3)
      out := s.out + 4
      ok := s.ok && decide (s.out + 4 ≤ s.buf.length) }
  | .subN k => { s with n := s.n - k }
  | .cmpN k => { s with cmpA := s.n, cmpB := k }
  | .dup d => { s with regs := setReg s.regs d fun _ => zb }

/-- A straight-line sequence. -/
def a64Execs (mem : A64Mem) (zb : BitVec 8) (p : List A64Instr) (s : A64State) : A64State :=
  p.foldl (fun s i => a64Exec mem zb i s) s

/-- Float version, before the label `2` (bitpack_aarch64.h:56-73). -/
def a64F32Pro : List A64Instr := [
   .ld2h 0 1, .ld2h 2 3, .ld2h 4 5, .ld2h 6 7, .ld2h 8 9, .ld2h 10 11, .ld2h 12 13, .ld2h 14 15, .cmpN 1, .ld2h 16 17,
   .ld2h 18 19, .ld2h 20 21, .ld2h 22 23, .ld2h 24 25, .ld2h 26 27, .ld2h 28 29, .ld2h 30 31]

/-- Float version, main loop (bitpack_aarch64.h:76-186), without the final `bge 2b`. -/
def a64F32Loop : List A64Instr := [
   .uzp2 16 1 3, .ld2h 0 1, .uzp2 18 5 7, .uzp2 20 9 11, .ld2h 2 3, .uzp2 22 13 15, .uzp2 24 17 19, .ld2h 4 5, .uzp2
   26 21 23, .uzp2 28 25 27, .ld2h 6 7, .uzp2 30 29 31, .uzp2 0 16 18, .ld2h 8 9, .uzp1 17 16 18, .uzp2 2 20 22, .ld2h
   10 11, .uzp1 19 20 22, .uzp2 4 24 26, .ld2h 12 13, .uzp1 21 24 26, .uzp2 6 28 30, .ld2h 14 15, .uzp1 23 28 30,
   .subN 1, .sri 0 17 1, .ld2h 16 17, .sri 2 19 1, .sri 4 21 1, .ld2h 18 19, .sri 6 23 1, .uzp2 8 0 2, .ld2h 20 21,
   .uzp1 30 0 2, .uzp2 10 4 6, .ld2h 22 23, .uzp1 31 4 6, .cmpN 2, .sri 8 30 2, .ld2h 24 25, .sri 10 31 2, .uzp2 0 8
   10, .ld2h 26 27, .uzp1 2 8 10, .sri 0 2 4, .ld2h 28 29, .st1 0, .ld2h 30 31]

/-- Float version, last block (bitpack_aarch64.h:189-232). -/
def a64F32Tail : List A64Instr := [
   .uzp2 16 1 3, .uzp2 18 5 7, .uzp2 20 9 11, .uzp2 22 13 15, .uzp2 24 17 19, .uzp2 26 21 23, .uzp2 28 25 27, .uzp2 30
   29 31, .uzp2 0 16 18, .uzp1 17 16 18, .uzp2 2 20 22, .uzp1 19 20 22, .uzp2 4 24 26, .uzp1 21 24 26, .uzp2 6 28 30,
   .uzp1 23 28 30, .sri 0 17 1, .sri 2 19 1, .sri 4 21 1, .sri 6 23 1, .uzp2 8 0 2, .uzp1 30 0 2, .uzp2 10 4 6, .uzp1
   31 4 6, .sri 8 30 2, .sri 10 31 2, .uzp2 0 8 10, .uzp1 2 8 10, .sri 0 2 4, .st1 0]

/-- Int8 version, before the label `2` (bitpack_aarch64.h:260-274). -/
def a64I8Pro : List A64Instr := [
   .dup 31, .ld2b 0 1, .ld2b 2 3, .cmpN 1, .ld2b 4 5, .ld2b 6 7]

/-- Int8 version, main loop (bitpack_aarch64.h:277-344), without the final `bge 2b`. -/
def a64I8Loop : List A64Instr := [
   .sqsub 8 1 31, .sqsub 9 0 31, .sqsub 10 3 31, .sqsub 11 2 31, .ld2b 0 1, .sqsub 12 5 31, .sqsub 13 4 31, .sqsub 14
   7 31, .sqsub 15 6 31, .subN 1, .ld2b 2 3, .sri 8 9 1, .sri 10 11 1, .sri 12 13 1, .sri 14 15 1, .ld2b 4 5, .uzp2 16
   8 10, .uzp1 17 8 10, .uzp2 18 12 14, .uzp1 19 12 14, .cmpN 2, .ld2b 6 7, .sri 16 17 2, .sri 18 19 2, .uzp2 8 16 18,
   .uzp1 9 16 18, .sri 8 9 4, .st1 8]

/-- Int8 version, last block (bitpack_aarch64.h:347-382). -/
def a64I8Tail : List A64Instr := [
   .sqsub 8 1 31, .sqsub 9 0 31, .sqsub 10 3 31, .sqsub 11 2 31, .sqsub 12 5 31, .sqsub 13 4 31, .sqsub 14 7 31,
   .sqsub 15 6 31, .sri 8 9 1, .sri 10 11 1, .sri 12 13 1, .sri 14 15 1, .uzp2 16 8 10, .uzp1 17 8 10, .uzp2 18 12 14,
   .uzp1 19 12 14, .sri 16 17 2, .sri 18 19 2, .uzp2 8 16 18, .uzp1 9 16 18, .sri 8 9 4, .st1 8]

/-- A whole routine: prologue, `beq 1f`, `2:` main loop with `bge 2b`, `1:` tail (both routines have this shape). `none` for an
access outside the buffers or a loop that does not end. -/
def a64Routine (pro loop tail : List A64Instr) (mem : A64Mem) (zb : BitVec 8) (s : A64State) : Option A64State :=
  let s := a64Execs mem zb pro s
  (if s.cmpA = s.cmpB then some s
    else doWhile (fun s => decide (s.cmpB ≤ s.cmpA)) (fun s => some (a64Execs mem zb loop s)) (s.n + 1) s).bind fun s =>
  let s := a64Execs mem zb tail s
  if s.ok then some s else none

/-- `bitpack_aarch64_4x32` (bitpack_aarch64.h:26-243, 246-393) with `input` at byte `ip` of `mem` and `output` at word `op` of
`out`; `regs` is the initial content of the vector registers. -/
def bitpackA64 (pro loop tail : List A64Instr) (mem : A64Mem) (ip numBlocks : Nat) (out : List Word) (op : Nat) (zb : BitVec 8)
    (regs : Nat → Nat → BitVec 8) : Option (List Word) :=
  if numBlocks < 1 then some out
  else (a64Routine pro loop tail mem zb
    { regs := regs, inp := ip, n := numBlocks, out := op, cmpA := 0, cmpB := 0, buf := out, ok := true }).map (·.buf)

/-- The bytes of an array of floats. -/
def memF32 (inp : List F32) : A64Mem :=
  ⟨4 * inp.length, fun i => (inp[i / 4]?.getD 0#32).extractLsb' (8 * (i % 4)) 8⟩
/-- The bytes of an array of int8. -/
def memI8 (inp : List (BitVec 8)) : A64Mem := ⟨inp.length, fun i => inp[i]?.getD 0#8⟩

/-- What `bitpack_array` on aarch64 does before the portable loop, by element type (bitpack.h:218-228): the routine for 4x32
blocks, if there is one. -/
class A64Pack (α : Type) where
  /-- `bitpack_aarch64_4x32(in, num_blocks, out, zero_point)`, when the `if` of bitpack.h:219-221 is taken -/
  fast : α → Option (List α → Nat → Nat → List Word → Nat → (Nat → Nat → BitVec 8) → Option (List Word))

/-- float: taken when `zero_point == 0` (of either sign). -/
instance : A64Pack F32 where
  fast zp := if zp = 0#32 ∨ zp = 0x80000000#32 then
      some fun inp ip nb out op regs => bitpackA64 a64F32Pro a64F32Loop a64F32Tail (memF32 inp) (4 * ip) nb out op 0#8 regs
    else none
/-- int8: always taken. -/
instance : A64Pack (BitVec 8) where
  fast zp := some fun inp ip nb out op regs => bitpackA64 a64I8Pro a64I8Loop a64I8Tail (memI8 inp) ip nb out op zp regs
/-- uint8: never taken. -/
instance : A64Pack U8 where
  fast _ := none

/-- `bitpack_array` with `__aarch64__` (bitpack.h:209-245). -/
def bitpackArrayA64 {α : Type} [PackElem α] [A64Pack α] (inp : List α) (ip n : Nat) (out : List Word) (op : Nat) (zp : α)
    (junk : Word) (regs : Nat → Nat → BitVec 8) : Option (List Word) := do
  let numPacked := n / W
  let left := n - W * numPacked
  let (ip', op', numPacked', out) ← match A64Pack.fast zp with
    | some f => do
      let nb := numPacked / 4
      let out ← f inp ip nb out op regs
      some (ip + W * 4 * nb, op + 4 * nb, numPacked % 4, out)
    | none => some (ip, op, numPacked, out)
  let out ← forN numPacked' (fun i out => do
    let w ← bitpackBitfield inp (ip' + W * i) zp junk
    wr out (op' + i) w) out
  if left ≠ 0 then do
    let buf ← forN left (fun i buf => do
      let x ← rd inp (ip' + W * numPacked' + i)
      wr buf i x) (List.replicate W (PackElem.zero : α))
    let buf ← forN (W - left) (fun i buf => wr buf (left + i) zp) buf
    let w ← bitpackBitfield buf 0 zp junk
    wr out (op' + numPacked') w
  else some out

/-- `bitpack_matrix` (bitpack.h:247-308) on aarch64. -/
def bitpackMatrixA64 {α : Type} [PackElem α] [A64Pack α] (inp : List α) (rows cols : Nat) (out : List Word) (zp : Int)
    (junk : Word) (regs : Nat → Nat → BitVec 8) : Option (List Word) :=
  let outCols := packedSize cols
  if PackElem.leLowest α zp then
    fillRange out 0 (rows * outCols) 0#32
  else if PackElem.gtMax α zp then
    if cols % W = 0 then
      fillRange out 0 (rows * outCols) (~~~ 0#32)
    else if cols % W = 31 then none
    else
      let valueWithPadding : Word := (1#32 <<< (cols % W)) - 1#32
      forN rows (fun r out => do
        let out ← fillRange out (r * outCols) (outCols - 1) (~~~ 0#32)
        wr out ((r + 1) * outCols - 1) valueWithPadding) out
  else if !(PackElem.quantized α) ∧ zp ≠ 0 then none
  else
    let z : α := PackElem.ofZp zp
    if cols % W = 0 then
      bitpackArrayA64 inp 0 (cols * rows) out 0 z junk regs
    else
      forN rows (fun r out => bitpackArrayA64 inp (r * cols) cols out (r * outCols) z junk regs) out

end Verif
