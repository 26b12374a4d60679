import Verif.Basic.While
import Verif.Model.BitpackA64

/-!
A semantics of the A64 / NEON instructions used by the inline assembly of
`/repo/larq_compute_engine/core/indirect_bgemm/kernel_8x4x{1,2,4}_aarch64.h` and
`/repo/larq_compute_engine/core/bgemm/kernels_aarch64.h`.

This file models the processor, not a file of /repo (source: the Arm Architecture Reference Manual; part of the trusted
base, see DESIGN.md). Simplifications: vector registers are functions from byte lanes (16 are used) to bytes; an address is an
object number and a byte offset; an access outside an object clears `ok`; pointers are read from memory as pointers (`ptr`); the
32-bit counters are integers. For the kernels of `indirect_bgemm` the register numbers are symbolic (`%[name]` operands of the assembly templates): vector
registers 0-15 are v0-v15, 16-19 `a_0..a_3`, 20-27 `w_0..w_7`, 28-31 `accum_0..accum_3`, 32+2p+k `result_pk`; general registers 0-3
are x0-x3, 10-13 `a_ptr_0..a_ptr_3`, 20 `w_ptr`, 21 `indirection_ptr`, 22 `clamp_min_addr`, 23 `clamp_max_addr`,
24 `multiplier_addr`, 25 `bias_addr`, 26 `output_transform_addr`. For `kernels_aarch64.h` vector register n is vn; general registers
10 `lhs_ptr`, 11 `rhs_ptr`, 12 `lhs_col_ptr`, 13 `rhs_col_ptr`, 14 `params`, 1 x1, 2 x14, 3 x15.

The instructions of `/repo/larq_compute_engine/core/bgemm/kernels_arm32.h` (A32 / NEON) are here too: most are those of A64 under
another name; vector register n is qn, general register 1 is r1, the others as for `kernels_aarch64.h`.
-/

namespace Verif

/-- An address: object and byte offset. -/
structure NAddr where
  /-- object -/
  obj : Nat
  /-- byte offset -/
  off : Nat
deriving DecidableEq, Repr

/-- `a + n` bytes. -/
def NAddr.add (a : NAddr) (n : Nat) : NAddr := ⟨a.obj, a.off + n⟩

/-- Memory (read only: the assembly of these kernels has no stores). -/
structure NMem where
  /-- size of an object in bytes -/
  size : Nat → Nat
  /-- content -/
  byte : Nat → Nat → BitVec 8
  /-- the pointer stored at a place -/
  ptr : Nat → Nat → NAddr

/-- The floating-point instructions, on 32-bit patterns: left abstract. -/
structure FOps where
  /-- signed integer to float, current rounding mode -/
  scvtf : Word → Word
  /-- product -/
  fmul : Word → Word → Word
  /-- sum -/
  fadd : Word → Word → Word
  /-- float to signed integer, ties to even, saturating -/
  fcvtns : Word → Word
  /-- float to signed fixed point with 8 fraction bits, toward zero, saturating (A32: `vcvt.s32.f32 q, q, #8`) -/
  fcvtFix8 : Word → Word

/-- The read-only scalar operands of an assembly block. -/
structure NOps where
  /-- `%w[depth]` -/
  depth : Nat
  /-- `%[input_depth_offset]` (in words) -/
  off : Nat
  /-- `%[c_out_index]` -/
  cIdx : Nat

/-- Instructions. Post-increments are the last argument (0 if there is none). -/
inductive NInstr where
  /-- `eor vd.16b, va.16b, vb.16b` -/
  | eor (d a b : Nat)
  /-- `cnt vd.16b, va.16b` -/
  | cnt (d a : Nat)
  /-- `addp vd.16b, va.16b, vb.16b` -/
  | addp (d a b : Nat)
  /-- `uadalp vd.8h, va.16b` -/
  | uadalp (d a : Nat)
  /-- `movi vd.8h, #0` -/
  | movi0 (d : Nat)
  /-- `ushll vd.4s, va.4h, #1` -/
  | ushll (d a : Nat)
  /-- `ushll2 vd.4s, va.8h, #1` -/
  | ushll2 (d a : Nat)
  /-- `smax vd.4s, va.4s, vb.4s` -/
  | smax (d a b : Nat)
  /-- `smin vd.4s, va.4s, vb.4s` -/
  | smin (d a b : Nat)
  /-- `scvtf vd.4s, va.4s` -/
  | scvtf (d a : Nat)
  /-- `fmul vd.4s, va.4s, vb.4s` -/
  | fmul (d a b : Nat)
  /-- `fadd vd.4s, va.4s, vb.4s` -/
  | fadd (d a b : Nat)
  /-- `fcvtns vd.4s, va.4s` -/
  | fcvtns (d a : Nat)
  /-- `sqxtn vd.4h, va.4s` -/
  | sqxtnH (d a : Nat)
  /-- `sqxtn2 vd.8h, va.4s` -/
  | sqxtn2H (d a : Nat)
  /-- `sqxtn vd.8b, va.8h` -/
  | sqxtnB (d a : Nat)
  /-- `ldr qd, [x, #imm]` -/
  | ldrq (d x imm : Nat)
  /-- `ldr qd, [x, #-imm]` -/
  | ldrqNeg (d x imm : Nat)
  /-- `ldr qd, [x, input_depth_offset_bytes]` -/
  | ldrqOff (d x : Nat)
  /-- `ld1r {vd.4s}, [x], #post` -/
  | ld1r (d x post : Nat)
  /-- `ld1 {vd.d}[lane], [x], #post` -/
  | ld1d (d lane x post : Nat)
  /-- `ld1 {vd.4s}, [x], #post` -/
  | ld1q (d x post : Nat)
  /-- `ldr xd, [xb, #imm]` (a pointer) -/
  | ldrx (d b imm : Nat)
  /-- `ldp xd, xe, [xb, #imm]` (two pointers; the assembly never overwrites the base) -/
  | ldpx (d e b imm : Nat)
  /-- `add xd, xa, #imm` -/
  | addi (d a imm : Nat)
  /-- `add xd, xa, input_depth_offset, lsl #2` -/
  | addOff (d a : Nat)
  /-- `add xd, xa, c_out_index, lsl #2` -/
  | addC (d a : Nat)
  /-- `sub w1, depth, #1` -/
  | subDepth
  /-- `subs w1, w1, #1` -/
  | subsW1
  /-- `subs fs_index, fs_index, #1` -/
  | subsFs
  /-- `uaddlp vd.8h, va.16b` -/
  | uaddlpH (d a : Nat)
  /-- `uadalp vd.4s, va.8h` -/
  | uadalpS (d a : Nat)
  /-- `shl vd.4s, va.4s, #1` -/
  | shlS (d a : Nat)
  /-- `ldr w, [x, #imm]` and `dup vd.4s, w` -/
  | ldrDup (d x imm : Nat)
  /-- `uxtl vd.4s, va.4h` -/
  | uxtl (d a : Nat)
  /-- `uxtl2 vd.4s, va.8h` -/
  | uxtl2 (d a : Nat)
  /-- `cmgt vd.4s, va.4s, vb.4s` -/
  | cmgt (d a b : Nat)
  /-- `xtn vd.4h, va.4s` -/
  | xtn (d a : Nat)
  /-- `xtn2 vd.8h, va.4s` -/
  | xtn2 (d a : Nat)
  /-- `and vd.16b, va.16b, vb.16b` -/
  | andv (d a b : Nat)
  /-- `addv hd, va.8h` -/
  | addvH (d a : Nat)
  /-- `ins vd.d[lane], x` with the value of `x` -/
  | insD (d lane : Nat) (w : BitVec 64)
  /-- A32: `vpadd.i8 dd, da, db` on 64-bit registers (`dn` is a half of `q(n/2)`) -/
  | vpadd (d a b : Nat)
  /-- A32: `ldr rd, [rb, #imm]` (a 4-byte pointer) -/
  | ldrp (d b imm : Nat)
  /-- A32: `vcvt.s32.f32 qd, qa, #8` -/
  | vcvtFix8 (d a : Nat)
  /-- A32: `vqrshrn.s32 d(2d), qa, #8` -/
  | vqrshrn8 (d a : Nat)
  /-- A32: `vqmovn.s16 d(2d), qa` -/
  | vqmovnB (d a : Nat)
deriving DecidableEq, Repr

/-- Registers, the condition `gt` of the last `subs`, and whether all accesses so far were inside their objects. -/
structure NState where
  /-- vector registers, by byte lane -/
  v : Nat → Nat → BitVec 8
  /-- address registers -/
  x : Nat → NAddr
  /-- `w1` -/
  w1 : Int
  /-- `fs_index` -/
  fs : Int
  /-- the condition `gt` -/
  gt : Bool
  /-- no access outside the objects so far -/
  ok : Bool

/-- Writing an address register. -/
def setX (r : Nat → NAddr) (d : Nat) (a : NAddr) : Nat → NAddr := fun i => if i = d then a else r i

/-- The 4 bytes of a word in memory order (little-endian). -/
def wordByte (w : Word) (j : Nat) : BitVec 8 := w.extractLsb' (8 * j) 8
/-- The 2 bytes of a half word in memory order. -/
def halfByte (w : BitVec 16) (j : Nat) : BitVec 8 := w.extractLsb' (8 * j) 8
/-- 16-bit lane `h` of a register. -/
def laneHalf (v : Nat → BitVec 8) (h : Nat) : BitVec 16 := v (2 * h + 1) ++ v (2 * h)
/-- The bit count of a byte. -/
def byteCnt (b : BitVec 8) : BitVec 8 := BitVec.ofNat 8 ((List.range 8).countP fun i => b.getLsbD i)
/-- `addp`: sums of adjacent bytes of `a`, then of `b`. -/
def laneAddp (a b : Nat → BitVec 8) : Nat → BitVec 8 :=
  fun j => if j < 8 then a (2 * j) + a (2 * j + 1) else b (2 * j - 16) + b (2 * j + 1 - 16)
/-- `uadalp .8h, .16b`: add the sums of adjacent bytes to the half words of `d`. -/
def laneUadalp (d a : Nat → BitVec 8) : Nat → BitVec 8 := fun j =>
  halfByte (laneHalf d (j / 2) + ((a (2 * (j / 2))).zeroExtend 16 + (a (2 * (j / 2) + 1)).zeroExtend 16)) (j % 2)
/-- `ushll #1` of half word `h`. -/
def shll1 (h : BitVec 16) : Word := h.zeroExtend 32 <<< 1
/-- A register computed word by word. -/
def ofWords (f : Nat → Word) : Nat → BitVec 8 := fun j => wordByte (f (j / 4)) (j % 4)
/-- Signed maximum. -/
def wordSmax (a b : Word) : Word := if a.slt b then b else a
/-- Signed minimum. -/
def wordSmin (a b : Word) : Word := if b.slt a then b else a
/-- Signed saturation to 16 bits. -/
def sat16 (w : Word) : BitVec 16 := BitVec.ofInt 16 (max (-32768) (min 32767 w.toInt))
/-- Signed saturation of a half word to 8 bits. -/
def sat8 (w : BitVec 16) : BitVec 8 := BitVec.ofInt 8 (max (-128) (min 127 w.toInt))

/-- `uaddlp .8h, .16b`: sums of adjacent bytes as half words. -/
def laneUaddlp (a : Nat → BitVec 8) : Nat → BitVec 8 := fun j =>
  halfByte ((a (2 * (j / 2))).zeroExtend 16 + (a (2 * (j / 2) + 1)).zeroExtend 16) (j % 2)
/-- `uadalp .4s, .8h` on word `l`: add the sum of two adjacent half words of `a` to the word of `d`. -/
def wordUadalp (d a : Nat → BitVec 8) (l : Nat) : Word :=
  laneWord d l + ((laneHalf a (2 * l)).zeroExtend 32 + (laneHalf a (2 * l + 1)).zeroExtend 32)
/-- `cmgt` on words. -/
def wordCmgt (a b : Word) : Word := if b.slt a then BitVec.allOnes 32 else 0#32
/-- `addv` of 8 half words. -/
def sumHalf (a : Nat → BitVec 8) : BitVec 16 :=
  laneHalf a 0 + laneHalf a 1 + laneHalf a 2 + laneHalf a 3 + laneHalf a 4 + laneHalf a 5 + laneHalf a 6 + laneHalf a 7

/-- A32: byte `j` of the 64-bit register `dn`: the low half of `q(n/2)` if `n` is even, the high half if it is odd. -/
def dLane (v : Nat → Nat → BitVec 8) (n j : Nat) : BitVec 8 := v (n / 2) (8 * (n % 2) + j)
/-- A32: `vqrshrn.s32 #8` on a word: rounding shift right, saturated to 16 bits. -/
def qrshrn8 (w : Word) : BitVec 16 := BitVec.ofInt 16 (max (-32768) (min 32767 ((w.toInt + 128) / 256)))

/-- One instruction. -/
def nExec (F : FOps) (m : NMem) (o : NOps) (i : NInstr) (s : NState) : NState :=
  match i with
  | .eor d a b => { s with v := setReg s.v d fun j => s.v a j ^^^ s.v b j }
  | .cnt d a => { s with v := setReg s.v d fun j => byteCnt (s.v a j) }
  | .addp d a b => { s with v := setReg s.v d (laneAddp (s.v a) (s.v b)) }
  | .uadalp d a => { s with v := setReg s.v d (laneUadalp (s.v d) (s.v a)) }
  | .movi0 d => { s with v := setReg s.v d fun _ => 0#8 }
  | .ushll d a => { s with v := setReg s.v d (ofWords fun l => shll1 (laneHalf (s.v a) l)) }
  | .ushll2 d a => { s with v := setReg s.v d (ofWords fun l => shll1 (laneHalf (s.v a) (l + 4))) }
  | .smax d a b => { s with v := setReg s.v d (ofWords fun l => wordSmax (laneWord (s.v a) l) (laneWord (s.v b) l)) }
  | .smin d a b => { s with v := setReg s.v d (ofWords fun l => wordSmin (laneWord (s.v a) l) (laneWord (s.v b) l)) }
  | .scvtf d a => { s with v := setReg s.v d (ofWords fun l => F.scvtf (laneWord (s.v a) l)) }
  | .fmul d a b => { s with v := setReg s.v d (ofWords fun l => F.fmul (laneWord (s.v a) l) (laneWord (s.v b) l)) }
  | .fadd d a b => { s with v := setReg s.v d (ofWords fun l => F.fadd (laneWord (s.v a) l) (laneWord (s.v b) l)) }
  | .fcvtns d a => { s with v := setReg s.v d (ofWords fun l => F.fcvtns (laneWord (s.v a) l)) }
  | .sqxtnH d a =>
    { s with v := setReg s.v d fun j => if j < 8 then halfByte (sat16 (laneWord (s.v a) (j / 2))) (j % 2) else 0#8 }
  | .sqxtn2H d a =>
    { s with v := setReg s.v d fun j => if j < 8 then s.v d j else halfByte (sat16 (laneWord (s.v a) (j / 2 - 4))) (j % 2) }
  | .sqxtnB d a => { s with v := setReg s.v d fun j => if j < 8 then sat8 (laneHalf (s.v a) j) else 0#8 }
  | .ldrq d x imm =>
    { s with
      v := setReg s.v d fun j => m.byte (s.x x).obj ((s.x x).off + imm + j)
      ok := s.ok && decide ((s.x x).off + imm + 16 ≤ m.size (s.x x).obj) }
  | .ldrqNeg d x imm =>
    { s with
      v := setReg s.v d fun j => m.byte (s.x x).obj ((s.x x).off - imm + j)
      ok := s.ok && decide (imm ≤ (s.x x).off ∧ (s.x x).off - imm + 16 ≤ m.size (s.x x).obj) }
  | .ldrqOff d x =>
    { s with
      v := setReg s.v d fun j => m.byte (s.x x).obj ((s.x x).off + 4 * o.off + j)
      ok := s.ok && decide ((s.x x).off + 4 * o.off + 16 ≤ m.size (s.x x).obj) }
  | .ld1r d x post =>
    { s with
      v := setReg s.v d fun j => m.byte (s.x x).obj ((s.x x).off + j % 4)
      x := setX s.x x ((s.x x).add post)
      ok := s.ok && decide ((s.x x).off + 4 ≤ m.size (s.x x).obj) }
  | .ld1d d lane x post =>
    { s with
      v := setReg s.v d fun j => if j / 8 = lane then m.byte (s.x x).obj ((s.x x).off + j % 8) else s.v d j
      x := setX s.x x ((s.x x).add post)
      ok := s.ok && decide ((s.x x).off + 8 ≤ m.size (s.x x).obj) }
  | .ld1q d x post =>
    { s with
      v := setReg s.v d fun j => m.byte (s.x x).obj ((s.x x).off + j)
      x := setX s.x x ((s.x x).add post)
      ok := s.ok && decide ((s.x x).off + 16 ≤ m.size (s.x x).obj) }
  | .ldrx d b imm =>
    { s with
      x := setX s.x d (m.ptr (s.x b).obj ((s.x b).off + imm))
      ok := s.ok && decide ((s.x b).off + imm + 8 ≤ m.size (s.x b).obj) }
  | .ldpx d e b imm =>
    { s with
      x := setX (setX s.x d (m.ptr (s.x b).obj ((s.x b).off + imm))) e (m.ptr (s.x b).obj ((s.x b).off + imm + 8))
      ok := s.ok && decide ((s.x b).off + imm + 16 ≤ m.size (s.x b).obj) }
  | .addi d a imm => { s with x := setX s.x d ((s.x a).add imm) }
  | .addOff d a => { s with x := setX s.x d ((s.x a).add (4 * o.off)) }
  | .addC d a => { s with x := setX s.x d ((s.x a).add (4 * o.cIdx)) }
  | .subDepth => { s with w1 := o.depth - 1 }
  | .subsW1 => { s with w1 := s.w1 - 1, gt := decide (s.w1 - 1 > 0) }
  | .subsFs => { s with fs := s.fs - 1, gt := decide (s.fs - 1 > 0) }
  | .uaddlpH d a => { s with v := setReg s.v d (laneUaddlp (s.v a)) }
  | .uadalpS d a => { s with v := setReg s.v d (ofWords (wordUadalp (s.v d) (s.v a))) }
  | .shlS d a => { s with v := setReg s.v d (ofWords fun l => laneWord (s.v a) l <<< 1) }
  | .ldrDup d x imm =>
    { s with
      v := setReg s.v d fun j => m.byte (s.x x).obj ((s.x x).off + imm + j % 4)
      ok := s.ok && decide ((s.x x).off + imm + 4 ≤ m.size (s.x x).obj) }
  | .uxtl d a => { s with v := setReg s.v d (ofWords fun l => (laneHalf (s.v a) l).zeroExtend 32) }
  | .uxtl2 d a => { s with v := setReg s.v d (ofWords fun l => (laneHalf (s.v a) (l + 4)).zeroExtend 32) }
  | .cmgt d a b => { s with v := setReg s.v d (ofWords fun l => wordCmgt (laneWord (s.v a) l) (laneWord (s.v b) l)) }
  | .xtn d a =>
    { s with v := setReg s.v d fun j => if j < 8 then halfByte ((laneWord (s.v a) (j / 2)).truncate 16) (j % 2) else 0#8 }
  | .xtn2 d a =>
    { s with v := setReg s.v d fun j => if j < 8 then s.v d j else halfByte ((laneWord (s.v a) (j / 2 - 4)).truncate 16) (j % 2) }
  | .andv d a b => { s with v := setReg s.v d fun j => s.v a j &&& s.v b j }
  | .addvH d a => { s with v := setReg s.v d fun j => if j < 2 then halfByte (sumHalf (s.v a)) j else 0#8 }
  | .insD d lane w => { s with v := setReg s.v d fun j => if j / 8 = lane then w.extractLsb' (8 * (j % 8)) 8 else s.v d j }
  | .vpadd d a b =>
    { s with v := setReg s.v (d / 2) fun j =>
        if j / 8 = d % 2 then
          (if j % 8 < 4 then dLane s.v a (2 * (j % 8)) + dLane s.v a (2 * (j % 8) + 1)
            else dLane s.v b (2 * (j % 8) - 8) + dLane s.v b (2 * (j % 8) + 1 - 8))
        else s.v (d / 2) j }
  | .ldrp d b imm =>
    { s with
      x := setX s.x d (m.ptr (s.x b).obj ((s.x b).off + imm))
      ok := s.ok && decide ((s.x b).off + imm + 4 ≤ m.size (s.x b).obj) }
  | .vcvtFix8 d a => { s with v := setReg s.v d (ofWords fun l => F.fcvtFix8 (laneWord (s.v a) l)) }
  | .vqrshrn8 d a =>
    { s with v := setReg s.v d fun j => if j < 8 then halfByte (qrshrn8 (laneWord (s.v a) (j / 2))) (j % 2) else s.v d j }
  | .vqmovnB d a => { s with v := setReg s.v d fun j => if j < 8 then sat8 (laneHalf (s.v a) j) else s.v d j }

/-- A straight-line sequence. -/
def nExecs (F : FOps) (m : NMem) (o : NOps) (p : List NInstr) (s : NState) : NState :=
  p.foldl (fun s i => nExec F m o i s) s

end Verif
