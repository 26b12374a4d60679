import Verif.Model.NeonA64

/-!
The straight-line parts of the inline assembly of `/repo/larq_compute_engine/core/bgemm/kernels_aarch64.h` as instruction lists.
Generated by `tools/gen_a64_bgemm.py`; do not edit. Register numbers as in Model/NeonA64.lean; the other instructions (branches,
scalar arithmetic, stores) are in Model/GemmA64.lean, the generator checks that they are the expected ones.
-/

namespace Verif

/-- BinaryKernelNeon8x4 before the main loop (kernels_aarch64.h:721-755), without the mask of the bitpacked version. -/
def g8Pre : List NInstr :=
  [.movi0 24, .movi0 25, .movi0 26, .movi0 27, .ld1q 8 11 16, .ld1q 0 10 16, .ld1q 1 10 16, .ld1q 2 10 16, .ld1q 3 10 16,
   .ld1q 4 10 16, .ld1q 5 10 16, .ld1q 6 10 16, .ld1q 7 10 16]

/-- `LCE_XOR` at the beginning of the main loop (kernels_aarch64.h:581-589, 761). -/
def g8Xor : List NInstr :=
  [.eor 12 8 0, .eor 13 8 1, .eor 14 8 2, .eor 15 8 3, .eor 16 8 4, .eor 17 8 5, .eor 18 8 6, .eor 19 8 7]

/-- The accumulation loop (kernels_aarch64.h:767-778; macros 592-669). -/
def g8Loop : List NInstr :=
  [.ld1q 9 11 16, .cnt 12 12, .cnt 13 13, .cnt 14 14, .cnt 15 15, .cnt 16 16, .cnt 17 17, .cnt 18 18, .cnt 19 19, .addp 20
   12 13, .addp 21 14 15, .addp 22 16 17, .addp 23 18 19, .eor 12 9 0, .eor 13 9 1, .addp 20 20 21, .addp 22 22 23, .eor 14
   9 2, .eor 15 9 3, .eor 16 9 4, .addp 20 20 22, .eor 17 9 5, .eor 18 9 6, .eor 19 9 7, .uadalp 24 20, .ld1q 10 11 16, .cnt
   12 12, .cnt 13 13, .cnt 14 14, .cnt 15 15, .cnt 16 16, .cnt 17 17, .cnt 18 18, .cnt 19 19, .addp 20 12 13, .addp 21 14
   15, .addp 22 16 17, .addp 23 18 19, .eor 12 10 0, .eor 13 10 1, .addp 20 20 21, .addp 22 22 23, .eor 14 10 2, .eor 15 10
   3, .eor 16 10 4, .addp 20 20 22, .eor 17 10 5, .eor 18 10 6, .eor 19 10 7, .uadalp 25 20, .ld1q 11 11 16, .cnt 12 12,
   .cnt 13 13, .cnt 14 14, .cnt 15 15, .cnt 16 16, .cnt 17 17, .cnt 18 18, .cnt 19 19, .addp 20 12 13, .addp 21 14 15, .addp
   22 16 17, .addp 23 18 19, .eor 12 11 0, .eor 13 11 1, .addp 20 20 21, .addp 22 22 23, .eor 14 11 2, .eor 15 11 3, .eor 16
   11 4, .addp 20 20 22, .eor 17 11 5, .eor 18 11 6, .eor 19 11 7, .uadalp 26 20, .ld1q 8 11 16, .cnt 12 12, .cnt 13 13,
   .ld1q 0 10 16, .ld1q 1 10 16, .ld1q 2 10 16, .ld1q 3 10 16, .cnt 14 14, .cnt 15 15, .cnt 16 16, .cnt 17 17, .ld1q 4 10
   16, .ld1q 5 10 16, .ld1q 6 10 16, .ld1q 7 10 16, .cnt 18 18, .cnt 19 19, .addp 20 12 13, .addp 21 14 15, .addp 22 16 17,
   .addp 23 18 19, .eor 12 8 0, .eor 13 8 1, .addp 20 20 21, .addp 22 22 23, .eor 14 8 2, .eor 15 8 3, .eor 16 8 4, .addp 20
   20 22, .eor 17 8 5, .eor 18 8 6, .eor 19 8 7, .uadalp 27 20]

/-- After the accumulation loop (kernels_aarch64.h:780-785). -/
def g8Tail : List NInstr :=
  [.ld1q 9 11 16, .cnt 12 12, .cnt 13 13, .cnt 14 14, .cnt 15 15, .cnt 16 16, .cnt 17 17, .cnt 18 18, .cnt 19 19, .addp 20
   12 13, .addp 21 14 15, .addp 22 16 17, .addp 23 18 19, .eor 12 9 0, .eor 13 9 1, .addp 20 20 21, .addp 22 22 23, .eor 14
   9 2, .eor 15 9 3, .eor 16 9 4, .addp 20 20 22, .eor 17 9 5, .eor 18 9 6, .eor 19 9 7, .uadalp 24 20, .ld1q 10 11 16, .cnt
   12 12, .cnt 13 13, .cnt 14 14, .cnt 15 15, .cnt 16 16, .cnt 17 17, .cnt 18 18, .cnt 19 19, .addp 20 12 13, .addp 21 14
   15, .addp 22 16 17, .addp 23 18 19, .eor 12 10 0, .eor 13 10 1, .addp 20 20 21, .addp 22 22 23, .eor 14 10 2, .eor 15 10
   3, .eor 16 10 4, .addp 20 20 22, .eor 17 10 5, .eor 18 10 6, .eor 19 10 7, .uadalp 25 20, .ld1q 11 11 16, .cnt 12 12,
   .cnt 13 13, .cnt 14 14, .cnt 15 15, .cnt 16 16, .cnt 17 17, .cnt 18 18, .cnt 19 19, .addp 20 12 13, .addp 21 14 15, .addp
   22 16 17, .addp 23 18 19, .eor 12 11 0, .eor 13 11 1, .addp 20 20 21, .addp 22 22 23, .eor 14 11 2, .eor 15 11 3, .eor 16
   11 4, .addp 20 20 22, .eor 17 11 5, .eor 18 11 6, .eor 19 11 7, .uadalp 26 20, .cnt 12 12, .cnt 13 13, .cnt 14 14, .cnt
   15 15, .addp 20 12 13, .cnt 16 16, .addp 21 14 15, .cnt 17 17, .cnt 18 18, .cnt 19 19, .addp 20 20 21, .addp 22 16 17,
   .addp 23 18 19, .addp 22 22 23, .addp 20 20 22, .uadalp 27 20]

/-- Output transform for float and loads for the next block (kernels_aarch64.h:944-1026). -/
def g8OtF : List NInstr :=
  [.addi 2 14 64, .addi 3 14 68, .ushll 20 24, .ushll2 21 24, .ld1r 29 2 0, .ushll 22 25, .ushll2 23 25, .ld1r 30 3 0,
   .ushll 24 26, .ushll2 25 26, .ld1q 8 11 16, .ushll 26 27, .ushll2 27 27, .ldrx 2 14 72, .ldrx 3 14 80, .ld1q 0 10 16,
   .ld1q 1 10 16, .smax 20 20 29, .smax 21 21 29, .ld1q 2 10 16, .ld1q 3 10 16, .smax 22 22 29, .smax 23 23 29, .ld1q 4 10
   16, .ld1q 5 10 16, .smax 24 24 29, .smax 25 25 29, .ld1q 6 10 16, .ld1q 7 10 16, .smax 26 26 29, .smax 27 27 29, .addC 2
   2, .addC 3 3, .smin 20 20 30, .smin 21 21 30, .smin 22 22 30, .smin 23 23 30, .ldrq 28 2 0, .ldrq 29 2 16, .smin 24 24
   30, .smin 25 25 30, .smin 26 26 30, .smin 27 27 30, .scvtf 20 20, .scvtf 21 21, .scvtf 22 22, .scvtf 23 23, .ldrq 30 3 0,
   .ldrq 31 3 16, .scvtf 24 24, .scvtf 25 25, .scvtf 26 26, .scvtf 27 27, .fmul 20 20 28, .fmul 21 21 29, .fmul 22 22 28,
   .fmul 23 23 29, .fmul 24 24 28, .fmul 25 25 29, .fmul 26 26 28, .fmul 27 27 29, .fadd 20 20 30, .fadd 21 21 31, .fadd 22
   22 30, .fadd 23 23 31, .fadd 24 24 30, .fadd 25 25 31, .fadd 26 26 30, .fadd 27 27 31]

/-- The same for int8 (kernels_aarch64.h:944-1054). -/
def g8OtI : List NInstr :=
  [.addi 2 14 64, .addi 3 14 68, .ushll 20 24, .ushll2 21 24, .ld1r 29 2 0, .ushll 22 25, .ushll2 23 25, .ld1r 30 3 0,
   .ushll 24 26, .ushll2 25 26, .ld1q 8 11 16, .ushll 26 27, .ushll2 27 27, .ldrx 2 14 72, .ldrx 3 14 80, .ld1q 0 10 16,
   .ld1q 1 10 16, .smax 20 20 29, .smax 21 21 29, .ld1q 2 10 16, .ld1q 3 10 16, .smax 22 22 29, .smax 23 23 29, .ld1q 4 10
   16, .ld1q 5 10 16, .smax 24 24 29, .smax 25 25 29, .ld1q 6 10 16, .ld1q 7 10 16, .smax 26 26 29, .smax 27 27 29, .addC 2
   2, .addC 3 3, .smin 20 20 30, .smin 21 21 30, .smin 22 22 30, .smin 23 23 30, .ldrq 28 2 0, .ldrq 29 2 16, .smin 24 24
   30, .smin 25 25 30, .smin 26 26 30, .smin 27 27 30, .scvtf 20 20, .scvtf 21 21, .scvtf 22 22, .scvtf 23 23, .ldrq 30 3 0,
   .ldrq 31 3 16, .scvtf 24 24, .scvtf 25 25, .scvtf 26 26, .scvtf 27 27, .fmul 20 20 28, .fmul 21 21 29, .fmul 22 22 28,
   .fmul 23 23 29, .fmul 24 24 28, .fmul 25 25 29, .fmul 26 26 28, .fmul 27 27 29, .fadd 20 20 30, .fadd 21 21 31, .fadd 22
   22 30, .fadd 23 23 31, .fadd 24 24 30, .fadd 25 25 31, .fadd 26 26 30, .fadd 27 27 31, .fcvtns 20 20, .fcvtns 21 21,
   .fcvtns 22 22, .fcvtns 23 23, .fcvtns 24 24, .fcvtns 25 25, .fcvtns 26 26, .fcvtns 27 27, .sqxtnH 28 20, .sqxtn2H 28 21,
   .sqxtnH 29 22, .sqxtn2H 29 23, .sqxtnH 30 24, .sqxtn2H 30 25, .sqxtnH 31 26, .sqxtn2H 31 27, .sqxtnB 20 28, .sqxtnB 21
   29, .sqxtnB 22 30, .sqxtnB 23 31]

/-- The same for bitpacked output (kernels_aarch64.h:838-894). -/
def g8OtB : List NInstr :=
  [.ldrx 2 14 64, .addC 2 2, .ldrq 29 2 0, .ldrq 30 2 16, .uxtl 20 24, .uxtl2 21 24, .uxtl 22 25, .uxtl2 23 25, .ld1q 8 11
   16, .uxtl 24 26, .uxtl2 25 26, .uxtl 26 27, .uxtl2 27 27, .ld1q 0 10 16, .ld1q 1 10 16, .cmgt 20 20 29, .cmgt 21 21 30,
   .cmgt 22 22 29, .cmgt 23 23 30, .ld1q 2 10 16, .ld1q 3 10 16, .cmgt 24 24 29, .cmgt 25 25 30, .cmgt 26 26 29, .cmgt 27 27
   30, .ld1q 4 10 16, .ld1q 5 10 16, .xtn 20 20, .xtn2 20 21, .xtn 21 22, .xtn2 21 23, .ld1q 6 10 16, .ld1q 7 10 16, .xtn 22
   24, .xtn2 22 25, .xtn 23 26, .xtn2 23 27, .andv 20 20 31, .andv 21 21 31, .andv 22 22 31, .andv 23 23 31, .addvH 20 20,
   .addvH 21 21, .addvH 22 22, .addvH 23 23]

/-- `Clear accumulators` (kernels_aarch64.h:1129-1133). -/
def g8Zero : List NInstr :=
  [.movi0 24, .movi0 25, .movi0 26, .movi0 27]

/-- BinaryKernelNeon4x4 before the main loop (kernels_aarch64.h:207-224). -/
def g4Pre : List NInstr :=
  [.movi0 24, .movi0 25, .movi0 26, .movi0 27, .ld1q 0 10 16, .ld1q 1 10 16, .ld1q 2 10 16, .ld1q 3 10 16, .ld1q 4 11 16,
   .ld1q 5 11 16, .ld1q 6 11 16, .ld1q 7 11 16]

/-- `LCE_BMLA` at the beginning of the main loop (kernels_aarch64.h:105-118, 234). -/
def g4First : List NInstr :=
  [.eor 28 4 0, .eor 29 4 1, .eor 30 4 2, .eor 31 4 3, .cnt 28 28, .cnt 29 29, .cnt 30 30, .cnt 31 31, .addp 28 28 29, .addp
   30 30 31, .addp 28 28 30, .uaddlpH 28 28, .uadalpS 24 28]

/-- Loads of the second block (kernels_aarch64.h:242-243). -/
def g4Load : List NInstr :=
  [.ld1q 8 10 16, .ld1q 9 10 16, .ld1q 10 10 16, .ld1q 11 10 16, .ld1q 12 11 16, .ld1q 13 11 16, .ld1q 14 11 16, .ld1q 15 11
   16]

/-- The MAX_STREAMING loop (kernels_aarch64.h:247-260; macros 121-158). -/
def g4Stream : List NInstr :=
  [.ld1q 4 11 16, .eor 28 5 0, .eor 29 5 1, .eor 30 5 2, .eor 31 5 3, .ld1q 5 11 16, .cnt 28 28, .cnt 29 29, .cnt 30 30,
   .cnt 31 31, .addp 28 28 29, .addp 30 30 31, .addp 28 28 30, .uaddlpH 28 28, .uadalpS 25 28, .eor 28 6 0, .eor 29 6 1,
   .eor 30 6 2, .eor 31 6 3, .ld1q 6 11 16, .cnt 28 28, .cnt 29 29, .cnt 30 30, .cnt 31 31, .addp 28 28 29, .addp 30 30 31,
   .addp 28 28 30, .uaddlpH 28 28, .uadalpS 26 28, .eor 28 7 0, .eor 29 7 1, .eor 30 7 2, .eor 31 7 3, .ld1q 7 11 16, .cnt
   28 28, .cnt 29 29, .ld1q 0 10 16, .cnt 30 30, .cnt 31 31, .ld1q 1 10 16, .addp 28 28 29, .ld1q 2 10 16, .addp 30 30 31,
   .addp 28 28 30, .uaddlpH 28 28, .uadalpS 27 28, .ld1q 3 10 16, .eor 28 12 8, .eor 29 12 9, .eor 30 12 10, .eor 31 12 11,
   .ld1q 12 11 16, .cnt 28 28, .cnt 29 29, .cnt 30 30, .cnt 31 31, .addp 28 28 29, .addp 30 30 31, .addp 28 28 30, .uaddlpH
   28 28, .uadalpS 24 28, .eor 28 13 8, .eor 29 13 9, .eor 30 13 10, .eor 31 13 11, .ld1q 13 11 16, .cnt 28 28, .cnt 29 29,
   .cnt 30 30, .cnt 31 31, .addp 28 28 29, .addp 30 30 31, .addp 28 28 30, .uaddlpH 28 28, .uadalpS 25 28, .eor 28 14 8,
   .eor 29 14 9, .eor 30 14 10, .eor 31 14 11, .ld1q 14 11 16, .cnt 28 28, .cnt 29 29, .cnt 30 30, .cnt 31 31, .addp 28 28
   29, .addp 30 30 31, .addp 28 28 30, .uaddlpH 28 28, .uadalpS 26 28, .eor 28 15 8, .eor 29 15 9, .eor 30 15 10, .eor 31 15
   11, .ld1q 15 11 16, .cnt 28 28, .cnt 29 29, .ld1q 8 10 16, .cnt 30 30, .cnt 31 31, .ld1q 9 10 16, .addp 28 28 29, .ld1q
   10 10 16, .addp 30 30 31, .addp 28 28 30, .uaddlpH 28 28, .uadalpS 27 28, .ld1q 11 10 16, .eor 28 4 0, .eor 29 4 1, .eor
   30 4 2, .eor 31 4 3, .cnt 28 28, .cnt 29 29, .cnt 30 30, .cnt 31 31, .addp 28 28 29, .addp 30 30 31, .addp 28 28 30,
   .uaddlpH 28 28, .uadalpS 24 28]

/-- After the MAX_STREAMING loop (kernels_aarch64.h:266-269). -/
def g4StreamTail : List NInstr :=
  [.eor 28 12 8, .eor 29 12 9, .eor 30 12 10, .eor 31 12 11, .cnt 28 28, .cnt 29 29, .cnt 30 30, .cnt 31 31, .addp 28 28 29,
   .addp 30 30 31, .addp 28 28 30, .uaddlpH 28 28, .uadalpS 24 28, .eor 28 13 8, .eor 29 13 9, .eor 30 13 10, .eor 31 13 11,
   .cnt 28 28, .cnt 29 29, .cnt 30 30, .cnt 31 31, .addp 28 28 29, .addp 30 30 31, .addp 28 28 30, .uaddlpH 28 28, .uadalpS
   25 28, .eor 28 14 8, .eor 29 14 9, .eor 30 14 10, .eor 31 14 11, .cnt 28 28, .cnt 29 29, .cnt 30 30, .cnt 31 31, .addp 28
   28 29, .addp 30 30 31, .addp 28 28 30, .uaddlpH 28 28, .uadalpS 26 28, .eor 28 15 8, .eor 29 15 9, .eor 30 15 10, .eor 31
   15 11, .cnt 28 28, .cnt 29 29, .cnt 30 30, .cnt 31 31, .addp 28 28 29, .addp 30 30 31, .addp 28 28 30, .uaddlpH 28 28,
   .uadalpS 27 28]

/-- The accumulation loop (kernels_aarch64.h:278-292). -/
def g4Loop : List NInstr :=
  [.ld1q 4 11 16, .eor 28 5 0, .eor 29 5 1, .eor 30 5 2, .eor 31 5 3, .ld1q 5 11 16, .cnt 28 28, .cnt 29 29, .cnt 30 30,
   .cnt 31 31, .addp 28 28 29, .addp 30 30 31, .addp 28 28 30, .uaddlpH 28 28, .uadalpS 25 28, .eor 28 6 0, .eor 29 6 1,
   .eor 30 6 2, .eor 31 6 3, .ld1q 6 11 16, .cnt 28 28, .cnt 29 29, .cnt 30 30, .cnt 31 31, .addp 28 28 29, .addp 30 30 31,
   .addp 28 28 30, .uaddlpH 28 28, .uadalpS 26 28, .eor 28 7 0, .eor 29 7 1, .eor 30 7 2, .eor 31 7 3, .ld1q 7 11 16, .cnt
   28 28, .cnt 29 29, .ld1q 0 10 16, .cnt 30 30, .cnt 31 31, .ld1q 1 10 16, .addp 28 28 29, .ld1q 2 10 16, .addp 30 30 31,
   .addp 28 28 30, .uaddlpH 28 28, .uadalpS 27 28, .ld1q 3 10 16, .eor 28 4 0, .eor 29 4 1, .eor 30 4 2, .eor 31 4 3, .cnt
   28 28, .cnt 29 29, .cnt 30 30, .cnt 31 31, .addp 28 28 29, .addp 30 30 31, .addp 28 28 30, .uaddlpH 28 28, .uadalpS 24
   28]

/-- After the accumulation loop (kernels_aarch64.h:294-298). -/
def g4Tail : List NInstr :=
  [.eor 28 5 0, .eor 29 5 1, .eor 30 5 2, .eor 31 5 3, .cnt 28 28, .cnt 29 29, .cnt 30 30, .cnt 31 31, .addp 28 28 29, .addp
   30 30 31, .addp 28 28 30, .uaddlpH 28 28, .uadalpS 25 28, .eor 28 6 0, .eor 29 6 1, .eor 30 6 2, .eor 31 6 3, .cnt 28 28,
   .cnt 29 29, .cnt 30 30, .cnt 31 31, .addp 28 28 29, .addp 30 30 31, .addp 28 28 30, .uaddlpH 28 28, .uadalpS 26 28, .eor
   28 7 0, .eor 29 7 1, .eor 30 7 2, .eor 31 7 3, .cnt 28 28, .cnt 29 29, .cnt 30 30, .cnt 31 31, .addp 28 28 29, .addp 30
   30 31, .addp 28 28 30, .uaddlpH 28 28, .uadalpS 27 28]

/-- Output transform for float and loads for the next block (kernels_aarch64.h:336-398). -/
def g4OtF : List NInstr :=
  [.ldrx 1 14 72, .addC 1 1, .ld1q 14 1 16, .ldrx 1 14 80, .addC 1 1, .ld1q 15 1 16, .ld1q 0 10 16, .ld1q 1 10 16, .ld1q 2
   10 16, .ld1q 3 10 16, .ld1q 4 11 16, .ld1q 5 11 16, .ld1q 6 11 16, .ld1q 7 11 16, .ldrDup 12 14 64, .shlS 24 24, .shlS 25
   25, .shlS 26 26, .shlS 27 27, .ldrDup 13 14 68, .smax 24 24 12, .smax 25 25 12, .smax 26 26 12, .smax 27 27 12, .smin 24
   24 13, .smin 25 25 13, .smin 26 26 13, .smin 27 27 13, .scvtf 24 24, .scvtf 25 25, .scvtf 26 26, .scvtf 27 27, .fmul 24
   24 14, .fmul 25 25 14, .fmul 26 26 14, .fmul 27 27 14, .fadd 24 24 15, .fadd 25 25 15, .fadd 26 26 15, .fadd 27 27 15]

/-- The same for int8 (kernels_aarch64.h:336-417). -/
def g4OtI : List NInstr :=
  [.ldrx 1 14 72, .addC 1 1, .ld1q 14 1 16, .ldrx 1 14 80, .addC 1 1, .ld1q 15 1 16, .ld1q 0 10 16, .ld1q 1 10 16, .ld1q 2
   10 16, .ld1q 3 10 16, .ld1q 4 11 16, .ld1q 5 11 16, .ld1q 6 11 16, .ld1q 7 11 16, .ldrDup 12 14 64, .shlS 24 24, .shlS 25
   25, .shlS 26 26, .shlS 27 27, .ldrDup 13 14 68, .smax 24 24 12, .smax 25 25 12, .smax 26 26 12, .smax 27 27 12, .smin 24
   24 13, .smin 25 25 13, .smin 26 26 13, .smin 27 27 13, .scvtf 24 24, .scvtf 25 25, .scvtf 26 26, .scvtf 27 27, .fmul 24
   24 14, .fmul 25 25 14, .fmul 26 26 14, .fmul 27 27 14, .fadd 24 24 15, .fadd 25 25 15, .fadd 26 26 15, .fadd 27 27 15,
   .fcvtns 24 24, .fcvtns 25 25, .fcvtns 26 26, .fcvtns 27 27, .sqxtnH 24 24, .sqxtnH 25 25, .sqxtnH 26 26, .sqxtnH 27 27,
   .sqxtnB 24 24, .sqxtnB 25 25, .sqxtnB 26 26, .sqxtnB 27 27]

/-- `MAKE_ZERO` of the accumulators (kernels_aarch64.h:458-483; between the stores in the float version). -/
def g4Zero : List NInstr :=
  [.movi0 24, .movi0 25, .movi0 26, .movi0 27]

end Verif
