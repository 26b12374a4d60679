import Verif.Model.NeonA64

/-!
The straight-line parts of the inline assembly of `/repo/larq_compute_engine/core/bgemm/kernels_arm32.h` as instruction lists.
Generated by `tools/gen_a32_bgemm.py`; do not edit. Register numbers as in Model/NeonA64.lean; the other instructions (branches,
scalar arithmetic, stack accesses, stores) are in Model/GemmA32.lean, the generator checks that they are the expected ones.
-/

namespace Verif

/-- BinaryKernelNeon4x4 before the main loop (kernels_arm32.h:197-207). -/
def a4Pre : List NInstr :=
  [.movi0 8, .movi0 9, .movi0 10, .movi0 11, .ld1q 0 10 16, .ld1q 1 10 16, .ld1q 2 10 16, .ld1q 3 10 16, .ld1q 4 11 16,
   .ld1q 5 11 16, .ld1q 6 11 16, .ld1q 7 11 16]

/-- `LCE_BMLA` of the four columns at the beginning of the main loop (kernels_arm32.h:97-113, 218-221). -/
def a4First : List NInstr :=
  [.eor 12 4 0, .eor 13 4 1, .eor 14 4 2, .eor 15 4 3, .cnt 12 12, .cnt 13 13, .cnt 14 14, .cnt 15 15, .vpadd 24 24 25,
   .vpadd 25 26 27, .vpadd 28 28 29, .vpadd 29 30 31, .vpadd 24 24 25, .vpadd 25 28 29, .uaddlpH 12 12, .uadalpS 8 12, .eor
   12 5 0, .eor 13 5 1, .eor 14 5 2, .eor 15 5 3, .cnt 12 12, .cnt 13 13, .cnt 14 14, .cnt 15 15, .vpadd 24 24 25, .vpadd 25
   26 27, .vpadd 28 28 29, .vpadd 29 30 31, .vpadd 24 24 25, .vpadd 25 28 29, .uaddlpH 12 12, .uadalpS 9 12, .eor 12 6 0,
   .eor 13 6 1, .eor 14 6 2, .eor 15 6 3, .cnt 12 12, .cnt 13 13, .cnt 14 14, .cnt 15 15, .vpadd 24 24 25, .vpadd 25 26 27,
   .vpadd 28 28 29, .vpadd 29 30 31, .vpadd 24 24 25, .vpadd 25 28 29, .uaddlpH 12 12, .uadalpS 10 12, .eor 12 7 0, .eor 13
   7 1, .eor 14 7 2, .eor 15 7 3, .cnt 12 12, .cnt 13 13, .cnt 14 14, .cnt 15 15, .vpadd 24 24 25, .vpadd 25 26 27, .vpadd
   28 28 29, .vpadd 29 30 31, .vpadd 24 24 25, .vpadd 25 28 29, .uaddlpH 12 12, .uadalpS 11 12]

/-- The accumulation loop (kernels_arm32.h:228-244). -/
def a4Loop : List NInstr :=
  [.ld1q 0 10 16, .ld1q 1 10 16, .ld1q 2 10 16, .ld1q 3 10 16, .ld1q 4 11 16, .ld1q 5 11 16, .ld1q 6 11 16, .ld1q 7 11 16,
   .eor 12 4 0, .eor 13 4 1, .eor 14 4 2, .eor 15 4 3, .cnt 12 12, .cnt 13 13, .cnt 14 14, .cnt 15 15, .vpadd 24 24 25,
   .vpadd 25 26 27, .vpadd 28 28 29, .vpadd 29 30 31, .vpadd 24 24 25, .vpadd 25 28 29, .uaddlpH 12 12, .uadalpS 8 12, .eor
   12 5 0, .eor 13 5 1, .eor 14 5 2, .eor 15 5 3, .cnt 12 12, .cnt 13 13, .cnt 14 14, .cnt 15 15, .vpadd 24 24 25, .vpadd 25
   26 27, .vpadd 28 28 29, .vpadd 29 30 31, .vpadd 24 24 25, .vpadd 25 28 29, .uaddlpH 12 12, .uadalpS 9 12, .eor 12 6 0,
   .eor 13 6 1, .eor 14 6 2, .eor 15 6 3, .cnt 12 12, .cnt 13 13, .cnt 14 14, .cnt 15 15, .vpadd 24 24 25, .vpadd 25 26 27,
   .vpadd 28 28 29, .vpadd 29 30 31, .vpadd 24 24 25, .vpadd 25 28 29, .uaddlpH 12 12, .uadalpS 10 12, .eor 12 7 0, .eor 13
   7 1, .eor 14 7 2, .eor 15 7 3, .cnt 12 12, .cnt 13 13, .cnt 14 14, .cnt 15 15, .vpadd 24 24 25, .vpadd 25 26 27, .vpadd
   28 28 29, .vpadd 29 30 31, .vpadd 24 24 25, .vpadd 25 28 29, .uaddlpH 12 12, .uadalpS 11 12]

/-- Output transform for float and loads for the next block (kernels_arm32.h:302-367). -/
def a4OtF : List NInstr :=
  [.ldrp 1 14 60, .addC 1 1, .ld1q 14 1 16, .ldrp 1 14 64, .addC 1 1, .ld1q 15 1 16, .ld1q 0 10 16, .ld1q 1 10 16, .ld1q 2
   10 16, .ld1q 3 10 16, .ld1q 4 11 16, .ld1q 5 11 16, .ld1q 6 11 16, .ld1q 7 11 16, .ldrDup 12 14 52, .shlS 8 8, .shlS 9 9,
   .shlS 10 10, .shlS 11 11, .ldrDup 13 14 56, .smax 8 8 12, .smax 9 9 12, .smax 10 10 12, .smax 11 11 12, .smin 8 8 13,
   .smin 9 9 13, .smin 10 10 13, .smin 11 11 13, .scvtf 8 8, .scvtf 9 9, .scvtf 10 10, .scvtf 11 11, .fmul 8 8 14, .fmul 9 9
   14, .fmul 10 10 14, .fmul 11 11 14, .fadd 8 8 15, .fadd 9 9 15, .fadd 10 10 15, .fadd 11 11 15]

/-- The same for int8 (kernels_arm32.h:302-395). -/
def a4OtI : List NInstr :=
  [.ldrp 1 14 60, .addC 1 1, .ld1q 14 1 16, .ldrp 1 14 64, .addC 1 1, .ld1q 15 1 16, .ld1q 0 10 16, .ld1q 1 10 16, .ld1q 2
   10 16, .ld1q 3 10 16, .ld1q 4 11 16, .ld1q 5 11 16, .ld1q 6 11 16, .ld1q 7 11 16, .ldrDup 12 14 52, .shlS 8 8, .shlS 9 9,
   .shlS 10 10, .shlS 11 11, .ldrDup 13 14 56, .smax 8 8 12, .smax 9 9 12, .smax 10 10 12, .smax 11 11 12, .smin 8 8 13,
   .smin 9 9 13, .smin 10 10 13, .smin 11 11 13, .scvtf 8 8, .scvtf 9 9, .scvtf 10 10, .scvtf 11 11, .fmul 8 8 14, .fmul 9 9
   14, .fmul 10 10 14, .fmul 11 11 14, .fadd 8 8 15, .fadd 9 9 15, .fadd 10 10 15, .fadd 11 11 15, .vcvtFix8 8 8, .vcvtFix8
   9 9, .vcvtFix8 10 10, .vcvtFix8 11 11, .vqrshrn8 8 8, .vqrshrn8 9 9, .vqrshrn8 10 10, .vqrshrn8 11 11, .vqmovnB 8 8,
   .vqmovnB 9 9, .vqmovnB 10 10, .vqmovnB 11 11]

/-- `MAKE_ZERO` of the accumulators (kernels_arm32.h:450-469; between the stores). -/
def a4Zero : List NInstr :=
  [.movi0 8, .movi0 9, .movi0 10, .movi0 11]

end Verif
