import Verif.Model.NeonA64

/-!
The inline assembly of `/repo/larq_compute_engine/core/indirect_bgemm/kernel_8x4x{1,2,4}_aarch64.h` as instruction lists.
Generated by `tools/gen_a64_indirect.py`; do not edit. `g` is `%c[is_grouped]`; register numbers as in Model/NeonA64.lean.
-/

namespace Verif

/-- `XOR_POPCOUNT_ACCUM_LOAD_BLOCK_32` (kernel_8x4x1_aarch64.h:34-65). -/
def x1Block : List NInstr :=
  [.eor 0 16 20, .eor 1 17 20, .eor 2 18 20, .eor 3 19 20, .eor 4 16 21, .eor 5 17 21, .ldrq 20 20 0, .eor 6 18 21, .eor 7
   19 21, .ldrq 21 20 16, .cnt 0 0, .cnt 1 1, .ld1r 16 10 4, .cnt 2 2, .cnt 3 3, .ld1r 17 11 4, .cnt 4 4, .cnt 5 5, .ld1r 18
   12 4, .cnt 6 6, .cnt 7 7, .ld1r 19 13 4, .addp 0 0 4, .addp 1 1 5, .addp 2 2 6, .addp 3 3 7, .addi 20 20 32, .uadalp 28
   0, .uadalp 29 1, .uadalp 30 2, .uadalp 31 3]

/-- `AccumulationLoop_Depth2OrMore` before the loop (kernel_8x4x1_aarch64.h:139-175), with the C++ initialisation of `a_ptr_0..3` above it. -/
def x1Pro2 (g : Bool) : List NInstr :=
  [.ldpx 10 11 21 0, .ldpx 12 13 21 16] ++ (if g then [.addOff 10 10, .addOff 11 11, .addOff 12 12, .addOff 13 13] else [])
   ++ [.addi 10 10 4, .addi 11 11 4, .addi 12 12 4, .addi 13 13 4] ++ [.addi 21 21 32, .subDepth, .movi0 28, .movi0 29,
   .movi0 30, .movi0 31]

/-- `AccumulationLoop_Depth2OrMore` between the inner loop and the last block (kernel_8x4x1_aarch64.h:139-175). -/
def x1Mid2 (g : Bool) : List NInstr :=
  [.ldpx 10 11 21 0, .ldpx 12 13 21 16, .addi 21 21 32, .subDepth, .subsFs] ++ (if g then [.addOff 10 10, .addOff 11 11,
   .addOff 12 12, .addOff 13 13] else [])

/-- `AccumulationLoop_Depth1` before the loop (kernel_8x4x1_aarch64.h:203-230). -/
def x1Pro1 : List NInstr :=
  [.addi 21 21 32, .movi0 28, .movi0 29, .movi0 30, .movi0 31]

/-- `AccumulationLoop_Depth1`, loop body before the block (kernel_8x4x1_aarch64.h:203-230). -/
def x1Body1 (g : Bool) : List NInstr :=
  [.ldpx 10 11 21 0, .ldpx 12 13 21 16, .addi 21 21 32, .subsFs] ++ (if g then [.addOff 10 10, .addOff 11 11, .addOff 12 12,
   .addOff 13 13] else [])

/-- The float `OutputTransformAndLoadNextAndStore` (kernel_8x4x1_aarch64.h:269-347). -/
def x1OtF (g : Bool) : List NInstr :=
  [.ldpx 0 1 21 0, .ldpx 2 3 21 16, .ld1r 0 22 0, .ushll 32 28, .ushll 34 29, .ld1r 1 23 0, .ushll 36 30, .ushll 38 31,
   .ldrq 2 24 0, .ushll2 39 31, .ushll2 37 30, .ldrq 3 24 16, .ushll2 35 29, .ushll2 33 28] ++ (if g then [.addOff 0 0,
   .addOff 1 1, .addOff 2 2, .addOff 3 3] else []) ++ [.ldrq 4 25 0, .smax 38 38 0, .smax 39 39 0, .smax 36 36 0, .smax 37
   37 0, .ldrq 5 25 16, .smax 34 34 0, .smax 35 35 0, .smax 32 32 0, .smax 33 33 0, .ld1r 16 0 0, .smin 38 38 1, .smin 39 39
   1, .smin 36 36 1, .smin 37 37 1, .ld1r 17 1 0, .smin 34 34 1, .smin 35 35 1, .smin 32 32 1, .smin 33 33 1, .ld1r 18 2 0,
   .scvtf 38 38, .scvtf 39 39, .ld1r 19 3 0, .scvtf 36 36, .fmul 38 38 2, .scvtf 37 37, .ldrqNeg 20 20 32, .fmul 39 39 3,
   .fadd 38 38 4, .scvtf 34 34, .ldrqNeg 21 20 16, .fmul 36 36 2, .fadd 39 39 5, .scvtf 35 35, .fmul 37 37 3, .fadd 36 36 4,
   .scvtf 32 32, .fmul 34 34 2, .fadd 37 37 5, .scvtf 33 33, .fmul 35 35 3, .fadd 34 34 4, .fmul 32 32 2, .fmul 33 33 3,
   .fadd 35 35 5, .fadd 32 32 4, .fadd 33 33 5]

/-- The int8 `OutputTransformAndLoadNextAndStore` (kernel_8x4x1_aarch64.h:437-536). -/
def x1OtI (g : Bool) : List NInstr :=
  [.ldpx 0 1 21 0, .ldpx 2 3 21 16, .ld1r 0 22 0, .ushll 32 28, .ushll 34 29, .ld1r 1 23 0, .ushll 36 30, .ushll 38 31,
   .ldrq 2 24 0, .ushll2 39 31, .ushll2 37 30, .ldrq 3 24 16, .ushll2 35 29, .ushll2 33 28] ++ (if g then [.addOff 0 0,
   .addOff 1 1, .addOff 2 2, .addOff 3 3] else []) ++ [.ldrq 4 25 0, .smax 38 38 0, .smax 39 39 0, .smax 36 36 0, .smax 37
   37 0, .ldrq 5 25 16, .smax 34 34 0, .smax 35 35 0, .smax 32 32 0, .smax 33 33 0, .ld1r 16 0 0, .smin 38 38 1, .smin 39 39
   1, .smin 36 36 1, .smin 37 37 1, .ld1r 17 1 0, .smin 34 34 1, .smin 35 35 1, .smin 32 32 1, .smin 33 33 1, .ld1r 18 2 0,
   .scvtf 38 38, .scvtf 39 39, .ld1r 19 3 0, .scvtf 36 36, .fmul 38 38 2, .scvtf 37 37, .ldrqNeg 20 20 32, .fmul 39 39 3,
   .fadd 38 38 4, .scvtf 34 34, .ldrqNeg 21 20 16, .fmul 36 36 2, .fadd 39 39 5, .scvtf 35 35, .fmul 37 37 3, .fadd 36 36 4,
   .fcvtns 38 38, .fmul 34 34 2, .fadd 37 37 5, .fcvtns 39 39, .sqxtnH 38 38, .fmul 35 35 3, .scvtf 32 32, .sqxtn2H 38 39,
   .fadd 34 34 4, .scvtf 33 33, .fmul 32 32 2, .fadd 35 35 5, .fcvtns 36 36, .fmul 33 33 3, .fadd 32 32 4, .fcvtns 37 37,
   .sqxtnH 36 36, .fadd 33 33 5, .fcvtns 34 34, .sqxtn2H 36 37, .fcvtns 35 35, .sqxtnH 34 34, .sqxtnB 38 38, .fcvtns 32 32,
   .sqxtn2H 34 35, .sqxtnB 36 36, .fcvtns 33 33, .sqxtnH 32 32, .sqxtn2H 32 33, .sqxtnB 34 34, .sqxtnB 32 32]

/-- The pre-loading of weights and activations by intrinsics in `Run` (kernel_8x4x1_aarch64.h:674-680), as instructions. -/
def x1Preload : List NInstr :=
  [.ldrq 20 20 0, .ldrq 21 20 16, .addi 20 20 32, .ldpx 0 1 21 0, .ldpx 2 3 21 16, .ld1r 16 0 0, .ld1r 17 1 0, .ld1r 18 2 0,
   .ld1r 19 3 0]

/-- `XOR_POPCOUNT_ACCUM_LOAD_BLOCK_64` (kernel_8x4x2_aarch64.h:39-100). -/
def x2Block : List NInstr :=
  [.eor 0 16 20, .eor 1 17 20, .eor 2 18 20, .eor 3 19 20, .eor 4 16 21, .eor 5 17 21, .eor 6 18 21, .eor 7 19 21, .eor 8 16
   22, .eor 9 17 22, .eor 10 18 22, .eor 11 19 22, .ldrq 20 20 0, .eor 12 16 23, .eor 13 17 23, .eor 14 18 23, .eor 15 19
   23, .ldrq 21 20 16, .cnt 0 0, .cnt 1 1, .ld1d 16 0 10 0, .cnt 2 2, .cnt 3 3, .ld1d 17 0 11 0, .cnt 4 4, .cnt 5 5, .ld1d
   18 0 12 0, .cnt 6 6, .cnt 7 7, .ld1d 19 0 13 0, .cnt 8 8, .cnt 9 9, .ld1d 16 1 10 8, .cnt 10 10, .cnt 11 11, .ld1d 17 1
   11 8, .cnt 12 12, .cnt 13 13, .ld1d 18 1 12 8, .cnt 14 14, .cnt 15 15, .ld1d 19 1 13 8, .addp 0 0 4, .addp 1 1 5, .addp 2
   2 6, .addp 3 3 7, .ldrq 22 20 32, .addp 8 8 12, .addp 9 9 13, .addp 10 10 14, .addp 11 11 15, .ldrq 23 20 48, .addp 0 0
   8, .addp 1 1 9, .addp 2 2 10, .addp 3 3 11, .addi 20 20 64, .uadalp 28 0, .uadalp 29 1, .uadalp 30 2, .uadalp 31 3]

/-- `AccumulationLoop_Depth2OrMore` before the loop (kernel_8x4x2_aarch64.h:174-210), with the C++ initialisation of `a_ptr_0..3` above it. -/
def x2Pro2 (g : Bool) : List NInstr :=
  [.ldpx 10 11 21 0, .ldpx 12 13 21 16] ++ (if g then [.addOff 10 10, .addOff 11 11, .addOff 12 12, .addOff 13 13] else [])
   ++ [.addi 10 10 8, .addi 11 11 8, .addi 12 12 8, .addi 13 13 8] ++ [.addi 21 21 32, .subDepth, .movi0 28, .movi0 29,
   .movi0 30, .movi0 31]

/-- `AccumulationLoop_Depth2OrMore` between the inner loop and the last block (kernel_8x4x2_aarch64.h:174-210). -/
def x2Mid2 (g : Bool) : List NInstr :=
  [.ldpx 10 11 21 0, .ldpx 12 13 21 16, .addi 21 21 32, .subDepth, .subsFs] ++ (if g then [.addOff 10 10, .addOff 11 11,
   .addOff 12 12, .addOff 13 13] else [])

/-- `AccumulationLoop_Depth1` before the loop (kernel_8x4x2_aarch64.h:240-267). -/
def x2Pro1 : List NInstr :=
  [.addi 21 21 32, .movi0 28, .movi0 29, .movi0 30, .movi0 31]

/-- `AccumulationLoop_Depth1`, loop body before the block (kernel_8x4x2_aarch64.h:240-267). -/
def x2Body1 (g : Bool) : List NInstr :=
  [.ldpx 10 11 21 0, .ldpx 12 13 21 16, .addi 21 21 32, .subsFs] ++ (if g then [.addOff 10 10, .addOff 11 11, .addOff 12 12,
   .addOff 13 13] else [])

/-- The float `OutputTransformAndLoadNextAndStore` (kernel_8x4x2_aarch64.h:308-392). -/
def x2OtF (g : Bool) : List NInstr :=
  [.ldpx 0 1 21 0, .ldpx 2 3 21 16, .ld1r 0 22 0, .ushll 32 28, .ushll 34 29, .ld1r 1 23 0, .ushll 36 30, .ushll 38 31,
   .ldrq 2 24 0, .ushll2 39 31, .ushll2 37 30, .ldrq 3 24 16, .ushll2 35 29, .ushll2 33 28] ++ (if g then [.addOff 0 0,
   .addOff 1 1, .addOff 2 2, .addOff 3 3] else []) ++ [.ldrq 4 25 0, .smax 38 38 0, .smax 39 39 0, .ldrq 5 25 16, .smax 36
   36 0, .smax 37 37 0, .ldrqNeg 20 20 64, .smax 34 34 0, .smax 35 35 0, .ldrqNeg 21 20 48, .smax 32 32 0, .smax 33 33 0,
   .ld1d 16 0 0 0, .smin 38 38 1, .smin 39 39 1, .ld1d 17 0 1 0, .smin 36 36 1, .smin 37 37 1, .ld1d 18 0 2 0, .smin 34 34
   1, .smin 35 35 1, .ld1d 19 0 3 0, .smin 32 32 1, .smin 33 33 1, .ld1d 16 1 0 0, .scvtf 38 38, .scvtf 39 39, .ld1d 17 1 1
   0, .scvtf 36 36, .fmul 38 38 2, .scvtf 37 37, .ld1d 18 1 2 0, .fmul 39 39 3, .fadd 38 38 4, .scvtf 34 34, .ld1d 19 1 3 0,
   .fmul 36 36 2, .fadd 39 39 5, .scvtf 35 35, .ldrqNeg 22 20 32, .fmul 37 37 3, .fadd 36 36 4, .scvtf 32 32, .ldrqNeg 23 20
   16, .fmul 34 34 2, .fadd 37 37 5, .scvtf 33 33, .fmul 35 35 3, .fadd 34 34 4, .fmul 32 32 2, .fmul 33 33 3, .fadd 35 35
   5, .fadd 32 32 4, .fadd 33 33 5]

/-- The int8 `OutputTransformAndLoadNextAndStore` (kernel_8x4x2_aarch64.h:482-587). -/
def x2OtI (g : Bool) : List NInstr :=
  [.ldpx 0 1 21 0, .ldpx 2 3 21 16, .ld1r 0 22 0, .ushll 32 28, .ushll 34 29, .ld1r 1 23 0, .ushll 36 30, .ushll 38 31,
   .ldrq 2 24 0, .ushll2 39 31, .ushll2 37 30, .ldrq 3 24 16, .ushll2 35 29, .ushll2 33 28] ++ (if g then [.addOff 0 0,
   .addOff 1 1, .addOff 2 2, .addOff 3 3] else []) ++ [.ldrq 4 25 0, .smax 38 38 0, .smax 39 39 0, .ldrq 5 25 16, .smax 36
   36 0, .smax 37 37 0, .ldrqNeg 20 20 64, .smax 34 34 0, .smax 35 35 0, .ldrqNeg 21 20 48, .smax 32 32 0, .smax 33 33 0,
   .ld1d 16 0 0 0, .smin 38 38 1, .smin 39 39 1, .ld1d 17 0 1 0, .smin 36 36 1, .smin 37 37 1, .ld1d 18 0 2 0, .smin 34 34
   1, .smin 35 35 1, .ld1d 19 0 3 0, .smin 32 32 1, .smin 33 33 1, .ld1d 16 1 0 0, .scvtf 38 38, .scvtf 39 39, .ld1d 17 1 1
   0, .scvtf 36 36, .fmul 38 38 2, .scvtf 37 37, .ld1d 18 1 2 0, .fmul 39 39 3, .fadd 38 38 4, .scvtf 34 34, .ld1d 19 1 3 0,
   .fmul 36 36 2, .fadd 39 39 5, .scvtf 35 35, .ldrqNeg 22 20 32, .fmul 37 37 3, .fadd 36 36 4, .fcvtns 38 38, .ldrqNeg 23
   20 16, .fmul 34 34 2, .fadd 37 37 5, .fcvtns 39 39, .sqxtnH 38 38, .fmul 35 35 3, .scvtf 32 32, .sqxtn2H 38 39, .fadd 34
   34 4, .scvtf 33 33, .fmul 32 32 2, .fadd 35 35 5, .fcvtns 36 36, .fmul 33 33 3, .fadd 32 32 4, .fcvtns 37 37, .sqxtnH 36
   36, .fadd 33 33 5, .fcvtns 34 34, .sqxtn2H 36 37, .fcvtns 35 35, .sqxtnH 34 34, .sqxtnB 38 38, .fcvtns 32 32, .sqxtn2H 34
   35, .sqxtnB 36 36, .fcvtns 33 33, .sqxtnH 32 32, .sqxtn2H 32 33, .sqxtnB 34 34, .sqxtnB 32 32]

/-- The pre-loading of weights and activations by intrinsics in `Run` (kernel_8x4x2_aarch64.h:724-737), as instructions. -/
def x2Preload : List NInstr :=
  [.ldrq 20 20 0, .ldrq 21 20 16, .ldrq 22 20 32, .ldrq 23 20 48, .addi 20 20 64, .ldpx 0 1 21 0, .ldpx 2 3 21 16, .ld1d 16
   0 0 0, .ld1d 16 1 0 0, .ld1d 17 0 1 0, .ld1d 17 1 1 0, .ld1d 18 0 2 0, .ld1d 18 1 2 0, .ld1d 19 0 3 0, .ld1d 19 1 3 0]

/-- `XOR_POPCOUNT_ACCUM_LOAD_BLOCK_128` (kernel_8x4x4_aarch64.h:33-146). -/
def x4Block : List NInstr :=
  [.eor 0 16 20, .eor 1 17 20, .eor 2 18 20, .eor 3 19 20, .eor 4 16 21, .eor 5 17 21, .eor 6 18 21, .eor 7 19 21, .eor 8 16
   22, .eor 9 17 22, .eor 10 18 22, .eor 11 19 22, .eor 12 16 23, .eor 13 17 23, .eor 14 18 23, .eor 15 19 23, .cnt 0 0,
   .cnt 1 1, .cnt 2 2, .cnt 3 3, .cnt 4 4, .cnt 5 5, .cnt 6 6, .cnt 7 7, .cnt 8 8, .cnt 9 9, .cnt 10 10, .cnt 11 11, .cnt 12
   12, .cnt 13 13, .cnt 14 14, .cnt 15 15, .addp 0 0 4, .addp 1 1 5, .addp 2 2 6, .addp 3 3 7, .addp 8 8 12, .addp 9 9 13,
   .addp 10 10 14, .addp 11 11 15, .eor 4 16 24, .eor 5 17 24, .eor 6 18 24, .eor 7 19 24, .eor 12 16 25, .eor 13 17 25,
   .eor 14 18 25, .eor 15 19 25, .eor 20 16 26, .eor 21 17 26, .eor 22 18 26, .eor 23 19 26, .eor 24 16 27, .eor 25 17 27,
   .eor 26 18 27, .eor 27 19 27, .cnt 4 4, .cnt 5 5, .cnt 6 6, .cnt 7 7, .ld1q 16 10 16, .cnt 12 12, .cnt 13 13, .cnt 14 14,
   .cnt 15 15, .ld1q 17 11 16, .cnt 20 20, .cnt 21 21, .cnt 22 22, .cnt 23 23, .ld1q 18 12 16, .cnt 24 24, .cnt 25 25, .cnt
   26 26, .cnt 27 27, .ld1q 19 13 16, .addp 4 4 12, .addp 5 5 13, .addp 6 6 14, .addp 7 7 15, .addp 12 20 24, .addp 13 21
   25, .addp 14 22 26, .addp 15 23 27, .ldrq 20 20 0, .addp 0 0 8, .addp 1 1 9, .ldrq 21 20 16, .addp 2 2 10, .addp 3 3 11,
   .ldrq 22 20 32, .addp 4 4 12, .addp 5 5 13, .ldrq 23 20 48, .addp 6 6 14, .addp 7 7 15, .ldrq 24 20 64, .addp 0 0 4,
   .addp 1 1 5, .ldrq 25 20 80, .addp 2 2 6, .addp 3 3 7, .ldrq 26 20 96, .uadalp 28 0, .uadalp 29 1, .ldrq 27 20 112,
   .uadalp 30 2, .uadalp 31 3, .addi 20 20 128]

/-- `AccumulationLoop_Depth2OrMore` before the loop (kernel_8x4x4_aarch64.h:209-259). -/
def x4Pro2 (g : Bool) : List NInstr :=
  [.ldpx 10 11 21 0, .ldpx 12 13 21 16, .addi 21 21 32, .subDepth, .movi0 28, .movi0 29, .movi0 30, .movi0 31] ++ (if g then
   [.addOff 10 10, .addOff 11 11, .addOff 12 12, .addOff 13 13] else []) ++ [.addi 10 10 16, .addi 11 11 16, .addi 12 12 16,
   .addi 13 13 16]

/-- `AccumulationLoop_Depth2OrMore` between the inner loop and the last block (kernel_8x4x4_aarch64.h:209-259). -/
def x4Mid2 (g : Bool) : List NInstr :=
  [.ldpx 10 11 21 0, .ldpx 12 13 21 16, .addi 21 21 32, .subDepth, .subsFs] ++ (if g then [.addOff 10 10, .addOff 11 11,
   .addOff 12 12, .addOff 13 13] else [])

/-- `AccumulationLoop_Depth1` before the loop (kernel_8x4x4_aarch64.h:290-317). -/
def x4Pro1 : List NInstr :=
  [.addi 21 21 32, .movi0 28, .movi0 29, .movi0 30, .movi0 31]

/-- `AccumulationLoop_Depth1`, loop body before the block (kernel_8x4x4_aarch64.h:290-317). -/
def x4Body1 (g : Bool) : List NInstr :=
  [.ldpx 10 11 21 0, .ldpx 12 13 21 16, .addi 21 21 32, .subsFs] ++ (if g then [.addOff 10 10, .addOff 11 11, .addOff 12 12,
   .addOff 13 13] else [])

/-- The float `OutputTransformAndLoadNextAndStore` (kernel_8x4x4_aarch64.h:363-446). -/
def x4OtF : List NInstr :=
  [.ldrx 0 26 8, .addi 1 26 4, .ld1r 0 26 0, .ushll 32 28, .ushll 34 29, .ld1r 1 1 0, .ushll 36 30, .addC 0 0, .ushll 38 31,
   .ldrq 2 0 0, .ldrq 3 0 16, .ushll2 39 31, .ushll2 37 30, .ldpx 0 1 21 0, .ushll2 35 29, .ushll2 33 28, .ldpx 2 3 21 16,
   .smax 38 38 0, .smax 39 39 0, .ldrqNeg 20 20 128, .smax 36 36 0, .smax 37 37 0, .ldrqNeg 21 20 112, .smax 34 34 0, .smax
   35 35 0, .ldrqOff 16 0, .smax 32 32 0, .smax 33 33 0, .ldrx 0 26 16, .ldrqOff 17 1, .smin 38 38 1, .smin 39 39 1, .addC 0
   0, .ldrqOff 18 2, .smin 36 36 1, .smin 37 37 1, .ldrq 0 0 0, .smin 34 34 1, .smin 35 35 1, .ldrqOff 19 3, .smin 32 32 1,
   .smin 33 33 1, .ldrq 1 0 16, .ldrqNeg 22 20 96, .scvtf 38 38, .scvtf 39 39, .ldrqNeg 23 20 80, .scvtf 36 36, .fmul 38 38
   2, .scvtf 37 37, .ldrqNeg 24 20 64, .fmul 39 39 3, .fadd 38 38 0, .scvtf 34 34, .ldrqNeg 25 20 48, .fmul 36 36 2, .fadd
   39 39 1, .scvtf 35 35, .ldrqNeg 26 20 32, .fmul 37 37 3, .fadd 36 36 0, .scvtf 32 32, .ldrqNeg 27 20 16, .fmul 34 34 2,
   .fadd 37 37 1, .scvtf 33 33, .fmul 35 35 3, .fadd 34 34 0, .fmul 32 32 2, .fmul 33 33 3, .fadd 35 35 1, .fadd 32 32 0,
   .fadd 33 33 1]

/-- The int8 `OutputTransformAndLoadNextAndStore` (kernel_8x4x4_aarch64.h:543-646). -/
def x4OtI : List NInstr :=
  [.ldrx 0 26 8, .addi 1 26 4, .ld1r 0 26 0, .ushll 32 28, .ushll 34 29, .ld1r 1 1 0, .ushll 36 30, .addC 0 0, .ushll 38 31,
   .ldrq 2 0 0, .ldrq 3 0 16, .ushll2 39 31, .ushll2 37 30, .ldpx 0 1 21 0, .ushll2 35 29, .ushll2 33 28, .ldpx 2 3 21 16,
   .smax 38 38 0, .smax 39 39 0, .ldrqNeg 20 20 128, .smax 36 36 0, .smax 37 37 0, .ldrqNeg 21 20 112, .smax 34 34 0, .smax
   35 35 0, .ldrqOff 16 0, .smax 32 32 0, .smax 33 33 0, .ldrx 0 26 16, .ldrqOff 17 1, .smin 38 38 1, .smin 39 39 1, .addC 0
   0, .ldrqOff 18 2, .smin 36 36 1, .smin 37 37 1, .ldrq 0 0 0, .smin 34 34 1, .smin 35 35 1, .ldrqOff 19 3, .smin 32 32 1,
   .smin 33 33 1, .ldrq 1 0 16, .ldrqNeg 22 20 96, .scvtf 38 38, .scvtf 39 39, .ldrqNeg 23 20 80, .scvtf 36 36, .fmul 38 38
   2, .scvtf 37 37, .ldrqNeg 24 20 64, .fmul 39 39 3, .fadd 38 38 0, .scvtf 34 34, .ldrqNeg 25 20 48, .fmul 36 36 2, .fadd
   39 39 1, .scvtf 35 35, .ldrqNeg 26 20 32, .fmul 37 37 3, .fadd 36 36 0, .fcvtns 38 38, .ldrqNeg 27 20 16, .fmul 34 34 2,
   .fadd 37 37 1, .fcvtns 39 39, .sqxtnH 38 38, .fmul 35 35 3, .scvtf 32 32, .sqxtn2H 38 39, .fadd 34 34 0, .scvtf 33 33,
   .fmul 32 32 2, .fadd 35 35 1, .fcvtns 36 36, .fmul 33 33 3, .fadd 32 32 0, .fcvtns 37 37, .sqxtnH 36 36, .fadd 33 33 1,
   .fcvtns 34 34, .sqxtn2H 36 37, .fcvtns 35 35, .sqxtnH 34 34, .sqxtnB 38 38, .fcvtns 32 32, .sqxtn2H 34 35, .sqxtnB 36 36,
   .fcvtns 33 33, .sqxtnH 32 32, .sqxtn2H 32 33, .sqxtnB 34 34, .sqxtnB 32 32]

/-- The pre-loading of weights and activations by intrinsics in `Run` (kernel_8x4x4_aarch64.h:782-791), as instructions. -/
def x4Preload : List NInstr :=
  [.ldrq 20 20 0, .ldrq 21 20 16, .ldrq 22 20 32, .ldrq 23 20 48, .ldrq 24 20 64, .ldrq 25 20 80, .ldrq 26 20 96, .ldrq 27
   20 112, .addi 20 20 128, .ldpx 0 1 21 0, .ldpx 2 3 21 16, .ld1q 16 0 0, .ld1q 17 1 0, .ld1q 18 2 0, .ld1q 19 3 0]

end Verif
