import Verif.Model.BGemm

/-!
Model of the selection of kernels with 16-bit accumulators and of what such a kernel
accumulates.

* `/repo/larq_compute_engine/tflite/kernels/bconv2d.cc` lines 519-541
* `/repo/larq_compute_engine/core/indirect_bgemm/select_kernel.h` lines 40-53
* the `uadalp ... .8h` accumulations of `core/bgemm/kernels_aarch64.h` (lines 590-670) and of
  `core/indirect_bgemm/kernel_8x4x{1,2,4}_aarch64.h`: lanes are unsigned 16-bit and wrap.

Simplification: a lane is modelled word by word. The assembly reduces the bytes of a word
pairwise (at most 8 + 8 per byte pair, `addp`), which cannot overflow a byte, so only the
16-bit additions can wrap; wrapping addition is associative and commutative, so the grouping of
the additions does not matter.
-/

namespace Verif

/-- `EvalChooseKernelType` (bconv2d.cc:529-535, Arm64): `depth + 512 < 1 << 16` with
`depth = filter_height * filter_width * channels_in` (no int overflow assumed). -/
def bgemm16Selected (p : BConv) : Bool := decide (p.filtH * p.filtW * p.cin + 512 < 65536)

/-- `fits_in_uint16_accumulators` (select_kernel.h:46-51):
`bitpacking_bitwidth * bitpacked_input_shape.FlatSize() / groups < 65535`. -/
def indirect16Selected (p : BConv) : Bool :=
  decide (32 * (p.batches * p.inH * p.inW * p.inDepth) / p.groups < 65535)

/-- The accumulation loop of `gemmAcc` with a 16-bit lane (kernels_aarch64.h:590-670). -/
def gemmAcc16 (depth : Nat) (lhs rhs : List Word) (i j : Nat) : Option (BitVec 16) :=
  forN depth (fun k acc => do
    let l ← rd lhs (i * depth + k)
    let r ← rd rhs (j * depth + k)
    some (acc + BitVec.ofNat 16 (xorPopcount l r))) 0#16

/-- A 16-bit lane of the indirect kernels, for output pixel `(b, oy, ox)` and channel `oc`
(kernel_8x4x1_aarch64.h:113-248 and the 8x4x2, 8x4x4 versions): all filter positions, all words
of the group; positions outside the image read the zero buffer. -/
def lane16 (p : BConv) (inp filt : List Word) (b oy ox oc : Nat) : Option (BitVec 16) :=
  forN p.filtH (fun fy acc =>
    forN p.filtW (fun fx acc =>
      forN p.filtDepth (fun ic acc => do
        let iy := p.inY oy fy
        let ix := p.inX ox fx
        let iv ← (if p.inside iy ix then
            rd inp (offset4 p.inH p.inW p.inDepth b iy.toNat ix.toNat (oc / p.outPerGroup * p.filtDepth + ic))
          else some 0#32)
        let fv ← rd filt (offset4 p.filtH p.filtW p.filtDepth oc fy fx ic)
        some (acc + BitVec.ofNat 16 (xorPopcount iv fv))) acc) acc) 0#16

end Verif
