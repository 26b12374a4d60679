import Verif.Model.ConstFold
import Verif.Proof.Float64
import Verif.Proof.QuantEq

/-! C34: conversion-time constant folding of LceQuantize and LceDequantize agrees with the runtime operators. -/

namespace Verif

/-- **C34 (quantize).** If the converter folds `LceQuantize` of a rank-4 constant, the constant it puts in its place
has the shape the runtime operator would allocate and the content the runtime operator would write, whatever the output
buffer held before. -/
theorem C34_quantize {shape : List Nat} {x : TData} {junk : Word} {s : List Nat} {q : List Word}
    (h4 : shape.length = 4) (hx : x.size = shape.prod) (h : foldQuantize shape x junk = .const s q) :
    quantizePrepare shape = some s ∧
    ∀ (out0 : List Word) (junk' : Word), out0.length = s.prod → quantizeEval shape x out0 junk' = some q := by
  match shape, h4 with
  | [d0, d1, d2, d3], _ =>
    cases x with
    | i8 => simp [foldQuantize] at h
    | bool => simp [foldQuantize] at h
    | f32 xs =>
      simp only [foldQuantize] at h
      split at h
      · rename_i q' hq
        simp only [Folded.const.injEq] at h
        obtain ⟨rfl, rfl⟩ := h
        refine ⟨rfl, fun out0 junk' h0 => ?_⟩
        have e1 : [d0, d1, d2, d3].getLast? = some d3 := rfl
        have e2 : [d0, d1, d2, d3].dropLast.prod = d0 * d1 * d2 := by simp [Nat.mul_assoc]
        have hx' : (TData.f32 xs).size = [d0, d1, d2, d3].dropLast.prod * d3 := by rw [hx, prod_dropLast e1]
        have hp := packedSize_eq d3
        obtain ⟨q2, f1, f2⟩ := quantize_congr (junk := junk) (junk' := junk')
          (out0 := List.replicate (d0 * d1 * d2 * packedSize d3) 0#32) (out1 := out0) e1 hx' hx' trivial trivial
          (by rw [List.length_replicate, e2, hp]) (by rw [h0, e2, ← hp]; simp [Nat.mul_assoc]) (fun _ _ => Iff.rfl)
        rw [f2]
        unfold quantizeEval bitpackTensor at f1
        rw [e1, e2] at f1
        simp only [Option.bind_eq_bind, Option.bind_some] at f1
        rw [← f1, hq]
      · simp at h

/-- Float rank-4 constants are folded. -/
theorem C34_quantize_folds {d0 d1 d2 d3 : Nat} {xs : List F32} (junk : Word) (hx : xs.length = d0 * d1 * d2 * d3) :
    ∃ q, foldQuantize [d0, d1, d2, d3] (.f32 xs) junk = .const [d0, d1, d2, (d3 + 31) / 32] q := by
  have e1 : [d0, d1, d2, d3].getLast? = some d3 := rfl
  have e2 : [d0, d1, d2, d3].dropLast.prod = d0 * d1 * d2 := by simp [Nat.mul_assoc]
  obtain ⟨q, h1, _⟩ := C01_quantize_bits (shape := [d0, d1, d2, d3]) (x := .f32 xs) (junk := junk)
    (out0 := List.replicate (d0 * d1 * d2 * packedSize d3) 0#32) e1 (by rw [e2]; exact hx)
    (by rw [List.length_replicate, e2, packedSize_eq]) trivial
  unfold quantizeEval bitpackTensor at h1
  rw [e1, e2] at h1
  simp only [Option.bind_eq_bind, Option.bind_some] at h1
  exact ⟨q, by rw [← packedSize_eq]; simp only [foldQuantize, h1]⟩

/-- The result of `unpack_matrix` does not depend on the previous content of the output. -/
theorem unpackMatrix_indep {β : Type} {w : List Word} {rows cols : Nat} {y0 y1 : List β} {zb ob : β}
    (hw : w.length = rows * packedSize cols) (h0 : y0.length = rows * cols) (h1 : y1.length = rows * cols) :
    ∃ y, unpackMatrix w rows cols y0 zb ob = some y ∧ unpackMatrix w rows cols y1 zb ob = some y := by
  obtain ⟨y, a1, a2⟩ := unpackMatrix_fills (zb := zb) (ob := ob) (Nat.le_of_eq hw.symm) (Nat.le_of_eq h0.symm)
  obtain ⟨z, b1, b2⟩ := unpackMatrix_fills (zb := zb) (ob := ob) (Nat.le_of_eq hw.symm) (Nat.le_of_eq h1.symm)
  refine ⟨y, a1, ?_⟩
  rw [b1, a2.all fun i hi => by omega, b2.all fun i hi => by omega, h0, h1]

section
variable {inShape outShape : List Nat} {w : List Word}

/-- What the shape check of the folder gives. -/
theorem unpackShapeOk_true (hi : inShape.length = 4) (ho : outShape.length = 4)
    (h : unpackShapeOk inShape outShape = some true) :
    dequantizePrepare inShape outShape = true ∧
    ∃ cols, outShape.getLast? = some cols ∧ unpackDims outShape = (outShape.dropLast.prod, cols) ∧
      inShape.prod = outShape.dropLast.prod * packedSize cols ∧ outShape.prod = outShape.dropLast.prod * cols := by
  match inShape, hi, outShape, ho with
  | [i0, i1, i2, i3], _, [o0, o1, o2, o3], _ =>
    simp only [unpackShapeOk, Option.some.injEq, Bool.and_eq_true, beq_iff_eq] at h
    obtain ⟨⟨⟨rfl, rfl⟩, rfl⟩, rfl⟩ := h
    refine ⟨by simp [dequantizePrepare], o3, rfl, by simp [unpackDims, Nat.mul_assoc], by simp [Nat.mul_assoc],
      by simp [Nat.mul_assoc]⟩

/-- **C34 (dequantize, float).** If the converter folds `LceDequantize` of a rank-4 constant to a float constant, the
runtime operator accepts the shapes and writes the same floats. -/
theorem C34_dequantize_float (hi : inShape.length = 4) (ho : outShape.length = 4) (hw : w.length = inShape.prod)
    {s : List Nat} {y : List F32} (h : foldDequantizeF32 inShape outShape w = .const s y) :
    s = outShape ∧ dequantizePrepare inShape outShape = true ∧
    ∀ y0 : List F32, y0.length = outShape.prod → dequantizeEvalF32 outShape w y0 = some y := by
  unfold foldDequantizeF32 at h
  split at h
  · simp at h
  · simp at h
  · rename_i hs
    obtain ⟨hp, cols, e1, e2, e3, e4⟩ := unpackShapeOk_true hi ho hs
    rw [e2] at h
    simp only at h
    split at h
    · rename_i y' hy
      simp only [Folded.const.injEq] at h
      obtain ⟨rfl, rfl⟩ := h
      refine ⟨rfl, hp, fun y0 h0 => ?_⟩
      obtain ⟨z, z1, z2⟩ := unpackMatrix_indep (w := w) (rows := outShape.dropLast.prod) (cols := cols)
        (y0 := List.replicate (outShape.dropLast.prod * cols) F32.zero) (y1 := y0) (zb := F32.one) (ob := F32.negOne)
        (by rw [hw, e3]) (by simp) (by rw [h0, e4])
      rw [hy] at z1
      unfold dequantizeEvalF32
      rw [e1]
      simp only [Option.bind_eq_bind, Option.bind_some]
      rw [z2, z1]
    · simp at h

theorem saturate_add {zp off : Int} (h1 : -128 ≤ zp) (h : 0 ≤ off) : saturate (zp + off) = min 127 (zp + off) := by
  unfold saturate; simp only; omega

theorem saturate_sub {zp off : Int} (h1 : zp ≤ 127) (h : 0 ≤ off) : saturate (zp + -off) = max (-128) (zp - off) := by
  unfold saturate; simp only; omega

/-- The two int8 values computed by the folder (double division, narrowed to float) and by the runtime (float
division) are the same for every float scale. -/
theorem foldInt8Values_eq {fl64 fl fl' : Rat → Rat} (h : RoundsToNearest fl) (h' : RoundsToNearest fl')
    (h64 : RoundsToNearest64 fl64) {scale : Rat} (hs : Binary32 scale) (h0 : 0 < scale) (hov : 1 / scale ≤ maxBinary32)
    {zp : Int} (hz : -128 ≤ zp ∧ zp ≤ 127) {v : BitVec 8 × BitVec 8} (hv : foldInt8Values fl64 fl' scale zp = some v) :
    dequantInt8Values fl scale zp = some v := by
  unfold foldInt8Values at hv
  rw [neg_recip_double_round h' h64 hs h0 hov, recip_double_round h' h' h64 hs h0 hov] at hv
  have hff : fl' (1 / scale) = fl (1 / scale) := by
    rw [← recip_double_round h' h' h64 hs h0 hov, recip_double_round h h' h64 hs h0 hov]
  rw [hff, roundHalfAway_neg_eq] at hv
  unfold dequantInt8Values
  have hnn : 0 ≤ roundHalfAway (fl (1 / scale)) := by
    apply roundHalfAway_nonneg_of
    refine h.ge_of_ge ?_ ⟨0, 0, by norm_num, by norm_num, by norm_num, by simp⟩ (by positivity)
    rw [abs_of_pos (by positivity)]; exact hov
  generalize roundHalfAway (fl (1 / scale)) = o at *
  simp only [Option.bind_eq_bind, Option.bind_eq_some_iff, Option.some.injEq] at hv
  obtain ⟨a, ha, b, hb, hi, hhi, lo, hlo, rfl⟩ := hv
  have ea : a = o := by unfold toInt32 at ha; split at ha <;> simp_all
  subst ea
  have eb : b = -a := by unfold toInt32 at hb; split at hb <;> simp_all
  subst eb
  have e1 : hi = zp + a := by unfold toInt32 at hhi; split at hhi <;> simp_all
  have e2 : lo = zp - a := by
    unfold toInt32 at hlo
    split at hlo
    · simp only [Option.some.injEq] at hlo; rw [← hlo]; ring
    · simp at hlo
  subst e1 e2
  rw [← sub_eq_add_neg] at hlo
  simp only [Option.bind_eq_bind, ha, hhi, hlo, Option.bind_some]
  rw [saturate_add hz.1 hnn, sub_eq_add_neg, saturate_sub hz.2 hnn, sub_eq_add_neg]

/-- **C34 (dequantize, int8), what holds.** The same for a quantized int8 result whose scale is a float: the folder
divides in double precision and narrows, the runtime divides in float; no rounding makes them differ, whatever the
tie-breaking rules.

Missing: the quantized type of the converter carries a double, which the runtime only sees rounded to float; for such
scales the property is false (`C34_double_scale_witness`). -/
theorem C34_dequantize_int8_partial {fl64 fl fl' : Rat → Rat} (hfl : RoundsToNearest fl) (hfl' : RoundsToNearest fl')
    (h64 : RoundsToNearest64 fl64) {scale : Rat} (hs : Binary32 scale) (h0 : 0 < scale) (hov : 1 / scale ≤ maxBinary32)
    {zp : Int} (hz : -128 ≤ zp ∧ zp ≤ 127)
    (hi : inShape.length = 4) (ho : outShape.length = 4) (hw : w.length = inShape.prod)
    {s : List Nat} {y : List (BitVec 8)} (h : foldDequantizeI8 fl64 fl' inShape outShape scale zp w = .const s y) :
    s = outShape ∧ dequantizePrepare inShape outShape = true ∧
    ∀ y0 : List (BitVec 8), y0.length = outShape.prod → dequantizeEvalI8 fl outShape scale zp w y0 = some y := by
  unfold foldDequantizeI8 at h
  split at h
  · simp at h
  · simp at h
  · rename_i hs'
    obtain ⟨hp, cols, e1, e2, e3, e4⟩ := unpackShapeOk_true hi ho hs'
    rw [e2] at h
    simp only at h
    split at h
    · simp at h
    · rename_i zb ob hv
      have hv' := foldInt8Values_eq hfl hfl' h64 hs h0 hov hz hv
      split at h
      · rename_i y' hy
        simp only [Folded.const.injEq] at h
        obtain ⟨rfl, rfl⟩ := h
        refine ⟨rfl, hp, fun y0 h0 => ?_⟩
        obtain ⟨z, z1, z2⟩ := unpackMatrix_indep (w := w) (rows := outShape.dropLast.prod) (cols := cols)
          (y0 := List.replicate (outShape.dropLast.prod * cols) 0#8) (y1 := y0) (zb := zb) (ob := ob)
          (by rw [hw, e3]) (by simp) (by rw [h0, e4])
        rw [hy] at z1
        unfold dequantizeEvalI8
        rw [e1, hv']
        simp only [Option.bind_eq_bind, Option.bind_some]
        rw [z2, z1]
      · simp at h

end

/-- Reciprocal of the witness scale: rounded to double and then to float it is below one half. -/
theorem C34_witness_aux {fl64 fl : Rat → Rat} (h : RoundsToNearest fl) (h64 : RoundsToNearest64 fl64) :
    roundHalfAway (fl (fl64 (1 / (2 + 15 / 2 ^ 27)))) = 0 := by
  have hmax : (2 : Rat) ≤ maxBinary32 := by
    have := (Binary32.int (n := 2) (by norm_num)).le_max
    simpa using this
  have hy := h64.error (x := 1 / (2 + 15 / 2 ^ 27)) (by norm_num) (by refine le_trans ?_ hmax; norm_num)
  have hb1 : (1 / (2 + 15 / 2 ^ 27) : Rat) * 2 ^ (-53 : Int) ≤ 1 / 2 ^ 50 := by norm_num
  have hy2 := abs_le.1 (le_trans hy hb1)
  generalize fl64 (1 / (2 + 15 / 2 ^ 27)) = z at hy2
  norm_num at hy2
  have hz : |z| ≤ maxBinary32 := by rw [abs_of_pos (by linarith [hy2.1])]; linarith [hy2.2]
  have h1 := (h z hz).2 (1 / 2 - 1 / 2 ^ 25) ⟨2 ^ 24 - 1, -25, by norm_num, by norm_num, by norm_num, by norm_num⟩
  have h2 : |(1 / 2 - 1 / 2 ^ 25 : Rat) - z| ≤ 1 / 2 ^ 27 := by
    rw [abs_le]; norm_num; constructor <;> linarith [hy2.1, hy2.2]
  have h3 := abs_le.1 (le_trans h1 h2)
  norm_num at h3
  have hnn : 0 ≤ roundHalfAway (fl z) := roundHalfAway_nonneg_of (by linarith [h3.1, hy2.1])
  have hlt : ¬ 1 ≤ roundHalfAway (fl z) := by
    rw [one_le_roundHalfAway_iff]; linarith [h3.2, hy2.2]
  omega

/-- **C34 is false** when the converter's double scale is not a float. For the scale `2 + 15 * 2^-27`, which is exported
as the float 2, the folder computes `round(float(1 / scale)) = 0` and so folds both bits to the zero point, whereas the
runtime computes `round(1 / 2) = 1`. This holds for every way of breaking ties. -/
theorem C34_double_scale_witness {fl64 fl : Rat → Rat} (h : RoundsToNearest fl) (h64 : RoundsToNearest64 fl64) :
    Binary64 (2 + 15 / 2 ^ 27) ∧ fl (2 + 15 / 2 ^ 27) = 2 ∧
    foldInt8Values fl64 fl (2 + 15 / 2 ^ 27) 0 = some (0#8, 0#8) ∧
    dequantInt8Values fl 2 0 = some (1#8, 255#8) := by
  have hmax : (4 : Rat) ≤ maxBinary32 := by
    have := (Binary32.int (n := 4) (by norm_num)).le_max
    simpa using this
  refine ⟨⟨2 ^ 28 + 15, -27, by norm_num, by norm_num, by norm_num, by norm_num⟩, ?_, ?_, ?_⟩
  · have hr : |(2 + 15 / 2 ^ 27 : Rat)| ≤ maxBinary32 := by
      rw [abs_of_pos (by norm_num)]; refine le_trans ?_ hmax; norm_num
    have b2 : Binary32 2 := by simpa using Binary32.int (n := 2) (by norm_num)
    have hge := h.ge_of_ge hr b2 (by norm_num)
    have hle := (h _ hr).2 2 b2
    obtain ⟨k, hk⟩ := (h _ hr).1.grid (n := 1) (by rw [zpow_one]; exact hge)
    rw [hk] at hge hle ⊢
    have e22 : (2 : Rat) ^ ((1 : Int) - 23) = 1 / 2 ^ 22 := by norm_num
    rw [e22] at hge hle ⊢
    have h15 : |(2 : Rat) - (2 + 15 / 2 ^ 27)| = 15 / 2 ^ 27 := by norm_num
    rw [h15] at hle
    have hle2 := (abs_le.1 hle).2
    norm_num at hge hle2
    have k1 : ((2 ^ 23 : Int) : Rat) ≤ k := by norm_num; linarith
    have k2 : (k : Rat) < ((2 ^ 23 + 1 : Int) : Rat) := by norm_num; linarith
    have k1' : (2 ^ 23 : Int) ≤ k := by exact_mod_cast k1
    have k2' : k < (2 ^ 23 + 1 : Int) := by exact_mod_cast k2
    have : k = 2 ^ 23 := by omega
    rw [this]; norm_num
  · have e1 := C34_witness_aux h h64
    have e2 := C34_witness_aux h.mirror h64.mirror
    simp only [neg_neg] at e2
    rw [roundHalfAway_neg_eq] at e2
    have e3 : roundHalfAway (fl (fl64 (-1 / (2 + 15 / 2 ^ 27)))) = 0 := by rw [neg_div]; omega
    unfold foldInt8Values
    rw [e1, e3]
    decide
  · have : fl (1 / 2) = 1 / 2 := h.fix ⟨1, -1, by norm_num, by norm_num, by norm_num, by norm_num⟩
    unfold dequantInt8Values
    rw [this]
    decide +kernel

/-- Non-vacuity: a folded 1x1x1x3 constant, and a scale meeting the hypotheses. -/
example : foldQuantize [1, 1, 1, 3] (.f32 [F32.negOne, F32.one, F32.negOne]) 7#32 = .const [1, 1, 1, 1] [5#32] ∧
    foldDequantizeF32 [1, 1, 1, 1] [1, 1, 1, 3] [5#32] = .const [1, 1, 1, 3] [F32.negOne, F32.one, F32.negOne] ∧
    foldDequantizeI8 id id [1, 1, 1, 1] [1, 1, 1, 3] (1 / 128) (-3) [5#32] = .const [1, 1, 1, 3] [128#8, 125#8, 128#8] ∧
    Binary32 (1 / 128) := by
  refine ⟨by decide +kernel, by decide +kernel, by decide +kernel, ⟨1, -7, by norm_num, by norm_num, by norm_num, by norm_num⟩⟩

/-- Folding a constant of rank below 4 indexes the shape out of range, and folding to a `bool` result fails a cast. -/
theorem C34_unsupported_witness :
    foldQuantize [2, 3] (.f32 (List.replicate 6 F32.one)) 0#32 = .ub ∧
    foldDequantizeBool [1, 1, 1, 1] [1, 1, 1, 3] = .ub := by
  decide +kernel

end Verif
