import Verif.Model.QuantFuse
import Verif.Proof.Float64
import Verif.Proof.QuantEq
import Verif.Props.ConstFold

/-! C37: dropping TFLite's Dequantize before LceQuantize, and moving TFLite's Quantize into LceDequantize. -/

namespace Verif

theorem Binary64.finite : {x : Rat | Binary64 x}.Finite := by
  have h : {x : Rat | Binary64 x} ⊆
      (fun q : Int × Int => (q.1 : Rat) * 2 ^ q.2) '' (Set.Icc (-2 ^ 53) (2 ^ 53) ×ˢ Set.Icc (-1074) 971) := by
    rintro x ⟨m, e, h1, h2, h3, rfl⟩
    rw [abs_lt] at h1
    exact ⟨(m, e), ⟨⟨h1.1.le, h1.2.le⟩, h2, h3⟩, rfl⟩
  exact Set.Finite.subset (Set.Finite.image _ (Set.Finite.prod (Set.finite_Icc _ _) (Set.finite_Icc _ _))) h

/-- Double rounding functions exist. -/
theorem exists_roundsToNearest64 : ∃ fl, RoundsToNearest64 fl := by
  have h : ∀ x : Rat, ∃ y, Binary64 y ∧ ∀ f, Binary64 f → |y - x| ≤ |f - x| := by
    intro x
    obtain ⟨y, hy, hmin⟩ := Set.exists_min_image {x : Rat | Binary64 x} (fun f => |f - x|) Binary64.finite
      ⟨0, 0, 0, by norm_num, by norm_num, by norm_num, by simp⟩
    exact ⟨y, hy, hmin⟩
  choose fl hfl using h
  exact ⟨fl, fun x _ => hfl x⟩

/-- The reciprocal of a float is never a tie: all rounding functions agree on it. -/
theorem recip_unique {fl fl' : Rat → Rat} (h : RoundsToNearest fl) (h' : RoundsToNearest fl') {s : Rat}
    (hs : Binary32 s) (h0 : 0 < s) (hov : 1 / s ≤ maxBinary32) : fl (1 / s) = fl' (1 / s) := by
  obtain ⟨fl64, h64⟩ := exists_roundsToNearest64
  rw [← recip_double_round h h h64 hs h0 hov, recip_double_round h' h h64 hs h0 hov]

/-- ... and of its negation. -/
theorem neg_recip_unique {fl fl' : Rat → Rat} (h : RoundsToNearest fl) (h' : RoundsToNearest fl') {s : Rat}
    (hs : Binary32 s) (h0 : 0 < s) (hov : 1 / s ≤ maxBinary32) : fl (-1 / s) = -fl' (1 / s) := by
  have := recip_unique h.mirror h' hs h0 hov
  rw [neg_div, ← this, neg_neg]

/-- The sign of a dequantized int8. -/
theorem tflDequantize_neg_iff {fl : Rat → Rat} (h : RoundsToNearest fl) {scale : Rat} (hs : Binary32 scale) (h0 : 0 < scale)
    (hov : 255 * scale ≤ maxBinary32) {zp : Int} (hz : -128 ≤ zp ∧ zp ≤ 127) (q : BitVec 8) :
    tflDequantize fl scale zp q < 0 ↔ q.toInt < zp := by
  have hq1 : -128 ≤ q.toInt := by have := BitVec.le_toInt q; simpa using this
  have hq2 : q.toInt ≤ 127 := by have := BitVec.toInt_lt (x := q); simp at this; omega
  have hd1 : -255 ≤ q.toInt - zp := by omega
  have hd2 : q.toInt - zp ≤ 255 := by omega
  unfold tflDequantize
  have hd : (q.toInt < zp) ↔ q.toInt - zp ≤ -1 := by omega
  rw [hd]
  generalize q.toInt - zp = d at *
  have e1 : ((-255 : Int) : Rat) ≤ (d : Rat) := Int.cast_le.2 hd1
  have e2 : (d : Rat) ≤ ((255 : Int) : Rat) := Int.cast_le.2 hd2
  push_cast at e1 e2
  have hb : |scale * (d : Rat)| ≤ maxBinary32 := by
    rw [abs_le]
    constructor <;> nlinarith
  constructor
  · intro hlt
    by_contra hc
    have : (0 : Rat) ≤ d := by exact_mod_cast (by omega : 0 ≤ d)
    have := h.ge_of_ge hb ⟨0, 0, by norm_num, by norm_num, by norm_num, by simp⟩ (mul_nonneg h0.le this)
    linarith
  · intro hle
    have : (d : Rat) ≤ ((-1 : Int) : Rat) := Int.cast_le.2 hle
    push_cast at this
    have := h.le_of_le hb hs.neg (by nlinarith : scale * (d : Rat) ≤ -scale)
    linarith

section
variable {shape : List Nat} {cols : Nat} {scale : Rat} {zp : Int}

/-- **C37 (Dequantize before LceQuantize).** For every int8 tensor with a positive float scale (whose dequantized values
are finite) and int8 zero point, LceQuantize of the tensor `y` that TFLite's Dequantize computes from it in float arithmetic
(any tie rule) and LceQuantize of the int8 tensor itself write the same words. -/
theorem C37_drop_dequantize {fl : Rat → Rat} (h : RoundsToNearest fl) (hsc : Binary32 scale) (h0 : 0 < scale)
    (hov : 255 * scale ≤ maxBinary32) (hz : -128 ≤ zp ∧ zp ≤ 127) {xs : List (BitVec 8)} {y : List F32}
    (hs : shape.getLast? = some cols) (hx : xs.length = shape.prod)
    (hfin : ∀ v ∈ y, v.Finite) (hy : y.map F32.val = xs.map (tflDequantize fl scale zp))
    {out0 out1 : List Word} (junk junk' : Word)
    (ho0 : out0.length = shape.dropLast.prod * ((cols + 31) / 32))
    (ho1 : out1.length = shape.dropLast.prod * ((cols + 31) / 32)) :
    ∃ w, quantizeEval shape (.f32 y) out0 junk = some w ∧ quantizeEval shape (.i8 xs scale zp) out1 junk' = some w := by
  have hlen : y.length = xs.length := by simpa using congrArg List.length hy
  have hp := prod_dropLast hs
  refine quantize_congr hs (by show y.length = _; omega) (by show xs.length = _; omega) trivial hz.2 ho0 ho1 fun i hi => ?_
  have hxi : i < xs.length := by omega
  have hyi : i < y.length := by omega
  have he : (y.map F32.val)[i]? = (xs.map (tflDequantize fl scale zp))[i]? := by rw [hy]
  rw [List.getElem?_map, List.getElem?_map, List.getElem?_eq_getElem hyi, List.getElem?_eq_getElem hxi] at he
  simp only [Option.map_some, Option.some.injEq] at he
  unfold TData.neg
  simp only [List.getElem?_eq_getElem hyi, List.getElem?_eq_getElem hxi, Option.some.injEq, exists_eq_left']
  rw [F32.negative_iff (hfin _ (List.getElem_mem hyi)), he, tflDequantize_neg_iff h hsc h0 hov hz]

/-- The int8 values of the two bits are TFLite's quantization of 1 and -1. -/
theorem tflQuantize_pm {fl fl' : Rat → Rat} (h : RoundsToNearest fl) (h' : RoundsToNearest fl') (hsc : Binary32 scale)
    (h0 : 0 < scale) (hov : 1 / scale ≤ 2147483520) (hz : -128 ≤ zp ∧ zp ≤ 127) :
    ∃ zb ob, dequantInt8Values fl' scale zp = some (zb, ob) ∧ tflQuantize fl scale zp 1 = some zb.toInt ∧
      tflQuantize fl scale zp (-1) = some ob.toInt := by
  have hmx : (2147483520 : Rat) ≤ maxBinary32 := by unfold maxBinary32; norm_num
  have hov' := le_trans hov hmx
  have hb : Binary32 2147483520 := ⟨16777215, 7, by norm_num, by norm_num, by norm_num, by norm_num⟩
  have hab : |1 / scale| ≤ maxBinary32 := by rw [abs_of_pos (by positivity)]; exact hov'
  have h1 := h'.le_of_le hab hb hov
  have h2 : 0 ≤ fl' (1 / scale) :=
    h'.ge_of_ge hab ⟨0, 0, by norm_num, by norm_num, by norm_num, by simp⟩ (by positivity)
  have o1 := roundHalfAway_nonneg_of h2
  have o2 := roundHalfAway_mono h1
  rw [show (2147483520 : Rat) = ((2147483520 : Int) : Rat) by norm_num, roundHalfAway_int] at o2
  unfold tflQuantize dequantInt8Values
  rw [recip_unique h h' hsc h0 hov', neg_recip_unique h h' hsc h0 hov', roundHalfAway_neg_eq]
  generalize roundHalfAway (fl' (1 / scale)) = o at *
  have t1 : toInt32 o = some o := by unfold toInt32; rw [if_pos (by omega)]
  have t2 : toInt32 (zp + o) = some (zp + o) := by unfold toInt32; rw [if_pos (by omega)]
  have t3 : toInt32 (zp - o) = some (zp - o) := by unfold toInt32; rw [if_pos (by omega)]
  have t4 : toInt32 (-o) = some (-o) := by unfold toInt32; rw [if_pos (by omega)]
  rw [t1, t4]
  simp only [Option.bind_eq_bind, Option.bind_some, t2, t3, show o + zp = zp + o by omega, show -o + zp = zp - o by omega]
  refine ⟨_, _, rfl, ?_, ?_⟩
  · rw [toInt_ofInt8 (by omega) (by omega)]; congr 1; omega
  · rw [toInt_ofInt8 (by omega) (by omega)]; congr 1; omega

/-- **C37 (Quantize after LceDequantize).** For every packed tensor, positive float scale whose reciprocal fits int32
(otherwise both computations are undefined) and int8 zero point, LceDequantize with int8 output writes exactly TFLite's
quantization of what LceDequantize with float output writes, whatever the tie rules `fl`, `fl'` of the two float
divisions. -/
theorem C37_quantize_of_dequantize {fl fl' : Rat → Rat} (h : RoundsToNearest fl) (h' : RoundsToNearest fl')
    (hsc : Binary32 scale) (h0 : 0 < scale) (hov : 1 / scale ≤ 2147483520) (hz : -128 ≤ zp ∧ zp ≤ 127)
    (hs : shape.getLast? = some cols) {w : List Word} (hw : w.length = shape.dropLast.prod * ((cols + 31) / 32))
    {y0 : List F32} {z0 : List (BitVec 8)} (hy0 : y0.length = shape.prod) (hz0 : z0.length = shape.prod) :
    ∃ y z, dequantizeEvalF32 shape w y0 = some y ∧ dequantizeEvalI8 fl' shape scale zp w z0 = some z ∧
      y.map (fun v => tflQuantize fl scale zp v.val) = z.map (fun q => some q.toInt) := by
  obtain ⟨zb, ob, v1, v2, v3⟩ := tflQuantize_pm h h' hsc h0 hov hz
  have hp := prod_dropLast hs
  rw [← packedSize_eq] at hw
  obtain ⟨y, a1, a2⟩ := unpackMatrix_fills (zb := F32.one) (ob := F32.negOne) (Nat.le_of_eq hw.symm)
    (out0 := y0) (by omega : shape.dropLast.prod * cols ≤ y0.length)
  obtain ⟨z, b1, b2⟩ := unpackMatrix_fills (zb := zb) (ob := ob) (Nat.le_of_eq hw.symm)
    (out0 := z0) (by omega : shape.dropLast.prod * cols ≤ z0.length)
  refine ⟨y, z, ?_, ?_, ?_⟩
  · unfold dequantizeEvalF32
    rw [hs]; exact a1
  · unfold dequantizeEvalI8
    rw [hs, v1]; exact b1
  · rw [a2.all fun i hi => by omega, b2.all fun i hi => by omega, hy0, hz0, List.map_map, List.map_map]
    apply List.map_congr_left
    intro i _
    simp only [Function.comp, unpackedElem]
    split
    · split
      · rw [F32.val_negOne, v3]
      · rw [F32.val_one, v2]
    · rw [F32.val_one, v2]

end

/-- Non-vacuity: two int8 values around the zero point 3 with scale 1/2, and the floats TFLite's Dequantize gives. -/
example : ([0xC0400000#32, 0x3F000000#32] : List F32).map F32.val
      = ([-3#8, 4#8] : List (BitVec 8)).map (tflDequantize id (1 / 2) 3) ∧
    (∀ v ∈ ([0xC0400000#32, 0x3F000000#32] : List F32), v.Finite) ∧ Binary32 (1 / 2) ∧ 255 * (1 / 2 : Rat) ≤ maxBinary32 ∧
    1 / (1 / 2 : Rat) ≤ 2147483520 := by
  refine ⟨by decide +kernel, ?_, ⟨1, -1, by norm_num, by norm_num, by norm_num, by norm_num⟩, ?_, by norm_num⟩
  · intro v hv
    simp only [List.mem_cons, List.not_mem_nil, or_false] at hv
    rcases hv with rfl | rfl <;> decide +kernel
  · unfold maxBinary32; norm_num

end Verif
