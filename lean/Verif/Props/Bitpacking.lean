import Verif.Proof.Quantize
import Verif.Proof.Round

/-!
C01-C05: LceQuantize and LceDequantize.

Reading guide. `quantizeEval shape x out0 junk = some out` says that running
LceQuantize on tensor `x` of shape `shape`, with the output buffer initially
holding `out0`, has no out-of-bounds access or other undefined behaviour and
leaves `out` in the buffer. `shape.dropLast.prod` is the number of rows and the
last entry of `shape` the number of channels. `TData.neg x i` (Spec/Quant.lean) is
"element `i` is a negative float / an int8 below the zero point / false".
-/

namespace Verif

/-- **C01.** Bit `c % 32` of word `c / 32` of row `r` is 1 exactly when the element
`(r, c)` is negative. -/
theorem C01_quantize_bits {shape : List Nat} {cols : Nat} {x : TData} {out0 : List Word}
    {junk : Word} (hs : shape.getLast? = some cols)
    (hin : x.size = shape.dropLast.prod * cols)
    (hout : out0.length = shape.dropLast.prod * ((cols + 31) / 32)) (hz : x.zpOk) :
    ∃ out, quantizeEval shape x out0 junk = some out ∧
      ∀ r c, r < shape.dropLast.prod → c < cols →
        ∃ w, out[r * ((cols + 31) / 32) + c / 32]? = some w ∧
          (w.getLsbD (c % 32) = true ↔ x.neg (r * cols + c)) := by
  rw [← packedSize_eq] at *
  obtain ⟨out, h1, h2⟩ := quantizeEval_fills (out0 := out0) (junk := junk) hs hin (by omega) hz
  refine ⟨out, h1, fun r c hr hc => ?_⟩
  have hk : c / 32 < packedSize cols := by rw [packedSize_eq]; omega
  have hidx := row_lt (cols := packedSize cols) hr hk
  refine ⟨_, h2.hit (r * packedSize cols + c / 32) (by omega) hidx, ?_⟩
  rw [(div_mod_row hk).1, (div_mod_row hk).2, wordOf_getLsbD]
  have e : 32 * (c / 32) + c % 32 = c := by omega
  rw [e]
  simp only [hc, if_true]
  have : c % 32 < 32 := by omega
  simp [this, TData.negB_iff]

/-- **C02.** The bits of a packed row beyond the last channel are 0. -/
theorem C02_unused_bits_zero {shape : List Nat} {cols : Nat} {x : TData} {out0 : List Word}
    {junk : Word} (hs : shape.getLast? = some cols)
    (hin : x.size = shape.dropLast.prod * cols)
    (hout : out0.length = shape.dropLast.prod * ((cols + 31) / 32)) (hz : x.zpOk) :
    ∃ out, quantizeEval shape x out0 junk = some out ∧
      IsPacked shape.dropLast.prod cols out := by
  obtain ⟨out, h1, h2⟩ := quantizeEval_fills (out0 := out0) (junk := junk) hs hin
    (by rw [packedSize_eq]; omega) hz
  refine ⟨out, h1, by rw [h2.len, hout], ?_⟩
  intro r k b v hr hk hb hc hv
  rw [← packedSize_eq] at hk hv hout
  have hidx := row_lt (cols := packedSize cols) hr hk
  rw [h2.hit _ (by omega) hidx] at hv
  rw [← Option.some.inj hv, (div_mod_row hk).1, (div_mod_row hk).2, wordOf_getLsbD]
  have : ¬ (32 * k + b < cols) := by omega
  simp [this]

/-- **C03.** With an input buffer of exactly `rows * cols` elements and an output
buffer that may be larger than needed, every access is in bounds (the run
succeeds), each of the first `rows * ceil(cols/32)` words is overwritten with a
value that does not depend on what was there before nor on uninitialised memory,
and every other word is unchanged. -/
theorem C03_in_bounds {shape : List Nat} {cols : Nat} {x : TData}
    (hs : shape.getLast? = some cols) (hin : x.size = shape.dropLast.prod * cols)
    (hz : x.zpOk) :
    ∃ val : Nat → Word, ∀ (out0 : List Word) (junk : Word),
      shape.dropLast.prod * ((cols + 31) / 32) ≤ out0.length →
      ∃ out, quantizeEval shape x out0 junk = some out ∧ out.length = out0.length ∧
        (∀ i, i < shape.dropLast.prod * ((cols + 31) / 32) → out[i]? = some (val i)) ∧
        (∀ i, shape.dropLast.prod * ((cols + 31) / 32) ≤ i → out[i]? = out0[i]?) := by
  rw [← packedSize_eq]
  refine ⟨fun i => wordOf fun b =>
      if 32 * (i % packedSize cols) + b < cols then
        x.negB (i / packedSize cols * cols + (32 * (i % packedSize cols) + b)) else false,
    fun out0 junk hout => ?_⟩
  obtain ⟨out, h1, h2⟩ := quantizeEval_fills (out0 := out0) (junk := junk) hs hin hout hz
  exact ⟨out, h1, h2.len, fun i hi => h2.hit i (by omega) hi, fun i hi => h2.miss i (by omega)⟩

/-- The generic matrix routine is also safe for zero points outside the type's
range, except that `(1 << 31) - 1` overflows `int` when the zero point exceeds the
maximum and `cols % 32 = 31` (bitpack.h:279). LceQuantize never gets there: an int8
zero point is at most 127. -/
theorem C03_overflow_witness :
    bitpackMatrix (List.replicate 31 (0#8)) 1 31 [0#32] 128 0#32 = none := by decide

/-- Concrete tensor meeting the hypotheses of C01-C03: 1x2x33 int8, zero point 5. -/
example : let shape := [1, 2, 33]
    let x := TData.i8 (List.replicate 66 (3#8)) (1 / 2) 5
    shape.getLast? = some 33 ∧ x.size = shape.dropLast.prod * 33 ∧ x.zpOk ∧
      x.neg 65 ∧ (List.replicate 4 (0#32)).length = shape.dropLast.prod * ((33 + 31) / 32) := by
  refine ⟨by decide, by decide, (by decide : (5 : Int) ≤ 127), ?_, by decide⟩
  exact ⟨3#8, by decide, by decide⟩

/-! ### C04 -/

section RoundTrip
variable {shape : List Nat} {cols : Nat}

/-- Dequantize applied to the result of Quantize, for any result type: element `i`
is `ob` when the input was negative and `zb` otherwise. -/
theorem unpack_quantized {β : Type} {x : TData} {q : List Word} {y0 : List β} {zb ob : β}
    {out0 : List Word} {junk : Word}
    (hs : shape.getLast? = some cols)
    (hin : x.size = shape.dropLast.prod * cols)
    (hout : out0.length = shape.dropLast.prod * ((cols + 31) / 32)) (hz : x.zpOk)
    (hq : quantizeEval shape x out0 junk = some q)
    (hy : y0.length = shape.dropLast.prod * cols) :
    ∃ y, unpackMatrix q shape.dropLast.prod cols y0 zb ob = some y ∧
      y.length = shape.dropLast.prod * cols ∧
      ∀ i, i < shape.dropLast.prod * cols → ∃ b, y[i]? = some b ∧
        ((x.neg i ∧ b = ob) ∨ (¬ x.neg i ∧ b = zb)) := by
  obtain ⟨q', h1, h2⟩ := C01_quantize_bits (out0 := out0) (junk := junk) hs hin hout hz
  obtain rfl : q = q' := by rw [hq] at h1; exact Option.some.inj h1
  obtain ⟨q', h1', h2'⟩ := C02_unused_bits_zero (out0 := out0) (junk := junk) hs hin hout hz
  obtain rfl : q = q' := by rw [hq] at h1'; exact Option.some.inj h1'
  obtain ⟨y, hy1, hy2⟩ := unpackMatrix_fills (inp := q) (rows := shape.dropLast.prod) (cols := cols)
    (out0 := y0) (zb := zb) (ob := ob) (by rw [h2'.len, packedSize_eq]) (by omega)
  refine ⟨y, hy1, by rw [hy2.len, hy], fun i hi => ?_⟩
  refine ⟨_, hy2.hit i (by omega) hi, ?_⟩
  have hc : 0 < cols := Nat.pos_of_ne_zero (by rintro rfl; simp at hi)
  have hr : i / cols < shape.dropLast.prod := (Nat.div_lt_iff_lt_mul hc).2 hi
  have hm : i % cols < cols := Nat.mod_lt _ hc
  obtain ⟨w, hw, hb⟩ := h2 _ _ hr hm
  rw [← packedSize_eq] at hw
  have e : i / cols * cols + i % cols = i := by rw [Nat.mul_comm]; exact Nat.div_add_mod i cols
  rw [e] at hb
  simp only [unpackedElem, hw]
  by_cases hn : x.neg i
  · left; exact ⟨hn, by rw [if_pos (hb.2 hn)]⟩
  · right; exact ⟨hn, by rw [if_neg (fun h => hn (hb.1 h))]⟩

/-- **C04 (float).** LceDequantize(LceQuantize(x)) has as many elements as `x` and is
`-1.0` where `x` is negative and `+1.0` elsewhere. -/
theorem C04_dequantize_quantize_float {x : TData} {out0 : List Word} {y0 : List F32} {junk : Word}
    (hs : shape.getLast? = some cols) (hin : x.size = shape.dropLast.prod * cols)
    (hout : out0.length = shape.dropLast.prod * ((cols + 31) / 32)) (hz : x.zpOk)
    (hy : y0.length = shape.dropLast.prod * cols) :
    ∃ q y, quantizeEval shape x out0 junk = some q ∧ dequantizeEvalF32 shape q y0 = some y ∧
      y.length = x.size ∧
      ∀ i, i < x.size → (x.neg i ∧ y[i]? = some F32.negOne) ∨ (¬ x.neg i ∧ y[i]? = some F32.one) := by
  obtain ⟨q, h1, _⟩ := C01_quantize_bits (out0 := out0) (junk := junk) hs hin hout hz
  obtain ⟨y, hy1, hy2, hy3⟩ := unpack_quantized (zb := F32.one) (ob := F32.negOne) hs hin hout hz h1 hy
  refine ⟨q, y, h1, by simpa [dequantizeEvalF32, hs] using hy1, by rw [hy2, hin], fun i hi => ?_⟩
  obtain ⟨b, hb, hor⟩ := hy3 i (by omega)
  rcases hor with ⟨h, rfl⟩ | ⟨h, rfl⟩
  · exact Or.inl ⟨h, hb⟩
  · exact Or.inr ⟨h, hb⟩

/-- **C04 (bool).** The same with `false` / `true`. -/
theorem C04_dequantize_quantize_bool {x : TData} {out0 : List Word} {y0 : List Bool} {junk : Word}
    (hs : shape.getLast? = some cols) (hin : x.size = shape.dropLast.prod * cols)
    (hout : out0.length = shape.dropLast.prod * ((cols + 31) / 32)) (hz : x.zpOk)
    (hy : y0.length = shape.dropLast.prod * cols) :
    ∃ q y, quantizeEval shape x out0 junk = some q ∧ dequantizeEvalBool shape q y0 = some y ∧
      y.length = x.size ∧
      ∀ i, i < x.size → (x.neg i ∧ y[i]? = some false) ∨ (¬ x.neg i ∧ y[i]? = some true) := by
  obtain ⟨q, h1, _⟩ := C01_quantize_bits (out0 := out0) (junk := junk) hs hin hout hz
  obtain ⟨y, hy1, hy2, hy3⟩ := unpack_quantized (zb := true) (ob := false) hs hin hout hz h1 hy
  refine ⟨q, y, h1, by simpa [dequantizeEvalBool, hs] using hy1, by rw [hy2, hin], fun i hi => ?_⟩
  obtain ⟨b, hb, hor⟩ := hy3 i (by omega)
  rcases hor with ⟨h, rfl⟩ | ⟨h, rfl⟩
  · exact Or.inl ⟨h, hb⟩
  · exact Or.inr ⟨h, hb⟩

/-- Quantize of an unpacked tensor recovers the words, for any unpacked type that
encodes 1-bits as negative and 0-bits as non-negative. -/
theorem quantize_unpacked {β : Type} {w : List Word} {y : List β} {zb ob : β} {y0 : List β}
    {x : TData} {out0 : List Word} {junk : Word}
    (hs : shape.getLast? = some cols) (hw : IsPacked shape.dropLast.prod cols w)
    (hy0 : y0.length = shape.dropLast.prod * cols)
    (hy : unpackMatrix w shape.dropLast.prod cols y0 zb ob = some y)
    (hsize : x.size = y.length) (hz : x.zpOk)
    (hneg : ∀ i v, y[i]? = some v → (v = ob → x.neg i) ∧ (v = zb → ¬ x.neg i))
    (hout : out0.length = shape.dropLast.prod * ((cols + 31) / 32)) :
    quantizeEval shape x out0 junk = some w := by
  obtain ⟨y', hy1, hy2⟩ := unpackMatrix_fills (inp := w) (rows := shape.dropLast.prod) (cols := cols)
    (out0 := y0) (zb := zb) (ob := ob) (by rw [hw.len, packedSize_eq]) (by omega)
  obtain rfl : y' = y := by rw [hy] at hy1; exact (Option.some.inj hy1).symm
  have hin : x.size = shape.dropLast.prod * cols := by rw [hsize, hy2.len, hy0]
  obtain ⟨q, h1, h2⟩ := quantizeEval_fills (out0 := out0) (junk := junk) hs hin (by rw [packedSize_eq]; omega) hz
  rw [h1]
  congr 1
  apply List.ext_getElem?
  intro i
  rw [← packedSize_eq] at hout
  have hwl : w.length = shape.dropLast.prod * packedSize cols := by rw [hw.len, packedSize_eq]
  by_cases hi : i < shape.dropLast.prod * packedSize cols
  · rw [h2.hit i (by omega) hi]
    have hn : 0 < packedSize cols := Nat.pos_of_ne_zero (by intro h; simp [h] at hi)
    have hr : i / packedSize cols < shape.dropLast.prod := (Nat.div_lt_iff_lt_mul hn).2 hi
    have hk : i % packedSize cols < packedSize cols := Nat.mod_lt _ hn
    have hi' : i < w.length := by omega
    have e : i / packedSize cols * packedSize cols + i % packedSize cols = i := by
      rw [Nat.mul_comm]; exact Nat.div_add_mod i _
    have hwi : w[i]? = some w[i] := by simp [hi']
    rw [hwi]
    congr 1
    symm
    apply eq_wordOf
    intro b hb
    split
    · rename_i hc
      have hlt := row_lt hr hc
      have hyi := hy2.hit _ (by omega) hlt
      have hu : unpackedElem w cols zb ob (i / packedSize cols) (32 * (i % packedSize cols) + b)
          = if w[i].getLsbD b then ob else zb := by
        have e1 : (32 * (i % packedSize cols) + b) / 32 = i % packedSize cols := by omega
        have e2 : (32 * (i % packedSize cols) + b) % 32 = b := by omega
        rw [unpackedElem, e1, e2, e, hwi]
      rw [(div_mod_row hc).1, (div_mod_row hc).2, hu] at hyi
      have hng := hneg _ _ hyi
      cases hbit : (w[i]).getLsbD b with
      | true =>
        rw [hbit] at hng
        exact ((TData.negB_iff _ _).2 (hng.1 rfl)).symm
      | false =>
        rw [hbit] at hng
        have := hng.2 rfl
        rw [← TData.negB_iff] at this
        simpa using this
    · rename_i hc
      apply hw.unused (i / packedSize cols) (i % packedSize cols) b _ hr
        (by rw [← packedSize_eq]; exact hk) hb (by omega)
      rw [← packedSize_eq, e]; exact hwi
  · rw [h2.miss i hi]
    have h3 : w[i]? = none := by rw [List.getElem?_eq_none_iff]; omega
    have h4 : out0[i]? = none := by rw [List.getElem?_eq_none_iff]; omega
    rw [h3, h4]

/-- **C04 (converse, float).** LceQuantize(LceDequantize(w)) = w for every packed
tensor whose unused bits are 0. -/
theorem C04_quantize_dequantize_float {w : List Word} {y0 : List F32} {out0 : List Word} {junk : Word}
    (hs : shape.getLast? = some cols) (hw : IsPacked shape.dropLast.prod cols w)
    (hy0 : y0.length = shape.dropLast.prod * cols)
    (hout : out0.length = shape.dropLast.prod * ((cols + 31) / 32)) :
    ∃ y, dequantizeEvalF32 shape w y0 = some y ∧
      quantizeEval shape (.f32 y) out0 junk = some w := by
  obtain ⟨y, hy1, hy2⟩ := unpackMatrix_fills (inp := w) (rows := shape.dropLast.prod) (cols := cols)
    (out0 := y0) (zb := F32.one) (ob := F32.negOne) (by rw [hw.len, packedSize_eq]) (by omega)
  refine ⟨y, by simpa [dequantizeEvalF32, hs] using hy1, ?_⟩
  refine quantize_unpacked hs hw hy0 hy1 rfl trivial ?_ hout
  intro i v hv
  constructor
  · rintro rfl; exact ⟨_, hv, by decide⟩
  · rintro rfl ⟨v, hv', hn⟩
    rw [hv] at hv'
    obtain rfl := Option.some.inj hv'
    exact absurd hn (by decide)

/-- **C04 (converse, bool).** -/
theorem C04_quantize_dequantize_bool {w : List Word} {y0 : List Bool} {out0 : List Word} {junk : Word}
    (hs : shape.getLast? = some cols) (hw : IsPacked shape.dropLast.prod cols w)
    (hy0 : y0.length = shape.dropLast.prod * cols)
    (hout : out0.length = shape.dropLast.prod * ((cols + 31) / 32)) :
    ∃ y, dequantizeEvalBool shape w y0 = some y ∧
      quantizeEval shape (.bool y) out0 junk = some w := by
  obtain ⟨y, hy1, hy2⟩ := unpackMatrix_fills (inp := w) (rows := shape.dropLast.prod) (cols := cols)
    (out0 := y0) (zb := true) (ob := false) (by rw [hw.len, packedSize_eq]) (by omega)
  refine ⟨y, by simpa [dequantizeEvalBool, hs] using hy1, ?_⟩
  refine quantize_unpacked hs hw hy0 hy1 rfl trivial ?_ hout
  intro i v hv
  simp only [TData.neg]
  rw [hv]
  constructor
  · rintro rfl; rfl
  · rintro rfl; simp

/-! ### C05 -/

/-- **C05 (exact condition).** For an int8 type whose zero point is an int8, and
whose `1/scale` can be converted to `int` with room for the zero point, the round
trip through int8 preserves every packed tensor if the rounded `1/scale` is at least
1 and the zero point is not -128. The scale is positive; `fl` is the rounding of
the float division. This is `_partial`: C05 claims it for every scale and zero
point, which is false (`C05_false_large_scale`, `C05_false_min_zero_point`). -/
theorem C05_int8_round_trip_partial {w : List Word} {y0 : List (BitVec 8)} {out0 : List Word} {junk : Word}
    {fl : Rat → Rat} {scale : Rat} {zp : Int}
    (hs : shape.getLast? = some cols) (hw : IsPacked shape.dropLast.prod cols w)
    (hy0 : y0.length = shape.dropLast.prod * cols)
    (hout : out0.length = shape.dropLast.prod * ((cols + 31) / 32))
    (hzp : -128 < zp ∧ zp ≤ 127)
    (h1 : 1 ≤ roundHalfAway (fl (1 / scale)))
    (h2 : roundHalfAway (fl (1 / scale)) < 2 ^ 31 - 128) :
    ∃ y, dequantizeEvalI8 fl shape scale zp w y0 = some y ∧
      quantizeEval shape (.i8 y scale zp) out0 junk = some w := by
  generalize hoff : roundHalfAway (fl (1 / scale)) = off at h1 h2
  have hv : dequantInt8Values fl scale zp
      = some (BitVec.ofInt 8 (min 127 (zp + off)), BitVec.ofInt 8 (max (-128) (zp - off))) := by
    unfold dequantInt8Values
    rw [hoff]
    have e1 : toInt32 off = some off := by rw [toInt32, if_pos (by omega)]
    have e2 : toInt32 (zp + off) = some (zp + off) := by rw [toInt32, if_pos (by omega)]
    have e3 : toInt32 (zp - off) = some (zp - off) := by rw [toInt32, if_pos (by omega)]
    simp [e1, e2, e3]
  have hzb : (BitVec.ofInt 8 (min 127 (zp + off))).toInt = min 127 (zp + off) :=
    toInt_ofInt8 (by omega) (by omega)
  have hob : (BitVec.ofInt 8 (max (-128) (zp - off))).toInt = max (-128) (zp - off) :=
    toInt_ofInt8 (by omega) (by omega)
  obtain ⟨y, hy1, hy2⟩ := unpackMatrix_fills (inp := w) (rows := shape.dropLast.prod) (cols := cols)
    (out0 := y0) (zb := BitVec.ofInt 8 (min 127 (zp + off)))
    (ob := BitVec.ofInt 8 (max (-128) (zp - off))) (by rw [hw.len, packedSize_eq]) (by omega)
  refine ⟨y, by simpa [dequantizeEvalI8, hs, hv] using hy1, ?_⟩
  refine quantize_unpacked hs hw hy0 hy1 rfl hzp.2 ?_ hout
  intro i v hv
  constructor
  · rintro rfl; exact ⟨_, hv, by rw [hob]; omega⟩
  · rintro rfl ⟨v, hv', hn⟩
    rw [hv] at hv'
    obtain rfl := Option.some.inj hv'
    rw [hzb] at hn; omega

/-- **C05, exact condition.** For a shape with at least one element and an int8 zero point, every packed tensor survives
the round trip through int8 if and only if the zero point is not -128 and the rounded `1/scale` is at least 1. -/
theorem C05_exact {fl : Rat → Rat} {scale : Rat} {zp : Int}
    (hs : shape.getLast? = some cols) (hpos : 0 < shape.dropLast.prod ∧ 0 < cols)
    (hzp : -128 ≤ zp ∧ zp ≤ 127) (h0 : 0 ≤ roundHalfAway (fl (1 / scale)))
    (h2 : roundHalfAway (fl (1 / scale)) < 2 ^ 31 - 128) :
    (∀ w, IsPacked shape.dropLast.prod cols w → ∀ (y0 : List (BitVec 8)) (out0 : List Word) (junk : Word),
      y0.length = shape.dropLast.prod * cols → out0.length = shape.dropLast.prod * ((cols + 31) / 32) →
      ∃ y, dequantizeEvalI8 fl shape scale zp w y0 = some y ∧ quantizeEval shape (.i8 y scale zp) out0 junk = some w) ↔
    zp ≠ -128 ∧ 1 ≤ roundHalfAway (fl (1 / scale)) := by
  constructor
  · intro hall
    have hn : 0 < shape.dropLast.prod * ((cols + 31) / 32) := Nat.mul_pos hpos.1 (by omega)
    have hc : 0 < shape.dropLast.prod * cols := Nat.mul_pos hpos.1 hpos.2
    have hw : IsPacked shape.dropLast.prod cols
        (1#32 :: List.replicate (shape.dropLast.prod * ((cols + 31) / 32) - 1) 0#32) := by
      refine ⟨by simp; omega, ?_⟩
      intro r k b v hr hk hb hcb hv
      cases hi : r * ((cols + 31) / 32) + k with
      | zero =>
        rw [hi] at hv
        obtain rfl : v = 1#32 := by simpa using hv.symm
        have hk0 : k = 0 := by omega
        subst hk0
        have h1 : 1 ≤ b := by omega
        have : ∀ b, b < 32 → 1 ≤ b → (1#32).getLsbD b = false := by decide
        exact this b hb h1
      | succ i =>
        rw [hi, List.getElem?_cons_succ, List.getElem?_replicate] at hv
        split at hv
        · cases hv; simp
        · cases hv
    obtain ⟨y, hd, hq⟩ := hall _ hw (List.replicate (shape.dropLast.prod * cols) 0#8)
      (List.replicate (shape.dropLast.prod * ((cols + 31) / 32)) 0#32) 0#32 (by simp) (by simp)
    generalize hoff : roundHalfAway (fl (1 / scale)) = off at h0 h2 ⊢
    have hv : dequantInt8Values fl scale zp
        = some (BitVec.ofInt 8 (min 127 (zp + off)), BitVec.ofInt 8 (max (-128) (zp - off))) := by
      unfold dequantInt8Values
      rw [hoff]
      have e1 : toInt32 off = some off := by rw [toInt32, if_pos (by omega)]
      have e2 : toInt32 (zp + off) = some (zp + off) := by rw [toInt32, if_pos (by omega)]
      have e3 : toInt32 (zp - off) = some (zp - off) := by rw [toInt32, if_pos (by omega)]
      simp [e1, e2, e3]
    have hob : (BitVec.ofInt 8 (max (-128) (zp - off))).toInt = max (-128) (zp - off) :=
      toInt_ofInt8 (by omega) (by omega)
    obtain ⟨y', hy1, hy2⟩ := unpackMatrix_fills
      (inp := 1#32 :: List.replicate (shape.dropLast.prod * ((cols + 31) / 32) - 1) 0#32)
      (rows := shape.dropLast.prod) (cols := cols) (out0 := List.replicate (shape.dropLast.prod * cols) 0#8)
      (zb := BitVec.ofInt 8 (min 127 (zp + off))) (ob := BitVec.ofInt 8 (max (-128) (zp - off)))
      (by rw [hw.len, packedSize_eq]) (by simp)
    have : y' = y := by
      have h3 := hd
      simp only [dequantizeEvalI8, hs, hv, Option.bind_eq_bind, Option.bind_some] at h3
      rw [hy1] at h3; exact Option.some.inj h3
    subst this
    have hy0 := hy2.hit 0 (by simpa using hc) hc
    have hu : unpackedElem (1#32 :: List.replicate (shape.dropLast.prod * ((cols + 31) / 32) - 1) 0#32) cols
        (BitVec.ofInt 8 (min 127 (zp + off))) (BitVec.ofInt 8 (max (-128) (zp - off))) (0 / cols) (0 % cols)
        = BitVec.ofInt 8 (max (-128) (zp - off)) := by
      simp [unpackedElem]
    rw [hu] at hy0
    obtain ⟨q, q1, q2⟩ := C01_quantize_bits (junk := 0#32) (x := .i8 y' scale zp)
      (out0 := List.replicate (shape.dropLast.prod * ((cols + 31) / 32)) 0#32) hs
      (by simp only [TData.size]; rw [hy2.len]; simp) (by simp) hzp.2
    rw [hq] at q1; cases q1
    obtain ⟨w, hw0, hbit⟩ := q2 0 0 hpos.1 hpos.2
    simp only [Nat.zero_mul, Nat.zero_div, Nat.add_zero, List.getElem?_cons_zero, Option.some.injEq] at hw0
    subst hw0
    obtain ⟨v, hv0, hlt⟩ := hbit.1 (by decide)
    simp only [Nat.zero_mul, Nat.add_zero] at hv0
    rw [hy0] at hv0; cases hv0
    rw [hob] at hlt
    omega
  · rintro ⟨h3, h4⟩ w hw y0 out0 junk hy0 hout
    exact C05_int8_round_trip_partial hs hw hy0 hout ⟨by omega, hzp.2⟩ h4 h2

/-- The scales meeting `h1` in exact arithmetic: `0 < scale ≤ 2`. -/
theorem C05_scale_condition {scale : Rat} (h : 0 < scale) :
    1 ≤ roundHalfAway (1 / scale) ↔ scale ≤ 2 := by
  rw [one_le_roundHalfAway_iff]
  rw [div_le_div_iff₀ (by norm_num) h]
  constructor <;> intro h' <;> linarith

end RoundTrip

/-- **C05 is false** for scale 4: the bit 1 is dequantized to the zero point and
quantized back to 0. -/
theorem C05_false_large_scale :
    dequantizeEvalI8 id [1] 4 0 [1#32] [0#8] = some [0#8] ∧
      quantizeEval [1] (.i8 [0#8] 4 0) [0#32] 0#32 = some [0#32] := by
  constructor <;> decide +kernel

/-- **C05 is false** for zero point -128 (scale 1): every int8 is at or above the
zero point. -/
theorem C05_false_min_zero_point :
    dequantizeEvalI8 id [1] 1 (-128) [1#32] [0#8] = some [128#8] ∧
      quantizeEval [1] (.i8 [128#8] 1 (-128)) [0#32] 0#32 = some [0#32] := by
  constructor <;> decide +kernel

/-- Concrete packed tensor meeting the hypotheses of C04 (converse) and C05: two rows
of 33 channels. -/
example : IsPacked ([2, 33] : List Nat).dropLast.prod 33 [0xFFFFFFFF#32, 1#32, 5#32, 0#32] ∧
    (1 : Int) ≤ roundHalfAway (id (1 / (1 / 2 : Rat))) ∧
    roundHalfAway (id (1 / (1 / 2 : Rat))) < 2 ^ 31 - 128 := by
  refine ⟨⟨by decide, ?_⟩, by decide +kernel, by decide +kernel⟩
  intro r k b v hr hk hb hc hv
  have hr : r < 2 := hr
  have hk : k = 1 := by omega
  subst hk
  have h1 : 1 ≤ b := by omega
  have : r = 0 ∨ r = 1 := by omega
  rcases this with rfl | rfl
  · obtain rfl : v = 1#32 := by simpa using hv.symm
    have : ∀ b, b < 32 → 1 ≤ b → (1#32).getLsbD b = false := by decide
    exact this b hb h1
  · obtain rfl : v = 0#32 := by simpa using hv.symm
    simp

end Verif
