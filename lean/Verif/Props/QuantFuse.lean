import Verif.Model.QuantFuse
import Verif.Props.FuseAct
import Verif.Props.OpResultInt
import Verif.Proof.Round

/-! C36: a quantized output fused into BConv2D. -/

namespace Verif

/-- A rounding to a nearest integer (any tie rule). -/
def NearestInt (rnd : Rat → Int) : Prop := ∀ x : Rat, (rnd x : Rat) - 1 / 2 ≤ x ∧ x ≤ rnd x + 1 / 2

/-- `x` lies halfway between two integers. -/
def Tie (x : Rat) : Prop := ∃ k : Int, x = k + 1 / 2

/-- Adding an integer before or after rounding: no difference unless the number is a tie. -/
theorem nearest_shift {rnd : Rat → Int} (h : NearestInt rnd) (t : Rat) (z : Int) (hn : ¬ Tie t) :
    rnd (t + z) = roundHalfAway t + z := by
  obtain ⟨a1, a2⟩ := h (t + z)
  obtain ⟨b1, b2⟩ := roundHalfAway_near t
  have c1 : t ≠ (roundHalfAway t : Rat) - 1 / 2 := fun hc => hn ⟨roundHalfAway t - 1, by push_cast; linarith⟩
  have c2 : t ≠ (roundHalfAway t : Rat) + 1 / 2 := fun hc => hn ⟨roundHalfAway t, hc⟩
  have d1 := lt_of_le_of_ne b1 (Ne.symm c1)
  have d2 := lt_of_le_of_ne b2 c2
  have e1 : ((rnd (t + z) : Int) : Rat) < ((roundHalfAway t + z + 1 : Int) : Rat) := by push_cast; linarith
  have e2 : ((roundHalfAway t + z - 1 : Int) : Rat) < ((rnd (t + z) : Int) : Rat) := by push_cast; linarith
  have f1 := Int.cast_lt.1 e1
  have f2 := Int.cast_lt.1 e2
  omega

/-- In general they differ by at most 1. -/
theorem nearest_shift_near {rnd : Rat → Int} (h : NearestInt rnd) (t : Rat) (z : Int) :
    abs (rnd (t + z) - (roundHalfAway t + z)) ≤ 1 := by
  obtain ⟨a1, a2⟩ := h (t + z)
  obtain ⟨b1, b2⟩ := roundHalfAway_near t
  have e1 : ((rnd (t + z) : Int) : Rat) ≤ ((roundHalfAway t + z + 1 : Int) : Rat) := by push_cast; linarith
  have e2 : ((roundHalfAway t + z - 1 : Int) : Rat) ≤ ((rnd (t + z) : Int) : Rat) := by push_cast; linarith
  have f1 := Int.cast_le.1 e1
  have f2 := Int.cast_le.1 e2
  rw [abs_le]; omega

/-- With the same rounding and both numbers on the same side of zero there is no difference. -/
theorem roundHalfAway_shift (t : Rat) (z : Int) (h : (0 ≤ t ∧ 0 ≤ t + z) ∨ (t < 0 ∧ t + z < 0)) :
    roundHalfAway (t + z) = roundHalfAway t + z := by
  rcases h with ⟨h1, h2⟩ | ⟨h1, h2⟩
  · rw [roundHalfAway_nonneg h1, roundHalfAway_nonneg h2, show t + z + 1 / 2 = t + 1 / 2 + z by ring, Int.floor_add_intCast]
  · rw [roundHalfAway_neg h1, roundHalfAway_neg h2, show -(t + z) + 1 / 2 = -t + 1 / 2 - z by ring, Int.floor_sub_intCast]
    omega

/-- With the same rounding, on a tie whose two numbers are on different sides of zero, there is a difference that saturation
does not hide. -/
theorem roundHalfAway_shift_ne (t : Rat) (z : Int) (hz : -128 ≤ z ∧ z ≤ 127) (hk : Tie t)
    (h : (t < 0 ∧ 0 ≤ t + z) ∨ (0 ≤ t ∧ t + z < 0)) :
    clampInt8 (roundHalfAway (t + z)) ≠ clampInt8 (roundHalfAway t + z) := by
  obtain ⟨k, rfl⟩ := hk
  rcases h with ⟨h1, h2⟩ | ⟨h1, h2⟩
  · have e1 : ((k : Int) : Rat) < ((0 : Int) : Rat) := by push_cast; linarith
    have e2 : ((-1 : Int) : Rat) < ((k + z : Int) : Rat) := by push_cast; linarith
    have f1 := Int.cast_lt.1 e1
    have f2 := Int.cast_lt.1 e2
    rw [roundHalfAway_nonneg h2, roundHalfAway_neg h1, show (k : Rat) + 1 / 2 + z + 1 / 2 = ((k + z + 1 : Int) : Rat) by push_cast; ring,
      show -((k : Rat) + 1 / 2) + 1 / 2 = ((-k : Int) : Rat) by push_cast; ring, Int.floor_intCast, Int.floor_intCast]
    unfold clampInt8
    split_ifs <;> omega
  · have e1 : ((-1 : Int) : Rat) < ((k : Int) : Rat) := by push_cast; linarith
    have e2 : ((k + z : Int) : Rat) < ((0 : Int) : Rat) := by push_cast; linarith
    have f1 := Int.cast_lt.1 e1
    have f2 := Int.cast_lt.1 e2
    rw [roundHalfAway_nonneg h1, roundHalfAway_neg h2, show (k : Rat) + 1 / 2 + 1 / 2 = ((k + 1 : Int) : Rat) by push_cast; ring,
      show -((k : Rat) + 1 / 2 + z) + 1 / 2 = ((-(k + z) : Int) : Rat) by push_cast; ring, Int.floor_intCast, Int.floor_intCast]
    unfold clampInt8
    split_ifs <;> omega

theorem clampInt8_of_min (v : Int) : min 127 (max (-128) v) = clampInt8 v := by
  unfold clampInt8; split_ifs <;> omega

theorem clampInt8_near (x y : Int) (h : abs (x - y) ≤ 1) : abs (clampInt8 x - clampInt8 y) ≤ 1 := by
  rw [abs_le] at h ⊢
  unfold clampInt8; split_ifs <;> omega

/-- The value of TFLite's Quantize in exact arithmetic, when it is defined. -/
theorem tflQuantize_id {scale x : Rat} {zp : Int} (h : abs (x / scale) ≤ 2147483000) (hz : -128 ≤ zp ∧ zp ≤ 127) :
    tflQuantize id scale zp x = some (clampInt8 (roundHalfAway (x / scale) + zp)) := by
  obtain ⟨b1, b2⟩ := roundHalfAway_near (x / scale)
  rw [abs_le] at h
  have e1 : ((roundHalfAway (x / scale) : Int) : Rat) < ((2147483001 : Int) : Rat) := by push_cast; linarith
  have e2 : ((-2147483001 : Int) : Rat) < ((roundHalfAway (x / scale) : Int) : Rat) := by push_cast; linarith
  have f1 := Int.cast_lt.1 e1
  have f2 := Int.cast_lt.1 e2
  unfold tflQuantize toInt32
  simp only [id]
  generalize roundHalfAway (x / scale) = q at *
  rw [if_pos (by omega)]
  simp only [Option.bind_eq_bind, Option.bind_some]
  rw [if_pos (by omega)]
  simp only [Option.bind_some, clampInt8_of_min]

section
variable {n n' : Node} {a : Attrs} {e : InputDesc} {inp : List Word} {b h w cout fh fw fd g : Nat} {scale : Rat} {zp : Int}

/-- The rewrite keeps the preparation, unless the node is zero-padded and an optimized kernel runs it. -/
theorem fuseOutputQuant_prepare (ha : n.attrs = some a) (hn : fuseOutputQuant scale zp n = some n')
    (hz : n.kt ≠ .reference → ¬ (a.padding = .same ∧ a.padValue = 0)) (r : Prepared) (hr : prepare n e = .ok r) :
    prepare n' e = .ok r := by
  unfold fuseOutputQuant at hn
  split at hn
  swap
  · simp at hn
  rename_i hty
  simp only [Option.some.injEq] at hn
  subst hn
  rw [prepare_eq_ok] at hr ⊢
  obtain ⟨a', g, ha', k1, k2, k3, k4, k5, k6, k7, k8, k9, k10, k11, k12, k13⟩ := hr
  rw [ha] at ha'; cases ha'
  refine ⟨a, g, ha, k1, k2, k3, k4, k5, Or.inr (Or.inl rfl), k7, ?_, ?_, Or.inr rfl, k11, k12, ?_⟩
  · by_cases hzp : a.padding = .same ∧ a.padValue = 0
    · by_cases hk : n.kt = .reference
      · unfold prepZeroPad at k8 ⊢
        rw [if_pos hzp] at k8 ⊢
        rw [hk] at k8 ⊢
        simpa using k8
      · exact absurd hzp (hz hk)
    · unfold prepZeroPad; rw [if_neg hzp]
  · rw [← k9]
    unfold prepParams
    simp only [hty, reduceCtorEq, if_false]
  · rw [k13, hty]
    rfl

/-- **C36, what holds.** When the converter fuses TFLite's Quantize (scale, zero point) into a BConv2D with float output
that is not zero-padded (or runs on the reference kernel), the fused node is accepted, and in exact arithmetic every element
`q'` of its int8 output is the quantization `q` of the element `y` of the float output, unless `y / scale` lies halfway
between two integers, and then they differ by at most 1; with rounding half away from zero (every build but Thumb) they differ
exactly on the ties where `y` and `y / scale + zero point` are on different sides of zero. For every input, weights, multiplier, bias, activation, any
tie-breaking rule of the kernel's rounding, every kernel and (BGEMM) schedule; the quantized values must fit int32.
Missing: the ties (`C36_tie_witness`) and zero padding on the optimized kernels (`C36_zero_padding_witness`). -/
theorem C36_fuse_output_quantize_partial (ha : n.attrs = some a) (hn : fuseOutputQuant scale zp n = some n')
    (hsc : 0 < scale) (hzp : -128 ≤ zp ∧ zp ≤ 127)
    (ht : TensorsOk n a e inp b h w cout fh fw fd g)
    (hml : n.multData.length = cout) (hbl : n.biasData.length = cout)
    (hz : n.kt ≠ .reference → ¬ (a.padding = .same ∧ a.padValue = 0))
    (hrange : ∀ (z : Int) (o : Nat), |z| ≤ ((fh * fw * (a.cin / g) : Nat) : Int) → o < cout →
      abs (((a.act.apply z : Int) * n.multData.getD o 0 + n.biasData.getD o 0) / scale) ≤ 2147483000)
    {r : Prepared} (hr : prepare n e = .ok r)
    (c : RunCfg) (hrnd : NearestInt c.rnd)
    (hs : n.kt = .bgemm → Schedule cout (b * r.p.outH * r.p.outW) 1 1 c.blocks)
    {out0 : List Rat} {out0' : List Int} (hout : out0.length = b * r.p.outH * r.p.outW * cout)
    (hout' : out0'.length = b * r.p.outH * r.p.outW * cout) :
    prepare n' e = .ok r ∧ ∃ f f' out out', freshMachine n e = some f ∧ freshMachine n' e = some f' ∧
      output n c f inp (.f out0) = some (.f out) ∧ output n' c f' inp (.i out0') = some (.i out') ∧
      out'.length = out.length ∧
      ∀ (i : Nat) (y : Rat), out[i]? = some y → ∃ q q', tflQuantize id scale zp y = some q ∧ out'[i]? = some q' ∧
        abs (q' - q) ≤ 1 ∧ (¬ Tie (y / scale) → q' = q) ∧
        (c.rnd = roundHalfAway →
          (q' = q ↔ ¬ (Tie (y / scale) ∧ ((y < 0 ∧ 0 ≤ y / scale + zp) ∨ (0 ≤ y ∧ y / scale + zp < 0))))) := by
  have hr' := fuseOutputQuant_prepare ha hn hz r hr
  refine ⟨hr', ?_⟩
  obtain ⟨f, hf⟩ := fresh_exists hr
  obtain ⟨f', hf'⟩ := fresh_exists hr'
  unfold fuseOutputQuant at hn
  split at hn
  swap
  · simp at hn
  rename_i hty
  simp only [Option.some.injEq] at hn
  subst hn
  obtain ⟨out, e1, e2, e3⟩ : ∃ out, output n c f inp (.f out0) = some (.f out) ∧ out.length = out0.length ∧
      FloatResult n a r.p inp out := by
    by_cases hk : n.kt = .reference
    · exact fresh_reference_float ha hk hty ht hml hbl hr hf c hout
    · exact fresh_float_any ha hty (hz hk) ht hml hbl hr hf c hs hout
  obtain ⟨out', e1', e2', e3'⟩ := fresh_int8_any
    (n := { n with outType := .int8, outAffine := true, scale := scale, zp := zp }) ha rfl hsc { ht with } hml hbl c
    (by
      intro z o hzb ho
      have h1 := hrange z o hzb ho
      obtain ⟨h2, h3⟩ := hrnd ((((a.act.apply z : Int) * n.multData.getD o 0 + n.biasData.getD o 0) / scale) + zp)
      rw [abs_le] at h1
      have z1 : ((-128 : Int) : Rat) ≤ (zp : Rat) := Int.cast_le.2 hzp.1
      have z2 : (zp : Rat) ≤ ((127 : Int) : Rat) := Int.cast_le.2 hzp.2
      push_cast at z1 z2
      show (-2147483648 : Int) ≤ c.rnd ((((a.act.apply z : Int) * n.multData.getD o 0 + n.biasData.getD o 0) / scale) + zp) ∧
        c.rnd ((((a.act.apply z : Int) * n.multData.getD o 0 + n.biasData.getD o 0) / scale) + zp) < 2147483648
      generalize (((a.act.apply z : Int) * n.multData.getD o 0 + n.biasData.getD o 0) / scale) = T at *
      generalize c.rnd (T + zp) = R at *
      have g1 : ((-2147483648 : Int) : Rat) ≤ (R : Rat) := by push_cast; linarith
      have g2 : (R : Rat) < ((2147483648 : Int) : Rat) := by push_cast; linarith
      exact ⟨Int.cast_le.1 g1, Int.cast_lt.1 g2⟩)
    hr' hf' hs hout'
  refine ⟨f, f', out, out', hf, hf', e1, e1', by rw [e2, e2', hout, hout'], ?_⟩
  intro i y hy
  obtain ⟨_, _, ⟨g1, g2, g3, g4⟩, ⟨g5, g6, g7, g8⟩, ⟨_, _, _, _, _, _, g9⟩, _⟩ := C21_prepare_result ha ht.dims ht.fdims hr
  obtain ⟨hok, hgeo, hg, hK⟩ := ht.facts ha hr
  have hKe : r.p.K = fh * fw * (a.cin / g) := by unfold BConv.K BConv.cinG; rw [g6, g7, g9, hg]
  have hi : i < r.p.batches * r.p.outH * r.p.outW * r.p.cout := by
    rw [g1, g5, ← hout, ← e2]
    by_contra hc
    rw [List.getElem?_eq_none (by omega)] at hy
    cases hy
  obtain ⟨d1, d2, d3, d4⟩ := decode_lt hi
  have enc := offset4_encode r.p.outH r.p.outW r.p.cout i
  unfold offset4 at enc
  have k := e3 _ _ _ _ d1 d2 d3 d4
  have k' := e3' _ _ _ _ d1 d2 d3 d4
  rw [enc] at k k'
  rw [hy] at k
  simp only [Option.some.injEq] at k
  have hpad : |a.padded| ≤ 1 := by unfold Attrs.padded; split <;> simp
  have hab := BConv.abs_conv_le (p := r.p) (inp := inp) (filt := n.filtData) hpad (dB r.p.outH r.p.outW r.p.cout i)
    (dY r.p.outH r.p.outW r.p.cout i) (dX r.p.outW r.p.cout i) (dC r.p.cout i)
  rw [hKe] at hab
  have hr1 := hrange _ _ hab (by rw [← g5]; exact d4)
  rw [← k] at hr1
  refine ⟨_, _, tflQuantize_id hr1 hzp, k', ?_⟩
  show abs (clampInt8 (c.rnd (((a.act.apply _ : Int) * n.multData.getD _ 0 + n.biasData.getD _ 0) / scale + zp)) - _) ≤ 1 ∧
    (_ → clampInt8 (c.rnd (((a.act.apply _ : Int) * n.multData.getD _ 0 + n.biasData.getD _ 0) / scale + zp)) = _) ∧
    (_ → (clampInt8 (c.rnd (((a.act.apply _ : Int) * n.multData.getD _ 0 + n.biasData.getD _ 0) / scale + zp)) = _ ↔ _))
  rw [← k]
  refine ⟨clampInt8_near _ _ (nearest_shift_near hrnd _ _), fun ht => by rw [nearest_shift hrnd _ _ ht], fun hc => ?_⟩
  rw [hc]
  have hneg : y / scale < 0 ↔ y < 0 := by
    refine ⟨fun h => ?_, fun h => div_neg_of_neg_of_pos h hsc⟩
    by_contra hc2
    exact absurd (div_nonneg (not_lt.1 hc2) hsc.le) (not_le.2 h)
  have hnn : 0 ≤ y / scale ↔ 0 ≤ y := by rw [← not_lt, hneg, not_lt]
  rw [← hneg, ← hnn]
  constructor
  · rintro he ⟨h1, h2⟩
    exact roundHalfAway_shift_ne _ _ hzp h1 h2 he
  · intro hno
    by_cases hti : Tie (y / scale)
    · rw [roundHalfAway_shift]
      by_contra hc2
      refine hno ⟨hti, ?_⟩
      by_cases h1 : y / scale < 0
      · refine .inl ⟨h1, ?_⟩
        by_contra h2
        exact hc2 (.inr ⟨h1, not_le.1 h2⟩)
      · refine .inr ⟨not_lt.1 h1, ?_⟩
        by_contra h2
        exact hc2 (.inl ⟨not_lt.1 h1, not_lt.1 h2⟩)
    · rw [nearest_shift roundHalfAway_near _ _ hti]

end

/-- The rounding functions of the builds meet the hypothesis. -/
theorem nearestInt_roundings : NearestInt roundHalfAway ∧ NearestInt roundHalfEven :=
  ⟨roundHalfAway_near, roundHalfEven_near⟩

/-- C36 fails on ties: the value -1/2 with scale 1 and zero point 1 is quantized to 0 by TFLite's Quantize (round(-0.5) +
1) and to 1 by the fused node (round(-0.5 + 1)). -/
theorem C36_tie_witness :
    tflQuantize id 1 1 (-1 / 2) = some 0 ∧ clampInt8 (roundHalfAway (-1 / 2 / 1 + ((1 : Int) : Rat))) = 1 := by
  decide +kernel

/-- A zero-padded float node: 3x3 filter, SAME padding with `pad_values = 0`, BGEMM kernel. -/
def zeroPadFloatNode : Node :=
  { kt := .bgemm, attrs := some ⟨1, 1, 1, 1, .same, 0, 2, .none⟩, nInputs := 5, inType := .int32,
    filter := ⟨.int32, [1, 3, 3, 1]⟩, filtData := [0#32, 0#32, 0#32, 0#32, 0#32, 0#32, 0#32, 0#32, 0#32],
    mult := some ⟨.float32, [1]⟩, multData := [1 / 2], bias := some ⟨.float32, [1]⟩,
    biasData := [3], thr := none, thrData := [], outType := .float32, outAffine := false,
    scale := 1, zp := 0 }

/-- C36 fails for zero padding: the runtime accepts the float node and rejects the fused int8 node. -/
theorem C36_zero_padding_witness :
    (∃ r, prepare zeroPadFloatNode ⟨[1, 3, 3, 1], false, 0⟩ = .ok r) ∧
    (fuseOutputQuant 1 0 zeroPadFloatNode).map (fun n => prepare n ⟨[1, 3, 3, 1], false, 0⟩) = some .error := by
  exact ⟨⟨_, rfl⟩, rfl⟩

/-- Non-vacuity: a float node accepted by the runtime, with two channels and ReLU, and the range of its values. -/
example : (∃ r, prepare { int8Node with outType := .float32 } onePixel = .ok r) ∧
    (∃ n', fuseOutputQuant (1 / 4) (-5) { int8Node with outType := .float32 } = some n') ∧
    ∀ (z : Int) (o : Nat), |z| ≤ 2 → o < 1 →
      abs (((Act.relu.apply z : Int) * int8Node.multData.getD o 0 + int8Node.biasData.getD o 0) / (1 / 4 : Rat)) ≤ 2147483000 := by
  refine ⟨⟨_, rfl⟩, ⟨_, rfl⟩, ?_⟩
  intro z c hz hc
  have : c = 0 := by omega
  subst this
  have hz' : z = -2 ∨ z = -1 ∨ z = 0 ∨ z = 1 ∨ z = 2 := by rw [abs_le] at hz; omega
  rcases hz' with rfl | rfl | rfl | rfl | rfl <;> decide +kernel

end Verif
