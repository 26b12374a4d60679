import Verif.Spec.PipelineLeft
import Verif.Props.Pipeline

/-!
C69: what the preparation pass has replaced when it is finished.
-/

namespace Verif.Ir

section

variable {arm : Bool} {F : Foreign} {safe : List Val → Prop}

/-- An operand of an operand of an operand is found before the node. -/
theorem look_arg3 {g : Graph} (hg : g.Ssa) {pre post : List Node} {n : Node} (he : g.nodes = pre ++ n :: post) {z y m : Node}
    (hz : z ∈ g.nodes) (hzn : z.name ∈ n.args) (hy : y ∈ g.nodes) (hyz : y.name ∈ z.args) (hm : m ∈ g.nodes)
    (hx : m.name ∈ y.args) : lookIn pre m.name = some m := by
  obtain ⟨hl, _⟩ := lookIn_some (look_arg2 hg he hz hzn hy hyz)
  obtain ⟨q, q', hq⟩ := List.append_of_mem hl
  refine look_in hg he hm ?_
  rw [hq, List.map_append]
  exact List.mem_append_left _ (hg.scoped.args q y (q' ++ n :: post) (by rw [he, hq]; simp) _ hx)

theorem constF_of {g : Graph} (hg : g.Ssa) {pre post : List Node} {n : Node} (he : g.nodes = pre ++ n :: post) {x : Nat}
    {t : Tens} (hx : x ∈ n.args) (h : g.FloatConstant x t) : Ctx.constOf ⟨lookIn pre, g.uses⟩ x = some (.f t) := by
  obtain ⟨c, c1, c2, c3, c4⟩ := h
  subst c2
  exact const_of_look (look_arg hg he c1 hx) c3 c4

theorem isConstantValue_of {l : List Rat} {v : Rat} (h : ∀ x ∈ l, x = v) : isConstantValue l v = true := by
  simpa [isConstantValue] using h

/-- After preparation, no sign is computed with float operators. -/
theorem finished_signs {g : Graph} (hg : g.Ssa) (hfin : g.Finished (PassKind.rules arm F .prepare)) : ¬ g.SignLeft := by
  rintro (⟨n, hn, s, hs, y, hy, c, x, ho, ha, hso, hsa, hyo, hya⟩ |
    ⟨n, hn, k, t, e, tt, et, shape, ho, ha, hty, ht, hee, hv⟩)
  · obtain ⟨pre, post, he⟩ := List.append_of_mem hn
    have hl : lookIn pre s.name = some s := look_arg hg he hs (by rw [ha]; simp)
    have hl2 : lookIn pre y.name = some y := look_arg2 hg he hs (by rw [ha]; simp) hy (by
      rcases hsa with h | h <;> rw [h] <;> simp)
    obtain ⟨nm, o, as, ty⟩ := n
    obtain ⟨snm, so, sas, sty⟩ := s
    obtain ⟨ynm, yo, yas, yty⟩ := y
    simp only at ho ha hso hsa hyo hya hl hl2 he
    subst ho ha hso hyo hya
    rcases hsa with rfl | rfl
    · have := hfin.2 (ruleSign false) (by simp [PassKind.rules]) pre _ post he
      simp [ruleSign, hl, hl2] at this
    · have := hfin.2 (ruleSign true) (by simp [PassKind.rules]) pre _ post he
      simp [ruleSign, hl, hl2] at this
  · obtain ⟨pre, post, he⟩ := List.append_of_mem hn
    have c1 := constF_of hg he (by rw [ha]; simp) ht
    have c2 := constF_of hg he (by rw [ha]; simp) hee
    obtain ⟨nm, o, as, ty⟩ := n
    simp only at ho ha hty he
    subst ho ha hty
    rcases hv with ⟨h1, h2⟩ | ⟨h1, h2⟩
    · have := hfin.2 (ruleSelect false) (by simp [PassKind.rules]) pre _ post he
      simp [ruleSelect, c1, c2, isConstantValue_of h1, isConstantValue_of h2] at this
    · have := hfin.2 (ruleSelect true) (by simp [PassKind.rules]) pre _ post he
      simp [ruleSelect, c1, c2, isConstantValue_of h1, isConstantValue_of h2] at this

theorem isSame1D_of {n out s b e : Nat} (h : SameShaped n out s b e) : isSamePadding1D (b, e) n out s = true := by
  obtain ⟨hs, hn, ho, he⟩ := h
  have hle : out ≤ n + s := by
    rw [ho]
    exact (Nat.div_le_self _ _).trans (by omega)
  unfold isSamePadding1D
  simp only [Bool.and_eq_true, decide_eq_true_eq]
  rw [toCInt_eq (by omega), toCInt_eq (by omega)]
  refine ⟨⟨?_, by omega⟩, by omega⟩
  unfold ceilDivC
  rw [Int.tdiv_eq_ediv_of_nonneg (by omega), ho]
  push_cast
  congr 1
  omega

/-- After preparation, no convolution padded with ones is left that could be binary. -/
theorem finished_onePadded {g : Graph} (hg : g.Ssa) (hfin : g.Finished (PassKind.rules arm F .prepare)) :
    ¬ g.OnePaddedConvLeft := by
  rintro ⟨n, hn, z, hz, y, hy, x, hx, a, f, pd, pv, d0, d1, d2, cin, i0, h, w, i3, o0, oh, ow, o3, fh, fw, ci, co, fd, vt,
    t, b, l, r, ho, ha, hty, hzo, hza, hyo, hya, hyt, hxt, hf, hw, h0, hs, hp, hpv, hvt, ⟨c, c1, c2, c3, c4⟩, sh, sw⟩
  obtain ⟨pre, post, he⟩ := List.append_of_mem hn
  have hzn : z.name ∈ n.args := by rw [ha]; simp
  have hyz : y.name ∈ z.args := by rw [hza]; simp
  have l1 : lookIn pre z.name = some z := look_arg hg he hz hzn
  have l2 : lookIn pre y.name = some y := look_arg2 hg he hz hzn hy hyz
  have l3 : lookIn pre x.name = some x := look_arg3 hg he hz hzn hy hyz hx (by rw [hya]; simp)
  have hc := constF_of hg he (by rw [ha]; simp) hf
  have hcp : Ctx.constOf ⟨lookIn pre, g.uses⟩ pd = some (.i ⟨[4, 2], [0, 0, t, b, l, r, 0, 0]⟩) := by
    subst c2
    exact const_of_look (look_arg2 hg he hz hzn c1 (by rw [hza]; simp)) c3 c4
  have hcv : Ctx.constOf ⟨lookIn pre, g.uses⟩ pv = some (.f vt) := by
    obtain ⟨c, c1, c2, c3, c4⟩ := hpv
    subst c2
    exact const_of_look (look_arg2 hg he hz hzn c1 (by rw [hza]; simp)) c3 c4
  have hbin : isBinaryFilter fh fw ci co fd = true := by
    rw [isBinaryFilter_iff]
    intro h w i o h1 h2 h3 h4
    obtain ⟨w1, w2⟩ := hw h w i o h1 h2 h3 h4
    have hz : hwio fw ci co 0 0 0 o = o := by simp [hwio]
    rw [hz]
    refine ⟨w2, ?_⟩
    rw [abs_div]
    have : |fd.getD (hwio fw ci co h w i o) 0| = |fd.getD o 0| := w1
    rw [this, div_self (ne_of_gt (lt_trans (by norm_num) w2))]
    norm_num [tolerance]
  have hvs := whole_groups h0 hs
  have hsx : Ctx.shapeOf ⟨lookIn pre, g.uses⟩ x.name = some [i0, h, w, i3] := by
    unfold Ctx.shapeOf
    simp only [l3, Option.bind_some]
    exact hxt
  have hpads : padsOf ⟨[4, 2], [0, 0, (t : Int), b, l, r, 0, 0]⟩ = some ⟨(0, 0), (t, b), (l, r), (0, 0)⟩ := by
    simp [padsOf]
  have e1 := isSame1D_of sh
  have e2 := isSame1D_of sw
  have hsp : isSamePadding ⟨(0, 0), (t, b), (l, r), (0, 0)⟩ ([i0, h, w, i3].map fun d => (d : Int))
      ([o0, oh, ow, o3].map fun d => (d : Int)) a.strideH a.strideW = true := by
    simp [isSamePadding, isNoPadding, e1, e2]
  obtain ⟨nm, o, as, ty⟩ := n
  obtain ⟨znm, zo, zas, zty⟩ := z
  obtain ⟨ynm, yo, yas, yty⟩ := y
  simp only at ho ha hty hzo hza hyo hya hyt l1 l2 he
  subst ho ha hty hzo hza hyo hya hyt
  have := hfin.2 rulePadConv (by simp [PassKind.rules]) pre _ post he
  simp only [rulePadConv, l1, l2, hc, hcp, hcv, hsx, hpads] at this
  rw [if_pos ⟨hp, hbin, hvt, hsp, hvs⟩] at this
  cases this

theorem samePadding_of {i0 h w i3 o0 oh ow o3 t b l r sH sW : Nat} (sh : SameShaped h oh sH t b) (sw : SameShaped w ow sW l r) :
    isSamePadding ⟨(0, 0), (t, b), (l, r), (0, 0)⟩ ([i0, h, w, i3].map fun d => (d : Int))
      ([o0, oh, ow, o3].map fun d => (d : Int)) sH sW = true := by
  have e1 := isSame1D_of sh
  have e2 := isSame1D_of sw
  simp [isSamePadding, isNoPadding, e1, e2]

/-- After the padding pass, no zero padding is left that could be part of a convolution. -/
theorem finished_zeroPadded {g : Graph} (hg : g.Ssa) (hfin : g.Finished (PassKind.rules arm F .fusePadding)) :
    ¬ g.ZeroPaddedConvLeft := by
  rintro ⟨n, hn, z, hz, y, hy, a, act, dw, f, b, pd, rest, i0, h, w, i3, o0, oh, ow, o3, t, e, l, r, ho, ha, hty, hp, hzo, hza,
    hu, hyt, ⟨c, c1, c2, c3, c4⟩, hr, sh, sw⟩
  obtain ⟨pre, post, he⟩ := List.append_of_mem hn
  have hzn : z.name ∈ n.args := by rw [ha]; simp
  have l1 : lookIn pre z.name = some z := look_arg hg he hz hzn
  have l2 : lookIn pre y.name = some y := look_arg2 hg he hz hzn hy (by rw [hza]; simp)
  have hcp : Ctx.constOf ⟨lookIn pre, g.uses⟩ pd = some (.i ⟨[4, 2], [0, 0, t, e, l, r, 0, 0]⟩) := by
    subst c2
    exact const_of_look (look_arg2 hg he hz hzn c1 (by rw [hza]; simp)) c3 c4
  have hsy : Ctx.shapeOf ⟨lookIn pre, g.uses⟩ y.name = some [i0, h, w, i3] := by
    unfold Ctx.shapeOf
    simp only [l2, Option.bind_some]
    exact hyt
  have hpads : padsOf ⟨[4, 2], [0, 0, (t : Int), e, l, r, 0, 0]⟩ = some ⟨(0, 0), (t, e), (l, r), (0, 0)⟩ := by
    simp [padsOf]
  have hsp := samePadding_of (i0 := i0) (i3 := i3) (o0 := o0) (o3 := o3) sh sw
  have hz2 : ∃ v2, zeroPad v2 (rest.map (Ctx.constOf ⟨lookIn pre, g.uses⟩)) = true := by
    rcases hr with rfl | ⟨pv, vt, rfl, hpv, hv⟩
    · exact ⟨false, rfl⟩
    · refine ⟨true, ?_⟩
      obtain ⟨c, c1, c2, c3, c4⟩ := hpv
      subst c2
      have := const_of_look (c := ⟨lookIn pre, g.uses⟩) (look_arg2 hg he hz hzn c1 (by rw [hza]; simp)) c3 c4
      simp only [List.map_cons, List.map_nil, this, zeroPad, hv]
      decide
  obtain ⟨v2, hz2⟩ := hz2
  obtain ⟨nm, o, as, ty⟩ := n
  obtain ⟨znm, zo, zas, zty⟩ := z
  simp only at ho ha hty hzo hza l1 he hu
  subst ho ha hty hzo hza
  have := hfin.2 (ruleFusePad v2 dw) (by cases v2 <;> cases dw <;> simp [PassKind.rules, fusePadRules]) pre _ post he
  simp only [ruleFusePad, l1, hcp, hsy, hpads] at this
  rw [if_pos ⟨trivial, hp, hz2, hu, hsp⟩] at this
  cases this

/-- After the int8 pass, no Quantize or Dequantize is left that an LCE operator could do itself. -/
theorem finished_int8 {g : Graph} (hg : g.Ssa) (hfin : g.Finished (PassKind.rules arm F .lceQuantize)) : ¬ g.Int8Left := by
  rintro (⟨n, hn, y, hy, s, z, a, x, f, m, b, t, ho, ha, hu, hyo, hya⟩ | ⟨n, hn, y, hy, s, z, x, ho, ha, hu, hyo, hya⟩ |
    ⟨n, hn, y, hy, x, ho, ha, hu, hyo, hya⟩ |
    ⟨n, hn, m, hm, b, hb, m1, hm1, b1, hb1, x, f, t, m0, b0, s1, z1, s2, z2, ho, ha, hmo, hma, hm1o, hm1a, hbo, hba, hb1o, hb1a⟩)
  · obtain ⟨pre, post, he⟩ := List.append_of_mem hn
    have hl : lookIn pre y.name = some y := look_arg hg he hy (by rw [ha]; simp)
    obtain ⟨nm, o, as, ty⟩ := n
    obtain ⟨ynm, yo, yas, yty⟩ := y
    simp only at ho ha hyo hya hl he hu
    subst ho ha hyo hya
    have := hfin.2 ruleFuseQuantize (by simp [PassKind.rules, quantizeRules]) pre _ post he
    simp [ruleFuseQuantize, hl, hu] at this
  · obtain ⟨pre, post, he⟩ := List.append_of_mem hn
    have hl : lookIn pre y.name = some y := look_arg hg he hy (by rw [ha]; simp)
    obtain ⟨nm, o, as, ty⟩ := n
    obtain ⟨ynm, yo, yas, yty⟩ := y
    simp only at ho ha hyo hya hl he hu
    subst ho ha hyo hya
    have := hfin.2 ruleDequantInt8 (by simp [PassKind.rules, quantizeRules]) pre _ post he
    simp [ruleDequantInt8, hl, hu] at this
  · obtain ⟨pre, post, he⟩ := List.append_of_mem hn
    have hl : lookIn pre y.name = some y := look_arg hg he hy (by rw [ha]; simp)
    obtain ⟨nm, o, as, ty⟩ := n
    obtain ⟨ynm, yo, yas, yty⟩ := y
    simp only at ho ha hyo hya hl he hu
    subst ho ha hyo hya
    have := hfin.2 ruleQuantInt8 (by simp [PassKind.rules, quantizeRules]) pre _ post he
    simp [ruleQuantInt8, hl, hu] at this
  · obtain ⟨pre, post, he⟩ := List.append_of_mem hn
    have l1 : lookIn pre m.name = some m := look_arg hg he hm (by rw [ha]; simp)
    have l2 : lookIn pre b.name = some b := look_arg hg he hb (by rw [ha]; simp)
    have l3 : lookIn pre m1.name = some m1 := look_arg2 hg he hm (by rw [ha]; simp) hm1 (by rw [hma]; simp)
    have l4 : lookIn pre b1.name = some b1 := look_arg2 hg he hb (by rw [ha]; simp) hb1 (by rw [hba]; simp)
    have hbc : n.op.isBConv = true := by
      rcases ho with ⟨a, h⟩ | ⟨a, s, z, h⟩ <;> rw [h] <;> rfl
    obtain ⟨nm, o, as, ty⟩ := n
    obtain ⟨mnm, mo, mas, mty⟩ := m
    obtain ⟨bnm, bo, bas, bty⟩ := b
    obtain ⟨m1nm, m1o, m1as, m1ty⟩ := m1
    obtain ⟨b1nm, b1o, b1as, b1ty⟩ := b1
    simp only at ha hmo hma hm1o hm1a hbo hba hb1o hb1a l1 l2 l3 l4 he hbc
    subst ha hmo hma hm1o hm1a hbo hba hb1o hb1a
    have := hfin.2 ruleStripQdq (by simp [PassKind.rules, quantizeRules]) pre _ post he
    simp [ruleStripQdq, l1, l2, l3, l4, hbc] at this

/-- **C69, padding.** During every conversion there is a moment, after the weights are packed and before quantization, when
no zero padding is left that could be part of a convolution. -/
theorem C69_padding_fused {quant ranges : Bool} (hF : ForeignOk F) {g g' : Graph} (hg : g.Ssa)
    (h : PassRuns arm F safe (conversionPasses quant ranges) g g') :
    ∃ l1 l2 k, conversionPasses quant ranges = l1 ++ l2 ∧ PassRuns arm F safe l1 g k ∧ PassRuns arm F safe l2 k g' ∧
      .bitpackWeights ∈ l1 ∧ PassKind.lceQuantize ∉ l1 ∧ ¬ k.ZeroPaddedConvLeft := by
  have hsp : conversionPasses quant ranges = (beforePacking ++ [.bitpackWeights, .foreign, .canonicalize] ++ [.fusePadding]) ++
      ((if quant then quantizationPasses ranges ++ [.quantForeign] else []) ++ [.canonicalize]) := by
    rw [conversion_split]
    simp [afterPacking]
  rw [hsp] at h
  obtain ⟨k, h1, h2⟩ := passRuns_append h
  have hk := passes_ssa hF h1 hg
  exact ⟨_, _, k, hsp, h1, h2, by decide, by decide, finished_zeroPadded (F := F) hk (runs_last rfl h1)⟩

/-- **C69, int8.** During every conversion with quantization there is a moment, after which only passes of TensorFlow and
TFLite and constant folding follow, when no Quantize or Dequantize is left that an LCE operator could do itself. -/
theorem C69_int8_fused {ranges : Bool} (hF : ForeignOk F) {g g' : Graph} (hg : g.Ssa)
    (h : PassRuns arm F safe (conversionPasses true ranges) g g') :
    ∃ l1 k, conversionPasses true ranges = l1 ++ [.quantForeign, .quantForeign, .canonicalize] ∧ PassRuns arm F safe l1 g k ∧
      PassRuns arm F safe [.quantForeign, .quantForeign, .canonicalize] k g' ∧ ¬ k.Int8Left := by
  have hsp : conversionPasses true ranges = ((beforePacking ++ [.bitpackWeights, .foreign, .canonicalize, .fusePadding] ++
      [.quantForeign, .lceQuantize] ++ (if ranges then [.quantForeign, .lceQuantize] else []) ++ [.quantForeign]) ++
        [.lceQuantize]) ++ [.quantForeign, .quantForeign, .canonicalize] := by
    cases ranges <;> rfl
  rw [hsp] at h
  obtain ⟨k, h1, h2⟩ := passRuns_append h
  have hk := passes_ssa hF h1 hg
  exact ⟨_, k, hsp, h1, h2, finished_int8 (F := F) hk (runs_last rfl h1)⟩

/-- **C69, binarization in full.** During every conversion there is a moment, before the optimization passes, when no sign
is computed with float operators, and no convolution is left that could be binary, with or without padding by ones. -/
theorem C69_binarized_all {quant ranges : Bool} (hF : ForeignOk F) {g g' : Graph} (hg : g.Ssa)
    (h : PassRuns arm F safe (conversionPasses quant ranges) g g') :
    ∃ l1 l2 k, conversionPasses quant ranges = l1 ++ l2 ∧ PassRuns arm F safe l1 g k ∧ PassRuns arm F safe l2 k g' ∧
      PassKind.optimize ∉ l1 ∧ ¬ k.SignLeft ∧ ¬ k.FloatConvLeft arm ∧ ¬ k.OnePaddedConvLeft := by
  have hsp : conversionPasses quant ranges = [.foreign, .opRemoval, .canonicalize, .foreign, .prepare] ++
      ([.foreign, .canonicalize, .foreign, .optimize, .foreign, .optimize] ++ .bitpackWeights :: afterPacking quant ranges) := by
    rw [conversion_split]; rfl
  rw [hsp] at h
  obtain ⟨k, h1, h2⟩ := passRuns_append h
  have hk := passes_ssa hF h1 hg
  have hfin : k.Finished (PassKind.rules arm F .prepare) :=
    runs_last (ps := [.foreign, .opRemoval, .canonicalize, .foreign]) rfl h1
  exact ⟨_, _, k, hsp, h1, h2, by decide, finished_signs (F := F) hk hfin, finished_prepare (F := F) hk hfin,
    finished_onePadded (F := F) hk hfin⟩

end

/-! ### Graphs that still have something left -/

/-- The block of C61's example computes signs with Select. -/
example : exBlock.SignLeft := by
  refine .inr ⟨⟨5, .select, [2, 3, 4], some [1, 2, 2, 1]⟩, by simp [exBlock], 2, 3, 4, ⟨[], [1]⟩, ⟨[], [-1]⟩, _, rfl, rfl, rfl,
    ⟨⟨3, .const (.f ⟨[], [1]⟩), [], some []⟩, by simp [exBlock], rfl, rfl, rfl⟩,
    ⟨⟨4, .const (.f ⟨[], [-1]⟩), [], some []⟩, by simp [exBlock], rfl, rfl, rfl⟩, .inl ⟨by simp, by simp⟩⟩

/-- A 3 * 3 filter with weights of magnitude 2 over a binary 3 * 3 image padded with ones. -/
def onePadded : Graph where
  nodes := [
    ⟨0, .arg 0, [], some [1, 3, 3, 1]⟩,
    ⟨1, .lquant, [0], some [1, 3, 3, 1]⟩,
    ⟨2, .ldequant, [1], some [1, 3, 3, 1]⟩,
    ⟨3, .const (.i ⟨[4, 2], [0, 0, 1, 1, 1, 1, 0, 0]⟩), [], some [4, 2]⟩,
    ⟨4, .const (.f ⟨[], [1]⟩), [], some []⟩,
    ⟨5, .pad, [2, 3, 4], some [1, 5, 5, 1]⟩,
    ⟨6, .const (.f ⟨[3, 3, 1, 1], [2, -2, 2, 2, -2, 2, -2, -2, 2]⟩), [], some [3, 3, 1, 1]⟩,
    ⟨7, .conv2d ⟨1, 1, 1, 1, .valid⟩, [5, 6], some [1, 3, 3, 1]⟩]
  outs := [7]

theorem onePadded_weights : ∀ h < 3, ∀ w < 3, |([2, -2, 2, 2, -2, 2, -2, -2, 2] : List Rat).getD (h * 3 + w) 0| = 2 := by
  decide +kernel

example : onePadded.Ssa ∧ onePadded.OnePaddedConvLeft := by
  refine ⟨ssa_of_check (by decide) (by decide), ⟨7, .conv2d ⟨1, 1, 1, 1, .valid⟩, [5, 6], some [1, 3, 3, 1]⟩, by simp [onePadded],
    ⟨5, .pad, [2, 3, 4], some [1, 5, 5, 1]⟩, by simp [onePadded], ⟨2, .ldequant, [1], some [1, 3, 3, 1]⟩, by simp [onePadded],
    ⟨1, .lquant, [0], some [1, 3, 3, 1]⟩, by simp [onePadded], ⟨1, 1, 1, 1, .valid⟩, 6, 3, 4, 1, 3, 3, 1, 1, 3, 3, 1, 1, 3, 3, 1,
    3, 3, 1, 1, [2, -2, 2, 2, -2, 2, -2, -2, 2], ⟨[], [1]⟩, 1, 1, 1, 1, rfl, rfl, rfl, rfl, rfl, rfl, rfl, rfl, rfl,
    ⟨⟨6, .const (.f ⟨[3, 3, 1, 1], [2, -2, 2, 2, -2, 2, -2, -2, 2]⟩), [], some [3, 3, 1, 1]⟩, by simp [onePadded], rfl, rfl, rfl⟩,
    ?_, by decide, .inl rfl, rfl, ⟨⟨4, .const (.f ⟨[], [1]⟩), [], some []⟩, by simp [onePadded], rfl, rfl, rfl⟩, rfl,
    ⟨⟨3, .const (.i ⟨[4, 2], [0, 0, 1, 1, 1, 1, 0, 0]⟩), [], some [4, 2]⟩, by simp [onePadded], rfl, rfl, rfl⟩,
    ⟨by decide, by decide, by decide, .inl rfl⟩, ⟨by decide, by decide, by decide, .inl rfl⟩⟩
  intro i j k o h1 h2 h3 h4
  have hk : k = 0 := by omega
  have ho : o = 0 := by omega
  subst hk ho
  have e1 := onePadded_weights i h1 j h2
  have e2 := onePadded_weights 0 (by decide) 0 (by decide)
  simp only [Nat.mul_one, Nat.add_zero] at *
  rw [e1]
  rw [show (0 * 3 : Nat) = 0 from rfl] at e2
  rw [e2]
  exact ⟨rfl, by norm_num⟩

/-- Zero padding before a TFLite convolution, and an LceQuantize after a Dequantize. -/
def zeroPadded : Graph where
  nodes := [
    ⟨0, .arg 0, [], some [1, 3, 3, 1]⟩,
    ⟨1, .const (.i ⟨[4, 2], [0, 0, 1, 1, 1, 1, 0, 0]⟩), [], some [4, 2]⟩,
    ⟨2, .pad, [0, 1], some [1, 5, 5, 1]⟩,
    ⟨3, .arg 1, [], some [1, 3, 3, 1]⟩,
    ⟨4, .arg 2, [], some [1]⟩,
    ⟨5, .tflConv ⟨1, 1, 1, 1, .valid⟩ .none false, [2, 3, 4], some [1, 3, 3, 1]⟩,
    ⟨6, .tquant 1 0, [5], some [1, 3, 3, 1]⟩,
    ⟨7, .tdequant, [6], some [1, 3, 3, 1]⟩,
    ⟨8, .lquant, [7], some [1, 3, 3, 1]⟩]
  outs := [8]

example : zeroPadded.Ssa ∧ zeroPadded.ZeroPaddedConvLeft ∧ zeroPadded.Int8Left := by
  refine ⟨ssa_of_check (by decide) (by decide), ⟨⟨5, .tflConv ⟨1, 1, 1, 1, .valid⟩ .none false, [2, 3, 4], some [1, 3, 3, 1]⟩,
    by simp [zeroPadded], ⟨2, .pad, [0, 1], some [1, 5, 5, 1]⟩, by simp [zeroPadded], ⟨0, .arg 0, [], some [1, 3, 3, 1]⟩,
    by simp [zeroPadded], ⟨1, 1, 1, 1, .valid⟩, .none, false, 3, 4, 1, [], 1, 3, 3, 1, 1, 3, 3, 1, 1, 1, 1, 1, rfl, rfl, rfl, rfl,
    rfl, rfl, by decide, rfl,
    ⟨⟨1, .const (.i ⟨[4, 2], [0, 0, 1, 1, 1, 1, 0, 0]⟩), [], some [4, 2]⟩, by simp [zeroPadded], rfl, rfl, rfl⟩, .inl rfl,
    ⟨by decide, by decide, by decide, .inl rfl⟩, ⟨by decide, by decide, by decide, .inl rfl⟩⟩,
    .inr (.inr (.inl ⟨⟨8, .lquant, [7], some [1, 3, 3, 1]⟩, by simp [zeroPadded], ⟨7, .tdequant, [6], some [1, 3, 3, 1]⟩,
      by simp [zeroPadded], 6, rfl, rfl, by decide, rfl, rfl⟩))⟩

end Verif.Ir
