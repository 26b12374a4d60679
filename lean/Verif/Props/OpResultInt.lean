import Verif.Props.OpResult
import Verif.Props.Indirect
import Verif.Props.BGemm

/-! C47 for int8 and bitpacked outputs. -/

namespace Verif

/-- The reference kernel, int8 output. -/
theorem evalRefInt8_eq (rnd : Rat → Int) {p : BConv} {inp filt : List Word} {act : Act} {mult bias : List Rat} {scale zp : Rat}
    {out0 : List Int} (hok : p.Ok inp filt) (heven : p.zeroPadding = true → p.cinG % 2 = 0) (hs : scale ≠ 0)
    (hm : mult.length = p.cout) (hb : bias.length = p.cout)
    (hK : 2 * (p.filtH * p.filtW * (p.cin / p.groups)) < 2147483648)
    (hfit : ∀ a c : Nat, a ≤ p.K → c < p.cout →
      Fits32 (rnd (((act.apply ((p.K : Int) - 2 * a) : Int) * mult.getD c 0 + bias.getD c 0) / scale + zp)))
    (hout : out0.length = p.batches * p.outH * p.outW * p.cout) :
    ∃ t out, otSetup p act mult bias scale zp = some t ∧
      (∀ a c, a ≤ p.K → c < p.cout → (t.runInt8 rnd a c).isSome) ∧
      evalRefInt8 rnd p act mult bias scale zp inp filt out0 = some out ∧ out.length = out0.length ∧
      ∀ b y x c, b < p.batches → y < p.outH → x < p.outW → c < p.cout →
        out[((b * p.outH + y) * p.outW + x) * p.cout + c]?
          = some (clampInt8 (rnd (((act.apply (p.conv p.padVal inp filt b y x c) : Int) * mult.getD c 0
              + bias.getD c 0) / scale + zp))) := by
  obtain ⟨t, ht, hlin⟩ := linear_eq (p := p) (act := act) (scale := scale) (zp := zp) hm hb hs hK
  have hrun : ∀ a c, a ≤ p.K → c < p.cout → t.runInt8 rnd a c = some (clampInt8 (rnd
      (((act.apply ((p.K : Int) - 2 * a) : Int) * mult.getD c 0 + bias.getD c 0) / scale + zp))) := by
    intro a c ha hc
    unfold OTParams.runInt8
    simp only [hlin a c ha hc, Option.bind_eq_bind, Option.bind_some, chk32, if_pos (hfit a c ha hc), saturate_eq]
  obtain ⟨out, h1, h2, h3⟩ := bconvReference_eq hok.groups_pos hok.cout_div hok.depth hok.inLen
    hok.filtLen (fun b oy ox oc hb hoc => BConv.accRef_le hok heven hb hoc) hrun hout
  refine ⟨t, out, ht, fun a c ha hc => by rw [hrun a c ha hc]; rfl, ?_, by rw [h2, hout], ?_⟩
  · unfold evalRefInt8
    simp only [ht, Option.bind_eq_bind, Option.bind_some]
    exact h1
  · intro b y x c hb hy hx hc
    have := h3 b y x c hb hy hx hc
    unfold offset4 at this
    rw [this, BConv.accRef_eq_conv hok heven hb hc]

/-- What a correct int8 output is: `activation(conv) * multiplier + bias`, divided by the scale, plus the zero point,
rounded and saturated. -/
def Int8Result (rnd : Rat → Int) (n : Node) (a : Attrs) (p : BConv) (inp : List Word) (out : List Int) : Prop :=
  ∀ b y x c, b < p.batches → y < p.outH → x < p.outW → c < p.cout →
    out[((b * p.outH + y) * p.outW + x) * p.cout + c]?
      = some (clampInt8 (rnd (((a.act.apply (p.conv a.padded inp n.filtData b y x c) : Int) * n.multData.getD c 0
          + n.biasData.getD c 0) / n.scale + n.zp)))

/-- No value the convolution can take overflows the conversion to int32 (for `k` summands of ±1 per output element). -/
def Int8Range (rnd : Rat → Int) (n : Node) (a : Attrs) (k cout : Nat) : Prop :=
  ∀ (z : Int) (c : Nat), |z| ≤ k → c < cout →
    -2147483648 ≤ rnd (((a.act.apply z : Int) * n.multData.getD c 0 + n.biasData.getD c 0) / n.scale + n.zp) ∧
    rnd (((a.act.apply z : Int) * n.multData.getD c 0 + n.biasData.getD c 0) / n.scale + n.zp) < 2147483648

section
variable {n : Node} {a : Attrs} {e : InputDesc} {inp : List Word} {b h w cout fh fw fd g : Nat}

/-- The zero-padding condition of accepted nodes with the reference kernel. -/
theorem reference_even (ha : n.attrs = some a) (hk : n.kt = .reference) {r : Prepared}
    (hr : prepare n e = .ok r) (hok : r.p.Ok inp n.filtData) (e9 : r.p.cin = a.cin) (e11 : r.p.padding = a.padding)
    (e10 : r.p.padValue = a.padValue) : r.p.zeroPadding = true → r.p.cinG % 2 = 0 := by
  intro hz
  apply cinG_even hok
  rw [e9]
  obtain ⟨a', _, ha', _, _, _, _, _, _, _, hzp, _⟩ := prepare_eq_ok.1 hr
  rw [ha] at ha'; cases ha'
  unfold BConv.zeroPadding at hz
  rw [e11, e10] at hz
  simp only [Bool.and_eq_true, decide_eq_true_eq] at hz
  unfold prepZeroPad at hzp
  rw [if_pos hz, hk] at hzp
  simpa using hzp

/-- The other kernels accept zero padding only for float output. -/
theorem opt_not_zero_padded (ha : n.attrs = some a) (hk : n.kt ≠ .reference) (hty : n.outType ≠ .float32) {r : Prepared}
    (hr : prepare n e = .ok r) : ¬ (a.padding = .same ∧ a.padValue = 0) := by
  intro hz
  obtain ⟨a', _, ha', _, _, _, _, _, _, _, hzp, _⟩ := prepare_eq_ok.1 hr
  rw [ha] at ha'; cases ha'
  unfold prepZeroPad at hzp
  rw [if_pos hz] at hzp
  simp [hk, hty] at hzp

theorem not_zero_padded (ht : TensorsOk n a e inp b h w cout fh fw fd g) {p : BConv} (e11 : p.padding = a.padding)
    (e10 : p.padValue = a.padValue) (hz : ¬ (a.padding = .same ∧ a.padValue = 0)) :
    p.padding = .valid ∨ p.padValue = 1 := by
  rw [e11, e10]
  rcases ht.padValue with h0 | h1
  · left
    cases hp : a.padding with
    | valid => rfl
    | same => exact absurd ⟨hp, h0⟩ hz
  · exact Or.inr h1

/-- One inference on a fresh interpreter, int8 output, any kernel. -/
theorem fresh_int8_any (ha : n.attrs = some a) (hty : n.outType = .int8) (hsc : 0 < n.scale)
    (ht : TensorsOk n a e inp b h w cout fh fw fd g)
    (hml : n.multData.length = cout) (hbl : n.biasData.length = cout) (c : RunCfg)
    (hrange : Int8Range c.rnd n a (fh * fw * (a.cin / g)) cout)
    {r : Prepared} {f : Machine} (hr : prepare n e = .ok r) (hf : freshMachine n e = some f)
    (hs : n.kt = .bgemm → Schedule cout (b * r.p.outH * r.p.outW) 1 1 c.blocks)
    {out0 : List Int} (hout : out0.length = b * r.p.outH * r.p.outW * cout) :
    ∃ out, output n c f inp (.i out0) = some (.i out) ∧ out.length = out0.length ∧
      Int8Result c.rnd n a r.p inp out := by
  obtain ⟨hok, hgeo, hg, hK⟩ := ht.facts ha hr
  obtain ⟨_, _, ⟨e1, e2, e3, e4⟩, ⟨e5, e6, e7, e8⟩, ⟨s1, s2, d1, d2, e11, e10, e9⟩, _, _, _, _, hgb, _⟩ :=
    C21_prepare_result ha ht.dims ht.fdims hr
  have hml' : n.multData.length = r.p.cout := by rw [e5]; exact hml
  have hbl' : n.biasData.length = r.p.cout := by rw [e5]; exact hbl
  have hout' : out0.length = r.p.batches * r.p.outH * r.p.outW * r.p.cout := by rw [e1, e5]; exact hout
  obtain ⟨p1, p2, p3, p4, p5, p6⟩ := ht.pos
  have hKe : r.p.K = fh * fw * (a.cin / g) := by unfold BConv.K BConv.cinG; rw [e6, e7, e9, hg]
  have hfit : ∀ A C : Nat, A ≤ r.p.K → C < r.p.cout →
      Fits32 (c.rnd (((a.act.apply ((r.p.K : Int) - 2 * A) : Int) * n.multData.getD C 0 + n.biasData.getD C 0)
        / n.scale + n.zp)) := by
    intro A C hA hC
    exact hrange _ C (by rw [← hKe, abs_le]; omega) (by rw [← e5]; exact hC)
  obtain ⟨pb, hpb⟩ := zpSetup_ok hok hml'
  have heven : r.p.zeroPadding = true → r.p.cinG % 2 = 0 := by
    by_cases hk : n.kt = .reference
    · exact reference_even ha hk hr hok e9 e11 e10
    · intro hz
      unfold BConv.zeroPadding at hz
      rw [e11, e10] at hz
      simp only [Bool.and_eq_true, decide_eq_true_eq] at hz
      exact absurd hz (opt_not_zero_padded ha hk (by rw [hty]; decide) hr)
  obtain ⟨t, out, ht1, hsome, h1, h2, h3⟩ := evalRefInt8_eq c.rnd (act := a.act) (scale := n.scale) (zp := n.zp) hok heven
    hsc.ne' hml' hbl' hK hfit hout'
  rw [padVal_of_prepared e11 e10] at h3
  refine ⟨out, ?_, h2, h3⟩
  rw [fresh_output ha hr hf, setupVals_new, hpb]
  simp only [Option.bind_some, hty, or_true, if_true, ht1, Option.map_some]
  cases hk : n.kt with
  | reference =>
    unfold evalRefInt8 at h1
    simp only [ht1, Option.bind_eq_bind, Option.bind_some] at h1
    simp only [evalRef, hty, h1, Option.map_some]
  | bgemm =>
    have hpad := not_zero_padded ht e11 e10 (opt_not_zero_padded ha (by rw [hk]; decide) (by rw [hty]; decide) hr)
    have hg1 : r.p.groups = 1 := by
      by_contra hne
      exact (hgb hne).1 hk
    obtain ⟨o, o1, o2⟩ := C14_int8 c.rnd (p := r.p) (act := a.act) hok hg1 hgeo hpad (by rw [e5]; exact p2) ht1 hsome c.fat
      (blocks := c.blocks) (by rw [e1, e5]; exact hs hk) hout' hout'
    rw [h1] at o2; cases o2
    unfold evalBGemmInt8 at o1
    simp only [ht1, Option.bind_eq_bind, Option.bind_some] at o1
    simp only [evalBGemm, hty, o1, Option.map_some]
  | indirect =>
    have hpad := not_zero_padded ht e11 e10 (opt_not_zero_padded ha (by rw [hk]; decide) (by rw [hty]; decide) hr)
    obtain ⟨o, o1, o2⟩ := C12_int8 c.rnd (p := r.p) (act := a.act) hok hpad (by rw [e6]; exact p3) (by rw [e7]; exact p4)
      (by rw [e9]; exact p1) (by rw [e5]; exact p2) ht1 hsome hout' hout'
    rw [h1] at o2; cases o2
    unfold evalIndInt8 bconvIndirect at o1
    simp only [ht1, Option.bind_eq_bind, Option.bind_some] at o1
    obtain ⟨K, hK1, o1⟩ := Option.bind_eq_some_iff.1 o1
    simp only [evalIndirect, OpData.new, hty, hK1, if_true, o1, Option.map_some, Option.bind_eq_bind, Option.bind_some]

/-- **C47**, int8 output, reference and BGEMM kernels. -/
theorem C47_int8 (ha : n.attrs = some a) (hk : n.kt ≠ .indirect) (hty : n.outType = .int8) (hsc : 0 < n.scale)
    (i0 : InputDesc) (hist : List Call) {m : Machine}
    (hm : runHistory n (.resize i0 :: hist) Machine.new = some m)
    (ht : TensorsOk n a (currentDesc i0 hist) inp b h w cout fh fw fd g)
    (hml : n.multData.length = cout) (hbl : n.biasData.length = cout) (c : RunCfg)
    (hrange : Int8Range c.rnd n a (fh * fw * (a.cin / g)) cout) :
    ∃ r, prepare n (currentDesc i0 hist) = .ok r ∧
      ∀ out0 : List Int, out0.length = b * r.p.outH * r.p.outW * cout →
        (n.kt = .bgemm → Schedule cout (b * r.p.outH * r.p.outW) 1 1 c.blocks) →
        ∃ out, output n c m inp (.i out0) = some (.i out) ∧ out.length = out0.length ∧
          Int8Result c.rnd n a r.p inp out := by
  obtain ⟨f, hf, hout⟩ := C20_history n hk i0 hist m hm
  obtain ⟨r, hr, _⟩ := resize_eq_some.1 hf
  refine ⟨r, hr, fun out0 h0 hs => ?_⟩
  rw [hout]
  exact fresh_int8_any ha hty hsc ht hml hbl c hrange hr hf hs h0

/-- **C47**, int8 output, indirect kernel (partial as C20: the input keeps its shape and buffer after the first
inference). -/
theorem C47_indirect_int8_partial (ha : n.attrs = some a) (hk : n.kt = .indirect) (hty : n.outType = .int8)
    (hsc : 0 < n.scale)
    (rs ks : List Call) (hrs : ∀ k ∈ rs, k.isResize) (hks : ∀ k ∈ ks, k.keeps e) {m : Machine}
    (hm : runHistory n (rs ++ .resize e :: ks) Machine.new = some m)
    (ht : TensorsOk n a e inp b h w cout fh fw fd g)
    (hml : n.multData.length = cout) (hbl : n.biasData.length = cout) (c : RunCfg)
    (hrange : Int8Range c.rnd n a (fh * fw * (a.cin / g)) cout) :
    ∃ r, prepare n e = .ok r ∧
      ∀ out0 : List Int, out0.length = b * r.p.outH * r.p.outW * cout →
        ∃ out, output n c m inp (.i out0) = some (.i out) ∧ out.length = out0.length ∧
          Int8Result c.rnd n a r.p inp out := by
  obtain ⟨f, hf, hout⟩ := C20_indirect_partial n hk e rs ks hrs hks m hm
  obtain ⟨r, hr, _⟩ := resize_eq_some.1 hf
  refine ⟨r, hr, fun out0 h0 => ?_⟩
  rw [hout]
  exact fresh_int8_any ha hty hsc ht hml hbl c hrange hr hf (by rw [hk]; intro h; cases h) h0

/-- What a correct bitpacked output is: bit `c % 32` of word `c / 32` of a pixel is set exactly when the number of
disagreeing positions `(k - conv) / 2` exceeds the threshold of channel `c`; the unused bits are 0. -/
def BitsResult (n : Node) (a : Attrs) (p : BConv) (k : Nat) (inp out : List Word) : Prop :=
  IsPacked (p.batches * p.outH * p.outW) p.cout out ∧
  ∀ b y x c, b < p.batches → y < p.outH → x < p.outW → c < p.cout →
    ∃ w d, out[((b * p.outH + y) * p.outW + x) * ((p.cout + 31) / 32) + c / 32]? = some w ∧
      (k : Int) - 2 * d = p.conv a.padded inp n.filtData b y x c ∧
      (w.getLsbD (c % 32) = true ↔ d > n.thrData.getD c 0)

/-- One inference on a fresh interpreter, bitpacked output. With zero padding (reference kernel only) the node must
have a multiplier tensor (`C47_null_multiplier_witness`); the indirect kernel needs the output channels per group to be
a multiple of 4 (`C13_threshold_overread_witness`). -/
theorem fresh_bits_any (ha : n.attrs = some a) (hty : n.outType = .int32)
    (ht : TensorsOk n a e inp b h w cout fh fw fd g) (htl : n.thrData.length = cout)
    (hmult : a.padding = .same → a.padValue = 0 → n.multData.length = cout)
    (h4 : n.kt = .indirect → cout / g % 4 = 0 ∧ 2 * (32 * (fh * fw * fd)) < 2147483648)
    {r : Prepared} {f : Machine} (hr : prepare n e = .ok r) (hf : freshMachine n e = some f) (c : RunCfg)
    (hs : n.kt = .bgemm → Schedule cout (b * r.p.outH * r.p.outW) 32 1 c.blocks)
    {out0 : List Word} (hout : out0.length = b * r.p.outH * r.p.outW * ((cout + 31) / 32)) :
    ∃ out, output n c f inp (.w out0) = some (.w out) ∧
      BitsResult n a r.p (fh * fw * (a.cin / g)) inp out := by
  obtain ⟨hok, hgeo, hg, hK⟩ := ht.facts ha hr
  obtain ⟨_, _, ⟨e1, e2, e3, e4⟩, ⟨e5, e6, e7, e8⟩, ⟨s1, s2, d1, d2, e11, e10, e9⟩, _, _, _, _, hgb, _⟩ :=
    C21_prepare_result ha ht.dims ht.fdims hr
  have htl' : n.thrData.length = r.p.cout := by rw [e5]; exact htl
  have hout' : out0.length = r.p.batches * r.p.outH * r.p.outW * ((r.p.cout + 31) / 32) := by rw [e1, e5]; exact hout
  obtain ⟨p1, p2, p3, p4, p5, p6⟩ := ht.pos
  have hpb : ∃ pb, zpSetup r.p n.filtData n.multData = some pb := by
    by_cases hz : a.padding = .same ∧ a.padValue = 0
    · exact zpSetup_ok hok (by rw [e5]; exact hmult hz.1 hz.2)
    · unfold zpSetup
      have : r.p.zeroPadding = false := by
        unfold BConv.zeroPadding
        rw [e11, e10]
        by_cases h1 : a.padding = .same <;> by_cases h2 : a.padValue = 0 <;> simp_all
      rw [this]
      exact ⟨_, rfl⟩
  obtain ⟨pb, hpb⟩ := hpb
  have heven : r.p.padding = .same → r.p.padValue = 0 → r.p.cin % 2 = 0 := by
    intro h1 h2
    rw [e11] at h1; rw [e10] at h2; rw [e9]
    by_cases hk : n.kt = .reference
    · obtain ⟨a', _, ha', _, _, _, _, _, _, _, hzp, _⟩ := prepare_eq_ok.1 hr
      rw [ha] at ha'; cases ha'
      unfold prepZeroPad at hzp
      rw [if_pos ⟨h1, h2⟩, hk] at hzp
      simpa using hzp
    · exact absurd ⟨h1, h2⟩ (opt_not_zero_padded ha hk (by rw [hty]; decide) hr)
  obtain ⟨out, h1, h2, h3⟩ := C11_reference_bitpacked hok heven htl' hK hout'
  rw [padVal_of_prepared e11 e10, e6, e7, e9, hg] at h3
  refine ⟨out, ?_, h2, h3⟩
  rw [fresh_output ha hr hf, setupVals_new, hpb]
  simp only [Option.bind_some, hty, or_self, reduceCtorEq, if_false]
  cases hk : n.kt with
  | reference =>
    unfold evalRefBits at h1
    simp only [evalRef, hty, h1, Option.map_some]
  | bgemm =>
    have hpad := not_zero_padded ht e11 e10 (opt_not_zero_padded ha (by rw [hk]; decide) (by rw [hty]; decide) hr)
    have hg1 : r.p.groups = 1 := by
      by_contra hne
      exact (hgb hne).1 hk
    obtain ⟨o, o1, o2⟩ := C15_thresholds (p := r.p) hok hg1 hgeo hpad htl' (by rw [hg1, Nat.div_one] at hK; omega) c.fat
      (blocks := c.blocks) (by rw [e1, e5]; exact hs hk) hout' hout'
    rw [h1] at o2; cases o2
    unfold evalBGemmBits at o1
    simp only [evalBGemm, hty, o1, Option.map_some]
  | indirect =>
    have hpad := not_zero_padded ht e11 e10 (opt_not_zero_padded ha (by rw [hk]; decide) (by rw [hty]; decide) hr)
    obtain ⟨q1, q2⟩ := h4 hk
    obtain ⟨o, o1, o2⟩ := C13_thresholds_partial (p := r.p) hok hpad (by rw [e6]; exact p3) (by rw [e7]; exact p4)
      (by rw [e9]; exact p1) (by rw [e5]; exact p2) htl' (by rw [e5, hg]; exact q1) (by rw [e6, e7, e8]; exact q2) hout' hout'
    rw [h1] at o2; cases o2
    unfold evalIndBits bconvIndirectBits at o1
    simp only [Option.bind_eq_bind] at o1
    obtain ⟨K, hK1, o1⟩ := Option.bind_eq_some_iff.1 o1
    simp only [evalIndirect, OpData.new, hty, hK1, if_true, o1, Option.map_some, Option.bind_eq_bind, Option.bind_some]

/-- **C47**, bitpacked output, reference and BGEMM kernels (partial: with zero padding the node must have a multiplier
tensor, see `C47_null_multiplier_witness`). -/
theorem C47_bitpacked_partial (ha : n.attrs = some a) (hk : n.kt ≠ .indirect) (hty : n.outType = .int32)
    (i0 : InputDesc) (hist : List Call) {m : Machine}
    (hm : runHistory n (.resize i0 :: hist) Machine.new = some m)
    (ht : TensorsOk n a (currentDesc i0 hist) inp b h w cout fh fw fd g) (htl : n.thrData.length = cout)
    (hmult : a.padding = .same → a.padValue = 0 → n.multData.length = cout) (c : RunCfg) :
    ∃ r, prepare n (currentDesc i0 hist) = .ok r ∧
      ∀ out0 : List Word, out0.length = b * r.p.outH * r.p.outW * ((cout + 31) / 32) →
        (n.kt = .bgemm → Schedule cout (b * r.p.outH * r.p.outW) 32 1 c.blocks) →
        ∃ out, output n c m inp (.w out0) = some (.w out) ∧
          BitsResult n a r.p (fh * fw * (a.cin / g)) inp out := by
  obtain ⟨f, hf, hout⟩ := C20_history n hk i0 hist m hm
  obtain ⟨r, hr, _⟩ := resize_eq_some.1 hf
  refine ⟨r, hr, fun out0 h0 hs => ?_⟩
  rw [hout]
  exact fresh_bits_any ha hty ht htl hmult (fun h => absurd h hk) hr hf c hs h0

/-- **C47**, bitpacked output, indirect kernel (partial as C13 and C20). -/
theorem C47_indirect_bitpacked_partial (ha : n.attrs = some a) (hk : n.kt = .indirect) (hty : n.outType = .int32)
    (rs ks : List Call) (hrs : ∀ k ∈ rs, k.isResize) (hks : ∀ k ∈ ks, k.keeps e) {m : Machine}
    (hm : runHistory n (rs ++ .resize e :: ks) Machine.new = some m)
    (ht : TensorsOk n a e inp b h w cout fh fw fd g) (htl : n.thrData.length = cout)
    (h4 : cout / g % 4 = 0) (hb32 : 2 * (32 * (fh * fw * fd)) < 2147483648) (c : RunCfg) :
    ∃ r, prepare n e = .ok r ∧
      ∀ out0 : List Word, out0.length = b * r.p.outH * r.p.outW * ((cout + 31) / 32) →
        ∃ out, output n c m inp (.w out0) = some (.w out) ∧
          BitsResult n a r.p (fh * fw * (a.cin / g)) inp out := by
  obtain ⟨f, hf, hout⟩ := C20_indirect_partial n hk e rs ks hrs hks m hm
  obtain ⟨r, hr, _⟩ := resize_eq_some.1 hf
  refine ⟨r, hr, fun out0 h0 => ?_⟩
  rw [hout]
  have hz := opt_not_zero_padded ha (by rw [hk]; decide) (by rw [hty]; decide) hr
  exact fresh_bits_any ha hty ht htl (fun h1 h2 => absurd ⟨h1, h2⟩ hz) (fun _ => ⟨h4, hb32⟩) hr hf c
    (by rw [hk]; intro h; cases h) h0

end

/-- An int8 node: two input channels, one 1x1 filter, multiplier 1/2, bias 3, scale 1/4, zero point -5. -/
def int8Node : Node :=
  { kt := .bgemm, attrs := some ⟨1, 1, 1, 1, .valid, 1, 2, .relu⟩, nInputs := 5, inType := .int32,
    filter := ⟨.int32, [1, 1, 1, 1]⟩, filtData := [0#32],
    mult := some ⟨.float32, [1]⟩, multData := [1 / 2], bias := some ⟨.float32, [1]⟩,
    biasData := [3], thr := none, thrData := [], outType := .int8, outAffine := true,
    scale := 1 / 4, zp := -5 }

/-- Non-vacuity: the int8 node is accepted and meets the hypotheses of `C47_int8`. -/
example : (∃ r, prepare int8Node onePixel = .ok r) ∧
    TensorsOk int8Node ⟨1, 1, 1, 1, .valid, 1, 2, .relu⟩ onePixel [1#32] 1 1 1 1 1 1 1 1 ∧
    Int8Range roundHalfAway int8Node ⟨1, 1, 1, 1, .valid, 1, 2, .relu⟩ 2 1 := by
  refine ⟨⟨_, rfl⟩, ⟨rfl, rfl, rfl, by decide, by decide, rfl, rfl, ?_, ?_, by decide⟩, ?_⟩
  · intro q k c hq hk hc h
    simp only at hk h hq
    have : q = 0 ∧ k = 0 := by omega
    obtain ⟨rfl, rfl⟩ := this
    revert c; decide
  · intro q k c hq hk hc h
    simp only at hk h hq
    have : q = 0 ∧ k = 0 := by omega
    obtain ⟨rfl, rfl⟩ := this
    revert c; decide
  · intro z c hz hc
    have : c = 0 := by omega
    subst this
    have hz' : z = -2 ∨ z = -1 ∨ z = 0 ∨ z = 1 ∨ z = 2 := by rw [abs_le] at hz; omega
    rcases hz' with rfl | rfl | rfl | rfl | rfl <;> decide +kernel

end Verif
