import Verif.Proof.ExecGraph
import Verif.Props.ZeroPaddingFl
import Verif.Spec.ExecFlRel

/-! BConv2D and LceDequantize nodes in floating-point arithmetic: distance from the value of the graph. -/

namespace Verif.Ir

/-- The hypotheses of `bconvFlOk` for a convolution with `co` output channels and dot products of length `K`. -/
def FlHyp (ε : Rat) (K co : Nat) (m b : List Rat) : Prop :=
  2 * K ≤ 2 ^ 24 ∧
    ((∀ c, c < co → Binary32 (m.getD c 0) ∧ |b.getD c 0| + 4 * ((K : Rat) * |m.getD c 0|) ≤ 2 ^ (125 : Int) ∧
        (|b.getD c 0| + (K : Rat) * |m.getD c 0|) * (8 / 2 ^ 24) + 2 ^ (-146 : Int) ≤ ε) ∨
      (∀ c, c < co → DyadicPair K (m.getD c 0) (b.getD c 0)))

section
variable {p : BConv} {inp filt : List Word} {act : Act} {R : FlEnv} {ε : Rat}

theorem ref_near (h32 : RoundsToNearest R.fl) (h64 : RoundsToNearest64 R.dl) {mult bias out0 : List Rat} (he : 0 ≤ ε)
    (hok : p.Ok inp filt) (heven : p.padding = .same → p.padValue = 0 → p.cin % 2 = 0)
    (hm : mult.length = p.cout) (hb : bias.length = p.cout)
    (hh : FlHyp ε (p.filtH * p.filtW * (p.cin / p.groups)) p.cout mult bias)
    (hout : out0.length = p.batches * p.outH * p.outW * p.cout) :
    ∃ out, evalRefFloatFl R p act mult bias inp filt out0 = some out ∧ out.length = out0.length ∧
      ∀ b y x c, b < p.batches → y < p.outH → x < p.outW → c < p.cout →
        ∃ v, out[((b * p.outH + y) * p.outW + x) * p.cout + c]? = some v ∧
          |v - ((act.apply (p.conv p.padVal inp filt b y x c) : Int) * mult.getD c 0 + bias.getD c 0)| ≤ ε := by
  obtain ⟨hK, h1 | h1⟩ := hh
  · obtain ⟨out, e1, e2, e3⟩ := C58_float_error (act := act) h32 h64 hok heven hm hb hK (fun c hc => (h1 c hc).1)
      (fun c hc => (h1 c hc).2.1) hout
    refine ⟨out, e1, e2, fun b y x c hb' hy hx hc => ?_⟩
    obtain ⟨v, v1, v2⟩ := e3 b y x c hb' hy hx hc
    refine ⟨v, v1, le_trans v2 (le_trans ?_ (h1 c hc).2.2)⟩
    have : (2 : Rat) ^ (-147 : Int) ≤ 2 ^ (-146 : Int) := zpow_le_zpow_right₀ (by norm_num) (by norm_num)
    have : 0 ≤ |bias.getD c 0| + ((p.filtH * p.filtW * (p.cin / p.groups) : Nat) : Rat) * |mult.getD c 0| := by positivity
    linarith
  · obtain ⟨out, e1, e2, e3⟩ := C58_float_exact (act := act) h32 h64 hok heven hm hb hK h1 hout
    refine ⟨out, e1, e2, fun b y x c hb' hy hx hc => ⟨_, e3 b y x c hb' hy hx hc, ?_⟩⟩
    rw [sub_self, abs_zero]
    exact he

theorem opt_near (h32 : RoundsToNearest R.fl) (h64 : RoundsToNearest64 R.dl) {mult bias out0 : List Rat} (he : 0 ≤ ε)
    (hok : p.Ok inp filt) (hgeo : p.Geom) (hsame : p.padding = .same)
    (hz : p.padValue = 0) (hsh : 1 ≤ p.strideH) (hsw : 1 ≤ p.strideW)
    (hfh : 0 < p.filtH) (hfw : 0 < p.filtW) (hci : 0 < p.cin) (hco : 0 < p.cout)
    (hm : mult.length = p.cout) (hb : bias.length = p.cout)
    (hh : FlHyp ε (p.filtH * p.filtW * (p.cin / p.groups)) p.cout mult bias)
    (hcor : ∀ y x, y < p.outH → x < p.outW → p.Corrected y x)
    (h0 : out0.length = p.batches * p.outH * p.outW * p.cout) :
    ∃ out, evalIndFloatFl R p .none mult bias inp filt out0 = some out ∧
      (p.groups = 1 → ∀ (fat : Bool) (blocks : List Blk) (order : List (Write Rat) → List (Write Rat)),
        Schedule p.cout (p.batches * p.outH * p.outW) 1 1 blocks → (∀ l, (order l).Perm l) →
        evalBGemmFloatFl R p fat blocks order .none mult bias inp filt out0 = some out) ∧
      out.length = out0.length ∧
      ∀ b y x c, b < p.batches → y < p.outH → x < p.outW → c < p.cout →
        ∃ v, out[((b * p.outH + y) * p.outW + x) * p.cout + c]? = some v ∧
          |v - ((p.conv p.padVal inp filt b y x c : Int) * mult.getD c 0 + bias.getD c 0)| ≤ ε := by
  have hp : p.padVal = 0 := by unfold BConv.padVal BConv.zeroPadding; simp [hsame, hz]
  rw [hp]
  obtain ⟨hK, h1 | h1⟩ := hh
  · obtain ⟨out, e1, e2, e3, e4⟩ := C73_float_error h32 h64 hok hgeo hsame hz hsh hsw hfh hfw hci hco hm hb hK
      (fun c hc => (h1 c hc).1) (fun c hc => (h1 c hc).2.1) h0
    refine ⟨out, e1, e2, e3, fun b y x c hb' hy hx hc => ?_⟩
    obtain ⟨v, v1, v2⟩ := e4 b y x c hb' hy hx hc
    rw [if_pos (hcor y x hy hx)] at v2
    exact ⟨v, v1, le_trans v2 (h1 c hc).2.2⟩
  · obtain ⟨out, e1, e2, e3, e4⟩ := C73_float_exact h32 h64 hok hgeo hsame hz hsh hsw hfh hfw hci hco hm hb hK h1 h0
    refine ⟨out, e1, e2, e3, fun b y x c hb' hy hx hc => ⟨_, e4 b y x c hb' hy hx hc, ?_⟩⟩
    rw [if_pos (hcor y x hy hx), sub_self, abs_zero]
    exact he

/-- The corrections for zero padding can be computed. -/
theorem zpSetup_some (h32 : RoundsToNearest R.fl) {mult : List Rat} (hok : p.Ok inp filt) (hm : mult.length = p.cout)
    (hK : 2 * p.K ≤ 2 ^ 24) : ∃ cache, zpSetupFl R p filt mult = some cache := by
  unfold zpSetupFl
  split
  · obtain ⟨cache, _, h, _⟩ := zpCacheWith_eq (zpExact_fl h32) hok hK hm (cache0 := List.replicate (zpCacheSize p) 0) (by simp)
    exact ⟨cache, h⟩
  · exact ⟨[], rfl⟩

/-- Without zero padding all kernels write what the reference kernel writes. -/
theorem kernelFloat_eq_reference {F : FlCfg} (hF : F.Proper) {mult bias out0 : List Rat}
    (hok : p.Ok inp filt) (hgeo : p.Geom) (hpad : p.padding = .valid ∨ p.padValue = 1)
    (hfh : 0 < p.filtH) (hfw : 0 < p.filtW) (hci : 0 < p.cin) (hco : 0 < p.cout)
    (hm : mult.length = p.cout) (hb : bias.length = p.cout)
    (hK : 2 * (p.filtH * p.filtW * (p.cin / p.groups)) < 2147483648) {kt : KernelType} {nm : Nat} {fat : Bool} {blocks : List Blk}
    (hg : kt = .bgemm → p.groups = 1 ∧ Schedule p.cout (p.batches * p.outH * p.outW) 1 1 blocks)
    (h0 : out0.length = p.batches * p.outH * p.outW * p.cout) :
    kernelFloatFl F kt nm fat blocks p act mult bias inp filt out0 = evalRefFloatFl F.R p act mult bias inp filt out0 := by
  have hz : p.zeroPadding = false := zeroPadding_false hpad
  obtain ⟨t, ht, _, _, hrun⟩ := runFloatFl_eq (R := F.R) (p := p) (act := act) (scale := 1) (zp := 0) hm hb hK
  have hsome : ∀ a c, a ≤ p.filtH * p.filtW * (p.cin / p.groups) → c < p.cout → (t.runFloatFl F.R a c).isSome := by
    intro a c ha hc
    rw [hrun a c ha hc]; rfl
  cases kt with
  | reference => simp only [kernelFloatFl, zpSetupFl, hz, Bool.false_eq_true, if_false, Option.bind_some]
  | indirect =>
    obtain ⟨out, e1, e2⟩ := C12_indirect_eq_reference hok hpad hfh hfw hci hco hsome h0 h0
    simp only [kernelFloatFl, evalIndFloatFl, evalRefFloatFl, zpSetupFl, zpFinishFl, hz, Bool.false_eq_true, if_false, ht,
      Option.bind_eq_bind, Option.bind_some, e1, e2]
  | bgemm =>
    obtain ⟨hg1, hs⟩ := hg rfl
    obtain ⟨trs, out, f1, f2, f3⟩ := C14_bgemm_eq_reference hok hg1 hgeo hpad hco hsome fat hs h0 h0
    simp only [kernelFloatFl, evalBGemmFloatFl, evalRefFloatFl, zpSetupFl, zpFinishFl, hz, Bool.false_eq_true, if_false, ht,
      Option.bind_eq_bind, Option.bind_some, f1, f2, f3 _ (hF.order nm _)]

/-- The same for int8 results. -/
theorem kernelInt8_eq_reference {F : FlCfg} (hF : F.Proper) {mult bias : List Rat} {scale zp : Rat} {out0 out : List Int}
    (hok : p.Ok inp filt) (hgeo : p.Geom) (hpad : p.padding = .valid ∨ p.padValue = 1)
    (hfh : 0 < p.filtH) (hfw : 0 < p.filtW) (hci : 0 < p.cin) (hco : 0 < p.cout)
    (hrun : ∀ t, otSetupFl F.R p act mult bias scale zp = some t → ∀ a c, a ≤ p.filtH * p.filtW * (p.cin / p.groups) →
      c < p.cout → (t.runInt8Fl F.R F.rnd a c).isSome) {kt : KernelType} {nm : Nat} {fat : Bool} {blocks : List Blk}
    (hg : kt = .bgemm → p.groups = 1 ∧ Schedule p.cout (p.batches * p.outH * p.outW) 1 1 blocks)
    (h0 : out0.length = p.batches * p.outH * p.outW * p.cout)
    (he : evalRefInt8Fl F.R F.rnd p act mult bias scale zp inp filt out0 = some out) :
    kernelInt8Fl F kt nm fat blocks p act mult bias scale zp inp filt out0 = some out := by
  have hz : p.zeroPadding = false := zeroPadding_false hpad
  unfold kernelInt8Fl zpSetupFl
  rw [hz]
  simp only [Bool.false_eq_true, if_false, Option.bind_some]
  cases kt with
  | reference => exact he
  | indirect =>
    unfold evalRefInt8Fl at he
    simp only [Option.bind_eq_bind] at he
    obtain ⟨t, ht, he⟩ := Option.bind_eq_some_iff.1 he
    obtain ⟨out', e1, e2⟩ := C12_indirect_eq_reference hok hpad hfh hfw hci hco (hrun t ht) h0 h0
    rw [he] at e2; cases e2
    simp only [ht, Option.bind_eq_bind, Option.bind_some, e1]
  | bgemm =>
    unfold evalRefInt8Fl at he
    simp only [Option.bind_eq_bind] at he
    obtain ⟨t, ht, he⟩ := Option.bind_eq_some_iff.1 he
    obtain ⟨hg1, hs⟩ := hg rfl
    obtain ⟨trs, out', f1, f2, f3⟩ := C14_bgemm_eq_reference hok hg1 hgeo hpad hco (hrun t ht) fat hs h0 h0
    rw [he] at f2; cases f2
    simp only [ht, Option.bind_eq_bind, Option.bind_some, f1, f3 _ (hF.order nm _)]

end

section
variable {n : Verif.Node} {a : Attrs} {e : InputDesc} {inp : List Word} {b h w cout fh fw fd g : Nat} {F : FlCfg}

/-- Every kernel with float result, in a node that `Prepare` accepts. -/
theorem kernel_float_near (hF : F.Proper) (ha : n.attrs = some a) (hty : n.outType = .float32)
    (ht : TensorsOk n a e inp b h w cout fh fw fd g)
    (hml : n.multData.length = cout) (hbl : n.biasData.length = cout)
    {r : Prepared} (hr : prepare n e = .ok r)
    (hcor : n.kt ≠ .reference → a.padding = .same → a.padValue = 0 → ∀ y x, y < r.p.outH → x < r.p.outW → r.p.Corrected y x) {nm : Nat} {fat : Bool} {blocks : List Blk}
    (hs : n.kt = .bgemm → Schedule cout (b * r.p.outH * r.p.outW) 1 1 blocks)
    {ε : Rat} (he : 0 ≤ ε) (hh : FlHyp ε (fh * fw * (a.cin / g)) cout n.multData n.biasData)
    {out0 : List Rat} (hout : out0.length = b * r.p.outH * r.p.outW * cout) :
    ∃ out, kernelFloatFl F n.kt nm fat blocks r.p a.act n.multData n.biasData inp n.filtData out0 = some out ∧
      out.length = out0.length ∧
      ∀ b' y x c, b' < b → y < r.p.outH → x < r.p.outW → c < cout →
        ∃ v, out[((b' * r.p.outH + y) * r.p.outW + x) * cout + c]? = some v ∧
          |v - ((a.act.apply (r.p.conv a.padded inp n.filtData b' y x c) : Int) * n.multData.getD c 0 + n.biasData.getD c 0)| ≤ ε := by
  obtain ⟨hok, hgeo, hg, hK⟩ := ht.facts ha hr
  obtain ⟨_, _, ⟨e1, e2, e3, e4⟩, ⟨e5, e6, e7, e8⟩, ⟨s1, s2, d1, d2, e11, e10, e9⟩, _, _, _, _, hgb, _⟩ :=
    C21_prepare_result ha ht.dims ht.fdims hr
  have hml' : n.multData.length = r.p.cout := by rw [e5]; exact hml
  have hbl' : n.biasData.length = r.p.cout := by rw [e5]; exact hbl
  have hout' : out0.length = r.p.batches * r.p.outH * r.p.outW * r.p.cout := by rw [e1, e5]; exact hout
  obtain ⟨p1, p2, p3, p4, p5, p6⟩ := ht.pos
  have hh' : FlHyp ε (r.p.filtH * r.p.filtW * (r.p.cin / r.p.groups)) r.p.cout n.multData n.biasData := by
    rw [e6, e7, e9, hg, e5]; exact hh
  have hpv := padVal_of_prepared e11 e10
  have hgk : n.kt = .bgemm → r.p.groups = 1 := by
    intro hk
    by_contra hne
    exact (hgb hne).1 hk
  by_cases hz : a.padding = .same ∧ a.padValue = 0
  · by_cases hk : n.kt = .reference
    · obtain ⟨out, o1, o2, o3⟩ := ref_near (act := a.act) hF.f32 hF.f64 he hok (by
        intro _ _
        obtain ⟨a', _, ha', _, _, _, _, _, _, _, hzp, _⟩ := prepare_eq_ok.1 hr
        rw [ha] at ha'; cases ha'
        unfold prepZeroPad at hzp
        rw [if_pos hz, hk] at hzp
        rw [e9]
        simpa using hzp) hml' hbl' hh' hout'
      rw [hpv, e1, e5] at o3
      rw [hk]
      obtain ⟨cache, hca⟩ := zpSetup_some hF.f32 hok hml' hh'.1
      refine ⟨out, ?_, o2, o3⟩
      simp only [kernelFloatFl, hca, Option.bind_some, o1]
    · have hact : a.act = .none := by
        obtain ⟨a', _, ha', _, _, _, _, _, _, _, hzp, _⟩ := prepare_eq_ok.1 hr
        rw [ha] at ha'; cases ha'
        unfold prepZeroPad at hzp
        rw [if_pos hz] at hzp
        simp only [Bool.or_eq_true, Bool.and_eq_true, decide_eq_true_eq] at hzp
        rcases hzp with hzp | hzp
        · exact absurd hzp.1 hk
        · exact hzp.2
      obtain ⟨out, o1, o2, o3, o4⟩ := opt_near hF.f32 hF.f64 he hok hgeo (e11.trans hz.1) (e10.trans hz.2) (by omega) (by omega)
        (by omega) (by omega) (by omega) (by omega) hml' hbl' hh' (hcor hk hz.1 hz.2) hout'
      rw [hpv, e1, e5] at o4
      refine ⟨out, ?_, o3, ?_⟩
      · rw [hact]
        cases hkt : n.kt with
        | reference => exact absurd hkt hk
        | indirect => exact o1
        | bgemm => exact o2 (hgk hkt) _ _ _ (by rw [e1, e5]; exact hs hkt) (hF.order nm)
      · rw [hact]
        exact o4
  · have hpad := not_zero_padded ht e11 e10 hz
    obtain ⟨out, o1, o2, o3⟩ := ref_near (act := a.act) hF.f32 hF.f64 he hok (by
      intro q1 q2
      exact absurd ⟨e11.symm.trans q1, e10.symm.trans q2⟩ hz) hml' hbl' hh' hout'
    rw [hpv, e1, e5] at o3
    refine ⟨out, ?_, o2, o3⟩
    rw [kernelFloat_eq_reference hF hok hgeo hpad (by omega) (by omega) (by omega) (by omega) hml' hbl' hK
      (fun hk => ⟨hgk hk, by rw [e1, e5]; exact hs hk⟩) hout']
    exact o1

/-- The output transform to int8 does not overflow. -/
theorem runInt8Fl_isSome {p : BConv} {R : FlEnv} {act : Act} (h32 : RoundsToNearest R.fl) (h64 : RoundsToNearest64 R.dl)
    {rnd : Rat → Int} (hrnd : ∀ y : Rat, |(rnd y : Rat) - y| ≤ 1 / 2) {mult bias : List Rat} {scale zp : Rat}
    (hm : mult.length = p.cout) (hb : bias.length = p.cout) (hs : (2 : Rat) ^ (-40 : Int) ≤ scale) (hs2 : scale ≤ 2 ^ (40 : Int))
    (hK : 2 * p.K ≤ 2 ^ 24) (hK0 : 0 < p.K) (hmul : ∀ c, c < p.cout → Binary32 (mult.getD c 0))
    (hT : ∀ c, c < p.cout → (|bias.getD c 0| + (p.K : Rat) * |mult.getD c 0|) / scale + |zp| ≤ 2 ^ 20)
    {t : OTParams} (ht : otSetupFl R p act mult bias scale zp = some t) {a c : Nat} (ha : a ≤ p.K) (hc : c < p.cout) :
    (t.runInt8Fl R rnd a c).isSome := by
  obtain ⟨t', ht', _, _, hrun⟩ := runFloatFl_eq (R := R) (p := p) (act := act) (scale := scale) (zp := zp) hm hb
    (by show 2 * p.K < _; omega)
  rw [ht] at ht'; cases ht'
  unfold OTParams.runInt8Fl
  rw [hrun a c ha hc]
  simp only [Option.bind_eq_bind, Option.bind_some]
  obtain ⟨key, k4, _⟩ := int8_key (act := act) (R := R) h32 h64 hs hs2 hK hK0 hmul hT a c ha hc
  obtain ⟨k1, k2⟩ := key _ rfl
  have k3 := abs_of_sub k1
  have k5 := hrnd (flRun R.fl R.fused (((p.K : Int) - act.apply ((p.K : Int) - 2 * a) : Int) : Rat)
      (R.fl (R.dl (R.dl (-1 * mult.getD c 0) / scale)))
      (R.fl (R.dl (R.dl (R.dl (bias.getD c 0 + R.dl (((p.K : Int) : Rat) * mult.getD c 0)) / scale) + zp))))
  have k6 := abs_of_sub k5
  rw [← Int.cast_abs] at k6
  generalize rnd _ = r at *
  have k7 : (|r| : Int) ≤ 2 ^ 21 := by
    have e21 : ((2 ^ 21 : Int) : Rat) = 2097152 := by norm_num
    have e20 : (2 : Rat) ^ 20 = 1048576 := by norm_num
    rw [e20] at k2
    have : ((|r| : Int) : Rat) ≤ ((2 ^ 21 : Int) : Rat) := by rw [e21]; linarith
    exact_mod_cast this
  have k8 := abs_le.1 k7
  rw [chk32_eq (by omega) (by omega), Option.bind_some]
  rfl

/-- The convolution is between minus and plus the number of products. -/
theorem conv_range {p : BConv} {inp filt : List Word} (hok : p.Ok inp filt) (heven : p.zeroPadding = true → p.cinG % 2 = 0)
    {b y x c : Nat} (hb : b < p.batches) (hc : c < p.cout) : |p.conv p.padVal inp filt b y x c| ≤ (p.K : Int) := by
  rw [← BConv.accRef_eq_conv hok heven hb hc, abs_le]
  have := BConv.accRef_le hok heven (oy := y) (ox := x) hb hc
  omega

theorem halfAway_err (y : Rat) : |((roundHalfAway y : Int) : Rat) - y| ≤ 1 / 2 := by
  obtain ⟨b1, b2⟩ := roundHalfAway_near y
  rw [abs_le]; constructor <;> linarith

/-- Every kernel with int8 result, in a node that `Prepare` accepts. -/
theorem kernel_int8_near (hF : F.Proper) (ha : n.attrs = some a) (hty : n.outType = .int8)
    (ht : TensorsOk n a e inp b h w cout fh fw fd g)
    (hml : n.multData.length = cout) (hbl : n.biasData.length = cout)
    {r : Prepared} (hr : prepare n e = .ok r) {nm : Nat} {fat : Bool} {blocks : List Blk}
    (hs : n.kt = .bgemm → Schedule cout (b * r.p.outH * r.p.outW) 1 1 blocks)
    {K : Nat} (hKe : K = fh * fw * (a.cin / g)) {s : Rat} {z : Int} {ε : Rat} (he : 0 ≤ ε) (hK24 : 2 * K ≤ 2 ^ 24)
    (hs1 : (2 : Rat) ^ (-40 : Int) ≤ s) (hs2 : s ≤ 2 ^ (40 : Int))
    (hmul : ∀ c, c < cout → Binary32 (n.multData.getD c 0) ∧
      (|n.biasData.getD c 0| + (K : Rat) * |n.multData.getD c 0|) / s + |(z : Rat)| ≤ 2 ^ 20)
    (hhalf : 1 ≤ ε ∨ ∀ c, c < cout → ∀ k j : Int, |k| ≤ (K : Int) →
      ((|n.biasData.getD c 0| + (K : Rat) * |n.multData.getD c 0|) / s + |(z : Rat)|) * (7 / 2 ^ 24) + 2 ^ (-123 : Int) <
        |(((a.act.apply k : Int) : Rat) * n.multData.getD c 0 + n.biasData.getD c 0) / s + z - ((j : Rat) + 1 / 2)|)
    {out0 : List Int} (hout : out0.length = b * r.p.outH * r.p.outW * cout) :
    ∃ out, kernelInt8Fl F n.kt nm fat blocks r.p a.act n.multData n.biasData s z inp n.filtData out0 = some out ∧
      out.length = out0.length ∧
      ∀ b' y x c, b' < b → y < r.p.outH → x < r.p.outW → c < cout →
        ∃ v, out[((b' * r.p.outH + y) * r.p.outW + x) * cout + c]? = some v ∧ (-128 ≤ v ∧ v ≤ 127) ∧
          |((v - clampInt8 (roundHalfAway (((a.act.apply (r.p.conv a.padded inp n.filtData b' y x c) : Int)
            * n.multData.getD c 0 + n.biasData.getD c 0) / s + z)) : Int) : Rat)| ≤ ε := by
  obtain ⟨hok, hgeo, hg, hK⟩ := ht.facts ha hr
  obtain ⟨_, _, ⟨e1, e2, e3, e4⟩, ⟨e5, e6, e7, e8⟩, ⟨s1, s2, d1, d2, e11, e10, e9⟩, _, _, _, _, hgb, _⟩ :=
    C21_prepare_result ha ht.dims ht.fdims hr
  have hml' : n.multData.length = r.p.cout := by rw [e5]; exact hml
  have hbl' : n.biasData.length = r.p.cout := by rw [e5]; exact hbl
  have hout' : out0.length = r.p.batches * r.p.outH * r.p.outW * r.p.cout := by rw [e1, e5]; exact hout
  obtain ⟨p1, p2, p3, p4, p5, p6⟩ := ht.pos
  have hKp : r.p.filtH * r.p.filtW * (r.p.cin / r.p.groups) = K := by rw [e6, e7, e9, hg, hKe]
  have hKp' : r.p.K = K := hKp
  have hcg : 0 < a.cin / g := by
    have hgd : r.p.groups ∣ a.cin := (C21_prepare_result ha ht.dims ht.fdims hr).2.2.2.2.2.2.2.2.1
    have hgp : 0 < r.p.groups := (C21_prepare_result ha ht.dims ht.fdims hr).2.2.2.2.2.1
    rw [hg] at hgd hgp
    exact Nat.div_pos (Nat.le_of_dvd p1 hgd) hgp
  have hK0 : 0 < K := by rw [hKe]; exact Nat.mul_pos (Nat.mul_pos p3 p4) hcg
  have hpv := padVal_of_prepared e11 e10
  have hevn : r.p.padding = .same → r.p.padValue = 0 → r.p.cin % 2 = 0 := by
    intro h1 h2
    rw [e11] at h1; rw [e10] at h2; rw [e9]
    by_cases hk : n.kt = .reference
    · obtain ⟨a', _, ha', _, _, _, _, _, _, _, hzp, _⟩ := prepare_eq_ok.1 hr
      rw [ha] at ha'; cases ha'
      unfold prepZeroPad at hzp
      rw [if_pos ⟨h1, h2⟩, hk] at hzp
      simpa using hzp
    · exact absurd ⟨h1, h2⟩ (opt_not_zero_padded ha hk (by rw [hty]; decide) hr)
  have hev : r.p.zeroPadding = true → r.p.cinG % 2 = 0 := by
    intro hz
    unfold BConv.zeroPadding at hz
    simp only [Bool.and_eq_true, decide_eq_true_eq] at hz
    exact cinG_even hok (hevn hz.1 hz.2)
  obtain ⟨out, o1, o2, o3⟩ := int8_error_any (act := a.act) (R := F.R) (scale := s) (zp := z) hF.f32 hF.f64 hF.rnd halfAway_err hok
    hevn hml' hbl' hs1 hs2 (by rw [hKp]; exact hK24) (by rw [hKp]; exact hK0) (by rw [e5]; exact fun c hc => (hmul c hc).1)
    (by rw [e5, hKp]; exact fun c hc => (hmul c hc).2) hout'
  refine ⟨out, ?_, o2, ?_⟩
  · by_cases hk : n.kt = .reference
    · rw [hk]
      obtain ⟨cache, hca⟩ := zpSetup_some hF.f32 hok hml' (by rw [hKp']; exact hK24)
      simp only [kernelInt8Fl, hca, Option.bind_some, o1]
    · have hpad := not_zero_padded ht e11 e10 (opt_not_zero_padded ha hk (by rw [hty]; decide) hr)
      refine kernelInt8_eq_reference hF hok hgeo hpad (by omega) (by omega) (by omega) (by omega) ?_ (fun hk => ⟨?_, ?_⟩) hout' o1
      · intro t ht' a' c ha' hc
        exact runInt8Fl_isSome hF.f32 hF.f64 hF.rnd hml' hbl' hs1 hs2 (by rw [hKp']; exact hK24) (by rw [hKp']; exact hK0)
          (by rw [e5]; exact fun c hc => (hmul c hc).1) (by rw [e5, hKp']; exact fun c hc => (hmul c hc).2) ht' ha' hc
      · by_contra hne
        exact (hgb hne).1 hk
      · rw [e1, e5]; exact hs hk
  · intro b' y x c hb' hy hx hc
    obtain ⟨v, v1, v2, v3⟩ := o3 b' y x c (by rw [e1]; exact hb') hy hx (by rw [e5]; exact hc)
    obtain ⟨v4, v5⟩ := v3 _ rfl
    have hran := conv_range hok hev (y := y) (x := x) (by rw [e1]; exact hb' : b' < r.p.batches) (by rw [e5]; exact hc : c < r.p.cout)
    rw [hKp'] at hran
    rw [hpv] at v4 v5 hran
    rw [e5] at v1
    refine ⟨v, v1, v2, ?_⟩
    rcases hhalf with h1 | h1
    · refine le_trans ?_ h1
      rw [← Int.cast_abs]
      exact_mod_cast v4
    · have : v = clampInt8 (roundHalfAway (((a.act.apply (r.p.conv a.padded inp n.filtData b' y x c) : Int)
            * n.multData.getD c 0 + n.biasData.getD c 0) / s + z)) := by
        by_contra hne
        obtain ⟨j, hj⟩ := v5 hne
        rw [hKp] at hj
        have := h1 c hc _ j hran
        linarith
      rw [← this, sub_self]
      simpa using he

end

/-! ### Nodes -/

/-- Elements of a tensor given by a function, one by one. -/
theorem forall₂_mk4 {α β : Type} {n h w c : Nat} {o : List β} {g : Nat → Nat → Nat → Nat → α} {Q : α → β → Prop}
    (hl : o.length = n * h * w * c)
    (he : ∀ b y x k, b < n → y < h → x < w → k < c → ∃ v, o[((b * h + y) * w + x) * c + k]? = some v ∧ Q (g b y x k) v) :
    List.Forall₂ Q (mk4 n h w c g).data o := by
  rw [List.forall₂_iff_get]
  have hm : (mk4 n h w c g).data.length = n * h * w * c := by simp [mk4]
  refine ⟨by rw [hm, hl], fun i h1 h2 => ?_⟩
  have hi : i < n * h * w * c := by omega
  obtain ⟨d1, d2, d3, d4⟩ := decode_lt hi
  obtain ⟨v, v1, v2⟩ := he _ _ _ _ d1 d2 d3 d4
  have e := mk4_data (g := g) d1 d2 d3 d4
  have enc := offset4_encode h w c i
  unfold offset4 at enc
  rw [enc] at v1 e
  rw [List.getElem?_eq_getElem h1] at e
  rw [List.getElem?_eq_getElem h2] at v1
  simp only [Option.some.injEq] at e v1
  simp only [List.get_eq_getElem]
  rw [e, v1]
  exact v2

/-- A BConv2D node with float or int8 result that is not refused. -/
theorem exec_bconvFl_ok {F : FlCfg} {cfg : Cfg} {nm : Nat} {a : BConvAttrs} {q : Option (Rat × Int)} {x : TensOf Bool}
    {vf vm vb vt v : Val} {ε : Rat}
    {mx mf mm mb mt : MVal} (hF : F.Proper) (hsch : cfg.Scheduled) (e : bconvEval a [.s x, vf, vm, vb, vt] = some v)
    (hwf : ∀ u ∈ [Val.s x, vf, vm, vb, vt], u.wf = true)
    (hx : Rep (.s x) mx) (hf : Rep vf mf) (hm : Rep vm mm) (hb : Rep vb mb) (ht : Rep vt mt) (ho : a.outBits = false)
    (htame : q = Option.none → tameOp cfg.kt (.bconv a) [.s x, vf, vm, vb, vt]) (he : 0 ≤ ε)
    (hflok : q = Option.none → ∀ m b, vm = .f m → vb = .f b → bconvFlOk ε vf m b)
    (hfli8 : ∀ s z, q = some (s, z) → ∀ m b, vm = .f m → vb = .f b → bconvI8FlOk ε a s z vf m b)
    (hnrj : ¬ bconvRejected cfg nm a q.isSome vf) :
    ∃ m, execBConvFl F cfg nm q a mx mf mm mb mt = .ok m ∧ RepNear ε (v.toInt8 q) m := by
  obtain ⟨n, h, w, co, fh, fw, ci, ws, p, hxs, hfs, hsg, hwd, hbd, hg, hv⟩ := bconvEval_cases e
  have g := geom_some hg
  have hpar : ParamsOk a co mm mb mt := by
    rcases hv with ⟨ho, m, b, rfl, rfl, rfl, h1, h2, _⟩ | ⟨ho, t, rfl, h1, _⟩
    · right
      have w1 := wfF.1 (hwf (.f m) (by simp))
      have w2 := wfF.1 (hwf (.f b) (by simp))
      rw [h1] at w1
      rw [h2] at w2
      exact ⟨ho, m, b, rep_plain hm (by simp), rep_plain hb (by simp), h1, h2, by simpa using w1, by simpa using w2⟩
    · left
      have w1 : t.data.length = t.shape.prod := by simpa [Val.wf] using hwf (.i t) (by simp)
      rw [h1] at w1
      exact ⟨ho, t, rep_plain ht (by simp), h1, by simpa using w1⟩
  obtain ⟨xd, rfl, hxp, hxb⟩ := rep4 hx hxs
  cases vf with
  | s tf =>
    obtain ⟨fd, rfl, hfp, hfb⟩ := rep4 hf hfs
    simp only [Val.signs, Option.some.injEq] at hsg
    subst hsg
    obtain ⟨hprep1, hprep2⟩ := bconv_prepare (q := q) (cfg := cfg) (nm := nm) (xd := xd) (fd := fd) hg hwd hpar
    have hrej : bconvRejected cfg nm a q.isSome (.s tf) ↔
        (1 < a.padValue ∨ (cfg.kt = .bgemm ∧ ci ≠ a.cin) ∨ (a.padding = .same ∧ a.padValue = 0 ∧
          ¬ ((cfg.kt = .reference ∧ 2 ∣ a.cin) ∨ (cfg.kt ≠ .reference ∧ a.outBits = false ∧ q.isSome = false ∧ a.act = .none))) ∨
        (cfg.kt = .indirect ∧ cfg.dyn nm = true)) := by
      have : (Val.s tf).shape.getD 3 0 = ci := by rw [hfs]; rfl
      show (_ ∨ 1 < a.padValue ∨ (cfg.kt = .bgemm ∧ (Val.s tf).shape.getD 3 0 ≠ a.cin) ∨ _) ↔ _
      rw [this]
      constructor
      · rintro (hh | hh)
        · exact absurd rfl (hh tf)
        · exact hh
      · exact Or.inr
    have hrj := hnrj
    have hnr := fun hh => hrj (hrej.2 hh)
    have hsup := hprep1 hnr
    have hpv : ¬ 1 < a.padValue := fun hh => hnr (Or.inl hh)
    have hat : (bconvNode cfg.kt q a (.words [n, h, w, (a.cin + 31) / 32] xd)
        (.words [co, fh, fw, (ci + 31) / 32] fd) mm mb mt).attrs = some (kattrs a) := by
      simp only [bconvNode]
      rw [if_pos (by omega)]
      rfl
    obtain ⟨r, hr⟩ := (C21_prepare_accepts_iff _ _).2 ⟨_, _, hat, hsup⟩
    obtain ⟨hrp, hro⟩ := bconv_prepared hg hwd hbd hpv hxp hfp hr
    have hto := bconv_tensors (q := q) (kt := cfg.kt) (dyn := cfg.dyn nm) (loc := cfg.loc nm) (mm := mm) (mb := mb) (mt := mt)
      hg hwd hbd hpv hxp hfp
    have hshape := geom_shapes hg hwd
    have hconv : ∀ b y z c, b < n → c < co →
        ((p.conv (kattrs a).padded xd fd b y z c : Int) : Rat)
          = convAt p (if a.padding = .same ∧ a.padValue = 0 then 0 else 1) (fun k => bitVal (x.data.getD k false))
            (fun fy fx c oc => (tf.data.map bitVal).getD (((oc * fh + fy) * fw + fx) * ci + c) 0) b y z c := by
      intro b y z c hbn hc
      have htl : tf.data.length = co * fh * fw * ci := by
        have := wfS.1 (hwf (.s tf) (by simp))
        rw [show tf.shape = [co, fh, fw, ci] from hfs] at this
        simpa [← mul_assoc] using this
      have := conv_rep (p := p) (xt := x.data) (ft := tf.data) (xd := xd) (fd := fd) (pad := (kattrs a).padded) hshape
        (by rw [g.batches, g.inH, g.inW, g.cinE]; exact hxb)
        (by rw [g.cout, g.filtH, g.filtW, g.cinG]; exact hfb)
        (by rw [g.cout, g.filtH, g.filtW, g.cinG]; exact htl)
        (b := b) (oy := y) (ox := z) (oc := c) (by rw [g.batches]; exact hbn) (by rw [g.cout]; exact hc)
      rw [this]
      refine convAt_weights ?_ ?_
      · unfold Attrs.padded
        show (((if a.padding = .same ∧ a.padValue = 0 then 0 else 1 : Int)) : Rat) = _
        split <;> simp
      · intro fy fx k
        rw [g.filtH, g.filtW, g.cinG]
    rcases hv with ⟨_, m, b, rfl, rfl, rfl, h1, h2, rfl⟩ | ⟨ho', _⟩
    · have hmm := rep_plain hm (by simp)
      have hmb := rep_plain hb (by simp)
      subst hmm hmb
      have hml : m.data.length = co := by
        have := wfF.1 (hwf (.f m) (by simp)); rw [h1] at this; simpa using this
      have hbl : b.data.length = co := by
        have := wfF.1 (hwf (.f b) (by simp)); rw [h2] at this; simpa using this
      have hdv : a.cin / (a.cin / ci) = ci := by
        have := g.cinG
        unfold BConv.cinG at this
        rwa [g.cinE, g.groups] at this
      cases q with
      | none =>
        obtain ⟨ht1, ht2, ht3⟩ := htame rfl n h w a.cin co fh fw ci hxs hfs
        have hty : (bconvNode cfg.kt Option.none a (.words [n, h, w, (a.cin + 31) / 32] xd) (.words [co, fh, fw, (ci + 31) / 32] fd)
            (.plain (.f m)) (.plain (.f b)) mt).outType = .float32 := by simp [bconvNode, ho]
        have hout : (buf (cfg.bufR nm) r.outDims.prod).length = n * r.p.outH * r.p.outW * co := by
          rw [buf_length, hro, hrp, ho]
          simp [← mul_assoc]
        obtain ⟨out, o1, o2, o3⟩ := kernel_float_near (nm := nm) (fat := cfg.fat nm)
          (blocks := cfg.blocks nm 1 r.p.cout (r.p.batches * r.p.outH * r.p.outW)) hF hat hty hto hml hbl hr
          (fun q0 q1 q2 => hrp ▸ ht1 q0 q1 q2 p hg)
          (fun _ => by
            have := hsch nm 1 r.p.cout (r.p.batches * r.p.outH * r.p.outW) (by omega)
            rw [hrp, g.cout, g.batches] at this ⊢
            exact this) he (by
            show FlHyp ε (fh * fw * (a.cin / (a.cin / ci))) co m.data b.data
            rw [hdv]
            exact hflok rfl m b rfl rfl co fh fw ci hfs) hout
        refine ⟨.plain (.f ⟨r.outDims, out⟩), ?_, ?_⟩
        · unfold execBConvFl
          simp only [ho, Bool.false_eq_true, if_false]
          simp only [MVal.desc, Option.map_some, Option.getD_some]
          rw [hr]
          simp only [Outcome.bind]
          have o1 : kernelFloatFl F cfg.kt nm (cfg.fat nm) (cfg.blocks nm 1 r.p.cout (r.p.batches * r.p.outH * r.p.outW)) r.p a.act
            m.data b.data xd fd (buf (cfg.bufR nm) r.outDims.prod) = some out := o1
          simp only [MVal.floats, MVal.bits]
          rw [o1]
          rfl
        · refine ⟨.f ⟨r.outDims, out⟩, ⟨out, ?_, ?_⟩, rfl⟩
          · rw [hro, ho]
            rfl
          · rw [hrp] at o3 hout
            refine forall₂_mk4 (o2.trans hout) fun b' y z c hb' hy hz hc => ?_
            obtain ⟨v, v1, v2⟩ := o3 b' y z c hb' hy hz hc
            refine ⟨v, v1, ?_⟩
            rw [← hconv b' y z c hb' hc, Act.real_cast]
            exact v2
      | some q =>
        obtain ⟨s, z⟩ := q
        have hty : (bconvNode cfg.kt (some (s, z)) a (.words [n, h, w, (a.cin + 31) / 32] xd) (.words [co, fh, fw, (ci + 31) / 32] fd)
            (.plain (.f m)) (.plain (.f b)) mt).outType = .int8 := by simp [bconvNode, ho]
        have hout : ((buf (cfg.bufB nm) r.outDims.prod).map BitVec.toInt).length = n * r.p.outH * r.p.outW * co := by
          rw [List.length_map, buf_length, hro, hrp, ho]
          simp [← mul_assoc]
        obtain ⟨f1, f2, f3, f4, f5⟩ := hfli8 s z rfl m b rfl rfl co fh fw ci hfs
        obtain ⟨out, o1, o2, o3⟩ := kernel_int8_near (nm := nm) (fat := cfg.fat nm) (K := fh * fw * ci) (s := s) (z := z)
          (blocks := cfg.blocks nm 1 r.p.cout (r.p.batches * r.p.outH * r.p.outW)) hF hat hty hto hml hbl hr
          (fun _ => by
            have := hsch nm 1 r.p.cout (r.p.batches * r.p.outH * r.p.outW) (by omega)
            rw [hrp, g.cout, g.batches] at this ⊢
            exact this) (by rw [show (kattrs a).cin = a.cin from rfl, hdv]) he f1 f2 f3 f4 (by
              rcases f5 with f5 | f5
              · exact Or.inl f5
              · refine Or.inr fun c hc k j hk => ?_
                have := f5 c hc k j hk
                rw [Act.real_cast] at this
                exact this) hout
        refine ⟨.plain (.q ⟨r.outDims, out⟩ s z), ?_, ?_⟩
        · unfold execBConvFl
          simp only [ho, Bool.false_eq_true, if_false]
          simp only [MVal.desc, Option.map_some, Option.getD_some]
          rw [hr]
          simp only [Outcome.bind]
          have o1 : kernelInt8Fl F cfg.kt nm (cfg.fat nm) (cfg.blocks nm 1 r.p.cout (r.p.batches * r.p.outH * r.p.outW)) r.p a.act
            m.data b.data s z xd fd ((buf (cfg.bufB nm) r.outDims.prod).map BitVec.toInt) = some out := o1
          simp only [MVal.floats, MVal.bits]
          rw [o1]
          rfl
        · refine ⟨.q ⟨r.outDims, out⟩ s z, ⟨out, ?_, ?_⟩, rfl⟩
          · rw [hro, ho]
            rfl
          · rw [hrp] at o3 hout
            rw [mk4_map]
            refine forall₂_mk4 (o2.trans hout) fun b' y z' c hb' hy hz hc => ?_
            obtain ⟨v, v1, v2, v3⟩ := o3 b' y z' c hb' hy hz hc
            refine ⟨v, v1, ?_, v2.1, v2.2⟩
            rw [← hconv b' y z' c hb' hc, Act.real_cast]
            exact v3
    · rw [ho] at ho'
      cases ho'
  | f tf => exact absurd (Or.inl (by simp)) hnrj
  | _ => simp [Val.signs] at hsg

end Verif.Ir
