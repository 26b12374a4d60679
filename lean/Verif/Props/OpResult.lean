import Verif.Props.History
import Verif.Props.Reference
import Verif.Props.ZeroPadding

/-! C47: the operator as a whole. After any history, the output tensor of an accepted node holds
the documented values. -/

namespace Verif

theorem otFuse_eq_from (p : BConv) (k : Int) (mult bias : List Rat) (scale zp : Rat) :
    otFuse p k mult bias scale zp =
      otFuseFrom p k mult bias scale zp (List.replicate (p.cout + 4) 0) (List.replicate (p.cout + 4) 0) := rfl

/-- A fresh setup is the setup of the kernel theorems. -/
theorem setupVals_new (n : Node) (act : Act) (p : BConv) :
    setupVals n act p [] otNew = (zpSetup p n.filtData n.multData).bind (fun pb =>
      if n.outType = .float32 ∨ n.outType = .int8 then
        (otSetup p act n.multData n.biasData (if n.outType = .int8 then n.scale else 1)
          (if n.outType = .int8 then n.zp else 0)).map (fun t => (pb, t))
      else some (pb, otNew)) := by
  unfold setupVals zpSetup otSetup
  simp only [otNew, vresize_nil, otFuse_eq_from, Option.bind_eq_bind]
  congr 1
  funext pb
  split
  · generalize chk32 ((p.filtH * p.filtW * (p.cin / p.groups) : Nat) : Int) = ok
    cases ok with
    | none => rfl
    | some k =>
      simp only [Option.bind_some]
      generalize otFuseFrom _ _ _ _ _ _ _ _ = of
      cases of with
      | none => rfl
      | some mb =>
        simp only [Option.bind_some]
        generalize chk32 (_ : Int) = oc
        cases oc with
        | none => rfl
        | some cmin =>
          simp only [Option.bind_some]
          generalize chk32 (_ : Int) = oc2
          cases oc2 <;> rfl
  · rfl

/-- One inference on a fresh interpreter. -/
theorem fresh_output {n : Node} {a : Attrs} (ha : n.attrs = some a) {e : InputDesc} {r : Prepared} {f : Machine}
    (hr : prepare n e = .ok r) (hf : freshMachine n e = some f) (c : RunCfg) (inp : List Word) (out : OutBuf) :
    output n c f inp out = (setupVals n a.act r.p [] otNew).bind (fun v =>
      match n.kt with
      | .reference => evalRef n c { OpData.new with p := r.p, padBuf := v.1, ot := v.2, setupDone := true } inp out
      | .bgemm => evalBGemm n c { OpData.new with p := r.p, padBuf := v.1, ot := v.2, setupDone := true } inp out
      | .indirect => (evalIndirect n c { OpData.new with p := r.p, padBuf := v.1, ot := v.2, setupDone := true }
          e.loc inp out).map (·.2)) := by
  obtain ⟨r', hr', rfl⟩ := resize_eq_some.1 hf
  rw [hr] at hr'; cases hr'
  unfold output invoke
  simp only [ha, Option.bind_eq_bind, Option.bind_some, OpData.new, Bool.false_eq_true, if_false, oneTimeSetup_eq]
  cases hv : setupVals n a.act r.p [] otNew with
  | none => 
    have : setupVals n a.act r.p Machine.new.op.padBuf Machine.new.op.ot = none := hv
    rw [this]; rfl
  | some v =>
    have : setupVals n a.act r.p Machine.new.op.padBuf Machine.new.op.ot = some v := hv
    rw [this]
    simp only [Option.map_some, Option.bind_some]
    cases n.kt <;> simp only [Option.map_map, Machine.new, OpData.new]
    · exact congrFun Option.map_id _
    · exact congrFun Option.map_id _
    · rfl

/-- Facts about an accepted node with proper tensors, for the kernel theorems. -/
theorem TensorsOk.facts {n : Node} {a : Attrs} {i : InputDesc} {inp : List Word} {b h w cout fh fw fd g : Nat}
    (ht : TensorsOk n a i inp b h w cout fh fw fd g) (ha : n.attrs = some a) {r : Prepared}
    (hr : prepare n i = .ok r) :
    r.p.Ok inp n.filtData ∧ r.p.Geom ∧ r.p.groups = g ∧
      2 * (r.p.filtH * r.p.filtW * (r.p.cin / r.p.groups)) < 2147483648 := by
  obtain ⟨hgeo, _, ⟨e1, e2, e3, e4⟩, ⟨e5, e6, e7, e8⟩, ⟨_, _, _, _, _, _, e9⟩, g1, g2, g3, g4, g5, _⟩ :=
    C21_prepare_result ha ht.dims ht.fdims hr
  have hfd : 0 < fd := by
    rcases Nat.eq_zero_or_pos fd with h0 | h0
    · have := ht.groups; rw [h0, Nat.mul_zero] at this
      have := ht.pos.1
      omega
    · exact h0
  have hg : r.p.groups = g := by
    have : r.p.groups * fd = g * fd := by rw [g2, ht.groups]
    exact Nat.eq_of_mul_eq_mul_right hfd this
  refine ⟨C21_accepted_ok ha ht.dims ht.fdims hr ht.inLen ht.filtLen ht.inUnused (by rw [hg]; exact ht.filtUnused),
    hgeo, hg, ?_⟩
  rw [e6, e7, e9, hg]
  exact ht.bound

theorem padVal_of_prepared {a : Attrs} {p : BConv} (h1 : p.padding = a.padding) (h2 : p.padValue = a.padValue) :
    p.padVal = a.padded := by
  unfold BConv.padVal BConv.zeroPadding Attrs.padded
  rw [h1, h2]
  by_cases ha : a.padding = .same <;> by_cases hb : a.padValue = 0 <;> simp [ha, hb]

/-- The zero-padding part of the setup succeeds. -/
theorem zpSetup_ok {p : BConv} {inp filt : List Word} (h : p.Ok inp filt) {mult : List Rat}
    (hm : mult.length = p.cout) : ∃ c, zpSetup p filt mult = some c := by
  unfold zpSetup
  split
  · obtain ⟨c, hc, _⟩ := zpCache_eq h hm (cache0 := List.replicate (zpCacheSize p) 0) (by simp)
    exact ⟨c, hc⟩
  · exact ⟨_, rfl⟩

/-- What a correct float output is: every element is `activation(conv) * multiplier + bias`. -/
def FloatResult (n : Node) (a : Attrs) (p : BConv) (inp : List Word) (out : List Rat) : Prop :=
  ∀ b y x c, b < p.batches → y < p.outH → x < p.outW → c < p.cout →
    out[((b * p.outH + y) * p.outW + x) * p.cout + c]?
      = some ((a.act.apply (p.conv a.padded inp n.filtData b y x c) : Int) * n.multData.getD c 0
          + n.biasData.getD c 0)

/-- What the optimized kernels write for float output, whatever the geometry: as `FloatResult`, except that with zero
padding the output pixels that are not `Corrected` (Spec/ZeroPad) are padded with ones. -/
def OptResult (n : Node) (a : Attrs) (p : BConv) (inp : List Word) (out : List Rat) : Prop :=
  ∀ b y x c, b < p.batches → y < p.outH → x < p.outW → c < p.cout →
    out[((b * p.outH + y) * p.outW + x) * p.cout + c]?
      = some ((a.act.apply (p.conv (if a.padding = .same ∧ a.padValue = 0 ∧ ¬ p.Corrected y x then 1 else a.padded)
          inp n.filtData b y x c) : Int) * n.multData.getD c 0 + n.biasData.getD c 0)

/-- It is right when the filter fits in the image. -/
theorem OptResult.fits {n : Node} {a : Attrs} {p : BConv} {inp : List Word} {out : List Rat} (ho : OptResult n a p inp out)
    (hf : a.padding = .same → a.padValue = 0 → ∀ y x, y < p.outH → x < p.outW → p.Corrected y x) :
    FloatResult n a p inp out := by
  intro b y x c hb hy hx hc
  rw [ho b y x c hb hy hx hc, if_neg]
  rintro ⟨h1, h2, h3⟩
  exact h3 (hf h1 h2 y x hy hx)

/-- Every pixel of an accepted node is corrected when the filter fits in the image. -/
theorem TensorsOk.corrected {n : Node} {a : Attrs} {i : InputDesc} {inp : List Word} {b h w cout fh fw fd g : Nat}
    (ht : TensorsOk n a i inp b h w cout fh fw fd g) (ha : n.attrs = some a) {r : Prepared}
    (hr : prepare n i = .ok r)
    (hfit : a.padding = .same → a.padValue = 0 → (fh - 1) * a.dilH + 1 ≤ h ∧ (fw - 1) * a.dilW + 1 ≤ w) :
    a.padding = .same → a.padValue = 0 → ∀ y x, y < r.p.outH → x < r.p.outW → r.p.Corrected y x := by
  intro h1 h2 y x hy hx
  obtain ⟨hok, hgeo, hg, hK⟩ := ht.facts ha hr
  obtain ⟨_, _, ⟨e1, e2, e3, e4⟩, ⟨e5, e6, e7, e8⟩, ⟨s1, s2, d1, d2, e11, e10, e9⟩, _⟩ :=
    C21_prepare_result ha ht.dims ht.fdims hr
  obtain ⟨f1, f2⟩ := hfit h1 h2
  exact corrected_of_fits (by rw [e6, d1, e2]; exact f1) (by rw [e7, d2, e3]; exact f2)

section
variable {n : Node} {a : Attrs} {e : InputDesc} {inp : List Word} {b h w cout fh fw fd g : Nat}

/-- The reference kernel on a fresh interpreter. -/
theorem fresh_reference_float (ha : n.attrs = some a) (hk : n.kt = .reference) (hty : n.outType = .float32)
    (ht : TensorsOk n a e inp b h w cout fh fw fd g)
    (hml : n.multData.length = cout) (hbl : n.biasData.length = cout)
    {r : Prepared} {f : Machine} (hr : prepare n e = .ok r) (hf : freshMachine n e = some f)
    (c : RunCfg) {out0 : List Rat} (hout : out0.length = b * r.p.outH * r.p.outW * cout) :
    ∃ out, output n c f inp (.f out0) = some (.f out) ∧ out.length = out0.length ∧
      FloatResult n a r.p inp out := by
  obtain ⟨hok, hgeo, hg, hK⟩ := ht.facts ha hr
  obtain ⟨_, _, ⟨e1, e2, e3, e4⟩, ⟨e5, e6, e7, e8⟩, ⟨_, _, _, _, e11, e10, e9⟩, _⟩ :=
    C21_prepare_result ha ht.dims ht.fdims hr
  have heven : r.p.zeroPadding = true → r.p.cinG % 2 = 0 := by
    intro hz
    apply cinG_even hok
    rw [e9]
    obtain ⟨a', _, ha', _, _, _, _, _, _, _, hzp, _⟩ := prepare_eq_ok.1 hr
    rw [ha] at ha'; cases ha'
    unfold BConv.zeroPadding at hz
    rw [e11, e10] at hz
    simp only [Bool.and_eq_true, decide_eq_true_eq] at hz
    unfold prepZeroPad at hzp
    rw [if_pos hz, hk] at hzp
    simpa using hzp
  have hml' : n.multData.length = r.p.cout := by rw [e5]; exact hml
  have hbl' : n.biasData.length = r.p.cout := by rw [e5]; exact hbl
  obtain ⟨out, h1, h2, h3⟩ := evalRefFloat_eq (act := a.act) hok heven hml' hbl' hK
    (out0 := out0) (by rw [e1, e5]; exact hout)
  obtain ⟨pb, hpb⟩ := zpSetup_ok hok hml'
  refine ⟨out, ?_, h2, ?_⟩
  · rw [fresh_output ha hr hf, setupVals_new, hpb]
    unfold evalRefFloat at h1
    simp only [Option.bind_eq_bind] at h1
    obtain ⟨t, ht1, ht2⟩ := Option.bind_eq_some_iff.1 h1
    simp only [Option.bind_some, hty, true_or, if_true, hk, reduceCtorEq, if_false, ht1, Option.map_some, evalRef, ht2]
  · rw [padVal_of_prepared e11 e10] at h3
    exact h3

/-- **C47**, reference kernel, float output. After any history of resizes and inferences, an
inference of an accepted node writes `activation(conv) * multiplier + bias` to every output
element, where `conv` is the convolution of the current input, zero- or one-padded as the
attributes say, and it has no undefined behaviour. -/
theorem C47_reference_float (ha : n.attrs = some a) (hk : n.kt = .reference) (hty : n.outType = .float32)
    (i0 : InputDesc) (hist : List Call) {m : Machine}
    (hm : runHistory n (.resize i0 :: hist) Machine.new = some m)
    (ht : TensorsOk n a (currentDesc i0 hist) inp b h w cout fh fw fd g)
    (hml : n.multData.length = cout) (hbl : n.biasData.length = cout) (c : RunCfg) :
    ∃ r, prepare n (currentDesc i0 hist) = .ok r ∧
      ∀ out0 : List Rat, out0.length = b * r.p.outH * r.p.outW * cout →
        ∃ out, output n c m inp (.f out0) = some (.f out) ∧ out.length = out0.length ∧
          FloatResult n a r.p inp out := by
  obtain ⟨f, hf, hout⟩ := C20_history n (by rw [hk]; decide) i0 hist m hm
  obtain ⟨r, hr, _⟩ := resize_eq_some.1 hf
  refine ⟨r, hr, fun out0 h0 => ?_⟩
  rw [hout]
  exact fresh_reference_float ha hk hty ht hml hbl hr hf c h0

/-- The BGEMM kernel on a fresh interpreter. -/
theorem fresh_bgemm_exact (ha : n.attrs = some a) (hk : n.kt = .bgemm) (hty : n.outType = .float32)
    (ht : TensorsOk n a e inp b h w cout fh fw fd g)
    (hml : n.multData.length = cout) (hbl : n.biasData.length = cout)
    {r : Prepared} {f : Machine} (hr : prepare n e = .ok r) (hf : freshMachine n e = some f)
    (c : RunCfg) (hs : Schedule cout (b * r.p.outH * r.p.outW) 1 1 c.blocks)
    {out0 : List Rat} (hout : out0.length = b * r.p.outH * r.p.outW * cout) :
    ∃ out, output n c f inp (.f out0) = some (.f out) ∧ out.length = out0.length ∧
      OptResult n a r.p inp out := by
  obtain ⟨hok, hgeo, hg, hK⟩ := ht.facts ha hr
  obtain ⟨_, _, ⟨e1, e2, e3, e4⟩, ⟨e5, e6, e7, e8⟩, ⟨s1, s2, d1, d2, e11, e10, e9⟩, _, _, _, _, hgb, _⟩ :=
    C21_prepare_result ha ht.dims ht.fdims hr
  have hg1 : r.p.groups = 1 := by
    by_contra hne
    exact (hgb hne).1 hk
  have hml' : n.multData.length = r.p.cout := by rw [e5]; exact hml
  have hbl' : n.biasData.length = r.p.cout := by rw [e5]; exact hbl
  have hK' : 2 * (r.p.filtH * r.p.filtW * r.p.cin) < 2147483648 := by
    rw [hg1, Nat.div_one] at hK; exact hK
  have hout' : out0.length = r.p.batches * r.p.outH * r.p.outW * r.p.cout := by rw [e1, e5]; exact hout
  have hs' : Schedule r.p.cout (r.p.batches * r.p.outH * r.p.outW) 1 1 c.blocks := by rw [e1, e5]; exact hs
  have key : ∃ out, evalBGemmFloat r.p c.fat c.blocks a.act n.multData n.biasData inp n.filtData out0 = some out ∧
      out.length = out0.length ∧ OptResult n a r.p inp out := by
    by_cases hz : a.padding = .same ∧ a.padValue = 0
    · have hact : a.act = .none := by
        obtain ⟨a', _, ha', _, _, _, _, _, _, _, hzp, _⟩ := prepare_eq_ok.1 hr
        rw [ha] at ha'; cases ha'
        unfold prepZeroPad at hzp
        rw [if_pos hz, hk] at hzp
        simpa [hty] using hzp
      obtain ⟨out, h1, h2, h3⟩ := C17_bgemm_exact (p := r.p) hok hg1 hgeo (by rw [e11]; exact hz.1) (by rw [e10]; exact hz.2)
        (by rw [s1]; exact ht.pos.2.2.2.2.1) (by rw [s2]; exact ht.pos.2.2.2.2.2)
        hml' hbl' hK' c.fat hs' hout'
      refine ⟨out, by rw [hact]; exact h1, h2, ?_⟩
      intro b y x c hb hy hx hc
      rw [h3 b y x c hb hy hx hc, hact]
      by_cases hc : r.p.Corrected y x <;> simp [Attrs.padded, hz, hc, Act.apply]
    · have hpad : r.p.padding = .valid ∨ r.p.padValue = 1 := by
        rw [e11, e10]
        rcases ht.padValue with h0 | h1
        · left
          cases hp : a.padding with
          | valid => rfl
          | same => exact absurd ⟨hp, h0⟩ hz
        · exact Or.inr h1
      obtain ⟨out, h1, h2⟩ := C14_float (p := r.p) (act := a.act) hok hg1 hgeo hpad (by rw [e5]; exact ht.pos.2.1)
        hml' hbl' hK' c.fat hs' hout' (out1 := out0) hout'
      obtain ⟨out', h3, h4, h5⟩ := C07_reference_float (act := a.act) hok hpad hml' hbl' hK hout'
      rw [h2] at h3; cases h3
      refine ⟨out, h1, h4, ?_⟩
      intro b y x c hb hy hx hc
      rw [h5 b y x c hb hy hx hc]
      rw [if_neg (fun hh => hz ⟨hh.1, hh.2.1⟩)]
      simp only [Attrs.padded, hz, if_false]
  obtain ⟨out, h1, h2, h3⟩ := key
  refine ⟨out, ?_, h2, h3⟩
  rw [fresh_output ha hr hf, setupVals_new]
  unfold evalBGemmFloat at h1
  simp only [Option.bind_eq_bind] at h1
  obtain ⟨pb, hpb, h1⟩ := Option.bind_eq_some_iff.1 h1
  obtain ⟨t, ht1, h1⟩ := Option.bind_eq_some_iff.1 h1
  obtain ⟨o, ho, h1⟩ := Option.bind_eq_some_iff.1 h1
  simp only [hpb, Option.bind_some, hty, true_or, if_true, hk, reduceCtorEq, if_false, ht1, Option.map_some, evalBGemm,
    ho, h1, Option.bind_eq_bind]

/-- The same when the filter fits in the image. -/
theorem fresh_bgemm_float (ha : n.attrs = some a) (hk : n.kt = .bgemm) (hty : n.outType = .float32)
    (ht : TensorsOk n a e inp b h w cout fh fw fd g)
    (hml : n.multData.length = cout) (hbl : n.biasData.length = cout)
    (hfit : a.padding = .same → a.padValue = 0 → (fh - 1) * a.dilH + 1 ≤ h ∧ (fw - 1) * a.dilW + 1 ≤ w)
    {r : Prepared} {f : Machine} (hr : prepare n e = .ok r) (hf : freshMachine n e = some f)
    (c : RunCfg) (hs : Schedule cout (b * r.p.outH * r.p.outW) 1 1 c.blocks)
    {out0 : List Rat} (hout : out0.length = b * r.p.outH * r.p.outW * cout) :
    ∃ out, output n c f inp (.f out0) = some (.f out) ∧ out.length = out0.length ∧
      FloatResult n a r.p inp out := by
  obtain ⟨out, h1, h2, h3⟩ := fresh_bgemm_exact ha hk hty ht hml hbl hr hf c hs hout
  exact ⟨out, h1, h2, h3.fits (ht.corrected ha hr hfit)⟩

/-- **C47**, BGEMM kernel, float output, any schedule, every geometry `Prepare` accepts: the values are right except that
with zero padding the output pixels that are not `Corrected` are padded with ones (C17). -/
theorem C47_bgemm_float_exact (ha : n.attrs = some a) (hk : n.kt = .bgemm) (hty : n.outType = .float32)
    (i0 : InputDesc) (hist : List Call) {m : Machine}
    (hm : runHistory n (.resize i0 :: hist) Machine.new = some m)
    (ht : TensorsOk n a (currentDesc i0 hist) inp b h w cout fh fw fd g)
    (hml : n.multData.length = cout) (hbl : n.biasData.length = cout)
    (c : RunCfg) :
    ∃ r, prepare n (currentDesc i0 hist) = .ok r ∧
      ∀ out0 : List Rat, out0.length = b * r.p.outH * r.p.outW * cout →
        Schedule cout (b * r.p.outH * r.p.outW) 1 1 c.blocks →
        ∃ out, output n c m inp (.f out0) = some (.f out) ∧ out.length = out0.length ∧
          OptResult n a r.p inp out := by
  obtain ⟨f, hf, hout⟩ := C20_history n (by rw [hk]; decide) i0 hist m hm
  obtain ⟨r, hr, _⟩ := resize_eq_some.1 hf
  refine ⟨r, hr, fun out0 h0 hs => ?_⟩
  rw [hout]
  exact fresh_bgemm_exact ha hk hty ht hml hbl hr hf c hs h0

/-- **C47**, BGEMM kernel, float output, any schedule (partial: with zero padding the effective
filter must fit in the image, see `C17_large_filter_witness`). -/
theorem C47_bgemm_float_partial (ha : n.attrs = some a) (hk : n.kt = .bgemm) (hty : n.outType = .float32)
    (i0 : InputDesc) (hist : List Call) {m : Machine}
    (hm : runHistory n (.resize i0 :: hist) Machine.new = some m)
    (ht : TensorsOk n a (currentDesc i0 hist) inp b h w cout fh fw fd g)
    (hml : n.multData.length = cout) (hbl : n.biasData.length = cout)
    (hfit : a.padding = .same → a.padValue = 0 → (fh - 1) * a.dilH + 1 ≤ h ∧ (fw - 1) * a.dilW + 1 ≤ w)
    (c : RunCfg) :
    ∃ r, prepare n (currentDesc i0 hist) = .ok r ∧
      ∀ out0 : List Rat, out0.length = b * r.p.outH * r.p.outW * cout →
        Schedule cout (b * r.p.outH * r.p.outW) 1 1 c.blocks →
        ∃ out, output n c m inp (.f out0) = some (.f out) ∧ out.length = out0.length ∧
          FloatResult n a r.p inp out := by
  obtain ⟨f, hf, hout⟩ := C20_history n (by rw [hk]; decide) i0 hist m hm
  obtain ⟨r, hr, _⟩ := resize_eq_some.1 hf
  refine ⟨r, hr, fun out0 h0 hs => ?_⟩
  rw [hout]
  exact fresh_bgemm_float ha hk hty ht hml hbl hfit hr hf c hs h0

/-- The indirect kernel on a fresh interpreter. -/
theorem fresh_indirect_exact (ha : n.attrs = some a) (hk : n.kt = .indirect) (hty : n.outType = .float32)
    (ht : TensorsOk n a e inp b h w cout fh fw fd g)
    (hml : n.multData.length = cout) (hbl : n.biasData.length = cout)
    {r : Prepared} {f : Machine} (hr : prepare n e = .ok r) (hf : freshMachine n e = some f)
    (c : RunCfg) {out0 : List Rat} (hout : out0.length = b * r.p.outH * r.p.outW * cout) :
    ∃ out, output n c f inp (.f out0) = some (.f out) ∧ out.length = out0.length ∧
      OptResult n a r.p inp out := by
  obtain ⟨hok, hgeo, hg, hK⟩ := ht.facts ha hr
  obtain ⟨_, _, ⟨e1, e2, e3, e4⟩, ⟨e5, e6, e7, e8⟩, ⟨s1, s2, d1, d2, e11, e10, e9⟩, _⟩ :=
    C21_prepare_result ha ht.dims ht.fdims hr
  have hml' : n.multData.length = r.p.cout := by rw [e5]; exact hml
  have hbl' : n.biasData.length = r.p.cout := by rw [e5]; exact hbl
  have hout' : out0.length = r.p.batches * r.p.outH * r.p.outW * r.p.cout := by rw [e1, e5]; exact hout
  obtain ⟨p1, p2, p3, p4, p5, p6⟩ := ht.pos
  rw [← e9] at p1; rw [← e5] at p2; rw [← e6] at p3; rw [← e7] at p4; rw [← s1] at p5; rw [← s2] at p6
  have key : ∃ out, evalIndFloat r.p a.act n.multData n.biasData inp n.filtData out0 = some out ∧
      out.length = out0.length ∧ OptResult n a r.p inp out := by
    by_cases hz : a.padding = .same ∧ a.padValue = 0
    · have hact : a.act = .none := by
        obtain ⟨a', _, ha', _, _, _, _, _, _, _, hzp, _⟩ := prepare_eq_ok.1 hr
        rw [ha] at ha'; cases ha'
        unfold prepZeroPad at hzp
        rw [if_pos hz, hk] at hzp
        simpa [hty] using hzp
      obtain ⟨out, h1, h2, h3⟩ := C17_indirect_exact (p := r.p) hok hgeo (by rw [e11]; exact hz.1) (by rw [e10]; exact hz.2)
        p5 p6 p3 p4 p1 p2
        hml' hbl' hK hout'
      refine ⟨out, by rw [hact]; exact h1, h2, ?_⟩
      intro b y x c hb hy hx hc
      rw [h3 b y x c hb hy hx hc, hact]
      by_cases hc : r.p.Corrected y x <;> simp [Attrs.padded, hz, hc, Act.apply]
    · have hpad : r.p.padding = .valid ∨ r.p.padValue = 1 := by
        rw [e11, e10]
        rcases ht.padValue with h0 | h1
        · left
          cases hp : a.padding with
          | valid => rfl
          | same => exact absurd ⟨hp, h0⟩ hz
        · exact Or.inr h1
      obtain ⟨out, h1, h2⟩ := C12_float (p := r.p) (act := a.act) hok hpad p3 p4 p1 p2
        hml' hbl' hK hout' (out1 := out0) hout'
      obtain ⟨out', h3, h4, h5⟩ := C07_reference_float (act := a.act) hok hpad hml' hbl' hK hout'
      rw [h2] at h3; cases h3
      refine ⟨out, h1, h4, ?_⟩
      intro b y x c hb hy hx hc
      rw [h5 b y x c hb hy hx hc]
      rw [if_neg (fun hh => hz ⟨hh.1, hh.2.1⟩)]
      simp only [Attrs.padded, hz, if_false]
  obtain ⟨out, h1, h2, h3⟩ := key
  refine ⟨out, ?_, h2, h3⟩
  rw [fresh_output ha hr hf, setupVals_new]
  unfold evalIndFloat bconvIndirect at h1
  simp only [Option.bind_eq_bind] at h1
  obtain ⟨pb, hpb, h1⟩ := Option.bind_eq_some_iff.1 h1
  obtain ⟨t, ht1, h1⟩ := Option.bind_eq_some_iff.1 h1
  obtain ⟨o, ho, h1⟩ := Option.bind_eq_some_iff.1 h1
  obtain ⟨K, hK1, ho⟩ := Option.bind_eq_some_iff.1 ho
  simp only [hpb, Option.bind_some, hty, true_or, if_true, hk, reduceCtorEq, if_false, ht1, Option.map_some, evalIndirect,
    OpData.new, hK1, ho, h1, Option.bind_eq_bind]

/-- The same when the filter fits in the image. -/
theorem fresh_indirect_float (ha : n.attrs = some a) (hk : n.kt = .indirect) (hty : n.outType = .float32)
    (ht : TensorsOk n a e inp b h w cout fh fw fd g)
    (hml : n.multData.length = cout) (hbl : n.biasData.length = cout)
    (hfit : a.padding = .same → a.padValue = 0 → (fh - 1) * a.dilH + 1 ≤ h ∧ (fw - 1) * a.dilW + 1 ≤ w)
    {r : Prepared} {f : Machine} (hr : prepare n e = .ok r) (hf : freshMachine n e = some f)
    (c : RunCfg) {out0 : List Rat} (hout : out0.length = b * r.p.outH * r.p.outW * cout) :
    ∃ out, output n c f inp (.f out0) = some (.f out) ∧ out.length = out0.length ∧
      FloatResult n a r.p inp out := by
  obtain ⟨out, h1, h2, h3⟩ := fresh_indirect_exact ha hk hty ht hml hbl hr hf c hout
  exact ⟨out, h1, h2, h3.fits (ht.corrected ha hr hfit)⟩

/-- **C47**, indirect BGEMM kernel, float output, every geometry `Prepare` accepts; the input must keep its shape and
buffer after the first inference (C20). -/
theorem C47_indirect_float_exact (ha : n.attrs = some a) (hk : n.kt = .indirect) (hty : n.outType = .float32)
    (rs ks : List Call) (hrs : ∀ k ∈ rs, k.isResize) (hks : ∀ k ∈ ks, k.keeps e) {m : Machine}
    (hm : runHistory n (rs ++ .resize e :: ks) Machine.new = some m)
    (ht : TensorsOk n a e inp b h w cout fh fw fd g)
    (hml : n.multData.length = cout) (hbl : n.biasData.length = cout)
    (c : RunCfg) :
    ∃ r, prepare n e = .ok r ∧
      ∀ out0 : List Rat, out0.length = b * r.p.outH * r.p.outW * cout →
        ∃ out, output n c m inp (.f out0) = some (.f out) ∧ out.length = out0.length ∧
          OptResult n a r.p inp out := by
  obtain ⟨f, hf, hout⟩ := C20_indirect_partial n hk e rs ks hrs hks m hm
  obtain ⟨r, hr, _⟩ := resize_eq_some.1 hf
  refine ⟨r, hr, fun out0 h0 => ?_⟩
  rw [hout]
  exact fresh_indirect_exact ha hk hty ht hml hbl hr hf c h0

/-- **C47**, indirect BGEMM kernel, float output (partial: the input must keep its shape and
buffer after the first inference, see C20; with zero padding the effective filter must fit in
the image, see C17). -/
theorem C47_indirect_float_partial (ha : n.attrs = some a) (hk : n.kt = .indirect) (hty : n.outType = .float32)
    (rs ks : List Call) (hrs : ∀ k ∈ rs, k.isResize) (hks : ∀ k ∈ ks, k.keeps e) {m : Machine}
    (hm : runHistory n (rs ++ .resize e :: ks) Machine.new = some m)
    (ht : TensorsOk n a e inp b h w cout fh fw fd g)
    (hml : n.multData.length = cout) (hbl : n.biasData.length = cout)
    (hfit : a.padding = .same → a.padValue = 0 → (fh - 1) * a.dilH + 1 ≤ h ∧ (fw - 1) * a.dilW + 1 ≤ w)
    (c : RunCfg) :
    ∃ r, prepare n e = .ok r ∧
      ∀ out0 : List Rat, out0.length = b * r.p.outH * r.p.outW * cout →
        ∃ out, output n c m inp (.f out0) = some (.f out) ∧ out.length = out0.length ∧
          FloatResult n a r.p inp out := by
  obtain ⟨f, hf, hout⟩ := C20_indirect_partial n hk e rs ks hrs hks m hm
  obtain ⟨r, hr, _⟩ := resize_eq_some.1 hf
  refine ⟨r, hr, fun out0 h0 => ?_⟩
  rw [hout]
  exact fresh_indirect_float ha hk hty ht hml hbl hfit hr hf c h0

end

/-- Non-vacuity of C47: `indirectNode` (C20) with a two-pixel input. -/
example : TensorsOk indirectNode ⟨1, 1, 1, 1, .valid, 1, 32, .none⟩ twoPixels [0#32, 1#32] 1 1 2 4 1 1 1 1 := by
  refine ⟨rfl, rfl, rfl, by decide, by decide, rfl, rfl, ?_, ?_, by decide⟩
  · intro q k c _ hk hc h; simp only at hk h; omega
  · intro q k c _ hk hc h; simp only at hk h; omega

/-- A bitpacked-output node without post-activation tensors, as the converter writes it, with SAME
zero padding, for the reference kernel. -/
def zeroPadBitsNode : Node :=
  { kt := .reference, attrs := some ⟨1, 1, 1, 1, .same, 0, 32, .none⟩, nInputs := 5, inType := .int32,
    filter := ⟨.int32, [1, 1, 1, 1]⟩, filtData := [0#32],
    mult := none, multData := [], bias := none,
    biasData := [], thr := some ⟨.int32, [1]⟩, thrData := [0], outType := .int32, outAffine := false,
    scale := 1, zp := 0 }

/-- Not every node `Prepare` accepts can be evaluated: with bitpacked output and SAME zero padding
the reference kernel's setup reads the absent multiplier tensor (a null pointer), although
`Prepare` accepts the node and the kernel itself would not need the correction. -/
theorem C47_null_multiplier_witness :
    (∃ r, prepare zeroPadBitsNode onePixel = .ok r ∧
      evalRefBits r.p zeroPadBitsNode.thrData [1#32] zeroPadBitsNode.filtData [0#32] = some [1#32]) ∧
    outputAfter zeroPadBitsNode [.resize onePixel] [1#32] (.w [0#32]) = none := by
  refine ⟨⟨_, rfl, ?_⟩, ?_⟩ <;> decide +kernel

end Verif
