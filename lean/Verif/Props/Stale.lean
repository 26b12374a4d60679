import Verif.Proof.Frame
import Verif.Props.OpResult

/-! C20 for the indirect kernel, exactly: what an inference computes after the input was resized or moved following
the first inference. -/

namespace Verif

/-- The node needs no zero-padding correction: SAME padding with `pad_values = 0` is not used. -/
def Node.NoZeroPad (n : Node) : Prop := ∀ a, n.attrs = some a → ¬ (a.padding = .same ∧ a.padValue = 0)

/-- Two pieces of an output tensor of one type, one after the other. -/
def OutBuf.app : OutBuf → OutBuf → OutBuf
  | .f a, .f b => .f (a ++ b)
  | .i a, .i b => .i (a ++ b)
  | .w a, .w b => .w (a ++ b)
  | a, _ => a

/-- A kernel object, once created, stays. -/
theorem kernel_kept (n : Node) {sk : SavedKernel} : ∀ (ks : List Call) {m m' : Machine},
    m.op.kernel = some sk → runHistory n ks m = some m' → m'.op.kernel = some sk
  | [], m, m', h, e => by simp only [runHistory, Option.some.injEq] at e; subst e; exact h
  | .resize i :: ks, m, m', h, e => by
    simp only [runHistory] at e
    obtain ⟨m1, h1, e⟩ := Option.bind_eq_some_iff.1 e
    obtain ⟨r, _, rfl⟩ := resize_eq_some.1 h1
    exact kernel_kept n ks (m := { op := { m.op with p := r.p, setupDone := false }, cur := i }) h e
  | .invoke c inp out :: ks, m, m', h, e => by
    simp only [runHistory] at e
    obtain ⟨x, h1, e⟩ := Option.bind_eq_some_iff.1 e
    refine kernel_kept n ks (m := x.1) ?_ e
    unfold invoke at h1
    simp only [Option.bind_eq_bind, Option.bind_eq_some_iff] at h1
    obtain ⟨a, ha, st, hst, h1⟩ := h1
    have hk : st.kernel = some sk := by
      by_cases hd : m.op.setupDone = true
      · rw [if_pos hd] at hst; cases hst; exact h
      · rw [if_neg hd, oneTimeSetup_eq] at hst
        obtain ⟨v, _, rfl⟩ := Option.map_eq_some_iff.1 hst
        exact h
    cases hkt : n.kt with
    | reference =>
      simp only [hkt] at h1
      obtain ⟨o, _, rfl⟩ := Option.map_eq_some_iff.1 h1
      exact hk
    | bgemm =>
      simp only [hkt] at h1
      obtain ⟨o, _, rfl⟩ := Option.map_eq_some_iff.1 h1
      exact hk
    | indirect =>
      simp only [hkt] at h1
      obtain ⟨⟨st', o⟩, he, rfl⟩ := Option.map_eq_some_iff.1 h1
      unfold evalIndirect at he
      rw [hk] at he
      simp only [Option.bind_eq_bind, Option.bind_eq_some_iff, Option.some.injEq, Prod.mk.injEq] at he
      obtain ⟨sk', rfl, o', _, rfl, _⟩ := he
      rfl

/-- A prepared node without zero padding does not correct. -/
theorem noZeroPad_prepared {n : Node} (hz : n.NoZeroPad) {i : InputDesc} {r : Prepared} (hr : prepare n i = .ok r) :
    r.p.zeroPadding = false := by
  obtain ⟨a, g, ha, _, _, _, _, _, _, _, _, _, _, _, _, rfl⟩ := prepare_eq_ok.1 hr
  have := hz a ha
  unfold BConv.zeroPadding
  show (decide (a.padding = .same) && decide (a.padValue = 0)) = false
  rw [Bool.and_eq_false_iff]
  by_cases h1 : a.padding = .same
  · right
    exact decide_eq_false fun h2 => this ⟨h1, h2⟩
  · left; exact decide_eq_false h1

/-- The state after a history with a first inference at `e`: the kernel object is the one built then. -/
theorem indirect_state (n : Node) (hk : n.kt = .indirect) (e : InputDesc) (rs ks : List Call)
    (hrs : ∀ k ∈ rs, k.isResize) (c0 : RunCfg) (inp0 : List Word) (out0 : OutBuf) (m : Machine)
    (hm : runHistory n (rs ++ .resize e :: .invoke c0 inp0 out0 :: ks) Machine.new = some m) :
    ∃ a r K v, n.attrs = some a ∧ prepare n e = .ok r ∧ setupVals n a.act r.p [] otNew = some v ∧
      mkKernel r.p n.filtData = some K ∧ m.op.kernel = some ⟨K, e.loc, v.2⟩ ∧ Good n a m ∧
      m.cur = currentDesc e ks := by
  rw [runHistory_append] at hm
  obtain ⟨m0, h0, hm⟩ := Option.bind_eq_some_iff.1 hm
  simp only [runHistory] at hm
  obtain ⟨m1, h1, hm⟩ := Option.bind_eq_some_iff.1 hm
  obtain ⟨x, h2, hm⟩ := Option.bind_eq_some_iff.1 hm
  obtain ⟨r, hr, e1⟩ := resize_eq_some.1 h1
  obtain ⟨a, _, ha, _⟩ := prepare_eq_ok.1 hr
  obtain ⟨g0, k0⟩ := resizes_kernel rs hrs (vals_new n a) rfl h0
  obtain ⟨g1, c1⟩ := resize_good g0 h1
  have k1 : m1.op.kernel = none := by subst e1; exact k0
  obtain ⟨g2, c2⟩ := invoke_good ha g1 h2
  -- the kernel created by the first inference
  have hkern : ∃ K v, setupVals n a.act r.p [] otNew = some v ∧ mkKernel r.p n.filtData = some K ∧
      x.1.op.kernel = some ⟨K, e.loc, v.2⟩ := by
    obtain ⟨g3, hc3, hf3⟩ := keeps_good ha hk e [.invoke c0 inp0 out0] (m := m1) (m' := x.1)
      (by intro k hk; simp at hk; subst hk; trivial) g1 c1 (Or.inl k1) (by simp [runHistory, h2])
    rcases hf3 with h | ⟨r', K, ot, pb, hr', hK, hv, hkk⟩
    · exfalso
      unfold invoke at h2
      simp only [ha, Option.bind_eq_bind, Option.bind_some, hk] at h2
      obtain ⟨st, hst, h2⟩ := Option.bind_eq_some_iff.1 h2
      obtain ⟨⟨st', o⟩, he, rfl⟩ := Option.map_eq_some_iff.1 h2
      unfold evalIndirect at he
      simp only [Option.bind_eq_bind, Option.bind_eq_some_iff, Option.some.injEq, Prod.mk.injEq] at he
      obtain ⟨sk, _, o', _, rfl, _⟩ := he
      simp at h
    · rw [hr] at hr'; cases hr'
      exact ⟨K, (pb, ot), hv, hK, hkk⟩
  obtain ⟨K, v, hv, hK, hkk⟩ := hkern
  have hmk := kernel_kept n ks hkk hm
  obtain ⟨gm, cm⟩ := history_good ha ks g2 hm
  rw [c2, c1] at cm
  exact ⟨a, r, K, v, ha, hr, hv, hK, hmk, gm, cm⟩

/-- **C20**, indirect kernel, exactly. Let the first inference happen with the input described by `e`, and then
anything: resizes to other shapes and buffers, inferences. From then on every inference computes what a new interpreter
**with the input shape `e`** computes, from the memory at the old address, into the output buffer: the current shape
plays no role. (`[]`: the old buffer no longer holds the input, so reading from it is undefined.) With C20_history this
says for every history of every kernel without zero padding what the next inference does. -/
theorem C20_indirect_exact (n : Node) (hk : n.kt = .indirect) (hz : n.NoZeroPad) (e : InputDesc) (rs ks : List Call)
    (hrs : ∀ k ∈ rs, k.isResize) (c0 : RunCfg) (inp0 : List Word) (out0 : OutBuf) (m : Machine)
    (hm : runHistory n (rs ++ .resize e :: .invoke c0 inp0 out0 :: ks) Machine.new = some m) :
    ∃ f, freshMachine n e = some f ∧ ∀ c inp out,
      output n c m inp out = output n c f (if (currentDesc e ks).loc = e.loc then inp else []) out := by
  obtain ⟨a, r, K, v, ha, hr, hv, hK, hmk, gm, cm⟩ := indirect_state n hk e rs ks hrs c0 inp0 out0 m hm
  have hfm : freshMachine n e = some { op := { OpData.new with p := r.p, setupDone := false }, cur := e } :=
    resize_eq_some.2 ⟨r, hr, rfl⟩
  refine ⟨_, hfm, fun c inp out => ?_⟩
  obtain ⟨gf, cf⟩ := resize_good (vals_new n a) hfm
  obtain ⟨rm, hrm, hpm⟩ := gm.prepared
  have hvm : setupVals n a.act rm.p [] otNew = some v := by
    rw [← hv]; exact setupVals_congr _ _ (prepare_sameFilter hrm hr) _ _
  unfold output invoke
  simp only [ha, Option.bind_eq_bind, Option.bind_some]
  rw [setup_fresh gm hrm, setup_fresh gf hr, hvm, hv]
  simp only [Option.map_some, Option.bind_some, hk, Option.map_map]
  have hz1 := noZeroPad_prepared hz hr
  have hz2 := noZeroPad_prepared hz hrm
  unfold evalIndirect zpFinish
  simp only [Option.bind_eq_bind, hpm, hmk, OpData.new, hK, Option.map_some, Option.bind_some, hz1, hz2,
    Bool.false_eq_true, if_false, if_true, cm, eq_comm (a := e.loc), Option.map_bind, Function.comp_def]

/-- The node with `pad_values = 1` (one-padding) and everything else the same. -/
def Node.onePad (n : Node) : Node := { n with attrs := n.attrs.map fun a => { a with padValue := 1 } }

theorem prepConv_onePad (a : Attrs) (n : Node) (i : InputDesc) (g : Nat) :
    prepConv { a with padValue := 1 } n.onePad i g = { prepConv a n i g with padValue := 1 } := rfl

theorem prepare_onePad {n : Node} {i : InputDesc} {r : Prepared} (hr : prepare n i = .ok r) :
    prepare n.onePad i = .ok { r with p := { r.p with padValue := 1 } } := by
  obtain ⟨a, g, ha, h1, h2, h3, h4, h5, h6, h7, h8, h9, h10, h11, h12, rfl⟩ := prepare_eq_ok.1 hr
  refine prepare_eq_ok.2 ⟨{ a with padValue := 1 }, g, ?_, h1, h2, h3, h4, h5, h6, h7, ?_, h9, h10, h11, h12, rfl⟩
  · simp [Node.onePad, ha]
  · unfold prepZeroPad
    rw [if_neg (by simp)]

theorem fillIndirection_onePad (p : BConv) (k : Nat) : fillIndirection { p with padValue := 1 } k = fillIndirection p k := rfl

theorem mkKernel_onePad (p : BConv) (filt : List Word) : mkKernel { p with padValue := 1 } filt = mkKernel p filt := rfl

/-- **C20**, indirect kernel with zero padding, exactly. The inference after any later history computes the
**one-padded** convolution of the shape `e` of the first inference (what a new interpreter of the node with
`pad_values = 1` computes at `e`), and then adds the padding corrections of the **current** shape to the output buffer. With
`C20_indirect_exact` this covers every history of the indirect kernel. -/
theorem C20_indirect_zero_exact (n : Node) (hk : n.kt = .indirect) (a : Attrs) (ha : n.attrs = some a)
    (hz : a.padding = .same ∧ a.padValue = 0) (e : InputDesc) (rs ks : List Call)
    (hrs : ∀ k ∈ rs, k.isResize) (c0 : RunCfg) (inp0 : List Word) (out0 : OutBuf) (m : Machine)
    (hm : runHistory n (rs ++ .resize e :: .invoke c0 inp0 out0 :: ks) Machine.new = some m) :
    ∃ f r cache, freshMachine n.onePad e = some f ∧ prepare n (currentDesc e ks) = .ok r ∧
      zpCache r.p n.filtData n.multData (List.replicate (zpCacheSize r.p) 0) = some cache ∧
      ∀ c inp out,
        output n c m inp (.f out) =
          (output n.onePad c f (if (currentDesc e ks).loc = e.loc then inp else []) (.f out)).bind fun o =>
            match o with
            | .f o => (zpApply r.p cache o).map OutBuf.f
            | _ => none := by
  obtain ⟨a', r, K, v, ha', hr, hv, hK, hmk, gm, cm⟩ := indirect_state n hk e rs ks hrs c0 inp0 out0 m hm
  rw [ha] at ha'; cases ha'
  have hr1 := prepare_onePad hr
  have ha1 : n.onePad.attrs = some { a with padValue := 1 } := by simp [Node.onePad, ha]
  have hfm : freshMachine n.onePad e = some { op := { OpData.new with p := { r.p with padValue := 1 }, setupDone := false }, cur := e } :=
    resize_eq_some.2 ⟨_, hr1, rfl⟩
  obtain ⟨rm, hrm, hpm⟩ := gm.prepared
  have hvm : setupVals n a.act rm.p [] otNew = some v := by
    rw [← hv]; exact setupVals_congr _ _ (prepare_sameFilter hrm hr) _ _
  have hfl : n.outType = .float32 := by
    obtain ⟨a2, _, ha2, _, _, _, _, _, _, _, h8, _⟩ := prepare_eq_ok.1 hr
    rw [ha] at ha2; cases ha2
    unfold prepZeroPad at h8
    rw [if_pos hz, hk] at h8
    simp only [reduceCtorEq, decide_false, Bool.false_and, Bool.false_or, ne_eq, not_false_eq_true, decide_true, Bool.true_and,
      Bool.and_eq_true, decide_eq_true_eq] at h8
    exact h8.1
  have hzr : r.p.zeroPadding = true := by
    obtain ⟨a2, _, ha2, _, _, _, _, _, _, _, _, _, _, _, _, rfl⟩ := prepare_eq_ok.1 hr
    rw [ha] at ha2; cases ha2
    unfold BConv.zeroPadding
    show (decide (a.padding = .same) && decide (a.padValue = 0)) = true
    rw [hz.1, hz.2]; rfl
  have hzm : rm.p.zeroPadding = true := by
    obtain ⟨a2, _, ha2, _, _, _, _, _, _, _, _, _, _, _, _, rfl⟩ := prepare_eq_ok.1 hrm
    rw [ha] at ha2; cases ha2
    unfold BConv.zeroPadding
    show (decide (a.padding = .same) && decide (a.padValue = 0)) = true
    rw [hz.1, hz.2]; rfl
  have hvr : vresize [] (zpCacheSize rm.p) = List.replicate (zpCacheSize rm.p) 0 := by simp [vresize]
  have hcache : zpCache rm.p n.filtData n.multData (List.replicate (zpCacheSize rm.p) 0) = some v.1 := by
    have h := hvm
    unfold setupVals at h
    rw [if_pos hzm, hvr] at h
    obtain ⟨pb, hpb, h⟩ := Option.bind_eq_some_iff.1 h
    rw [hpb]
    rw [if_pos (Or.inl hfl)] at h
    simp only [Option.bind_eq_bind, Option.bind_eq_some_iff, Option.some.injEq] at h
    obtain ⟨_, _, _, _, _, _, _, _, rfl⟩ := h
    rfl
  have hv1 : setupVals n.onePad a.act { r.p with padValue := 1 } [] otNew = some ([], v.2) := by
    have h := hv
    unfold setupVals at h ⊢
    have hz0 : ({ r.p with padValue := 1 } : BConv).zeroPadding = false := by simp [BConv.zeroPadding]
    rw [hz0, if_neg (by simp)]
    obtain ⟨pb, hpb, h⟩ := Option.bind_eq_some_iff.1 h
    have hfl1 : n.onePad.outType = .float32 := hfl
    rw [if_pos (Or.inl hfl)] at h
    simp only [Option.bind_eq_bind, Option.bind_some, if_pos (show n.onePad.outType = .float32 ∨ n.onePad.outType = .int8 from Or.inl hfl1)]
    simp only [Option.bind_eq_bind, Option.bind_eq_some_iff, Option.some.injEq] at h
    obtain ⟨k, hk, mb, hmb, c1, hc1, c2, hc2, rfl⟩ := h
    simp only [Option.bind_eq_some_iff, Option.some.injEq]
    exact ⟨k, hk, mb, hmb, c1, hc1, c2, hc2, rfl⟩
  refine ⟨_, rm, v.1, hfm, ?_, hcache, fun c inp out => ?_⟩
  · rw [← cm]; exact hrm
  obtain ⟨gf, cf⟩ := resize_good (vals_new n.onePad { a with padValue := 1 }) hfm
  unfold output invoke
  simp only [ha, ha1, Option.bind_eq_bind, Option.bind_some]
  rw [setup_fresh gm hrm, setup_fresh gf hr1, hvm]
  show _ = ((Option.map _ (Option.bind (Option.map _ (setupVals n.onePad a.act _ [] otNew)) _)).bind _)
  rw [hv1]
  have hk1 : n.onePad.kt = .indirect := hk
  have hfl1 : n.onePad.outType = .float32 := hfl
  have hz0 : ({ r.p with padValue := 1 } : BConv).zeroPadding = false := by simp [BConv.zeroPadding]
  simp only [Option.map_some, Option.bind_some, hk, hk1, Option.map_map]
  unfold evalIndirect zpFinish
  simp only [Option.bind_eq_bind, hpm, hmk, OpData.new, mkKernel_onePad, Option.bind_some, hfl, hfl1, hzm, hz0,
    Bool.false_eq_true, if_false, if_true, cm, eq_comm (a := e.loc), Option.map_bind, Function.comp_def, Option.map_some,
    show n.onePad.filtData = n.filtData from rfl, hK]
  cases iRun K (if (currentDesc e ks).loc = e.loc then inp else []) v.2.runFloat out with
  | none => rfl
  | some o => simp [Option.map_map, Function.comp_def]

/-- A successful inference on a new indirect interpreter does the same in longer buffers, and leaves the rest of the
output alone. -/
theorem output_frame (n : Node) (hk : n.kt = .indirect) (hz : n.NoZeroPad) {e : InputDesc} {f : Machine}
    (hf : freshMachine n e = some f) {c : RunCfg} {inp : List Word} {out o : OutBuf}
    (h : output n c f inp out = some o) (x : List Word) (t : OutBuf) :
    output n c f (inp ++ x) (out.app t) = some (o.app t) := by
  obtain ⟨r, hr, hfe⟩ := resize_eq_some.1 hf
  replace hfe : f = { op := { OpData.new with p := r.p, setupDone := false }, cur := e } := hfe
  subst hfe
  obtain ⟨a, _, ha, _⟩ := prepare_eq_ok.1 hr
  obtain ⟨gf, cf⟩ := resize_good (vals_new n a) hf
  have hz1 := noZeroPad_prepared hz hr
  unfold output invoke at h ⊢
  simp only [ha, Option.bind_eq_bind, Option.bind_some] at h ⊢
  rw [setup_fresh gf hr] at h ⊢
  cases hv : setupVals n a.act r.p [] otNew with
  | none => rw [hv] at h; simp at h
  | some v =>
    rw [hv] at h
    simp only [Option.map_some, Option.bind_some, hk, Option.map_map] at h ⊢
    unfold evalIndirect zpFinish at h ⊢
    simp only [OpData.new, Option.bind_eq_bind, hz1, Bool.false_eq_true, if_false] at h ⊢
    cases hK : mkKernel r.p n.filtData with
    | none => rw [hK] at h; simp at h
    | some K =>
      rw [hK] at h
      simp only [Option.map_some, Option.bind_some, if_true, Option.map_bind, Function.comp_def] at h ⊢
      cases hty : n.outType with
      | other => rw [hty] at h; simp at h
      | float32 =>
        rw [hty] at h
        cases out with
        | f u =>
          simp only [Option.bind_eq_some_iff, Option.map_some] at h
          obtain ⟨o1, ⟨o2, h2, h3⟩, h4⟩ := h
          simp only [Option.some.injEq] at h3 h4
          subst h3; subst h4
          cases t with
          | f t' => simp [OutBuf.app, iRun_append x t' h2]
          | i t' => have := iRun_append x [] h2; simp only [List.append_nil] at this; simp [OutBuf.app, this]
          | w t' => have := iRun_append x [] h2; simp only [List.append_nil] at this; simp [OutBuf.app, this]
        | i u => simp at h
        | w u => simp at h
      | int8 =>
        rw [hty] at h
        cases out with
        | i u =>
          simp only [Option.bind_eq_some_iff, Option.map_eq_some_iff] at h
          obtain ⟨o1, ⟨o2, h2, h3⟩, h4⟩ := h
          simp only [Option.some.injEq] at h4
          subst h3; subst h4
          cases t with
          | i t' => simp [OutBuf.app, iRun_append x t' h2]
          | f t' => have := iRun_append x [] h2; simp only [List.append_nil] at this; simp [OutBuf.app, this]
          | w t' => have := iRun_append x [] h2; simp only [List.append_nil] at this; simp [OutBuf.app, this]
        | f u => simp at h
        | w u => simp at h
      | int32 =>
        rw [hty] at h
        cases out with
        | w u =>
          simp only [Option.bind_eq_some_iff, Option.map_eq_some_iff] at h
          obtain ⟨o1, ⟨o2, h2, h3⟩, h4⟩ := h
          simp only [Option.some.injEq] at h4
          subst h3; subst h4
          cases t with
          | w t' => simp [OutBuf.app, iDispatchBits_append x t' h2]
          | f t' => have := iDispatchBits_append x [] h2; simp only [List.append_nil] at this; simp [OutBuf.app, this]
          | i t' => have := iDispatchBits_append x [] h2; simp only [List.append_nil] at this; simp [OutBuf.app, this]
        | f u => simp at h
        | i u => simp at h

/-- **C20**, indirect kernel: enlarging the input after the first inference. The next inference (same buffer address)
writes the result of the first shape on the first part of the input, and every element of the output past that keeps what
the buffer held before, whatever that was: for every output type. -/
theorem C20_indirect_enlarged (n : Node) (hk : n.kt = .indirect) (hz : n.NoZeroPad) (e : InputDesc) (rs ks : List Call)
    (hrs : ∀ k ∈ rs, k.isResize) (c0 : RunCfg) (inp0 : List Word) (out0 : OutBuf) (m : Machine)
    (hm : runHistory n (rs ++ .resize e :: .invoke c0 inp0 out0 :: ks) Machine.new = some m)
    (hloc : (currentDesc e ks).loc = e.loc) :
    ∃ f, freshMachine n e = some f ∧ ∀ c inp out o, output n c f inp out = some o →
      ∀ x t, output n c m (inp ++ x) (out.app t) = some (o.app t) := by
  obtain ⟨f, hf, h⟩ := C20_indirect_exact n hk hz e rs ks hrs c0 inp0 out0 m hm
  refine ⟨f, hf, fun c inp out o ho x t => ?_⟩
  rw [h, if_pos hloc]
  exact output_frame n hk hz hf ho x t

/-- **C20**, indirect kernel, float output: after the first inference with shape `e`, with the same buffer address, an
inference on a buffer that starts with `inp` writes the convolution of the first shape, leaves the rest of the output
alone, and writes past the end of the output tensor (undefined behaviour) when that is smaller than the first one. -/
theorem C20_indirect_float_exact {n : Node} {a : Attrs} (ha : n.attrs = some a) (hk : n.kt = .indirect)
    (hty : n.outType = .float32) (hz : n.NoZeroPad) {e : InputDesc} {inp : List Word} {b h w cout fh fw fd g : Nat}
    (ht : TensorsOk n a e inp b h w cout fh fw fd g)
    (hml : n.multData.length = cout) (hbl : n.biasData.length = cout)
    (rs ks : List Call) (hrs : ∀ k ∈ rs, k.isResize) (c0 : RunCfg) (inp0 : List Word) (out0 : OutBuf) (m : Machine)
    (hm : runHistory n (rs ++ .resize e :: .invoke c0 inp0 out0 :: ks) Machine.new = some m)
    (hloc : (currentDesc e ks).loc = e.loc) (c : RunCfg) (x : List Word) :
    ∃ r, prepare n e = .ok r ∧
      (∀ out1 : List Rat, out1.length = b * r.p.outH * r.p.outW * cout → ∃ o, FloatResult n a r.p inp o ∧
        o.length = out1.length ∧ ∀ t, output n c m (inp ++ x) (.f (out1 ++ t)) = some (.f (o ++ t))) ∧
      (∀ out1 : List Rat, out1.length < b * r.p.outH * r.p.outW * cout →
        output n c m (inp ++ x) (.f out1) = none) := by
  obtain ⟨f, hf, hall⟩ := C20_indirect_exact n hk hz e rs ks hrs c0 inp0 out0 m hm
  obtain ⟨r, hr, _⟩ := resize_eq_some.1 hf
  refine ⟨r, hr, fun out1 h1 => ?_, fun out1 h1 => ?_⟩
  · obtain ⟨o, ho, hl, hres⟩ := fresh_indirect_float ha hk hty ht hml hbl
      (fun h1 h2 => absurd ⟨h1, h2⟩ (hz a ha)) hr hf c h1
    refine ⟨o, hres, hl, fun t => ?_⟩
    rw [hall, if_pos hloc]
    exact output_frame n hk hz hf ho x (.f t)
  · rw [hall, if_pos hloc]
    by_contra hne
    obtain ⟨o, ho⟩ := Option.ne_none_iff_exists'.1 hne
    obtain ⟨e5, e1⟩ : r.p.cout = cout ∧ r.p.batches = b := by
      obtain ⟨_, _, ⟨e1, _⟩, ⟨e5, _⟩, _⟩ := C21_prepare_result ha ht.dims ht.fdims hr
      exact ⟨e5, e1⟩
    -- the result in a buffer of the right size would have to keep any tail
    have key : ∀ v : Rat, ∃ o', output n c f (inp ++ x) (.f (out1 ++ List.replicate (b * r.p.outH * r.p.outW * cout - out1.length) v)) = some (.f o') ∧
        o'.length = b * r.p.outH * r.p.outW * cout ∧ FloatResult n a r.p inp o' := by
      intro v
      obtain ⟨o', ho', hl, hres⟩ := fresh_indirect_float ha hk hty ht hml hbl
        (fun h1 h2 => absurd ⟨h1, h2⟩ (hz a ha)) hr hf c
        (out0 := out1 ++ List.replicate (b * r.p.outH * r.p.outW * cout - out1.length) v)
        (by rw [List.length_append, List.length_replicate]; omega)
      have := output_frame n hk hz hf ho' x (.f [])
      simp only [OutBuf.app, List.append_nil] at this
      refine ⟨o', this, ?_, hres⟩
      rw [hl, List.length_append, List.length_replicate]; omega
    have hfr : ∀ v : Rat, output n c f (inp ++ x) (.f (out1 ++ List.replicate (b * r.p.outH * r.p.outW * cout - out1.length) v))
        = some (o.app (.f (List.replicate (b * r.p.outH * r.p.outW * cout - out1.length) v))) := by
      intro v
      have := output_frame n hk hz hf ho [] (.f (List.replicate (b * r.p.outH * r.p.outW * cout - out1.length) v))
      rw [List.append_nil] at this
      exact this
    obtain ⟨o1, p1, l1, r1⟩ := key 0
    obtain ⟨o2, p2, l2, r2⟩ := key 1
    have heq : o1 = o2 := by
      apply List.ext_getElem?
      intro k
      by_cases hkk : k < b * r.p.outH * r.p.outW * cout
      · have hc0 : 0 < cout := ht.pos.2.1
        have hw0 : 0 < r.p.outW := by
          rcases Nat.eq_zero_or_pos r.p.outW with h0 | h0
          · rw [h0] at hkk; simp at hkk
          · exact h0
        have hh0 : 0 < r.p.outH := by
          rcases Nat.eq_zero_or_pos r.p.outH with h0 | h0
          · rw [h0] at hkk; simp at hkk
          · exact h0
        have d1 : k / cout < b * r.p.outH * r.p.outW := Nat.div_lt_of_lt_mul (by rw [Nat.mul_comm]; exact hkk)
        have d2 : k / cout / r.p.outW < b * r.p.outH := Nat.div_lt_of_lt_mul (by rw [Nat.mul_comm]; exact d1)
        have d3 : k / cout / r.p.outW / r.p.outH < b := Nat.div_lt_of_lt_mul (by rw [Nat.mul_comm]; exact d2)
        have m1 := Nat.mod_lt k hc0
        have m2 := Nat.mod_lt (k / cout) hw0
        have m3 := Nat.mod_lt (k / cout / r.p.outW) hh0
        have ek : ((k / cout / r.p.outW / r.p.outH * r.p.outH + k / cout / r.p.outW % r.p.outH) * r.p.outW
            + k / cout % r.p.outW) * cout + k % cout = k := by
          rw [Nat.div_add_mod' (k / cout / r.p.outW), Nat.div_add_mod' (k / cout), Nat.div_add_mod' k]
        have a1 := r1 _ _ _ _ (by rw [e1]; exact d3) m3 m2 (by rw [e5]; exact m1)
        have a2 := r2 _ _ _ _ (by rw [e1]; exact d3) m3 m2 (by rw [e5]; exact m1)
        rw [e5, ek] at a1 a2
        rw [a1, a2]
      · rw [List.getElem?_eq_none (by omega), List.getElem?_eq_none (by omega)]
    rw [hfr 0] at p1
    rw [hfr 1] at p2
    rw [heq, ← p2] at p1
    cases o with
    | f u =>
      simp only [OutBuf.app, Option.some.injEq, OutBuf.f.injEq, List.append_cancel_left_eq] at p1
      have hp : 0 < b * r.p.outH * r.p.outW * cout - out1.length := by omega
      generalize b * r.p.outH * r.p.outW * cout - out1.length = N at p1 hp
      cases N with
      | zero => omega
      | succ N => simp [List.replicate_succ] at p1
    | i u =>
      simp only [OutBuf.app] at p2
      cases p2
    | w u =>
      simp only [OutBuf.app] at p2
      cases p2

/-- The hypotheses are met: two resizes, an inference, then a larger input at the same address; the second pixel keeps the
sevens. -/
example : indirectNode.NoZeroPad ∧
    outputAfter indirectNode [.resize onePixelMoved, .resize onePixel, .invoke witCfg [0#32] (.f [0, 0, 0, 0]),
        .resize twoPixels] [1#32, 3#32] (.f [5, 5, 5, 5, 7, 7, 7, 7]) = some (.f [30, 30, 30, 30, 7, 7, 7, 7]) ∧
    outputAfter indirectNode [.resize twoPixels, .invoke witCfg [0#32, 0#32] (.f [0, 0, 0, 0, 0, 0, 0, 0]),
        .resize onePixel] [1#32] (.f [5, 5, 5, 5]) = none := by
  refine ⟨?_, ?_, ?_⟩
  · intro a ha h
    cases ha
    simp at h
  · decide +kernel
  · decide +kernel

/-- A 1 x 2 convolution with SAME zero padding, indirect kernel. -/
def indirectZeroNode : Node :=
  { indirectNode with
    attrs := some ⟨1, 1, 1, 1, .same, 0, 32, .none⟩
    filter := ⟨.int32, [4, 1, 2, 1]⟩
    filtData := [0#32, 0#32, 0#32, 0#32, 0#32, 0#32, 0#32, 0#32] }

/-- With zero padding: the first inference has two pixels, then the input is enlarged to three. The second pixel should
be 58 and is the 60 of one-padding the narrow image (no longer corrected); the third should be 30 and is what the buffer held (7)
with the correction -32 added. -/
example : (indirectZeroNode.attrs.map fun a => decide (a.padding = .same ∧ a.padValue = 0)) = some true ∧
    outputAfter indirectZeroNode [.resize twoPixels, .invoke witCfg [0#32, 0#32] (.f [0, 0, 0, 0, 0, 0, 0, 0]),
        .resize ⟨[1, 1, 3, 1], false, 0⟩] [1#32, 3#32, 1#32] (.f [5, 5, 5, 5, 5, 5, 5, 5, 7, 7, 7, 7]) =
      some (.f [58, 58, 58, 58, 60, 60, 60, 60, -25, -25, -25, -25]) ∧
    outputAfter indirectZeroNode [.resize ⟨[1, 1, 3, 1], false, 0⟩] [1#32, 3#32, 1#32]
        (.f [5, 5, 5, 5, 5, 5, 5, 5, 7, 7, 7, 7]) =
      some (.f [58, 58, 58, 58, 58, 58, 58, 58, 30, 30, 30, 30]) := by
  refine ⟨by decide, ?_, ?_⟩
  · decide +kernel
  · decide +kernel

end Verif
