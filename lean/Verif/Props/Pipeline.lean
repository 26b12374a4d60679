import Verif.Proof.Pipeline

/-!
C69 (and C61, C64 for all passes): the converter's passes in their order (`/repo/larq_compute_engine/mlir/tf_tfl_passes.cc:26-76, 121-291`).
-/

namespace Verif.Ir

/-! ### The passes before and after the weights are packed -/

/-- The passes up to the second optimization. -/
def beforePacking : List PassKind :=
  [.foreign, .opRemoval, .canonicalize, .foreign, .prepare, .foreign, .canonicalize, .foreign, .optimize, .foreign, .optimize]

/-- The passes after the weights are packed. -/
def afterPacking (quant ranges : Bool) : List PassKind :=
  [.foreign, .canonicalize, .fusePadding] ++
  (if quant then quantizationPasses ranges ++ [.quantForeign] else []) ++ [.canonicalize]

theorem conversion_split (quant ranges : Bool) :
    conversionPasses quant ranges = beforePacking ++ .bitpackWeights :: afterPacking quant ranges := by
  cases quant <;> cases ranges <;> rfl

theorem early_all : ∀ p ∈ beforePacking, p.early = true := by decide

theorem late_all (quant ranges : Bool) : ∀ p ∈ afterPacking quant ranges, p.late = true := by
  cases quant <;> cases ranges <;> decide

theorem Early.start {arm : Bool} {ins vs : List Val} {g : Graph} (hg : g.Ssa) (hn : ∀ n ∈ g.nodes, n.op.isBConv = false)
    (hv : g.eval ins = some vs) : Early arm ins vs g :=
  ⟨hg, hv, noBConv_paramsFixed hn, fun _ => False, fun _ h => h.elim, fun n hm hb => by rw [hn n hm] at hb; cases hb⟩

section

variable {arm : Bool} {F : Foreign} {safe : List Val → Prop}

/-- A run of all passes, at the two sides of the pass that packs weights. -/
theorem runs_split {quant ranges : Bool} {g g' : Graph} (h : PassRuns arm F safe (conversionPasses quant ranges) g g') :
    ∃ k1 k2, PassRuns arm F safe beforePacking g k1 ∧ PassRun arm F safe .bitpackWeights k1 k2 ∧
      PassRuns arm F safe (afterPacking quant ranges) k2 g' := by
  rw [conversion_split] at h
  obtain ⟨k1, h1, h2⟩ := passRuns_append h
  cases h2 with
  | cons h2 h3 => exact ⟨k1, _, h1, h2, h3⟩

/-- **C69, weights.** A graph without BConv2D that has a value for some arguments is converted by all passes, with or
without quantization; the passes of TensorFlow and TFLite may do anything that does not concern BConv2D, and those before
quantization keep values. In the result the filter of every BConv2D is a bitpacked constant with four dimensions, and its
padding is VALID, SAME with ones, or, only for Arm, SAME with zeros, and the runtime implements its activation. -/
theorem C69_weights (quant ranges : Bool) (hF : ForeignOk F) {g g' : Graph} (hg : g.Ssa)
    (hn : ∀ n ∈ g.nodes, n.op.isBConv = false) (hv : ∃ ins vs, safe ins ∧ g.eval ins = some vs)
    (h : PassRuns arm F safe (conversionPasses quant ranges) g g') : g'.PackedFilters ∧ g'.PaddingOk arm ∧ g'.ActivationsOk := by
  obtain ⟨ins, vs, hi, hv⟩ := hv
  obtain ⟨k1, k2, h1, h2, h3⟩ := runs_split h
  exact (passes_late hF (late_all quant ranges) h3
    (pass_bitpack hF h2 hi (passes_early hF hi early_all h1 (Early.start hg hn hv))).2).packed

/-- Every pass but those that quantize keeps well-formedness, values and fixed parameters. -/
theorem passes_keep (hF : ForeignOk F) {ins vs : List Val} (hi : safe ins) : ∀ {ps : List PassKind} {g g' : Graph},
    (∀ p ∈ ps, p ≠ .quantForeign) → PassRuns arm F safe ps g g' → g.Ssa → g.eval ins = some vs → g.ClosedParams →
    g'.Ssa ∧ g'.eval ins = some vs ∧ g'.ClosedParams
  | [], _, _, _, .nil _, h1, h2, h3 => ⟨h1, h2, h3⟩
  | p :: ps, g, g', hp, .cons h hs, h1, h2, h3 => by
    have hq : p ≠ .quantForeign := hp p (by simp)
    obtain ⟨hst, _⟩ := h
    rw [if_neg hq] at hst
    exact passes_keep hF hi (fun q hq => hp q (by simp [hq])) hs (steps_ssa (pass_local hF p) hst h1)
      (steps_eval (pass_local hF p) (pass_sound hF hq) hst h1 hi h2) (steps_closed (pass_local hF p) (pass_keeps hF hq) hst h1 h3)

/-- **C61, all passes.** Without quantization, the converted graph has the results of the original one for all arguments for
which no rewriting step was exceptional. -/
theorem C61_pipeline_partial (ranges : Bool) (hF : ForeignOk F) {g g' : Graph} (hg : g.Ssa)
    (hn : ∀ n ∈ g.nodes, n.op.isBConv = false) (h : PassRuns arm F safe (conversionPasses false ranges) g g')
    {ins vs : List Val} (hi : safe ins) (hv : g.eval ins = some vs) : g'.Ssa ∧ g'.eval ins = some vs := by
  have := passes_keep hF hi (by cases ranges <;> decide) h hg hv (noBConv_paramsFixed hn)
  exact ⟨this.1, this.2.1⟩

theorem runs_last {ps : List PassKind} {p : PassKind} (hp : p.isForeign = false) {g g' : Graph}
    (h : PassRuns arm F safe (ps ++ [p]) g g') : g'.Finished (p.rules arm F) := by
  obtain ⟨k, _, h2⟩ := passRuns_append h
  cases h2 with
  | cons h2 h3 =>
    cases h3
    exact h2.2 hp

/-- **C69, parameters.** Without quantization, all operations of the result are used, and filter, multiplier, bias and
thresholds of every BConv2D are constants. -/
theorem C69_constants (ranges : Bool) (hF : ForeignOk F) {g g' : Graph} (hg : g.Ssa)
    (hn : ∀ n ∈ g.nodes, n.op.isBConv = false) (hv : ∃ ins vs, safe ins ∧ g.eval ins = some vs)
    (h : PassRuns arm F safe (conversionPasses false ranges) g g') :
    (∀ n ∈ g'.nodes, 0 < g'.uses n.name) ∧ g'.ConstParams := by
  obtain ⟨ins, vs, hi, hv⟩ := hv
  obtain ⟨h1, h2, h3⟩ := passes_keep hF hi (by cases ranges <;> decide) h hg hv (noBConv_paramsFixed hn)
  have hfin : g'.Finished (PassKind.rules arm F .canonicalize) := runs_last rfl h
  have hf : g'.Folded := fun pre n post he => hfin.2 ruleFold (fold_mem rfl) pre n post he
  exact ⟨hfin.1, folded_params h1 hf (all_defined h1 hfin.1 h2 g'.nodes [] rfl) h3⟩

/-- **C64, from the original graph to the interpreter.** A graph without BConv2D is converted by all passes (no
quantization). An interpreter with any of the kernels has gone through any history of inferences and `Prepare` calls. Then
an inference with arguments for which no rewriting step was exceptional and no node is among the excluded cases of C63 is
refused exactly in the cases listed there, and otherwise writes the results of the original graph. -/
theorem C64_pipeline_partial (ranges : Bool) (hF : ForeignOk F) {g g' : Graph} (hg : g.Ssa)
    (hn : ∀ n ∈ g.nodes, n.op.isBConv = false) (h : PassRuns arm F safe (conversionPasses false ranges) g g')
    (D : Nat → InputDesc) {kt : KernelType} {es : List Event} {st : State} (hst : g'.session kt es State.new = some st)
    (hes : ∀ cfg k ins, Event.infer cfg k ins ∈ es → kt = .indirect → g'.InputsAt { cfg with kt := kt } ins D)
    {cfg : Cfg} {ins vs : List Val} {mins : List MVal} (hin : InScope kt g g' safe D cfg ins mins vs) (k : Calls) :
    (g'.Rejected cfg ins → (g'.step cfg k mins st).1 = .error) ∧
    (¬ g'.Rejected cfg ins → ∃ ms, (g'.step cfg k mins st).1 = .ok ms ∧ List.Forall₂ Rep vs ms) := by
  obtain ⟨h1, h2⟩ := C61_pipeline_partial ranges hF hg hn h hin.safe hin.results
  obtain ⟨hu, hc⟩ := C69_constants ranges hF hg hn ⟨ins, vs, hin.safe, hin.results⟩ h
  rw [C64_history kt h1 hc D hst hes hin.kernel k mins hin.inputs]
  exact C63_inference h1 hu hin.scheduled (hin.kernel ▸ hin.tame) hin.tensors h2

/-! ### What the passes have done when they end -/

/-- Operands of a node with two operands. -/
theorem args2 {args : List Nat} {env : Env} {a b : Val} (h : args.mapM env = some [a, b]) :
    ∃ x y, args = [x, y] ∧ env x = some a ∧ env y = some b := by
  rcases args with _ | ⟨x, _ | ⟨y, _ | ⟨z, r⟩⟩⟩
  case cons.cons.nil =>
    obtain ⟨v, vs, h1, h2, h3⟩ := mapM_cons_some h
    cases h3
    obtain ⟨v, vs, h4, h5, h6⟩ := mapM_cons_some h2
    cases h6
    exact ⟨x, y, rfl, h1, h4⟩
  all_goals
    exfalso
    simp only [mapM_cons', mapM_nil', Option.bind_eq_some_iff, Option.map_eq_some_iff] at h
    simp at h

/-- The operand of a node with one operand. -/
theorem args1 {args : List Nat} {env : Env} {a : Val} (h : args.mapM env = some [a]) : ∃ x, args = [x] ∧ env x = some a := by
  rcases args with _ | ⟨x, _ | ⟨y, r⟩⟩
  case cons.nil =>
    obtain ⟨v, vs, h1, h2, h3⟩ := mapM_cons_some h
    cases h3
    exact ⟨x, rfl, h1⟩
  all_goals
    exfalso
    simp only [mapM_cons', mapM_nil', Option.bind_eq_some_iff, Option.map_eq_some_iff] at h
    simp at h

/-- After optimization, no comparison and (for Arm) no max pool is left between a quantization and its input. -/
theorem finished_quantize {g : Graph} (hg : g.Ssa) (hfin : g.Finished (PassKind.rules arm F .optimize)) {ins vs : List Val}
    (hv : g.eval ins = some vs) : ¬ g.QuantizeLeft arm := by
  rintro ⟨n, hn, y, hy, ho, ha, hu, h⟩
  obtain ⟨pre, post, he⟩ := List.append_of_mem hn
  have hl : lookIn pre y.name = some y := look_arg hg he hy (by rw [ha]; simp)
  obtain ⟨v, hyv⟩ := all_defined hg hfin.1 hv g.nodes [] rfl y hy
  rw [hg.scoped.defs ins hy] at hyv
  obtain ⟨l, k1, k2, _⟩ := node_eval hyv
  obtain ⟨nm, o, as, ty⟩ := n
  simp only at ho ha
  subst ho ha
  obtain ⟨ynm, yo, yas, yty⟩ := y
  simp only at h hl k1 k2 hu he
  rcases h with rfl | rfl | ⟨rfl, a, act, rfl⟩
  · have hl2 : ∃ a b, l = [a, b] := by
      replace k2 : geEval l = some v := k2
      unfold geEval at k2
      split at k2
      · exact ⟨_, _, rfl⟩
      · cases k2
    obtain ⟨a, b, rfl⟩ := hl2
    obtain ⟨x, z, rfl, _⟩ := args2 k1
    have := hfin.2 ruleGe (by simp [PassKind.rules, optimizeRules]) pre _ post he
    simp [ruleGe, hl, hu] at this
  · have hl2 : ∃ a b, l = [a, b] := by
      replace k2 : leEval l = some v := k2
      unfold leEval at k2
      split at k2
      · exact ⟨_, _, rfl⟩
      · cases k2
    obtain ⟨a, b, rfl⟩ := hl2
    obtain ⟨x, z, rfl, _⟩ := args2 k1
    have := hfin.2 ruleLe (by simp [PassKind.rules, optimizeRules]) pre _ post he
    simp [ruleLe, hl, hu] at this
  · have hl2 : ∃ a, l = [a] := by
      replace k2 : maxPoolEval a act l = some v := k2
      unfold maxPoolEval at k2
      split at k2
      · exact ⟨_, rfl⟩
      · cases k2
    obtain ⟨b, rfl⟩ := hl2
    obtain ⟨x, rfl, _⟩ := args1 k1
    have := hfin.2 ruleMaxPool (by simp [PassKind.rules, optimizeRules]) pre _ post he
    simp [ruleMaxPool, hl, hu] at this

/-- A BConv2D whose result is not binary has a float multiplier and bias and no thresholds. -/
theorem bconv_float {a : BConvAttrs} {vx vf vm vb vt v : Val} (h : bconvEval a [vx, vf, vm, vb, vt] = some v)
    (hs : ∀ t, v ≠ .s t) : ∃ mt bt, vm = .f mt ∧ vb = .f bt ∧ vt = .none := by
  unfold bconvEval at h
  split at h
  · rename_i heq
    cases heq
    split at h
    · split at h
      · rw [Option.bind_eq_some_iff] at h
        obtain ⟨p, _, h⟩ := h
        simp only at h
        split at h
        · exact ⟨_, _, rfl, rfl, rfl⟩
        · split at h
          · cases h
            exact absurd rfl (hs _)
          · cases h
        · cases h
      · cases h
    · cases h
  · cases h

theorem filter_const {B : Op → Prop} {g : Graph} (h : g.Chained FloatConst B) {n : Node} (hn : n ∈ g.nodes)
    (hb : n.op.isBConv = true) : B n.op ∧ ∃ f, n.args[1]? = some f ∧ ∃ m ∈ g.nodes, m.name = f ∧ ∃ t, m.op = .const (.f t) := by
  obtain ⟨C, hC, hB⟩ := h
  obtain ⟨h1, f, h2, h3⟩ := hB n hn hb
  obtain ⟨m, m1, m2, m3, _⟩ := hC f h3
  refine ⟨h1, f, h2, m, m1, m2, ?_⟩
  unfold FloatConst at m3
  split at m3
  · rename_i t ht
    exact ⟨t, ht⟩
  · exact m3.elim

theorem node_unique {g : Graph} (hg : g.Ssa) {a b : Node} (ha : a ∈ g.nodes) (hb : b ∈ g.nodes) (e : a.name = b.name) : a = b := by
  have h1 := lookIn_mem hg.1 ha
  rw [e, lookIn_mem hg.1 hb] at h1
  exact (Option.some.inj h1).symm

/-- After optimization, nothing that could be part of a BConv2D is left after it. -/
theorem finished_fused {g : Graph} {ins vs : List Val} (hE : Early arm ins vs g)
    (hfin : g.Finished (PassKind.rules arm F .optimize)) : ¬ g.BConvUserLeft := by
  have hg := hE.ssa
  have hf : g.Folded := fun pre n post he => hfin.2 ruleFold (fold_mem rfl) pre n post he
  have hdef := all_defined hg hfin.1 hE.value g.nodes [] rfl
  have hcp := folded_params hg hf hdef hE.closed
  rintro ⟨n, hn, y, hy, a, rest, hyo, hna, hu, h⟩
  obtain ⟨pre, post, he⟩ := List.append_of_mem hn
  have hyn : y.name ∈ n.args := by rw [hna]; simp
  have hl : lookIn pre y.name = some y := look_arg hg he hy hyn
  obtain ⟨vy, hvy⟩ := hdef y hy
  obtain ⟨x, f, m, b, t, vx, vf, vm, vb, vt, hya, hev, _, hvf, hvm, hvb, hvt⟩ := bconv_args hg hy hyo hvy
  have hb : y.op.isBConv = true := by rw [hyo]; rfl
  -- the parameters are constants
  have hconst : ∀ z ∈ [f, m, b, t], ∀ w, runNodes ins g.nodes (fun _ => Option.none) z = some w →
      Ctx.constOf ⟨lookIn pre, g.uses⟩ z = some w := by
    intro z hz w hw
    obtain ⟨c, c1, rfl, c3, v, c4, _⟩ := hcp y hy hb z (by rw [hya]; simpa using hz)
    rw [const_run hg c1 c3 c4 hw]
    exact const_of_look (look_arg2 hg he hy hyn c1 (by rw [hya]; exact List.mem_cons_of_mem _ hz)) c3 c4
  have cf := hconst f (by simp) vf hvf
  have cm := hconst m (by simp) vm hvm
  have cb := hconst b (by simp) vb hvb
  have ct := hconst t (by simp) vt hvt
  -- the filter is a float constant
  obtain ⟨hpad, f', hf', c, c1, c2, ft, c4⟩ := filter_const hE.chained hy hb
  rw [hya] at hf'
  simp only [List.getElem?_cons_succ, List.getElem?_cons_zero, Option.some.injEq] at hf'
  subst hf'
  have hvf' : vf = .f ft := by
    obtain ⟨c', c1', c2', c3', v, c4', _⟩ := hcp y hy hb f (by rw [hya]; simp)
    have : c = c' := node_unique hg c1 c1' (c2.trans c2'.symm)
    subst this
    exact const_run hg c1 c3' c4 (c2 ▸ hvf)
  subst hvf'
  -- the values of the user's operands
  obtain ⟨v, hv⟩ := hdef n hn
  rw [hg.scoped.defs ins hn] at hv
  obtain ⟨l, k1, k2, _⟩ := node_eval hv
  rw [hna] at k1
  obtain ⟨vy', ws, k3, k4, rfl⟩ := mapM_cons_some k1
  rw [hvy] at k3
  cases k3
  rw [hyo] at hpad
  replace hpad := (show padKinds arm a from hpad).2
  obtain ⟨nm, o, as, ty⟩ := n
  obtain ⟨ynm, yo, yas, yty⟩ := y
  simp only at hna hyo hya hl hu k2 h he
  subst hna hyo hya
  rcases h with ⟨rfl, rfl, hp⟩ | ⟨op, w, wt, rfl, rfl, d, d1, d2, d3, d4⟩ |
      ⟨ac, x', f', m', b', th', mt, bt, rfl, hac, rfl, han, hargs, ⟨d, d1, d2, d3, d4⟩, hmt, ⟨e, e1, e2, e3, e4⟩, hbt, hp⟩
  · obtain ⟨mt, bt, rfl, rfl, rfl⟩ := bconv_float hev (by
      rintro t rfl
      cases k4
      cases k2)
    rcases hpad with ⟨p1, p2⟩ | ⟨p1, p2⟩ | ⟨_, p1, p2⟩
    · have := hfin.2 (ruleBitpackActivations false) (by simp [PassKind.rules, optimizeRules]) pre _ post he
      simp [ruleBitpackActivations, hl, cf, cm, cb, ct, hu, p1, p2] at this
    · have := hfin.2 (ruleBitpackActivations true) (by simp [PassKind.rules, optimizeRules]) pre _ post he
      simp [ruleBitpackActivations, hl, cf, cm, cb, ct, hu, p1, p2] at this
    · exact hp ⟨p1, p2⟩
  · have hcw : Ctx.constOf ⟨lookIn pre, g.uses⟩ w = some (.f wt) := by
      subst d2
      exact const_of_look (look_arg hg he d1 (by simp)) d3 d4
    obtain ⟨mt, bt, rfl, rfl, rfl⟩ := bconv_float hev (by
      rintro t rfl
      obtain ⟨_, _, _, _, rfl⟩ := mapM_cons_some k4
      cases k2)
    cases op
    · have := hfin.2 (ruleFuseAddSub false) (by simp [PassKind.rules, optimizeRules]) pre _ post he
      simp [ruleFuseAddSub, hl, cb, hcw, hu] at this
    · have := hfin.2 (ruleFuseAddSub true) (by simp [PassKind.rules, optimizeRules]) pre _ post he
      simp [ruleFuseAddSub, hl, cb, hcw, hu] at this
    · have := hfin.2 (ruleFuseMulDiv false) (by simp [PassKind.rules, optimizeRules]) pre _ post he
      simp [ruleFuseMulDiv, hl, cm, cb, hcw, hu] at this
    · have := hfin.2 (ruleFuseMulDiv true) (by simp [PassKind.rules, optimizeRules]) pre _ post he
      simp [ruleFuseMulDiv, hl, cm, cb, hcw, hu] at this
  · cases hargs
    have hm' : vm = .f mt := const_run hg d1 d3 d4 (d2.symm ▸ hvm)
    have hb' : vb = .f bt := const_run hg e1 e3 e4 (e2.symm ▸ hvb)
    subst hm' hb'
    have h1 : isConstantValue mt.data 1 = true := by simpa [isConstantValue] using hmt
    have h0 : isConstantValue bt.data 0 = true := by simpa [isConstantValue] using hbt
    have hpp : a.padding = .valid ∨ (a.padding = .same ∧ a.padValue = 1) := by
      rcases hpad with ⟨p1, p2⟩ | ⟨p1, p2⟩ | ⟨_, p1, p2⟩
      · exact Or.inl p1
      · exact Or.inr ⟨p1, p2⟩
      · exact absurd ⟨p1, p2⟩ hp
    have := hfin.2 (ruleFuseAct ac) (by
      simp only [List.mem_cons, List.not_mem_nil, or_false] at hac
      rcases hac with rfl | rfl | rfl <;> simp [PassKind.rules, optimizeRules]) pre _ post he
    simp [ruleFuseAct, hl, cm, cb, hu, h1, h0, han, hpp] at this

theorem whole_groups {cin ci : Nat} (hp : 0 < ci) (h : ci = cin ∨ (ci ∣ cin ∧ 32 ∣ ci)) : hasValidFilterShape cin ci = true := by
  unfold hasValidFilterShape
  rcases h with rfl | ⟨h1, h2⟩
  · simp [Nat.div_self hp]
  · simp [Nat.mod_eq_zero_of_dvd h1, Nat.mod_eq_zero_of_dvd h2]

/-- After preparation, no convolution is left that could be binary. -/
theorem finished_prepare {g : Graph} (hg : g.Ssa) (hfin : g.Finished (PassKind.rules arm F .prepare)) : ¬ g.FloatConvLeft arm := by
  rintro ⟨n, hn, y, hy, a, f, x, d0, d1, d2, cin, fh, fw, ci, co, fd, ho, ha, hyo, hya, hyt, ⟨c, c1, c2, c3, c4⟩, hw, h0, hs, hp⟩
  obtain ⟨pre, post, he⟩ := List.append_of_mem hn
  have hl : lookIn pre y.name = some y := look_arg hg he hy (by rw [ha]; simp)
  have hc : Ctx.constOf ⟨lookIn pre, g.uses⟩ f = some (.f ⟨[fh, fw, ci, co], fd⟩) := by
    subst c2
    exact const_of_look (look_arg hg he c1 (by rw [ha]; simp)) c3 c4
  have hbin : isBinaryFilter fh fw ci co fd = true := by
    rw [isBinaryFilter_iff]
    intro h w i o h1 h2 h3 h4
    obtain ⟨w1, w2⟩ := hw h w i o h1 h2 h3 h4
    have hz : hwio fw ci co 0 0 0 o = o := by simp [hwio]
    rw [hz]
    refine ⟨w2, ?_⟩
    rw [abs_div]
    have : |fd.getD (hwio fw ci co h w i o) 0| = |fd.getD o 0| := w1
    rw [this, div_self (ne_of_gt (lt_trans (by norm_num) w2))]
    norm_num [tolerance]
  have hvs := whole_groups h0 hs
  obtain ⟨nm, o, as, ty⟩ := n
  obtain ⟨ynm, yo, yas, yty⟩ := y
  simp only at ho ha hyo hya hyt hl he
  subst ho ha hyo hya hyt
  rcases hp with hp | ⟨rfl, hp⟩
  · have := hfin.2 (rulePrepare false) (by simp [PassKind.rules]) pre _ post he
    simp [rulePrepare, hl, hc, hp, hbin, hvs] at this
  · have := hfin.2 (rulePrepare true) (by simp [PassKind.rules]) pre _ post he
    simp [rulePrepare, hl, hc, hp, hbin, hvs] at this

theorem passes_ssa (hF : ForeignOk F) {ps : List PassKind} {g g' : Graph} (h : PassRuns arm F safe ps g g') (hg : g.Ssa) :
    g'.Ssa := by
  induction h with
  | nil => exact hg
  | cons h _ ih => exact ih (steps_ssa (pass_local hF _) h.1 hg)

/-- **C69, binarization.** During every conversion there is a moment, before the optimization passes, when no convolution
is left that could be binary. -/
theorem C69_binarized {quant ranges : Bool} (hF : ForeignOk F) {g g' : Graph} (hg : g.Ssa)
    (h : PassRuns arm F safe (conversionPasses quant ranges) g g') :
    ∃ l1 l2 k, conversionPasses quant ranges = l1 ++ l2 ∧ PassRuns arm F safe l1 g k ∧ PassRuns arm F safe l2 k g' ∧
      PassKind.optimize ∉ l1 ∧ ¬ k.FloatConvLeft arm := by
  have hsp : conversionPasses quant ranges = [.foreign, .opRemoval, .canonicalize, .foreign, .prepare] ++
      ([.foreign, .canonicalize, .foreign, .optimize, .foreign, .optimize] ++ .bitpackWeights :: afterPacking quant ranges) := by
    rw [conversion_split]; rfl
  rw [hsp] at h
  obtain ⟨k, h1, h2⟩ := passRuns_append h
  exact ⟨_, _, k, hsp, h1, h2, by decide, finished_prepare (F := F) (passes_ssa hF h1 hg)
    (runs_last (ps := [.foreign, .opRemoval, .canonicalize, .foreign]) rfl h1)⟩

/-- **C69, fusion.** During every conversion there is a moment, just before the weights are packed, when nothing is left
that could be part of a BConv2D before it, and no comparison or (for Arm) max pool between a quantization and its input. -/
theorem C69_fused {quant ranges : Bool} (hF : ForeignOk F) {g g' : Graph} (hg : g.Ssa)
    (hn : ∀ n ∈ g.nodes, n.op.isBConv = false) (hv : ∃ ins vs, safe ins ∧ g.eval ins = some vs)
    (h : PassRuns arm F safe (conversionPasses quant ranges) g g') :
    ∃ l1 l2 k, conversionPasses quant ranges = l1 ++ .bitpackWeights :: l2 ∧ PassRuns arm F safe l1 g k ∧
      PassRuns arm F safe (.bitpackWeights :: l2) k g' ∧ ¬ k.BConvUserLeft ∧ ¬ k.QuantizeLeft arm := by
  obtain ⟨ins, vs, hi, hv⟩ := hv
  rw [conversion_split] at h
  obtain ⟨k, h1, h2⟩ := passRuns_append h
  have hE := passes_early hF hi early_all h1 (Early.start (arm := arm) hg hn hv)
  have hfin : k.Finished (PassKind.rules arm F .optimize) := by
    have : beforePacking = beforePacking.dropLast ++ [.optimize] := by decide
    rw [this] at h1
    exact runs_last rfl h1
  exact ⟨_, _, k, conversion_split quant ranges, h1, h2, finished_fused hE hfin, finished_quantize hE.ssa hfin hE.value⟩

/-- **C69, runs exist.** Every pass of `/repo` can be run to its end on every well-formed graph, so every well-formed graph
can be converted. -/
theorem C69_converts (arm quant ranges : Bool) (F : Foreign) {g : Graph} (hg : g.Ssa) :
    ∃ g', PassRuns arm F (fun _ => False) (conversionPasses quant ranges) g g' := by
  have : ∀ (ps : List PassKind) {g : Graph}, g.Ssa → ∃ g', PassRuns arm F (fun _ => False) ps g g' := by
    intro ps
    induction ps with
    | nil => exact fun _ => ⟨_, .nil _⟩
    | cons p ps ih =>
      intro g hg
      obtain ⟨k, h1, h2⟩ := pass_exists arm F p hg
      obtain ⟨g', h3⟩ := ih h2
      exact ⟨g', .cons h1 h3⟩
  exact this _ hg

end

/-! ### An example, and what the passes leave behind -/

/-- A check that a graph is finished. -/
def finishedB (rules : List Rule) (g : Graph) : Bool :=
  g.nodes.all (fun n => decide (0 < g.uses n.name)) &&
  rules.all fun r => (List.range g.nodes.length).all fun i =>
    match g.nodes.drop i with
    | n :: _ => (r.apply ⟨lookIn (g.nodes.take i), g.uses⟩ n).isNone
    | [] => true

theorem finished_of_check {rules : List Rule} {g : Graph} (h : finishedB rules g = true) : g.Finished rules := by
  unfold finishedB at h
  simp only [Bool.and_eq_true, List.all_eq_true, decide_eq_true_eq, List.mem_range] at h
  refine ⟨h.1, fun r hr pre n post he => ?_⟩
  have := h.2 r hr pre.length (by rw [he]; simp)
  rw [he] at this
  simp only [List.drop_left, List.take_left] at this
  simpa using this

/-- The first rewriting that is possible and not exceptional. -/
def greedyStep (rules : List Rule) (g : Graph) : Option Graph :=
  rules.findSome? fun r => (List.range g.nodes.length).findSome? fun i => g.move true (.rewrite r i)

/-- A driver: it removes what is unused and rewrites, at most so many times. -/
def greedy (rules : List Rule) : Nat → Graph → Graph
  | 0, g => g.dce g.nodes.length
  | k + 1, g =>
    match greedyStep rules (g.dce g.nodes.length) with
    | some g' => greedy rules k g'
    | Option.none => g.dce g.nodes.length

theorem greedy_steps {rules : List Rule} (hr : ∀ r ∈ rules, r.excAt = fun _ _ _ => false) {safe : List Val → Prop} {g0 : Graph} :
    ∀ (k : Nat) {g : Graph}, Steps rules safe g0 g → Steps rules safe g0 (greedy rules k g)
  | 0, _, h => dce_steps _ h
  | k + 1, g, h => by
    unfold greedy
    split
    · rename_i g' he
      refine greedy_steps hr k ?_
      obtain ⟨r, h1, h2⟩ := List.exists_of_findSome?_eq_some he
      obtain ⟨i, _, h3⟩ := List.exists_of_findSome?_eq_some h2
      exact .step (dce_steps _ h) (move_step h1 (fun _ _ => ⟨rfl, atB_static (hr r h1) _ _⟩) h3)
    · exact dce_steps _ h

/-- The graph after some passes, when TensorFlow's and TFLite's do nothing. -/
def convertB (arm : Bool) (k : Nat) : List PassKind → Graph → Graph
  | [], g => g
  | p :: ps, g => convertB arm k ps (if p.isForeign = true then g else greedy (p.rules arm ⟨[], []⟩) k g)

/-- All passes are finished. -/
def convertsB (arm : Bool) (k : Nat) : List PassKind → Graph → Bool
  | [], _ => true
  | p :: ps, g => (p.isForeign || finishedB (p.rules arm ⟨[], []⟩) (greedy (p.rules arm ⟨[], []⟩) k g)) &&
    convertsB arm k ps (if p.isForeign = true then g else greedy (p.rules arm ⟨[], []⟩) k g)

theorem pass_static {arm : Bool} {p : PassKind} (hq : p ≠ .lceQuantize) (hf : p.isForeign = false) :
    ∀ r ∈ p.rules arm ⟨[], []⟩, r.excAt = fun _ _ _ => false := by
  cases arm <;> cases p <;> first
    | exact absurd rfl hq
    | (cases hf; done)
    | (simp only [PassKind.rules, optimizeRules, fusePadRules, if_true, Bool.false_eq_true, if_false, List.forall_mem_append,
        List.forall_mem_cons, List.append_nil]
       (repeat' apply And.intro) <;> first
        | rfl
        | (intro _ h; cases h))

theorem convertB_runs {arm : Bool} {k : Nat} {safe : List Val → Prop} : ∀ {ps : List PassKind} {g : Graph},
    (∀ p ∈ ps, p ≠ .lceQuantize) → convertsB arm k ps g = true → PassRuns arm ⟨[], []⟩ safe ps g (convertB arm k ps g)
  | [], g, _, _ => .nil g
  | p :: ps, g, hp, h => by
    unfold convertsB at h
    rw [Bool.and_eq_true, Bool.or_eq_true] at h
    refine .cons (g' := if p.isForeign = true then g else greedy (p.rules arm ⟨[], []⟩) k g) ?_
      (convertB_runs (fun q hq => hp q (by simp [hq])) h.2)
    by_cases hf : p.isForeign = true
    · rw [if_pos hf]
      exact ⟨.refl g, fun h => by rw [hf] at h; cases h⟩
    · rw [if_neg hf]
      refine ⟨?_, fun _ => finished_of_check (h.1.resolve_left hf)⟩
      have hq : p ≠ .quantForeign := by rintro rfl; exact hf rfl
      rw [if_neg hq]
      refine greedy_steps (fun r hr => ?_) k (.refl g)
      exact pass_static (hp p (by simp)) (by simpa using hf) r hr

/-! The float block of C61's example (Select as quantizer, convolution, Mul, Sub, comparison, Select) is converted by all
passes: it becomes a quantization and a BConv2D with packed weights that writes bits. -/

theorem exBlock_converts : convertsB false 20 (conversionPasses false false) exBlock = true ∧
    (convertB false 20 (conversionPasses false false) exBlock).kinds =
      ["arg", "lquant", "const", "const", "const", "bits", "bconv-bits"] := by
  decide +kernel

theorem noForeign_ok : ForeignOk ⟨[], []⟩ := ⟨by simp, by simp⟩

/-- The hypotheses of the theorems are met by this graph, all arguments being safe. -/
example : exBlock.Ssa ∧ (∀ n ∈ exBlock.nodes, n.op.isBConv = false) ∧ (∃ vs, exBlock.eval exArg = some vs) ∧
    ∃ g', PassRuns false ⟨[], []⟩ (fun _ => True) (conversionPasses false false) exBlock g' ∧ g'.PackedFilters ∧
      g'.kinds = ["arg", "lquant", "const", "const", "const", "bits", "bconv-bits"] := by
  have h1 : exBlock.Ssa := ssa_of_check (by decide) (by decide)
  have h2 : ∀ n ∈ exBlock.nodes, n.op.isBConv = false := by decide
  have h3 : ∃ vs, exBlock.eval exArg = some vs := Option.isSome_iff_exists.1 (by decide +kernel)
  have h4 := convertB_runs (safe := fun _ => True) (by decide) exBlock_converts.1
  obtain ⟨vs, hv⟩ := h3
  exact ⟨h1, h2, ⟨vs, hv⟩, _, h4, (C69_weights false false noForeign_ok h1 h2 ⟨exArg, vs, trivial, hv⟩ h4).1, exBlock_converts.2⟩

/-- A pattern of TensorFlow that meets the assumptions: Relu after Relu is removed. -/
def ruleReluRelu : Rule where
  apply c n :=
    match n with
    | ⟨_, .act .relu, [y], _⟩ =>
      match c.look y with
      | some ⟨_, .act .relu, [x], _⟩ => some (.op (.act .relu) Option.none [.var x])
      | _ => Option.none
    | _ => Option.none
  exc _ _ := false

/-- The assumptions on TensorFlow's and TFLite's patterns can be met by a pattern that does something. -/
example : Faithful ruleReluRelu := by
  have inv : ∀ {c : Ctx} {n : Node} {t : Rhs}, ruleReluRelu.apply c n = some t → ∃ nm ty y m ty' x,
      n = ⟨nm, .act .relu, [y], ty⟩ ∧ c.look y = some ⟨m, .act .relu, [x], ty'⟩ ∧
      t = .op (.act .relu) Option.none [.var x] := by
    intro c n t h
    simp only [ruleReluRelu] at h
    repeat' split at h
    all_goals first
      | (cases h; done)
      | skip
    rename_i hl
    cases h
    exact ⟨_, _, _, _, _, _, rfl, hl, rfl⟩
  refine ⟨⟨?_, ?_, ?_⟩, ?_, ?_⟩
  · intro c n t h x hx
    obtain ⟨nm, ty, y, m, ty', x', rfl, hl, rfl⟩ := inv h
    simp only [Rhs.vars, Rhs.varsL, List.append_nil, List.mem_singleton] at hx
    subst hx
    exact Or.inr ⟨y, _, hl, by simp⟩
  · rintro c ⟨nm, o, as, ty⟩ v rfl
    rfl
  · intro c n t h
    obtain ⟨nm, ty, y, m, ty', x', rfl, hl, rfl⟩ := inv h
    exact ⟨rfl, trivial, trivial⟩
  · intro ins env c n t hd hw h _ _ v hv
    obtain ⟨nm, ty, y, m, ty', x', rfl, hl, rfl⟩ := inv h
    obtain ⟨a, h1, h2, h3, h4⟩ := eval1 hv
    have hy := hd y _ hl
    rw [h1] at hy
    obtain ⟨b, k1, k2, k3, k4⟩ := eval1 hy.symm
    replace h2 : actEval .relu [a] = some v := h2
    replace k2 : actEval .relu [b] = some a := k2
    unfold actEval at k2
    split at k2
    · rename_i u heq
      cases heq
      cases k2
      have e : v = .f (u.map Act.relu.real) := by
        replace h2 : some (Val.f ((u.map Act.relu.real).map Act.relu.real)) = some v := h2
        cases h2
        have : ∀ z : Rat, Act.relu.real (Act.relu.real z) = Act.relu.real z := by
          intro z
          simp [Act.real]
        simp [TensOf.map, Function.comp_def, this]
      subst e
      simp only [Rhs.eval, Rhs.evalL, k1]
      have hrun : (Op.act .relu).run ins Option.none [.f u] = some (.f (u.map Act.relu.real)) :=
        run_some_iff.2 ⟨rfl, h3, Or.inl rfl⟩
      exact hrun
    · cases k2
  · intro c n t C h hC hn
    obtain ⟨nm, ty, y, m, ty', x', rfl, hl, rfl⟩ := inv h
    exact ⟨by simp, hC y _ hl (hn y (by simp)) x' (by simp), trivial⟩

/-! #### Common subexpressions -/

/-- A binary convolution whose result is quantized twice, by a comparison with zero and by the sign of the sign plus one
half. -/
def twoQuantizers : Graph where
  nodes := [
    ⟨0, .arg 0, [], some [1, 1, 1, 1]⟩,
    ⟨1, .const (.f ⟨[], [1]⟩), [], some []⟩,
    ⟨2, .const (.f ⟨[], [-1]⟩), [], some []⟩,
    ⟨3, .const (.f ⟨[], [0]⟩), [], some []⟩,
    ⟨4, .ge, [0, 3], some [1, 1, 1, 1]⟩,
    ⟨5, .select, [4, 1, 2], some [1, 1, 1, 1]⟩,
    ⟨6, .const (.f ⟨[1, 1, 1, 1], [3]⟩), [], some [1, 1, 1, 1]⟩,
    ⟨7, .conv2d ⟨1, 1, 1, 1, .valid⟩, [5, 6], some [1, 1, 1, 1]⟩,
    ⟨8, .ge, [7, 3], some [1, 1, 1, 1]⟩,
    ⟨9, .select, [8, 1, 2], some [1, 1, 1, 1]⟩,
    ⟨10, .sign, [7], some [1, 1, 1, 1]⟩,
    ⟨11, .const (.f ⟨[], [1 / 2]⟩), [], some []⟩,
    ⟨12, .bin .add .none, [10, 11], some [1, 1, 1, 1]⟩,
    ⟨13, .sign, [12], some [1, 1, 1, 1]⟩]
  outs := [9, 13]

theorem passRuns_trans {arm : Bool} {F : Foreign} {safe : List Val → Prop} {ps qs : List PassKind} {g g' g'' : Graph}
    (h : PassRuns arm F safe ps g g') (h' : PassRuns arm F safe qs g' g'') : PassRuns arm F safe (ps ++ qs) g g'' := by
  induction h with
  | nil => exact h'
  | cons h _ ih => exact .cons h (ih h')

/-- The graph when the weights are packed. -/
def twoPacked : Graph := convertB false 20 ((conversionPasses false false).take 13) twoQuantizers

/-- Name and operand of an LceQuantize without static shape. -/
def lquantOf : Node → Option (Nat × Nat)
  | ⟨nm, .lquant, [x], Option.none⟩ => some (nm, x)
  | _ => Option.none

theorem lquantOf_some {n : Node} {nm x : Nat} (h : lquantOf n = some (nm, x)) : n = ⟨nm, .lquant, [x], Option.none⟩ := by
  unfold lquantOf at h
  split at h
  · cases h; rfl
  · cases h

/-- Name and padding of a BConv2D. -/
def bconvOf (n : Node) : Option (Nat × Padding) :=
  match n.op with
  | .bconv a => some (n.name, a.padding)
  | _ => Option.none

theorem bconvOf_some {n : Node} {nm : Nat} {p : Padding} (h : bconvOf n = some (nm, p)) :
    n.name = nm ∧ ∃ a, n.op = .bconv a ∧ a.padding = p := by
  unfold bconvOf at h
  split at h
  · rename_i a ha
    cases h
    exact ⟨rfl, a, ha, rfl⟩
  · cases h

/-- The second LceQuantize is replaced by the first. -/
def twoMerged : Graph := twoPacked.replace (twoPacked.nodes.take 9) (twoPacked.nodes.drop 10) 20 (.var 33)

/-- The result of the conversion. -/
def twoFinal : Graph := convertB false 20 [.fusePadding, .canonicalize] twoMerged

theorem two_checks : convertsB false 20 ((conversionPasses false false).take 13) twoQuantizers = true ∧
    (twoPacked.nodes[7]?).bind lquantOf = some (33, 35) ∧ (twoPacked.nodes[9]?).bind lquantOf = some (20, 35) ∧
    finishedB (PassKind.rules false ⟨[], []⟩ .canonicalize) twoMerged = true ∧
    convertsB false 20 [.fusePadding, .canonicalize] twoMerged = true ∧
    (twoFinal.nodes[6]?).bind bconvOf = some (35, .valid) ∧ (twoFinal.nodes[7]?).bind lquantOf = some (33, 35) ∧
    twoFinal.uses 35 = 1 := by
  decide +kernel

theorem bind_get {α β : Type} {l : List α} {i : Nat} {f : α → Option β} {b : β} (h : (l[i]?).bind f = some b) :
    ∃ a, l[i]? = some a ∧ f a = some b := Option.bind_eq_some_iff.1 h

/-- The elimination of common subexpressions after the optimization passes can make a fusion possible that no later pass
does: C69's fusion cannot be claimed of the result of the conversion. -/
theorem C69_unfused_witness : twoQuantizers.Ssa ∧ (∀ n ∈ twoQuantizers.nodes, n.op.isBConv = false) ∧
    (∃ vs, twoQuantizers.eval [.f ⟨[1, 1, 1, 1], [2]⟩] = some vs) ∧
    ∃ g', PassRuns false ⟨[], []⟩ (fun _ => True) (conversionPasses false false) twoQuantizers g' ∧ g'.BConvUserLeft := by
  obtain ⟨c1, c2, c3, c4, c5, c6, c7, c8⟩ := two_checks
  refine ⟨ssa_of_check (by decide) (by decide), by decide, Option.isSome_iff_exists.1 (by decide +kernel), twoFinal, ?_, ?_⟩
  · have hsp : conversionPasses false false =
        (conversionPasses false false).take 13 ++ .canonicalize :: [.fusePadding, .canonicalize] := by decide
    rw [hsp]
    refine passRuns_trans (convertB_runs (by decide) c1) (.cons (g' := twoMerged) ⟨?_, fun _ => finished_of_check c4⟩
      (convertB_runs (by decide) c5))
    obtain ⟨m, m1, m2⟩ := bind_get c2
    obtain ⟨n, n1, n2⟩ := bind_get c3
    have hm := lquantOf_some m2
    have hn := lquantOf_some n2
    refine .step (.refl _) ?_
    obtain ⟨hlt, hget⟩ := List.getElem?_eq_some_iff.1 n1
    have he : twoPacked.nodes = twoPacked.nodes.take 9 ++ n :: twoPacked.nodes.drop 10 := by
      rw [← hget, ← List.drop_eq_getElem_cons hlt, List.take_append_drop]
    have h20 : n.name = 20 := by rw [hn]
    have h33 : m.name = 33 := by rw [hm]
    have := Step.cse (rules := PassKind.rules false ⟨[], []⟩ .canonicalize) (safe := fun _ => True) he
      (m := m) (List.mem_of_getElem? (i := 7) (by rw [List.getElem?_take]; simpa using m1))
      (by rw [hm, hn]; exact ⟨rfl, rfl, rfl⟩)
    rw [h20, h33] at this
    exact this
  · obtain ⟨y, y1, y2⟩ := bind_get c6
    obtain ⟨n, n1, n2⟩ := bind_get c7
    have hn := lquantOf_some n2
    obtain ⟨hy, a, ha, hp⟩ := bconvOf_some y2
    refine ⟨n, List.mem_of_getElem? n1, y, List.mem_of_getElem? y1, a, [], ha, by rw [hn, hy], by rw [hy]; exact c8, Or.inl ⟨by rw [hn], rfl, ?_⟩⟩
    rw [hp]
    rintro ⟨h, _⟩
    cases h

end Verif.Ir
