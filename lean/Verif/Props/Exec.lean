import Verif.Proof.ExecGraph
import Verif.Props.IrTerm
import Verif.Basic.KernelRfl

/-!
C63: the converted model, run by the kernels of the Larq Compute Engine on packed tensors, computes what the original
graph computes.
-/

namespace Verif.Ir

/-! ### One inference of a graph -/

/-- **C63, one graph.** Take a graph in which every node is used, and arguments for which it has the results `vs`. One
inference, with any of the three BConv2D kernels and whatever the schedules, addresses and old buffer contents are, is
refused with an error exactly in the listed cases, and otherwise writes tensors that stand for `vs`. -/
theorem C63_inference {cfg : Cfg} {g : Graph} {ins vs : List Val} {mins : List MVal} (hg : g.Ssa)
    (hu : ∀ n ∈ g.nodes, 0 < g.uses n.name) (hsch : cfg.Scheduled) (htame : g.Tame cfg.kt ins)
    (hins : List.Forall₂ Rep ins mins) (hv : g.eval ins = some vs) :
    (g.Rejected cfg ins → g.exec cfg mins = .error) ∧
    (¬ g.Rejected cfg ins → ∃ ms, g.exec cfg mins = .ok ms ∧ List.Forall₂ Rep vs ms) := by
  rcases exec_graph hg hsch hins htame (all_defined hg hu hv g.nodes [] rfl) hv with ⟨h1, h2⟩ | ⟨h1, h2⟩
  · exact ⟨fun _ => h2, fun h => absurd h1 h⟩
  · exact ⟨fun h => absurd h h1, fun _ => h2⟩

/-- When no steps are left, every node is used. -/
theorem normal_used {rules : List Rule} {safe : List Val → Prop} {g : Graph} (h : ∀ g', ¬ Step rules safe g g') :
    ∀ n ∈ g.nodes, 0 < g.uses n.name := by
  intro n hn
  by_contra h0
  obtain ⟨pre, post, e⟩ := List.append_of_mem hn
  exact h _ (.erase e (by omega))

/-- **C63.** The original graph `g` has the results `vs` for the arguments `ins`. The converter rewrites it to `g'`, in
any order, until nothing is left to do (for these arguments no match is exceptional in the sense of C61). One inference of `g'` is refused with an error
exactly in the listed cases, and otherwise the tensors it writes stand for `vs`. -/
theorem C63_converted_model_partial (arm : Bool) {cfg : Cfg} {g g' : Graph} {ins vs : List Val} {mins : List MVal} (hg : g.Ssa)
    {safe : List Val → Prop} (hconv : Steps (allRules arm) safe g g') (hend : ∀ g'', ¬ Step (allRules arm) safe g' g'')
    (hi : safe ins) (hsch : cfg.Scheduled) (htame : g'.Tame cfg.kt ins) (hins : List.Forall₂ Rep ins mins) (hv : g.eval ins = some vs) :
    (g'.Rejected cfg ins → g'.exec cfg mins = .error) ∧
    (¬ g'.Rejected cfg ins → ∃ ms, g'.exec cfg mins = .ok ms ∧ List.Forall₂ Rep vs ms) :=
  C63_inference (C61_well_formed arm safe hg hconv) (normal_used hend) hsch htame hins
    (C61_rewriting_preserves_partial arm safe hg hconv ins vs hi hv)

/-- The same for any graph reached by the converter in which every node is used, for example when the passes stop before
all patterns have been applied. -/
theorem C63_any_pass_order_partial (arm : Bool) {cfg : Cfg} {g g' : Graph} {ins vs : List Val} {mins : List MVal} (hg : g.Ssa)
    {safe : List Val → Prop} (hconv : Steps (allRules arm) safe g g') (hu : ∀ n ∈ g'.nodes, 0 < g'.uses n.name)
    (hi : safe ins) (hsch : cfg.Scheduled) (htame : g'.Tame cfg.kt ins) (hins : List.Forall₂ Rep ins mins) (hv : g.eval ins = some vs) :
    (g'.Rejected cfg ins → g'.exec cfg mins = .error) ∧
    (¬ g'.Rejected cfg ins → ∃ ms, g'.exec cfg mins = .ok ms ∧ List.Forall₂ Rep vs ms) :=
  C63_inference (C61_well_formed arm safe hg hconv) hu hsch htame hins
    (C61_rewriting_preserves_partial arm safe hg hconv ins vs hi hv)

/-! ### What the tensors hold is determined -/

/-- Packed words are determined by the bits they hold. -/
theorem packed_ext {rows c : Nat} {d d' : List Word} (h : IsPacked rows c d) (h' : IsPacked rows c d')
    (hb : ∀ r k, r < rows → k < c → (d.getD (r * ((c + 31) / 32) + k / 32) 0#32).getLsbD (k % 32)
      = (d'.getD (r * ((c + 31) / 32) + k / 32) 0#32).getLsbD (k % 32)) : d = d' := by
  apply List.ext_getElem?
  intro i
  by_cases hi : i < rows * ((c + 31) / 32)
  · obtain ⟨h1, h2⟩ := mod_lt_of_lt_mul hi
    rw [getElem_getD (by rw [h.len]; exact hi) 0#32, getElem_getD (by rw [h'.len]; exact hi) 0#32]
    refine congrArg some (BitVec.eq_of_getLsbD_eq fun b hb32 => ?_)
    have e : i / ((c + 31) / 32) * ((c + 31) / 32) + i % ((c + 31) / 32) = i := div_mul_add_mod i _
    by_cases hc : 32 * (i % ((c + 31) / 32)) + b < c
    · have := hb (i / ((c + 31) / 32)) (32 * (i % ((c + 31) / 32)) + b) h1 hc
      rw [show (32 * (i % ((c + 31) / 32)) + b) / 32 = i % ((c + 31) / 32) by omega,
        show (32 * (i % ((c + 31) / 32)) + b) % 32 = b by omega, e] at this
      exact this
    · have u1 := unused_getD h h1 h2 hb32 (by omega)
      have u2 := unused_getD h' h1 h2 hb32 (by omega)
      rw [e] at u1 u2
      rw [u1, u2]
  · rw [List.getElem?_eq_none (by rw [h.len]; omega), List.getElem?_eq_none (by rw [h'.len]; omega)]

/-- A value is represented by one tensor only. -/
theorem rep_unique {v : Val} {m m' : MVal} (h : Rep v m) (h' : Rep v m') : m = m' := by
  by_cases hs : ∃ t, v = .s t
  · obtain ⟨t, rfl⟩ := hs
    cases m with
    | plain _ => exact h.elim
    | words dims d => cases m' with
      | plain _ => exact h'.elim
      | words dims' d' =>
        obtain ⟨lead, c, e1, rfl, e3, e4⟩ := h
        obtain ⟨lead', c', f1, rfl, f3, f4⟩ := h'
        rw [e1] at f1
        have hh := List.append_inj' f1 rfl
        obtain ⟨rfl, hc⟩ := hh
        have hc : c = c' := by simpa using hc
        subst hc
        rw [packed_ext e3 f3 fun r k hr hk => by rw [e4 r k hr hk, f4 r k hr hk]]
  · rw [rep_plain h fun t ht => hs ⟨t, ht⟩, rep_plain h' fun t ht => hs ⟨t, ht⟩]

theorem reps_unique {vs : List Val} {ms ms' : List MVal} (h : List.Forall₂ Rep vs ms) (h' : List.Forall₂ Rep vs ms') :
    ms = ms' := by
  induction h generalizing ms' with
  | nil => cases h'; rfl
  | cons h1 _ ih => cases h' with
    | cons h2 h3 => rw [rep_unique h1 h2, ih h3]

/-- A graph without unused nodes gives the same output tensors whatever kernel, schedules, addresses and buffer contents
an inference uses: two configurations that both accept it agree in every word. -/
theorem C63_kernels_agree {cfg cfg' : Cfg} {g : Graph} {ins vs : List Val} {mins : List MVal} (hg : g.Ssa)
    (hu : ∀ n ∈ g.nodes, 0 < g.uses n.name) (hsch : cfg.Scheduled) (hsch' : cfg'.Scheduled) (htame : g.Tame cfg.kt ins)
    (htame' : g.Tame cfg'.kt ins) (hins : List.Forall₂ Rep ins mins) (hv : g.eval ins = some vs)
    (hr : ¬ g.Rejected cfg ins) (hr' : ¬ g.Rejected cfg' ins) :
    ∃ ms, g.exec cfg mins = .ok ms ∧ g.exec cfg' mins = .ok ms := by
  obtain ⟨ms, h1, h2⟩ := (C63_inference hg hu hsch htame hins hv).2 hr
  obtain ⟨ms', h3, h4⟩ := (C63_inference hg hu hsch' htame' hins hv).2 hr'
  rw [reps_unique h2 h4] at h1
  exact ⟨ms', h1, h3⟩

/-- A model with float (not binary) arguments and results: the inference of the converted model returns the numbers the
original graph returns. -/
theorem C63_float_model_partial (arm : Bool) {cfg : Cfg} {g g' : Graph} {xs ys : List Tens} (hg : g.Ssa)
    {safe : List Val → Prop} (hconv : Steps (allRules arm) safe g g') (hend : ∀ g'', ¬ Step (allRules arm) safe g' g'')
    (hi : safe (xs.map .f)) (hsch : cfg.Scheduled) (htame : g'.Tame cfg.kt (xs.map .f)) (hv : g.eval (xs.map .f) = some (ys.map .f))
    (hr : ¬ g'.Rejected cfg (xs.map .f)) :
    g'.exec cfg (xs.map fun t => .plain (.f t)) = .ok (ys.map fun t => .plain (.f t)) := by
  have hself : ∀ l : List Tens, List.Forall₂ Rep (l.map .f) (l.map fun t => .plain (.f t)) := by
    intro l
    induction l with
    | nil => exact .nil
    | cons t l ih => exact .cons rfl ih
  obtain ⟨ms, h1, h2⟩ := (C63_converted_model_partial arm hg hconv hend hi hsch htame (hself xs) hv).2 hr
  rw [h1, reps_unique h2 (hself ys)]

/-! ### Non-vacuity -/

/-- Every output pixel is corrected. -/
def correctedB : Option BConv → Bool
  | Option.none => true
  | some p => (List.range p.outH).all fun y => (List.range p.outW).all fun z => decide (p.Corrected y z)

theorem correctedB_iff {p : BConv} : correctedB (some p) = true ↔ ∀ y z, y < p.outH → z < p.outW → p.Corrected y z := by
  simp only [correctedB, List.all_eq_true, List.mem_range, decide_eq_true_eq]
  exact ⟨fun h y z hy hz => h y hy z hz, fun h y hy z hz => h y z hy hz⟩

/-- A check for `tameOp`. -/
def tameOpB (kt : KernelType) : Op → List Val → Bool
  | .bconv a, [x, f, _, _, _] =>
      let h := x.shape.getD 1 0
      let w := x.shape.getD 2 0
      let cin := x.shape.getD 3 0
      let co := f.shape.getD 0 0
      let fh := f.shape.getD 1 0
      let fw := f.shape.getD 2 0
      let ci := f.shape.getD 3 0
      decide ((kt ≠ .reference → a.padding = .same → a.padValue = 0 →
        correctedB (geom a.toConvAttrs a.padValue (x.shape.getD 0 0) h w cin co fh fw ci) = true) ∧
      (a.outBits = true → ¬ (a.padding = .same ∧ a.padValue = 0)) ∧
      (kt = .indirect → a.outBits = true →
        co / (cin / ci) % 4 = 0 ∧ 2 * (32 * (fh * fw * ((ci + 31) / 32))) < 2147483648))
  | .bconvI8 a s z, [_, f, .f m, .f b, _] =>
      let n := f.shape.getD 1 0 * f.shape.getD 2 0 * f.shape.getD 3 0
      (List.range (2 * n + 1)).all fun k => (List.range (f.shape.getD 0 0)).all fun c =>
        decide (|(a.act.real (((k : Int) - (n : Int) : Int) : Rat) * m.data.getD c 0 + b.data.getD c 0) / s + z| ≤ 1073741824)
  | .ldequantI8 s _, _ => decide (1 / s ≤ 1073741824)
  | _, _ => true

theorem tameOpB_iff {kt : KernelType} {o : Op} {l : List Val} (h : tameOpB kt o l = true) : tameOp kt o l := by
  unfold tameOp
  split
  · intro n h' w cin co fh fw ci e1 e2
    simp only [tameOpB, e1, e2, List.getD_cons_succ, List.getD_cons_zero, decide_eq_true_eq] at h
    refine ⟨fun h1 h2 h3 p hp => correctedB_iff.1 ?_, h.2⟩
    rw [← hp]
    exact h.1 h1 h2 h3
  · intro co fh fw ci e k c h1 h2 hc
    simp only [tameOpB, e, List.getD_cons_succ, List.getD_cons_zero, List.all_eq_true, List.mem_range, decide_eq_true_eq] at h
    have := h (k + ((fh * fw * ci : Nat) : Int)).toNat (by omega) c hc
    rw [show (((k + ((fh * fw * ci : Nat) : Int)).toNat : Int) - ((fh * fw * ci : Nat) : Int)) = k by omega] at this
    exact this
  · simpa [tameOpB] using h
  · trivial

/-- Non-vacuity: `tameOp` allows zero-padded filters larger than the image if all pixels are corrected (a row of 7 on 6 columns with
stride 4), not if one is not (3x3 on 2x2). -/
example :
    tameOp .indirect (.bconv ⟨⟨1, 4, 1, 1, .same⟩, 0, 1, .none, false⟩)
      [.s ⟨[1, 3, 6, 1], List.replicate 18 false⟩, .s ⟨[1, 1, 7, 1], List.replicate 7 false⟩, .none, .none, .none] ∧
    ¬ tameOp .indirect (.bconv ⟨⟨1, 1, 1, 1, .same⟩, 0, 1, .none, false⟩)
      [.s ⟨[1, 2, 2, 1], List.replicate 4 false⟩, .s ⟨[1, 3, 3, 1], List.replicate 9 false⟩, .none, .none, .none] := by
  refine ⟨tameOpB_iff (by decide +kernel), fun h => ?_⟩
  have h1 := (h 1 2 2 1 1 3 3 1 rfl rfl).1 (by decide) rfl rfl _ rfl 0 0 (by decide) (by decide)
  exact absurd h1 (by decide +kernel)

/-- A check for `Tame`. -/
def Graph.tameB (kt : KernelType) (g : Graph) (ins : List Val) : Bool :=
  g.nodes.all fun n => match n.args.mapM (runNodes ins g.nodes fun _ => none) with
    | none => true
    | some l => tameOpB kt n.op l

theorem Graph.tameB_iff {kt : KernelType} {g : Graph} {ins : List Val} (h : g.tameB kt ins = true) : g.Tame kt ins := by
  intro n hn l hl
  unfold Graph.tameB at h
  rw [List.all_eq_true] at h
  have := h n hn
  rw [hl] at this
  exact tameOpB_iff this

/-- A configuration with one block per matrix product and recognizable old buffer contents. -/
def exCfg (kt : KernelType) (dyn : Bool) : Cfg where
  kt := kt
  fat := fun _ => true
  blocks := fun _ k rows cols => [⟨0, (rows + (k - 1)) / k * k, 0, cols⟩]
  dyn := fun _ => dyn
  loc := fun _ => 4096
  bufW := fun _ i => BitVec.ofNat 32 (i + 77)
  bufR := fun _ i => i + 5
  bufB := fun _ i => BitVec.ofNat 8 (i + 3)
  junk := fun _ => 0xffffffff#32

theorem exCfg_scheduled (kt : KernelType) (dyn : Bool) : (exCfg kt dyn).Scheduled := by
  intro nm k rows cols hk
  have h1 := Nat.div_add_mod (rows + (k - 1)) k
  have h2 := Nat.mod_lt (rows + (k - 1)) hk
  constructor
  · intro b hb
    simp only [exCfg, List.mem_singleton] at hb
    subst hb
    simp only [Nat.zero_mod, Nat.zero_le, Nat.sub_zero, Nat.mul_mod_left, Nat.mod_one, true_and]
    refine ⟨?_, by omega⟩
    rw [Nat.mul_comm]; omega
  · intro i j hi hj
    refine ⟨_, by simp only [exCfg, List.mem_singleton]; rfl, Nat.zero_le _, ?_, Nat.zero_le _, hj⟩
    rw [Nat.mul_comm]
    simp only
    omega

/-- The example block of C61, converted, runs on all three kernels (for the indirect kernel its two output channels are
not in the scope of the theorem; see C13), and the outputs are the packed bits of the block's value: `[-1, -1]`,
`[-1, 1]`, `[-1, -1]`, `[-1, 1]` become the words 3, 1, 3, 1. -/
example : exBlock.Ssa ∧ ∃ g', Steps (allRules false) (fun _ => True) exBlock g' ∧ (∀ n ∈ g'.nodes, 0 < g'.uses n.name) ∧
    g'.Tame .reference exArg ∧ g'.Tame .bgemm exArg ∧
    List.Forall₂ Rep exArg (exArg.map .plain) ∧
    exBlock.eval exArg = some [.s ⟨[1, 2, 2, 2], [true, true, true, false, true, true, true, false]⟩] ∧
    g'.exec (exCfg .reference false) (exArg.map .plain) = .ok [.words [1, 2, 2, 1] [3#32, 1#32, 3#32, 1#32]] ∧
    g'.exec (exCfg .bgemm true) (exArg.map .plain) = .ok [.words [1, 2, 2, 1] [3#32, 1#32, 3#32, 1#32]] ∧
    g'.exec (exCfg .indirect true) (exArg.map .plain) = .error := by
  refine ⟨exBlock_ssa, ?_⟩
  have h : ((exBlock.moves true exScript).map fun g => (g.nodes.all (fun n => decide (0 < g.uses n.name)),
      g.tameB .reference exArg, g.tameB .bgemm exArg)) = some (true, true, true) := by decide +kernel
  rw [Option.map_eq_some_iff] at h
  obtain ⟨g', h1, h2⟩ := h
  simp only [Prod.mk.injEq] at h2
  obtain ⟨q1, q2, q3⟩ := h2
  have e1 : ((exBlock.moves true exScript).map fun g => g.exec (exCfg .reference false) (exArg.map .plain))
      = some (.ok [.words [1, 2, 2, 1] [3#32, 1#32, 3#32, 1#32]]) := by kernel_rfl
  have e2 : ((exBlock.moves true exScript).map fun g => g.exec (exCfg .bgemm true) (exArg.map .plain))
      = some (.ok [.words [1, 2, 2, 1] [3#32, 1#32, 3#32, 1#32]]) := by kernel_rfl
  have e3 : ((exBlock.moves true exScript).map fun g => g.exec (exCfg .indirect true) (exArg.map .plain))
      = some .error := by kernel_rfl
  rw [h1] at e1 e2 e3
  simp only [Option.map_some, Option.some.injEq] at e1 e2 e3
  refine ⟨g', moves_steps exScript exScript_rules (.refl _) h1, ?_, Graph.tameB_iff q2, Graph.tameB_iff q3,
    .cons rfl .nil, by decide +kernel, e1, e2, e3⟩
  intro n hn
  simpa using (List.all_eq_true.1 q1) n hn

/-- The int8 example of C61, converted, runs on all three kernels, and its output tensor is the value of the original
graph. -/
example : exInt8.Ssa ∧ ∃ g', Steps (allRules false) (fun ins => ins = exInt8Arg) exInt8 g' ∧
    (∀ n ∈ g'.nodes, 0 < g'.uses n.name) ∧ (∀ kt, g'.Tame kt exInt8Arg) ∧
    List.Forall₂ Rep exInt8Arg (exInt8Arg.map .plain) ∧
    exInt8.eval exInt8Arg = some [.q ⟨[1, 2, 2, 2], [2, 3, 2, 3, -6, 2, -6, 2]⟩ (3 / 4) (-3)] ∧
    ∀ kt, g'.exec (exCfg kt false) (exInt8Arg.map .plain) =
      .ok [.plain (.q ⟨[1, 2, 2, 2], [2, 3, 2, 3, -6, 2, -6, 2]⟩ (3 / 4) (-3))] := by
  refine ⟨exInt8_ssa, ?_⟩
  obtain ⟨g', h1, h2, _, _, h5⟩ := exInt8_converts
  have h : (exInt8Conv.map fun g => (g.nodes.all (fun n => decide (0 < g.uses n.name)),
      g.tameB .reference exInt8Arg, g.tameB .bgemm exInt8Arg, g.tameB .indirect exInt8Arg)) = some (true, true, true, true) := by
    decide +kernel
  have e : ∀ kt, (exInt8Conv.map fun g => g.exec (exCfg kt false) (exInt8Arg.map .plain))
      = some (.ok [.plain (.q ⟨[1, 2, 2, 2], [2, 3, 2, 3, -6, 2, -6, 2]⟩ (3 / 4) (-3))]) := by
    intro kt
    cases kt
    · kernel_rfl
    · kernel_rfl
    · kernel_rfl
  rw [h1] at h e
  simp only [Option.map_some, Option.some.injEq, Prod.mk.injEq] at h e
  obtain ⟨q1, q2, q3, q4⟩ := h
  refine ⟨g', h2, ?_, ?_, .cons rfl .nil, h5, e⟩
  · intro n hn
    simpa using (List.all_eq_true.1 q1) n hn
  · intro kt
    cases kt
    · exact Graph.tameB_iff q2
    · exact Graph.tameB_iff q3
    · exact Graph.tameB_iff q4

end Verif.Ir
