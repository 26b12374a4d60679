import Verif.Proof.ExecFlGraph
import Verif.Props.Exec
import Verif.Props.ZeroPaddingFl

/-!
C74: the converted model, run in floating-point arithmetic on packed tensors, computes what the original graph computes up to
tolerances that are checked node by node; binary tensors are exact.
-/

namespace Verif.Ir

/-- **C74, one graph.** As C63_inference, but all BConv2D nodes compute with rounded float and double arithmetic, TFLite's
kernels are only accurate up to tolerances, and the writes of the threads may be in any order. When the tolerances `T` are
consistent, an inference is refused exactly in the listed cases, and otherwise each output tensor is within its tolerance of
the exact value. -/
theorem C74_inference {F : FlCfg} {T : Nat → Rat} {cfg : Cfg} {g : Graph} {ins vs : List Val} {mins : List MVal} (hF : F.Proper)
    (hg : g.Ssa) (hu : ∀ n ∈ g.nodes, 0 < g.uses n.name) (hsch : cfg.Scheduled) (htame : g.Tame cfg.kt ins)
    (htol : g.Tolerances F T ins) (hins : List.Forall₂ Rep ins mins) (hv : g.eval ins = some vs) :
    (g.Rejected cfg ins → g.execFl F cfg mins = .error) ∧
    (¬ g.Rejected cfg ins → ∃ ms, g.execFl F cfg mins = .ok ms ∧
      List.Forall₂ (fun p m => RepNear p.2 p.1 m) (vs.zip (g.outs.map T)) ms) := by
  rcases exec_graphFl hF hg hsch hins htame htol (all_defined hg hu hv g.nodes [] rfl) hv with ⟨h1, h2⟩ | ⟨h1, h2⟩
  · exact ⟨fun _ => h2, fun h => absurd h1 h⟩
  · exact ⟨fun h => absurd h h1, fun _ => h2⟩

theorem forall₂_zip_imp {α β γ : Type} {P : α × β → γ → Prop} {Q : α → γ → Prop} :
    ∀ {l : List α} {es : List β} {ms : List γ}, l.length = es.length → List.Forall₂ P (l.zip es) ms →
      (∀ a b m, a ∈ l → b ∈ es → P (a, b) m → Q a m) → List.Forall₂ Q l ms
  | [], [], ms, _, h, _ => by
    have h : List.Forall₂ P [] ms := h
    cases h; exact .nil
  | a :: l, b :: es, ms, hlen, h, hq => by
    have h : List.Forall₂ P ((a, b) :: l.zip es) ms := h
    cases h with
    | cons h1 h2 =>
      exact .cons (hq a b _ (by simp) (by simp) h1) (forall₂_zip_imp (by simpa using hlen) h2
        fun a b m ha hb => hq a b m (by simp [ha]) (by simp [hb]))

theorem eval_length {g : Graph} {ins vs : List Val} (hv : g.eval ins = some vs) : vs.length = g.outs.length := by
  replace hv : g.outs.mapM (runNodes ins g.nodes fun _ => none) = some vs := hv
  generalize g.outs = l at hv
  induction l generalizing vs with
  | nil => cases hv; rfl
  | cons a l ih =>
    rw [mapM_cons', Option.bind_eq_some_iff] at hv
    obtain ⟨w, _, w2⟩ := hv
    rw [Option.map_eq_some_iff] at w2
    obtain ⟨us', w2, rfl⟩ := w2
    simp [ih w2]

/-- **C74, binary results are exact**, in spite of all rounding: an output that is a binary tensor (or boolean, or a shape)
stands for exactly the value the graph has, for any consistent tolerances. -/
theorem C74_binary_exact {F : FlCfg} {T : Nat → Rat} {cfg : Cfg} {g : Graph} {ins : List Val} {ts : List (TensOf Bool)} {mins : List MVal}
    (hF : F.Proper) (hg : g.Ssa) (hu : ∀ n ∈ g.nodes, 0 < g.uses n.name) (hsch : cfg.Scheduled) (htame : g.Tame cfg.kt ins)
    (htol : g.Tolerances F T ins) (hins : List.Forall₂ Rep ins mins) (hv : g.eval ins = some (ts.map .s)) (hr : ¬ g.Rejected cfg ins) :
    ∃ ms, g.execFl F cfg mins = .ok ms ∧ List.Forall₂ Rep (ts.map .s) ms := by
  obtain ⟨ms, h1, h2⟩ := (C74_inference hF hg hu hsch htame htol hins hv).2 hr
  refine ⟨ms, h1, forall₂_zip_imp (by rw [eval_length hv, List.length_map]) h2 ?_⟩
  rintro a b m ha - ⟨v', q1, q2⟩
  obtain ⟨t, _, rfl⟩ := List.mem_map.1 ha
  cases q1
  exact q2

/-- **C74, exact**: when the tolerances of the outputs are zero, an inference in floating-point arithmetic writes exactly the
values of the graph. -/
theorem C74_exact {F : FlCfg} {T : Nat → Rat} {cfg : Cfg} {g : Graph} {ins vs : List Val} {mins : List MVal} (hF : F.Proper)
    (hg : g.Ssa) (hu : ∀ n ∈ g.nodes, 0 < g.uses n.name) (hsch : cfg.Scheduled) (htame : g.Tame cfg.kt ins)
    (htol : g.Tolerances F T ins) (hz : ∀ x ∈ g.outs, T x = 0) (hins : List.Forall₂ Rep ins mins) (hv : g.eval ins = some vs)
    (hr : ¬ g.Rejected cfg ins) : ∃ ms, g.execFl F cfg mins = .ok ms ∧ List.Forall₂ Rep vs ms := by
  obtain ⟨ms, h1, h2⟩ := (C74_inference hF hg hu hsch htame htol hins hv).2 hr
  refine ⟨ms, h1, forall₂_zip_imp (by rw [eval_length hv, List.length_map]) h2 ?_⟩
  rintro a b m - hb ⟨v', q1, q2⟩
  obtain ⟨x, hx, rfl⟩ := List.mem_map.1 hb
  rw [show ((a, T x).2 : Rat) = 0 from hz x hx] at q1
  rw [near_zero q1] at q2
  exact q2

/-- With exact outputs the inference in floating-point arithmetic writes bit for bit the tensors the inference in exact
arithmetic (C63) writes. -/
theorem C74_same_as_exact_arithmetic {F : FlCfg} {T : Nat → Rat} {cfg : Cfg} {g : Graph} {ins vs : List Val} {mins : List MVal}
    (hF : F.Proper) (hg : g.Ssa) (hu : ∀ n ∈ g.nodes, 0 < g.uses n.name) (hsch : cfg.Scheduled) (htame : g.Tame cfg.kt ins)
    (htol : g.Tolerances F T ins) (hz : ∀ x ∈ g.outs, T x = 0) (hins : List.Forall₂ Rep ins mins) (hv : g.eval ins = some vs) :
    g.execFl F cfg mins = g.exec cfg mins := by
  by_cases hr : g.Rejected cfg ins
  · rw [(C74_inference hF hg hu hsch htame htol hins hv).1 hr, (C63_inference hg hu hsch htame hins hv).1 hr]
  · obtain ⟨ms, h1, h2⟩ := C74_exact hF hg hu hsch htame htol hz hins hv hr
    obtain ⟨ms', h3, h4⟩ := (C63_inference hg hu hsch htame hins hv).2 hr
    rw [h1, h3, reps_unique h2 h4]

/-- **C74.** The original graph `g` has the results `vs` for the arguments `ins`. The converter rewrites it to `g'` until nothing
is left to do (no match is exceptional in the sense of C61). One inference of `g'` in floating-point arithmetic is refused
exactly in the listed cases, and otherwise each output tensor is within its tolerance of the exact value. -/
theorem C74_converted_model_partial (arm : Bool) {F : FlCfg} {T : Nat → Rat} {cfg : Cfg} {g g' : Graph} {ins vs : List Val}
    {mins : List MVal} (hF : F.Proper) (hg : g.Ssa)
    {safe : List Val → Prop} (hconv : Steps (allRules arm) safe g g') (hend : ∀ g'', ¬ Step (allRules arm) safe g' g'')
    (hi : safe ins) (hsch : cfg.Scheduled) (htame : g'.Tame cfg.kt ins) (htol : g'.Tolerances F T ins)
    (hins : List.Forall₂ Rep ins mins) (hv : g.eval ins = some vs) :
    (g'.Rejected cfg ins → g'.execFl F cfg mins = .error) ∧
    (¬ g'.Rejected cfg ins → ∃ ms, g'.execFl F cfg mins = .ok ms ∧
      List.Forall₂ (fun p m => RepNear p.2 p.1 m) (vs.zip (g'.outs.map T)) ms) :=
  C74_inference hF (C61_well_formed arm safe hg hconv) (normal_used hend) hsch htame htol hins
    (C61_rewriting_preserves_partial arm safe hg hconv ins vs hi hv)

/-! ### Non-vacuity -/

/-- Two pixels of two channels, a 1 * 1 convolution with the multipliers and biases 1/3 and 1/10 rounded to float, and its
signs. -/
def exFl : Graph where
  nodes := [
    ⟨0, .arg 0, [], some [1, 1, 2, 2]⟩,
    ⟨1, .lquant, [0], some [1, 1, 2, 2]⟩,
    ⟨2, .const (.s ⟨[1, 1, 1, 2], [true, false]⟩), [], some [1, 1, 1, 2]⟩,
    ⟨3, .const (.f ⟨[1], [11184811 / 33554432]⟩), [], some [1]⟩,
    ⟨4, .const (.f ⟨[1], [13421773 / 134217728]⟩), [], some [1]⟩,
    ⟨5, .const .none, [], Option.none⟩,
    ⟨6, .bconv ⟨⟨1, 1, 1, 1, .valid⟩, 0, 2, .none, false⟩, [1, 2, 3, 4, 5], some [1, 1, 2, 1]⟩,
    ⟨7, .act .relu, [6], some [1, 1, 2, 1]⟩,
    ⟨8, .lquant, [6], some [1, 1, 2, 1]⟩]
  outs := [7, 8]

/-- The argument of the example. -/
def exFlArg : List Val := [.f ⟨[1, 1, 2, 2], [3, -1 / 2, -2, 7]⟩]

/-- The tolerances of the example: one ten-thousandth for the convolution, twice that after TFLite's relu. -/
def exFlTol (x : Nat) : Rat := if x = 6 then 1 / 10000 else if x = 7 then 1 / 5000 else 0

/-- A relu that is a little wrong. -/
def exFlRelu (t : Tens) : Tens := t.map fun x => if 0 ≤ x then x + 1 / 20000 else 0

theorem exFl_hyps (R : FlEnv) (h1 : RoundsToNearest R.fl) (h2 : RoundsToNearest64 R.dl) :
    let F : FlCfg := ⟨R, roundHalfAway, fun _ _ l => l.reverse, fun _ _ l => match l with
      | [.f t] => some (.f (exFlRelu t))
      | _ => Option.none⟩
    F.Proper ∧ exFl.Ssa ∧ (∀ n ∈ exFl.nodes, 0 < exFl.uses n.name) ∧ (∀ kt, exFl.Tame kt exFlArg) ∧
      exFl.Tolerances F exFlTol exFlArg ∧ (∀ kt, ¬ exFl.Rejected (exCfg kt false) exFlArg) := by
  intro F
  refine ⟨⟨h1, h2, halfAway_err, fun _ _ l => List.reverse_perm l⟩, ssa_of_check (by decide +kernel) (by decide +kernel), by decide +kernel,
    ?_, ⟨?_, ?_⟩, ?_⟩
  · intro kt
    cases kt
    · exact Graph.tameB_iff (by decide +kernel)
    · exact Graph.tameB_iff (by decide +kernel)
    · exact Graph.tameB_iff (by decide +kernel)
  · intro x
    unfold exFlTol
    split_ifs <;> norm_num
  · have e6 : runNodes exFlArg exFl.nodes (fun _ => none) 6
        = some (.f ⟨[1, 1, 2, 1], [-2 * (11184811 / 33554432) + 13421773 / 134217728, 2 * (11184811 / 33554432) + 13421773 / 134217728]⟩) := by
      decide +kernel
    intro n hn l hl
    simp only [exFl, List.mem_cons, List.not_mem_nil, or_false] at hn
    rcases hn with rfl | rfl | rfl | rfl | rfl | rfl | rfl | rfl | rfl
    · trivial
    · have : [0].mapM (runNodes exFlArg exFl.nodes fun _ => none) = some exFlArg := by decide +kernel
      rw [this] at hl
      cases hl
      intro e he v hv
      simp only [List.map_cons, List.map_nil, List.mem_singleton, exFlTol] at he
      subst he
      norm_num
    · trivial
    · trivial
    · trivial
    · trivial
    · have : [1, 2, 3, 4, 5].mapM (runNodes exFlArg exFl.nodes fun _ => none) = some [.s ⟨[1, 1, 2, 2], [false, true, true, false]⟩,
          .s ⟨[1, 1, 1, 2], [true, false]⟩, .f ⟨[1], [11184811 / 33554432]⟩, .f ⟨[1], [13421773 / 134217728]⟩, .none] := by decide +kernel
      rw [this] at hl
      cases hl
      refine ⟨by simp [exFlTol], fun _ => ?_⟩
      intro co fh fw ci hs
      cases hs
      refine ⟨by decide, Or.inl ?_⟩
      intro c hc
      have : c = 0 := by omega
      subst this
      refine ⟨⟨11184811, -25, by decide, by decide, by decide, ?_⟩, ?_, ?_⟩
      · norm_num
      · norm_num [abs_of_pos]
      · norm_num [abs_of_pos, exFlTol]
    · have : [6].mapM (runNodes exFlArg exFl.nodes fun _ => none) = some [.f ⟨[1, 1, 2, 1],
          [-2 * (11184811 / 33554432) + 13421773 / 134217728, 2 * (11184811 / 33554432) + 13421773 / 134217728]⟩] := by decide +kernel
      rw [this] at hl
      cases hl
      intro l' hl'
      obtain ⟨x', rfl, d, rfl, hd⟩ := forall₂_one (show List.Forall₂ (fun (p : Val × Rat) v' => Val.Near p.2 p.1 v') [(_, exFlTol 6)] l' from hl')
      refine ⟨_, rfl, ?_⟩
      intro v hv
      rw [show (Op.act .relu).run [] (some [1, 1, 2, 1]) [.f ⟨[1, 1, 2, 1],
          [-2 * (11184811 / 33554432) + 13421773 / 134217728, 2 * (11184811 / 33554432) + 13421773 / 134217728]⟩]
          = some (.f ⟨[1, 1, 2, 1], [0, 2 * (11184811 / 33554432) + 13421773 / 134217728]⟩) by decide +kernel] at hv
      cases hv
      refine ⟨_, rfl, ?_⟩
      cases hd with | cons a1 hd => cases hd with | cons a2 hd => cases hd with
      | nil =>
        simp only [exFlTol] at a1 a2 ⊢
        norm_num at a1 a2 ⊢
        rw [abs_le] at a1 a2
        refine ⟨?_, ?_⟩
        · rw [if_neg (by linarith)]; norm_num
        · rw [if_pos (by linarith), abs_le]
          constructor <;> linarith
    · have : [6].mapM (runNodes exFlArg exFl.nodes fun _ => none) = some [.f ⟨[1, 1, 2, 1],
          [-2 * (11184811 / 33554432) + 13421773 / 134217728, 2 * (11184811 / 33554432) + 13421773 / 134217728]⟩] := by decide +kernel
      rw [this] at hl
      cases hl
      intro e he v hv
      simp only [List.map_cons, List.map_nil, List.mem_singleton, exFlTol] at he
      subst he
      simp only [List.mem_cons, List.not_mem_nil, or_false] at hv
      rcases hv with rfl | rfl <;> norm_num
  · rintro kt ⟨n, hn, l, hl, hr⟩
    simp only [exFl, List.mem_cons, List.not_mem_nil, or_false] at hn
    rcases hn with rfl | rfl | rfl | rfl | rfl | rfl | rfl | rfl | rfl
    · exact hr
    · exact hr
    · cases hr
    · exact hr
    · exact hr
    · exact hr
    · have : [1, 2, 3, 4, 5].mapM (runNodes exFlArg exFl.nodes fun _ => none) = some [.s ⟨[1, 1, 2, 2], [false, true, true, false]⟩,
          .s ⟨[1, 1, 1, 2], [true, false]⟩, .f ⟨[1], [11184811 / 33554432]⟩, .f ⟨[1], [13421773 / 134217728]⟩, .none] := by decide +kernel
      rw [this] at hl
      cases hl
      replace hr : bconvRejected _ _ _ _ _ := hr
      unfold bconvRejected at hr
      revert hr
      cases kt <;> simp [exCfg, Val.shape]
    · exact hr
    · exact hr

/-- The signs of the example in packed form. -/
theorem exFl_bits : Rep (.s ⟨[1, 1, 2, 1], [true, false]⟩) (.words [1, 1, 2, 1] [1#32, 0#32]) := by
  refine ⟨[1, 1, 2], 1, rfl, rfl, ?_, ?_⟩
  · refine ⟨by decide, ?_⟩
    intro r k b v hr hk hb hc hv
    have hr : r < 2 := hr
    obtain rfl : k = 0 := by omega
    have h1 : ∀ b < 32, 1 ≤ b → (1#32).getLsbD b = false := by decide
    have h0 : ∀ b < 32, (0#32).getLsbD b = false := by decide
    rcases (by omega : r = 0 ∨ r = 1) with rfl | rfl
    · cases hv; exact h1 b hb (by omega)
    · cases hv; exact h0 b hb
  · intro r k hr hk
    have hr : r < 2 := hr
    obtain rfl : k = 0 := by omega
    rcases (by omega : r = 0 ∨ r = 1) with rfl | rfl <;> rfl

/-- The hypotheses of C74 are met: with a float arithmetic that rounds, writes in reverse order and a relu that is wrong by
1/20000, the example accepts its argument on all three kernels, the float output is within 1/5000 of the exact value and the
signs, packed in words, are exact. -/
example : ∃ F : FlCfg, F.Proper ∧ ∀ kt, ∃ m, exFl.execFl F (exCfg kt false) (exFlArg.map .plain)
      = .ok [m, .words [1, 1, 2, 1] [1#32, 0#32]] ∧
    RepNear (1 / 5000) (.f ⟨[1, 1, 2, 1], [0, 2 * (11184811 / 33554432) + 13421773 / 134217728]⟩) m := by
  obtain ⟨R, h1, h2, _⟩ := exists_flEnv false
  obtain ⟨hF, hs, hu, ht, htol, hr⟩ := exFl_hyps R h1 h2
  refine ⟨_, hF, fun kt => ?_⟩
  have hv : exFl.eval exFlArg = some [.f ⟨[1, 1, 2, 1], [0, 2 * (11184811 / 33554432) + 13421773 / 134217728]⟩,
      .s ⟨[1, 1, 2, 1], [true, false]⟩] := by decide +kernel
  obtain ⟨ms, e1, e2⟩ := (C74_inference (cfg := exCfg kt false) (mins := exFlArg.map .plain) hF hs hu (exCfg_scheduled kt false) (ht kt) htol
    (.cons rfl .nil) hv).2 (hr kt)
  cases e2 with | cons a1 e2 => cases e2 with | cons a2 e2 => cases e2 with
  | nil =>
    obtain ⟨v', q1, q2⟩ := a2
    cases q1
    rename_i m m'
    refine ⟨m, ?_, a1⟩
    rw [e1]
    rw [rep_unique q2 exFl_bits]

/-! ### Why signs need a margin -/

/-- One pixel with 32 channels, 16 of them negative; a 1 * 1 convolution with multiplier 1 and bias `-2^-30`; its sign. -/
def exMargin : Graph where
  nodes := [
    ⟨0, .arg 0, [], some [1, 1, 1, 32]⟩,
    ⟨1, .lquant, [0], some [1, 1, 1, 32]⟩,
    ⟨2, .const (.s ⟨[1, 1, 1, 32], List.replicate 32 false⟩), [], some [1, 1, 1, 32]⟩,
    ⟨3, .const (.f ⟨[1], [1]⟩), [], some [1]⟩,
    ⟨4, .const (.f ⟨[1], [-1 / 1073741824]⟩), [], some [1]⟩,
    ⟨5, .const .none, [], Option.none⟩,
    ⟨6, .bconv ⟨⟨1, 1, 1, 1, .valid⟩, 0, 32, .none, false⟩, [1, 2, 3, 4, 5], some [1, 1, 1, 1]⟩,
    ⟨7, .lquant, [6], some [1, 1, 1, 1]⟩]
  outs := [7]

/-- The argument of the witness. -/
def exMarginArg : List Val := [.f ⟨[1, 1, 1, 32], List.replicate 16 1 ++ List.replicate 16 (-1)⟩]

/-- **C74 is false without the margin of LceQuantize**: in every float arithmetic that rounds to nearest, an inference of this
graph writes +1 although the value is -1 (and in exact arithmetic it writes -1). -/
theorem C74_margin_witness (F : FlCfg) (hF : F.Proper) :
    exMargin.Ssa ∧ (∀ n ∈ exMargin.nodes, 0 < exMargin.uses n.name) ∧ exMargin.Tame .reference exMarginArg ∧
    exMargin.eval exMarginArg = some [.s ⟨[1, 1, 1, 1], [true]⟩] ∧
    exMargin.exec (exCfg .reference false) (exMarginArg.map .plain) = .ok [.words [1, 1, 1, 1] [1#32]] ∧
    exMargin.execFl F (exCfg .reference false) (exMarginArg.map .plain) = .ok [.words [1, 1, 1, 1] [0#32]] := by
  refine ⟨ssa_of_check (by decide +kernel) (by decide +kernel), by decide +kernel, Graph.tameB_iff (by decide +kernel), by decide +kernel,
    by kernel_rfl, ?_⟩
  have hz := cancel_zero F.R hF.f32 hF.f64 (δ := -1 / 1073741824) (w := 5)
    (by rw [abs_of_neg (by norm_num)]; norm_num) ⟨2 ^ 35 - 1, -30, by norm_num, by norm_num, by norm_num, by norm_num⟩
  have hb : execBConvFl F (exCfg .reference false) 6 none ⟨⟨1, 1, 1, 1, .valid⟩, 0, 32, .none, false⟩ (.words [1, 1, 1, 1] [0xFFFF0000#32])
      (.words [1, 1, 1, 1] [0#32]) (.plain (.f ⟨[1], [1]⟩)) (.plain (.f ⟨[1], [-1 / 1073741824]⟩)) (.plain .none)
      = orUb (fun d => .plain (.f ⟨[1, 1, 1, 1], d⟩))
        (evalRefFloatFl F.R cancelConv .none [1] [-1 / 1073741824] [0xFFFF0000#32] [0#32] [5]) := by kernel_rfl
  rw [hz] at hb
  have hn : execNodesFl F (exCfg .reference false) (exMarginArg.map .plain) exMargin.nodes (fun _ => none)
      = (execBConvFl F (exCfg .reference false) 6 none ⟨⟨1, 1, 1, 1, .valid⟩, 0, 32, .none, false⟩ (.words [1, 1, 1, 1] [0xFFFF0000#32])
        (.words [1, 1, 1, 1] [0#32]) (.plain (.f ⟨[1], [1]⟩)) (.plain (.f ⟨[1], [-1 / 1073741824]⟩)) (.plain .none)).bind fun m =>
        execNodesFl F (exCfg .reference false) (exMarginArg.map .plain) (exMargin.nodes.drop 7) fun x =>
          if x = 6 then some m else if x = 5 then some (.plain .none) else if x = 4 then some (.plain (.f ⟨[1], [-1 / 1073741824]⟩))
          else if x = 3 then some (.plain (.f ⟨[1], [1]⟩)) else if x = 2 then some (.words [1, 1, 1, 1] [0#32])
          else if x = 1 then some (.words [1, 1, 1, 1] [0xFFFF0000#32])
          else if x = 0 then some (.plain (.f ⟨[1, 1, 1, 32], List.replicate 16 1 ++ List.replicate 16 (-1)⟩)) else none := by kernel_rfl
  unfold Graph.execFl
  rw [hn, hb]
  kernel_rfl

end Verif.Ir
