import Verif.Proof.IrPad

/-!
C61: the converter's rewriting preserves what the graph computes, whatever the order in which patterns are applied,
constants are folded, unused operations erased and equal operations merged.
-/

namespace Verif.Ir

/-! ### All patterns -/

theorem allRules_cases {arm : Bool} {P : Rule → Prop} (h1 : ∀ b, P (ruleSelect b)) (h2 : ∀ b, P (ruleSign b))
    (h3 : ∀ b, P (rulePrepare b)) (h4 : P rulePadConv) (h5 : P rulePass) (h6 : P ruleIdentity) (h7 : P ruleGeZero)
    (h8 : P ruleGe) (h9 : P ruleLe) (h10 : ∀ b, P (ruleFuseAddSub b)) (h11 : ∀ b, P (ruleFuseMulDiv b))
    (h12 : ∀ ac, P (ruleFuseAct ac)) (h13 : ∀ b, P (ruleBitpackActivations b)) (h14 : P ruleMaxPool)
    (h15 : P ruleBitpackWeights) (h16 : P ruleStripQdq) (h17 : P ruleDequantInt8) (h18 : P ruleQuantInt8)
    (h19 : P ruleFold) (h20 : P ruleBroadcast) (h21 : ∀ b d, P (ruleFusePad b d))
    (h22 : P ruleFuseQuantize) : ∀ r ∈ allRules arm, P r := by
  intro r hr
  cases arm <;>
    simp only [allRules, prepareRules, optimizeRules, quantizeRules, fusePadRules, if_true, Bool.false_eq_true, if_false, List.mem_append,
      List.mem_cons, List.not_mem_nil, or_false] at hr <;>
    aesop

theorem allRules_local (arm : Bool) : ∀ r ∈ allRules arm, r.Local :=
  allRules_cases ruleSelect_local ruleSign_local rulePrepare_local rulePadConv_local rulePass_local ruleIdentity_local
    ruleGeZero_local ruleGe_local ruleLe_local ruleFuseAddSub_local ruleFuseMulDiv_local ruleFuseAct_local
    ruleBitpackActivations_local ruleMaxPool_local ruleBitpackWeights_local ruleStripQdq_local ruleDequantInt8_local
    ruleQuantInt8_local ruleFold_local ruleBroadcast_local ruleFusePad_local ruleFuseQuantize_local

theorem allRules_sound (arm : Bool) : ∀ r ∈ allRules arm, r.Sound :=
  allRules_cases ruleSelect_sound ruleSign_sound rulePrepare_sound rulePadConv_sound rulePass_sound ruleIdentity_sound
    ruleGeZero_sound ruleGe_sound ruleLe_sound ruleFuseAddSub_sound ruleFuseMulDiv_sound ruleFuseAct_sound
    ruleBitpackActivations_sound ruleMaxPool_sound ruleBitpackWeights_sound ruleStripQdq_sound ruleDequantInt8_sound
    ruleQuantInt8_sound ruleFold_sound ruleBroadcast_sound ruleFusePad_sound ruleFuseQuantize_sound

/-! ### The theorems -/

/-- After any number of steps, in any order, on any graph, exceptional matches included, the graph is well formed:
every operand is defined before it is used, no two results have the same name. -/
theorem C61_well_formed (arm : Bool) (safe : List Val → Prop) {g g' : Graph} (hg : g.Ssa) (h : Steps (allRules arm) safe g g') : g'.Ssa := by
  induction h with
  | refl => exact hg
  | step _ s ih => exact step_ssa (allRules_local arm) ih s

/-- After any number of steps that are not exceptional for the arguments in `safe`, in any order, the graph computes for
these arguments what it computed before. What is missing from the full property: the exceptional matches (see the
witnesses below). -/
theorem C61_rewriting_preserves_partial (arm : Bool) (safe : List Val → Prop) {g g' : Graph} (hg : g.Ssa)
    (h : Steps (allRules arm) safe g g') (ins vs : List Val) (hi : safe ins) (hv : g.eval ins = some vs) :
    g'.eval ins = some vs := by
  have : g'.Ssa ∧ g'.eval ins = some vs := by
    induction h with
    | refl => exact ⟨hg, hv⟩
    | step _ s ih =>
      exact ⟨step_ssa (allRules_local arm) ih.1 s, step_eval (allRules_local arm) (allRules_sound arm) ih.1 s hi ih.2⟩
  exact this.2

/-- The only pattern whose exceptions depend on the arguments is the one that makes int8 convolutions. -/
theorem C61_static_exceptions (arm : Bool) : ∀ r ∈ allRules arm, r = ruleFuseQuantize ∨ r.excAt = fun _ _ _ => false := by
  intro r hr
  by_cases h : r = ruleFuseQuantize
  · exact Or.inl h
  · right
    refine allRules_cases (arm := arm) (P := fun r => r ≠ ruleFuseQuantize → r.excAt = fun _ _ _ => false) ?_ ?_ ?_ ?_ ?_ ?_ ?_ ?_ ?_
      ?_ ?_ ?_ ?_ ?_ ?_ ?_ ?_ ?_ ?_ ?_ ?_ ?_ r hr h
    all_goals first
      | exact fun _ => rfl
      | exact fun _ _ => rfl
      | exact fun _ _ _ => rfl
      | exact fun h => absurd rfl h

theorem mem_allRules_quantize {arm : Bool} {r : Rule} (h : r ∈ quantizeRules) : r ∈ allRules arm := by
  simp only [allRules, List.mem_append]
  tauto

/-! ### Executable steps, for the examples -/

/-- A choice of the driver. -/
inductive Move where
  | rewrite (r : Rule) (i : Nat)
  | erase (i : Nat)

/-- Do a rewrite or erasure at position `i`. -/
def Graph.move (safe : Bool) (g : Graph) : Move → Option Graph
  | .rewrite r i =>
    match g.nodes.drop i with
    | n :: post =>
      let c : Ctx := ⟨lookIn (g.nodes.take i), g.uses⟩
      if 0 < g.uses n.name ∧ (safe = true → r.exc c n = false) then
        (r.apply c n).map fun t => g.replace (g.nodes.take i) post n.name t
      else Option.none
    | [] => Option.none
  | .erase i =>
    match g.nodes.drop i with
    | n :: post => if g.uses n.name = 0 then some ⟨g.nodes.take i ++ post, g.outs⟩ else Option.none
    | [] => Option.none

theorem take_drop_cons {α : Type} {l : List α} {i : Nat} {n : α} {post : List α} (h : l.drop i = n :: post) :
    l = l.take i ++ n :: post := by
  rw [← h, List.take_append_drop]

/-- A match of the pattern at position `i` is not exceptional for the arguments. -/
def Graph.atB (g : Graph) (r : Rule) (i : Nat) (ins : List Val) : Bool :=
  match g.nodes.drop i with
  | n :: _ => !r.excAt (runNodes ins (g.nodes.take i) fun _ => Option.none) ⟨lookIn (g.nodes.take i), g.uses⟩ n
  | [] => true

theorem atB_static {g : Graph} {r : Rule} (h : r.excAt = fun _ _ _ => false) (i : Nat) (ins : List Val) : g.atB r i ins = true := by
  unfold Graph.atB
  rw [h]
  split <;> rfl

theorem move_step {rules : List Rule} {b : Bool} {safe : List Val → Prop} {g g' : Graph} {r : Rule} (hr : r ∈ rules) {i : Nat}
    (hs : ∀ ins, safe ins → b = true ∧ g.atB r i ins = true)
    (h : g.move b (.rewrite r i) = some g') : Step rules safe g g' := by
  simp only [Graph.move] at h
  split at h
  · rename_i n post hd
    split at h
    · rename_i hc
      rw [Option.map_eq_some_iff] at h
      obtain ⟨t, ha, rfl⟩ := h
      refine Step.rewrite r hr (take_drop_cons hd) hc.1 ha fun ins hi => ?_
      obtain ⟨h1, h2⟩ := hs ins hi
      refine ⟨hc.2 h1, ?_⟩
      unfold Graph.atB at h2
      rw [hd] at h2
      simpa using h2
    · cases h
  · cases h

/-- Erase all unused operations, last first. -/
def Graph.dce (g : Graph) : Nat → Graph
  | 0 => g
  | i + 1 => ((g.move true (.erase i)).getD g).dce i

theorem dce_steps {rules : List Rule} {safe : List Val → Prop} {g0 : Graph} : ∀ (i : Nat) {g : Graph}, Steps rules safe g0 g →
    Steps rules safe g0 (g.dce i)
  | 0, _, h => h
  | i + 1, g, h => by
    refine dce_steps i ?_
    cases e : g.move true (.erase i) with
    | none => exact h
    | some g' =>
      simp only [Graph.move] at e
      split at e
      · rename_i n post hd
        split at e
        · rename_i hu
          cases e
          exact .step h (Step.erase (take_drop_cons hd) hu)
        · cases e
      · cases e

/-- Apply the given patterns at the given positions, erasing unused operations after each. -/
def Graph.moves (safe : Bool) : List (Rule × Nat) → Graph → Option Graph
  | [], g => some g
  | (r, i) :: l, g => (g.move safe (.rewrite r i)).bind fun g' => Graph.moves safe l (g'.dce g'.nodes.length)

theorem moves_steps {rules : List Rule} {safe : List Val → Prop} {g0 : Graph} : ∀ (l : List (Rule × Nat)) {g g' : Graph},
    (∀ r i, (r, i) ∈ l → r ∈ rules ∧ r.excAt = fun _ _ _ => false) → Steps rules safe g0 g → g.moves true l = some g' →
    Steps rules safe g0 g'
  | [], _, _, _, h, e => by cases e; exact h
  | (r, i) :: l, g, g', hr, h, e => by
    simp only [Graph.moves, Option.bind_eq_some_iff] at e
    obtain ⟨g1, h1, h2⟩ := e
    exact moves_steps l (fun r' i' hm => hr r' i' (List.mem_cons_of_mem _ hm))
      (dce_steps _ (.step h (move_step (hr r i (by simp)).1 (fun _ _ => ⟨rfl, atB_static (hr r i (by simp)).2 _ _⟩) h1))) h2

/-- A check of single static assignment. -/
def ssaB : List Nat → List Node → Bool
  | _, [] => true
  | seen, n :: l => !seen.contains n.name && n.args.all (fun x => seen.contains x) && ssaB (seen ++ [n.name]) l

theorem ssaB_spec : ∀ (l : List Node) (done : List Node), (done.map (·.name)).Nodup → ssaB (done.map (·.name)) l = true →
    ((done ++ l).map (·.name)).Nodup ∧ ∀ pre n post, l = pre ++ n :: post → ∀ x ∈ n.args, x ∈ (done ++ pre).map (·.name)
  | [], done, hd, _ => ⟨by simpa using hd, by intro pre n post e; simp at e⟩
  | n :: l, done, hd, h => by
    simp only [ssaB, Bool.and_eq_true, Bool.not_eq_true', List.all_eq_true, List.contains_iff_mem] at h
    obtain ⟨⟨h1, h2⟩, h3⟩ := h
    have hn : n.name ∉ done.map (·.name) := by
      intro hc
      rw [List.contains_eq_mem] at h1
      simp [hc] at h1
    have ih := ssaB_spec l (done ++ [n]) (by
      rw [List.map_append, List.nodup_append]
      refine ⟨hd, by simp, ?_⟩
      intro a ha b hb
      simp only [List.map_cons, List.map_nil, List.mem_singleton] at hb
      rintro rfl
      exact hn (hb ▸ ha)) (by simpa using h3)
    refine ⟨by simpa using ih.1, ?_⟩
    intro pre m post e x hx
    cases pre with
    | nil =>
      simp only [List.nil_append, List.cons.injEq] at e
      obtain ⟨rfl, _⟩ := e
      simpa using h2 x hx
    | cons p pre =>
      simp only [List.cons_append, List.cons.injEq] at e
      obtain ⟨rfl, e⟩ := e
      have := ih.2 pre m post e x hx
      simpa using this

theorem ssa_of_check {g : Graph} (h : ssaB [] g.nodes = true) (ho : g.outs.all (fun x => (g.nodes.map (·.name)).contains x) = true) :
    g.Ssa := by
  obtain ⟨h1, h2⟩ := ssaB_spec g.nodes [] (by simp) (by simpa using h)
  refine ⟨by simpa using h1, fun pre n post e x hx => by simpa using h2 pre n post e x hx, ?_⟩
  intro x hx
  rw [List.all_eq_true] at ho
  have := ho x hx
  rw [List.contains_iff_mem] at this
  exact this

/-- A name for each kind of operator. -/
def Op.kind : Op → String
  | .arg _ => "arg"
  | .const (.s _) => "bits"
  | .const _ => "const"
  | .bin .add _ => "add"
  | .bin .sub _ => "sub"
  | .bin .mul _ => "mul"
  | .bin .div _ => "div"
  | .act _ => "act"
  | .ge => "ge"
  | .le => "le"
  | .lquant => "lquant"
  | .ldequant => "ldequant"
  | .tquant _ _ => "quant"
  | .tdequant => "dequant"
  | .ldequantI8 _ _ => "ldequant8"
  | .maxPool _ _ => "maxpool"
  | .bmaxPool _ => "bmaxpool"
  | .bconvI8 _ _ _ => "bconv8"
  | .bconv a => if a.outBits then "bconv-bits" else "bconv"
  | .conv2d _ => "conv2d"
  | .sign => "sign"
  | .select => "select"
  | .not => "not"
  | .broadcastTo _ => "broadcast"
  | .transpose => "transpose"
  | .pad => "pad"
  | .tflConv _ _ _ => "conv"
  | .ident => "ident"
  | .pass => "pass"
  | .other _ => "other"

/-- The operators of a graph, in order. -/
def Graph.kinds (g : Graph) : List String := g.nodes.map fun n => n.op.kind

/-! ### Non-vacuity: a block of a network, converted -/

/-- `GreaterEqual(Conv2D(Select(GreaterEqual(x, 0), 1, -1), f) * 2 - 3, 0)`, quantized, with a 2 * 2 image, one channel,
two 1 * 1 filters. -/
def exBlock : Graph where
  nodes := [
    ⟨0, .arg 0, [], some [1, 2, 2, 1]⟩,
    ⟨1, .const (.f ⟨[], [0]⟩), [], some []⟩,
    ⟨2, .ge, [0, 1], some [1, 2, 2, 1]⟩,
    ⟨3, .const (.f ⟨[], [1]⟩), [], some []⟩,
    ⟨4, .const (.f ⟨[], [-1]⟩), [], some []⟩,
    ⟨5, .select, [2, 3, 4], some [1, 2, 2, 1]⟩,
    ⟨6, .const (.f ⟨[1, 1, 1, 2], [1 / 2, -3]⟩), [], some [1, 1, 1, 2]⟩,
    ⟨7, .conv2d ⟨1, 1, 1, 1, .valid⟩, [5, 6], some [1, 2, 2, 2]⟩,
    ⟨8, .const (.f ⟨[2], [2, 2]⟩), [], some [2]⟩,
    ⟨9, .bin .mul .none, [7, 8], some [1, 2, 2, 2]⟩,
    ⟨10, .const (.f ⟨[], [3]⟩), [], some []⟩,
    ⟨11, .bin .sub .none, [9, 10], some [1, 2, 2, 2]⟩,
    ⟨12, .ge, [11, 1], some [1, 2, 2, 2]⟩,
    ⟨13, .lquant, [12], some [1, 2, 2, 2]⟩]
  outs := [13]

/-- The choices of the driver: 14 patterns and folds (unused operations are erased after each). -/
def exScript : List (Rule × Nat) := [(ruleSelect false, 5), (ruleBroadcast, 3), (ruleGeZero, 3), (rulePrepare false, 5),
  (ruleFold, 5), (ruleFold, 4), (ruleFuseMulDiv false, 9), (ruleFold, 7), (ruleFold, 8), (ruleFuseAddSub true, 9),
  (ruleFold, 8), (ruleGeZero, 9), (ruleBitpackActivations false, 7), (ruleFold, 4), (ruleBitpackWeights, 6)]

/-- The argument of the example. -/
def exArg : List Val := [.f ⟨[1, 2, 2, 1], [3, -1 / 2, 0, -7]⟩]

theorem exScript_rules : ∀ r i, (r, i) ∈ exScript → r ∈ allRules false ∧ r.excAt = fun _ _ _ => false := by
  intro r i h
  simp only [exScript, List.mem_cons, Prod.mk.injEq, List.not_mem_nil, or_false] at h
  simp only [allRules, prepareRules, optimizeRules, quantizeRules, fusePadRules, Bool.false_eq_true, if_false,
    List.mem_append, List.mem_cons, List.not_mem_nil, or_false]
  rcases h with h | h | h | h | h | h | h | h | h | h | h | h | h | h | h <;> rw [h.1] <;> exact ⟨by simp, rfl⟩

/-- The hypotheses of the theorem are met by this graph and this sequence of choices, none of them exceptional: the float
block becomes a quantization and a binary convolution with bitpacked weights and binary output, and for the argument both
have the result `[-1, -1, -1, 1, -1, -1, -1, 1]`. -/
example : exBlock.Ssa ∧ (∃ g', Steps (allRules false) (fun _ => True) exBlock g' ∧
      g'.kinds = ["arg", "lquant", "const", "const", "const", "bits", "bconv-bits"] ∧
      g'.eval exArg = some [.s ⟨[1, 2, 2, 2], [true, true, true, false, true, true, true, false]⟩]) ∧
    exBlock.eval exArg = some [.s ⟨[1, 2, 2, 2], [true, true, true, false, true, true, true, false]⟩] := by
  refine ⟨ssa_of_check (by decide +kernel) (by decide +kernel), ?_, by decide +kernel⟩
  have h : ((exBlock.moves true exScript).map fun g => (g.kinds, g.eval exArg)) =
      some (["arg", "lquant", "const", "const", "const", "bits", "bconv-bits"],
        some [.s ⟨[1, 2, 2, 2], [true, true, true, false, true, true, true, false]⟩]) := by decide +kernel
  rw [Option.map_eq_some_iff] at h
  obtain ⟨g', h1, h2⟩ := h
  simp only [Prod.mk.injEq] at h2
  exact ⟨g', moves_steps exScript exScript_rules (.refl _) h1, h2.1, h2.2⟩

/-! ### Non-vacuity: a quantized model -/

/-- `Quantize(BConv2D(LceQuantize(Dequantize(x))))` with multiplier and bias that are quantized and dequantized: what the
quantization passes of TFLite leave behind. -/
def exInt8 : Graph where
  nodes := [
    ⟨0, .arg 0, [], some [1, 2, 2, 1]⟩,
    ⟨1, .tdequant, [0], some [1, 2, 2, 1]⟩,
    ⟨2, .lquant, [1], some [1, 2, 2, 1]⟩,
    ⟨3, .const (.s ⟨[2, 1, 1, 1], [true, false]⟩), [], some [2, 1, 1, 1]⟩,
    ⟨4, .const (.f ⟨[2], [3, -1 / 2]⟩), [], some [2]⟩,
    ⟨5, .tquant (1 / 2) 0, [4], some [2]⟩,
    ⟨6, .tdequant, [5], some [2]⟩,
    ⟨7, .const (.f ⟨[2], [1, 4]⟩), [], some [2]⟩,
    ⟨8, .tquant 1 0, [7], some [2]⟩,
    ⟨9, .tdequant, [8], some [2]⟩,
    ⟨10, .const .none, [], Option.none⟩,
    ⟨11, .bconv ⟨⟨1, 1, 1, 1, .valid⟩, 0, 1, .none, false⟩, [2, 3, 6, 9, 10], some [1, 2, 2, 2]⟩,
    ⟨12, .tquant (3 / 4) (-3), [11], some [1, 2, 2, 2]⟩]
  outs := [12]

/-- int8 pixels with zero point 5. -/
def exInt8Arg : List Val := [.q ⟨[1, 2, 2, 1], [-128, 4, 5, 127]⟩ (1 / 10) 5]

theorem exInt8_ssa : exInt8.Ssa := ssa_of_check (by decide +kernel) (by decide +kernel)

/-- The choices of the driver that do not depend on the arguments. -/
def exInt8Script : List (Rule × Nat) := [(ruleQuantInt8, 2), (ruleStripQdq, 10)]

theorem exInt8Script_rules : ∀ r i, (r, i) ∈ exInt8Script → r ∈ allRules false ∧ r.excAt = fun _ _ _ => false := by
  intro r i h
  simp only [exInt8Script, List.mem_cons, Prod.mk.injEq, List.not_mem_nil, or_false] at h
  simp only [allRules, prepareRules, optimizeRules, quantizeRules, fusePadRules, Bool.false_eq_true, if_false,
    List.mem_append, List.mem_cons, List.not_mem_nil, or_false]
  rcases h with h | h <;> rw [h.1] <;> exact ⟨by simp, rfl⟩

/-- The converted graph of `exInt8`. -/
def exInt8Conv : Option Graph :=
  (exInt8.moves true exInt8Script).bind fun g => (g.move true (.rewrite ruleFuseQuantize 7)).map fun g' => g'.dce g'.nodes.length

/-- The quantized graph is converted to one quantization and an int8 convolution, without exceptions for this argument, and
has the same result. -/
theorem exInt8_converts : ∃ g', exInt8Conv = some g' ∧ Steps (allRules false) (fun ins => ins = exInt8Arg) exInt8 g' ∧
    g'.kinds = ["arg", "lquant", "bits", "const", "const", "const", "bconv8"] ∧
    g'.eval exInt8Arg = some [.q ⟨[1, 2, 2, 2], [2, 3, 2, 3, -6, 2, -6, 2]⟩ (3 / 4) (-3)] ∧
    exInt8.eval exInt8Arg = some [.q ⟨[1, 2, 2, 2], [2, 3, 2, 3, -6, 2, -6, 2]⟩ (3 / 4) (-3)] := by
  have h : ((exInt8.moves true exInt8Script).bind fun g => (g.move true (.rewrite ruleFuseQuantize 7)).map fun g' =>
      (g.atB ruleFuseQuantize 7 exInt8Arg, (g'.dce g'.nodes.length).kinds, (g'.dce g'.nodes.length).eval exInt8Arg)) =
      some (true, ["arg", "lquant", "bits", "const", "const", "const", "bconv8"],
        some [.q ⟨[1, 2, 2, 2], [2, 3, 2, 3, -6, 2, -6, 2]⟩ (3 / 4) (-3)]) := by decide +kernel
  rw [Option.bind_eq_some_iff] at h
  obtain ⟨g1, h1, h2⟩ := h
  rw [Option.map_eq_some_iff] at h2
  obtain ⟨g2, h2, h3⟩ := h2
  simp only [Prod.mk.injEq] at h3
  refine ⟨g2.dce g2.nodes.length, ?_, dce_steps _ (.step (moves_steps exInt8Script exInt8Script_rules (.refl _) h1)
    (move_step (mem_allRules_quantize (by simp [quantizeRules])) (fun ins hi => ⟨rfl, ?_⟩) h2)), h3.2.1, h3.2.2, by decide +kernel⟩
  · unfold exInt8Conv
    rw [h1, Option.bind_some, h2, Option.map_some]
  · subst hi; exact h3.1

/-! ### The exceptional matches are real: each changes the result of some graph -/

/-- A pattern changes the result of a well-formed graph for some arguments. -/
def Changes (arm : Bool) (r : Rule) : Prop :=
  ∃ g g' ins vs, g.Ssa ∧ r ∈ allRules arm ∧ Step [r] (fun _ => False) g g' ∧ g.eval ins = some vs ∧ g'.eval ins ≠ some vs

/-- A check for `Changes`. -/
def changesB (r : Rule) (g : Graph) (i : Nat) (ins : List Val) : Bool :=
  ssaB [] g.nodes && g.outs.all (fun x => (g.nodes.map (·.name)).contains x) && (g.eval ins).isSome &&
    match g.move false (.rewrite r i) with
    | some g' => decide (g'.eval ins ≠ g.eval ins)
    | Option.none => false

theorem changes_of {arm : Bool} {r : Rule} {g : Graph} {i : Nat} {ins : List Val} (hr : r ∈ allRules arm)
    (h : changesB r g i ins = true) : Changes arm r := by
  unfold changesB at h
  simp only [Bool.and_eq_true] at h
  obtain ⟨⟨⟨h1, h2⟩, h3⟩, h4⟩ := h
  obtain ⟨vs, hvs⟩ := Option.isSome_iff_exists.1 h3
  split at h4
  · rename_i g' hg'
    simp only [decide_eq_true_eq] at h4
    exact ⟨g, g', ins, vs, ssa_of_check h1 h2, hr, move_step (by simp) (fun _ h => h.elim) hg', hvs, by rw [← hvs]; exact h4⟩
  · cases h4

theorem mem_allRules {arm : Bool} {r : Rule} (h : r ∈ prepareRules arm ∨ r ∈ optimizeRules arm ∨ r ∈ fusePadRules ∨ r ∈ quantizeRules) :
    r ∈ allRules arm := by
  simp only [allRules, List.mem_append]
  tauto

/-- C24: max pooling with a fused Relu. -/
theorem C61_maxpool_witness : Changes true ruleMaxPool :=
  changes_of (g := ⟨[⟨0, .arg 0, [], some [1, 1, 1, 1]⟩, ⟨1, .maxPool ⟨1, 1, 1, 1, .valid⟩ .relu, [0], some [1, 1, 1, 1]⟩,
      ⟨2, .lquant, [1], some [1, 1, 1, 1]⟩], [2]⟩) (i := 2) (ins := [.f ⟨[1, 1, 1, 1], [-1]⟩])
    (mem_allRules (Or.inr (Or.inl (by simp [optimizeRules])))) (by decide +kernel)

/-- C29: a constant with one value per column. -/
theorem C61_add_witness : Changes false (ruleFuseAddSub false) :=
  changes_of (g := ⟨[⟨0, .arg 0, [], some [1, 1, 2, 1]⟩, ⟨1, .lquant, [0], some [1, 1, 2, 1]⟩,
      ⟨2, .const (.f ⟨[2, 1, 1, 1], [1, -1]⟩), [], some [2, 1, 1, 1]⟩, ⟨3, .const (.f ⟨[2], [1, 1]⟩), [], some [2]⟩,
      ⟨4, .const (.f ⟨[2], [0, 0]⟩), [], some [2]⟩, ⟨5, .const .none, [], Option.none⟩,
      ⟨6, .bconv ⟨⟨1, 1, 1, 1, .valid⟩, 0, 1, .none, false⟩, [1, 2, 3, 4, 5], some [1, 1, 2, 2]⟩,
      ⟨7, .const (.f ⟨[2, 1], [5, 7]⟩), [], some [2, 1]⟩, ⟨8, .bin .add .none, [6, 7], some [1, 1, 2, 2]⟩], [8]⟩)
    (i := 8) (ins := [.f ⟨[1, 1, 2, 1], [-1, 2]⟩])
    (mem_allRules (Or.inr (Or.inl (by simp [optimizeRules])))) (by decide +kernel)

/-- C31: weights of one channel whose magnitudes differ by less than the tolerance. -/
theorem C61_filter_witness : Changes false (rulePrepare false) :=
  changes_of (g := ⟨[⟨0, .arg 0, [], some [1, 1, 2, 1]⟩, ⟨1, .lquant, [0], some [1, 1, 2, 1]⟩,
      ⟨2, .ldequant, [1], some [1, 1, 2, 1]⟩,
      ⟨3, .const (.f ⟨[1, 2, 1, 1], [1, 100000001 / 100000000]⟩), [], some [1, 2, 1, 1]⟩,
      ⟨4, .conv2d ⟨1, 1, 1, 1, .valid⟩, [2, 3], some [1, 1, 1, 1]⟩], [4]⟩)
    (i := 4) (ins := [.f ⟨[1, 1, 2, 1], [-1, 2]⟩])
    (mem_allRules (Or.inl (by simp [prepareRules]))) (by decide +kernel)

/-- C28: stride 2 and a padding of one on both sides, before a binary convolution. -/
theorem C61_pad_witness : Changes false rulePadConv :=
  changes_of (g := ⟨[⟨0, .arg 0, [], some [1, 4, 1, 1]⟩, ⟨1, .lquant, [0], some [1, 4, 1, 1]⟩,
      ⟨2, .ldequant, [1], some [1, 4, 1, 1]⟩, ⟨3, .const (.i ⟨[4, 2], [0, 0, 1, 1, 0, 0, 0, 0]⟩), [], some [4, 2]⟩,
      ⟨4, .const (.f ⟨[], [1]⟩), [], some []⟩, ⟨5, .pad, [2, 3, 4], some [1, 6, 1, 1]⟩,
      ⟨6, .const (.f ⟨[3, 1, 1, 1], [1, 1, 1]⟩), [], some [3, 1, 1, 1]⟩,
      ⟨7, .conv2d ⟨2, 1, 1, 1, .valid⟩, [5, 6], some [1, 2, 1, 1]⟩], [7]⟩)
    (i := 7) (ins := [.f ⟨[1, 4, 1, 1], [1, -1, 1, 1]⟩])
    (mem_allRules (Or.inl (by simp [prepareRules]))) (by decide +kernel)

/-- C28: the same before a float convolution. -/
theorem C61_float_pad_witness : Changes false (ruleFusePad false false) :=
  changes_of (g := ⟨[⟨0, .arg 0, [], some [1, 4, 1, 1]⟩,
      ⟨3, .const (.i ⟨[4, 2], [0, 0, 1, 1, 0, 0, 0, 0]⟩), [], some [4, 2]⟩,
      ⟨5, .pad, [0, 3], some [1, 6, 1, 1]⟩,
      ⟨6, .const (.f ⟨[1, 3, 1, 1], [1, 1, 1]⟩), [], some [1, 3, 1, 1]⟩, ⟨7, .const (.f ⟨[1], [0]⟩), [], some [1]⟩,
      ⟨8, .tflConv ⟨2, 1, 1, 1, .valid⟩ .none false, [5, 6, 7], some [1, 2, 1, 1]⟩], [8]⟩)
    (i := 5) (ins := [.f ⟨[1, 4, 1, 1], [1, -1, 1, 1]⟩])
    (mem_allRules (Or.inr (Or.inr (Or.inl (by simp [fusePadRules]))))) (by decide +kernel)

/-- C32: `Sign(Sign(x) + 2)`. -/
theorem C61_sign_witness : Changes false (ruleSign false) :=
  changes_of (g := ⟨[⟨0, .arg 0, [], some [1]⟩, ⟨1, .sign, [0], some [1]⟩, ⟨2, .const (.f ⟨[], [2]⟩), [], some []⟩,
      ⟨3, .bin .add .none, [1, 2], some [1]⟩, ⟨4, .sign, [3], some [1]⟩], [4]⟩)
    (i := 4) (ins := [.f ⟨[1], [-1]⟩])
    (mem_allRules (Or.inl (by simp [prepareRules]))) (by decide +kernel)

/-- A zero constant that enlarges the shape. -/
theorem C61_zero_witness : Changes false ruleGeZero :=
  changes_of (g := ⟨[⟨0, .arg 0, [], some [1]⟩, ⟨1, .const (.f ⟨[2], [0, 0]⟩), [], some [2]⟩, ⟨2, .ge, [0, 1], some [2]⟩,
      ⟨3, .lquant, [2], some [2]⟩], [3]⟩)
    (i := 3) (ins := [.f ⟨[1], [-1]⟩])
    (mem_allRules (Or.inr (Or.inl (by simp [optimizeRules])))) (by decide +kernel)

/-- A select of scalars: the new `LceQuantize` has no last dimension to pack. -/
theorem C61_scalar_witness : Changes false (ruleSelect false) :=
  changes_of (g := ⟨[⟨0, .arg 0, [], some []⟩, ⟨1, .const (.f ⟨[], [1]⟩), [], some []⟩,
      ⟨2, .const (.f ⟨[], [-1]⟩), [], some []⟩, ⟨3, .select, [0, 1, 2], some []⟩], [3]⟩)
    (i := 3) (ins := [.b ⟨[], [true]⟩])
    (mem_allRules (Or.inl (by simp [prepareRules]))) (by decide +kernel)

/-- C36: a tie (`1 / 2` rounds to 1, minus 1 is 0; `1 / 2 - 1` rounds to -1). -/
theorem C61_quantize_witness : Changes false ruleFuseQuantize :=
  changes_of (g := ⟨[⟨0, .arg 0, [], some [1, 1, 1, 1]⟩, ⟨1, .lquant, [0], some [1, 1, 1, 1]⟩,
      ⟨2, .const (.f ⟨[1, 1, 1, 1], [1]⟩), [], some [1, 1, 1, 1]⟩, ⟨3, .const (.f ⟨[1], [1 / 2]⟩), [], some [1]⟩,
      ⟨4, .const (.f ⟨[1], [0]⟩), [], some [1]⟩, ⟨5, .const .none, [], Option.none⟩,
      ⟨6, .bconv ⟨⟨1, 1, 1, 1, .valid⟩, 0, 1, .none, false⟩, [1, 2, 3, 4, 5], some [1, 1, 1, 1]⟩,
      ⟨7, .tquant 1 (-1), [6], some [1, 1, 1, 1]⟩], [7]⟩)
    (i := 7) (ins := [.f ⟨[1, 1, 1, 1], [1]⟩])
    (mem_allRules (Or.inr (Or.inr (Or.inr (by simp [quantizeRules]))))) (by decide +kernel)

/-- Quantization that changes the multiplier. -/
theorem C61_strip_witness : Changes false ruleStripQdq :=
  changes_of (g := ⟨[⟨0, .arg 0, [], some [1, 1, 1, 1]⟩, ⟨1, .lquant, [0], some [1, 1, 1, 1]⟩,
      ⟨2, .const (.f ⟨[1, 1, 1, 1], [1]⟩), [], some [1, 1, 1, 1]⟩, ⟨3, .const (.f ⟨[1], [1 / 3]⟩), [], some [1]⟩,
      ⟨4, .tquant 1 0, [3], some [1]⟩, ⟨5, .tdequant, [4], some [1]⟩, ⟨6, .const .none, [], Option.none⟩,
      ⟨7, .bconv ⟨⟨1, 1, 1, 1, .valid⟩, 0, 1, .none, false⟩, [1, 2, 5, 5, 6], some [1, 1, 1, 1]⟩], [7]⟩)
    (i := 7) (ins := [.f ⟨[1, 1, 1, 1], [1]⟩])
    (mem_allRules (Or.inr (Or.inr (Or.inr (by simp [quantizeRules]))))) (by decide +kernel)

end Verif.Ir
