import Verif.Proof.File
import Verif.Props.Exec

/-! C72: a graph written to a model file, read back, and run from the file. -/

namespace Verif.Ir

theorem mapM_cons_iff {α β : Type} {f : α → Option β} {x : α} {l : List α} {r : List β} :
    (x :: l).mapM f = some r ↔ ∃ y ys, f x = some y ∧ l.mapM f = some ys ∧ r = y :: ys := by
  rw [mapM_cons']
  simp only [Option.bind_eq_some_iff, Option.map_eq_some_iff]
  constructor
  · rintro ⟨y, h1, ys, h2, rfl⟩; exact ⟨y, ys, h1, h2, rfl⟩
  · rintro ⟨y, ys, h1, h2, rfl⟩; exact ⟨y, h1, ys, h2, rfl⟩

theorem mapM_forall₂ {α β : Type} {f : α → Option β} : ∀ {l : List α} {r : List β}, l.mapM f = some r →
    List.Forall₂ (fun x y => f x = some y) l r
  | [], _, h => by cases h; exact .nil
  | _ :: _, _, h => by
    obtain ⟨y, ys, h1, h2, rfl⟩ := mapM_cons_iff.1 h
    exact .cons h1 (mapM_forall₂ h2)

theorem mapM_none_iff {α β : Type} {f : α → Option β} : ∀ {l : List α}, l.mapM f = none ↔ ∃ x ∈ l, f x = none
  | [] => by simp
  | x :: l => by
    rw [mapM_cons']
    cases e : f x with
    | none => simp [e]
    | some y =>
      simp only [Option.bind_some, Option.map_eq_none_iff, mapM_none_iff (l := l), List.mem_cons]
      constructor
      · rintro ⟨z, h1, h2⟩; exact ⟨z, Or.inr h1, h2⟩
      · rintro ⟨z, rfl | h1, h2⟩
        · rw [e] at h2; exact absurd h2 (by simp)
        · exact ⟨z, h1, h2⟩

/-- **C72 (undefined).** Writing a graph is undefined exactly if it has a binary convolution with an activation the
runtime does not implement. -/
theorem C72_undefined (M : FileGraph) :
    M.legalize = none ↔ ∃ n ∈ M.nodes, ∃ o, n.op = .builtin o ∧ ¬ o.ActOk := by
  unfold FileGraph.legalize
  rw [Option.map_eq_none_iff, mapM_none_iff]
  have key : ∀ n : FileNode, legalizeNode n = none ↔ ∃ o, n.op = .builtin o ∧ ¬ o.ActOk := by
    intro n
    unfold legalizeNode
    rw [Option.map_eq_none_iff]
    cases h : n.op with
    | custom c m rt => simp [legalizeOp]
    | builtin o =>
      have e : (∃ o', FileOp.builtin o = .builtin o' ∧ ¬ o'.ActOk) ↔ ¬ o.ActOk := by
        constructor
        · rintro ⟨o', h1, h2⟩; cases h1; exact h2
        · intro h; exact ⟨o, rfl, h⟩
      rw [e]
      cases o with
      | bconv a =>
        simp only [legalizeOp, Option.map_eq_none_iff, Op.ActOk, not_not]
        constructor
        · intro h1
          by_contra h2
          obtain ⟨m, h3, -⟩ := conv_options a h2
          rw [h1] at h3
          exact absurd h3 (by simp)
        · exact options_none
      | bconvI8 a s z =>
        simp only [legalizeOp, Option.map_eq_none_iff, Op.ActOk, not_not]
        constructor
        · intro h1
          by_contra h2
          obtain ⟨m, h3, -⟩ := conv_options a h2
          rw [h1] at h3
          exact absurd h3 (by simp)
        · exact options_none
      | bmaxPool a =>
        obtain ⟨m, h3, -⟩ := pool_options a
        simp [legalizeOp, Op.ActOk, h3]
      | _ => simp [legalizeOp, Op.ActOk]
  constructor
  · rintro ⟨n, h1, h2⟩; exact ⟨n, h1, (key n).1 h2⟩
  · rintro ⟨n, h1, h2⟩; exact ⟨n, h1, (key n).2 h2⟩

/-- **C72 (written file).** Writing keeps the order of the operators, the names of results, operands and static shapes,
changes no operator outside the `lq` dialect, and leaves no operator of the `lq` dialect. -/
theorem C72_written {M F : FileGraph} (h : M.legalize = some F) :
    F.outs = M.outs ∧
    List.Forall₂ (fun n n' : FileNode => n'.name = n.name ∧ n'.args = n.args ∧ n'.ty = n.ty ∧
      (∀ c m rt, n.op = .custom c m rt → n'.op = n.op) ∧
      (∀ o, n.op = .builtin o → o.isLq = false → n'.op = n.op) ∧
      (∀ o, n.op = .builtin o → o.isLq = true → ∃ c m rt, n'.op = .custom c m rt ∧
        c ∈ ["LceQuantize", "LceDequantize", "LceBMaxPool2d", "LceBconv2d"] ∧
        ∀ r : Reg, (registered r.ruy r.useRef r.useIndirect c).isSome)) M.nodes F.nodes := by
  unfold FileGraph.legalize at h
  obtain ⟨l, hl, rfl⟩ := Option.map_eq_some_iff.1 h
  refine ⟨rfl, (mapM_forall₂ hl).imp ?_⟩
  intro n n' hn
  obtain ⟨o', ho, rfl⟩ := Option.map_eq_some_iff.1 hn
  refine ⟨rfl, rfl, rfl, ?_, ?_, ?_⟩
  · intro c m rt e
    rw [e] at ho
    cases ho
    exact e.symm
  · intro o e hq
    rw [e] at ho
    show o' = n.op
    rw [e]
    cases o <;> first
      | (simpa [legalizeOp] using ho.symm)
      | (simp [Op.isLq] at hq)
  · intro o e hq
    rw [e] at ho
    cases o <;> try (exact absurd hq Bool.false_ne_true)
    case lquant =>
      cases ho
      exact ⟨_, _, _, rfl, by rw [code_quantize]; simp, fun r => by rw [reg_quantize]; rfl⟩
    case ldequant =>
      cases ho
      exact ⟨_, _, _, rfl, by rw [code_dequantize]; simp, fun r => by rw [reg_dequantize]; rfl⟩
    case ldequantI8 s z =>
      cases ho
      exact ⟨_, _, _, rfl, by rw [code_dequantize]; simp, fun r => by rw [reg_dequantize]; rfl⟩
    case bmaxPool a =>
      obtain ⟨m, hm, rfl⟩ := Option.map_eq_some_iff.1 ho
      exact ⟨_, _, _, rfl, by rw [code_pool]; simp, fun r => by rw [reg_pool]; rfl⟩
    case bconv a =>
      obtain ⟨m, hm, rfl⟩ := Option.map_eq_some_iff.1 ho
      exact ⟨_, _, _, rfl, by rw [code_bconv]; simp, fun r => by rw [reg_bconv]; rfl⟩
    case bconvI8 a s z =>
      obtain ⟨m, hm, rfl⟩ := Option.map_eq_some_iff.1 ho
      exact ⟨_, _, _, rfl, by rw [code_bconv]; simp, fun r => by rw [reg_bconv]; rfl⟩

/-- **C72 (nothing is left).** A written file has no operator of the `lq` dialect. -/
theorem C72_no_lq_left {M F : FileGraph} (hF : M.legalize = some F) :
    ∀ n ∈ F.nodes, ∀ o, n.op = .builtin o → o.isLq = false := by
  intro n hn o ho
  obtain ⟨-, hw⟩ := C72_written hF
  by_contra hq
  simp only [Bool.not_eq_false] at hq
  have : ∀ {l l' : List FileNode}, List.Forall₂ (fun n n' : FileNode => ∀ o, n'.op = .builtin o → o.isLq = false) l l' →
      ∀ n ∈ l', ∀ o, n.op = .builtin o → o.isLq = false := by
    intro l l' h
    induction h with
    | nil => intro n hn; simp at hn
    | cons h1 _ ih =>
      intro n hn
      rcases List.mem_cons.1 hn with rfl | hn
      · exact h1
      · exact ih n hn
  refine absurd (this (hw.imp ?_) n hn o ho) (by simp [hq])
  rintro a b ⟨-, -, -, k1, k2, k3⟩ o ho
  cases ha : a.op with
  | custom c m rt =>
    have := k1 c m rt ha
    rw [ha, ho] at this
    cases this
  | builtin o' =>
    cases hq' : o'.isLq with
    | false =>
      have := k2 o' ha hq'
      rw [ha, ho] at this
      cases this
      exact hq'
    | true =>
      obtain ⟨c, m, rt, k4, -⟩ := k3 o' ha hq'
      rw [ho] at k4
      cases k4

theorem import_foreign {c : String} (h : ForeignCode c) : importCode c = none := by
  simp only [ForeignCode, List.mem_cons, List.not_mem_nil, or_false, not_or] at h
  unfold importCode
  simp [h]

theorem args_one {l : List Nat} (h : l.length = 1) : ∃ x, l = [x] := List.length_eq_one_iff.1 h

theorem args_five {l : List Nat} (h : l.length = 5) : ∃ x f m b t, l = [x, f, m, b, t] := by
  rcases l with _ | ⟨x, _ | ⟨f, _ | ⟨mu, _ | ⟨b, _ | ⟨t, _ | ⟨u, l⟩⟩⟩⟩⟩⟩ <;> simp at h ⊢

theorem node_round {n : FileNode} (h : n.Writable) :
    ∃ n', legalizeNode n = some n' ∧ translateNode n' = some n := by
  obtain ⟨nm, op, args, ty⟩ := n
  cases op with
  | custom c m rt =>
    refine ⟨_, rfl, ?_⟩
    simp only [translateNode, import_foreign h]
  | builtin o =>
    by_cases hq : o.isLq
    swap
    · refine ⟨⟨nm, .builtin o, args, ty⟩, ?_, rfl⟩
      cases o <;> first
        | rfl
        | (simp [Op.isLq] at hq)
    obtain ⟨hb, ha, har⟩ : o.Below (2 ^ 32) ∧ o.ActOk ∧ o.Arity args.length := h
    cases o <;> try (exact absurd hq Bool.false_ne_true)
    case lquant =>
      refine ⟨_, rfl, ?_⟩
      simp only [translateNode, (C35_names .quantize true true true).1]
    case ldequant =>
      refine ⟨_, rfl, ?_⟩
      simp only [translateNode, (C35_names .dequantize true true true).1]
    case ldequantI8 s z =>
      refine ⟨_, rfl, ?_⟩
      simp only [translateNode, (C35_names .dequantize true true true).1]
    case bmaxPool a =>
      obtain ⟨m, hm, hi, -⟩ := pool_options a
      obtain ⟨x, rfl⟩ := args_one har
      refine ⟨⟨nm, .custom LceOp.bmaxpool2d.customCode m .words, [x], ty⟩, by simp [legalizeNode, legalizeOp, hm], ?_⟩
      simp only [translateNode, (C35_names .bmaxpool2d true true true).1, hi, Option.map_some, pool_attrs_round hb]
    case bconv a =>
      obtain ⟨m, hm, hi⟩ := conv_options a ha
      obtain ⟨x, f, mu, b, t, rfl⟩ := args_five har
      refine ⟨⟨nm, .custom LceOp.bconv2d.customCode m (if a.outBits then .words else .float), [x, f, mu, b, t], ty⟩,
        by simp [legalizeNode, legalizeOp, hm], ?_⟩
      have hr := conv_attrs_round hb
      simp only [translateNode, (C35_names .bconv2d true true true).1, hi, Option.map_some]
      cases ho : a.outBits <;> rw [ho] at hr <;> simp [hr]
    case bconvI8 a s z =>
      obtain ⟨m, hm, hi⟩ := conv_options a ha
      obtain ⟨x, f, mu, b, t, rfl⟩ := args_five har
      refine ⟨⟨nm, .custom LceOp.bconv2d.customCode m (.int8 s z), [x, f, mu, b, t], ty⟩,
        by simp [legalizeNode, legalizeOp, hm], ?_⟩
      have hr := conv_attrs_round hb.1
      rw [hb.2] at hr
      simp only [translateNode, (C35_names .bconv2d true true true).1, hi, Option.map_some, hr]

/-- **C72 (round trip).** A graph whose binary convolutions have supported activations, whose integer attributes fit in
32 bits, whose operators have their numbers of operands and whose custom operators are not LCE's is written to a file, and
reading the file gives the same graph back. -/
theorem C72_roundtrip {M : FileGraph} (h : ∀ n ∈ M.nodes, n.Writable) :
    ∃ F, M.legalize = some F ∧ F.translate = some M := by
  obtain ⟨nodes, outs⟩ := M
  suffices hs : ∃ l, nodes.mapM legalizeNode = some l ∧ l.mapM translateNode = some nodes by
    obtain ⟨l, h1, h2⟩ := hs
    exact ⟨⟨l, outs⟩, by simp [FileGraph.legalize, h1], by simp [FileGraph.translate, h2]⟩
  replace h : ∀ n ∈ nodes, n.Writable := h
  induction nodes with
  | nil => exact ⟨[], rfl, rfl⟩
  | cons n l ih =>
    obtain ⟨l', h1, h2⟩ := ih fun x hx => h x (List.mem_cons_of_mem _ hx)
    obtain ⟨n', h3, h4⟩ := node_round (h n List.mem_cons_self)
    exact ⟨n' :: l', mapM_cons_iff.2 ⟨_, _, h3, h1, rfl⟩, mapM_cons_iff.2 ⟨_, _, h4, h2, rfl⟩⟩

theorem exec_nodes_file (reg : Reg) (cfg : Cfg) (ins : List MVal) : ∀ {l : List Node} {l' : List FileNode},
    (l.map fun n => (⟨n.name, .builtin n.op, n.args, n.ty⟩ : FileNode)).mapM legalizeNode = some l' →
    (∀ n ∈ l, n.op.Below (2 ^ 31)) → ∀ env, execFileNodes reg cfg ins l' env
      = execNodes { cfg with kt := reg.kernel } ins l env
  | [], _, h, _, env => by cases h; rfl
  | n :: l, _, h, hb, env => by
    obtain ⟨n', ys, h1, h2, rfl⟩ := mapM_cons_iff.1 h
    obtain ⟨o, ho, rfl⟩ := Option.map_eq_some_iff.1 h1
    unfold execFileNodes execNodes
    simp only
    cases n.args.mapM env with
    | none => rfl
    | some ms =>
      simp only
      rw [exec_op_file reg cfg ins n.name n.ty n.op (hb n List.mem_cons_self) ho]
      refine congrArg (Outcome.bind _) (funext fun m => ?_)
      exact exec_nodes_file reg cfg ins h2 (fun x hx => hb x (List.mem_cons_of_mem _ hx)) _

/-- **C72 (inference).** An inference of the written file, in an interpreter with any registration of LCE's kernels, does
exactly what the graph does with the BConv2D kernel that was registered: the same error, or the same output tensors. -/
theorem C72_inference (reg : Reg) (cfg : Cfg) {g : Graph} {F : FileGraph} (hF : g.toFile.legalize = some F)
    (hb : ∀ n ∈ g.nodes, n.op.Below (2 ^ 31)) (ins : List MVal) :
    F.exec reg cfg ins = g.exec { cfg with kt := reg.kernel } ins := by
  unfold FileGraph.legalize at hF
  obtain ⟨l, hl, rfl⟩ := Option.map_eq_some_iff.1 hF
  unfold FileGraph.exec Graph.exec
  simp only
  rw [exec_nodes_file reg cfg ins hl hb]
  rfl

/-- **C72 (converted file).** The converter rewrites `g` to `g'` until nothing is left to do and writes the file `F`. An
inference of `F` is refused exactly in the cases listed for `g'`, and otherwise writes the results of `g`. -/
theorem C72_converted_file_partial (arm : Bool) (reg : Reg) {cfg : Cfg} {g g' : Graph} {F : FileGraph} {ins vs : List Val}
    {mins : List MVal} (hg : g.Ssa) {safe : List Val → Prop} (hconv : Steps (allRules arm) safe g g')
    (hend : ∀ g'', ¬ Step (allRules arm) safe g' g'') (hF : g'.toFile.legalize = some F)
    (hb : ∀ n ∈ g'.nodes, n.op.Below (2 ^ 31)) (hi : safe ins) (hsch : cfg.Scheduled) (htame : g'.Tame reg.kernel ins)
    (hins : List.Forall₂ Rep ins mins) (hv : g.eval ins = some vs) :
    (g'.Rejected { cfg with kt := reg.kernel } ins → F.exec reg cfg mins = .error) ∧
    (¬ g'.Rejected { cfg with kt := reg.kernel } ins → ∃ ms, F.exec reg cfg mins = .ok ms ∧ List.Forall₂ Rep vs ms) := by
  rw [C72_inference reg cfg hF hb]
  exact C63_converted_model_partial arm (cfg := { cfg with kt := reg.kernel }) hg hconv hend hi hsch htame hins hv

/-! ### Reading a file and writing it again -/

theorem act_name_code {v : BitVec 32} {s : String} (h : activationName v = some s) :
    ∃ k, activationCode (Act.attr (Act.ofAttr s)) = some k ∧ (BitVec.ofNat 64 k).setWidth 32 = v := by
  unfold activationName at h
  split at h
  · cases h; exact ⟨0, by decide, by rename_i e; rw [e]; decide⟩
  split at h
  · cases h; exact ⟨1, by decide, by rename_i e; rw [e]; decide⟩
  split at h
  · cases h; exact ⟨2, by decide, by rename_i e; rw [e]; decide⟩
  split at h
  · cases h; exact ⟨3, by decide, by rename_i e; rw [e]; decide⟩
  · cases h

theorem pad_name_code {v : BitVec 32} {s : String} (h : paddingName v = some s) :
    ∃ k, paddingCode (paddingAttr (paddingOfAttr s)) = some k ∧ (BitVec.ofNat 64 k).setWidth 32 = v := by
  unfold paddingName at h
  split at h
  · cases h; exact ⟨0, by decide, by rename_i e; rw [e]; decide⟩
  split at h
  · cases h; exact ⟨1, by decide, by rename_i e; rw [e]; decide⟩
  · cases h

theorem ofNat_toNat_eq (v : BitVec 32) : BitVec.ofNat 32 v.toNat = v := by simp

/-- What `Init` reads from options that were read by the importer and written again. -/
theorem conv_reexport {m : FlexMap} {a : ConvOpAttrs} (ob : Bool) (h : importBconv m = some a) {r : RtConvAttrs}
    (hi : bconvInit m = some r) : ∃ m', bconvOptions (convAttrsOf a ob).opAttrs = some m' ∧ bconvInit m' = some r := by
  unfold importBconv at h
  simp only [Option.bind_eq_bind, Option.bind_eq_some_iff, Option.some.injEq] at h
  obtain ⟨s, h1, p, h2, rfl⟩ := h
  obtain ⟨k, e1, e2⟩ := act_name_code h1
  obtain ⟨j, e3, e4⟩ := pad_name_code h2
  refine ⟨_, by unfold bconvOptions BConvAttrs.opAttrs convAttrsOf; simp only [e1, e3]; rfl, ?_⟩
  rw [bconvInit_eval]
  simp only [setWidth_round, e2, e4, ofNat_toNat_eq]
  unfold bconvInit at hi
  simp only [Option.ite_none_left_eq_some] at hi
  obtain ⟨-, -, -, -, -, -, -, -, h9, h10⟩ := hi
  rw [if_neg h9]
  exact h10

theorem pool_reexport {m : FlexMap} {a : PoolOpAttrs} (h : importPool m = some a) :
    ∃ m', poolOptions (poolOpAttrs (poolAttrsOf a)) = some m' ∧ poolInit m' = poolInit m := by
  unfold importPool at h
  simp only [Option.bind_eq_bind, Option.bind_eq_some_iff, Option.some.injEq] at h
  obtain ⟨p, h2, rfl⟩ := h
  obtain ⟨j, e3, e4⟩ := pad_name_code h2
  refine ⟨_, by unfold poolOptions poolOpAttrs poolAttrsOf; simp only [e3]; rfl, ?_⟩
  rw [poolInit_eval]
  simp only [setWidth_round, e4, ofNat_toNat_eq]
  rfl

theorem fileBConv_ok {cfg : Cfg} {kt : KernelType} {nm : Nat} {m : FlexMap} {rt : RType} {x f mu b t v : MVal}
    (h : fileBConv cfg kt nm m rt x f mu b t = .ok v) : ∃ r, bconvInit m = some r := by
  cases e : bconvInit m with
  | some r => exact ⟨r, rfl⟩
  | none =>
    exfalso
    unfold fileBConv prepare at h
    simp only [fileBConvNode, e, Option.bind_none] at h
    cases h

theorem fileBConv_congr (cfg : Cfg) (kt : KernelType) (nm : Nat) {m m' : FlexMap} (rt : RType) (x f mu b t : MVal)
    (h : bconvInit m' = bconvInit m) : fileBConv cfg kt nm m' rt x f mu b t = fileBConv cfg kt nm m rt x f mu b t := by
  unfold fileBConv fileBConvNode
  rw [h]

theorem out_bits (a : ConvOpAttrs) (b : Bool) : (convAttrsOf a b).outBits = b := rfl

theorem importCode_some {c : String} {k : LceOp} (h : importCode c = some k) : c = k.customCode := by
  unfold importCode at h
  split at h
  · cases h; rename_i e; rw [e, code_quantize]
  split at h
  · cases h; rename_i e; rw [e, code_dequantize]
  split at h
  · cases h; rename_i e; rw [e, code_pool]
  split at h
  · cases h; rename_i e; rw [e, code_bconv]
  · cases h

theorem legalize_not_lq {o : Op} (h : o.isLq = false) : legalizeOp (.builtin o) = some (.builtin o) := by
  cases o <;> first
    | rfl
    | (simp [Op.isLq] at h)

theorem file_lq_error (reg : Reg) (cfg : Cfg) (ins : List MVal) (nm : Nat) (ty : Option (List Nat)) {o : Op} (h : o.isLq = true)
    (l : List MVal) : execFileOp reg cfg ins nm ty (.builtin o) l = .error := by
  cases o <;> first
    | rfl
    | (simp [Op.isLq] at h)

theorem node_reexport (reg : Reg) (cfg : Cfg) (ins : List MVal) {n n1 : FileNode} (ht : translateNode n = some n1)
    {env : Nat → Option MVal} {ms : List MVal} (hl : n.args.mapM env = some ms) {v : MVal}
    (hx : execFileOp reg cfg ins n.name n.ty n.op ms = .ok v) :
    ∃ n2, legalizeNode n1 = some n2 ∧ n2.name = n.name ∧ n2.args = n.args ∧ n2.ty = n.ty ∧
      execFileOp reg cfg ins n.name n.ty n2.op ms = .ok v := by
  obtain ⟨nm, op, args, ty⟩ := n
  replace hl := mapM_length hl
  simp only at hl hx ⊢
  cases op with
  | builtin o =>
    cases ht
    cases hq : o.isLq with
    | true => rw [file_lq_error reg cfg ins nm ty hq] at hx; cases hx
    | false => exact ⟨⟨nm, .builtin o, args, ty⟩, by simp [legalizeNode, legalize_not_lq hq], rfl, rfl, rfl, hx⟩
  | custom c m rt =>
    rw [exec_custom] at hx
    unfold translateNode at ht
    simp only at ht
    cases e : importCode c with
    | none =>
      rw [e] at ht
      cases ht
      refine ⟨⟨nm, .custom c m rt, args, ty⟩, rfl, rfl, rfl, rfl, ?_⟩
      rw [exec_custom]
      exact hx
    | some k =>
      rw [e] at ht
      have hc := importCode_some e
      subst hc
      unfold execCustom at hx
      cases k with
      | quantize =>
        rw [reg_quantize] at hx
        rcases ms with _ | ⟨x, _ | ⟨y, ms⟩⟩
        · cases hx
        swap
        · cases hx
        cases rt <;> first
          | (cases ht; done)
          | (cases ht
             refine ⟨_, rfl, rfl, rfl, rfl, ?_⟩
             rw [exec_custom]
             unfold execCustom
             rw [reg_quantize]
             exact hx)
      | dequantize =>
        rw [reg_dequantize] at hx
        rcases ms with _ | ⟨x, _ | ⟨y, ms⟩⟩
        · cases hx
        swap
        · cases hx
        cases rt <;> first
          | (cases ht; done)
          | (cases ht
             refine ⟨_, rfl, rfl, rfl, rfl, ?_⟩
             rw [exec_custom]
             unfold execCustom
             rw [reg_dequantize]
             exact hx)
      | bmaxpool2d =>
        rw [reg_pool] at hx
        rcases ms with _ | ⟨x, _ | ⟨y, ms⟩⟩
        · cases hx
        swap
        · cases hx
        obtain ⟨x', rfl⟩ := args_one (l := args) (by simpa using hl.symm)
        cases rt with
        | float => cases ht
        | int8 s z => cases ht
        | words =>
          simp only [Option.map_eq_some_iff] at ht
          obtain ⟨a, ha, rfl⟩ := ht
          obtain ⟨m', h1, h2⟩ := pool_reexport ha
          refine ⟨⟨nm, .custom LceOp.bmaxpool2d.customCode m' .words, [x'], ty⟩, by simp [legalizeNode, legalizeOp, h1],
            rfl, rfl, rfl, ?_⟩
          rw [exec_custom]
          unfold execCustom
          rw [reg_pool]
          simp only [h2]
          exact hx
      | bconv2d =>
        rw [reg_bconv] at hx
        rcases ms with _ | ⟨x, _ | ⟨f, _ | ⟨mu, _ | ⟨b, _ | ⟨t, _ | ⟨u, ms⟩⟩⟩⟩⟩⟩ <;> try (cases hx; done)
        obtain ⟨x', f', mu', b', t', rfl⟩ := args_five (l := args) (by simpa using hl.symm)
        simp only [Option.map_eq_some_iff] at ht
        obtain ⟨a, ha, rfl⟩ := ht
        replace hx : fileBConv cfg reg.kernel nm m rt x f mu b t = .ok v := hx
        obtain ⟨r, hr⟩ := fileBConv_ok hx
        cases rt with
        | words =>
          obtain ⟨m', h1, h2⟩ := conv_reexport true ha hr
          refine ⟨⟨nm, .custom LceOp.bconv2d.customCode m' .words, [x', f', mu', b', t'], ty⟩,
            by simp [legalizeNode, legalizeOp, h1, out_bits], rfl, rfl, rfl, ?_⟩
          rw [exec_custom]
          unfold execCustom
          rw [reg_bconv]
          exact (fileBConv_congr cfg reg.kernel nm .words x f mu b t (h2.trans hr.symm)).trans hx
        | float =>
          obtain ⟨m', h1, h2⟩ := conv_reexport false ha hr
          refine ⟨⟨nm, .custom LceOp.bconv2d.customCode m' .float, [x', f', mu', b', t'], ty⟩,
            by simp [legalizeNode, legalizeOp, h1, out_bits], rfl, rfl, rfl, ?_⟩
          rw [exec_custom]
          unfold execCustom
          rw [reg_bconv]
          exact (fileBConv_congr cfg reg.kernel nm .float x f mu b t (h2.trans hr.symm)).trans hx
        | int8 s z =>
          obtain ⟨m', h1, h2⟩ := conv_reexport false ha hr
          refine ⟨⟨nm, .custom LceOp.bconv2d.customCode m' (.int8 s z), [x', f', mu', b', t'], ty⟩,
            by simp [legalizeNode, legalizeOp, h1], rfl, rfl, rfl, ?_⟩
          rw [exec_custom]
          unfold execCustom
          rw [reg_bconv]
          exact (fileBConv_congr cfg reg.kernel nm (.int8 s z) x f mu b t (h2.trans hr.symm)).trans hx

theorem nodes_reexport (reg : Reg) (cfg : Cfg) (ins : List MVal) : ∀ {l l1 : List FileNode} {env env' : Nat → Option MVal},
    l.mapM translateNode = some l1 → execFileNodes reg cfg ins l env = .ok env' →
    ∃ l2, l1.mapM legalizeNode = some l2 ∧ execFileNodes reg cfg ins l2 env = .ok env'
  | [], _, _, _, h, hx => by cases h; exact ⟨[], rfl, hx⟩
  | n :: l, _, env, env', h, hx => by
    obtain ⟨n1, l1, h1, h2, rfl⟩ := mapM_cons_iff.1 h
    unfold execFileNodes at hx
    cases e : n.args.mapM env with
    | none => rw [e] at hx; cases hx
    | some ms =>
      rw [e] at hx
      simp only at hx
      cases e2 : execFileOp reg cfg ins n.name n.ty n.op ms with
      | error => rw [e2] at hx; cases hx
      | ub => rw [e2] at hx; cases hx
      | ok v =>
        rw [e2] at hx
        obtain ⟨n2, h3, h4, h5, h6, h7⟩ := node_reexport reg cfg ins h1 e e2
        obtain ⟨l2, h8, h9⟩ := nodes_reexport reg cfg ins h2 hx
        refine ⟨n2 :: l2, mapM_cons_iff.2 ⟨_, _, h3, h8, rfl⟩, ?_⟩
        unfold execFileNodes
        simp only [h4, h5, h6, e, h7]
        exact h9

/-- **C72 (reading and writing again).** If a file, whoever wrote it, runs in the interpreter, then the file that is
obtained by importing it (when that is defined) and exporting the result runs with the same outputs. -/
theorem C72_reexport (reg : Reg) (cfg : Cfg) {F M : FileGraph} {ins r : List MVal} (h : F.translate = some M)
    (hx : F.exec reg cfg ins = .ok r) : ∃ F', M.legalize = some F' ∧ F'.exec reg cfg ins = .ok r := by
  unfold FileGraph.translate at h
  obtain ⟨l1, h1, rfl⟩ := Option.map_eq_some_iff.1 h
  unfold FileGraph.exec at hx
  cases e : execFileNodes reg cfg ins F.nodes fun _ => none with
  | error => rw [e] at hx; cases hx
  | ub => rw [e] at hx; cases hx
  | ok env =>
    rw [e] at hx
    obtain ⟨l2, h2, h3⟩ := nodes_reexport reg cfg ins h1 e
    refine ⟨⟨l2, F.outs⟩, by simp [FileGraph.legalize, h2], ?_⟩
    unfold FileGraph.exec
    rw [h3]
    exact hx

/-- The converse fails: the importer supplies 0 for a missing entry, so that a model the interpreter refuses (no
`pad_values`) is accepted after importing and exporting it. -/
theorem C72_missing_entry_witness : ∃ (m : FlexMap) (a : ConvOpAttrs), bconvInit m = none ∧ importBconv m = some a ∧
    ∃ m', bconvOptions (convAttrsOf a false).opAttrs = some m' ∧ (bconvInit m').isSome := by
  refine ⟨[("channels_in", 32), ("dilation_height_factor", 1), ("dilation_width_factor", 1),
    ("fused_activation_function", 0), ("padding", 1), ("stride_height", 1), ("stride_width", 1)],
    ⟨32, 1, 1, "NONE", 0, "VALID", 1, 1⟩, by decide, by decide, _, rfl, by decide⟩

/-! ### Non-vacuity -/

/-- A quantization, a binary convolution with binary result, a pooling, and a dequantization. -/
def exampleModule : FileGraph :=
  { nodes := [⟨0, .builtin (.arg 0), [], none⟩, ⟨1, .builtin .lquant, [0], none⟩,
      ⟨2, .builtin (.const (.s ⟨[32, 3, 3, 64], []⟩)), [], none⟩, ⟨3, .builtin (.const .none), [], none⟩,
      ⟨4, .builtin (.const (.i ⟨[32], []⟩)), [], none⟩,
      ⟨5, .builtin (.bconv ⟨⟨2, 1, 1, 3, .same⟩, 1, 64, .relu6, true⟩), [1, 2, 3, 3, 4], none⟩,
      ⟨6, .builtin (.bmaxPool ⟨2, 3, 2, 1, .valid⟩), [5], none⟩,
      ⟨7, .builtin .ldequant, [6], some [1, 4, 4, 32]⟩, ⟨8, .custom "TFLite_Detection_PostProcess" [] .float, [7], none⟩],
    outs := [8] }

example : ∃ F, exampleModule.legalize = some F ∧ F.translate = some exampleModule := by
  refine C72_roundtrip fun n hn => ?_
  simp only [exampleModule, List.mem_cons, List.not_mem_nil, or_false] at hn
  rcases hn with rfl | rfl | rfl | rfl | rfl | rfl | rfl | rfl | rfl <;>
    simp [FileNode.Writable, Op.Below, Op.ActOk, Op.Arity, ForeignCode, BConvAttrs.Below]

/-- The int8 example of C61, converted, written to a file and run from it: the kernels registered by default in a build
with ruy, and with `use_reference_bconv`. -/
example (useRef : Bool) : ∃ g' F, Steps (allRules false) (fun ins => ins = exInt8Arg) exInt8 g' ∧
    g'.toFile.legalize = some F ∧ (∀ n ∈ F.nodes, ∀ o, n.op = .builtin o → o.isLq = false) ∧
    F.nodes.any (fun n => match n.op with | .custom "LceBconv2d" m _ => m.length == 8 | _ => false) = true ∧
    F.exec ⟨true, useRef, false⟩ (exCfg .indirect false) (exInt8Arg.map .plain) =
      .ok [.plain (.q ⟨[1, 2, 2, 2], [2, 3, 2, 3, -6, 2, -6, 2]⟩ (3 / 4) (-3))] := by
  obtain ⟨g', h1, h2, -⟩ := exInt8_converts
  have h : (exInt8Conv.bind fun g => g.toFile.legalize.map fun F => F.nodes.any (fun n => match n.op with
      | .custom "LceBconv2d" m _ => m.length == 8 | _ => false)) = some true := by decide +kernel
  have e : ∀ useRef, (exInt8Conv.bind fun g => g.toFile.legalize.map fun F =>
      F.exec ⟨true, useRef, false⟩ (exCfg .indirect false) (exInt8Arg.map .plain))
      = some (.ok [.plain (.q ⟨[1, 2, 2, 2], [2, 3, 2, 3, -6, 2, -6, 2]⟩ (3 / 4) (-3))]) := by
    intro r
    cases r
    · kernel_rfl
    · kernel_rfl
  rw [h1] at h e
  simp only [Option.bind_some, Option.map_eq_some_iff] at h e
  obtain ⟨F, hF, hc⟩ := h
  obtain ⟨F', hF', he⟩ := e useRef
  rw [hF] at hF'
  cases hF'
  refine ⟨g', F, h2, hF, ?_, hc, he⟩
  exact C72_no_lq_left hF

end Verif.Ir
