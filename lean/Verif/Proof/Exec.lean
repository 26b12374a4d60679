import Verif.Spec.ExecRel
import Verif.Proof.PackRat
import Verif.Proof.IrRules
import Verif.Props.QuantizePrepare
import Verif.Props.BMaxPool

/-! Executing a node by its kernel computes what the graph says: all operators except BConv2D. -/

namespace Verif.Ir

theorem buf_length {α : Type} (g : Nat → α) (k : Nat) : (buf g k).length = k := by simp [buf]

theorem lead_of_ne {s : List Nat} (h : s ≠ []) : ∃ lead c, s = lead ++ [c] :=
  ⟨s.dropLast, s.getLast h, (List.dropLast_append_getLast h).symm⟩

theorem getD_some {α : Type} {l : List α} {i : Nat} {v d : α} (h : l[i]? = some v) : l.getD i d = v := by
  rw [List.getD_eq_getElem?_getD, h]; rfl

/-- Elements of a list by index. -/
theorem getElem_getD {α : Type} {l : List α} {i : Nat} (h : i < l.length) (d : α) : l[i]? = some (l.getD i d) := by
  rw [List.getD_eq_getElem?_getD, List.getElem?_eq_getElem h]; rfl

/-- Packed words that hold the right bits represent the tensor. -/
theorem rep_words {t : TensOf Bool} {lead : List Nat} {c : Nat} {d : List Word} (hs : t.shape = lead ++ [c])
    (hp : IsPacked lead.prod c d)
    (hb : ∀ r k, r < lead.prod → k < c → ∃ w v, d[r * ((c + 31) / 32) + k / 32]? = some w ∧
      t.data[r * c + k]? = some v ∧ w.getLsbD (k % 32) = v) :
    Rep (.s t) (.words (lead ++ [(c + 31) / 32]) d) := by
  refine ⟨lead, c, hs, rfl, hp, fun r k hr hk => ?_⟩
  obtain ⟨w, v, h1, h2, h3⟩ := hb r k hr hk
  rw [getD_some h1, getD_some h2, h3]

/-! ### LceQuantize -/

theorem exec_quantize_f {cfg : Cfg} {nm : Nat} {t : Tens} (hw : (Val.f t).wf = true) (hn : t.shape ≠ []) :
    ∃ m, execQuantize cfg nm (.plain (.f t)) = .ok m ∧ Rep (.s (t.map fun v => decide (v < 0))) m := by
  obtain ⟨lead, c, hs⟩ := lead_of_ne hn
  have hl : t.data.length = lead.prod * c := by
    have := wfF.1 hw; rw [hs] at this; simpa using this
  obtain ⟨d, h1, h2, h3⟩ := bitpackMatrix_rat (x := t.data) (rows := lead.prod) (cols := c)
    (out0 := buf (cfg.bufW nm) (lead ++ [(c + 31) / 32]).prod) (junk := cfg.junk nm) hl (by simp [buf_length])
  refine ⟨.words (lead ++ [(c + 31) / 32]) d, ?_, ?_⟩
  · simp only [execQuantize]
    rw [hs, (C48_quantize_shape lead c).1]
    simp only [bitpackTensor, List.getLast?_append, List.getLast?_singleton, Option.some_or,
      Option.bind_eq_bind, Option.bind_some, List.dropLast_concat]
    rw [h1]
    rfl
  · refine rep_words (by simpa [TensOf.map] using hs) h2 fun r k hr hk => ?_
    obtain ⟨w, v, e1, e2, e3⟩ := h3 r k hr hk
    refine ⟨w, decide (v < 0), e1, by simp [TensOf.map, e2], ?_⟩
    rw [Bool.eq_iff_iff, e3, decide_eq_true_eq]

/-- LceQuantize of a tensor that is not float. -/
theorem quantize_data {shape lead : List Nat} {c : Nat} (hs : shape = lead ++ [c]) {x : TData} {out0 : List Word} {junk : Word}
    (hin : x.size = lead.prod * c) (hout : out0.length = lead.prod * ((c + 31) / 32)) (hz : x.zpOk) :
    ∃ d, quantizeEval shape x out0 junk = some d ∧ IsPacked lead.prod c d ∧
      ∀ r k, r < lead.prod → k < c → ∃ w, d[r * ((c + 31) / 32) + k / 32]? = some w ∧
        (w.getLsbD (k % 32) = true ↔ x.neg (r * c + k)) := by
  subst hs
  have e1 : (lead ++ [c]).getLast? = some c := by simp
  have e2 : (lead ++ [c]).dropLast = lead := by simp
  obtain ⟨d, h1, h2⟩ := C01_quantize_bits (junk := junk) e1 (by rw [e2]; exact hin) (by rw [e2]; exact hout) hz
  obtain ⟨d', h3, h4⟩ := C02_unused_bits_zero (junk := junk) e1 (by rw [e2]; exact hin) (by rw [e2]; exact hout) hz
  rw [h1] at h3; cases h3
  rw [e2] at h2 h4
  exact ⟨d, h1, h4, h2⟩

theorem exec_quantize_b {cfg : Cfg} {nm : Nat} {t : TensOf Bool} (hw : (Val.b t).wf = true) (hn : t.shape ≠ []) :
    ∃ m, execQuantize cfg nm (.plain (.b t)) = .ok m ∧ Rep (.s (t.map fun v => !v)) m := by
  obtain ⟨lead, c, hs⟩ := lead_of_ne hn
  have hl : t.data.length = lead.prod * c := by
    have := wfB.1 hw; rw [hs] at this; simpa using this
  obtain ⟨d, h1, h2, h3⟩ := quantize_data (x := .bool t.data) (out0 := buf (cfg.bufW nm) (lead ++ [(c + 31) / 32]).prod)
    (junk := cfg.junk nm) hs hl (by simp [buf_length]) trivial
  refine ⟨.words (lead ++ [(c + 31) / 32]) d, ?_, ?_⟩
  · simp only [execQuantize]
    rw [hs] at h1 ⊢
    rw [(C48_quantize_shape lead c).1]
    simp only
    rw [h1]
    rfl
  · refine rep_words (by simpa [TensOf.map] using hs) h2 fun r k hr hk => ?_
    obtain ⟨w, e1, e2⟩ := h3 r k hr hk
    have hi : r * c + k < t.data.length := by rw [hl]; exact row_lt hr hk
    refine ⟨w, !t.data[r * c + k], e1, by simp [TensOf.map, hi], ?_⟩
    simp only [TData.neg, List.getElem?_eq_getElem hi, Option.some.injEq] at e2
    rw [Bool.eq_iff_iff, e2, Bool.not_eq_true']

theorem exec_quantize_q {cfg : Cfg} {nm : Nat} {t : TensOf Int} {s : Rat} {z : Int} (hw : (Val.q t s z).wf = true)
    (hn : t.shape ≠ []) :
    ∃ m, execQuantize cfg nm (.plain (.q t s z)) = .ok m ∧ Rep (.s (t.map fun v => decide (v < z))) m := by
  obtain ⟨lead, c, hs⟩ := lead_of_ne hn
  obtain ⟨hl, _, hr8, hz1, hz2⟩ := wfQ.1 hw
  rw [hs] at hl
  simp only [List.prod_append, List.prod_singleton] at hl
  obtain ⟨d, h1, h2, h3⟩ := quantize_data (x := .i8 (t.data.map (BitVec.ofInt 8)) s z)
    (out0 := buf (cfg.bufW nm) (lead ++ [(c + 31) / 32]).prod)
    (junk := cfg.junk nm) hs (by simpa [TData.size] using hl) (by simp [buf_length]) hz2
  refine ⟨.words (lead ++ [(c + 31) / 32]) d, ?_, ?_⟩
  · simp only [execQuantize]
    rw [hs] at h1 ⊢
    rw [(C48_quantize_shape lead c).1]
    simp only
    rw [h1]
    rfl
  · refine rep_words (by simpa [TensOf.map] using hs) h2 fun r k hr hk => ?_
    obtain ⟨w, e1, e2⟩ := h3 r k hr hk
    have hi : r * c + k < t.data.length := by rw [hl]; exact row_lt hr hk
    refine ⟨w, decide (t.data[r * c + k] < z), e1, by simp [TensOf.map, hi], ?_⟩
    have h8 := hr8 _ (List.getElem_mem hi)
    simp only [TData.neg, List.getElem?_map, List.getElem?_eq_getElem hi, Option.map_some, Option.some.injEq,
      exists_eq_left', toInt_ofInt8 h8.1 h8.2] at e2
    rw [Bool.eq_iff_iff, e2, decide_eq_true_eq]

/-! ### LceDequantize -/

/-- What a representation gives for the unpacked elements. -/
theorem unpack_rep {β : Type} {t : TensOf Bool} {dims : List Nat} {d : List Word} (h : Rep (.s t) (.words dims d))
    (hw : (Val.s t).wf = true) {y0 : List β} (pos neg : β) (hy : y0.length = t.shape.prod) :
    dequantizePrepare dims t.shape = true ∧ ∃ lead c, t.shape = lead ++ [c] ∧
      unpackMatrix d lead.prod c y0 pos neg = some (t.data.map fun v => if v then neg else pos) := by
  obtain ⟨lead, c, hs, hd, hp, hb⟩ := h
  have hl : t.data.length = lead.prod * c := by
    have := wfS.1 hw; rw [hs] at this; simpa using this
  refine ⟨(C48_dequantize_accepts _ _).2 ⟨lead, c, hd, hs⟩, lead, c, hs, ?_⟩
  rw [hs] at hy
  obtain ⟨y, h1, h2, h3⟩ := unpackMatrix_result (pos := pos) (neg := neg) hp.len (by simpa using hy)
  rw [h1]
  refine congrArg some (List.ext_getElem? fun i => ?_)
  by_cases hi : i < lead.prod * c
  · obtain ⟨i1, i2⟩ := mod_lt_of_lt_mul hi
    obtain ⟨w, e1, e2⟩ := h3 _ _ i1 i2
    have e3 := hb _ _ i1 i2
    rw [getD_some e1] at e3
    rw [div_mul_add_mod] at e2 e3
    rw [e2, e3, List.getElem?_map, getElem_getD (by omega) false]
    rfl
  · rw [List.getElem?_eq_none (by rw [h2, hy]; simp; omega), List.getElem?_eq_none (by simp; omega)]

theorem exec_dequantize {cfg : Cfg} {nm : Nat} {t : TensOf Bool} {m : MVal} (h : Rep (.s t) m) (hw : (Val.s t).wf = true) :
    execDequantize cfg nm none m = .error ∧
    execDequantize cfg nm (some t.shape) m = .ok (.plain (.f (t.map bitVal))) := by
  cases m with
  | plain v => exact h.elim
  | words dims d =>
    obtain ⟨h1, lead, c, hs, h2⟩ := unpack_rep h hw (y0 := buf (cfg.bufR nm) t.shape.prod) 1 (-1 : Rat) (by simp [buf_length])
    refine ⟨rfl, ?_⟩
    simp only [execDequantize, h1, if_true]
    have e : (t.shape.getLast?.bind fun cols => unpackMatrix d t.shape.dropLast.prod cols
        (buf (cfg.bufR nm) t.shape.prod) (1 : Rat) (-1)) = some (t.data.map bitVal) := by
      rw [hs] at h2 ⊢
      simp only [List.getLast?_append, List.getLast?_singleton, Option.some_or, Option.bind_some, List.dropLast_concat]
      exact h2
    rw [e]
    rfl

theorem exec_dequantizeI8 {cfg : Cfg} {nm : Nat} {t : TensOf Bool} {m : MVal} {s : Rat} {z : Int} (h : Rep (.s t) m)
    (hw : (Val.s t).wf = true) (hs0 : 0 < s) (hz : -128 ≤ z ∧ z ≤ 127) (ht : 1 / s ≤ 1073741824) :
    execDequantizeI8 cfg nm none s z m = .error ∧
    execDequantizeI8 cfg nm (some t.shape) s z m =
      .ok (.plain (.q (t.map fun v => clampInt8 (z + roundHalfAway (bitVal v / s))) s z)) := by
  cases m with
  | plain v => exact h.elim
  | words dims d =>
    refine ⟨rfl, ?_⟩
    have o1 : 0 ≤ roundHalfAway (1 / s) := by
      have := roundHalfAway_mono (x := ((0 : Int) : ℚ)) (y := 1 / s) (by push_cast; positivity)
      rwa [roundHalfAway_int] at this
    have o2 : roundHalfAway (1 / s) ≤ 1073741824 := by
      have := roundHalfAway_mono (x := 1 / s) (y := ((1073741824 : Int) : ℚ)) (by exact_mod_cast ht)
      rwa [roundHalfAway_int] at this
    have on : roundHalfAway (-1 / s) = -roundHalfAway (1 / s) := by
      rw [show (-1 : ℚ) / s = -(1 / s) by ring]; exact roundHalfAway_neg_eq _
    generalize hoff : roundHalfAway (1 / s) = off at o1 o2 on
    have hv : dequantInt8Values id s z
        = some (BitVec.ofInt 8 (min 127 (z + off)), BitVec.ofInt 8 (max (-128) (z - off))) := by
      unfold dequantInt8Values
      simp only [id, hoff]
      have e1 : toInt32 off = some off := by rw [toInt32, if_pos (by omega)]
      have e2 : toInt32 (z + off) = some (z + off) := by rw [toInt32, if_pos (by omega)]
      have e3 : toInt32 (z - off) = some (z - off) := by rw [toInt32, if_pos (by omega)]
      simp [e1, e2, e3]
    obtain ⟨h1, lead, c, hs, h2⟩ := unpack_rep h hw (y0 := buf (cfg.bufB nm) t.shape.prod)
      (BitVec.ofInt 8 (min 127 (z + off))) (BitVec.ofInt 8 (max (-128) (z - off))) (by simp [buf_length])
    simp only [execDequantizeI8, h1, if_true]
    have e : dequantizeEvalI8 id t.shape s z d (buf (cfg.bufB nm) t.shape.prod) = some (t.data.map fun v =>
        if v then BitVec.ofInt 8 (max (-128) (z - off)) else BitVec.ofInt 8 (min 127 (z + off))) := by
      unfold dequantizeEvalI8
      rw [hs] at h2 ⊢
      simp only [List.getLast?_append, List.getLast?_singleton, Option.some_or, Option.bind_some, List.dropLast_concat,
        Option.bind_eq_bind, hv]
      exact h2
    rw [e]
    simp only [orUb, TensOf.map, List.map_map]
    refine congrArg (fun l => Outcome.ok (MVal.plain (Val.q ⟨t.shape, l⟩ s z))) ?_
    apply List.map_congr_left
    intro v _
    simp only [Function.comp_apply]
    cases v
    · simp only [Bool.false_eq_true, if_false, bitVal, hoff]
      rw [toInt_ofInt8 (by omega) (by omega)]
      unfold clampInt8
      split_ifs <;> omega
    · simp only [if_true, bitVal, on]
      rw [toInt_ofInt8 (by omega) (by omega)]
      unfold clampInt8
      split_ifs <;> omega

/-! ### Constants -/

theorem bitVal_neg (v : Bool) : bitVal v < 0 ↔ v = true := by cases v <;> simp [bitVal]

theorem exec_const {cfg : Cfg} {nm : Nat} {v : Val} (hw : v.wf = true) :
    (∃ t, v = .s t ∧ t.shape = [] ∧ execConst cfg nm v = .error) ∨
    ((∀ t, v = .s t → t.shape ≠ []) ∧ ∃ m, execConst cfg nm v = .ok m ∧ Rep v m) := by
  cases v with
  | s t =>
    by_cases hn : t.shape = []
    · left
      exact ⟨t, rfl, hn, by simp [execConst, hn]⟩
    · right
      refine ⟨by rintro t' ⟨⟩; exact hn, ?_⟩
      obtain ⟨lead, c, hs⟩ := lead_of_ne hn
      have hl : t.data.length = lead.prod * c := by
        have := wfS.1 hw; rw [hs] at this; simpa using this
      obtain ⟨d, h1, h2, h3⟩ := bitpackMatrix_rat (x := t.data.map bitVal) (rows := lead.prod) (cols := c)
        (out0 := List.replicate (lead.prod * packedSize c) 0#32) (junk := cfg.junk nm) (by simpa using hl)
        (by simp [packedSize_eq])
      refine ⟨.words (lead ++ [(c + 31) / 32]) d, ?_, ?_⟩
      · simp only [execConst]
        rw [hs]
        simp only [List.getLast?_append, List.getLast?_singleton, Option.some_or, List.dropLast_concat]
        rw [h1, packedSize_eq]
        rfl
      · refine rep_words hs h2 fun r k hr hk => ?_
        obtain ⟨w, v, e1, e2, e3⟩ := h3 r k hr hk
        rw [List.getElem?_map, Option.map_eq_some_iff] at e2
        obtain ⟨u, e2, rfl⟩ := e2
        refine ⟨w, u, e1, e2, ?_⟩
        rw [Bool.eq_iff_iff, e3, bitVal_neg]
  | _ => exact Or.inr ⟨(by intro t h; cases h), _, rfl, rfl⟩

/-! ### Max pooling -/

theorem poolPrepare_depth {a : PoolAttrs} {n h w c c' : Nat} {p : Pool} {od : List Nat}
    (e : poolPrepare 1 1 true true a [n, h, w, c] = some (p, od)) :
    poolPrepare 1 1 true true a [n, h, w, c'] = some ({ p with ch := c' }, [n, p.outH, p.outW, c']) := by
  unfold poolPrepare at e ⊢
  simp only [List.length_cons, List.length_nil, List.getD_cons_zero, List.getD_cons_succ] at e ⊢
  split at e
  · rename_i h1
    rw [if_pos h1]
    split at e
    · rename_i h2
      rw [if_pos h2]
      simp only [Option.some.injEq, Prod.mk.injEq] at e ⊢
      obtain ⟨rfl, rfl⟩ := e
      exact ⟨rfl, rfl⟩
    · cases e
  · cases e

theorem mk4_data {α : Type} {n h w c : Nat} {g : Nat → Nat → Nat → Nat → α} {b y x k : Nat} (hb : b < n) (hy : y < h)
    (hx : x < w) (hk : k < c) : (mk4 n h w c g).data[((b * h + y) * w + x) * c + k]? = some (g b y x k) := by
  have hi : ((b * h + y) * w + x) * c + k < n * h * w * c := row_lt (row_lt (row_lt hb hy) hx) hk
  simp only [mk4, List.getElem?_map, List.getElem?_range hi, Option.map_some]
  rw [(div_mod_row hk).1, (div_mod_row hk).2, (div_mod_row hx).1, (div_mod_row hx).2, (div_mod_row hy).1, (div_mod_row hy).2]

theorem lead3 {lead : List Nat} {n h w c c' : Nat} (e : [n, h, w, c] = lead ++ [c']) : lead = [n, h, w] ∧ c' = c := by
  have h := List.append_inj' (s₁ := [n, h, w]) (t₁ := [c]) (s₂ := lead) (t₂ := [c']) e rfl
  exact ⟨h.1.symm, by simpa using h.2.symm⟩

/-- Representation of a binary tensor with four dimensions. -/
theorem rep4 {t : TensOf Bool} {n h w c : Nat} {m : MVal} (hr : Rep (.s t) m) (hs : t.shape = [n, h, w, c]) :
    ∃ d, m = .words [n, h, w, (c + 31) / 32] d ∧ IsPacked (n * h * w) c d ∧ ∀ r k, r < n * h * w → k < c →
        (d.getD (r * ((c + 31) / 32) + k / 32) 0#32).getLsbD (k % 32) = t.data.getD (r * c + k) false := by
  cases m with
  | plain v => exact hr.elim
  | words dims d =>
    obtain ⟨lead, c', h1, h2, h3, h4⟩ := hr
    rw [hs] at h1
    obtain ⟨rfl, rfl⟩ := lead3 h1
    simp only [List.prod_cons, List.prod_nil, mul_one, ← mul_assoc] at h3 h4
    exact ⟨d, by rw [h2]; rfl, h3, h4⟩

/-- The converse, for a tensor given element by element. -/
theorem rep_mk4 {n h w c : Nat} {g : Nat → Nat → Nat → Nat → Bool} {d : List Word} (hp : IsPacked (n * h * w) c d)
    (hb : ∀ b y x k, b < n → y < h → x < w → k < c → ∃ v, d[((b * h + y) * w + x) * ((c + 31) / 32) + k / 32]? = some v ∧
      v.getLsbD (k % 32) = g b y x k) : Rep (.s (mk4 n h w c g)) (.words [n, h, w, (c + 31) / 32] d) := by
  refine rep_words (lead := [n, h, w]) (c := c) rfl (by simpa [← mul_assoc] using hp) fun r k hr hk => ?_
  simp only [List.prod_cons, List.prod_nil, mul_one, ← mul_assoc] at hr
  obtain ⟨r1, r2⟩ := mod_lt_of_lt_mul hr
  obtain ⟨r3, r4⟩ := mod_lt_of_lt_mul r1
  have hdec : (r / w / h * h + r / w % h) * w + r % w = r := by rw [div_mul_add_mod, div_mul_add_mod]
  obtain ⟨v, e1, e2⟩ := hb _ _ _ k r3 r4 r2 hk
  have e3 := mk4_data (g := g) r3 r4 r2 hk
  rw [hdec] at e1 e3
  exact ⟨v, _, e1, e3, e2⟩

theorem mem_windowPos {p : Pool} {oy ox : Nat} {q : Nat × Nat} : q ∈ windowPos p oy ox ↔ p.window oy ox q.1 q.2 := by
  unfold windowPos Pool.window
  simp only [List.mem_filter, List.mem_flatMap, List.mem_range, List.mem_map, decide_eq_true_eq]
  constructor
  · rintro ⟨_, h⟩; exact h
  · intro h; exact ⟨⟨q.1, h.1, q.2, h.2.1, rfl⟩, h⟩

theorem exec_bmaxPool {cfg : Cfg} {nm : Nat} {a : PoolAttrs} {vx v : Val} {m : MVal} (h : Rep vx m)
    (hv : bmaxPoolEval a [vx] = some v) : ∃ m', execBMaxPool cfg nm a m = .ok m' ∧ Rep v m' := by
  cases vx with
  | s x =>
    simp only [bmaxPoolEval] at hv
    split at hv
    · rename_i n hh w c hs
      rw [Option.map_eq_some_iff] at hv
      obtain ⟨⟨p, od⟩, hp, rfl⟩ := hv
      obtain ⟨d, rfl, hpk, hbits⟩ := rep4 h hs
      have hp' := poolPrepare_depth (c' := (c + 31) / 32) hp
      obtain ⟨hg, hdims, _⟩ := poolPrepare_some hp'
      obtain ⟨hg0, hdims0, _⟩ := poolPrepare_some hp
      simp only [List.cons.injEq, and_true] at hdims0
      obtain ⟨q1, q2, q3, _⟩ := hdims0
      subst q1 q2 q3
      obtain ⟨z, z1, z2, z3⟩ := bmaxpool_packed hg (C := c) rfl (q := d)
        (out0 := buf (cfg.bufW nm) [p.batches, p.outH, p.outW, (c + 31) / 32].prod) hpk
        (by simp [buf_length, ← mul_assoc])
      refine ⟨.words [p.batches, p.outH, p.outW, (c + 31) / 32] z, ?_, ?_⟩
      · simp only [execBMaxPool, hp', z1, orUb]
      · refine rep_mk4 z2 fun b y x' k hb hy hx hk => ?_
        obtain ⟨u, u1, u2⟩ := z3 b y x' k hb hy hx hk
        refine ⟨u, u1, ?_⟩
        rw [Bool.eq_iff_iff, u2, List.all_eq_true]
        constructor
        · intro hall q hq
          have hw := mem_windowPos.1 hq
          have := hall q.1 q.2 hw
          rwa [hbits _ _ (row_lt (row_lt hb hw.1) hw.2.1) hk] at this
        · intro hall iy ix hw
          have := hall (iy, ix) (mem_windowPos.2 hw)
          rw [hbits _ _ (row_lt (row_lt hb hw.1) hw.2.1) hk]
          exact this
    · cases hv
  | _ => simp [bmaxPoolEval] at hv

/-! ### Operators that are not from the Larq Compute Engine -/

theorem rep_plain {v : Val} {m : MVal} (h : Rep v m) (hs : ∀ t, v ≠ .s t) : m = .plain v := by
  cases v with
  | s t => exact absurd rfl (hs t)
  | _ => cases m with
    | plain v' => exact congrArg MVal.plain h
    | words => exact h.elim

theorem rep_self {v : Val} (hs : ∀ t, v ≠ .s t) : Rep v (.plain v) := by
  cases v with
  | s t => exact absurd rfl (hs t)
  | _ => rfl

theorem plain_all {l : List Val} {ml : List MVal} (h : List.Forall₂ Rep l ml) (hs : ∀ t, Val.s t ∉ l) :
    ml.mapM MVal.plain? = some l := by
  induction h with
  | nil => rfl
  | cons h1 _ ih =>
    have e := rep_plain h1 (fun t he => hs t (by simp [he]))
    subst e
    rw [mapM_cons', ih (fun t ht => hs t (by simp [ht]))]
    rfl

theorem plain_none {l : List Val} {ml : List MVal} (h : List.Forall₂ Rep l ml) {t : TensOf Bool} (ht : Val.s t ∈ l) :
    ml.mapM MVal.plain? = none := by
  induction h with
  | nil => cases ht
  | @cons v m l' ml' h1 _ ih =>
    rw [mapM_cons']
    rcases List.mem_cons.1 ht with rfl | ht
    · cases m with
      | plain v => exact h1.elim
      | words => rfl
    · rw [ih ht]
      cases m.plain? <;> rfl

/-- A plain operator whose operands and result are not binary. -/
theorem exec_plain {o : Op} {ty : Option (List Nat)} {l : List Val} {ml : List MVal} {v : Val} (h : List.Forall₂ Rep l ml)
    (hs : ∀ t, Val.s t ∉ l) (hr : ∀ t, v ≠ .s t) (hv : o.run [] ty l = some v) :
    ∃ m, execPlain o ty ml = .ok m ∧ Rep v m := by
  refine ⟨.plain v, ?_, rep_self hr⟩
  unfold execPlain
  rw [plain_all h hs]
  simp only [hv]

theorem exec_plain_error {o : Op} {ty : Option (List Nat)} {l : List Val} {ml : List MVal} {v : Val}
    (h : List.Forall₂ Rep l ml) (hv : o.run [] ty l = some v) (hs : (∃ t, Val.s t ∈ l) ∨ ∃ t, v = .s t) :
    execPlain o ty ml = .error := by
  unfold execPlain
  by_cases hl : ∃ t, Val.s t ∈ l
  · obtain ⟨t, ht⟩ := hl
    rw [plain_none h ht]
  · rw [plain_all h (fun t ht => hl ⟨t, ht⟩)]
    obtain ⟨t, rfl⟩ := hs.resolve_left hl
    simp only [hv]

end Verif.Ir
