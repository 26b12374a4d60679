import Verif.Proof.Ir
import Verif.Proof.Broadcast
import Verif.Props.QuantPatterns
import Verif.Props.BMaxPool
import Verif.Props.QuantFuse
import Mathlib.Tactic.Ring
import Mathlib.Tactic.Linarith

/-! Soundness of the patterns that do not involve convolution arithmetic. -/

namespace Verif.Ir

/-! ### Tools -/

theorem node_eval {ins : List Val} {env : Env} {nm : Nat} {o : Op} {args : List Nat} {ty : Option (List Nat)} {v : Val}
    (h : Node.eval ins env ⟨nm, o, args, ty⟩ = some v) :
    ∃ l, args.mapM env = some l ∧ o.eval ins l = some v ∧ v.wf = true ∧ (ty = none ∨ ty = some v.shape) := by
  unfold Node.eval at h
  rw [Option.bind_eq_some_iff] at h
  obtain ⟨l, h1, h2⟩ := h
  obtain ⟨h3, h4, h5⟩ := run_wf h2
  exact ⟨l, h1, h5, h3, h4⟩

theorem mapM_cons_some {α β : Type} {f : α → Option β} {a : α} {l : List α} {r : List β}
    (h : (a :: l).mapM f = some r) : ∃ v vs, f a = some v ∧ l.mapM f = some vs ∧ r = v :: vs := by
  rw [mapM_cons'] at h
  simp only [Option.bind_eq_some_iff, Option.map_eq_some_iff] at h
  obtain ⟨v, h1, ws, h2, rfl⟩ := h
  exact ⟨v, ws, h1, h2, rfl⟩

theorem eval1 {ins : List Val} {env : Env} {nm : Nat} {o : Op} {x : Nat} {ty : Option (List Nat)} {v : Val}
    (h : Node.eval ins env ⟨nm, o, [x], ty⟩ = some v) :
    ∃ a, env x = some a ∧ o.eval ins [a] = some v ∧ v.wf = true ∧ (ty = none ∨ ty = some v.shape) := by
  obtain ⟨l, h1, h2, h3, h4⟩ := node_eval h
  obtain ⟨a, vs, h5, h6, rfl⟩ := mapM_cons_some h1
  rw [mapM_nil'] at h6; cases h6
  exact ⟨a, h5, h2, h3, h4⟩

theorem eval2 {ins : List Val} {env : Env} {nm : Nat} {o : Op} {x y : Nat} {ty : Option (List Nat)} {v : Val}
    (h : Node.eval ins env ⟨nm, o, [x, y], ty⟩ = some v) :
    ∃ a b, env x = some a ∧ env y = some b ∧ o.eval ins [a, b] = some v ∧ v.wf = true ∧
      (ty = none ∨ ty = some v.shape) := by
  obtain ⟨l, h1, h2, h3, h4⟩ := node_eval h
  obtain ⟨a, vs, h5, h6, rfl⟩ := mapM_cons_some h1
  obtain ⟨b, vs, h7, h8, rfl⟩ := mapM_cons_some h6
  rw [mapM_nil'] at h8; cases h8
  exact ⟨a, b, h5, h7, h2, h3, h4⟩

theorem eval3 {ins : List Val} {env : Env} {nm : Nat} {o : Op} {x y z : Nat} {ty : Option (List Nat)} {v : Val}
    (h : Node.eval ins env ⟨nm, o, [x, y, z], ty⟩ = some v) :
    ∃ a b c, env x = some a ∧ env y = some b ∧ env z = some c ∧ o.eval ins [a, b, c] = some v ∧ v.wf = true ∧
      (ty = none ∨ ty = some v.shape) := by
  obtain ⟨l, h1, h2, h3, h4⟩ := node_eval h
  obtain ⟨a, vs, h5, h6, rfl⟩ := mapM_cons_some h1
  obtain ⟨b, vs, h7, h8, rfl⟩ := mapM_cons_some h6
  obtain ⟨c, vs, h9, h10, rfl⟩ := mapM_cons_some h8
  rw [mapM_nil'] at h10; cases h10
  exact ⟨a, b, c, h5, h7, h9, h2, h3, h4⟩

theorem eval5 {ins : List Val} {env : Env} {nm : Nat} {o : Op} {x f m b t : Nat} {ty : Option (List Nat)} {v : Val}
    (h : Node.eval ins env ⟨nm, o, [x, f, m, b, t], ty⟩ = some v) :
    ∃ vx vf vm vb vt, env x = some vx ∧ env f = some vf ∧ env m = some vm ∧ env b = some vb ∧ env t = some vt ∧
      o.eval ins [vx, vf, vm, vb, vt] = some v ∧ v.wf = true ∧ (ty = none ∨ ty = some v.shape) := by
  obtain ⟨l, h1, h2, h3, h4⟩ := node_eval h
  obtain ⟨a, vs, h5, h6, rfl⟩ := mapM_cons_some h1
  obtain ⟨b, vs, h7, h8, rfl⟩ := mapM_cons_some h6
  obtain ⟨c, vs, h9, h10, rfl⟩ := mapM_cons_some h8
  obtain ⟨d, vs, h11, h12, rfl⟩ := mapM_cons_some h10
  obtain ⟨e, vs, h13, h14, rfl⟩ := mapM_cons_some h12
  rw [mapM_nil'] at h14; cases h14
  exact ⟨a, b, c, d, e, h5, h7, h9, h11, h13, h2, h3, h4⟩

theorem Defs.val {ins : List Val} {env : Env} {c : Ctx} (hd : Defs ins env c) {x : Nat} {m : Node} {a : Val}
    (hl : c.look x = some m) (hv : env x = some a) : m.eval ins env = some a := by
  rw [← hd.defs x m hl]; exact hv

/-- A value defined by a constant is the constant. -/
theorem Defs.const {ins : List Val} {env : Env} {c : Ctx} (hd : Defs ins env c) {x : Nat} {v w : Val}
    (hc : c.constOf x = some v) (hv : env x = some w) : w = v := by
  unfold Ctx.constOf at hc
  split at hc
  · rename_i nm u ty hl
    cases hc
    obtain ⟨l, h1, h2, h3, h4⟩ := node_eval (hd.val hl hv)
    rw [mapM_nil'] at h1; cases h1
    simp only [Op.eval, Option.some.injEq] at h2
    exact h2.symm
  · cases hc

theorem Defs.shape {ins : List Val} {env : Env} {c : Ctx} (hd : Defs ins env c) {x : Nat} {s : List Nat} {w : Val}
    (hc : c.shapeOf x = some s) (hv : env x = some w) : w.shape = s := by
  unfold Ctx.shapeOf at hc
  rw [Option.bind_eq_some_iff] at hc
  obtain ⟨m, h1, h2⟩ := hc
  obtain ⟨l, h3, h4, h5, h6⟩ := node_eval (nm := m.name) (o := m.op) (args := m.args) (ty := m.ty) (hd.val h1 hv)
  rw [h2] at h6
  simp only [reduceCtorEq, Option.some.injEq, false_or] at h6
  exact h6.symm

theorem rhs_op {ins : List Val} {env : Env} {o : Op} {ty : Option (List Nat)} {args : List Rhs} {l : List Val} {v : Val}
    (hl : Rhs.evalL ins env args = some l) (ho : o.eval ins l = some v) (hw : v.wf = true)
    (ht : ty = none ∨ ty = some v.shape) : (Rhs.op o ty args).eval ins env = some v := by
  simp only [Rhs.eval]
  rw [hl, Option.bind_some]
  exact run_some ho hw ht

theorem evalL_cons {ins : List Val} {env : Env} {a : Rhs} {as : List Rhs} {v : Val} {vs : List Val}
    (h : a.eval ins env = some v) (h' : Rhs.evalL ins env as = some vs) : Rhs.evalL ins env (a :: as) = some (v :: vs) := by
  simp only [Rhs.evalL, h, h', Option.bind_some, Option.map_some]

theorem evalL_nil {ins : List Val} {env : Env} : Rhs.evalL ins env [] = some [] := rfl

theorem rhs_const {ins : List Val} {env : Env} {v : Val} (hw : v.wf = true) :
    (Rhs.op (.const v) none []).eval ins env = some v :=
  rhs_op evalL_nil rfl hw (Or.inl rfl)

theorem rhs_constF {ins : List Val} {env : Env} {t : Tens} (hw : (Val.f t).wf = true) :
    (Rhs.constF t).eval ins env = some (.f t) := rhs_const hw

theorem rhs_var {ins : List Val} {env : Env} {x : Nat} {v : Val} (h : env x = some v) :
    (Rhs.var x).eval ins env = some v := h

theorem wfF {t : Tens} : (Val.f t).wf = true ↔ t.data.length = t.shape.prod := by simp [Val.wf]
theorem wfS {t : TensOf Bool} : (Val.s t).wf = true ↔ t.data.length = t.shape.prod := by simp [Val.wf]
theorem wfB {t : TensOf Bool} : (Val.b t).wf = true ↔ t.data.length = t.shape.prod := by simp [Val.wf]
theorem wfI {t : TensOf Int} : (Val.i t).wf = true ↔ t.data.length = t.shape.prod := by simp [Val.wf]
theorem wfQ {t : TensOf Int} {s : Rat} {z : Int} :
    (Val.q t s z).wf = true ↔ t.data.length = t.shape.prod ∧ 0 < s ∧ (∀ v ∈ t.data, -128 ≤ v ∧ v ≤ 127) ∧ -128 ≤ z ∧ z ≤ 127 := by
  simp [Val.wf, and_assoc]

theorem map_wf {α β : Type} {g : α → β} {t : TensOf α} : (t.map g).data.length = t.data.length ∧ (t.map g).shape = t.shape := by
  simp [TensOf.map]

theorem map_map {α β γ : Type} (g : α → β) (g' : β → γ) (t : TensOf α) : (t.map g).map g' = t.map (g' ∘ g) := by
  simp [TensOf.map]

theorem map_congr {α β : Type} {g g' : α → β} {t : TensOf α} (h : ∀ x ∈ t.data, g x = g' x) : t.map g = t.map g' := by
  unfold TensOf.map
  rw [List.map_congr_left h]

theorem broadcastG_wf {α β γ : Type} {da : α} {db : β} {f : α → β → γ} {a : TensOf α} {b : TensOf β} {r : TensOf γ}
    (h : broadcastG da db f a b = some r) : r.data.length = r.shape.prod := by
  unfold broadcastG at h
  rw [Option.map_eq_some_iff] at h
  obtain ⟨rs, _, rfl⟩ := h
  simp

theorem broadcastG_map {α β γ δ : Type} {da : α} {db : β} {f : α → β → γ} {g : γ → δ} {a : TensOf α} {b : TensOf β} :
    (broadcastG da db f a b).map (TensOf.map g) = broadcastG da db (fun x y => g (f x y)) a b := by
  unfold broadcastG
  rw [Option.map_map]
  congr 1
  funext rs
  simp [TensOf.map]

/-! ### Comparisons -/

theorem ruleGe_inv {c : Ctx} {n : Node} {t : Rhs} (h : ruleGe.apply c n = some t) :
    ∃ nm g ty gn x y gty, n = ⟨nm, .lquant, [g], ty⟩ ∧ c.look g = some ⟨gn, .ge, [x, y], gty⟩ ∧
      t = .op .lquant ty [.op (.bin .sub .none) none [.var x, .var y]] := by
  unfold ruleGe at h
  simp only at h
  split at h
  · split at h
    · split at h
      · cases h
        rename_i h1 _
        exact ⟨_, _, _, _, _, _, _, rfl, h1, rfl⟩
      · cases h
    · cases h
  · cases h

theorem lquant_some {v w : Val} (h : lquantEval [v] = some w) :
    (∃ x : Tens, v = .f x ∧ x.shape ≠ [] ∧ w = .s (x.map fun u => decide (u < 0))) ∨
    (∃ x, v = .b x ∧ x.shape ≠ [] ∧ w = .s (x.map fun u => !u)) ∨
    ∃ x s z, v = .q x s z ∧ x.shape ≠ [] ∧ w = .s (x.map fun u => decide (u < z)) := by
  cases v with
  | f x => simp only [lquantEval] at h; split at h <;> [cases h; (cases h; exact Or.inl ⟨x, rfl, by assumption, rfl⟩)]
  | b x => simp only [lquantEval] at h; split at h <;> [cases h; (cases h; exact Or.inr (Or.inl ⟨x, rfl, by assumption, rfl⟩))]
  | q x s z =>
    simp only [lquantEval] at h
    split at h <;> [cases h; (cases h; exact Or.inr (Or.inr ⟨x, s, z, rfl, by assumption, rfl⟩))]
  | s x => simp [lquantEval] at h
  | i x => simp [lquantEval] at h
  | none => simp [lquantEval] at h

theorem lquant_b {x : TensOf Bool} {w : Val} (h : lquantEval [.b x] = some w) :
    x.shape ≠ [] ∧ w = .s (x.map fun u => !u) := by
  rcases lquant_some h with ⟨_, e, _⟩ | ⟨y, e, h1, h2⟩ | ⟨_, _, _, e, _⟩
  · cases e
  · cases e; exact ⟨h1, h2⟩
  · cases e

theorem lquant_f {x : Tens} {w : Val} (h : lquantEval [.f x] = some w) :
    x.shape ≠ [] ∧ w = .s (x.map fun u => decide (u < 0)) := by
  rcases lquant_some h with ⟨y, e, h1, h2⟩ | ⟨_, e, _⟩ | ⟨_, _, _, e, _⟩
  · cases e; exact ⟨h1, h2⟩
  · cases e
  · cases e

theorem ge_some {v w r : Val} (h : geEval [v, w] = some r) :
    ∃ x y b, v = .f x ∧ w = .f y ∧ r = .b b ∧ broadcastG 0 0 (fun u v : Rat => decide (v ≤ u)) x y = some b := by
  cases v <;> cases w <;> simp only [geEval, Option.map_eq_some_iff] at h <;> try cases h
  rename_i x y b hb
  exact ⟨x, y, b, rfl, rfl, hb.2.symm, hb.1⟩

theorem le_some {v w r : Val} (h : leEval [v, w] = some r) :
    ∃ x y b, v = .f x ∧ w = .f y ∧ r = .b b ∧ broadcastG 0 0 (fun u v : Rat => decide (u ≤ v)) x y = some b := by
  cases v <;> cases w <;> simp only [leEval, Option.map_eq_some_iff] at h <;> try cases h
  rename_i x y b hb
  exact ⟨x, y, b, rfl, rfl, hb.2.symm, hb.1⟩

theorem bin_none_map (t : Tens) : t.map (Act.real .none) = t := by
  have : (Act.real .none) = id := by funext x; simp [Act.real]
  rw [this]
  simp [TensOf.map]

theorem ruleGe_sound : ruleGe.Sound := by
  intro ins env c n t hd h _ _ v hv
  obtain ⟨nm, g, ty, gn, x, y, gty, rfl, hg, rfl⟩ := ruleGe_inv h
  obtain ⟨a, h1, h2, h3, h4⟩ := eval1 hv
  obtain ⟨vx, vy, h5, h6, h7, h8, _⟩ := eval2 (hd.val hg h1)
  simp only [Op.eval] at h2 h7
  obtain ⟨tx, ty', b, rfl, rfl, rfl, hb⟩ := ge_some h7
  obtain ⟨hne, rfl⟩ := lquant_b h2
  -- the subtraction
  obtain ⟨r, hr⟩ : ∃ r, broadcastG 0 0 (fun u v : Rat => u - v) tx ty' = some r := by
    unfold broadcastG at hb ⊢
    rw [Option.map_eq_some_iff] at hb
    obtain ⟨rs, hrs, _⟩ := hb
    rw [hrs]; exact ⟨_, rfl⟩
  have hbr : b.map (fun u => !u) = r.map (fun u => decide (u < 0)) := by
    have e1 : some (b.map fun u => !u) = (broadcastG 0 0 (fun u v : Rat => !decide (v ≤ u)) tx ty') := by
      rw [← broadcastG_map, hb]; rfl
    have e2 : some (r.map fun u => decide (u < 0)) = (broadcastG 0 0 (fun u v : Rat => decide (u - v < 0)) tx ty') := by
      rw [← broadcastG_map (f := fun u v : Rat => u - v) (g := fun u => decide (u < 0)), hr]; rfl
    have : (fun u v : Rat => !decide (v ≤ u)) = fun u v : Rat => decide (u - v < 0) := by
      funext u v
      rw [Bool.eq_iff_iff]
      simp only [Bool.not_eq_true', decide_eq_false_iff_not, not_le, decide_eq_true_eq, sub_neg]
    rw [this, ← e2] at e1
    simpa using e1
  have hsub : (Rhs.op (.bin .sub .none) none [.var x, .var y]).eval ins env = some (.f r) := by
    refine rhs_op (evalL_cons (rhs_var h5) (evalL_cons (rhs_var h6) evalL_nil)) ?_ (wfF.2 (broadcastG_wf hr)) (Or.inl rfl)
    simp only [Op.eval, binEval]
    rw [if_neg (by simp)]
    show (broadcastG 0 0 (fun u v : Rat => u - v) tx ty').map _ = _
    rw [hr, Option.map_some, bin_none_map]
  refine rhs_op (evalL_cons hsub evalL_nil) ?_ h3 h4
  simp only [Op.eval, lquantEval]
  have hs : r.shape = b.shape := by
    have := congrArg TensOf.shape hbr
    simpa [TensOf.map] using this.symm
  rw [if_neg (by rw [hs]; exact hne), hbr]

theorem ruleGe_local : ruleGe.Local := by
  intro c n t h x hx
  obtain ⟨nm, g, ty, gn, y, z, gty, rfl, hg, rfl⟩ := ruleGe_inv h
  refine Or.inr ⟨g, _, hg, ?_⟩
  simpa [Rhs.vars, Rhs.varsL] using hx

theorem ruleLe_inv {c : Ctx} {n : Node} {t : Rhs} (h : ruleLe.apply c n = some t) :
    ∃ nm g ty gn x y gty, n = ⟨nm, .lquant, [g], ty⟩ ∧ c.look g = some ⟨gn, .le, [x, y], gty⟩ ∧
      t = .op .lquant ty [.op .ge none [.var y, .var x]] := by
  unfold ruleLe at h
  simp only at h
  split at h
  · split at h
    · split at h
      · cases h
        rename_i h1 _
        exact ⟨_, _, _, _, _, _, _, rfl, h1, rfl⟩
      · cases h
    · cases h
  · cases h

theorem ruleLe_local : ruleLe.Local := by
  intro c n t h x hx
  obtain ⟨nm, g, ty, gn, y, z, gty, rfl, hg, rfl⟩ := ruleLe_inv h
  refine Or.inr ⟨g, _, hg, ?_⟩
  simp only [Rhs.vars, Rhs.varsL] at hx
  simp at hx ⊢
  tauto

theorem ruleLe_sound : ruleLe.Sound := by
  intro ins env c n t hd h _ _ v hv
  obtain ⟨nm, g, ty, gn, x, y, gty, rfl, hg, rfl⟩ := ruleLe_inv h
  obtain ⟨a, h1, h2, h3, h4⟩ := eval1 hv
  obtain ⟨vx, vy, h5, h6, h7, h8, _⟩ := eval2 (hd.val hg h1)
  simp only [Op.eval] at h2 h7
  obtain ⟨tx, ty', b, rfl, rfl, rfl, hb⟩ := le_some h7
  have hb' := C33_less_equal tx ty'
  unfold leTens geTens at hb'
  rw [hb] at hb'
  have hge : (Rhs.op .ge none [.var y, .var x]).eval ins env = some (.b b) := by
    refine rhs_op (evalL_cons (rhs_var h6) (evalL_cons (rhs_var h5) evalL_nil)) ?_ h8 (Or.inl rfl)
    simp only [Op.eval, geEval]
    rw [← hb']
    rfl
  exact rhs_op (evalL_cons hge evalL_nil) h2 h3 h4

theorem ruleGeZero_inv {c : Ctx} {n : Node} {t : Rhs} (h : ruleGeZero.apply c n = some t) :
    ∃ nm g ty gn x z gty zt, n = ⟨nm, .lquant, [g], ty⟩ ∧ c.look g = some ⟨gn, .ge, [x, z], gty⟩ ∧
      c.constOf z = some (.f zt) ∧ isConstantValue zt.data 0 = true ∧ t = .op .lquant ty [.var x] := by
  unfold ruleGeZero at h
  simp only at h
  split at h
  · split at h
    · split at h
      · split at h
        · cases h
          rename_i h1 _ _ h2 h3
          exact ⟨_, _, _, _, _, _, _, _, rfl, h1, h2, h3.1, rfl⟩
        · cases h
      · cases h
    · cases h
  · cases h

theorem ruleGeZero_local : ruleGeZero.Local := by
  intro c n t h x hx
  obtain ⟨nm, g, ty, gn, y, z, gty, zt, rfl, hg, _, _, rfl⟩ := ruleGeZero_inv h
  refine Or.inr ⟨g, _, hg, ?_⟩
  simp only [Rhs.vars, Rhs.varsL] at hx
  simp at hx ⊢
  exact Or.inl hx

theorem isConst_getD {l : List Rat} {x : Rat} (h : isConstantValue l x = true) {i : Nat} (hi : i < l.length) :
    l.getD i 0 = x := by
  unfold isConstantValue at h
  rw [List.all_eq_true] at h
  rw [List.getD_eq_getElem?_getD, List.getElem?_eq_getElem hi]
  simpa using h _ (List.getElem_mem hi)

theorem getD_of_lt {α : Type} {l : List α} {i : Nat} (d : α) (hi : i < l.length) : l.getD i d = l[i] := by
  rw [List.getD_eq_getElem?_getD, List.getElem?_eq_getElem hi]; rfl

theorem range_map_getD {α : Type} (l : List α) (d : α) {N : Nat} (h : l.length = N) :
    (List.range N).map (fun n => l.getD n d) = l := by
  subst h
  apply List.ext_getElem
  · simp
  · intro i h1 h2
    simp only [List.getElem_map, List.getElem_range]
    exact getD_of_lt d h2

theorem ruleGeZero_sound : ruleGeZero.Sound := by
  intro ins env c n t hd h hex _ v hv
  obtain ⟨nm, g, ty, gn, x, z, gty, zt, rfl, hg, hz, hz0, rfl⟩ := ruleGeZero_inv h
  obtain ⟨a, h1, h2, h3, h4⟩ := eval1 hv
  obtain ⟨vx, vz, h5, h6, h7, h8, h9⟩ := eval2 (hd.val hg h1)
  simp only [Op.eval] at h2 h7
  obtain ⟨tx, tz, b, rfl, rfl, rfl, hb⟩ := ge_some h7
  have hzz := hd.const hz h6
  simp only [Val.f.injEq] at hzz
  subst hzz
  obtain ⟨hne, rfl⟩ := lquant_b h2
  have hwx := wfF.1 (hd.wf _ _ h5)
  have hwz := wfF.1 (hd.wf _ _ h6)
  -- the comparison has the shape of x
  unfold broadcastG at hb
  rw [Option.map_eq_some_iff] at hb
  obtain ⟨rs, hrs, rfl⟩ := hb
  have hsh : rs = tx.shape.reverse := by
    unfold ruleGeZero at hex
    simp only [hg, hz] at hex
    rw [Bool.and_eq_false_iff] at hex
    rcases hex with hex | hex
    · simp only [Option.any_some, Val.shape, Bool.not_eq_false', beq_iff_eq] at hex
      rw [hex] at hrs
      cases hx : tx.shape.reverse with
      | nil => rw [hx] at hrs; simpa [bshapeR] using hrs.symm
      | cons d ds => rw [hx] at hrs; simpa [bshapeR] using hrs.symm
    · simp only [Bool.not_eq_false', Bool.and_eq_true, beq_iff_eq] at hex
      obtain ⟨hsome, heq⟩ := hex
      rw [Option.isSome_iff_exists] at hsome
      obtain ⟨s, hs⟩ := hsome
      have h10 := hd.shape hs h5
      rw [hs] at heq
      rw [← heq] at h9
      simp only [reduceCtorEq, Option.some.injEq, false_or, Val.shape] at h9 h10
      rw [h10, h9]; simp
  subst hsh
  have heq : (TensOf.map (fun u => !u) ⟨tx.shape.reverse.reverse, (List.range tx.shape.reverse.prod).map fun n =>
      decide (tz.data.getD (bidxR tx.shape.reverse tz.shape.reverse n) 0 ≤
        tx.data.getD (bidxR tx.shape.reverse tx.shape.reverse n) 0)⟩ : TensOf Bool) =
      tx.map fun u => decide (u < 0) := by
    unfold TensOf.map
    simp only [List.reverse_reverse, TensOf.mk.injEq, true_and, List.map_map]
    conv_rhs => rw [← range_map_getD tx.data 0 (N := tx.shape.reverse.prod) (by rw [hwx, List.prod_reverse])]
    rw [List.map_map]
    apply List.map_congr_left
    intro i hi
    rw [List.mem_range] at hi
    have hc := bidxR_lt (bshapeR_compat hrs).2 hi
    rw [List.prod_reverse] at hc
    simp only [Function.comp_apply]
    rw [bidxR_full _ _ hi, isConst_getD hz0 (by rw [hwz]; exact hc), Bool.eq_iff_iff]
    simp only [Bool.not_eq_true', decide_eq_false_iff_not, not_le, decide_eq_true_eq]
  refine rhs_op (evalL_cons (rhs_var h5) evalL_nil) ?_ h3 h4
  simp only [Op.eval, lquantEval]
  rw [heq, if_neg]
  simpa using hne

/-! ### Removed operators -/

theorem rulePass_inv {c : Ctx} {n : Node} {t : Rhs} (h : rulePass.apply c n = some t) :
    ∃ nm x ty, n = ⟨nm, .pass, [x], ty⟩ ∧ t = .op .ident ty [.var x] := by
  unfold rulePass at h
  simp only at h
  split at h
  · cases h; exact ⟨_, _, _, rfl, rfl⟩
  · cases h

theorem rulePass_local : rulePass.Local := by
  intro c n t h x hx
  obtain ⟨nm, y, ty, rfl, rfl⟩ := rulePass_inv h
  refine Or.inl ?_
  simpa [Rhs.vars, Rhs.varsL] using hx

theorem rulePass_sound : rulePass.Sound := by
  intro ins env c n t hd h _ _ v hv
  obtain ⟨nm, y, ty, rfl, rfl⟩ := rulePass_inv h
  obtain ⟨a, h1, h2, h3, h4⟩ := eval1 hv
  exact rhs_op (evalL_cons (rhs_var h1) evalL_nil) h2 h3 h4

theorem ruleIdentity_inv {c : Ctx} {n : Node} {t : Rhs} (h : ruleIdentity.apply c n = some t) :
    ∃ nm x ty, n = ⟨nm, .ident, [x], ty⟩ ∧ t = .var x := by
  unfold ruleIdentity at h
  simp only at h
  split at h
  · cases h; exact ⟨_, _, _, rfl, rfl⟩
  · cases h

theorem ruleIdentity_local : ruleIdentity.Local := by
  intro c n t h x hx
  obtain ⟨nm, y, ty, rfl, rfl⟩ := ruleIdentity_inv h
  refine Or.inl ?_
  simpa [Rhs.vars, Rhs.varsL] using hx

theorem ruleIdentity_sound : ruleIdentity.Sound := by
  intro ins env c n t hd h _ _ v hv
  obtain ⟨nm, y, ty, rfl, rfl⟩ := ruleIdentity_inv h
  obtain ⟨a, h1, h2, h3, h4⟩ := eval1 hv
  simp only [Op.eval, Option.some.injEq] at h2
  rw [← h2]
  exact rhs_var h1

/-! ### Constant folding -/

theorem mapM_const {ins : List Val} {env : Env} {c : Ctx} (hd : Defs ins env c) : ∀ {args : List Nat} {l l' : List Val},
    args.mapM c.constOf = some l → args.mapM env = some l' → l' = l
  | [], l, l', h, h' => by rw [mapM_nil'] at h h'; cases h; cases h'; rfl
  | a :: as, l, l', h, h' => by
    obtain ⟨v, vs, h1, h2, rfl⟩ := mapM_cons_some h
    obtain ⟨w, ws, h3, h4, rfl⟩ := mapM_cons_some h'
    rw [hd.const h1 h3, mapM_const hd h2 h4]

theorem ruleFold_inv {c : Ctx} {n : Node} {t : Rhs} (h : ruleFold.apply c n = some t) :
    (∀ k, n.op ≠ .arg k) ∧ (∀ k, n.op ≠ .const k) ∧ ∃ l v, n.args.mapM c.constOf = some l ∧
      n.op.run [] n.ty l = some v ∧ t = .op (.const v) n.ty [] := by
  unfold ruleFold at h
  simp only at h
  split at h
  · cases h
  · cases h
  · rename_i h1 h2
    rw [Option.map_eq_some_iff] at h
    obtain ⟨v, h3, rfl⟩ := h
    rw [Option.bind_eq_some_iff] at h3
    obtain ⟨l, h4, h5⟩ := h3
    exact ⟨h1, h2, l, v, h4, h5, rfl⟩

theorem ruleFold_local : ruleFold.Local := by
  intro c n t h x hx
  obtain ⟨_, _, l, v, _, _, rfl⟩ := ruleFold_inv h
  simp [Rhs.vars, Rhs.varsL] at hx

theorem ruleFold_sound : ruleFold.Sound := by
  intro ins env c n t hd h _ _ v hv
  obtain ⟨ha, _, l, w, h1, h2, rfl⟩ := ruleFold_inv h
  unfold Node.eval at hv
  rw [Option.bind_eq_some_iff] at hv
  obtain ⟨l', h3, h4⟩ := hv
  rw [mapM_const hd h1 h3] at h4
  have : n.op.run ins n.ty l = n.op.run [] n.ty l := by
    unfold Op.run
    congr 1
    cases hop : n.op with
    | arg k => exact absurd hop (ha k)
    | _ => first | rfl | (rcases l with _ | ⟨a, _ | ⟨b, l⟩⟩ <;> rfl)
  rw [this, h2] at h4
  cases h4
  obtain ⟨h5, h6, _⟩ := run_wf h2
  exact rhs_op evalL_nil rfl h5 h6

/-! ### Int8 -/

theorem ruleDequantInt8_inv {c : Ctx} {n : Node} {t : Rhs} (h : ruleDequantInt8.apply c n = some t) :
    ∃ nm s z y ty yn x yty, n = ⟨nm, .tquant s z, [y], ty⟩ ∧ c.look y = some ⟨yn, .ldequant, [x], yty⟩ ∧
      t = .op (.ldequantI8 s z) ty [.var x] := by
  unfold ruleDequantInt8 at h
  simp only at h
  split at h
  · split at h
    · split at h
      · cases h
        rename_i h1 _
        exact ⟨_, _, _, _, _, _, _, _, rfl, h1, rfl⟩
      · cases h
    · cases h
  · cases h

theorem ruleDequantInt8_local : ruleDequantInt8.Local := by
  intro c n t h x hx
  obtain ⟨nm, s, z, y, ty, yn, x', yty, rfl, hg, rfl⟩ := ruleDequantInt8_inv h
  refine Or.inr ⟨y, _, hg, ?_⟩
  simpa [Rhs.vars, Rhs.varsL] using hx

theorem ldequant_some {v r : Val} (h : ldequantEval [v] = some r) : ∃ x, v = .s x ∧ r = .f (x.map bitVal) := by
  cases v <;> simp only [ldequantEval, reduceCtorEq, Option.some.injEq] at h
  exact ⟨_, rfl, h.symm⟩

theorem ruleDequantInt8_sound : ruleDequantInt8.Sound := by
  intro ins env c n t hd h _ _ v hv
  obtain ⟨nm, s, z, y, ty, yn, x, yty, rfl, hg, rfl⟩ := ruleDequantInt8_inv h
  obtain ⟨a, h1, h2, h3, h4⟩ := eval1 hv
  obtain ⟨vx, h5, h6, h7, h8⟩ := eval1 (hd.val hg h1)
  simp only [Op.eval] at h2 h6
  obtain ⟨tx, rfl, rfl⟩ := ldequant_some h6
  simp only [tquantEval, Option.some.injEq] at h2
  subst h2
  refine rhs_op (evalL_cons (rhs_var h5) evalL_nil) ?_ h3 h4
  simp only [Op.eval, ldequantI8Eval]
  rw [map_map]
  have : (quantInt8 s z ∘ bitVal) = fun v => clampInt8 (z + roundHalfAway (bitVal v / s)) := by
    funext u
    simp only [Function.comp_apply, quantInt8]
    rw [add_comm]
  rw [this]

theorem tquant_some {s : Rat} {z : Int} {v r : Val} (h : tquantEval s z [v] = some r) :
    ∃ x, v = .f x ∧ r = .q (x.map (quantInt8 s z)) s z := by
  cases v <;> simp only [tquantEval, reduceCtorEq, Option.some.injEq] at h
  exact ⟨_, rfl, h.symm⟩

theorem ruleFuseQuantize_inv {c : Ctx} {n : Node} {t : Rhs} (h : ruleFuseQuantize.apply c n = some t) :
    ∃ nm s z y ty yn a x f m b th yty, n = ⟨nm, .tquant s z, [y], ty⟩ ∧ c.look y = some ⟨yn, .bconv a, [x, f, m, b, th], yty⟩ ∧
      c.uses y = 1 ∧ t = .op (.bconvI8 a s z) ty [.var x, .var f, .var m, .var b, .var th] := by
  unfold ruleFuseQuantize at h
  simp only at h
  split at h
  · split at h
    · split at h
      · cases h
        rename_i h1 h2
        exact ⟨_, _, _, _, _, _, _, _, _, _, _, _, _, rfl, h1, h2, rfl⟩
      · cases h
    · cases h
  · cases h

theorem ruleFuseQuantize_local : ruleFuseQuantize.Local := by
  intro c n t h x hx
  obtain ⟨nm, s, z, y, ty, yn, a, x', f, m, b, th, yty, rfl, hg, _, rfl⟩ := ruleFuseQuantize_inv h
  refine Or.inr ⟨y, _, hg, ?_⟩
  simpa [Rhs.vars, Rhs.varsL] using hx

theorem isTie_of {t : Rat} {k : Int} (h : t = k + 1 / 2) : isTie t = true := by
  unfold isTie
  rw [h]
  have : ((k : Rat) + 1 / 2).floor = k := by
    show ⌊(k : Rat) + 1 / 2⌋ = k
    rw [Int.floor_eq_iff]
    constructor <;> norm_num
  rw [this, decide_eq_true_eq]
  ring

/-- Adding the zero point before or after rounding. -/
theorem round_shift {t : Rat} {z : Int} (h : (isTie t && (decide (t < 0) != decide (t + z < 0))) = false) :
    roundHalfAway (t + z) = roundHalfAway t + z := by
  by_cases ht : Tie t
  · obtain ⟨k, hk⟩ := ht
    rw [isTie_of hk, Bool.true_and] at h
    refine roundHalfAway_shift t z ?_
    by_cases h1 : t < 0 <;> by_cases h2 : t + z < 0 <;> simp [h1, h2] at h
    · exact Or.inr ⟨h1, h2⟩
    · exact Or.inl ⟨not_lt.1 h1, not_lt.1 h2⟩
  · exact nearest_shift roundHalfAway_near t z ht

theorem ruleFuseQuantize_sound : ruleFuseQuantize.Sound := by
  intro ins env c n t hd h _ hex v hv
  obtain ⟨nm, s, z, y, ty, yn, a, x, f, m, b, th, yty, rfl, hg, _, rfl⟩ := ruleFuseQuantize_inv h
  obtain ⟨vy, h1, h2, h3, h4⟩ := eval1 hv
  obtain ⟨vx, vf, vm, vb, vt, e1, e2, e3, e4, e5, he, _, _⟩ := eval5 (hd.val hg h1)
  simp only [Op.eval] at h2 he
  obtain ⟨tx, rfl, rfl⟩ := tquant_some h2
  unfold ruleFuseQuantize at hex
  simp only [h1, List.any_eq_false] at hex
  refine rhs_op (evalL_cons (rhs_var e1) (evalL_cons (rhs_var e2) (evalL_cons (rhs_var e3) (evalL_cons (rhs_var e4)
      (evalL_cons (rhs_var e5) evalL_nil))))) ?_ h3 h4
  simp only [Op.eval, bconvI8Eval, he]
  refine congrArg (fun w => some (Val.q w s z)) ?_
  apply map_congr
  intro u hu
  unfold quantInt8
  rw [round_shift (by simpa using hex u hu)]

theorem ruleQuantInt8_inv {c : Ctx} {n : Node} {t : Rhs} (h : ruleQuantInt8.apply c n = some t) :
    ∃ nm y ty yn x yty, n = ⟨nm, .lquant, [y], ty⟩ ∧ c.look y = some ⟨yn, .tdequant, [x], yty⟩ ∧
      t = .op .lquant ty [.var x] := by
  unfold ruleQuantInt8 at h
  simp only at h
  split at h
  · split at h
    · split at h
      · cases h
        rename_i h1 _
        exact ⟨_, _, _, _, _, _, rfl, h1, rfl⟩
      · cases h
    · cases h
  · cases h

theorem ruleQuantInt8_local : ruleQuantInt8.Local := by
  intro c n t h x hx
  obtain ⟨nm, y, ty, yn, x', yty, rfl, hg, rfl⟩ := ruleQuantInt8_inv h
  refine Or.inr ⟨y, _, hg, ?_⟩
  simpa [Rhs.vars, Rhs.varsL] using hx

theorem tdequant_some {v r : Val} (h : tdequantEval [v] = some r) :
    ∃ x s z, v = .q x s z ∧ r = .f (x.map fun v => s * ((v - z : Int) : Rat)) := by
  cases v <;> simp only [tdequantEval, reduceCtorEq, Option.some.injEq] at h
  exact ⟨_, _, _, rfl, h.symm⟩

theorem ruleQuantInt8_sound : ruleQuantInt8.Sound := by
  intro ins env c n t hd h _ _ v hv
  obtain ⟨nm, y, ty, yn, x, yty, rfl, hg, rfl⟩ := ruleQuantInt8_inv h
  obtain ⟨a, h1, h2, h3, h4⟩ := eval1 hv
  obtain ⟨vx, h5, h6, h7, h8⟩ := eval1 (hd.val hg h1)
  simp only [Op.eval] at h2 h6
  obtain ⟨tx, s, z, rfl, rfl⟩ := tdequant_some h6
  obtain ⟨hne, rfl⟩ := lquant_f h2
  have hs := (wfQ.1 (hd.wf _ _ h5)).2.1
  refine rhs_op (evalL_cons (rhs_var h5) evalL_nil) ?_ h3 h4
  simp only [Op.eval, lquantEval]
  rw [if_neg (by simpa [TensOf.map] using hne), map_map]
  refine congrArg (fun w => some (Val.s w)) ?_
  apply map_congr
  intro u _
  simp only [Function.comp_apply]
  rw [Bool.eq_iff_iff]
  simp only [decide_eq_true_eq]
  constructor
  · intro h
    have : ((u - z : Int) : Rat) < 0 := by
      have : u - z < 0 := by omega
      exact_mod_cast this
    exact mul_neg_of_pos_of_neg hs this
  · intro h
    have := (mul_neg_iff.1 h).resolve_right (fun h' => absurd h'.1 (not_lt.2 hs.le))
    have h' : u - z < 0 := by exact_mod_cast this.2
    omega

theorem ruleStripQdq_inv {c : Ctx} {n : Node} {t : Rhs} (h : ruleStripQdq.apply c n = some t) :
    ∃ nm o x f m b th ty mn m1 mty bn b1 bty mn1 s1 z1 m0 mty1 bn1 s2 z2 b0 bty1,
      n = ⟨nm, o, [x, f, m, b, th], ty⟩ ∧ o.isBConv = true ∧ c.look m = some ⟨mn, .tdequant, [m1], mty⟩ ∧
      c.look b = some ⟨bn, .tdequant, [b1], bty⟩ ∧ c.look m1 = some ⟨mn1, .tquant s1 z1, [m0], mty1⟩ ∧
      c.look b1 = some ⟨bn1, .tquant s2 z2, [b0], bty1⟩ ∧
      t = .op o ty [.var x, .var f, .var m0, .var b0, .var th] := by
  unfold ruleStripQdq at h
  simp only at h
  split at h
  · split at h
    · rename_i hbc
      split at h
      · split at h
        · cases h
          rename_i h1 h2 _ _ _ _ _ _ _ _ _ _ _ _ h3 h4
          exact ⟨_, _, _, _, _, _, _, _, _, _, _, _, _, _, _, _, _, _, _, _, _, _, _, _, rfl, hbc, h1, h2, h3, h4, rfl⟩
        · cases h
      · cases h
    · cases h
  · cases h

theorem ruleStripQdq_local : ruleStripQdq.Local := by
  intro c n t h x hx
  obtain ⟨nm, a, x', f, m, b, th, ty, mn, m1, mty, bn, b1, bty, mn1, s1, z1, m0, mty1, bn1, s2, z2, b0, bty1,
    rfl, _, hm, hb, hm1, hb1, rfl⟩ := ruleStripQdq_inv h
  simp only [Rhs.vars, Rhs.varsL, List.cons_append, List.nil_append, List.mem_cons, List.not_mem_nil, or_false] at hx
  rcases hx with rfl | rfl | rfl | rfl | rfl
  · exact Or.inl (by simp)
  · exact Or.inl (by simp)
  · exact Or.inr ⟨m1, _, hm1, by simp⟩
  · exact Or.inr ⟨b1, _, hb1, by simp⟩
  · exact Or.inl (by simp)

theorem requantizes_eq {t : Tens} {s : Rat} {z : Int} (h : requantizes t s z = true) :
    (t.map (quantInt8 s z)).map (fun v => s * ((v - z : Int) : Rat)) = t := by
  unfold requantizes at h
  rw [List.all_eq_true] at h
  rw [map_map]
  conv_rhs => rw [show t = t.map id by simp [TensOf.map]]
  apply map_congr
  intro x hx
  simpa using h x hx

theorem qdq_value {ins : List Val} {env : Env} {c : Ctx} (hd : Defs ins env c) {m m1 m0 mn mn1 : Nat} {s : Rat} {z : Int}
    {mty mty1 : Option (List Nat)} {w : Val} {t : Tens} (hm : c.look m = some ⟨mn, .tdequant, [m1], mty⟩)
    (hm1 : c.look m1 = some ⟨mn1, .tquant s z, [m0], mty1⟩) (hc : c.constOf m0 = some (.f t))
    (hr : requantizes t s z = true) (hw : env m = some w) : env m0 = some w := by
  obtain ⟨a, h1, h2, h3, h4⟩ := eval1 (hd.val hm hw)
  obtain ⟨a', h5, h6, _, _⟩ := eval1 (hd.val hm1 h1)
  simp only [Op.eval] at h2 h6
  have := hd.const hc h5
  subst this
  obtain ⟨x, e, rfl⟩ := tquant_some h6
  cases e
  simp only [tdequantEval, Option.some.injEq] at h2
  rw [requantizes_eq hr] at h2
  rw [h5, h2]

theorem ruleStripQdq_sound : ruleStripQdq.Sound := by
  intro ins env c n t hd h hex _ v hv
  obtain ⟨nm, a, x', f, m, b, th, ty, mn, m1, mty, bn, b1, bty, mn1, s1, z1, m0, mty1, bn1, s2, z2, b0, bty1,
    rfl, _, hm, hb, hm1, hb1, rfl⟩ := ruleStripQdq_inv h
  unfold ruleStripQdq at hex
  simp only [hm, hb, hm1, hb1] at hex
  split at hex
  · rename_i mt bt hmt hbt
    simp only [Bool.not_eq_false', Bool.and_eq_true] at hex
    obtain ⟨vx, vf, vm, vb, vt, e1, e2, e3, e4, e5, he, hw, hty⟩ := eval5 hv
    have q1 := qdq_value hd hm hm1 hmt hex.1 e3
    have q2 := qdq_value hd hb hb1 hbt hex.2 e4
    exact rhs_op (evalL_cons (rhs_var e1) (evalL_cons (rhs_var e2) (evalL_cons (rhs_var q1) (evalL_cons (rhs_var q2)
      (evalL_cons (rhs_var e5) evalL_nil))))) he hw hty
  · cases hex

/-! ### Four-dimensional tensors -/

theorem mk4_congr {α : Type} {n h w c : Nat} {g g' : Nat → Nat → Nat → Nat → α}
    (e : ∀ b y x k, b < n → y < h → x < w → k < c → g b y x k = g' b y x k) : mk4 n h w c g = mk4 n h w c g' := by
  unfold mk4
  refine congrArg (fun l => (⟨[n, h, w, c], l⟩ : TensOf α)) ?_
  apply List.map_congr_left
  intro i hi
  rw [List.mem_range] at hi
  have hc : 0 < c := Nat.pos_of_ne_zero (by rintro rfl; simp at hi)
  have hw : 0 < w := Nat.pos_of_ne_zero (by rintro rfl; simp at hi)
  have hh : 0 < h := Nat.pos_of_ne_zero (by rintro rfl; simp at hi)
  have h1 : i / c < n * h * w := (Nat.div_lt_iff_lt_mul hc).2 hi
  have h2 : i / c / w < n * h := (Nat.div_lt_iff_lt_mul hw).2 h1
  have h3 : i / c / w / h < n := (Nat.div_lt_iff_lt_mul hh).2 h2
  exact e _ _ _ _ h3 (Nat.mod_lt _ hh) (Nat.mod_lt _ hw) (Nat.mod_lt _ hc)

theorem mk4_map {α β : Type} {n h w c : Nat} {g : Nat → Nat → Nat → Nat → α} {f : α → β} :
    (mk4 n h w c g).map f = mk4 n h w c fun b y x k => f (g b y x k) := by
  unfold mk4 TensOf.map
  simp [List.map_map, Function.comp_def]

theorem mk4_wf {α : Type} {n h w c : Nat} {g : Nat → Nat → Nat → Nat → α} :
    (mk4 n h w c g).data.length = (mk4 n h w c g).shape.prod := by
  unfold mk4
  simp [mul_assoc]

/-! ### Max pooling -/

theorem ruleMaxPool_inv {c : Ctx} {n : Node} {t : Rhs} (h : ruleMaxPool.apply c n = some t) :
    ∃ nm y ty yn pa fa x yty, n = ⟨nm, .lquant, [y], ty⟩ ∧ c.look y = some ⟨yn, .maxPool pa fa, [x], yty⟩ ∧
      t = .op (.bmaxPool pa) ty [.op .lquant none [.var x]] := by
  unfold ruleMaxPool at h
  simp only at h
  split at h
  · split at h
    · split at h
      · cases h
        rename_i h1 _
        exact ⟨_, _, _, _, _, _, _, _, rfl, h1, rfl⟩
      · cases h
    · cases h
  · cases h

theorem ruleMaxPool_local : ruleMaxPool.Local := by
  intro c n t h x hx
  obtain ⟨nm, y, ty, yn, pa, fa, x', yty, rfl, hg, rfl⟩ := ruleMaxPool_inv h
  refine Or.inr ⟨y, _, hg, ?_⟩
  simpa [Rhs.vars, Rhs.varsL] using hx

theorem foldl_max_lt : ∀ (l : List Rat) (x : Rat), l.foldl max x < 0 ↔ x < 0 ∧ ∀ y ∈ l, y < 0
  | [], x => by simp
  | y :: l, x => by
    rw [List.foldl_cons, foldl_max_lt l]
    simp only [max_lt_iff, List.mem_cons, forall_eq_or_imp]
    tauto

theorem maxList_lt {l : List Rat} (h : l ≠ []) : maxList l < 0 ↔ ∀ y ∈ l, y < 0 := by
  cases l with
  | nil => exact absurd rfl h
  | cons x l => simp only [maxList, foldl_max_lt, List.mem_cons, forall_eq_or_imp]

theorem maxPool_some {a : PoolAttrs} {fa : Act} {v r : Val} (h : maxPoolEval a fa [v] = some r) :
    ∃ x n h w c pr, v = .f x ∧ x.shape = [n, h, w, c] ∧ poolPrepare 1 1 true true a [n, h, w, c] = some pr ∧
      r = .f (mk4 n pr.1.outH pr.1.outW c fun b oy ox k => fa.real (maxList ((windowPos pr.1 oy ox).map fun q =>
        x.data.getD (((b * h + q.1) * w + q.2) * c + k) 0))) := by
  cases v with
  | f x =>
    simp only [maxPoolEval] at h
    split at h
    · rename_i n hh w c hs
      rw [Option.map_eq_some_iff] at h
      obtain ⟨pr, h1, h2⟩ := h
      exact ⟨x, n, hh, w, c, pr, rfl, hs, h1, h2.symm⟩
    · cases h
  | _ => simp [maxPoolEval] at h

theorem windowPos_ne {p : Pool} (g : p.Geom) {oy ox : Nat} (hy : oy < p.outH) (hx : ox < p.outW) :
    windowPos p oy ox ≠ [] := by
  obtain ⟨iy, ix, hw⟩ := window_nonempty g hy hx
  apply List.ne_nil_of_mem (a := (iy, ix))
  unfold windowPos
  rw [List.mem_filter, List.mem_flatMap]
  refine ⟨⟨iy, List.mem_range.2 hw.1, List.mem_map.2 ⟨ix, List.mem_range.2 hw.2.1, rfl⟩⟩, ?_⟩
  exact decide_eq_true hw

theorem map_getD {α β : Type} (l : List α) (f : α → β) (d : α) (i : Nat) : (l.map f).getD i (f d) = f (l.getD i d) := by
  rw [List.getD_eq_getElem?_getD, List.getD_eq_getElem?_getD, List.getElem?_map]
  cases l[i]? <;> rfl

theorem ruleMaxPool_sound : ruleMaxPool.Sound := by
  intro ins env c n t hd h hex _ v hv
  obtain ⟨nm, y, ty, yn, pa, fa, x, yty, rfl, hg, rfl⟩ := ruleMaxPool_inv h
  obtain ⟨a, h1, h2, h3, h4⟩ := eval1 hv
  obtain ⟨vx, h5, h6, h7, h8⟩ := eval1 (hd.val hg h1)
  simp only [Op.eval] at h2 h6
  obtain ⟨tx, N, H, W, C, pr, rfl, hs, hp, rfl⟩ := maxPool_some h6
  obtain ⟨_, rfl⟩ := lquant_f h2
  have hact : ∀ u : Rat, fa.real u < 0 ↔ u < 0 := by
    unfold ruleMaxPool at hex
    simp only [hg, decide_eq_false_iff_not, not_or] at hex
    intro u
    cases fa <;> simp_all [Act.real]
  have hq : (Rhs.op .lquant none [.var x]).eval ins env = some (.s (tx.map fun u => decide (u < 0))) := by
    refine rhs_op (evalL_cons (rhs_var h5) evalL_nil) ?_ ?_ (Or.inl rfl)
    · simp only [Op.eval, lquantEval]
      rw [if_neg (by rw [hs]; simp)]
    · have := wfF.1 (hd.wf _ _ h5)
      exact wfS.2 (by rw [map_wf.1, map_wf.2, this])
  refine rhs_op (evalL_cons hq evalL_nil) ?_ h3 h4
  simp only [Op.eval, bmaxPoolEval, TensOf.map, hs, hp, Option.map_some]
  refine congrArg (fun w => some (Val.s w)) ?_
  show _ = (mk4 N pr.1.outH pr.1.outW C _).map _
  rw [mk4_map]
  apply mk4_congr
  intro b oy ox k hb hy hx hk
  obtain ⟨g, _⟩ := poolPrepare_some (p := pr.1) (od := pr.2) (by rw [hp])
  have hne := windowPos_ne g hy hx
  rw [Bool.eq_iff_iff, List.all_eq_true, decide_eq_true_eq, hact, maxList_lt (by simpa using hne)]
  simp only [List.mem_map, forall_exists_index, and_imp, forall_apply_eq_imp_iff₂]
  constructor
  · intro hh q hq
    have := hh q hq
    rw [show false = decide ((0 : Rat) < 0) by simp, map_getD] at this
    exact of_decide_eq_true this
  · intro hh q hq
    rw [show false = decide ((0 : Rat) < 0) by simp, map_getD]
    exact decide_eq_true (hh q hq)

end Verif.Ir
