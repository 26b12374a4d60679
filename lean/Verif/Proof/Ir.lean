import Verif.Model.Ir

/-! The mechanics of rewriting: replacing a node by operations with the same value preserves the function. -/

namespace Verif.Ir

/-! ### Values of lists of names -/

theorem mapM_nil' {α β : Type} (f : α → Option β) : ([] : List α).mapM f = some [] := rfl

theorem mapM_cons' {α β : Type} (f : α → Option β) (a : α) (l : List α) :
    (a :: l).mapM f = (f a).bind fun v => (l.mapM f).map (v :: ·) := by
  rw [List.mapM_cons]
  cases f a with
  | none => rfl
  | some v => cases l.mapM f <;> rfl

theorem mapM_congr' {α β : Type} {f g : α → Option β} : ∀ {l : List α}, (∀ x ∈ l, f x = g x) → l.mapM f = l.mapM g
  | [], _ => rfl
  | a :: l, h => by
    rw [mapM_cons', mapM_cons', h a (by simp), mapM_congr' (l := l) fun x hx => h x (by simp [hx])]

theorem mapM_mono {α β γ : Type} {f : α → Option β} {g : γ → Option β} {σ : α → γ} :
    ∀ {l : List α} {vs : List β}, (∀ x ∈ l, ∀ a, f x = some a → g (σ x) = some a) → l.mapM f = some vs →
      (l.map σ).mapM g = some vs
  | [], vs, _, h => h
  | a :: l, vs, hs, h => by
    rw [mapM_cons'] at h
    simp only [Option.bind_eq_some_iff, Option.map_eq_some_iff] at h
    obtain ⟨v, h1, ws, h2, rfl⟩ := h
    rw [List.map_cons, mapM_cons', hs a (by simp) v h1, mapM_mono (fun x hx => hs x (by simp [hx])) h2]
    rfl

/-! ### Running nodes -/

theorem runNodes_append (ins : List Val) : ∀ (l l' : List Node) (env : Env),
    runNodes ins (l ++ l') env = runNodes ins l' (runNodes ins l env)
  | [], _, _ => rfl
  | n :: l, l', env => by simp only [List.cons_append, runNodes]; exact runNodes_append ins l l' _

theorem runNodes_other (ins : List Val) : ∀ (l : List Node) (env : Env) {x : Nat}, x ∉ l.map (·.name) →
    runNodes ins l env x = env x
  | [], _, _, _ => rfl
  | n :: l, env, x, h => by
    simp only [List.map_cons, List.mem_cons, not_or] at h
    simp only [runNodes]
    rw [runNodes_other ins l _ h.2, if_neg h.1]

theorem eval_congr {ins : List Val} {e e' : Env} {n : Node} (h : ∀ x ∈ n.args, e x = e' x) :
    n.eval ins e = n.eval ins e' := by
  unfold Node.eval
  rw [mapM_congr' h]

/-- Results have different names, and operands are defined before they are used. -/
structure Scoped (l : List Node) : Prop where
  nodup : (l.map (·.name)).Nodup
  args : ∀ pre n post, l = pre ++ n :: post → ∀ x ∈ n.args, x ∈ pre.map (·.name)

theorem Scoped.prefix {l l' : List Node} (h : Scoped (l ++ l')) : Scoped l := by
  refine ⟨?_, fun pre n post e x hx => h.args pre n (post ++ l') (by rw [e]; simp) x hx⟩
  have := h.nodup
  rw [List.map_append] at this
  exact (List.nodup_append.1 this).1

/-- Every node's result is its value in the final environment. -/
theorem Scoped.defs {l : List Node} (h : Scoped l) (ins : List Val) {n : Node} (hn : n ∈ l) :
    runNodes ins l (fun _ => none) n.name = n.eval ins (runNodes ins l fun _ => none) := by
  obtain ⟨pre, post, rfl⟩ := List.append_of_mem hn
  have hargs := h.args pre n post rfl
  have hnd := h.nodup
  simp only [List.map_append, List.map_cons] at hnd
  rw [List.nodup_append] at hnd
  obtain ⟨hp, hq, hd⟩ := hnd
  rw [List.nodup_cons] at hq
  rw [runNodes_append]
  simp only [runNodes]
  rw [runNodes_other ins post _ hq.1, if_pos rfl]
  apply eval_congr
  intro x hx
  have hxp := hargs x hx
  have hne : x ≠ n.name := fun e => hd x hxp _ (by simp) e
  rw [runNodes_other ins post _ (fun hm => hd x hxp _ (List.mem_cons_of_mem _ hm) rfl), if_neg hne]

theorem run_wf {ins : List Val} {o : Op} {ty : Option (List Nat)} {l : List Val} {v : Val}
    (h : o.run ins ty l = some v) : v.wf = true ∧ (ty = none ∨ ty = some v.shape) ∧ o.eval ins l = some v := by
  unfold Op.run at h
  rw [Option.bind_eq_some_iff] at h
  obtain ⟨w, h1, h2⟩ := h
  split at h2
  · rename_i hc
    cases h2
    exact ⟨hc.1, hc.2, h1⟩
  · cases h2

theorem run_some {ins : List Val} {o : Op} {ty : Option (List Nat)} {l : List Val} {v : Val}
    (h : o.eval ins l = some v) (hw : v.wf = true) (ht : ty = none ∨ ty = some v.shape) : o.run ins ty l = some v := by
  unfold Op.run
  rw [h, Option.bind_some, if_pos ⟨hw, ht⟩]

/-- All values are well formed. -/
theorem runNodes_wf (ins : List Val) : ∀ (l : List Node) (env : Env), (∀ x v, env x = some v → v.wf = true) →
    ∀ x v, runNodes ins l env x = some v → v.wf = true
  | [], _, h => h
  | n :: l, env, h => by
    simp only [runNodes]
    apply runNodes_wf ins l
    intro x v hv
    split at hv
    · unfold Node.eval at hv
      rw [Option.bind_eq_some_iff] at hv
      obtain ⟨_, _, h2⟩ := hv
      exact (run_wf h2).1
    · exact h x v hv

theorem lookIn_some {pre : List Node} {x : Nat} {n : Node} (h : lookIn pre x = some n) : n ∈ pre ∧ n.name = x := by
  unfold lookIn at h
  exact ⟨List.mem_of_find?_eq_some h, by simpa using List.find?_some h⟩

/-! ### Results of patterns -/

mutual
/-- The value of the result of a pattern. -/
def Rhs.eval (ins : List Val) (env : Env) : Rhs → Option Val
  | .var x => env x
  | .op o ty args => (Rhs.evalL ins env args).bind (o.run ins ty)

/-- The values of operands. -/
def Rhs.evalL (ins : List Val) (env : Env) : List Rhs → Option (List Val)
  | [] => some []
  | a :: as => (Rhs.eval ins env a).bind fun v => (Rhs.evalL ins env as).map (v :: ·)
end

mutual
/-- The existing values that a result uses. -/
def Rhs.vars : Rhs → List Nat
  | .var x => [x]
  | .op _ _ args => Rhs.varsL args

/-- The existing values that operands use. -/
def Rhs.varsL : List Rhs → List Nat
  | [] => []
  | a :: as => Rhs.vars a ++ Rhs.varsL as
end

mutual
theorem Rhs.eval_congr {ins : List Val} {e e' : Env} : ∀ {t : Rhs}, (∀ x ∈ t.vars, e x = e' x) →
    t.eval ins e = t.eval ins e'
  | .var x, h => by simpa [Rhs.eval, Rhs.vars] using h
  | .op o ty args, h => by
    simp only [Rhs.eval]
    rw [Rhs.evalL_congr (by simpa [Rhs.vars] using h)]

theorem Rhs.evalL_congr {ins : List Val} {e e' : Env} : ∀ {l : List Rhs}, (∀ x ∈ Rhs.varsL l, e x = e' x) →
    Rhs.evalL ins e l = Rhs.evalL ins e' l
  | [], _ => rfl
  | a :: as, h => by
    simp only [Rhs.varsL, List.mem_append] at h
    simp only [Rhs.evalL]
    rw [Rhs.eval_congr fun x hx => h x (Or.inl hx), Rhs.evalL_congr fun x hx => h x (Or.inr hx)]
end

/-- New nodes have consecutive new names, and use existing values or earlier new nodes. -/
structure Fresh (k : Nat) (vars : List Nat) (l : List Node) : Prop where
  names : l.map (·.name) = List.range' k l.length
  args : ∀ pre n post, l = pre ++ n :: post → ∀ x ∈ n.args, x ∈ vars ∨ x ∈ pre.map (·.name)

theorem Fresh.append {k : Nat} {vars vars' : List Nat} {l l' : List Node} (h : Fresh k vars l)
    (h' : Fresh (k + l.length) vars' l') : Fresh k (vars ++ vars') (l ++ l') := by
  refine ⟨?_, ?_⟩
  · rw [List.map_append, h.names, h'.names, List.length_append, List.range'_append_1]
  · intro pre n post e x hx
    rcases List.append_eq_append_iff.1 e with ⟨as, e1, e2⟩ | ⟨as, e1, e2⟩
    · subst e1
      rcases h'.args as n post e2 x hx with h1 | h1
      · exact Or.inl (List.mem_append_right _ h1)
      · exact Or.inr (by rw [List.map_append]; exact List.mem_append_right _ h1)
    · match as, e2 with
      | [], e2 =>
        simp only [List.append_nil] at e1
        subst e1
        simp only [List.nil_append] at e2
        rcases h'.args [] n post e2.symm x hx with h1 | h1
        · exact Or.inl (List.mem_append_right _ h1)
        · simp at h1
      | m :: as, e2 =>
        simp only [List.cons_append, List.cons.injEq] at e2
        obtain ⟨rfl, e3⟩ := e2
        rcases h.args pre n as e1 x hx with h1 | h1
        · exact Or.inl (List.mem_append_left _ h1)
        · exact Or.inr h1

mutual
theorem Rhs.emit_fresh : ∀ (t : Rhs) (k : Nat), Fresh k t.vars (t.emit k).2 ∧
    ((t.emit k).1 ∈ t.vars ∨ (t.emit k).1 ∈ (t.emit k).2.map (·.name))
  | .var x, k => by
    simp only [Rhs.emit, Rhs.vars]
    exact ⟨⟨rfl, by intro pre n post e; simp at e⟩, Or.inl (by simp)⟩
  | .op o ty args, k => by
    obtain ⟨h1, h2⟩ := Rhs.emitL_fresh args k
    simp only [Rhs.emit, Rhs.vars]
    refine ⟨⟨?_, ?_⟩, Or.inr (by simp)⟩
    · rw [List.map_append, h1.names, List.length_append]
      simp only [List.map_cons, List.map_nil, List.length_cons, List.length_nil, Nat.zero_add]
      rw [← List.range'_append_1]
      rfl
    · intro pre n post e x hx
      rcases List.append_eq_append_iff.1 e with ⟨as, e1, e2⟩ | ⟨as, e1, e2⟩
      · match as, e2 with
        | [], e2 =>
          simp only [List.nil_append, List.cons.injEq] at e2
          obtain ⟨rfl, rfl⟩ := e2
          simp only [List.append_nil] at e1
          subst e1
          exact h2 x hx
        | a :: as, e2 => simp at e2
      · match as, e2 with
        | [], e2 =>
          simp only [List.nil_append, List.cons.injEq] at e2
          obtain ⟨rfl, rfl⟩ := e2
          simp only [List.append_nil] at e1
          rw [← e1]
          exact h2 x hx
        | m :: as, e2 =>
          simp only [List.cons_append, List.cons.injEq] at e2
          obtain ⟨rfl, e3⟩ := e2
          exact h1.args pre n as e1 x hx

theorem Rhs.emitL_fresh : ∀ (l : List Rhs) (k : Nat), Fresh k (Rhs.varsL l) (Rhs.emitL l k).2 ∧
    ∀ x ∈ (Rhs.emitL l k).1, x ∈ Rhs.varsL l ∨ x ∈ (Rhs.emitL l k).2.map (·.name)
  | [], k => by
    simp only [Rhs.emitL, Rhs.varsL]
    exact ⟨⟨rfl, by intro pre n post e; simp at e⟩, by simp⟩
  | a :: as, k => by
    obtain ⟨h1, h2⟩ := Rhs.emit_fresh a k
    obtain ⟨h3, h4⟩ := Rhs.emitL_fresh as (k + (Rhs.emit a k).2.length)
    simp only [Rhs.emitL, Rhs.varsL]
    refine ⟨h1.append h3, ?_⟩
    intro x hx
    simp only [List.mem_cons] at hx
    rw [List.mem_append, List.map_append, List.mem_append]
    rcases hx with rfl | hx
    · rcases h2 with h | h
      · exact Or.inl (Or.inl h)
      · exact Or.inr (Or.inl h)
    · rcases h4 x hx with h | h
      · exact Or.inl (Or.inr h)
      · exact Or.inr (Or.inr h)
end

theorem Fresh.mem {k : Nat} {vars : List Nat} {l : List Node} (h : Fresh k vars l) {x : Nat} :
    x ∈ l.map (·.name) ↔ k ≤ x ∧ x < k + l.length := by
  rw [h.names, List.mem_range'_1]

mutual
theorem Rhs.emit_run (ins : List Val) : ∀ (t : Rhs) (k : Nat) (env : Env), (∀ x ∈ t.vars, x < k) →
    runNodes ins (t.emit k).2 env (t.emit k).1 = t.eval ins env
  | .var x, k, env, _ => by simp only [Rhs.emit, runNodes, Rhs.eval]
  | .op o ty args, k, env, h => by
    have ih := Rhs.emitL_run ins args k env (by simpa [Rhs.vars] using h)
    simp only [Rhs.emit, Rhs.eval]
    rw [runNodes_append]
    simp only [runNodes, if_true]
    unfold Node.eval
    simp only
    rw [ih]

theorem Rhs.emitL_run (ins : List Val) : ∀ (l : List Rhs) (k : Nat) (env : Env), (∀ x ∈ Rhs.varsL l, x < k) →
    (Rhs.emitL l k).1.mapM (runNodes ins (Rhs.emitL l k).2 env) = Rhs.evalL ins env l
  | [], k, env, _ => rfl
  | a :: as, k, env, h => by
    simp only [Rhs.varsL, List.mem_append] at h
    have ih1 := Rhs.emit_run ins a k env fun x hx => h x (Or.inl hx)
    obtain ⟨f1, f2⟩ := Rhs.emit_fresh a k
    obtain ⟨f3, _⟩ := Rhs.emitL_fresh as (k + (Rhs.emit a k).2.length)
    have ih2 := Rhs.emitL_run ins as (k + (Rhs.emit a k).2.length) (runNodes ins (Rhs.emit a k).2 env)
      (fun x hx => by have := h x (Or.inr hx); omega)
    simp only [Rhs.emitL, Rhs.evalL]
    rw [mapM_cons', runNodes_append, ih2]
    have e1 : runNodes ins (Rhs.emitL as (k + (Rhs.emit a k).2.length)).2 (runNodes ins (Rhs.emit a k).2 env)
        (Rhs.emit a k).1 = Rhs.eval ins env a := by
      rw [runNodes_other, ih1]
      intro hm
      have hm := f3.mem.1 hm
      rcases f2 with h' | h'
      · have := h _ (Or.inl h'); omega
      · have := f1.mem.1 h'; omega
    rw [e1]
    have e2 : Rhs.evalL ins (runNodes ins (Rhs.emit a k).2 env) as = Rhs.evalL ins env as := by
      apply Rhs.evalL_congr
      intro x hx
      apply runNodes_other
      intro hm
      have := f1.mem.1 hm
      have := h x (Or.inr hx)
      omega
    rw [e2]
end

/-! ### Replacing a node -/

theorem foldr_max_le : ∀ {l : List Nat} {x : Nat}, x ∈ l → x ≤ l.foldr max 0
  | a :: l, x, h => by
    simp only [List.foldr_cons]
    rcases List.mem_cons.1 h with rfl | h
    · omega
    · have := foldr_max_le h; omega

theorem Graph.lt_bound_name {g : Graph} {n : Node} (h : n ∈ g.nodes) : n.name < g.bound := by
  unfold Graph.bound
  have : n.name ∈ (g.nodes.flatMap fun n => n.name :: n.args) ++ g.outs := by
    rw [List.mem_append, List.mem_flatMap]
    exact Or.inl ⟨n, h, by simp⟩
  have := foldr_max_le this
  omega

theorem Graph.lt_bound_arg {g : Graph} {n : Node} (h : n ∈ g.nodes) {x : Nat} (hx : x ∈ n.args) : x < g.bound := by
  unfold Graph.bound
  have : x ∈ (g.nodes.flatMap fun n => n.name :: n.args) ++ g.outs := by
    rw [List.mem_append, List.mem_flatMap]
    exact Or.inl ⟨n, h, by simp [hx]⟩
  have := foldr_max_le this
  omega

theorem Graph.lt_bound_out {g : Graph} {x : Nat} (hx : x ∈ g.outs) : x < g.bound := by
  unfold Graph.bound
  have : x ∈ (g.nodes.flatMap fun n => n.name :: n.args) ++ g.outs := List.mem_append_right _ hx
  have := foldr_max_le this
  omega

/-- `b` has at least the values that `a` has, where `v` is now called `r`. -/
def Refines (k v r : Nat) (a b : Env) : Prop := ∀ x, x < k → ∀ w, a x = some w → b (substName v r x) = some w

theorem refines_post (ins : List Val) {k v r : Nat} : ∀ (post : List Node) {a b : Env}, Refines k v r a b →
    (∀ n ∈ post, n.name < k ∧ n.name ≠ v ∧ n.name ≠ r ∧ ∀ x ∈ n.args, x < k) →
    Refines k v r (runNodes ins post a) (runNodes ins (post.map (Node.subst v r)) b)
  | [], _, _, h, _ => h
  | n :: post, a, b, h, hp => by
    simp only [List.map_cons, runNodes]
    apply refines_post ins post _ (fun m hm => hp m (by simp [hm]))
    obtain ⟨h1, h2, h3, h4⟩ := hp n (by simp)
    intro x hx w hw
    beta_reduce at hw ⊢
    by_cases hxn : x = n.name
    · subst hxn
      rw [if_pos rfl] at hw
      have hs : substName v r n.name = n.name := by unfold substName; rw [if_neg h2]
      rw [hs, if_pos (show n.name = (Node.subst v r n).name from rfl)]
      unfold Node.eval at hw ⊢
      rw [Option.bind_eq_some_iff] at hw
      obtain ⟨l, hl, hv⟩ := hw
      have := mapM_mono (fun y hy => h y (h4 y hy)) hl
      show ((n.args.map (substName v r)).mapM b).bind _ = _
      rw [this]
      exact hv
    · rw [if_neg hxn] at hw
      have hs : substName v r x ≠ n.name := by
        unfold substName
        split
        · exact fun e => h3 e.symm
        · exact hxn
      rw [if_neg (show ¬ substName v r x = (Node.subst v r n).name from hs)]
      exact h x hx w hw

theorem Graph.Ssa.scoped {g : Graph} (h : g.Ssa) : Scoped g.nodes := ⟨h.1, h.2.1⟩

/-- Replacing a node by operations that have its value preserves the results. -/
theorem replace_eval {g : Graph} (hg : g.Ssa) {pre post : List Node} {n : Node} {t : Rhs}
    (he : g.nodes = pre ++ n :: post) (ht : ∀ x ∈ t.vars, x ∈ pre.map (·.name)) (ins : List Val)
    (hs : ∀ v, n.eval ins (runNodes ins pre fun _ => none) = some v →
      t.eval ins (runNodes ins pre fun _ => none) = some v) {vs : List Val}
    (hv : g.eval ins = some vs) : (g.replace pre post n.name t).eval ins = some vs := by
  have hsc := hg.scoped
  rw [he] at hsc
  have hnd := hsc.nodup
  simp only [List.map_append, List.map_cons] at hnd
  rw [List.nodup_append, List.nodup_cons] at hnd
  obtain ⟨hp, ⟨hn1, hn2⟩, hd⟩ := hnd
  have hpre : ∀ x ∈ pre.map (·.name), x < g.bound := by
    intro x hx
    obtain ⟨m, hm, rfl⟩ := List.mem_map.1 hx
    exact g.lt_bound_name (by rw [he]; simp [hm])
  have hvars : ∀ x ∈ t.vars, x < g.bound := fun x hx => hpre x (ht x hx)
  obtain ⟨f1, f2⟩ := Rhs.emit_fresh t g.bound
  have hrun := Rhs.emit_run ins t g.bound (runNodes ins pre fun _ => none) hvars
  unfold Graph.eval at hv ⊢
  unfold Graph.replace
  simp only
  rw [he, runNodes_append] at hv
  simp only [runNodes] at hv
  rw [runNodes_append, runNodes_append]
  generalize hA : runNodes ins pre (fun _ => none) = A at *
  have hrn : (t.emit g.bound).1 ≠ n.name ∧ (t.emit g.bound).1 ∉ post.map (·.name) := by
    rcases f2 with h | h
    · have h' := ht _ h
      exact ⟨fun e => hd _ h' _ (by simp) e, fun hm => hd _ h' _ (List.mem_cons_of_mem _ hm) rfl⟩
    · have h' := f1.mem.1 h
      constructor
      · intro e
        have := g.lt_bound_name (n := n) (by rw [he]; simp)
        omega
      · intro hm
        obtain ⟨m, hm, e⟩ := List.mem_map.1 hm
        have := g.lt_bound_name (n := m) (by rw [he]; simp [hm])
        omega
  have href : Refines g.bound n.name (t.emit g.bound).1 (fun x => if x = n.name then n.eval ins A else A x)
      (runNodes ins (t.emit g.bound).2 A) := by
    intro x hx w hw
    simp only at hw
    unfold substName
    split
    · rename_i e
      rw [if_pos e] at hw
      rw [hrun]
      exact hs w hw
    · rename_i e
      rw [if_neg e] at hw
      rw [runNodes_other _ _ _ (fun hm => by have := f1.mem.1 hm; omega)]
      exact hw
  have hpost := refines_post ins post href (by
    intro m hm
    have hmg : m ∈ g.nodes := by rw [he]; simp [hm]
    refine ⟨g.lt_bound_name hmg, ?_, ?_, fun x hx => g.lt_bound_arg hmg hx⟩
    · intro e
      exact hn1 (by rw [← e]; exact List.mem_map_of_mem hm)
    · intro e
      exact hrn.2 (by rw [← e]; exact List.mem_map_of_mem hm))
  exact mapM_mono (fun x hx => hpost x (Graph.lt_bound_out hx)) hv

/-- Replacing a node keeps the graph in single static assignment form. -/
theorem replace_ssa {g : Graph} (hg : g.Ssa) {pre post : List Node} {n : Node} {t : Rhs}
    (he : g.nodes = pre ++ n :: post) (ht : ∀ x ∈ t.vars, x ∈ pre.map (·.name)) :
    (g.replace pre post n.name t).Ssa := by
  have hsc := hg.scoped
  rw [he] at hsc
  have hnd := hsc.nodup
  simp only [List.map_append, List.map_cons] at hnd
  rw [List.nodup_append, List.nodup_cons] at hnd
  obtain ⟨hp, ⟨hn1, hn2⟩, hd⟩ := hnd
  obtain ⟨f1, f2⟩ := Rhs.emit_fresh t g.bound
  have hlt : ∀ m ∈ g.nodes, m.name < g.bound := fun m hm => g.lt_bound_name hm
  have hr : (t.emit g.bound).1 ∈ (pre ++ (t.emit g.bound).2).map (·.name) := by
    rw [List.map_append, List.mem_append]
    rcases f2 with h | h
    · exact Or.inl (ht _ h)
    · exact Or.inr h
  have hnames : (post.map (Node.subst n.name (t.emit g.bound).1)).map (·.name) = post.map (·.name) := by
    rw [List.map_map]; rfl
  have hsub : ∀ (q : List Node) x, x ∈ (pre ++ n :: q).map (·.name) →
      substName n.name (t.emit g.bound).1 x ∈
        (pre ++ (t.emit g.bound).2 ++ q.map (Node.subst n.name (t.emit g.bound).1)).map (·.name) := by
    intro q x hx
    rw [List.map_append, List.mem_append]
    unfold substName
    split
    · exact Or.inl hr
    · rename_i hne
      rw [List.map_append, List.mem_append, List.map_cons, List.mem_cons] at hx
      rcases hx with h | h | h
      · exact Or.inl (by rw [List.map_append]; exact List.mem_append_left _ h)
      · exact absurd h hne
      · refine Or.inr ?_
        rw [List.map_map]
        exact h
  unfold Graph.replace
  simp only
  refine ⟨?_, ?_, ?_⟩
  · rw [List.map_append, List.map_append, hnames]
    rw [List.nodup_append, List.nodup_append]
    refine ⟨⟨hp, ?_, ?_⟩, hn2, ?_⟩
    · rw [f1.names]; exact List.nodup_range'
    · intro x hx y hy e
      obtain ⟨m, hm, rfl⟩ := List.mem_map.1 hx
      have := hlt m (by rw [he]; simp [hm])
      have := f1.mem.1 hy
      omega
    · intro x hx y hy e
      subst e
      rw [List.mem_append] at hx
      rcases hx with hx | hx
      · exact hd x hx x (List.mem_cons_of_mem _ hy) rfl
      · obtain ⟨m, hm, rfl⟩ := List.mem_map.1 hy
        have := hlt m (by rw [he]; simp [hm])
        have := f1.mem.1 hx
        omega
  · intro pre' m post' e x hx
    rcases List.append_eq_append_iff.1 e with ⟨as, e1, e2⟩ | ⟨as, e1, e2⟩
    · -- the node is in the rewritten rest
      subst e1
      obtain ⟨q, m0, q', rfl, rfl, hm0, rfl⟩ : ∃ q m0 q', post = q ++ m0 :: q' ∧
          as = q.map (Node.subst n.name (t.emit g.bound).1) ∧ Node.subst n.name (t.emit g.bound).1 m0 = m ∧
          post' = q'.map (Node.subst n.name (t.emit g.bound).1) := by
        obtain ⟨q, r, h1, h2, h3⟩ := List.map_eq_append_iff.1 e2
        obtain ⟨m0, q', h4, h5, h6⟩ := List.map_eq_cons_iff.1 h3
        exact ⟨q, m0, q', by rw [h1, h4], h2.symm, h5, h6.symm⟩
      subst hm0
      simp only [Node.subst, List.mem_map] at hx
      obtain ⟨y, hy, rfl⟩ := hx
      exact hsub q y (hsc.args (pre ++ n :: q) m0 q' (by simp) y hy)
    · match as, e2 with
      | [], e2 =>
        simp only [List.append_nil] at e1
        simp only [List.nil_append] at e2
        obtain ⟨m0, q', rfl, h5, h6⟩ := List.map_eq_cons_iff.1 e2.symm
        subst h5
        simp only [Node.subst, List.mem_map] at hx
        obtain ⟨y, hy, rfl⟩ := hx
        have := hsub [] y (hsc.args (pre ++ [n]) m0 q' (by simp) y hy)
        rw [e1] at this
        simpa using this
      | m' :: as, e2 =>
        simp only [List.cons_append, List.cons.injEq] at e2
        obtain ⟨rfl, e3⟩ := e2
        rcases List.append_eq_append_iff.1 e1 with ⟨bs, e4, e5⟩ | ⟨bs, e4, e5⟩
        · -- in the new nodes
          subst e4
          rw [List.map_append, List.mem_append]
          rcases f1.args bs m as e5 x hx with h | h
          · exact Or.inl (ht x h)
          · exact Or.inr h
        · match bs, e5 with
          | [], e5 =>
            simp only [List.append_nil] at e4
            simp only [List.nil_append] at e5
            subst e4
            rcases f1.args [] m as e5.symm x hx with h | h
            · exact ht x h
            · simp at h
          | m' :: bs, e5 =>
            simp only [List.cons_append, List.cons.injEq] at e5
            obtain ⟨rfl, e6⟩ := e5
            exact hsc.args pre' m (bs ++ n :: post) (by rw [e4]; simp) x hx
  · intro x hx
    obtain ⟨y, hy, rfl⟩ := List.mem_map.1 hx
    have := hg.2.2 y hy
    rw [he] at this
    exact hsub post y this

/-! ### Erasing a node -/

theorem uses_zero {g : Graph} {x : Nat} (h : g.uses x = 0) : (∀ n ∈ g.nodes, x ∉ n.args) ∧ x ∉ g.outs := by
  unfold Graph.uses at h
  have h1 : g.outs.count x = 0 := by omega
  have h2 : (g.nodes.map fun n => n.args.count x).sum = 0 := by omega
  refine ⟨?_, List.count_eq_zero.1 h1⟩
  intro n hn hx
  have := List.sum_eq_zero_iff_forall_eq_nat.1 h2 _ (List.mem_map_of_mem hn)
  exact List.count_eq_zero.1 this hx

/-- Nodes that do not use `v` do not see its value. -/
theorem runNodes_agree (ins : List Val) {v : Nat} : ∀ (l : List Node) {a b : Env}, (∀ x, x ≠ v → a x = b x) →
    (∀ n ∈ l, v ∉ n.args) → ∀ x, x ≠ v → runNodes ins l a x = runNodes ins l b x
  | [], _, _, h, _ => h
  | n :: l, a, b, h, hl => by
    simp only [runNodes]
    apply runNodes_agree ins l _ (fun m hm => hl m (by simp [hm]))
    intro x hx
    split
    · apply eval_congr
      intro y hy
      exact h y fun e => hl n (by simp) (e ▸ hy)
    · exact h x hx

theorem erase_eval {g : Graph} {pre post : List Node} {n : Node} (he : g.nodes = pre ++ n :: post)
    (hu : g.uses n.name = 0) (ins : List Val) : Graph.eval ⟨pre ++ post, g.outs⟩ ins = g.eval ins := by
  obtain ⟨h1, h2⟩ := uses_zero hu
  unfold Graph.eval
  simp only
  rw [he, runNodes_append, runNodes_append]
  simp only [runNodes]
  apply mapM_congr'
  intro x hx
  apply runNodes_agree ins (v := n.name)
  · intro y hy
    rw [if_neg hy]
  · intro m hm
    exact h1 m (by rw [he]; simp [hm])
  · exact fun e => h2 (e ▸ hx)

theorem erase_ssa {g : Graph} (hg : g.Ssa) {pre post : List Node} {n : Node} (he : g.nodes = pre ++ n :: post)
    (hu : g.uses n.name = 0) : Graph.Ssa ⟨pre ++ post, g.outs⟩ := by
  obtain ⟨h1, h2⟩ := uses_zero hu
  have hsc := hg.scoped
  rw [he] at hsc
  have hmem : ∀ (q : List Node) x, x ≠ n.name → x ∈ (pre ++ n :: q).map (·.name) → x ∈ (pre ++ q).map (·.name) := by
    intro q x hx h
    rw [List.map_append, List.mem_append, List.map_cons, List.mem_cons] at h
    rw [List.map_append, List.mem_append]
    rcases h with h | h | h
    · exact Or.inl h
    · exact absurd h hx
    · exact Or.inr h
  refine ⟨?_, ?_, ?_⟩
  · have hnd := hsc.nodup
    simp only [List.map_append, List.map_cons] at hnd ⊢
    rw [List.nodup_append, List.nodup_cons] at hnd
    rw [List.nodup_append]
    exact ⟨hnd.1, hnd.2.1.2, fun x hx y hy => hnd.2.2 x hx y (List.mem_cons_of_mem _ hy)⟩
  · intro pre' m post' e x hx
    simp only at e
    have hne : ∀ m ∈ g.nodes, ∀ x ∈ m.args, x ≠ n.name := fun m hm x hx ex => h1 m hm (ex ▸ hx)
    rcases List.append_eq_append_iff.1 e with ⟨as, e1, e2⟩ | ⟨as, e1, e2⟩
    · subst e1
      exact hmem as x (hne m (by rw [he, e2]; simp) x hx) (hsc.args (pre ++ n :: as) m post' (by rw [e2]; simp) x hx)
    · match as, e2 with
      | [], e2 =>
        simp only [List.append_nil] at e1
        simp only [List.nil_append] at e2
        have := hmem [] x (hne m (by rw [he, ← e2]; simp) x hx) (hsc.args (pre ++ [n]) m post' (by rw [← e2]; simp) x hx)
        rw [← e1]
        simpa using this
      | m' :: as, e2 =>
        simp only [List.cons_append, List.cons.injEq] at e2
        obtain ⟨rfl, e3⟩ := e2
        exact hsc.args pre' m (as ++ n :: post) (by rw [e1]; simp) x hx
  · intro x hx
    have := hg.2.2 x hx
    rw [he] at this
    exact hmem post x (fun e => h2 (e ▸ hx)) this

/-! ### Sound patterns -/

/-- What an environment knows about the definitions that a pattern sees. -/
structure Defs (ins : List Val) (env : Env) (c : Ctx) : Prop where
  defs : ∀ x m, c.look x = some m → env x = m.eval ins env
  wf : ∀ x v, env x = some v → v.wf = true

/-- Whenever the pattern matches outside its exceptions, its result has the value of the root. -/
def Rule.Sound (r : Rule) : Prop :=
  ∀ ins env c n t, Defs ins env c → r.apply c n = some t → r.exc c n = false → r.excAt env c n = false →
    ∀ v, n.eval ins env = some v → t.eval ins env = some v

/-- The pattern's result only uses operands of the nodes it looked at. -/
def Rule.Local (r : Rule) : Prop :=
  ∀ c n t, r.apply c n = some t → ∀ x ∈ t.vars, x ∈ n.args ∨ ∃ y m, c.look y = some m ∧ x ∈ m.args

theorem defs_pre {g : Graph} (hg : g.Ssa) {pre post : List Node} {n : Node} (he : g.nodes = pre ++ n :: post)
    (ins : List Val) (u : Nat → Nat) : Defs ins (runNodes ins pre fun _ => none) ⟨lookIn pre, u⟩ := by
  have hsc := hg.scoped
  rw [he] at hsc
  refine ⟨?_, ?_⟩
  · intro x m hm
    obtain ⟨h1, rfl⟩ := lookIn_some hm
    exact hsc.prefix.defs ins h1
  · exact runNodes_wf ins pre _ (by intro x v h; cases h)

theorem local_vars {g : Graph} (hg : g.Ssa) {pre post : List Node} {n : Node} (he : g.nodes = pre ++ n :: post)
    {r : Rule} (hl : r.Local) {u : Nat → Nat} {t : Rhs} (ha : r.apply ⟨lookIn pre, u⟩ n = some t) :
    ∀ x ∈ t.vars, x ∈ pre.map (·.name) := by
  have hsc := hg.scoped
  rw [he] at hsc
  intro x hx
  rcases hl _ _ _ ha x hx with h | ⟨y, m, h1, h2⟩
  · exact hsc.args pre n post rfl x h
  · obtain ⟨h3, _⟩ := lookIn_some h1
    obtain ⟨q, q', rfl⟩ := List.append_of_mem h3
    have := hsc.args q m (q' ++ n :: post) (by simp) x h2
    rw [List.map_append]
    exact List.mem_append_left _ this

/-- One step preserves single static assignment form. -/
theorem step_ssa {rules : List Rule} {safe : List Val → Prop} (hl : ∀ r ∈ rules, r.Local) {g g' : Graph} (hg : g.Ssa)
    (h : Step rules safe g g') : g'.Ssa := by
  cases h with
  | rewrite r hr he hu ha hs => exact replace_ssa hg he (local_vars hg he (hl r hr) ha)
  | erase he hu => exact erase_ssa hg he hu
  | cse he hm _ =>
    apply replace_ssa hg he
    intro x hx
    simp only [Rhs.vars, List.mem_singleton] at hx
    subst hx
    exact List.mem_map_of_mem hm

/-- One step with sound patterns preserves the results. -/
theorem step_eval {rules : List Rule} (hl : ∀ r ∈ rules, r.Local) (hs : ∀ r ∈ rules, r.Sound) {g g' : Graph} (hg : g.Ssa)
    {safe : List Val → Prop} (h : Step rules safe g g') {ins vs : List Val} (hi : safe ins) (hv : g.eval ins = some vs) :
    g'.eval ins = some vs := by
  cases h with
  | @rewrite pre post n t r hr he hu ha hsafe =>
    exact replace_eval hg he (local_vars hg he (hl r hr) ha) ins
      (hs r hr ins _ _ n t (defs_pre hg he ins _) ha (hsafe ins hi).1 (hsafe ins hi).2) hv
  | erase he hu => rw [erase_eval he hu]; exact hv
  | @cse pre post n m he hm hq =>
    refine replace_eval hg he ?_ ins ?_ hv
    · intro x hx
      simp only [Rhs.vars, List.mem_singleton] at hx
      subst hx
      exact List.mem_map_of_mem hm
    · intro v hv
      have hsc := hg.scoped
      rw [he] at hsc
      simp only [Rhs.eval]
      rw [hsc.prefix.defs ins hm]
      unfold Node.eval at hv ⊢
      rw [hq.1, hq.2.1, hq.2.2]
      exact hv

end Verif.Ir
