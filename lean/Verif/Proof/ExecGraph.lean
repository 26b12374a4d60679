import Verif.Proof.ExecOp
import Verif.Proof.IrTerm

/-! Executing a graph by the kernels computes what the graph says. -/

namespace Verif.Ir

/-- Operands of a node come before it. -/
theorem arg_later {l pre post : List Node} {n n' : Node} (h : Scoped l) (e : l = pre ++ n :: post) (hn : n' ∈ l)
    (ha : n.name ∈ n'.args) : n' ∈ post := by
  subst e
  have hnd := h.nodup
  simp only [List.map_append, List.map_cons] at hnd
  have hnp : n.name ∉ pre.map (·.name) := by
    intro hm
    exact (List.nodup_append.1 hnd).2.2 _ hm _ (by simp) rfl
  rcases List.mem_append.1 hn with h1 | h1
  · exfalso
    obtain ⟨p1, p2, rfl⟩ := List.append_of_mem h1
    have := h.args p1 n' (p2 ++ n :: post) (by simp) _ ha
    apply hnp
    rw [List.map_append, List.mem_append]
    exact Or.inl this
  · rcases List.mem_cons.1 h1 with rfl | h1
    · exact absurd (h.args pre n' post rfl _ ha) hnp
    · exact h1

theorem mapM_mem {α β : Type} {f : α → Option β} : ∀ {l : List α} {vs : List β}, l.mapM f = some vs →
    ∀ x ∈ l, ∃ v ∈ vs, f x = some v
  | [], _, _, x, hx => by cases hx
  | a :: l, vs, h, x, hx => by
    rw [mapM_cons', Option.bind_eq_some_iff] at h
    obtain ⟨v, h1, h2⟩ := h
    rw [Option.map_eq_some_iff] at h2
    obtain ⟨vs', h2, rfl⟩ := h2
    rcases List.mem_cons.1 hx with rfl | hx
    · exact ⟨v, by simp, h1⟩
    · obtain ⟨w, hw, e⟩ := mapM_mem h2 x hx
      exact ⟨w, by simp [hw], e⟩

/-- When all nodes are used and the results have values, all nodes have values. -/
theorem all_defined {g : Graph} (hg : g.Ssa) (hu : ∀ n ∈ g.nodes, 0 < g.uses n.name) {ins vs : List Val}
    (hv : g.eval ins = some vs) : ∀ post pre, g.nodes = pre ++ post → ∀ n ∈ post,
      ∃ v, runNodes ins g.nodes (fun _ => none) n.name = some v := by
  intro post
  induction post with
  | nil => intro pre _ n hn; cases hn
  | cons n post ih =>
    intro pre he n0 hn0
    have ih' := ih (pre ++ [n]) (by rw [he]; simp)
    rcases List.mem_cons.1 hn0 with rfl | hn0
    · rcases uses_pos.1 (hu n0 (by rw [he]; simp)) with ⟨n', hn', ha⟩ | ho
      · have hp := arg_later hg.scoped he hn' ha
        obtain ⟨v', hv'⟩ := ih' n' hp
        rw [hg.scoped.defs ins hn'] at hv'
        unfold Node.eval at hv'
        rw [Option.bind_eq_some_iff] at hv'
        obtain ⟨l, hl, _⟩ := hv'
        obtain ⟨w, _, hw⟩ := mapM_mem hl _ ha
        exact ⟨w, hw⟩
      · obtain ⟨w, _, hw⟩ := mapM_mem hv _ ho
        exact ⟨w, hw⟩
    · exact ih' n0 hn0

/-- Names whose values are represented. -/
def RepOn (S : List Nat) (F : Env) (env : Nat → Option MVal) : Prop :=
  ∀ x ∈ S, ∃ v m, F x = some v ∧ env x = some m ∧ Rep v m

theorem RepOn.mapM {S : List Nat} {F : Env} {env : Nat → Option MVal} (h : RepOn S F env) :
    ∀ {l : List Nat}, (∀ x ∈ l, x ∈ S) → ∃ vs ms, l.mapM F = some vs ∧ l.mapM env = some ms ∧ List.Forall₂ Rep vs ms
  | [], _ => ⟨[], [], rfl, rfl, .nil⟩
  | a :: l, hl => by
    obtain ⟨v, m, h1, h2, h3⟩ := h a (hl a (by simp))
    obtain ⟨vs, ms, e1, e2, e3⟩ := RepOn.mapM h (l := l) fun x hx => hl x (by simp [hx])
    exact ⟨v :: vs, m :: ms, by rw [mapM_cons', h1, e1]; rfl, by rw [mapM_cons', h2, e2]; rfl, .cons h3 e3⟩

/-- All nodes of a graph in which every node has a value. -/
theorem exec_nodes {cfg : Cfg} {g : Graph} {ins : List Val} {mins : List MVal} (hg : g.Ssa) (hsch : cfg.Scheduled)
    (hins : List.Forall₂ Rep ins mins) (htame : g.Tame cfg.kt ins)
    (hdef : ∀ n ∈ g.nodes, ∃ v, runNodes ins g.nodes (fun _ => none) n.name = some v) :
    ∀ post pre env, g.nodes = pre ++ post → RepOn (pre.map (·.name)) (runNodes ins g.nodes fun _ => none) env →
      ((∃ n ∈ post, ∃ l, n.args.mapM (runNodes ins g.nodes fun _ => none) = some l ∧ rejected cfg n.name n.ty n.op l) ∧
        execNodes cfg mins post env = .error) ∨
      ((¬ ∃ n ∈ post, ∃ l, n.args.mapM (runNodes ins g.nodes fun _ => none) = some l ∧ rejected cfg n.name n.ty n.op l) ∧
        ∃ env', execNodes cfg mins post env = .ok env' ∧
          RepOn (g.nodes.map (·.name)) (runNodes ins g.nodes fun _ => none) env') := by
  intro post
  induction post with
  | nil =>
    intro pre env he hr
    right
    refine ⟨by simp, env, rfl, ?_⟩
    have he' : g.nodes.map (·.name) = pre.map (·.name) := by rw [he]; simp
    rw [he']; exact hr
  | cons n post ih =>
    intro pre env he hr
    have hn : n ∈ g.nodes := by rw [he]; simp
    obtain ⟨vs, ms, e1, e2, e3⟩ := hr.mapM (hg.scoped.args pre n post he)
    obtain ⟨v, hv⟩ := hdef n hn
    have hv' := hv
    rw [hg.scoped.defs ins hn] at hv'
    unfold Node.eval at hv'
    rw [e1, Option.bind_some] at hv'
    have hwf : ∀ u ∈ vs, u.wf = true := by
      intro u hu
      have : ∀ (l : List Nat) (us : List Val), l.mapM (runNodes ins g.nodes fun _ => none) = some us → ∀ u ∈ us, u.wf = true := by
        intro l
        induction l with
        | nil => intro us h; cases h; simp
        | cons a l ihl =>
          intro us h
          rw [mapM_cons', Option.bind_eq_some_iff] at h
          obtain ⟨w, w1, w2⟩ := h
          rw [Option.map_eq_some_iff] at w2
          obtain ⟨us', w2, rfl⟩ := w2
          intro u hu
          rcases List.mem_cons.1 hu with rfl | hu
          · exact runNodes_wf ins g.nodes (fun _ => none) (by simp) _ _ w1
          · exact ihl _ w2 u hu
      exact this _ _ e1 u hu
    have hop := exec_op (cfg := cfg) (nm := n.name) hsch hins e3 hwf hv' (htame n hn vs e1)
    rcases hop with ⟨h1, h2⟩ | ⟨h1, m, h2, h3⟩
    · left
      refine ⟨⟨n, by simp, vs, e1, h1⟩, ?_⟩
      simp only [execNodes, e2, h2]
      rfl
    · have hnd := hg.scoped.nodup
      rw [he] at hnd
      simp only [List.map_append, List.map_cons] at hnd
      have hr' : RepOn ((pre ++ [n]).map (·.name)) (runNodes ins g.nodes fun _ => none)
          (fun x => if x = n.name then some m else env x) := by
        intro x hx
        rw [List.map_append, List.mem_append] at hx
        rcases hx with hx | hx
        · have : x ≠ n.name := by
            rintro rfl
            exact (List.nodup_append.1 hnd).2.2 _ hx _ (by simp) rfl
          obtain ⟨u, w, q1, q2, q3⟩ := hr x hx
          exact ⟨u, w, q1, by simp only [if_neg this]; exact q2, q3⟩
        · simp only [List.map_cons, List.map_nil, List.mem_singleton] at hx
          subst hx
          exact ⟨v, m, hv, by simp, h3⟩
      have hrun : execNodes cfg mins (n :: post) env
          = execNodes cfg mins post (fun x => if x = n.name then some m else env x) := by
        simp only [execNodes, e2, h2]
        rfl
      rcases ih (pre ++ [n]) _ (by rw [he]; simp) hr' with ⟨⟨n', hn', l, k1, k2⟩, k3⟩ | ⟨k1, env', k2, k3⟩
      · left
        exact ⟨⟨n', by simp [hn'], l, k1, k2⟩, by rw [hrun]; exact k3⟩
      · right
        refine ⟨?_, env', by rw [hrun]; exact k2, k3⟩
        rintro ⟨n', hn', l, q1, q2⟩
        rcases List.mem_cons.1 hn' with rfl | hn'
        · rw [e1] at q1; cases q1; exact h1 q2
        · exact k1 ⟨n', hn', l, q1, q2⟩

/-- **One inference**: it is refused exactly in the listed cases, and otherwise the outputs stand for the values. -/
theorem exec_graph {cfg : Cfg} {g : Graph} {ins vs : List Val} {mins : List MVal} (hg : g.Ssa) (hsch : cfg.Scheduled)
    (hins : List.Forall₂ Rep ins mins) (htame : g.Tame cfg.kt ins)
    (hdef : ∀ n ∈ g.nodes, ∃ v, runNodes ins g.nodes (fun _ => none) n.name = some v) (hv : g.eval ins = some vs) :
    (g.Rejected cfg ins ∧ g.exec cfg mins = .error) ∨
    (¬ g.Rejected cfg ins ∧ ∃ ms, g.exec cfg mins = .ok ms ∧ List.Forall₂ Rep vs ms) := by
  rcases exec_nodes hg hsch hins htame hdef g.nodes [] (fun _ => none) rfl (by intro x hx; cases hx) with
    ⟨h1, h2⟩ | ⟨h1, env, h2, h3⟩
  · left
    refine ⟨h1, ?_⟩
    unfold Graph.exec
    rw [h2]; rfl
  · right
    refine ⟨h1, ?_⟩
    obtain ⟨us, ms, e1, e2, e3⟩ := h3.mapM (l := g.outs) fun x hx => hg.2.2 x hx
    replace hv : g.outs.mapM (runNodes ins g.nodes fun _ => none) = some vs := hv
    rw [e1] at hv
    cases hv
    refine ⟨ms, ?_, e3⟩
    unfold Graph.exec
    rw [h2]
    simp only [Outcome.bind, e2]

end Verif.Ir
