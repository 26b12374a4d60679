import Verif.Proof.Session

/-! Whole inferences on the state that earlier calls left behind. -/

namespace Verif.Ir

theorem execNodes_append (cfg : Cfg) (ins : List MVal) : ∀ (l l' : List Node) (env : Nat → Option MVal),
    execNodes cfg ins (l ++ l') env = (execNodes cfg ins l env).bind (execNodes cfg ins l')
  | [], l', env => rfl
  | n :: l, l', env => by
    simp only [List.cons_append, execNodes]
    cases n.args.mapM env with
    | none => rfl
    | some ms =>
      simp only
      cases execOp cfg ins n.name n.ty n.op ms with
      | ub => rfl
      | error => rfl
      | ok m => exact execNodes_append cfg ins l l' _

/-- A BConv2D, with the quantization of its result. -/
def Op.ConvWith (o : Op) (q : Option (Rat × Int)) (a : BConvAttrs) : Prop :=
  (o = .bconv a ∧ q = Option.none) ∨ ∃ sc z, o = .bconvI8 a sc z ∧ q = some (sc, z)

theorem stepOp_cases (cfg : Cfg) (k : Calls) (ins : List MVal) (nm : Nat) (ty : Option (List Nat)) (o : Op) (l : List MVal)
    (s : NodeState) :
    (∃ q a x f m b t, o.ConvWith q a ∧ l = [x, f, m, b, t]) ∨ stepOp cfg k ins nm ty o l s = (execOp cfg ins nm ty o l, s) := by
  unfold stepOp
  split
  · rename_i a x f m b t
    exact Or.inl ⟨Option.none, a, x, f, m, b, t, Or.inl ⟨rfl, rfl⟩, rfl⟩
  · rename_i a sc z x f m b t
    exact Or.inl ⟨some (sc, z), a, x, f, m, b, t, Or.inr ⟨sc, z, rfl, rfl⟩, rfl⟩
  · exact Or.inr rfl

theorem stepOp_conv {cfg : Cfg} {k : Calls} {ins : List MVal} {nm : Nat} {ty : Option (List Nat)} {o : Op} {q : Option (Rat × Int)}
    {a : BConvAttrs} {x f m b t : MVal} {s : NodeState} (h : o.ConvWith q a) :
    stepOp cfg k ins nm ty o [x, f, m, b, t] s = stepBConv cfg (k.again nm) (k.left nm) nm q a x f m b t s ∧
    execOp cfg ins nm ty o [x, f, m, b, t] = execBConv cfg nm q a x f m b t ∧ o.isBConv = true := by
  rcases h with ⟨rfl, rfl⟩ | ⟨sc, z, rfl, rfl⟩
  · exact ⟨rfl, rfl, rfl⟩
  · exact ⟨rfl, rfl, rfl⟩

/-- Constants are the same in every inference. -/
theorem execConst_eq {cfg : Cfg} {nm : Nat} {v : Val} {m : MVal} (hw : v.wf = true) (h : execConst cfg nm v = .ok m) :
    constTensor v = some m := by
  rcases exec_const (cfg := cfg) (nm := nm) hw with ⟨t, _, _, h2⟩ | ⟨h1, m1, h2, h3⟩
  · rw [h] at h2; cases h2
  · rw [h] at h2; cases h2
    unfold constTensor
    rcases exec_const (cfg := ⟨.reference, fun _ => true, fun _ _ _ _ => [], fun _ => false, fun _ => 0, fun _ _ => 0#32, fun _ _ => 0,
      fun _ _ => 0#8, fun _ => 0#32⟩) (nm := 0) hw with ⟨t, e, e1, _⟩ | ⟨_, m2, h4, h5⟩
    · exact absurd e1 (h1 t e)
    · rw [h4, rep_unique h3 h5]

/-- The constants met so far have their values. -/
def EnvConst (pre : List Node) (env : Nat → Option MVal) : Prop :=
  ∀ c ∈ pre, c.args = [] → ∀ v, c.op = .const v → v.wf = true → ∃ m, env c.name = some m ∧ constTensor v = some m

/-- The invariant of the state of all nodes. -/
def SInv (kt : KernelType) (g : Graph) (D : Nat → InputDesc) (st : State) : Prop :=
  ∀ nm nd, g.convNode kt nm = some nd → NInv nd (D nm) (st nm)

theorem SInv.new (kt : KernelType) (g : Graph) (D : Nat → InputDesc) : SInv kt g D State.new :=
  fun _ nd _ => NInv.new nd _

theorem SInv.update {kt : KernelType} {g : Graph} {D : Nat → InputDesc} {st : State} (h : SInv kt g D st) {nm : Nat}
    {s : NodeState} (hs : ∀ nd, g.convNode kt nm = some nd → NInv nd (D nm) s) :
    SInv kt g D (fun x => if x = nm then s else st x) := by
  intro x nd hx
  by_cases e : x = nm
  · subst e; simpa using hs nd hx
  · simpa [e] using h x nd hx

/-- The node of a BConv2D in the graph. -/
theorem convNode_eq {kt : KernelType} {g : Graph} (hg : g.Ssa) (hc : g.ConstParams) {pre post : List Node} {n : Node}
    (he : g.nodes = pre ++ n :: post) {q : Option (Rat × Int)} {a : BConvAttrs} (ho : n.op.ConvWith q a)
    {env : Nat → Option MVal} (henv : EnvConst pre env) {x f m b t : MVal} (hm : n.args.mapM env = some [x, f, m, b, t]) :
    g.convNode kt n.name = some (bconvNode kt q a (.words [] []) f m b t) ∧ ∃ y, n.args.head? = some y ∧ env y = some x := by
  have hn : n ∈ g.nodes := by rw [he]; simp
  have hb : n.op.isBConv = true := by rcases ho with ⟨h, _⟩ | ⟨_, _, h, _⟩ <;> rw [h] <;> rfl
  have hlen : ∃ y1 y2 y3 y4 y5, n.args = [y1, y2, y3, y4, y5] ∧ env y1 = some x ∧ env y2 = some f ∧ env y3 = some m ∧
      env y4 = some b ∧ env y5 = some t := by
    revert hm
    generalize n.args = l
    intro hm
    match l with
    | [] => cases hm
    | y1 :: l =>
      rw [mapM_cons', Option.bind_eq_some_iff] at hm
      obtain ⟨v1, e1, hm⟩ := hm
      rw [Option.map_eq_some_iff] at hm
      obtain ⟨l1, hm, h1⟩ := hm
      cases h1
      match l with
      | [] => cases hm
      | y2 :: l =>
        rw [mapM_cons', Option.bind_eq_some_iff] at hm
        obtain ⟨v2, e2, hm⟩ := hm
        rw [Option.map_eq_some_iff] at hm
        obtain ⟨l1, hm, h1⟩ := hm
        cases h1
        match l with
        | [] => cases hm
        | y3 :: l =>
          rw [mapM_cons', Option.bind_eq_some_iff] at hm
          obtain ⟨v3, e3, hm⟩ := hm
          rw [Option.map_eq_some_iff] at hm
          obtain ⟨l1, hm, h1⟩ := hm
          cases h1
          match l with
          | [] => cases hm
          | y4 :: l =>
            rw [mapM_cons', Option.bind_eq_some_iff] at hm
            obtain ⟨v4, e4, hm⟩ := hm
            rw [Option.map_eq_some_iff] at hm
            obtain ⟨l1, hm, h1⟩ := hm
            cases h1
            match l with
            | [] => cases hm
            | y5 :: l =>
              rw [mapM_cons', Option.bind_eq_some_iff] at hm
              obtain ⟨v5, e5, hm⟩ := hm
              rw [Option.map_eq_some_iff] at hm
              obtain ⟨l1, hm, h1⟩ := hm
              cases h1
              match l with
              | [] => exact ⟨y1, y2, y3, y4, y5, rfl, e1, e2, e3, e4, e5⟩
              | y6 :: l =>
                rw [mapM_cons', Option.bind_eq_some_iff] at hm
                obtain ⟨v6, _, hm⟩ := hm
                rw [Option.map_eq_some_iff] at hm
                obtain ⟨_, _, h1⟩ := hm
                cases h1
  obtain ⟨y1, y2, y3, y4, y5, hargs, e1, e2, e3, e4, e5⟩ := hlen
  have hpar : ∀ y ∈ n.args.tail, ∀ w, env y = some w → g.constOf y = some w := by
    intro y hy w hw
    obtain ⟨c, hcm, hcn, hca, v, hcv, hwf⟩ := hc n hn hb y hy
    have hpre : c ∈ pre := by
      have hyp : y ∈ pre.map (·.name) := hg.2.1 pre n post he y (List.mem_of_mem_tail hy)
      obtain ⟨c', hc', hcn'⟩ := List.mem_map.1 hyp
      have h1 := lookIn_mem hg.1 hcm
      have h2 := lookIn_mem hg.1 (n := c') (by rw [he]; simp [hc'])
      rw [hcn, ← hcn', h2] at h1
      cases h1
      exact hc'
    obtain ⟨m', h1, h2⟩ := henv c hpre hca v hcv hwf
    rw [hcn, hw] at h1
    cases h1
    unfold Graph.constOf
    have h3 := lookIn_mem hg.1 hcm
    rw [hcn] at h3
    rw [h3]
    obtain ⟨cn, co, ca, ct⟩ := c
    simp only at hcv
    subst hcv
    exact h2
  rw [hargs] at hpar
  refine ⟨?_, y1, by rw [hargs]; rfl, e1⟩
  have hlook := lookIn_mem hg.1 hn
  obtain ⟨nm, op, args, ty⟩ := n
  simp only at hargs ho hlook
  subst hargs
  unfold Graph.convNode
  rw [hlook]
  rcases ho with ⟨rfl, rfl⟩ | ⟨sc, z, rfl, rfl⟩
  · simp only [hpar y2 (by simp) f e2, hpar y3 (by simp) m e3, hpar y4 (by simp) b e4, hpar y5 (by simp) t e5]
    rfl
  · simp only [hpar y2 (by simp) f e2, hpar y3 (by simp) m e3, hpar y4 (by simp) b e4, hpar y5 (by simp) t e5]
    rfl

/-- The remaining nodes of an inference. -/
theorem stepNodes_spec {cfg : Cfg} {k : Calls} {g : Graph} (hg : g.Ssa) (hc : g.ConstParams) {ins : List MVal}
    {D : Nat → InputDesc} (hD : cfg.kt = .indirect → g.InputsAt cfg ins D) :
    ∀ post pre env st, g.nodes = pre ++ post → execNodes cfg ins pre (fun _ => Option.none) = .ok env → EnvConst pre env →
      SInv cfg.kt g D st →
      (stepNodes cfg k ins post env st).1 = execNodes cfg ins post env ∧ SInv cfg.kt g D (stepNodes cfg k ins post env st).2 := by
  intro post
  induction post with
  | nil => intro pre env st _ _ _ hs; exact ⟨rfl, hs⟩
  | cons n post ih =>
    intro pre env st he hpre henv hs
    have hn : n ∈ g.nodes := by rw [he]; simp
    simp only [stepNodes, execNodes]
    cases hm : n.args.mapM env with
    | none => exact ⟨rfl, hs⟩
    | some ms =>
      simp only
      have key : (stepOp cfg k ins n.name n.ty n.op ms (st n.name)).1 = execOp cfg ins n.name n.ty n.op ms ∧
          SInv cfg.kt g D (fun x => if x = n.name then (stepOp cfg k ins n.name n.ty n.op ms (st n.name)).2 else st x) := by
        rcases stepOp_cases cfg k ins n.name n.ty n.op ms (st n.name) with ⟨q, a, x, f, m, b, t, ho, rfl⟩ | h
        · obtain ⟨h1, h2, h3⟩ := stepOp_conv (cfg := cfg) (k := k) (ins := ins) (nm := n.name) (ty := n.ty) (x := x) (f := f)
            (m := m) (b := b) (t := t) (s := st n.name) ho
          rw [h1, h2]
          obtain ⟨h4, y, h5, h6⟩ := convNode_eq (kt := cfg.kt) hg hc he ho henv hm
          obtain ⟨h7, h8⟩ := stepBConv_spec (again := k.again n.name) (left := k.left n.name) (nm := n.name) (x := x)
            (hs n.name _ h4) (fun hk => hD hk pre n post he h3 env y x hpre h5 h6)
          refine ⟨h7, hs.update ?_⟩
          intro nd hnd
          rw [h4] at hnd
          cases hnd
          exact h8
        · rw [h]
          exact ⟨rfl, hs.update fun nd hnd => hs _ nd hnd⟩
      generalize stepOp cfg k ins n.name n.ty n.op ms (st n.name) = w at key
      obtain ⟨o, s⟩ := w
      obtain ⟨k1, k2⟩ := key
      simp only at k1 k2
      rw [← k1]
      cases o with
      | ub => exact ⟨rfl, k2⟩
      | error => exact ⟨rfl, k2⟩
      | ok m =>
        refine ih (pre ++ [n]) _ _ (by rw [he]; simp) ?_ ?_ k2
        · rw [execNodes_append, hpre]
          simp only [Outcome.bind, execNodes, hm, ← k1]
        · intro c hcm hca v hcv hwf
          rcases List.mem_append.1 hcm with h | h
          · have hne : c.name ≠ n.name := by
              intro e
              have hnd := hg.1
              rw [he, List.map_append, List.map_cons] at hnd
              exact (List.nodup_append.1 hnd).2.2 _ (List.mem_map.2 ⟨c, h, rfl⟩) _ (by simp) e
            simp only [if_neg hne]
            exact henv c h hca v hcv hwf
          · have : c = n := by simpa using h
            subst this
            refine ⟨m, by simp, ?_⟩
            rw [hca] at hm
            cases hm
            rw [hcv] at k1
            exact execConst_eq hwf k1.symm

/-- **One inference** on any state with the invariant gives what it gives in a new interpreter. -/
theorem step_spec {cfg : Cfg} {k : Calls} {g : Graph} (hg : g.Ssa) (hc : g.ConstParams) {ins : List MVal} {D : Nat → InputDesc}
    (hD : cfg.kt = .indirect → g.InputsAt cfg ins D) {st : State} (hs : SInv cfg.kt g D st) :
    (g.step cfg k ins st).1 = g.exec cfg ins ∧ SInv cfg.kt g D (g.step cfg k ins st).2 := by
  obtain ⟨h1, h2⟩ := stepNodes_spec (k := k) hg hc hD g.nodes [] (fun _ => Option.none) st rfl rfl
    (by intro c hc; cases hc) hs
  unfold Graph.step Graph.exec
  rw [← h1]
  generalize stepNodes cfg k ins g.nodes (fun _ => Option.none) st = w at h2
  obtain ⟨o, s⟩ := w
  cases o with
  | ub => exact ⟨rfl, h2⟩
  | error => exact ⟨rfl, h2⟩
  | ok env => exact ⟨rfl, h2⟩

theorem convNode_type {kt : KernelType} {g : Graph} {nm : Nat} {nd : Verif.Node} (h : g.convNode kt nm = some nd) :
    nd.inType = .int32 := by
  unfold Graph.convNode at h
  simp only at h
  split at h
  all_goals
    first
    | (cases h; done)
    | (simp only [Option.bind_eq_bind, Option.bind_eq_some_iff, Option.some.injEq] at h
       obtain ⟨_, _, _, _, _, _, _, _, rfl⟩ := h
       rfl)

/-- The invariant holds after any history. -/
theorem session_inv {kt : KernelType} {g : Graph} (hg : g.Ssa) (hc : g.ConstParams) {D : Nat → InputDesc} :
    ∀ (es : List Event) {st st' : State},
      (∀ cfg k ins, Event.infer cfg k ins ∈ es → kt = .indirect → g.InputsAt { cfg with kt := kt } ins D) →
      SInv kt g D st → g.session kt es st = some st' → SInv kt g D st'
  | [], st, st', _, hs, h => by cases h; exact hs
  | .prepare nm i left :: es, st, st', hD, hs, h => by
    have hD' := fun cfg k ins hm => hD cfg k ins (List.mem_cons_of_mem _ hm)
    unfold Graph.session at h
    split at h
    · exact session_inv hg hc es hD' hs h
    · rename_i nd hnd
      have hi := callPrepare_inv (i := i) (hs nm nd hnd) left (convNode_type hnd)
      generalize callPrepare nd i left (st nm) = w at h hi
      obtain ⟨o, s⟩ := w
      have hup : SInv kt g D fun x => if x = nm then s else st x := hs.update (by
        intro nd' hnd'
        rw [hnd] at hnd'
        cases hnd'
        exact hi)
      cases o with
      | ub => cases h
      | error => exact session_inv hg hc es hD' hup h
      | ok _ => exact session_inv hg hc es hD' hup h
  | .infer cfg k ins :: es, st, st', hD, hs, h => by
    have hD' := fun cfg k ins hm => hD cfg k ins (List.mem_cons_of_mem _ hm)
    unfold Graph.session at h
    have hst := step_spec (cfg := { cfg with kt := kt }) (k := k) hg hc (hD cfg k ins (by simp)) hs
    generalize Graph.step { cfg with kt := kt } k g ins st = w at h hst
    obtain ⟨o, s⟩ := w
    cases o with
    | ub => cases h
    | error => exact session_inv hg hc es hD' hst.2 h
    | ok _ => exact session_inv hg hc es hD' hst.2 h

end Verif.Ir
