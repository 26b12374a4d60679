import Verif.Proof.SessionFl
import Verif.Proof.SessionGraph
import Verif.Spec.SessionFlRel

/-! Whole inferences in floating-point arithmetic on the state that earlier calls left behind. -/

namespace Verif.Ir

theorem execNodesFl_append (F : FlCfg) (cfg : Cfg) (ins : List MVal) : ∀ (l l' : List Node) (env : Nat → Option MVal),
    execNodesFl F cfg ins (l ++ l') env = (execNodesFl F cfg ins l env).bind (execNodesFl F cfg ins l')
  | [], l', env => rfl
  | n :: l, l', env => by
    simp only [List.cons_append, execNodesFl]
    cases n.args.mapM env with
    | none => rfl
    | some ms =>
      simp only
      cases execOpFl F cfg ins n.name n.ty n.op ms with
      | ub => rfl
      | error => rfl
      | ok m => exact execNodesFl_append F cfg ins l l' _

theorem stepOpFl_cases (F : FlCfg) (cfg : Cfg) (k : Calls) (ins : List MVal) (nm : Nat) (ty : Option (List Nat)) (o : Op)
    (l : List MVal) (s : NodeState) :
    (∃ q a x f m b t, o.ConvWith q a ∧ l = [x, f, m, b, t]) ∨ stepOpFl F cfg k ins nm ty o l s = (execOpFl F cfg ins nm ty o l, s) := by
  unfold stepOpFl
  split
  · rename_i a x f m b t
    exact Or.inl ⟨Option.none, a, x, f, m, b, t, Or.inl ⟨rfl, rfl⟩, rfl⟩
  · rename_i a sc z x f m b t
    exact Or.inl ⟨some (sc, z), a, x, f, m, b, t, Or.inr ⟨sc, z, rfl, rfl⟩, rfl⟩
  · exact Or.inr rfl

theorem stepOpFl_conv {F : FlCfg} {cfg : Cfg} {k : Calls} {ins : List MVal} {nm : Nat} {ty : Option (List Nat)} {o : Op}
    {q : Option (Rat × Int)} {a : BConvAttrs} {x f m b t : MVal} {s : NodeState} (h : o.ConvWith q a) :
    stepOpFl F cfg k ins nm ty o [x, f, m, b, t] s = stepBConvFl F cfg (k.again nm) (k.left nm) nm q a x f m b t s ∧
    execOpFl F cfg ins nm ty o [x, f, m, b, t] = execBConvFl F cfg nm q a x f m b t ∧ o.isBConv = true := by
  rcases h with ⟨rfl, rfl⟩ | ⟨sc, z, rfl, rfl⟩
  · exact ⟨rfl, rfl, rfl⟩
  · exact ⟨rfl, rfl, rfl⟩

/-- The invariant of the state of all nodes. -/
def SInvFl (R : FlEnv) (kt : KernelType) (g : Graph) (D : Nat → InputDesc) (st : State) : Prop :=
  ∀ nm nd, g.convNode kt nm = some nd → NInvFl R nd (D nm) (st nm)

theorem SInvFl.new (R : FlEnv) (kt : KernelType) (g : Graph) (D : Nat → InputDesc) : SInvFl R kt g D State.new :=
  fun _ nd _ => NInvFl.new R nd _

theorem SInvFl.update {R : FlEnv} {kt : KernelType} {g : Graph} {D : Nat → InputDesc} {st : State} (h : SInvFl R kt g D st)
    {nm : Nat} {s : NodeState} (hs : ∀ nd, g.convNode kt nm = some nd → NInvFl R nd (D nm) s) :
    SInvFl R kt g D (fun x => if x = nm then s else st x) := by
  intro x nd hx
  by_cases e : x = nm
  · subst e; simpa using hs nd hx
  · simpa [e] using h x nd hx

/-- The remaining nodes of an inference. -/
theorem stepNodesFl_spec {F : FlCfg} {cfg : Cfg} {k : Calls} {g : Graph} (hg : g.Ssa) (hc : g.ConstParams) {ins : List MVal}
    {D : Nat → InputDesc} (hD : cfg.kt = .indirect → g.InputsAtFl F cfg ins D) :
    ∀ post pre env st, g.nodes = pre ++ post → execNodesFl F cfg ins pre (fun _ => Option.none) = .ok env → EnvConst pre env →
      SInvFl F.R cfg.kt g D st →
      (stepNodesFl F cfg k ins post env st).1 = execNodesFl F cfg ins post env ∧
      SInvFl F.R cfg.kt g D (stepNodesFl F cfg k ins post env st).2 := by
  intro post
  induction post with
  | nil => intro pre env st _ _ _ hs; exact ⟨rfl, hs⟩
  | cons n post ih =>
    intro pre env st he hpre henv hs
    have hn : n ∈ g.nodes := by rw [he]; simp
    simp only [stepNodesFl, execNodesFl]
    cases hm : n.args.mapM env with
    | none => exact ⟨rfl, hs⟩
    | some ms =>
      simp only
      have key : (stepOpFl F cfg k ins n.name n.ty n.op ms (st n.name)).1 = execOpFl F cfg ins n.name n.ty n.op ms ∧
          SInvFl F.R cfg.kt g D (fun x => if x = n.name then (stepOpFl F cfg k ins n.name n.ty n.op ms (st n.name)).2 else st x) := by
        rcases stepOpFl_cases F cfg k ins n.name n.ty n.op ms (st n.name) with ⟨q, a, x, f, m, b, t, ho, rfl⟩ | h
        · obtain ⟨h1, h2, h3⟩ := stepOpFl_conv (F := F) (cfg := cfg) (k := k) (ins := ins) (nm := n.name) (ty := n.ty) (x := x) (f := f)
            (m := m) (b := b) (t := t) (s := st n.name) ho
          rw [h1, h2]
          obtain ⟨h4, y, h5, h6⟩ := convNode_eq (kt := cfg.kt) hg hc he ho henv hm
          obtain ⟨h7, h8⟩ := stepBConvFl_spec (again := k.again n.name) (left := k.left n.name) (nm := n.name) (x := x)
            (hs n.name _ h4) (fun hk => hD hk pre n post he h3 env y x hpre h5 h6)
          refine ⟨h7, hs.update ?_⟩
          intro nd hnd
          rw [h4] at hnd
          cases hnd
          exact h8
        · rw [h]
          exact ⟨rfl, hs.update fun nd hnd => hs _ nd hnd⟩
      generalize stepOpFl F cfg k ins n.name n.ty n.op ms (st n.name) = w at key
      obtain ⟨o, s⟩ := w
      obtain ⟨k1, k2⟩ := key
      simp only at k1 k2
      rw [← k1]
      cases o with
      | ub => exact ⟨rfl, k2⟩
      | error => exact ⟨rfl, k2⟩
      | ok m =>
        refine ih (pre ++ [n]) _ _ (by rw [he]; simp) ?_ ?_ k2
        · rw [execNodesFl_append, hpre]
          simp only [Outcome.bind, execNodesFl, hm, ← k1]
        · intro c hcm hca v hcv hwf
          rcases List.mem_append.1 hcm with h | h
          · have hne : c.name ≠ n.name := by
              intro e
              have hnd := hg.1
              rw [he, List.map_append, List.map_cons] at hnd
              exact (List.nodup_append.1 hnd).2.2 _ (List.mem_map.2 ⟨c, h, rfl⟩) _ (by simp) e
            simp only [if_neg hne]
            exact henv c h hca v hcv hwf
          · have : c = n := by simpa using h
            subst this
            refine ⟨m, by simp, ?_⟩
            rw [hca] at hm
            cases hm
            rw [hcv] at k1
            exact execConst_eq hwf k1.symm

/-- **One inference** on any state with the invariant gives what it gives in a new interpreter. -/
theorem stepFl_spec {F : FlCfg} {cfg : Cfg} {k : Calls} {g : Graph} (hg : g.Ssa) (hc : g.ConstParams) {ins : List MVal}
    {D : Nat → InputDesc} (hD : cfg.kt = .indirect → g.InputsAtFl F cfg ins D) {st : State} (hs : SInvFl F.R cfg.kt g D st) :
    (g.stepFl F cfg k ins st).1 = g.execFl F cfg ins ∧ SInvFl F.R cfg.kt g D (g.stepFl F cfg k ins st).2 := by
  obtain ⟨h1, h2⟩ := stepNodesFl_spec (k := k) hg hc hD g.nodes [] (fun _ => Option.none) st rfl rfl
    (by intro c hc; cases hc) hs
  unfold Graph.stepFl Graph.execFl
  rw [← h1]
  generalize stepNodesFl F cfg k ins g.nodes (fun _ => Option.none) st = w at h2
  obtain ⟨o, s⟩ := w
  cases o with
  | ub => exact ⟨rfl, h2⟩
  | error => exact ⟨rfl, h2⟩
  | ok env => exact ⟨rfl, h2⟩

/-- The invariant holds after any history. -/
theorem sessionFl_inv {R : FlEnv} {kt : KernelType} {g : Graph} (hg : g.Ssa) (hc : g.ConstParams) {D : Nat → InputDesc} :
    ∀ (es : List EventFl) {st st' : State},
      (∀ F cfg k ins, EventFl.infer F cfg k ins ∈ es → kt = .indirect → g.InputsAtFl { F with R := R } { cfg with kt := kt } ins D) →
      SInvFl R kt g D st → g.sessionFl R kt es st = some st' → SInvFl R kt g D st'
  | [], st, st', _, hs, h => by cases h; exact hs
  | .prepare nm i left :: es, st, st', hD, hs, h => by
    have hD' := fun F cfg k ins hm => hD F cfg k ins (List.mem_cons_of_mem _ hm)
    unfold Graph.sessionFl at h
    split at h
    · exact sessionFl_inv hg hc es hD' hs h
    · rename_i nd hnd
      have hi := (hs nm nd hnd).callPrepare (i := i) left (convNode_type hnd)
      generalize callPrepare nd i left (st nm) = w at h hi
      obtain ⟨o, s⟩ := w
      have hup : SInvFl R kt g D fun x => if x = nm then s else st x := hs.update (by
        intro nd' hnd'
        rw [hnd] at hnd'
        cases hnd'
        exact hi)
      cases o with
      | ub => cases h
      | error => exact sessionFl_inv hg hc es hD' hup h
      | ok _ => exact sessionFl_inv hg hc es hD' hup h
  | .infer F cfg k ins :: es, st, st', hD, hs, h => by
    have hD' := fun F cfg k ins hm => hD F cfg k ins (List.mem_cons_of_mem _ hm)
    unfold Graph.sessionFl at h
    have hst := stepFl_spec (F := { F with R := R }) (cfg := { cfg with kt := kt }) (k := k) hg hc (hD F cfg k ins (by simp)) hs
    generalize Graph.stepFl { F with R := R } { cfg with kt := kt } k g ins st = w at h hst
    obtain ⟨o, s⟩ := w
    cases o with
    | ub => cases h
    | error => exact sessionFl_inv hg hc es hD' hst.2 h
    | ok _ => exact sessionFl_inv hg hc es hD' hst.2 h

end Verif.Ir
