import Verif.Proof.IrKeeps
import Verif.Proof.ExecGraph
import Verif.Spec.SessionRel

/-! The parameters of convolutions are constants after constant folding. -/

namespace Verif.Ir

theorem Steps.closed (arm : Bool) {safe : List Val → Prop} {g g' : Graph} (hg : g.Ssa)
    (hp : g.ParamsFixed) (h : Steps (allRules arm) safe g g') : g'.ClosedParams := by
  have : g'.Ssa ∧ g'.ClosedParams := by
    induction h with
    | refl =>
      exact ⟨hg, hp⟩
    | step _ s ih =>
      exact ⟨step_ssa (allRules_local arm) ih.1 s, step_closed (allRules_local arm) (allRules_keeps arm) ih.1 s ih.2⟩
  exact this.2

theorem run_no_arg {o : Op} (h : ∀ k, o ≠ .arg k) (ins ins' : List Val) (ty : Option (List Nat)) (l : List Val) :
    o.run ins ty l = o.run ins' ty l := by
  unfold Op.run
  have : o.eval ins l = o.eval ins' l := by
    cases o <;> first
      | exact absurd rfl (h _)
      | (rcases l with _ | ⟨_, _ | ⟨_, _⟩⟩ <;> rfl)
  rw [this]

theorem folded_const {g : Graph} (hg : g.Ssa) (hf : g.Folded) {ins : List Val}
    (hdef : ∀ n ∈ g.nodes, ∃ v, runNodes ins g.nodes (fun _ => Option.none) n.name = some v) {C : Nat → Prop}
    (hC : ClosedSet g.nodes C) : ∀ (k : Nat) (pre post : List Node) (n : Node), pre.length = k → g.nodes = pre ++ n :: post →
      C n.name → n.args = [] ∧ ∃ v, n.op = .const v ∧ v.wf = true := by
  intro k
  induction k using Nat.strong_induction_on with
  | _ k ih =>
    intro pre post n hk he hc
    have hn : n ∈ g.nodes := by rw [he]; simp
    obtain ⟨m, hm, hmn, hma, hmc⟩ := hC _ hc
    have hmn' : m = n := by
      have h1 := lookIn_mem hg.1 hm
      rw [hmn, lookIn_mem hg.1 hn] at h1
      exact (Option.some.inj h1).symm
    subst hmn'
    obtain ⟨v, hv⟩ := hdef m hn
    rw [hg.scoped.defs ins hn] at hv
    unfold Node.eval at hv
    rw [Option.bind_eq_some_iff] at hv
    obtain ⟨l, hl, hrun⟩ := hv
    have hconst : ∀ a ∈ m.args, ∃ v, Ctx.constOf ⟨lookIn pre, g.uses⟩ a = some v ∧
        runNodes ins g.nodes (fun _ => Option.none) a = some v := by
      intro a ha
      have hp := hg.scoped.args pre m post he a ha
      obtain ⟨n', hn', rfl⟩ := List.mem_map.1 hp
      obtain ⟨q, q', rfl⟩ := List.append_of_mem hn'
      obtain ⟨h1, v', h2, _⟩ := ih q.length (by simp only [List.length_append, List.length_cons] at hk; omega) q
        (q' ++ m :: post) n' rfl (by rw [he]; simp) (hmc _ ha)
      have hnd : ((q ++ n' :: q').map (·.name)).Nodup := by
        have := hg.1
        rw [he, List.map_append] at this
        exact (List.nodup_append.1 this).1
      refine ⟨v', ?_, ?_⟩
      · unfold Ctx.constOf
        simp only
        rw [lookIn_mem hnd hn']
        obtain ⟨nm, o, as, ty⟩ := n'
        simp only at h1 h2
        subst h1 h2
        rfl
      · have hn'' : n' ∈ g.nodes := by rw [he]; simp
        obtain ⟨w, hw⟩ := hdef n' hn''
        have hd := hg.scoped.defs ins hn''
        rw [hw] at hd
        rw [hw]
        unfold Node.eval at hd
        rw [h1, h2] at hd
        have hd' := hd.symm
        rw [mapM_nil'] at hd'
        simp only [Option.bind_some] at hd'
        obtain ⟨e, _⟩ := run_some_iff.1 hd'
        exact e.symm
    have hmap : m.args.mapM (Ctx.constOf ⟨lookIn pre, g.uses⟩) = some l := by
      rw [← hl]
      refine mapM_congr' fun a ha => ?_
      obtain ⟨v, h1, h2⟩ := hconst a ha
      rw [h1, h2]
    have hfold := hf pre m post he
    have hop : ∃ u, m.op = .const u := by
      by_contra hne
      unfold ruleFold at hfold
      simp only at hfold
      split at hfold
      · rename_i k hk
        exact hma k hk
      · rename_i u hu
        exact hne ⟨u, hu⟩
      · rw [hmap] at hfold
        simp only [Option.bind_some] at hfold
        rw [run_no_arg hma [] ins, hrun] at hfold
        cases hfold
    obtain ⟨u, hu⟩ := hop
    rw [hu] at hrun
    obtain ⟨e, hw, _⟩ := run_some_iff.1 hrun
    cases l with
    | nil =>
      replace e : some u = some v := e
      cases e
      refine ⟨?_, _, hu, hw⟩
      cases ha : m.args with
      | nil => rfl
      | cons a as =>
        rw [ha, mapM_cons'] at hl
        cases h1 : runNodes ins g.nodes (fun _ => Option.none) a with
        | none => rw [h1] at hl; cases hl
        | some x => cases h2 : as.mapM (runNodes ins g.nodes fun _ => Option.none) with
          | none => rw [h1, h2] at hl; cases hl
          | some x => rw [h1, h2] at hl; cases hl
    | cons _ _ => cases e

theorem folded_params {g : Graph} (hg : g.Ssa) (hf : g.Folded) {ins : List Val}
    (hdef : ∀ n ∈ g.nodes, ∃ v, runNodes ins g.nodes (fun _ => Option.none) n.name = some v) (hc : g.ClosedParams) :
    g.ConstParams := by
  obtain ⟨C, hC, hP⟩ := hc
  intro n hn hb x hx
  obtain ⟨c, h1, rfl, _⟩ := hC x (hP n hn hb x hx)
  obtain ⟨pre, post, he⟩ := List.append_of_mem h1
  obtain ⟨h2, h3⟩ := folded_const hg hf hdef hC pre.length pre post c rfl he (hP n hn hb _ hx)
  exact ⟨c, h1, rfl, h2, h3⟩

end Verif.Ir
