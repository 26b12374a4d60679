import Verif.Model.SessionFl
import Verif.Proof.Session

/-! Inferences in floating-point arithmetic on the state that earlier calls left behind. -/

namespace Verif

theorem zpCacheWith_writeOnly {α : Type} (O : ZpOps α) (p : BConv) (filt : List Word) (mult : List α) :
    WriteOnly (fun cache => zpCacheWith O p filt mult cache) := by
  unfold zpCacheWith
  refine WriteOnly.forN _ fun y => WriteOnly.forN _ fun x => WriteOnly.forN _ fun oc => ?_
  refine WriteOnly.bindConst _ fun c => WriteOnly.forN _ fun dir => ?_
  exact WriteOnly.bindConst _ fun m => WriteOnly.wr _ _

/-- The values `OneTimeSetup` computes, given the old ones. -/
def setupValsFl (R : FlEnv) (n : Node) (act : Act) (p : BConv) (padBuf0 : List Rat) (ot0 : OTParams) :
    Option (List Rat × OTParams) := do
  let padBuf ← (if p.zeroPadding then
      zpCacheWith (ZpOps.fl R) p n.filtData n.multData (vresize padBuf0 (zpCacheSize p))
    else some padBuf0)
  let k ← chk32 ((p.filtH * p.filtW * (p.cin / p.groups) : Nat) : Int)
  let scale := if n.outType = .int8 then n.scale else 1
  let zp := if n.outType = .int8 then n.zp else 0
  let (m, b) ← otFuseFromFl R p k n.multData n.biasData scale zp
    (vresize ot0.multiplier (p.cout + 4)) (vresize ot0.bias (p.cout + 4))
  let (lo, hi) := activationRange act
  let lo := max lo (-1 * k)
  let hi := min hi k
  let cmin ← chk32 (-1 * hi + k)
  let cmax ← chk32 (-1 * lo + k)
  some (padBuf, ⟨cmin, cmax, m, b⟩)

theorem oneTimeSetupFl_eq (R : FlEnv) (n : Node) (act : Act) (st : OpData) :
    oneTimeSetupFl R n act st = (setupValsFl R n act st.p st.padBuf st.ot).map
      (fun v => { st with padBuf := v.1, ot := v.2, setupDone := true }) := by
  unfold oneTimeSetupFl setupValsFl
  generalize (if st.p.zeroPadding then _ else _ : Option (List Rat)) = o
  cases o with
  | none => rfl
  | some pb =>
    simp only [Option.bind_eq_bind, Option.bind_some]
    generalize chk32 ((st.p.filtH * st.p.filtW * (st.p.cin / st.p.groups) : Nat) : Int) = ok
    cases ok with
    | none => rfl
    | some k =>
      simp only [Option.bind_some]
      generalize otFuseFromFl _ _ _ _ _ _ _ _ _ = of
      cases of with
      | none => rfl
      | some mb =>
        simp only [Option.bind_some]
        generalize chk32 (_ : Int) = oc
        cases oc with
        | none => rfl
        | some cmin =>
          simp only [Option.bind_some]
          generalize chk32 (_ : Int) = oc2
          cases oc2 <;> rfl

theorem setupValsFl_congr (R : FlEnv) (n : Node) (act : Act) {p q : BConv} (h : SameFilter p q) (pb : List Rat) (ot : OTParams) :
    setupValsFl R n act p pb ot = setupValsFl R n act q pb ot := by
  obtain ⟨h1, h2, h3, h4, h5, h6, h7, h8, h9, h10⟩ := h
  cases p; cases q
  simp only at h1 h2 h3 h4 h5 h6 h7 h8 h9 h10
  subst h1 h2 h3 h4 h5 h6 h7 h8 h9 h10
  rfl

/-- What a successful run of the fusing loop leaves behind. -/
theorem otFuseFromFl_out {R : FlEnv} {p : BConv} {k : Int} {mult bias : List Rat} {scale zp : Rat} {m0 b0 m b : List Rat}
    (h : otFuseFromFl R p k mult bias scale zp m0 b0 = some (m, b)) :
    m.length = m0.length ∧ b.length = b0.length ∧
    ∀ i, i < p.cout → ∃ x y, rd mult i = some x ∧ rd bias i = some y ∧
      m[i]? = some (R.fl (R.dl (R.dl (-1 * x) / scale))) ∧
      b[i]? = some (R.fl (R.dl (R.dl (R.dl (y + R.dl ((k : Rat) * x)) / scale) + zp))) := by
  unfold otFuseFromFl at h
  have := forN_out (fun c (s : List Rat × List Rat) => s.1.length = m0.length ∧ s.2.length = b0.length ∧
    ∀ i, i < c → ∃ x y, rd mult i = some x ∧ rd bias i = some y ∧
      s.1[i]? = some (R.fl (R.dl (R.dl (-1 * x) / scale))) ∧
      s.2[i]? = some (R.fl (R.dl (R.dl (R.dl (y + R.dl ((k : Rat) * x)) / scale) + zp)))) h
    ⟨rfl, rfl, fun i hi => by omega⟩ ?_
  · exact this
  · rintro i ⟨s1, s2⟩ ⟨t1, t2⟩ hi ⟨l1, l2, hv⟩ hb
    simp only [Option.bind_eq_bind, Option.bind_eq_some_iff, wr_some, Option.some.injEq, Prod.mk.injEq] at hb
    obtain ⟨x, hx, y, hy, m', ⟨hm, rfl⟩, b', ⟨hb', rfl⟩, rfl, rfl⟩ := hb
    refine ⟨by simpa using l1, by simpa using l2, fun j hj => ?_⟩
    by_cases hji : j = i
    · subst hji
      refine ⟨x, y, hx, hy, ?_, ?_⟩
      · rw [List.getElem?_set_self hm]
      · rw [List.getElem?_set_self hb']
    · obtain ⟨x', y', e1, e2, e3, e4⟩ := hv j (by omega)
      refine ⟨x', y', e1, e2, ?_, ?_⟩
      · rw [List.getElem?_set_ne (fun e => hji e.symm)]; exact e3
      · rw [List.getElem?_set_ne (fun e => hji e.symm)]; exact e4

theorem otFuseFromFl_idem {R : FlEnv} {p : BConv} {k : Int} {mult bias : List Rat} {scale zp : Rat} {m0 b0 m b : List Rat}
    (h : otFuseFromFl R p k mult bias scale zp m0 b0 = some (m, b)) :
    otFuseFromFl R p k mult bias scale zp m b = some (m, b) := by
  obtain ⟨_, _, hv⟩ := otFuseFromFl_out h
  unfold otFuseFromFl
  obtain ⟨s', h1, h2⟩ := forN_inv (n := p.cout) (s := (m, b)) (body := fun i (s : List Rat × List Rat) => do
      let postMul ← rd mult i
      let postBias ← rd bias i
      let m ← wr s.1 i (R.fl (R.dl (R.dl (-1 * postMul) / scale)))
      let b ← wr s.2 i (R.fl (R.dl (R.dl (R.dl (postBias + R.dl ((k : Rat) * postMul)) / scale) + zp)))
      some (m, b)) (fun _ s => s = (m, b)) rfl (by
    rintro i s hi rfl
    obtain ⟨x, y, e1, e2, e3, e4⟩ := hv i hi
    have i1 : i < m.length := (List.getElem?_eq_some_iff.1 e3).1
    have i2 : i < b.length := (List.getElem?_eq_some_iff.1 e4).1
    refine ⟨_, ?_, rfl⟩
    simp only [e1, e2, Option.bind_eq_bind, Option.bind_some]
    rw [wr_some.2 ⟨i1, (set_same e3).symm⟩, Option.bind_some, wr_some.2 ⟨i2, (set_same e4).symm⟩]; rfl)
  subst h2
  exact h1

/-- Repeating the setup on its own result changes nothing. -/
theorem setupValsFl_again {R : FlEnv} {n : Node} {act : Act} {p : BConv} {pb0 pb : List Rat} {ot0 ot : OTParams}
    (h : setupValsFl R n act p pb0 ot0 = some (pb, ot)) : setupValsFl R n act p pb ot = some (pb, ot) := by
  unfold setupValsFl at h ⊢
  have hpad : ∀ {q : List Rat}, (if p.zeroPadding then
      zpCacheWith (ZpOps.fl R) p n.filtData n.multData (vresize pb0 (zpCacheSize p)) else some pb0) = some q →
      (if p.zeroPadding then zpCacheWith (ZpOps.fl R) p n.filtData n.multData (vresize q (zpCacheSize p)) else some q) = some q := by
    intro q hq
    split at hq
    · rename_i hz
      rw [if_pos hz]
      have hl := (zpCacheWith_writeOnly (ZpOps.fl R) p n.filtData n.multData).length hq
      rw [vresize_length] at hl
      rw [vresize_self hl]
      exact (zpCacheWith_writeOnly (ZpOps.fl R) p n.filtData n.multData).idem hq
    · rename_i hz
      rw [if_neg hz]
  simp only [Option.bind_eq_bind] at h ⊢
  obtain ⟨q, hq, h⟩ := Option.bind_eq_some_iff.1 h
  have hq' := hpad hq
  obtain ⟨k, hk, h⟩ := Option.bind_eq_some_iff.1 h
  obtain ⟨⟨m, b⟩, hmb, h⟩ := Option.bind_eq_some_iff.1 h
  simp only at h
  obtain ⟨cmin, hc1, h⟩ := Option.bind_eq_some_iff.1 h
  obtain ⟨cmax, hc2, h⟩ := Option.bind_eq_some_iff.1 h
  simp only [Option.some.injEq, Prod.mk.injEq] at h
  obtain ⟨rfl, rfl⟩ := h
  obtain ⟨l1, l2, _⟩ := otFuseFromFl_out hmb
  rw [vresize_length] at l1 l2
  rw [hq', Option.bind_some, hk, Option.bind_some, vresize_self l1, vresize_self l2,
    otFuseFromFl_idem hmb, Option.bind_some]
  simp only
  rw [hc1, Option.bind_some, hc2, Option.bind_some]

/-- The setup of a new `OpData`. -/
theorem setupValsFl_new (R : FlEnv) (n : Node) (act : Act) (p : BConv) :
    setupValsFl R n act p [] otNew = (zpSetupFl R p n.filtData n.multData).bind fun cache =>
      (otSetupFl R p act n.multData n.biasData (if n.outType = .int8 then n.scale else 1) (if n.outType = .int8 then n.zp else 0)).map
        fun t => (cache, t) := by
  unfold setupValsFl zpSetupFl otSetupFl otFuseFl otFuseFromFl otNew
  simp only [vresize_nil, Option.bind_eq_bind]
  generalize (if p.zeroPadding then _ else _ : Option (List Rat)) = o
  cases o with
  | none => rfl
  | some pb =>
    simp only [Option.bind_some]
    generalize chk32 ((p.filtH * p.filtW * (p.cin / p.groups) : Nat) : Int) = ok
    cases ok with
    | none => rfl
    | some k =>
      simp only [Option.bind_some]
      generalize forN _ _ _ = of
      cases of with
      | none => rfl
      | some mb =>
        simp only [Option.bind_some]
        generalize chk32 (_ : Int) = oc
        cases oc with
        | none => rfl
        | some cmin =>
          simp only [Option.bind_some]
          generalize chk32 (_ : Int) = oc2
          cases oc2 <;> rfl

/-- The values of the setup, if any, are those of a fresh setup. -/
structure ValsFl (R : FlEnv) (n : Node) (a : Attrs) (op : OpData) : Prop where
  vals : (op.setupDone = false ∧ op.padBuf = [] ∧ op.ot = otNew) ∨
    ∃ i r, prepare n i = .ok r ∧ setupValsFl R n a.act r.p [] otNew = some (op.padBuf, op.ot)

/-- The saved kernel, if any, is the one of the input `e`. -/
def KernelFreshFl (R : FlEnv) (n : Node) (a : Attrs) (e : InputDesc) (op : OpData) : Prop :=
  op.kernel = none ∨ ∃ r K ot pb, prepare n e = .ok r ∧ mkKernel r.p n.filtData = some K ∧
    setupValsFl R n a.act r.p [] otNew = some (pb, ot) ∧ op.kernel = some ⟨K, e.loc, ot⟩

/-- With the invariant, the state in which the kernel runs is the fresh one. -/
theorem setupFl_fresh {R : FlEnv} {n : Node} {a : Attrs} {op : OpData} (g : ValsFl R n a op) {i : InputDesc} {r : Prepared}
    (hr : prepare n i = .ok r) (hp : op.p = r.p) :
    (if op.setupDone then some op else oneTimeSetupFl R n a.act op) =
      (setupValsFl R n a.act r.p [] otNew).map
        (fun v => { op with padBuf := v.1, ot := v.2, setupDone := true }) := by
  rcases g.vals with ⟨h1, h2, h3⟩ | ⟨i, r', hi, hv⟩
  · rw [h1, oneTimeSetupFl_eq, h2, h3, hp]; simp [hp]
  · have hv' : setupValsFl R n a.act r.p [] otNew = some (op.padBuf, op.ot) := by
      rw [← hv]; exact setupValsFl_congr _ _ _ (prepare_sameFilter hr hi) _ _
    rw [hv']
    cases hd : op.setupDone with
    | true =>
      simp only [if_true, Option.map_some]
      rw [← hd]
    | false =>
      rw [oneTimeSetupFl_eq, hp, setupValsFl_again hv']
      simp [hp]

/-- What `Eval` writes, in a new interpreter. -/
def freshOutFl (R : FlEnv) (order : {α : Type} → List (Write α) → List (Write α)) (n : Node) (a : Attrs) (c : RunCfg) (p : BConv)
    (inp : List Word) (out : OutBuf) : Option OutBuf :=
  (setupValsFl R n a.act p [] otNew).bind fun v => match n.kt, out with
    | .reference, .f o => (bconvReference p inp n.filtData (v.2.runFloatFl R) o).map .f
    | .reference, .i o => (bconvReference p inp n.filtData (v.2.runInt8Fl R c.rnd) o).map .i
    | .bgemm, .f o => (bgemmTraces p c.fat c.blocks inp n.filtData (v.2.runFloatFl R)).bind fun trs =>
        (applyWrites (order trs.flatten) o).bind fun o => (zpFinishFl R p v.1 o).map .f
    | .bgemm, .i o => (bgemmTraces p c.fat c.blocks inp n.filtData (v.2.runInt8Fl R c.rnd)).bind fun trs =>
        (applyWrites (order trs.flatten) o).map .i
    | .indirect, .f o => (bconvIndirect p inp n.filtData (v.2.runFloatFl R) o).bind fun o => (zpFinishFl R p v.1 o).map .f
    | .indirect, .i o => (bconvIndirect p inp n.filtData (v.2.runInt8Fl R c.rnd) o).map .i
    | _, .w _ => none

/-- With the invariant, `Eval` writes what it writes in a new interpreter, and keeps the invariant. -/
theorem invokeFl_fresh {R : FlEnv} {order : {α : Type} → List (Write α) → List (Write α)} {n : Node} {a : Attrs}
    (ha : n.attrs = some a) {op : OpData} (g : ValsFl R n a op) {i : InputDesc} {r : Prepared}
    (hr : prepare n i = .ok r) (hp : op.p = r.p) (hk : n.kt = .indirect → KernelFreshFl R n a i op)
    (c : RunCfg) (inp : List Word) (out : OutBuf) :
    (invokeFl R order n c ⟨op, i⟩ inp out).map (·.2) = freshOutFl R order n a c r.p inp out ∧
    ∀ k o, invokeFl R order n c ⟨op, i⟩ inp out = some (k, o) →
      ValsFl R n a k.op ∧ k.op.p = r.p ∧ (n.kt = .indirect → KernelFreshFl R n a i k.op) := by
  obtain ⟨p, sd, ot0, pb0, kern⟩ := op
  replace hp : p = r.p := hp
  subst hp
  unfold invokeFl freshOutFl
  simp only [ha, Option.bind_eq_bind, Option.bind_some]
  rw [setupFl_fresh g hr rfl]
  cases hv : setupValsFl R n a.act r.p [] otNew with
  | none => exact ⟨rfl, fun k o h => by cases h⟩
  | some v =>
    have hvals : ValsFl R n a ⟨r.p, true, v.2, v.1, kern⟩ := ⟨Or.inr ⟨i, r, hr, hv⟩⟩
    simp only [Option.map_some, Option.bind_some]
    cases hkt : n.kt with
    | reference =>
      simp only
      unfold evalRefFl
      cases out with
      | f o =>
        simp only [Option.map_map]
        refine ⟨rfl, fun k o h => ?_⟩
        obtain ⟨y, _, h⟩ := Option.map_eq_some_iff.1 h
        cases h
        exact ⟨hvals, rfl, fun hc => by cases hc⟩
      | i o =>
        simp only [Option.map_map]
        refine ⟨rfl, fun k o h => ?_⟩
        obtain ⟨y, _, h⟩ := Option.map_eq_some_iff.1 h
        cases h
        exact ⟨hvals, rfl, fun hc => by cases hc⟩
      | w o => exact ⟨rfl, fun k o h => by cases h⟩
    | bgemm =>
      simp only
      unfold evalBGemmFl
      cases out with
      | f o =>
        simp only [Option.map_bind, Option.bind_eq_bind, Option.map_map]
        constructor
        · simp only [Function.comp_def, Option.map_bind, Option.map_map]
        · intro k o h
          obtain ⟨y, _, h⟩ := Option.bind_eq_some_iff.1 h
          simp only [Function.comp_apply, Option.map_bind] at h
          obtain ⟨z, _, h⟩ := Option.bind_eq_some_iff.1 h
          simp only [Function.comp_apply, Option.map_map] at h
          obtain ⟨w, _, h⟩ := Option.map_eq_some_iff.1 h
          cases h
          exact ⟨hvals, rfl, fun hc => by cases hc⟩
      | i o =>
        simp only [Option.map_bind, Option.bind_eq_bind, Option.map_map]
        constructor
        · simp only [Function.comp_def, Option.map_map]
        · intro k o h
          obtain ⟨y, _, h⟩ := Option.bind_eq_some_iff.1 h
          simp only [Function.comp_apply, Option.map_map] at h
          obtain ⟨w, _, h⟩ := Option.map_eq_some_iff.1 h
          cases h
          exact ⟨hvals, rfl, fun hc => by cases hc⟩
      | w o => exact ⟨rfl, fun k o h => by cases h⟩
    | indirect =>
      simp only
      unfold evalIndirectFl bconvIndirect
      simp only [Option.bind_eq_bind]
      have hkern : kern = none ∨ ∃ K, mkKernel r.p n.filtData = some K ∧ kern = some ⟨K, i.loc, v.2⟩ := by
        rcases hk hkt with hk | ⟨r', K, ot', pb', hr', hK, hv', hk'⟩
        · exact Or.inl hk
        · rw [hr] at hr'; cases hr'
          rw [hv] at hv'
          cases hv'
          exact Or.inr ⟨K, hK, hk'⟩
      cases hK : mkKernel r.p n.filtData with
      | none =>
        rcases hkern with rfl | ⟨K, hK', _⟩
        · refine ⟨?_, fun k o h => by cases h⟩
          cases out <;> rfl
        · rw [hK] at hK'; cases hK'
      | some K =>
        have hfin : ∀ {st : OpData}, st = (⟨r.p, true, v.2, v.1, some ⟨K, i.loc, v.2⟩⟩ : OpData) →
            ValsFl R n a st ∧ st.p = r.p ∧ (KernelType.indirect = .indirect → KernelFreshFl R n a i st) := by
          rintro st rfl
          exact ⟨⟨Or.inr ⟨i, r, hr, hv⟩⟩, rfl, fun _ => Or.inr ⟨r, K, v.2, v.1, hr, hK, hv, rfl⟩⟩
        have hkern' : kern = none ∨ kern = some ⟨K, i.loc, v.2⟩ := by
          rcases hkern with h | ⟨K', hK', h⟩
          · exact Or.inl h
          · rw [hK] at hK'; cases hK'; exact Or.inr h
        clear hkern hvals hk g
        rcases hkern' with rfl | rfl
        all_goals
          simp only [Option.map_some, Option.bind_some, if_true]
          cases out with
          | f o =>
            simp only [Option.bind_some]
            constructor
            · simp only [Option.map_bind, Function.comp_def, Option.map_some]
              cases iRun K inp (v.2.runFloatFl R) o with
              | none => rfl
              | some y =>
                simp only [Option.bind_some]
                cases zpFinishFl R r.p v.1 y <;> rfl
            · intro k o h
              obtain ⟨⟨st, y⟩, h2, e⟩ := Option.map_eq_some_iff.1 h
              obtain ⟨z, _, h3⟩ := Option.bind_eq_some_iff.1 h2
              have e3 := (congrArg Prod.fst (Option.some.inj h3)).symm
              have e4 := congrArg (fun w => (Prod.fst w).op) e
              simp only at e3 e4
              rw [← e4]
              exact ⟨(hfin e3).1, (hfin e3).2.1, fun _ => (hfin e3).2.2 rfl⟩
          | i o =>
            simp only [Option.bind_some]
            constructor
            · simp only [Option.map_bind, Function.comp_def, Option.map_some]
              cases iRun K inp (v.2.runInt8Fl R c.rnd) o <;> rfl
            · intro k o h
              obtain ⟨⟨st, y⟩, h2, e⟩ := Option.map_eq_some_iff.1 h
              obtain ⟨z, _, h3⟩ := Option.bind_eq_some_iff.1 h2
              have e3 := (congrArg Prod.fst (Option.some.inj h3)).symm
              have e4 := congrArg (fun w => (Prod.fst w).op) e
              simp only at e3 e4
              rw [← e4]
              exact ⟨(hfin e3).1, (hfin e3).2.1, fun _ => (hfin e3).2.2 rfl⟩
          | w o => exact ⟨rfl, fun k o h => by cases h⟩

end Verif

namespace Verif.Ir

theorem zpFinish_map {α β γ : Type} (o : Option α) (F : α → Option β) (f : β → γ) :
    (o.bind fun x => (F x).map f) = (o.bind F).map f := by cases o <;> rfl

/-- A float result of a new interpreter. -/
theorem freshOutFl_float {F : FlCfg} {nm : Nat} {kt : KernelType} {a : BConvAttrs} (hout : a.outBits = false) {f m b t : MVal}
    {a' : Attrs} (ha : (bconvNode kt Option.none a (.words [] []) f m b t).attrs = some a') (c : RunCfg) (p : BConv)
    (inp : List Word) (o : List Rat) :
    freshOutFl F.R (F.order nm) (bconvNode kt Option.none a (.words [] []) f m b t) a' c p inp (.f o) =
      (kernelFloatFl F kt nm c.fat c.blocks p a.act m.floats b.floats inp f.bits o).map .f := by
  have hact : a'.act = a.act := by
    simp only [bconvNode] at ha
    split at ha <;> cases ha
    rfl
  unfold freshOutFl
  rw [setupValsFl_new, hact]
  have e1 : (bconvNode kt Option.none a (.words [] []) f m b t).outType = .float32 := by simp [bconvNode, hout]
  rw [e1]
  have e2 : (bconvNode kt Option.none a (.words [] []) f m b t).filtData = f.bits := rfl
  have e3 : (bconvNode kt Option.none a (.words [] []) f m b t).multData = m.floats := rfl
  have e4 : (bconvNode kt Option.none a (.words [] []) f m b t).biasData = b.floats := rfl
  have e5 : (bconvNode kt Option.none a (.words [] []) f m b t).kt = kt := rfl
  rw [e2, e3, e4, e5]
  simp only [show ¬ (TType.float32 = TType.int8) by decide, if_false]
  unfold kernelFloatFl evalRefFloatFl evalBGemmFloatFl evalIndFloatFl
  cases kt
  all_goals
    simp only [Option.bind_eq_bind]
    cases zpSetupFl F.R p f.bits m.floats with
    | none => rfl
    | some cache =>
      cases otSetupFl F.R p a.act m.floats b.floats 1 0 with
      | none => rfl
      | some t =>
        simp only [Option.bind_some, Option.map_some]
        try simp only [zpFinish_map]

/-- An int8 result of a new interpreter. -/
theorem freshOutFl_int8 {F : FlCfg} {nm : Nat} {kt : KernelType} {sc : Rat} {z : Int} {a : BConvAttrs} (hout : a.outBits = false)
    {f m b t : MVal} {a' : Attrs} (ha : (bconvNode kt (some (sc, z)) a (.words [] []) f m b t).attrs = some a') {c : RunCfg}
    (hc : c.rnd = F.rnd) (p : BConv) (inp : List Word) (o : List Int) :
    freshOutFl F.R (F.order nm) (bconvNode kt (some (sc, z)) a (.words [] []) f m b t) a' c p inp (.i o) =
      (kernelInt8Fl F kt nm c.fat c.blocks p a.act m.floats b.floats sc z inp f.bits o).map .i := by
  have hact : a'.act = a.act := by
    simp only [bconvNode] at ha
    split at ha <;> cases ha
    rfl
  unfold freshOutFl
  rw [setupValsFl_new, hact]
  have e1 : (bconvNode kt (some (sc, z)) a (.words [] []) f m b t).outType = .int8 := by simp [bconvNode, hout]
  rw [e1]
  have e2 : (bconvNode kt (some (sc, z)) a (.words [] []) f m b t).filtData = f.bits := rfl
  have e3 : (bconvNode kt (some (sc, z)) a (.words [] []) f m b t).multData = m.floats := rfl
  have e4 : (bconvNode kt (some (sc, z)) a (.words [] []) f m b t).biasData = b.floats := rfl
  have e5 : (bconvNode kt (some (sc, z)) a (.words [] []) f m b t).kt = kt := rfl
  have e6 : (bconvNode kt (some (sc, z)) a (.words [] []) f m b t).scale = sc := rfl
  have e7 : (bconvNode kt (some (sc, z)) a (.words [] []) f m b t).zp = z := rfl
  rw [e2, e3, e4, e5, e6, e7, hc]
  simp only [if_true]
  unfold kernelInt8Fl evalRefInt8Fl
  cases kt
  all_goals
    simp only [Option.bind_eq_bind]
    cases zpSetupFl F.R p f.bits m.floats with
    | none => rfl
    | some cache =>
      cases otSetupFl F.R p a.act m.floats b.floats sc z with
      | none => rfl
      | some t =>
        simp only [Option.bind_some, Option.map_some]
        try simp only [zpFinish_map]

/-- The invariant of the state of a node with float or int8 result. -/
structure NInvF (R : FlEnv) (nd : Verif.Node) (D : InputDesc) (s : NodeState) : Prop where
  last : ∀ l, s.last = some l → l.type = .int32 ∧ ∃ r, prepare nd l.desc = .ok r ∧ s.op.p = r.p ∧ r.outDims = l.outDims
  vals : ∀ a, nd.attrs = some a → ValsFl R nd a s.op
  kernel : nd.kt = .indirect → ∀ a, nd.attrs = some a → KernelFreshFl R nd a D s.op

/-- The invariant of the state of a node: with binary result there is no floating-point arithmetic. -/
def NInvFl (R : FlEnv) (nd : Verif.Node) (D : InputDesc) (s : NodeState) : Prop :=
  (nd.outType = .int32 → NInv nd D s) ∧ (nd.outType ≠ .int32 → NInvF R nd D s)

theorem NInvF.new (R : FlEnv) (nd : Verif.Node) (D : InputDesc) : NInvF R nd D NodeState.new :=
  ⟨(by intro l h; cases h), fun _ _ => ⟨Or.inl ⟨rfl, rfl, rfl⟩⟩, fun _ _ _ => Or.inl rfl⟩

theorem NInvF.failed {R : FlEnv} {nd : Verif.Node} {D : InputDesc} {s : NodeState} (h : NInvF R nd D s) (left : BConv) :
    NInvF R nd D ⟨{ s.op with p := left }, Option.none⟩ :=
  ⟨(by intro l h; cases h), fun a ha => ⟨(h.vals a ha).vals⟩, fun hk a ha => h.kernel hk a ha⟩

theorem NInvF.prepared {R : FlEnv} {nd : Verif.Node} {D i : InputDesc} {s : NodeState} (h : NInvF R nd D s) {r : Prepared}
    (hr : prepare nd i = .ok r) (hty : nd.inType = .int32) :
    NInvF R nd D ⟨{ s.op with p := r.p, setupDone := false }, some ⟨nd.inType, i, r.outDims⟩⟩ := by
  refine ⟨?_, fun a ha => ⟨?_⟩, fun hk a ha => h.kernel hk a ha⟩
  · intro l hl
    cases hl
    exact ⟨hty, r, hr, rfl, rfl⟩
  · rcases (h.vals a ha).vals with ⟨_, h2, h3⟩ | h
    · exact Or.inl ⟨rfl, h2, h3⟩
    · exact Or.inr h

theorem NInvF.callPrepare {R : FlEnv} {nd : Verif.Node} {D i : InputDesc} {s : NodeState} (h : NInvF R nd D s) (left : BConv)
    (hty : nd.inType = .int32) : NInvF R nd D (callPrepare nd i left s).2 := by
  unfold Ir.callPrepare
  split
  · rename_i r hr
    exact h.prepared hr hty
  · exact h.failed left
  · exact h

theorem NInvFl.new (R : FlEnv) (nd : Verif.Node) (D : InputDesc) : NInvFl R nd D NodeState.new :=
  ⟨fun _ => NInv.new nd D, fun _ => NInvF.new R nd D⟩

theorem NInvFl.callPrepare {R : FlEnv} {nd : Verif.Node} {D i : InputDesc} {s : NodeState} (h : NInvFl R nd D s) (left : BConv)
    (hty : nd.inType = .int32) : NInvFl R nd D (callPrepare nd i left s).2 :=
  ⟨fun ho => callPrepare_inv (h.1 ho) left hty, fun ho => (h.2 ho).callPrepare left hty⟩

/-- `Eval` on a prepared node with the invariant. -/
theorem evalFl_step {R : FlEnv} {order : {α : Type} → List (Write α) → List (Write α)} {nd : Verif.Node} {s : NodeState}
    {D i : InputDesc} {r : Prepared} (hinv : NInvF R nd D s) (hr : prepare nd i = .ok r) (hp : s.op.p = r.p)
    (hD : nd.kt = .indirect → i = D) (c : RunCfg) (inp : List Word) (out : OutBuf) :
    ∃ a, nd.attrs = some a ∧
    ((invokeFl R order nd c ⟨s.op, i⟩ inp out).map (·.2) = freshOutFl R order nd a c r.p inp out) ∧
    ∀ k o, invokeFl R order nd c ⟨s.op, i⟩ inp out = some (k, o) → NInvF R nd D { s with op := k.op } := by
  obtain ⟨a, _, ha, _⟩ := prepare_eq_ok.1 hr
  obtain ⟨h1, h2⟩ := invokeFl_fresh (order := order) ha (hinv.vals a ha) hr hp
    (fun hk => by rw [hD hk]; exact hinv.kernel hk a ha) c inp out
  refine ⟨a, ha, h1, fun k o h => ?_⟩
  obtain ⟨g1, g2, g3⟩ := h2 k o h
  refine ⟨?_, ?_, ?_⟩
  · intro l hl
    obtain ⟨q1, r', q2, q3, q4⟩ := hinv.last l hl
    exact ⟨q1, r', q2, by rw [← q3, hp]; exact g2, q4⟩
  · intro a'' ha''
    rw [ha] at ha''; cases ha''
    exact g1
  · intro hk a'' ha''
    rw [ha] at ha''; cases ha''
    rw [← hD hk]
    exact g3 hk

/-- **One BConv2D node on the state that earlier calls left behind**, in floating-point arithmetic, does what it does in a new
interpreter. -/
theorem stepBConvFl_spec {F : FlCfg} {cfg : Cfg} {again : Bool} {left : BConv} {nm : Nat} {q : Option (Rat × Int)} {a : BConvAttrs}
    {x f m b t : MVal} {s : NodeState} {D : InputDesc}
    (hinv : NInvFl F.R (bconvNode cfg.kt q a (.words [] []) f m b t) D s)
    (hD : cfg.kt = .indirect → (⟨(x.desc.map (·.dims)).getD [], cfg.dyn nm, cfg.loc nm⟩ : InputDesc) = D) :
    (stepBConvFl F cfg again left nm q a x f m b t s).1 = execBConvFl F cfg nm q a x f m b t ∧
    NInvFl F.R (bconvNode cfg.kt q a (.words [] []) f m b t) D (stepBConvFl F cfg again left nm q a x f m b t s).2 := by
  unfold stepBConvFl execBConvFl
  by_cases hout : a.outBits = true
  · rw [if_pos hout, if_pos hout]
    have ht : (bconvNode cfg.kt q a (.words [] []) f m b t).outType = .int32 := by simp [bconvNode, hout]
    obtain ⟨h1, h2⟩ := stepBConv_spec (again := again) (left := left) (hinv.1 ht) hD
    exact ⟨h1, fun _ => h2, fun h => absurd ht h⟩
  replace hout : a.outBits = false := by simpa using hout
  have htne : (bconvNode cfg.kt q a (.words [] []) f m b t).outType ≠ .int32 := by
    cases q <;> simp [bconvNode, hout]
  rw [if_neg (by simp [hout]), if_neg (by simp [hout])]
  replace hinv := hinv.2 htne
  suffices h : ∀ (P : Outcome MVal × NodeState) (E : Outcome MVal),
      (P.1 = E ∧ NInvF F.R (bconvNode cfg.kt q a (.words [] []) f m b t) D P.2) →
      (P.1 = E ∧ NInvFl F.R (bconvNode cfg.kt q a (.words [] []) f m b t) D P.2) by
    refine h _ _ ?_
    have hty0 : (bconvNode cfg.kt q a (.words [] []) f m b t).inType = .int32 := rfl
    by_cases hx : (x.desc.map (·.type)).getD .other = .int32
    · have e : bconvNode cfg.kt q a x f m b t = bconvNode cfg.kt q a (.words [] []) f m b t := bconvNode_input hx
      simp only [e]
      generalize hi : (⟨(x.desc.map (·.dims)).getD [], cfg.dyn nm, cfg.loc nm⟩ : InputDesc) = i at *
      have hlast : (again || s.stale (bconvNode cfg.kt q a (.words [] []) f m b t).inType i) = false →
          ∃ r, prepare (bconvNode cfg.kt q a (.words [] []) f m b t) i = .ok r ∧ s.op.p = r.p ∧
          (s.last.map (·.outDims)).getD [] = r.outDims := by
        intro h
        rw [Bool.or_eq_false_iff] at h
        have h := h.2
        unfold NodeState.stale at h
        split at h
        · cases h
        · rename_i l hl
          simp only [Bool.not_eq_false', Bool.and_eq_true, decide_eq_true_eq] at h
          obtain ⟨_, r, h1, h2, h3⟩ := hinv.last l hl
          rw [h.2] at h1
          exact ⟨r, h1, h2, by rw [hl]; exact h3.symm⟩
      cases hp : prepare (bconvNode cfg.kt q a (.words [] []) f m b t) i with
      | error =>
        have hst : (again || s.stale (bconvNode cfg.kt q a (.words [] []) f m b t).inType i) = true := by
          by_contra hc
          obtain ⟨r, h1, _⟩ := hlast (by simpa using hc)
          rw [hp] at h1; cases h1
        rw [if_pos hst]
        unfold Ir.callPrepare
        rw [hp]
        exact ⟨rfl, hinv.failed left⟩
      | ub =>
        have hst : (again || s.stale (bconvNode cfg.kt q a (.words [] []) f m b t).inType i) = true := by
          by_contra hc
          obtain ⟨r, h1, _⟩ := hlast (by simpa using hc)
          rw [hp] at h1; cases h1
        rw [if_pos hst]
        unfold Ir.callPrepare
        rw [hp]
        exact ⟨rfl, hinv⟩
      | ok r =>
        have hpr : ∃ s', (if (again || s.stale (bconvNode cfg.kt q a (.words [] []) f m b t).inType i) = true then
              Ir.callPrepare (bconvNode cfg.kt q a (.words [] []) f m b t) i left s
            else (.ok ((s.last.map (·.outDims)).getD []), s)) = (.ok r.outDims, s') ∧
            NInvF F.R (bconvNode cfg.kt q a (.words [] []) f m b t) D s' ∧ s'.op.p = r.p := by
          by_cases hst : (again || s.stale (bconvNode cfg.kt q a (.words [] []) f m b t).inType i) = true
          · rw [if_pos hst]
            unfold Ir.callPrepare
            rw [hp]
            exact ⟨_, rfl, hinv.prepared hp hty0, rfl⟩
          · rw [if_neg hst]
            obtain ⟨r', h1, h2, h3⟩ := hlast (by simpa using hst)
            rw [hp] at h1; cases h1
            exact ⟨s, by rw [h3], hinv, h2⟩
        obtain ⟨s', h1, h2, h3⟩ := hpr
        rw [h1]
        simp only [Outcome.bind, h3]
        obtain ⟨a', ha', e1, e2⟩ := evalFl_step (order := F.order nm) h2 hp h3 hD ⟨cfg.fat nm, cfg.blocks nm 1 r.p.cout
          (r.p.batches * r.p.outH * r.p.outW), F.rnd⟩ x.bits (if q.isSome = true then
            .i ((buf (cfg.bufB nm) r.outDims.prod).map BitVec.toInt) else .f (buf (cfg.bufR nm) r.outDims.prod))
        cases q with
        | none =>
          simp only [Option.isSome_none, Bool.false_eq_true, if_false] at e1 e2 ⊢
          rw [freshOutFl_float hout ha'] at e1
          revert e1 e2
          generalize invokeFl F.R _ _ _ _ _ _ = I
          intro e1 e2
          cases I with
          | none =>
            refine ⟨?_, h2⟩
            cases hk : kernelFloatFl F cfg.kt nm (cfg.fat nm) (cfg.blocks nm 1 r.p.cout (r.p.batches * r.p.outH * r.p.outW)) r.p a.act
              m.floats b.floats x.bits f.bits (buf (cfg.bufR nm) r.outDims.prod) with
            | none => rfl
            | some d => rw [hk] at e1; cases e1
          | some ko =>
            obtain ⟨k, o⟩ := ko
            cases hk : kernelFloatFl F cfg.kt nm (cfg.fat nm) (cfg.blocks nm 1 r.p.cout (r.p.batches * r.p.outH * r.p.outW)) r.p a.act
              m.floats b.floats x.bits f.bits (buf (cfg.bufR nm) r.outDims.prod) with
            | none => rw [hk] at e1; cases e1
            | some d =>
              rw [hk] at e1
              simp only [Option.map_some, Option.some.injEq] at e1
              subst e1
              exact ⟨rfl, e2 k _ rfl⟩
        | some sz =>
          obtain ⟨sc, z⟩ := sz
          simp only [Option.isSome_some, if_true] at e1 e2 ⊢
          rw [freshOutFl_int8 hout ha' rfl] at e1
          revert e1 e2
          generalize invokeFl F.R _ _ _ _ _ _ = I
          intro e1 e2
          cases I with
          | none =>
            refine ⟨?_, h2⟩
            cases hk : kernelInt8Fl F cfg.kt nm (cfg.fat nm) (cfg.blocks nm 1 r.p.cout (r.p.batches * r.p.outH * r.p.outW)) r.p a.act
              m.floats b.floats sc z x.bits f.bits ((buf (cfg.bufB nm) r.outDims.prod).map BitVec.toInt) with
            | none => rfl
            | some d => rw [hk] at e1; cases e1
          | some ko =>
            obtain ⟨k, o⟩ := ko
            cases hk : kernelInt8Fl F cfg.kt nm (cfg.fat nm) (cfg.blocks nm 1 r.p.cout (r.p.batches * r.p.outH * r.p.outW)) r.p a.act
              m.floats b.floats sc z x.bits f.bits ((buf (cfg.bufB nm) r.outDims.prod).map BitVec.toInt) with
            | none => rw [hk] at e1; cases e1
            | some d =>
              rw [hk] at e1
              simp only [Option.map_some, Option.some.injEq] at e1
              subst e1
              exact ⟨rfl, e2 k _ rfl⟩
    · have hne : (bconvNode cfg.kt q a x f m b t).inType ≠ .int32 := hx
      have hpe := prepare_wrong_type (i := ⟨(x.desc.map (·.dims)).getD [], cfg.dyn nm, cfg.loc nm⟩) hne
      have hst : (again || s.stale (bconvNode cfg.kt q a x f m b t).inType
          ⟨(x.desc.map (·.dims)).getD [], cfg.dyn nm, cfg.loc nm⟩) = true := by
        rw [Bool.or_eq_true]
        right
        unfold NodeState.stale
        split
        · rfl
        · rename_i l hl
          have : l.type ≠ (bconvNode cfg.kt q a x f m b t).inType := by
            rw [(hinv.last l hl).1]; exact hne.symm
          simp [this]
      simp only
      rw [if_pos hst]
      unfold Ir.callPrepare
      rw [hpe]
      exact ⟨rfl, hinv.failed left⟩
  rintro P E ⟨h1, h2⟩
  exact ⟨h1, fun h => absurd h htne, fun _ => h2⟩

end Verif.Ir
