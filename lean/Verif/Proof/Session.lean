import Verif.Spec.SessionRel
import Verif.Props.History
import Verif.Props.Exec

/-! Inferences on the state that earlier calls left behind. -/

namespace Verif

/-- With the invariant, an inference computes what a new interpreter computes. -/
theorem output_fresh {n : Node} {a : Attrs} (ha : n.attrs = some a) {m f : Machine} (g : Good n a m)
    (hk : n.kt = .indirect → KernelFresh n a m.cur m.op) (hf : freshMachine n m.cur = some f) (c : RunCfg)
    (inp : List Word) (out : OutBuf) : output n c m inp out = output n c f inp out := by
  obtain ⟨gf, cf⟩ := resize_good (vals_new n a) hf
  by_cases hi : n.kt = .indirect
  · obtain ⟨r, hr, hp⟩ := g.prepared
    have hfm : f = { op := { OpData.new with p := r.p, setupDone := false }, cur := m.cur } := by
      have : freshMachine n m.cur = some { op := { OpData.new with p := r.p, setupDone := false }, cur := m.cur } :=
        resize_eq_some.2 ⟨r, hr, rfl⟩
      rw [this] at hf
      exact (Option.some.inj hf).symm
    have hr' := hr
    rw [← cf] at hr'
    unfold output invoke
    simp only [ha, Option.bind_eq_bind, Option.bind_some]
    rw [setup_fresh g hr, setup_fresh gf hr']
    cases hv : setupVals n a.act r.p [] otNew with
    | none => rfl
    | some v =>
      simp only [Option.map_some, Option.bind_some, hi, Option.map_map]
      unfold evalIndirect
      subst hfm
      simp only [Option.bind_eq_bind, hp]
      rcases hk hi with hk | ⟨r', K, ot', pb', hr', hK, hv', hk'⟩
      · rw [hk]
        simp only [Option.map_bind, Function.comp_def, Option.map_some, OpData.new]
      · rw [hr] at hr'; cases hr'
        rw [hv] at hv'
        simp only [Option.some.injEq] at hv'
        subst hv'
        rw [hk']
        simp only [OpData.new, hK, Option.map_some, Option.bind_some, Option.map_bind, Function.comp_def]
  · exact output_congr ha hi g gf (by rw [cf]) c inp out

end Verif

namespace Verif.Ir

/-- The invariant of the state of a node. -/
structure NInv (nd : Verif.Node) (D : InputDesc) (s : NodeState) : Prop where
  last : ∀ l, s.last = some l → l.type = .int32 ∧ ∃ r, prepare nd l.desc = .ok r ∧ s.op.p = r.p ∧ r.outDims = l.outDims
  vals : ∀ a, nd.attrs = some a → Vals nd a s.op
  kernel : nd.kt = .indirect → ∀ a, nd.attrs = some a → KernelFresh nd a D s.op

theorem NInv.new (nd : Verif.Node) (D : InputDesc) : NInv nd D NodeState.new :=
  ⟨(by intro l h; cases h), fun a _ => vals_new nd a, fun _ _ _ => Or.inl rfl⟩

/-- The partial state after a failed `Prepare`. -/
theorem NInv.failed {nd : Verif.Node} {D : InputDesc} {s : NodeState} (h : NInv nd D s) (left : BConv) :
    NInv nd D ⟨{ s.op with p := left }, Option.none⟩ :=
  ⟨(by intro l h; cases h), fun a ha => ⟨(h.vals a ha).vals⟩, fun hk a ha => h.kernel hk a ha⟩

theorem NInv.prepared {nd : Verif.Node} {D i : InputDesc} {s : NodeState} (h : NInv nd D s) {r : Prepared}
    (hr : prepare nd i = .ok r) (hty : nd.inType = .int32) :
    NInv nd D ⟨{ s.op with p := r.p, setupDone := false }, some ⟨nd.inType, i, r.outDims⟩⟩ := by
  refine ⟨?_, fun a ha => ⟨?_⟩, fun hk a ha => h.kernel hk a ha⟩
  · intro l hl
    cases hl
    exact ⟨hty, r, hr, rfl, rfl⟩
  · rcases (h.vals a ha).vals with ⟨_, h2, h3⟩ | h
    · exact Or.inl ⟨rfl, h2, h3⟩
    · exact Or.inr h

theorem callPrepare_inv {nd : Verif.Node} {D i : InputDesc} {s : NodeState} (h : NInv nd D s) (left : BConv)
    (hty : nd.inType = .int32) : NInv nd D (callPrepare nd i left s).2 := by
  unfold callPrepare
  split
  · rename_i r hr
    exact h.prepared hr hty
  · exact h.failed left
  · exact h

/-- The node without its input. -/
theorem bconvNode_input {kt : KernelType} {q : Option (Rat × Int)} {a : BConvAttrs} {x f m b t : MVal}
    (h : (x.desc.map (·.type)).getD .other = .int32) :
    bconvNode kt q a x f m b t = bconvNode kt q a (.words [] []) f m b t := by
  simp only [bconvNode, h]
  rfl

theorem ensure_then {α : Type} (c : Bool) (f : Unit → Outcome α) :
    (Outcome.ensure c >>= f) = if c then f () else .error := by cases c <;> rfl

theorem prepare_wrong_type {nd : Verif.Node} {i : InputDesc} (h : nd.inType ≠ .int32) : prepare nd i = .error := by
  unfold prepare
  cases nd.attrs with
  | none => rfl
  | some a =>
    simp only
    rw [ensure_then]
    by_cases h1 : nd.nInputs = 5
    · rw [if_pos (by simpa using h1), ensure_then]
      by_cases h2 : i.dims.length = 4
      · rw [if_pos (by simpa using h2), ensure_then]
        by_cases h3 : nd.filter.dims.length = 4
        · rw [if_pos (by simpa using h3), ensure_then, if_neg (by simpa using h)]
        · rw [if_neg (by simpa using h3)]
      · rw [if_neg (by simpa using h2)]
    · rw [if_neg (by simpa using h1)]

theorem KernelFresh.after {n : Verif.Node} {a : Attrs} (ha : n.attrs = some a) (hk : n.kt = .indirect) {m : Machine}
    (g : Good n a m) (hf : KernelFresh n a m.cur m.op) {c : RunCfg} {inp : List Word} {out : OutBuf} {x : Machine × OutBuf}
    (h : invoke n c m inp out = some x) : KernelFresh n a m.cur x.1.op := by
  obtain ⟨_, _, h3⟩ := keeps_good ha hk m.cur [.invoke c inp out] (m' := x.1) (by intro k hk; simp at hk; subst hk; trivial) g rfl hf
    (by simp only [runHistory, h]; rfl)
  exact h3

/-- `Eval` on a prepared node with the invariant. -/
theorem eval_step {cfg : Cfg} {nm : Nat} {q : Option (Rat × Int)} {a : BConvAttrs} {x f m b t : MVal} {s : NodeState}
    {D i : InputDesc} {r : Prepared}
    (hinv : NInv (bconvNode cfg.kt q a (.words [] []) f m b t) D s)
    (hr : prepare (bconvNode cfg.kt q a (.words [] []) f m b t) i = .ok r) (hp : s.op.p = r.p)
    (hD : cfg.kt = .indirect → i = D) (c : RunCfg) (inp : List Word) (out : OutBuf) :
    ((invoke (bconvNode cfg.kt q a (.words [] []) f m b t) c ⟨s.op, i⟩ inp out).map (·.2)
      = (freshMachine (bconvNode cfg.kt q a (.words [] []) f m b t) i).bind fun k =>
          output (bconvNode cfg.kt q a (.words [] []) f m b t) c k inp out) ∧
    ∀ k o, invoke (bconvNode cfg.kt q a (.words [] []) f m b t) c ⟨s.op, i⟩ inp out = some (k, o) →
      NInv (bconvNode cfg.kt q a (.words [] []) f m b t) D { s with op := k.op } := by
  generalize hnd : bconvNode cfg.kt q a (.words [] []) f m b t = nd at *
  have hkt : nd.kt = cfg.kt := by rw [← hnd]; rfl
  obtain ⟨a', _, ha, _⟩ := prepare_eq_ok.1 hr
  have g : Good nd a' ⟨s.op, i⟩ := ⟨hinv.vals a' ha, r, hr, hp⟩
  have hkf : nd.kt = .indirect → KernelFresh nd a' i s.op := by
    intro hk
    rw [hD (hkt ▸ hk)]
    exact hinv.kernel hk a' ha
  have hf : freshMachine nd i = some { op := { OpData.new with p := r.p, setupDone := false }, cur := i } :=
    resize_eq_some.2 ⟨r, hr, rfl⟩
  constructor
  · rw [hf, Option.bind_some]
    exact output_fresh ha g hkf hf c inp out
  · intro k o h
    obtain ⟨g', hc⟩ := invoke_good ha g h
    obtain ⟨r', hr', hp'⟩ := g'.prepared
    rw [hc] at hr'
    rw [hr] at hr'
    cases hr'
    refine ⟨?_, ?_, ?_⟩
    · intro l hl
      obtain ⟨h1, r', h2, h3, h4⟩ := hinv.last l hl
      exact ⟨h1, r', h2, by rw [← h3, hp]; exact hp', h4⟩
    · intro a'' ha''
      rw [ha] at ha''; cases ha''
      exact g'.toVals
    · intro hk a'' ha''
      rw [ha] at ha''; cases ha''
      have := KernelFresh.after ha hk g (hkf hk) h
      rw [← hD (hkt ▸ hk)]
      exact this

/-- **One BConv2D node on the state that earlier calls left behind** does what it does in a new interpreter. -/
theorem stepBConv_spec {cfg : Cfg} {again : Bool} {left : BConv} {nm : Nat} {q : Option (Rat × Int)} {a : BConvAttrs}
    {x f m b t : MVal} {s : NodeState} {D : InputDesc}
    (hinv : NInv (bconvNode cfg.kt q a (.words [] []) f m b t) D s)
    (hD : cfg.kt = .indirect → (⟨(x.desc.map (·.dims)).getD [], cfg.dyn nm, cfg.loc nm⟩ : InputDesc) = D) :
    (stepBConv cfg again left nm q a x f m b t s).1 = execBConv cfg nm q a x f m b t ∧
    NInv (bconvNode cfg.kt q a (.words [] []) f m b t) D (stepBConv cfg again left nm q a x f m b t s).2 := by
  have hty0 : (bconvNode cfg.kt q a (.words [] []) f m b t).inType = .int32 := rfl
  by_cases hx : (x.desc.map (·.type)).getD .other = .int32
  · have e : bconvNode cfg.kt q a x f m b t = bconvNode cfg.kt q a (.words [] []) f m b t := bconvNode_input hx
    unfold stepBConv execBConv
    simp only [e]
    generalize hi : (⟨(x.desc.map (·.dims)).getD [], cfg.dyn nm, cfg.loc nm⟩ : InputDesc) = i at *
    have hev := fun (s : NodeState) h (r : Prepared) hr hp => @eval_step cfg nm q a x f m b t s D i r h hr hp hD
    generalize hnd : bconvNode cfg.kt q a (.words [] []) f m b t = nd at *
    -- not calling Prepare needs a successful earlier call
    have hlast : (again || s.stale nd.inType i) = false → ∃ r, prepare nd i = .ok r ∧ s.op.p = r.p ∧
        (s.last.map (·.outDims)).getD [] = r.outDims := by
      intro h
      rw [Bool.or_eq_false_iff] at h
      have h := h.2
      unfold NodeState.stale at h
      split at h
      · cases h
      · rename_i l hl
        simp only [Bool.not_eq_false', Bool.and_eq_true, decide_eq_true_eq] at h
        obtain ⟨_, r, h1, h2, h3⟩ := hinv.last l hl
        rw [h.2] at h1
        exact ⟨r, h1, h2, by rw [hl]; exact h3.symm⟩
    cases hp : prepare nd i with
    | error =>
      have hst : (again || s.stale nd.inType i) = true := by
        by_contra hc
        obtain ⟨r, h1, _⟩ := hlast (by simpa using hc)
        rw [hp] at h1; cases h1
      rw [if_pos hst]
      unfold callPrepare
      rw [hp]
      exact ⟨rfl, hinv.failed left⟩
    | ub =>
      have hst : (again || s.stale nd.inType i) = true := by
        by_contra hc
        obtain ⟨r, h1, _⟩ := hlast (by simpa using hc)
        rw [hp] at h1; cases h1
      rw [if_pos hst]
      unfold callPrepare
      rw [hp]
      exact ⟨rfl, hinv⟩
    | ok r =>
      have hpr : ∃ s', (if (again || s.stale nd.inType i) = true then callPrepare nd i left s
          else (.ok ((s.last.map (·.outDims)).getD []), s)) = (.ok r.outDims, s') ∧ NInv nd D s' ∧ s'.op.p = r.p := by
        by_cases hst : (again || s.stale nd.inType i) = true
        · rw [if_pos hst]
          unfold callPrepare
          rw [hp]
          exact ⟨_, rfl, hinv.prepared hp hty0, rfl⟩
        · rw [if_neg hst]
          obtain ⟨r', h1, h2, h3⟩ := hlast (by simpa using hst)
          rw [hp] at h1; cases h1
          exact ⟨s, by rw [h3], hinv, h2⟩
      obtain ⟨s', h1, h2, h3⟩ := hpr
      rw [h1]
      simp only [Outcome.bind, h3]
      obtain ⟨e1, e2⟩ := hev s' h2 r hp h3 ⟨cfg.fat nm, cfg.blocks nm (if a.outBits = true then 32 else 1) r.p.cout
        (r.p.batches * r.p.outH * r.p.outW), roundHalfAway⟩ x.bits (if a.outBits = true then
          .w (buf (cfg.bufW nm) r.outDims.prod) else if q.isSome = true then
          .i ((buf (cfg.bufB nm) r.outDims.prod).map BitVec.toInt) else .f (buf (cfg.bufR nm) r.outDims.prod))
      rw [← e1]
      revert e2
      generalize invoke nd _ _ _ _ = I
      intro e2
      cases I with
      | none => exact ⟨rfl, h2⟩
      | some ko =>
        obtain ⟨k, o⟩ := ko
        cases o <;> exact ⟨rfl, e2 k _ rfl⟩
  · have hne : (bconvNode cfg.kt q a x f m b t).inType ≠ .int32 := hx
    have hpe := prepare_wrong_type (i := ⟨(x.desc.map (·.dims)).getD [], cfg.dyn nm, cfg.loc nm⟩) hne
    have hst : (again || s.stale (bconvNode cfg.kt q a x f m b t).inType
        ⟨(x.desc.map (·.dims)).getD [], cfg.dyn nm, cfg.loc nm⟩) = true := by
      rw [Bool.or_eq_true]
      right
      unfold NodeState.stale
      split
      · rfl
      · rename_i l hl
        have : l.type ≠ (bconvNode cfg.kt q a x f m b t).inType := by
          rw [(hinv.last l hl).1]; exact hne.symm
        simp [this]
    unfold stepBConv execBConv
    simp only
    rw [if_pos hst]
    unfold callPrepare
    rw [hpe]
    exact ⟨rfl, hinv.failed left⟩

end Verif.Ir
