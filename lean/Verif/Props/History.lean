import Verif.Proof.Setup
import Verif.Spec.History
import Verif.Props.Prepare

/-! C20: any history of resizes and inferences is equivalent to a fresh interpreter, for the
reference and BGEMM kernels. -/

namespace Verif

/-- The empty output transform of a new `OpData`. -/
def otNew : OTParams := ⟨0, 0, [], []⟩

theorem runHistory_append (n : Node) : ∀ (h k : List Call) (m : Machine),
    runHistory n (h ++ k) m = (runHistory n h m).bind (runHistory n k)
  | [], _, _ => rfl
  | .resize i :: h, k, m => by
    simp only [List.cons_append, runHistory]
    cases resize n i m with
    | none => rfl
    | some m1 => exact runHistory_append n h k m1
  | .invoke c inp out :: h, k, m => by
    simp only [List.cons_append, runHistory]
    cases invoke n c m inp out with
    | none => rfl
    | some m1 => exact runHistory_append n h k m1.1

theorem resize_eq_some {n : Node} {i : InputDesc} {m m' : Machine} :
    resize n i m = some m' ↔ ∃ r, prepare n i = .ok r ∧
      m' = { op := { m.op with p := r.p, setupDone := false }, cur := i } := by
  unfold resize
  cases prepare n i with
  | ub => simp
  | error => simp
  | ok r => simp [eq_comm]

/-- The values of the setup, if any, are those of a fresh setup. -/
structure Vals (n : Node) (a : Attrs) (op : OpData) : Prop where
  vals : (op.setupDone = false ∧ op.padBuf = [] ∧ op.ot = otNew) ∨
    ∃ i r, prepare n i = .ok r ∧ setupVals n a.act r.p [] otNew = some (op.padBuf, op.ot)

/-- The invariant of histories. -/
structure Good (n : Node) (a : Attrs) (m : Machine) : Prop extends Vals n a m.op where
  prepared : ∃ r, prepare n m.cur = .ok r ∧ m.op.p = r.p

/-- With the invariant, the state in which the kernel runs is the fresh one. -/
theorem setup_fresh {n : Node} {a : Attrs} {m : Machine} (g : Good n a m) {r : Prepared}
    (hr : prepare n m.cur = .ok r) :
    (if m.op.setupDone then some m.op else oneTimeSetup n a.act m.op) =
      (setupVals n a.act r.p [] otNew).map
        (fun v => { m.op with padBuf := v.1, ot := v.2, setupDone := true }) := by
  obtain ⟨r', hr', hp⟩ := g.prepared
  rw [hr] at hr'; cases hr'
  rcases g.vals with ⟨h1, h2, h3⟩ | ⟨i, r', hi, hv⟩
  · rw [h1, oneTimeSetup_eq, h2, h3, hp]; simp [hp]
  · have hv' : setupVals n a.act r.p [] otNew = some (m.op.padBuf, m.op.ot) := by
      rw [← hv]; exact setupVals_congr _ _ (prepare_sameFilter hr hi) _ _
    rw [hv']
    cases hd : m.op.setupDone with
    | true =>
      simp only [if_true, Option.map_some]
      rw [← hd]
    | false =>
      rw [oneTimeSetup_eq, hp, setupVals_again hv']
      simp [hp]

/-- The state after the setup. -/
def afterSetup (n : Node) (a : Attrs) (m : Machine) : Option OpData :=
  if m.op.setupDone then some m.op else oneTimeSetup n a.act m.op

theorem afterSetup_good {n : Node} {a : Attrs} {m : Machine} (g : Good n a m) {st : OpData}
    (h : afterSetup n a m = some st) : Good n a { m with op := st } ∧ st.kernel = m.op.kernel ∧ st.p = m.op.p := by
  obtain ⟨r, hr, hp⟩ := g.prepared
  unfold afterSetup at h
  rw [setup_fresh g hr] at h
  obtain ⟨⟨pb, ot⟩, hv, rfl⟩ := Option.map_eq_some_iff.1 h
  exact ⟨⟨⟨Or.inr ⟨m.cur, r, hr, hv⟩⟩, ⟨r, hr, hp⟩⟩, rfl, rfl⟩

theorem invoke_good {n : Node} {a : Attrs} (ha : n.attrs = some a) {m : Machine} (g : Good n a m)
    {c : RunCfg} {inp : List Word} {out : OutBuf} {x : Machine × OutBuf} (h : invoke n c m inp out = some x) :
    Good n a x.1 ∧ x.1.cur = m.cur := by
  unfold invoke at h
  simp only [ha, Option.bind_eq_bind, Option.bind_some] at h
  obtain ⟨st, hst, h⟩ := Option.bind_eq_some_iff.1 h
  obtain ⟨g', _, _⟩ := afterSetup_good g hst
  cases hk : n.kt with
  | reference =>
    simp only [hk] at h
    obtain ⟨o, _, rfl⟩ := Option.map_eq_some_iff.1 h
    exact ⟨g', rfl⟩
  | bgemm =>
    simp only [hk] at h
    obtain ⟨o, _, rfl⟩ := Option.map_eq_some_iff.1 h
    exact ⟨g', rfl⟩
  | indirect =>
    simp only [hk] at h
    obtain ⟨⟨st', o⟩, he, rfl⟩ := Option.map_eq_some_iff.1 h
    unfold evalIndirect at he
    simp only [Option.bind_eq_bind, Option.bind_eq_some_iff, Option.some.injEq, Prod.mk.injEq] at he
    obtain ⟨sk, _, o', _, rfl, _⟩ := he
    exact ⟨⟨⟨g'.vals⟩, g'.prepared⟩, rfl⟩

theorem resize_good {n : Node} {a : Attrs} {m m' : Machine} {i : InputDesc} (g : Vals n a m.op)
    (h : resize n i m = some m') : Good n a m' ∧ m'.cur = i := by
  obtain ⟨r, hr, rfl⟩ := resize_eq_some.1 h
  refine ⟨⟨⟨?_⟩, ⟨r, hr, rfl⟩⟩, rfl⟩
  rcases g.vals with ⟨_, h2, h3⟩ | h
  · exact Or.inl ⟨rfl, h2, h3⟩
  · exact Or.inr h

theorem vals_new (n : Node) (a : Attrs) : Vals n a OpData.new := ⟨Or.inl ⟨rfl, rfl, rfl⟩⟩

theorem history_good {n : Node} {a : Attrs} (ha : n.attrs = some a) : ∀ (h : List Call) {m m' : Machine},
    Good n a m → runHistory n h m = some m' → Good n a m' ∧ m'.cur = currentDesc m.cur h
  | [], m, m', g, e => by simp only [runHistory, Option.some.injEq] at e; subst e; exact ⟨g, rfl⟩
  | .resize i :: h, m, m', g, e => by
    simp only [runHistory] at e
    obtain ⟨m1, h1, e⟩ := Option.bind_eq_some_iff.1 e
    obtain ⟨g1, c1⟩ := resize_good g.toVals h1
    obtain ⟨g2, c2⟩ := history_good ha h g1 e
    exact ⟨g2, by rw [c2, c1]; rfl⟩
  | .invoke c inp out :: h, m, m', g, e => by
    simp only [runHistory] at e
    obtain ⟨x, h1, e⟩ := Option.bind_eq_some_iff.1 e
    obtain ⟨g1, c1⟩ := invoke_good ha g h1
    obtain ⟨g2, c2⟩ := history_good ha h g1 e
    exact ⟨g2, by rw [c2, c1]; rfl⟩

/-- Two machines with the invariant and the same input description compute the same output
(reference and BGEMM kernels). -/
theorem output_congr {n : Node} {a : Attrs} (ha : n.attrs = some a) (hk : n.kt ≠ .indirect) {m m' : Machine}
    (g : Good n a m) (g' : Good n a m') (hc : m.cur = m'.cur) (c : RunCfg) (inp : List Word) (out : OutBuf) :
    output n c m inp out = output n c m' inp out := by
  obtain ⟨r, hr, hp⟩ := g.prepared
  obtain ⟨r', hr', hp'⟩ := g'.prepared
  have hrr : r = r' := by rw [hc, hr'] at hr; cases hr; rfl
  subst hrr
  unfold output invoke
  simp only [ha, Option.bind_eq_bind, Option.bind_some]
  rw [setup_fresh g hr, setup_fresh g' hr']
  cases hv : setupVals n a.act r.p [] otNew with
  | none => rfl
  | some v =>
    simp only [Option.map_some, Option.bind_some]
    cases hkt : n.kt with
    | indirect => exact absurd hkt hk
    | reference =>
      simp only [Option.map_map]
      have : evalRef n c { m.op with padBuf := v.1, ot := v.2, setupDone := true } inp out =
          evalRef n c { m'.op with padBuf := v.1, ot := v.2, setupDone := true } inp out := by
        unfold evalRef; simp only [hp, hp']
      rw [this]; rfl
    | bgemm =>
      simp only [Option.map_map]
      have : evalBGemm n c { m.op with padBuf := v.1, ot := v.2, setupDone := true } inp out =
          evalBGemm n c { m'.op with padBuf := v.1, ot := v.2, setupDone := true } inp out := by
        unfold evalBGemm; simp only [hp, hp']
      rw [this]; rfl

/-- **C20** for the reference and BGEMM kernels. After any history of resizes and inferences
(starting with the initial allocation), the next inference gives exactly what a newly created
interpreter with the current input shape gives. -/
theorem C20_history (n : Node) (hk : n.kt ≠ .indirect) (i0 : InputDesc) (h : List Call) (m : Machine)
    (hm : runHistory n (.resize i0 :: h) Machine.new = some m) :
    ∃ f, freshMachine n (currentDesc i0 h) = some f ∧
      ∀ c inp out, output n c m inp out = output n c f inp out := by
  simp only [runHistory] at hm
  obtain ⟨m0, h0, hm⟩ := Option.bind_eq_some_iff.1 hm
  obtain ⟨r0, hr0, _⟩ := resize_eq_some.1 h0
  obtain ⟨a, _, ha, _⟩ := prepare_eq_ok.1 hr0
  obtain ⟨g0, c0⟩ := resize_good (vals_new n a) h0
  obtain ⟨g, cm⟩ := history_good ha h g0 hm
  rw [c0] at cm
  obtain ⟨r, hr, hp⟩ := g.prepared
  rw [cm] at hr
  have hf : freshMachine n (currentDesc i0 h) =
      some { op := { OpData.new with p := r.p, setupDone := false }, cur := currentDesc i0 h } :=
    resize_eq_some.2 ⟨r, hr, rfl⟩
  refine ⟨_, hf, fun c inp out => ?_⟩
  obtain ⟨gf, cf⟩ := resize_good (vals_new n a) hf
  exact output_congr ha hk g gf (by rw [cm, cf]) c inp out

/-! ### The indirect kernel -/

/-- The saved kernel, if any, is the one of the current input. -/
def KernelFresh (n : Node) (a : Attrs) (e : InputDesc) (op : OpData) : Prop :=
  op.kernel = none ∨ ∃ r K ot pb, prepare n e = .ok r ∧ mkKernel r.p n.filtData = some K ∧
    setupVals n a.act r.p [] otNew = some (pb, ot) ∧ op.kernel = some ⟨K, e.loc, ot⟩

theorem keeps_good {n : Node} {a : Attrs} (ha : n.attrs = some a) (hk : n.kt = .indirect) (e : InputDesc) :
    ∀ (ks : List Call) {m m' : Machine}, (∀ k ∈ ks, k.keeps e) → Good n a m → m.cur = e →
      KernelFresh n a e m.op → runHistory n ks m = some m' →
      Good n a m' ∧ m'.cur = e ∧ KernelFresh n a e m'.op
  | [], m, m', _, g, hc, hf, h => by
    simp only [runHistory, Option.some.injEq] at h; subst h; exact ⟨g, hc, hf⟩
  | .resize i :: ks, m, m', hks, g, hc, hf, h => by
    simp only [runHistory] at h
    obtain ⟨m1, h1, h⟩ := Option.bind_eq_some_iff.1 h
    have hi : i = e := hks (.resize i) (by simp)
    subst hi
    obtain ⟨g1, c1⟩ := resize_good g.toVals h1
    refine keeps_good ha hk i ks (fun k hk => hks k (by simp [hk])) g1 c1 ?_ h
    obtain ⟨r, hr, rfl⟩ := resize_eq_some.1 h1
    exact hf
  | .invoke c inp out :: ks, m, m', hks, g, hc, hf, h => by
    simp only [runHistory] at h
    obtain ⟨x, h1, h⟩ := Option.bind_eq_some_iff.1 h
    obtain ⟨g1, c1⟩ := invoke_good ha g h1
    refine keeps_good ha hk e ks (fun k hk => hks k (by simp [hk])) g1 (c1.trans hc) ?_ h
    unfold invoke at h1
    simp only [ha, Option.bind_eq_bind, Option.bind_some, hk] at h1
    obtain ⟨st, hst, h1⟩ := Option.bind_eq_some_iff.1 h1
    obtain ⟨⟨st', o⟩, he, rfl⟩ := Option.map_eq_some_iff.1 h1
    unfold evalIndirect at he
    simp only [Option.bind_eq_bind, Option.bind_eq_some_iff, Option.some.injEq, Prod.mk.injEq] at he
    obtain ⟨sk, hsk, o', _, rfl, _⟩ := he
    obtain ⟨r, hr, hp⟩ := g.prepared
    rw [setup_fresh g hr] at hst
    obtain ⟨⟨pb, ot⟩, hv, rfl⟩ := Option.map_eq_some_iff.1 hst
    simp only at hsk
    rw [hc] at hr
    unfold KernelFresh
    right
    rcases hf with hf | ⟨r', K, ot', pb', hr', hK, hv', hk'⟩
    · rw [hf] at hsk
      obtain ⟨K, hK, rfl⟩ := Option.map_eq_some_iff.1 hsk
      rw [hp] at hK
      exact ⟨r, K, ot, pb, hr, hK, hv, by simp [hc]⟩
    · rw [hk'] at hsk
      simp only [Option.some.injEq] at hsk
      subst hsk
      exact ⟨r', K, ot', pb', hr', hK, hv', rfl⟩

theorem resizes_kernel {n : Node} {a : Attrs} : ∀ (rs : List Call) {m m' : Machine}, (∀ k ∈ rs, k.isResize) →
    Vals n a m.op → m.op.kernel = none → runHistory n rs m = some m' → Vals n a m'.op ∧ m'.op.kernel = none
  | [], m, m', _, g, hn, h => by
    simp only [runHistory, Option.some.injEq] at h; subst h; exact ⟨g, hn⟩
  | .resize i :: rs, m, m', hrs, g, hn, h => by
    simp only [runHistory] at h
    obtain ⟨m1, h1, h⟩ := Option.bind_eq_some_iff.1 h
    obtain ⟨g1, _⟩ := resize_good g h1
    refine resizes_kernel rs (fun k hk => hrs k (by simp [hk])) g1.toVals ?_ h
    obtain ⟨r, _, rfl⟩ := resize_eq_some.1 h1
    exact hn
  | .invoke c inp out :: _, _, _, hrs, _, _, _ => (hrs (.invoke c inp out) (by simp)).elim

/-- **C20**, partial, for the indirect BGEMM kernel: the claim holds when the input's shape and
buffer do not change after the first inference. Missing: resizes after the first inference, for
which the claim is false (`C20_indirect_stale_witness`, `C20_indirect_dangling_witness`): the
kernel object, with its indirection pointers and the output size, is created once and never
invalidated. -/
theorem C20_indirect_partial (n : Node) (hk : n.kt = .indirect) (e : InputDesc) (rs ks : List Call)
    (hrs : ∀ k ∈ rs, k.isResize) (hks : ∀ k ∈ ks, k.keeps e) (m : Machine)
    (hm : runHistory n (rs ++ .resize e :: ks) Machine.new = some m) :
    ∃ f, freshMachine n e = some f ∧ ∀ c inp out, output n c m inp out = output n c f inp out := by
  rw [runHistory_append] at hm
  obtain ⟨m0, h0, hm⟩ := Option.bind_eq_some_iff.1 hm
  simp only [runHistory] at hm
  obtain ⟨m1, h1, hm⟩ := Option.bind_eq_some_iff.1 hm
  obtain ⟨r, hr, _⟩ := resize_eq_some.1 h1
  obtain ⟨a, _, ha, _⟩ := prepare_eq_ok.1 hr
  obtain ⟨g0, k0⟩ := resizes_kernel rs hrs (vals_new n a) rfl h0
  obtain ⟨g1, c1⟩ := resize_good g0 h1
  have k1 : m1.op.kernel = none := by
    obtain ⟨_, _, rfl⟩ := resize_eq_some.1 h1
    exact k0
  obtain ⟨g, hc, hf⟩ := keeps_good ha hk e ks hks g1 c1 (Or.inl k1) hm
  have hfm : freshMachine n e = some { op := { OpData.new with p := r.p, setupDone := false }, cur := e } :=
    resize_eq_some.2 ⟨r, hr, rfl⟩
  refine ⟨_, hfm, fun c inp out => ?_⟩
  obtain ⟨gf, cf⟩ := resize_good (vals_new n a) hfm
  unfold output invoke
  simp only [ha, Option.bind_eq_bind, Option.bind_some]
  have hr' := hr
  rw [← hc] at hr'
  rw [setup_fresh g hr', setup_fresh gf hr]
  obtain ⟨r', hr'', hp⟩ := g.prepared
  rw [hr'] at hr''; cases hr''
  cases hv : setupVals n a.act r.p [] otNew with
  | none => rfl
  | some v =>
    simp only [Option.map_some, Option.bind_some, hk, Option.map_map]
    unfold evalIndirect
    simp only [Option.bind_eq_bind, hp, hc]
    rcases hf with hf | ⟨r', K, ot', pb', hr', hK, hv', hk'⟩
    · rw [hf]
      simp only [Option.map_bind, Function.comp_def, Option.map_some, OpData.new]
    · rw [hr] at hr'; cases hr'
      rw [hv] at hv'
      simp only [Option.some.injEq] at hv'
      subst hv'
      rw [hk']
      simp only [OpData.new, hK, Option.map_some, Option.bind_some, Option.map_bind, Function.comp_def]

/-- A 1 x 1 convolution with one input word and four output channels, indirect kernel. -/
def indirectNode : Node :=
  { kt := .indirect, attrs := some ⟨1, 1, 1, 1, .valid, 1, 32, .none⟩, nInputs := 5, inType := .int32,
    filter := ⟨.int32, [4, 1, 1, 1]⟩, filtData := [0#32, 0#32, 0#32, 0#32],
    mult := some ⟨.float32, [4]⟩, multData := [1, 1, 1, 1], bias := some ⟨.float32, [4]⟩,
    biasData := [0, 0, 0, 0], thr := none, thrData := [], outType := .float32, outAffine := false,
    scale := 1, zp := 0 }

/-- Half away from zero, for the witnesses. -/
def witCfg : RunCfg := ⟨false, [], fun _ => 0⟩

/-- The output of one inference after a history. -/
def outputAfter (n : Node) (h : List Call) (inp : List Word) (out : OutBuf) : Option OutBuf :=
  (runHistory n h Machine.new).bind (fun m => output n witCfg m inp out)

/-- A one-pixel input, at address 0. -/
def onePixel : InputDesc := ⟨[1, 1, 1, 1], false, 0⟩

/-- The same at another address. -/
def onePixelMoved : InputDesc := ⟨[1, 1, 1, 1], false, 1⟩

/-- A two-pixel input at the same address. -/
def twoPixels : InputDesc := ⟨[1, 1, 2, 1], false, 0⟩

/-- C20 fails for the indirect kernel when the input is enlarged after an inference: the second
pixel of the output is never written. -/
theorem C20_indirect_stale_witness :
    outputAfter indirectNode [.resize onePixel, .invoke witCfg [0#32] (.f [0, 0, 0, 0]), .resize twoPixels]
        [0#32, 0#32] (.f [7, 7, 7, 7, 7, 7, 7, 7]) = some (.f [32, 32, 32, 32, 7, 7, 7, 7]) ∧
    outputAfter indirectNode [.resize twoPixels] [0#32, 0#32] (.f [7, 7, 7, 7, 7, 7, 7, 7])
      = some (.f [32, 32, 32, 32, 32, 32, 32, 32]) := by
  constructor <;> decide +kernel

/-- C20 fails for the indirect kernel when the input buffer moves: the old address is read. -/
theorem C20_indirect_dangling_witness :
    outputAfter indirectNode [.resize onePixel, .invoke witCfg [0#32] (.f [0, 0, 0, 0]), .resize onePixelMoved]
        [0#32] (.f [7, 7, 7, 7]) = none ∧
    outputAfter indirectNode [.resize onePixelMoved] [0#32] (.f [7, 7, 7, 7]) = some (.f [32, 32, 32, 32]) := by
  constructor <;> decide +kernel

/-- A history in which the hypotheses of `C20_indirect_partial` hold, with its output. -/
example : outputAfter indirectNode [.resize onePixelMoved, .resize twoPixels,
    .invoke witCfg [0#32, 1#32] (.f [0, 0, 0, 0, 0, 0, 0, 0]), .resize twoPixels]
    [0#32, 1#32] (.f [7, 7, 7, 7, 7, 7, 7, 7]) = some (.f [32, 32, 32, 32, 30, 30, 30, 30]) := by
  decide +kernel

/-- A history for `C20_history`: the reference kernel after two resizes and an inference. -/
example : outputAfter { indirectNode with kt := .reference } [.resize onePixel,
    .invoke witCfg [0#32] (.f [0, 0, 0, 0]), .resize twoPixels]
    [0#32, 1#32] (.f [7, 7, 7, 7, 7, 7, 7, 7]) = some (.f [32, 32, 32, 32, 30, 30, 30, 30]) := by
  decide +kernel

end Verif
