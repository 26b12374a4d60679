import Verif.Proof.OpState
import Verif.Proof.ExecConv
import Verif.Props.Exec

/-! A BConv2D node which runs was given tensors of the types its kernel reads (C63): the type checks of `Prepare`
(bconv2d.cc:122-302) leave no tensor to be read as something it is not. -/

namespace Verif.Ir

/-- An int32 tensor, of packed words or of numbers, of a certain shape. -/
def MVal.IsInt32 (v : MVal) (P : List Nat → Prop) : Prop :=
  (∃ dims d, v = .words dims d ∧ P dims) ∨ ∃ t, v = .plain (.i t) ∧ P t.shape

/-- A float32 tensor of a certain shape. -/
def MVal.IsFloat (v : MVal) (P : List Nat → Prop) : Prop := ∃ t, v = .plain (.f t) ∧ P t.shape

theorem desc_int32 {v : MVal} {t : Verif.Tensor} (h : v.desc = some t) (ht : t.type = .int32) {P : List Nat → Prop}
    (hp : P t.dims) : v.IsInt32 P := by
  match v, h with
  | .words dims d, h => cases h; exact Or.inl ⟨_, _, rfl, hp⟩
  | .plain (.i x), h => cases h; exact Or.inr ⟨_, rfl, hp⟩
  | .plain (.f x), h => cases h; cases ht
  | .plain (.q x _ _), h => cases h; cases ht
  | .plain (.b x), h => cases h; cases ht
  | .plain (.s x), h => cases h; cases ht

theorem desc_float {v : MVal} {t : Verif.Tensor} (h : v.desc = some t) (ht : t.type = .float32) {P : List Nat → Prop}
    (hp : P t.dims) : v.IsFloat P := by
  match v, h with
  | .words dims d, h => cases h; cases ht
  | .plain (.i x), h => cases h; cases ht
  | .plain (.f x), h => cases h; exact ⟨_, rfl, hp⟩
  | .plain (.q x _ _), h => cases h; cases ht
  | .plain (.b x), h => cases h; cases ht
  | .plain (.s x), h => cases h; cases ht

theorem one_dim {l : List Nat} {c : Nat} (h : l.length = 1) (h' : l.getD 0 0 = c) : l = [c] := by
  match l, h with
  | [a], _ => cases h'; rfl

/-- A node which runs has an int32 input and filter of four dimensions each, and for float and int8 results a float
multiplier and bias, for bitpacked results int32 thresholds, with one value for every output channel. -/
theorem C63_checked_types {cfg : Cfg} {nm : Nat} {q : Option (Rat × Int)} {a : BConvAttrs} {x f m b t v : MVal}
    (h : execBConv cfg nm q a x f m b t = .ok v) :
    ∃ cout, x.IsInt32 (fun s => s.length = 4) ∧ f.IsInt32 (fun s => s.length = 4 ∧ s.getD 0 0 = cout) ∧
      (a.outBits = false → m.IsFloat (· = [cout]) ∧ b.IsFloat (· = [cout])) ∧
      (a.outBits = true → t.IsInt32 (· = [cout])) := by
  unfold execBConv at h
  obtain ⟨r, hr, -⟩ := (Outcome.bind_eq_ok (x := prepare _ _)).mp h
  obtain ⟨at', g, -, -, hx4, hf4, hxt, hft, -, -, -, hp, -⟩ := prepare_eq_ok.mp hr
  refine ⟨(bconvNode cfg.kt q a x f m b t).filter.dims.getD 0 0, ?_, ?_, ?_, ?_⟩
  · cases e : x.desc with
    | none => simp [bconvNode, e] at hxt
    | some d =>
      refine desc_int32 e ?_ ?_
      · simpa [bconvNode, e] using hxt
      · simpa [e] using hx4
  · cases e : f.desc with
    | none => simp [bconvNode, e] at hft
    | some d =>
      refine desc_int32 e ?_ ⟨?_, ?_⟩
      · simpa [bconvNode, e] using hft
      · simpa [bconvNode, e] using hf4
      · simp [bconvNode, e]
  · intro ho
    rcases prepParams_eq_ok.mp hp with ⟨h1, -⟩ | ⟨-, tm, tb, hm, hb, hmt, hbt, hm1, hb1, hmc, hbc⟩
    · exfalso
      have h1 : (if a.outBits then TType.int32 else if q.isSome then .int8 else .float32) = .int32 := h1
      rw [ho] at h1
      cases q <;> cases h1
    · exact ⟨desc_float hm hmt (one_dim hm1 hmc), desc_float hb hbt (one_dim hb1 hbc)⟩
  · intro ho
    rcases prepParams_eq_ok.mp hp with ⟨-, tt, ht, h1, htt, hc⟩ | ⟨h1, -⟩
    · exact desc_int32 ht htt (one_dim h1 hc)
    · exfalso
      apply h1
      change (if a.outBits then TType.int32 else _) = .int32
      rw [ho]; rfl

/-- An int32 tensor is read by its bits: numbers and packed words with the same bits are the same to the kernel, as the
input, the filter and the thresholds. -/
theorem C63_int32_by_bits (cfg : Cfg) (nm : Nat) (q : Option (Rat × Int)) (a : BConvAttrs) (m b : MVal)
    (dx df dt : List Nat) (x f t : List Word) :
    execBConv cfg nm q a (.plain (.i ⟨dx, x.map BitVec.toInt⟩)) (.plain (.i ⟨df, f.map BitVec.toInt⟩)) m b
        (.plain (.i ⟨dt, t.map BitVec.toInt⟩)) =
      execBConv cfg nm q a (.words dx x) (.words df f) m b (.words dt t) := by
  have e : ∀ l : List Word, (l.map BitVec.toInt).map (BitVec.ofInt 32) = l := by
    intro l
    simp [Function.comp_def]
  have en : bconvNode cfg.kt q a (.plain (.i ⟨dx, x.map BitVec.toInt⟩)) (.plain (.i ⟨df, f.map BitVec.toInt⟩)) m b
      (.plain (.i ⟨dt, t.map BitVec.toInt⟩)) = bconvNode cfg.kt q a (.words dx x) (.words df f) m b (.words dt t) := by
    unfold bconvNode
    simp only [MVal.desc, MVal.bits, MVal.ints, e]
  unfold execBConv
  rw [en]
  simp only [MVal.desc, MVal.bits, e]

/-- Did the node run? -/
def ran : Outcome MVal → Bool
  | .ok _ => true
  | _ => false

/-- A 1x1 convolution runs with a float multiplier and is refused with an int8 one. -/
example :
    (∃ v, execBConv (exCfg .reference false) 0 none ⟨⟨1, 1, 1, 1, .valid⟩, 0, 7, .none, false⟩ (.words [1, 1, 1, 1] [5#32])
      (.words [1, 1, 1, 1] [3#32]) (.plain (.f ⟨[1], [2]⟩)) (.plain (.f ⟨[1], [1]⟩)) (.plain .none) = .ok v) ∧
    ¬ ∃ v, execBConv (exCfg .reference false) 0 none ⟨⟨1, 1, 1, 1, .valid⟩, 0, 7, .none, false⟩ (.words [1, 1, 1, 1] [5#32])
      (.words [1, 1, 1, 1] [3#32]) (.plain (.q ⟨[1], [2]⟩ 1 0)) (.plain (.f ⟨[1], [1]⟩)) (.plain .none) = .ok v := by
  refine ⟨?_, fun ⟨v, h⟩ => ?_⟩
  · have h : ran (execBConv (exCfg .reference false) 0 none ⟨⟨1, 1, 1, 1, .valid⟩, 0, 7, .none, false⟩
      (.words [1, 1, 1, 1] [5#32]) (.words [1, 1, 1, 1] [3#32]) (.plain (.f ⟨[1], [2]⟩)) (.plain (.f ⟨[1], [1]⟩))
      (.plain .none)) = true := by decide +kernel
    revert h
    generalize execBConv _ _ _ _ _ _ _ _ _ = o
    intro h
    match o, h with
    | .ok v, _ => exact ⟨v, rfl⟩
  · obtain ⟨_, -, -, h1, -⟩ := C63_checked_types h
    obtain ⟨⟨t, ht, -⟩, -⟩ := h1 rfl
    cases ht

end Verif.Ir
