import Verif.Proof.Setup
import Verif.Proof.IndirectBits

/-! Frame properties of the indirect kernel: a run that succeeds on some buffers does the same on longer ones. -/

namespace Verif

theorem rd_append {α : Type} {xs : List α} {i : Nat} {v : α} (x : List α) (h : rd xs i = some v) :
    rd (xs ++ x) i = some v := by
  unfold rd at h ⊢
  rw [List.getElem?_append_left (List.getElem?_eq_some_iff.1 h).1]; exact h

theorem wr_append {α : Type} {xs ys : List α} {i : Nat} {v : α} (t : List α) (h : wr xs i v = some ys) :
    wr (xs ++ t) i v = some (ys ++ t) := by
  unfold wr at h ⊢
  by_cases hi : i < xs.length
  · rw [if_pos hi] at h
    rw [if_pos (by rw [List.length_append]; omega)]
    cases h
    rw [List.set_append_left _ _ hi]
  · rw [if_neg hi] at h; cases h

theorem wr_length {α : Type} {xs ys : List α} {i : Nat} {v : α} (h : wr xs i v = some ys) : ys.length = xs.length := by
  unfold wr at h
  by_cases hi : i < xs.length
  · rw [if_pos hi] at h; cases h; simp
  · rw [if_neg hi] at h; cases h

/-- Simulation of loops. -/
theorem forN_sim {σ τ : Type} (R : σ → τ → Prop) {b1 : Nat → σ → Option σ} {b2 : Nat → τ → Option τ} :
    ∀ {n : Nat} {s s' : σ} {t : τ}, forN n b1 s = some s' → R s t →
      (∀ i s s1 t, i < n → R s t → b1 i s = some s1 → ∃ t1, b2 i t = some t1 ∧ R s1 t1) →
      ∃ t', forN n b2 t = some t' ∧ R s' t'
  | 0, s, s', t, h, h0, _ => by rw [forN_zero] at h; cases h; exact ⟨t, rfl, h0⟩
  | n + 1, s, s', t, h, h0, hs => by
    rw [forN_succ] at h
    cases hb : forN n b1 s with
    | none => rw [hb] at h; simp at h
    | some s1 =>
      rw [hb, Option.bind_some] at h
      obtain ⟨t1, e1, r1⟩ := forN_sim R (b2 := b2) hb h0 (fun i s s1 t hi => hs i s s1 t (by omega))
      obtain ⟨t2, e2, r2⟩ := hs n s1 s' t1 (by omega) r1 h
      exact ⟨t2, by rw [forN_succ, e1, Option.bind_some, e2], r2⟩

/-- Simulation of `do ... while` loops. -/
theorem doWhile_sim {σ τ : Type} (R : σ → τ → Prop) {c1 : σ → Bool} {c2 : τ → Bool} {b1 : σ → Option σ}
    {b2 : τ → Option τ} (hc : ∀ s t, R s t → c1 s = c2 t)
    (hb : ∀ s s1 t, R s t → b1 s = some s1 → ∃ t1, b2 t = some t1 ∧ R s1 t1) :
    ∀ (fuel : Nat) {s s' : σ} {t : τ}, doWhile c1 b1 fuel s = some s' → R s t →
      ∃ t', doWhile c2 b2 fuel t = some t' ∧ R s' t'
  | 0, _, _, _, h, _ => by simp [doWhile] at h
  | n + 1, s, s', t, h, h0 => by
    simp only [doWhile] at h ⊢
    obtain ⟨s1, e1, h⟩ := Option.bind_eq_some_iff.1 h
    obtain ⟨t1, e2, r1⟩ := hb s s1 t h0 e1
    rw [e2, Option.bind_some, ← hc s1 t1 r1]
    cases hcc : c1 s1 with
    | false =>
      rw [hcc] at h
      simp only [Bool.false_eq_true, if_false, Option.some.injEq] at h ⊢
      subst h
      exact ⟨t1, rfl, r1⟩
    | true =>
      rw [hcc] at h
      simp only [if_true] at h ⊢
      exact doWhile_sim R hc hb n h r1

theorem deref_append {inp zero : List Word} {q : Ptr} {v : Word} (x : List Word) (h : q.deref inp zero = some v) :
    q.deref (inp ++ x) zero = some v := by
  cases q with
  | inp o => exact rd_append x h
  | zero o => exact h

theorem iDepthStep_append {K : IKernel} {inp : List Word} {p0 p1 : Ptr} {d : Nat} {s s' : AccSt} (x : List Word)
    (h : iDepthStep K inp p0 p1 d s = some s') : iDepthStep K (inp ++ x) p0 p1 d s = some s' := by
  unfold iDepthStep at h ⊢
  simp only [Option.bind_eq_bind, Option.bind_eq_some_iff] at h ⊢
  obtain ⟨w0, e0, w1, e1, w2, e2, w3, e3, x0, f0, x1, f1, h⟩ := h
  exact ⟨w0, e0, w1, e1, w2, e2, w3, e3, x0, deref_append x f0, x1, deref_append x f1, h⟩

theorem iAccumulate_append {K : IKernel} {inp : List Word} {ind off w : Nat} {A : AccSt} (x : List Word)
    (h : iAccumulate K inp ind off w = some A) : iAccumulate K (inp ++ x) ind off w = some A := by
  unfold iAccumulate at h ⊢
  obtain ⟨t, e, r⟩ := forN_sim (fun s t : AccSt => s = t) (t := ⟨w, ⟨0, 0, 0, 0⟩, ⟨0, 0, 0, 0⟩⟩) h rfl (b2 := fun f s => do
    let ptr0 ← rd K.indirection (ind + 2 * f)
    let ptr1 ← rd K.indirection (ind + 2 * f + 1)
    forN (max 1 (K.inputDepth / K.groups)) (iDepthStep K (inp ++ x) (ptr0.add off) (ptr1.add off)) s) (by
      rintro f s s1 t _ rfl h
      simp only [Option.bind_eq_bind, Option.bind_eq_some_iff] at h ⊢
      obtain ⟨q0, e0, q1, e1, h⟩ := h
      obtain ⟨t, e, r⟩ := forN_sim (fun s t : AccSt => s = t) (t := s) h rfl
        (b2 := iDepthStep K (inp ++ x) (q0.add off) (q1.add off)) (by
          rintro i s s1 t _ rfl h
          exact ⟨s1, iDepthStep_append x h, rfl⟩)
      exact ⟨t, ⟨q0, e0, q1, e1, e⟩, r⟩)
  rw [e, ← r]

/-- The channel-loop state with a longer output. -/
def ChanSt.app {α : Type} (s : ChanSt α) (t : List α) : ChanSt α := { s with out := s.out ++ t }

theorem iStore_append {α : Type} {run : Nat → Nat → Option α} {acc c pos : Nat} {out out' : List α} (t : List α)
    (h : iStore run acc c pos out = some out') : iStore run acc c pos (out ++ t) = some (out' ++ t) := by
  unfold iStore at h ⊢
  simp only [Option.bind_eq_bind, Option.bind_eq_some_iff] at h ⊢
  obtain ⟨v, e, h⟩ := h
  exact ⟨v, e, wr_append t h⟩

theorem iStoreBlock_append {α : Type} {run : Nat → Nat → Option α} {A : AccSt} {s s' : ChanSt α} (t : List α)
    (h : iStoreBlock run A s = some s') : iStoreBlock run A (s.app t) = some (s'.app t) := by
  unfold iStoreBlock at h ⊢
  by_cases h4 : s.c + 4 ≤ s.groupEnd
  · rw [if_pos h4] at h
    rw [if_pos (show (s.app t).c + 4 ≤ (s.app t).groupEnd from h4)]
    simp only [Option.bind_eq_bind, Option.bind_eq_some_iff] at h ⊢
    obtain ⟨o1, e1, o2, e2, o3, e3, o4, e4, o5, e5, o6, e6, o7, e7, o8, e8, h⟩ := h
    refine ⟨_, iStore_append t e1, _, iStore_append t e2, _, iStore_append t e3, _, iStore_append t e4,
      _, iStore_append t e5, _, iStore_append t e6, _, iStore_append t e7, _, iStore_append t e8, ?_⟩
    cases h; rfl
  · rw [if_neg h4] at h
    rw [if_neg (show ¬ (s.app t).c + 4 ≤ (s.app t).groupEnd from h4)]
    simp only [Option.bind_eq_bind, Option.bind_eq_some_iff] at h ⊢
    obtain ⟨⟨s1, a1, a0⟩, h1, h⟩ := h
    refine ⟨⟨s1.app t, a1, a0⟩, ?_, ?_⟩
    · by_cases h2 : s.c + 2 ≤ s.groupEnd
      · rw [if_pos h2] at h1
        rw [if_pos (show (s.app t).c + 2 ≤ (s.app t).groupEnd from h2)]
        simp only [Option.bind_eq_some_iff] at h1 ⊢
        obtain ⟨o1, e1, o2, e2, o3, e3, o4, e4, h1⟩ := h1
        refine ⟨_, iStore_append t e1, _, iStore_append t e2, _, iStore_append t e3, _, iStore_append t e4, ?_⟩
        cases h1; rfl
      · rw [if_neg h2] at h1
        rw [if_neg (show ¬ (s.app t).c + 2 ≤ (s.app t).groupEnd from h2)]
        cases h1; rfl
    · dsimp only at h ⊢
      by_cases h2 : s1.c + 1 ≤ s1.groupEnd
      · rw [if_pos h2] at h
        rw [if_pos (show (s1.app t).c + 1 ≤ (s1.app t).groupEnd from h2)]
        simp only [Option.bind_eq_some_iff] at h ⊢
        obtain ⟨o1, e1, o2, e2, h⟩ := h
        refine ⟨_, iStore_append t e1, _, iStore_append t e2, ?_⟩
        cases h; rfl
      · rw [if_neg h2] at h
        rw [if_neg (show ¬ (s1.app t).c + 1 ≤ (s1.app t).groupEnd from h2)]
        cases h; rfl

theorem iChanStep_append {α : Type} {K : IKernel} {inp : List Word} {run : Nat → Nat → Option α} {ind : Nat}
    {s s' : ChanSt α} (x : List Word) (t : List α) (h : iChanStep K inp run ind s = some s') :
    iChanStep K (inp ++ x) run ind (s.app t) = some (s'.app t) := by
  unfold iChanStep at h ⊢
  simp only [Option.bind_eq_bind, Option.bind_eq_some_iff] at h ⊢
  obtain ⟨A, e1, s1, e2, h⟩ := h
  refine ⟨A, iAccumulate_append x e1, s1.app t, iStoreBlock_append t e2, ?_⟩
  by_cases hc : s1.c = s1.groupEnd
  · rw [if_pos hc] at h
    rw [if_pos (show (s1.app t).c = (s1.app t).groupEnd from hc)]
    cases h; rfl
  · rw [if_neg hc] at h
    rw [if_neg (show ¬ (s1.app t).c = (s1.app t).groupEnd from hc)]
    cases h; rfl

theorem iRun_append {α : Type} {K : IKernel} {inp : List Word} {run : Nat → Nat → Option α} {out out' : List α}
    (x : List Word) (t : List α) (h : iRun K inp run out = some out') :
    iRun K (inp ++ x) run (out ++ t) = some (out' ++ t) := by
  unfold iRun at h ⊢
  obtain ⟨o, e, r⟩ := forN_sim (fun s u : List α => u = s ++ t) (t := out ++ t) h rfl
    (b2 := fun t out => iTile K (inp ++ x) run K.numOutputPixels (2 * t) out) (by
      rintro i s s1 _ _ rfl h
      refine ⟨s1 ++ t, ?_, rfl⟩
      unfold iTile at h ⊢
      obtain ⟨c, hc, rfl⟩ := Option.map_eq_some_iff.1 h
      obtain ⟨c', e, r⟩ := doWhile_sim (fun (s u : ChanSt α) => u = s.app t)
        (c2 := fun s => decide (s.c < K.outputChannels)) (b2 := iChanStep K (inp ++ x) run (2 * i * K.filterSize))
        (by rintro s _ rfl; rfl) (by
          rintro s s1 _ rfl h
          exact ⟨_, iChanStep_append x t h, rfl⟩) _ hc rfl
      refine Option.map_eq_some_iff.2 ⟨c', e, ?_⟩
      rw [r]; rfl)
  rw [e, r]

/-! ### Bitpacked output -/

/-- The channel-loop state of the bitpacked kernel with a longer output. -/
def BitSt.app (s : BitSt) (t : List (BitVec 16)) : BitSt := { s with out := s.out ++ t }

theorem iAdvance_app (K : IKernel) (s : BitSt) (c0 c1 : Word) (w : Nat) (t : List (BitVec 16)) :
    iAdvance K { (s.app t) with w := w } c0 c1 = (iAdvance K { s with w := w } c0 c1).app t := by
  unfold iAdvance BitSt.app
  dsimp only
  split <;> rfl

theorem iAdvance_out (K : IKernel) (s : BitSt) (c0 c1 : Word) : (iAdvance K s c0 c1).out = s.out := by
  unfold iAdvance
  dsimp only
  split <;> rfl

theorem iBitStep_append {K : IKernel} {inp : List Word} {run : Nat → Nat → Option Bool} {ind : Nat}
    {s s' : BitSt} (x : List Word) (t : List (BitVec 16)) (h : iBitStep K inp run ind s = some s') :
    iBitStep K (inp ++ x) run ind (s.app t) = some (s'.app t) ∧ s'.out.length = s.out.length := by
  unfold iBitStep at h ⊢
  simp only [Option.bind_eq_bind, Option.bind_eq_some_iff] at h ⊢
  obtain ⟨A, e1, c0, e2, c1, e3, h⟩ := h
  have hl : (iAdvance K { s with w := A.w } c0 c1).out.length = s.out.length := by rw [iAdvance_out]
  by_cases hc : (iAdvance K { s with w := A.w } c0 c1).c % 16 < s.c % 16
  · rw [if_pos hc] at h
    simp only [Option.bind_eq_some_iff] at h
    obtain ⟨o1, f1, o2, f2, h⟩ := h
    refine ⟨⟨A, iAccumulate_append x e1, c0, e2, c1, e3, ?_⟩, ?_⟩
    · rw [iAdvance_app]
      rw [if_pos (show ((iAdvance K { s with w := A.w } c0 c1).app t).c % 16 < (s.app t).c % 16 from hc)]
      simp only [Option.bind_eq_some_iff]
      refine ⟨_, wr_append t f1, _, wr_append t f2, ?_⟩
      cases h; rfl
    · cases h
      show o2.length = _
      rw [wr_length f2, wr_length f1, hl]
  · rw [if_neg hc] at h
    refine ⟨⟨A, iAccumulate_append x e1, c0, e2, c1, e3, ?_⟩, ?_⟩
    · rw [iAdvance_app]
      rw [if_neg (show ¬ ((iAdvance K { s with w := A.w } c0 c1).app t).c % 16 < (s.app t).c % 16 from hc)]
      cases h; rfl
    · cases h; exact hl

theorem iBitRun_append {K : IKernel} {inp : List Word} {run : Nat → Nat → Option Bool} {out out' : List (BitVec 16)}
    (x : List Word) (t : List (BitVec 16)) (h : iBitRun K inp run out = some out') :
    iBitRun K (inp ++ x) run (out ++ t) = some (out' ++ t) ∧ out'.length = out.length := by
  unfold iBitRun at h ⊢
  obtain ⟨o, e, r⟩ := forN_sim (fun s u : List (BitVec 16) => u = s ++ t ∧ s.length = out.length) (t := out ++ t) h ⟨rfl, rfl⟩
    (b2 := fun t out => iBitTile K (inp ++ x) run K.numOutputPixels (2 * t) out) (by
      rintro i s s1 _ _ ⟨rfl, hl⟩ h
      refine ⟨s1 ++ t, ?_⟩
      unfold iBitTile at h ⊢
      simp only [Option.bind_eq_bind, Option.bind_eq_some_iff] at h ⊢
      obtain ⟨c, hc, h⟩ := h
      obtain ⟨c', e, r, hcl⟩ := doWhile_sim (fun (a u : BitSt) => u = a.app t ∧ a.out.length = s.length)
        (c2 := fun s => decide (s.c < K.outputChannels)) (b2 := iBitStep K (inp ++ x) run (2 * i * K.filterSize))
        (by rintro s _ ⟨rfl, _⟩; rfl) (by
          rintro s s1 _ ⟨rfl, hl⟩ h
          obtain ⟨e, l⟩ := iBitStep_append x t h
          exact ⟨_, e, rfl, by rw [l, hl]⟩) _ hc ⟨rfl, rfl⟩
      subst r
      by_cases h16 : K.outputChannels % 16 > 0
      · rw [if_pos h16] at h
        simp only [Option.bind_eq_some_iff] at h
        obtain ⟨o1, f1, f2⟩ := h
        refine ⟨⟨_, e, ?_⟩, ⟨trivial, ?_⟩⟩
        · rw [if_pos h16]
          simp only [Option.bind_eq_some_iff]
          exact ⟨_, wr_append t f1, wr_append t f2⟩
        · rw [wr_length f2, wr_length f1, hcl, hl]
      · rw [if_neg h16] at h
        refine ⟨⟨_, e, ?_⟩, ⟨trivial, ?_⟩⟩
        · rw [if_neg h16]; cases h; rfl
        · cases h; rw [hcl, hl])
  exact ⟨by rw [e, r.1], r.2⟩

theorem toHalves_append (a b : List Word) : toHalves (a ++ b) = toHalves a ++ toHalves b := by
  induction a with
  | nil => rfl
  | cons w ws ih => simp only [List.cons_append, toHalves, ih]

theorem ofHalves_toHalves (b : List Word) : ofHalves (toHalves b) = b := by
  induction b with
  | nil => rfl
  | cons w ws ih =>
    simp only [toHalves, ofHalves, ih, List.cons.injEq, and_true]
    apply BitVec.eq_of_getLsbD_eq
    intro i hi
    rw [BitVec.getLsbD_append]
    by_cases h : i < 16
    · simp [h]
    · simp [h, show i - 16 < 16 by omega, show 16 + (i - 16) = i by omega]

theorem ofHalves_append : ∀ (k : Nat) (a : List (BitVec 16)) (b : List Word), a.length = 2 * k →
    ofHalves (a ++ toHalves b) = ofHalves a ++ b
  | 0, a, b, h => by
    cases a with
    | nil => simp only [List.nil_append, ofHalves_toHalves]; rfl
    | cons _ _ => simp at h
  | k + 1, a, b, h => by
    match a, h with
    | lo :: hi :: hs, h =>
      have := ofHalves_append k hs b (by simp at h; omega)
      simp only [List.cons_append, ofHalves, this]
    | [_], h => simp at h; omega
    | [], h => simp at h

theorem iDispatchBits_append {K : IKernel} {inp : List Word} {run : Nat → Nat → Option Bool} {out out' : List Word}
    (x t : List Word) (h : iDispatchBits K inp run out = some out') :
    iDispatchBits K (inp ++ x) run (out ++ t) = some (out' ++ t) := by
  unfold iDispatchBits at h ⊢
  simp only [Option.bind_eq_bind, Option.bind_eq_some_iff] at h ⊢
  obtain ⟨o, e, h⟩ := h
  obtain ⟨hs, e2, rfl⟩ := Option.map_eq_some_iff.1 h
  refine ⟨o ++ t, ?_, ?_⟩
  · by_cases h32 : K.outputChannels % 32 ≠ 0
    · rw [if_pos h32] at e ⊢
      obtain ⟨u, e', r⟩ := forN_sim (fun s u : List Word => u = s ++ t) (t := out ++ t) e rfl
        (b2 := fun i out => wr out i 0#32) (by
          rintro i s s1 _ _ rfl h
          exact ⟨_, wr_append t h, rfl⟩)
      rw [e', r]
    · rw [if_neg h32] at e ⊢; cases e; rfl
  · obtain ⟨e3, l⟩ := iBitRun_append x (toHalves t) e2
    rw [toHalves_append, e3, Option.map_some]
    rw [ofHalves_append o.length hs t (by rw [l, toHalves_length])]

end Verif
