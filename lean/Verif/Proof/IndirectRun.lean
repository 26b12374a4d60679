import Verif.Proof.Indirect

/-! The channel and pixel loops of the portable indirect BGEMM kernel, float / int8 output. -/

namespace Verif

open Finset

theorem iStore_fills {α : Type} {run : Nat → Nat → Option α} {a c pos : Nat} {s0 s : List α}
    {W : Nat → Prop} {g : Nat → α} (h : Fills s0 s W g) (hr : run a c = some (g pos))
    (hp : pos < s0.length) :
    ∃ s', iStore run a c pos s = some s' ∧ Fills s0 s' (fun i => W i ∨ i = pos) g := by
  unfold iStore
  rw [hr]
  exact h.write hp rfl

/-- Storing one block. -/
theorem iStoreBlock_eq {α : Type} {run : Nat → Nat → Option α} {A : AccSt} {s : ChanSt α}
    {s0 : List α} {W : Nat → Prop} {g : Nat → α} {m : Nat} (h : Fills s0 s.out W g)
    (hm : m = min 4 (s.groupEnd - s.c)) (hm1 : 1 ≤ m)
    (h0 : ∀ j, j < m → run (A.p0.get j) (s.c + j) = some (g (s.out0 + j)) ∧ s.out0 + j < s0.length)
    (h1 : ∀ j, j < m → run (A.p1.get j) (s.c + j) = some (g (s.out1 + j)) ∧ s.out1 + j < s0.length) :
    ∃ out, iStoreBlock run A s = some { s with out := out, out0 := s.out0 + m, out1 := s.out1 + m, c := s.c + m } ∧
      Fills s0 out (fun i => W i ∨ ∃ j, j < m ∧ (i = s.out0 + j ∨ i = s.out1 + j)) g := by
  unfold iStoreBlock
  by_cases c4 : s.c + 4 ≤ s.groupEnd
  · have m4 : m = 4 := by omega
    subst m4
    rw [if_pos c4]
    obtain ⟨o1, e1, f1⟩ := iStore_fills h (h1 0 (by omega)).1 (h1 0 (by omega)).2
    obtain ⟨o2, e2, f2⟩ := iStore_fills f1 (h1 1 (by omega)).1 (h1 1 (by omega)).2
    obtain ⟨o3, e3, f3⟩ := iStore_fills f2 (h1 2 (by omega)).1 (h1 2 (by omega)).2
    obtain ⟨o4, e4, f4⟩ := iStore_fills f3 (h1 3 (by omega)).1 (h1 3 (by omega)).2
    obtain ⟨o5, e5, f5⟩ := iStore_fills f4 (h0 0 (by omega)).1 (h0 0 (by omega)).2
    obtain ⟨o6, e6, f6⟩ := iStore_fills f5 (h0 1 (by omega)).1 (h0 1 (by omega)).2
    obtain ⟨o7, e7, f7⟩ := iStore_fills f6 (h0 2 (by omega)).1 (h0 2 (by omega)).2
    obtain ⟨o8, e8, f8⟩ := iStore_fills f7 (h0 3 (by omega)).1 (h0 3 (by omega)).2
    simp only [Acc4.get, Nat.add_zero] at e1 e2 e3 e4 e5 e6 e7 e8
    refine ⟨o8, ?_, ?_⟩
    · simp only [e1, e2, e3, e4, e5, e6, e7, e8, Option.bind_eq_bind, Option.bind_some]
    · refine f8.congr ?_ (fun _ _ _ => rfl)
      intro i _
      constructor
      · rintro (hw | ⟨j, hj, hh⟩)
        · simp [hw]
        · have : j = 0 ∨ j = 1 ∨ j = 2 ∨ j = 3 := by omega
          rcases this with rfl | rfl | rfl | rfl <;> rcases hh with rfl | rfl <;> simp
      · rintro ((((((((hw | hw) | hw) | hw) | hw) | hw) | hw) | hw) | hw)
        · exact Or.inl hw
        · exact Or.inr ⟨0, by omega, Or.inr hw⟩
        · exact Or.inr ⟨1, by omega, Or.inr hw⟩
        · exact Or.inr ⟨2, by omega, Or.inr hw⟩
        · exact Or.inr ⟨3, by omega, Or.inr hw⟩
        · exact Or.inr ⟨0, by omega, Or.inl hw⟩
        · exact Or.inr ⟨1, by omega, Or.inl hw⟩
        · exact Or.inr ⟨2, by omega, Or.inl hw⟩
        · exact Or.inr ⟨3, by omega, Or.inl hw⟩
  · rw [if_neg c4]
    by_cases c2 : s.c + 2 ≤ s.groupEnd
    · rw [if_pos c2]
      obtain ⟨o1, e1, f1⟩ := iStore_fills h (h1 0 (by omega)).1 (h1 0 (by omega)).2
      obtain ⟨o2, e2, f2⟩ := iStore_fills f1 (h1 1 (by omega)).1 (h1 1 (by omega)).2
      obtain ⟨o5, e5, f5⟩ := iStore_fills f2 (h0 0 (by omega)).1 (h0 0 (by omega)).2
      obtain ⟨o6, e6, f6⟩ := iStore_fills f5 (h0 1 (by omega)).1 (h0 1 (by omega)).2
      simp only [Acc4.get, Nat.add_zero] at e1 e2 e5 e6
      simp only [e1, e2, e5, e6, Option.bind_eq_bind, Option.bind_some]
      by_cases c3 : s.c + 2 + 1 ≤ s.groupEnd
      · have m3 : m = 3 := by omega
        subst m3
        rw [if_pos c3]
        obtain ⟨o7, e7, f7⟩ := iStore_fills f6 (h1 2 (by omega)).1 (h1 2 (by omega)).2
        obtain ⟨o8, e8, f8⟩ := iStore_fills f7 (h0 2 (by omega)).1 (h0 2 (by omega)).2
        simp only [Acc4.get] at e7 e8
        refine ⟨o8, ?_, ?_⟩
        · simp only [e7, e8, Option.bind_some]
        · refine f8.congr ?_ (fun _ _ _ => rfl)
          intro i _
          constructor
          · rintro (hw | ⟨j, hj, hh⟩)
            · simp [hw]
            · have : j = 0 ∨ j = 1 ∨ j = 2 := by omega
              rcases this with rfl | rfl | rfl <;> rcases hh with rfl | rfl <;> simp
          · rintro ((((((hw | hw) | hw) | hw) | hw) | hw) | hw)
            · exact Or.inl hw
            · exact Or.inr ⟨0, by omega, Or.inr hw⟩
            · exact Or.inr ⟨1, by omega, Or.inr hw⟩
            · exact Or.inr ⟨0, by omega, Or.inl hw⟩
            · exact Or.inr ⟨1, by omega, Or.inl hw⟩
            · exact Or.inr ⟨2, by omega, Or.inr hw⟩
            · exact Or.inr ⟨2, by omega, Or.inl hw⟩
      · have m2 : m = 2 := by omega
        subst m2
        rw [if_neg c3]
        refine ⟨o6, rfl, ?_⟩
        refine f6.congr ?_ (fun _ _ _ => rfl)
        intro i _
        constructor
        · rintro (hw | ⟨j, hj, hh⟩)
          · simp [hw]
          · have : j = 0 ∨ j = 1 := by omega
            rcases this with rfl | rfl <;> rcases hh with rfl | rfl <;> simp
        · rintro ((((hw | hw) | hw) | hw) | hw)
          · exact Or.inl hw
          · exact Or.inr ⟨0, by omega, Or.inr hw⟩
          · exact Or.inr ⟨1, by omega, Or.inr hw⟩
          · exact Or.inr ⟨0, by omega, Or.inl hw⟩
          · exact Or.inr ⟨1, by omega, Or.inl hw⟩
    · have m1 : m = 1 := by omega
      subst m1
      rw [if_neg c2]
      simp only [Option.bind_eq_bind, Option.bind_some]
      rw [if_pos (by omega)]
      obtain ⟨o7, e7, f7⟩ := iStore_fills h (h1 0 (by omega)).1 (h1 0 (by omega)).2
      obtain ⟨o8, e8, f8⟩ := iStore_fills f7 (h0 0 (by omega)).1 (h0 0 (by omega)).2
      simp only [Acc4.get, Nat.add_zero] at e7 e8
      refine ⟨o8, ?_, ?_⟩
      · simp only [e7, e8, Option.bind_some]
      · refine f8.congr ?_ (fun _ _ _ => rfl)
        intro i _
        constructor
        · rintro (hw | ⟨j, hj, hh⟩)
          · simp [hw]
          · have : j = 0 := by omega
            subst this
            rcases hh with rfl | rfl <;> simp
        · rintro ((hw | hw) | hw)
          · exact Or.inl hw
          · exact Or.inr ⟨0, by omega, Or.inr hw⟩
          · exact Or.inr ⟨0, by omega, Or.inl hw⟩

/-- Position of block `blk` of group `g` in the channel loop. -/
structure BlockPos (p : BConv) (g blk : Nat) (w c depthOff groupEnd : Nat) : Prop where
  hg : g < p.groups
  hblk : blk < ceilDiv p.outPerGroup 4
  w : w = (g * ceilDiv p.outPerGroup 4 + blk) * (p.filtH * p.filtW) * p.filtDepth * 4
  c : c = g * p.outPerGroup + blk * 4
  off : depthOff = g * p.filtDepth
  gend : groupEnd = g * p.outPerGroup + p.outPerGroup

/-- One pixel-loop iteration. -/
theorem iTile_eq {α : Type} {K : IKernel} {p : BConv} {inp filt : List Word} (h : p.Dims inp filt)
    (hm : K.Made p filt) (hF : 1 ≤ p.filtH * p.filtW) (hD : 1 ≤ p.filtDepth) (hC : 1 ≤ p.cout)
    {run : Nat → Nat → Option α} {f : Nat → Nat → α}
    (hrun : ∀ oi c, oi < p.batches * p.outH * p.outW → c < p.cout →
      run (p.accPix inp filt oi c) c = some (f (p.accPix inp filt oi c) c))
    {s0 s : List α} (hlen : s0.length = p.batches * p.outH * p.outW * p.cout)
    {W : Nat → Prop} {t : Nat} (ht : t < ceilDiv (p.batches * p.outH * p.outW) 2)
    (hs : Fills s0 s W (fun i => f (p.accPix inp filt (i / p.cout) (i % p.cout)) (i % p.cout))) :
    ∃ s', iTile K inp run K.numOutputPixels (2 * t) s = some s' ∧
      Fills s0 s' (fun i => W i ∨ ∃ j, j < p.cout ∧ (i = 2 * t * p.cout + j ∨
          i = min (2 * t + 1) (p.batches * p.outH * p.outW - 1) * p.cout + j))
        (fun i => f (p.accPix inp filt (i / p.cout) (i % p.cout)) (i % p.cout)) := by
  set n := p.batches * p.outH * p.outW with hn
  set G : Nat → α := fun i => f (p.accPix inp filt (i / p.cout) (i % p.cout)) (i % p.cout) with hG
  have htn : t * 2 < n := lt_of_lt_ceilDiv (by omega) ht
  set q := min (2 * t + 1) (n - 1) with hq
  have hqn : q < n := by omega
  have hopg : p.groups * p.outPerGroup = p.cout :=
    Nat.mul_div_cancel' (Nat.dvd_of_mod_eq_zero h.cout_div)
  have hopg1 : 1 ≤ p.outPerGroup := by
    rcases Nat.eq_zero_or_pos p.outPerGroup with h0 | h0
    · rw [h0] at hopg; omega
    · exact h0
  have hDe : K.inputDepth / K.groups = p.filtDepth := by
    rw [hm.inputDepth, hm.groups, h.depth, Nat.mul_div_cancel_left _ h.groups_pos]
  have hCe : K.outputChannels / K.groups = p.outPerGroup := by
    rw [hm.outputChannels, hm.groups]; rfl
  have ho1 : (if K.numOutputPixels < 2 * t + 2 then 2 * t * K.outputChannels
      else 2 * t * K.outputChannels + K.outputChannels) = q * p.cout := by
    rw [hm.pixels, hm.outputChannels]
    change (if n < 2 * t + 2 then _ else _) = _
    split
    · have : q = 2 * t := by omega
      rw [this]
    · have : q = 2 * t + 1 := by omega
      rw [this]; ring
  unfold iTile
  simp only []
  rw [ho1, hCe]
  let I : ChanSt α → Prop := fun s =>
    (∃ g blk, BlockPos p g blk s.w s.c s.depthOff s.groupEnd) ∧
    s.out0 = 2 * t * p.cout + s.c ∧ s.out1 = q * p.cout + s.c ∧
    Fills s0 s.out (fun i => W i ∨ ∃ j, j < s.c ∧ (i = 2 * t * p.cout + j ∨ i = q * p.cout + j)) G
  let Q : ChanSt α → Prop := fun s =>
    Fills s0 s.out (fun i => W i ∨ ∃ j, j < p.cout ∧ (i = 2 * t * p.cout + j ∨ i = q * p.cout + j)) G
  have hNB0 : 0 < ceilDiv p.outPerGroup 4 := by
    have := ceilDiv_mul_ge (a := p.outPerGroup) (b := 4) (by omega)
    omega
  have hmain := doWhile_inv (cond := fun s : ChanSt α => decide (s.c < K.outputChannels))
    (body := iChanStep K inp run (2 * t * K.filterSize)) I Q (fun s => p.cout - s.c)
    (by
      rintro s ⟨⟨g, blk, hB⟩, hs0, hs1, hF'⟩
      obtain ⟨A, hA, hAw, hA0, hA1, hAv⟩ := block_acc h hm hF hD ht hB.hg hB.hblk
      have hblk4 : blk * 4 < p.outPerGroup := lt_of_lt_ceilDiv (by omega) hB.hblk
      have hgl : g * p.outPerGroup + p.outPerGroup ≤ p.cout := by
        rw [← hopg, ← Nat.succ_mul]
        exact Nat.mul_le_mul_right _ hB.hg
      have hc := hB.c
      have hge := hB.gend
      let m := min 4 (s.groupEnd - s.c)
      have hmdef : m = min 4 (s.groupEnd - s.c) := rfl
      have hval : ∀ oi j, oi < n → j < m →
          G (oi * p.cout + s.c + j) = f (p.accPix inp filt oi (g * p.outPerGroup + (blk * 4 + j))) (s.c + j)
          ∧ oi * p.cout + s.c + j < s0.length := by
        intro oi j hoi hj
        have hlt : s.c + j < p.cout := by omega
        have e : oi * p.cout + s.c + j = oi * p.cout + (s.c + j) := by omega
        rw [e]
        constructor
        · simp only [hG]
          rw [(div_mod_row hlt).1, (div_mod_row hlt).2]
          have : s.c + j = g * p.outPerGroup + (blk * 4 + j) := by omega
          rw [this]
        · rw [hlen]; exact row_lt hoi hlt
      obtain ⟨out, he, hf⟩ := iStoreBlock_eq (run := run) (A := A) (s := { s with w := A.w }) (m := m)
        (s0 := s0) hF' hmdef (by simp only [hmdef]; omega)
        (by
          intro j hj
          obtain ⟨v, hl⟩ := hval (2 * t) j (by omega) hj
          simp only [hs0]
          refine ⟨?_, hl⟩
          have e : s.c + j = g * p.outPerGroup + (blk * 4 + j) := by omega
          rw [v, (hAv j (by omega) (by omega)).1, e]
          exact hrun _ _ (by omega) (by omega))
        (by
          intro j hj
          obtain ⟨v, hl⟩ := hval q j hqn hj
          simp only [hs1]
          refine ⟨?_, hl⟩
          have e : s.c + j = g * p.outPerGroup + (blk * 4 + j) := by omega
          rw [v, (hAv j (by omega) (by omega)).2, e]
          exact hrun _ _ hqn (by omega))
      have hstep : iChanStep K inp run (2 * t * K.filterSize) s = some
          (if s.c + m = s.groupEnd then
            ⟨A.w, s.out0 + m, s.out1 + m, s.depthOff + p.filtDepth, s.groupEnd + p.outPerGroup, s.c + m, out⟩
           else ⟨A.w, s.out0 + m, s.out1 + m, s.depthOff, s.groupEnd, s.c + m, out⟩) := by
        have hA' : iAccumulate K inp (2 * t * K.filterSize) s.depthOff s.w = some A := by
          rw [hB.w, hB.off]; exact hA
        unfold iChanStep
        simp only [hA', Option.bind_eq_bind, Option.bind_some, he]
        rw [hDe, hCe]
        split <;> rfl
      have hFnew : Fills s0 out (fun i => W i ∨ ∃ j, j < s.c + m ∧
          (i = 2 * t * p.cout + j ∨ i = q * p.cout + j)) G := by
        refine hf.congr ?_ (fun _ _ _ => rfl)
        intro i _
        simp only [hs0, hs1]
        constructor
        · rintro (hw | ⟨j, hj, hh⟩)
          · exact Or.inl (Or.inl hw)
          · by_cases hjc : j < s.c
            · exact Or.inl (Or.inr ⟨j, hjc, hh⟩)
            · exact Or.inr ⟨j - s.c, by omega, by omega⟩
        · rintro ((hw | ⟨j, hj, hh⟩) | ⟨j, hj, hh⟩)
          · exact Or.inl hw
          · exact Or.inr ⟨j, by omega, hh⟩
          · exact Or.inr ⟨s.c + j, by omega, by omega⟩
      refine ⟨_, hstep, ?_, ?_⟩
      · intro hcond
        by_cases hend : s.c + m = s.groupEnd
        · rw [if_pos hend] at hcond ⊢
          simp only [hm.outputChannels, decide_eq_true_eq] at hcond
          have hg1 : g + 1 < p.groups := by
            by_contra hcon
            have : g + 1 = p.groups := by have := hB.hg; omega
            have e : (g + 1) * p.outPerGroup = p.cout := by rw [this, hopg]
            rw [Nat.succ_mul] at e
            omega
          have hlast : blk + 1 = ceilDiv p.outPerGroup 4 := by
            have h1 := hB.hblk
            have : p.outPerGroup ≤ (blk + 1) * 4 := by omega
            have := ceilDiv_le (b := 4) (by omega) this
            omega
          refine ⟨⟨⟨g + 1, 0, hg1, hNB0, ?_, ?_, ?_, ?_⟩, ?_, ?_, hFnew⟩, ?_⟩
          · simp only [hAw, hlast]; ring
          · simp only [hend, hge]; ring
          · simp only [hB.off]; ring
          · simp only [hge]; ring
          · simp only [hs0]; omega
          · simp only [hs1]; omega
          · simp only []; omega
        · rw [if_neg hend] at hcond ⊢
          have hm4 : m = 4 := by omega
          have hb1 : blk + 1 < ceilDiv p.outPerGroup 4 := by
            have := ceilDiv_mul_ge (a := p.outPerGroup) (b := 4) (by omega)
            omega
          refine ⟨⟨⟨g, blk + 1, hB.hg, hb1, hAw, ?_, hB.off, hB.gend⟩, ?_, ?_, hFnew⟩, ?_⟩
          · simp only []; omega
          · simp only [hs0]; omega
          · simp only [hs1]; omega
          · simp only []; omega
      · intro hcond
        have hcc : ¬ (s.c + m < p.cout) := by
          rw [hm.outputChannels] at hcond
          split at hcond <;> simpa using hcond
        have : s.c + m = p.cout := by omega
        rw [this] at hFnew
        split <;> exact hFnew)
    (K.outputChannels + 1)
    ⟨0, 2 * t * K.outputChannels, q * p.cout, 0, p.outPerGroup, 0, s⟩
    (by
      refine ⟨⟨0, 0, h.groups_pos, hNB0, by simp, by simp, by simp, by simp⟩, ?_, ?_, ?_⟩
      · simp only [hm.outputChannels]; rfl
      · rfl
      · exact hs.congr (by simp) (fun _ _ _ => rfl))
    (by rw [hm.outputChannels]; simp only []; omega)
  obtain ⟨s', h1, h2⟩ := hmain
  exact ⟨s'.out, by rw [h1]; rfl, h2⟩

/-- The whole kernel: every output element is the transform of its accumulator. -/
theorem bconvIndirect_eq {α : Type} {p : BConv} {inp filt : List Word} (h : p.Dims inp filt)
    (hF : 1 ≤ p.filtH * p.filtW) (hD : 1 ≤ p.filtDepth) (hC : 1 ≤ p.cout)
    {run : Nat → Nat → Option α} {f : Nat → Nat → α}
    (hrun : ∀ oi c, oi < p.batches * p.outH * p.outW → c < p.cout →
      run (p.accPix inp filt oi c) c = some (f (p.accPix inp filt oi c) c))
    {out0 : List α} (hlen : out0.length = p.batches * p.outH * p.outW * p.cout) :
    bconvIndirect p inp filt run out0 = some ((List.range out0.length).map
      (fun i => f (p.accPix inp filt (i / p.cout) (i % p.cout)) (i % p.cout))) := by
  obtain ⟨K, hK, hm⟩ := mkKernel_made h
  unfold bconvIndirect
  simp only [hK, Option.bind_eq_bind, Option.bind_some]
  unfold iRun
  rw [hm.pixels]
  obtain ⟨s', h1, h2⟩ := Fills.loop (s0 := out0) (s := out0) (n := ceilDiv (p.batches * p.outH * p.outW) 2)
    (W0 := fun _ => False) (f := fun i => f (p.accPix inp filt (i / p.cout) (i % p.cout)) (i % p.cout))
    (body := fun t out => iTile K inp run (p.batches * p.outH * p.outW) (2 * t) out)
    (fun t i => ∃ j, j < p.cout ∧ (i = 2 * t * p.cout + j ∨
          i = min (2 * t + 1) (p.batches * p.outH * p.outW - 1) * p.cout + j))
    (Fills.init _ _ (by simp))
    (fun t W s ht hs => by
      have := iTile_eq h hm hF hD hC hrun hlen ht hs
      rw [hm.pixels] at this
      exact this)
  rw [h1]
  congr 1
  apply h2.all
  intro i hi
  right
  rw [hlen] at hi
  obtain ⟨e1, e2⟩ := mod_lt_of_lt_mul hi
  set n := p.batches * p.outH * p.outW
  have hd := div_mul_add_mod i p.cout
  generalize i / p.cout = oi at *
  refine ⟨oi / 2, ?_, i % p.cout, e2, ?_⟩
  · have := ceilDiv_mul_ge (a := n) (b := 2) (by omega)
    omega
  · rcases Nat.mod_two_eq_zero_or_one oi with h0 | h0
    · left
      have : 2 * (oi / 2) = oi := by omega
      rw [this, hd]
    · right
      have : min (2 * (oi / 2) + 1) (n - 1) = oi := by omega
      rw [this, hd]

end Verif
