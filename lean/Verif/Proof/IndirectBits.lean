import Verif.Proof.Quantize
import Verif.Proof.IndirectRun

/-! The portable indirect BGEMM kernel, bitpacked output. -/

namespace Verif

open Finset

theorem orBit_getLsbD (col : Word) (bit : Bool) (n i : Nat) :
    (orBit col bit n).getLsbD i = (col.getLsbD i || (bit && decide (i = n) && decide (i < 32))) := by
  unfold orBit
  rw [BitVec.getLsbD_or]
  cases bit
  · simp
  · simp only [if_true, Bool.true_and, getLsbD_one_shl]

/-- The four bits or-ed into a column. -/
theorem iColumn_eq {run : Nat → Nat → Option Bool} {A : Acc4} {c : Nat} {col : Word} {v : Nat → Bool}
    (h : ∀ j, j < 4 → run (A.get j) (c + j) = some (v j)) :
    ∃ col', iColumn run A c col = some col' ∧ ∀ i, i < 32 → col'.getLsbD i
      = (col.getLsbD i || (decide (c % 16 ≤ i) && decide (i < c % 16 + 4) && v (i - c % 16))) := by
  have r0 := h 0 (by omega)
  have r1 := h 1 (by omega)
  have r2 := h 2 (by omega)
  have r3 := h 3 (by omega)
  simp only [Acc4.get, Nat.add_zero] at r0 r1 r2 r3
  unfold iColumn
  simp only [r0, r1, r2, r3, Option.bind_eq_bind, Option.bind_some]
  refine ⟨_, rfl, ?_⟩
  intro i hi
  simp only [orBit_getLsbD]
  generalize c % 16 = b
  have hd : decide (i < 32) = true := by simpa using hi
  rw [hd]
  by_cases hlo : b ≤ i ∧ i < b + 4
  · obtain ⟨j, rfl⟩ := Nat.exists_eq_add_of_le hlo.1
    have : j = 0 ∨ j = 1 ∨ j = 2 ∨ j = 3 := by omega
    rcases this with rfl | rfl | rfl | rfl <;> simp
  · have h0 : i ≠ b := by omega
    have h1 : i ≠ b + 1 := by omega
    have h2 : i ≠ b + 2 := by omega
    have h3 : i ≠ b + 3 := by omega
    have h4 : (decide (b ≤ i) && decide (i < b + 4)) = false := by
      rw [← Bool.decide_and, decide_eq_false_iff_not]; exact hlo
    rw [h4]
    simp [h0, h1, h2, h3]

/-- `(1 << n) - 1` has the low `n` bits set, for `n < 32`. -/
theorem lowMask_getLsbD {n i : Nat} (hn : n < 32) (hi : i < 32) :
    ((1#32 <<< n) - 1#32).getLsbD i = decide (i < n) := by
  have key : ∀ n i : Fin 32, ((1#32 <<< n.val) - 1#32).getLsbD i.val = decide (i.val < n.val) := by
    decide +kernel
  exact key ⟨n, hn⟩ ⟨i, hi⟩

theorem sshiftRight16_getLsbD {w : Word} (h : w.getLsbD 31 = false) {i : Nat} (hi : i < 32) :
    (w.sshiftRight 16).getLsbD i = (decide (i < 16) && w.getLsbD (i + 16)) := by
  rw [BitVec.getLsbD_sshiftRight]
  have hm : w.msb = false := by rw [BitVec.msb_eq_getLsbD_last]; exact h
  have e : 16 + i = i + 16 := by omega
  rw [hm, e]
  by_cases h16 : i < 16
  · have h1 : ¬ (32 ≤ i) := by omega
    have h2 : i + 16 < 32 := by omega
    simp [h1, h2, h16]
  · have h1 : ¬ (32 ≤ i) := by omega
    have h2 : ¬ (i + 16 < 32) := by omega
    simp [h1, h2, h16]

/-- The half word `h` of output pixel `oi`. -/
def halfOf (b : Nat → Nat → Bool) (cout oi h : Nat) : BitVec 16 :=
  (wordOf fun i => decide (16 * h + i < cout) && b oi (16 * h + i)).extractLsb' 0 16

theorem extract16_eq {w : Word} {b : Nat → Bool} (h : ∀ i, i < 16 → w.getLsbD i = b i) :
    w.extractLsb' 0 16 = (wordOf b).extractLsb' 0 16 := by
  apply BitVec.eq_of_getLsbD_eq
  intro i hi
  rw [BitVec.getLsbD_extractLsb', BitVec.getLsbD_extractLsb', Nat.zero_add, h i hi, wordOf_getLsbD]
  have : i < 32 := by omega
  simp [this]

/-- The content of a partially filled column: `k` valid bits of half `hf`. -/
def ColIs (b : Nat → Nat → Bool) (oi hf k : Nat) (col : Word) : Prop :=
  ∀ i, i < 32 → col.getLsbD i = (decide (i < k) && b oi (16 * hf + i))

theorem ColIs.half {b : Nat → Nat → Bool} {oi hf k : Nat} {col : Word} {cout : Nat}
    (h : ColIs b oi hf k col) (hk : 16 ≤ k ∧ 16 * hf + 16 ≤ cout ∨ 16 * hf + k = cout) :
    col.extractLsb' 0 16 = halfOf b cout oi hf := by
  unfold halfOf
  apply extract16_eq
  intro i hi
  rw [h i (by omega)]
  congr 1
  rw [decide_eq_decide]
  omega

theorem ColIs.shift {b : Nat → Nat → Bool} {oi hf k : Nat} {col : Word}
    (h : ColIs b oi hf k col) (hk : 16 ≤ k) (hk' : k ≤ 31) :
    ColIs b oi (hf + 1) (k - 16) (col.sshiftRight 16) := by
  intro i hi
  have h31 : col.getLsbD 31 = false := by
    rw [h 31 (by omega)]
    have : ¬ (31 < k) := by omega
    simp [this]
  rw [sshiftRight16_getLsbD h31 hi]
  by_cases h16 : i < 16
  · rw [h (i + 16) (by omega)]
    have e : 16 * hf + (i + 16) = 16 * (hf + 1) + i := by omega
    have d : decide (i + 16 < k) = decide (i < k - 16) := by rw [decide_eq_decide]; omega
    rw [e, d]
    simp [h16]
  · have d : ¬ (i < k - 16) := by omega
    simp [h16, d]

/-- Adding the lanes of a block and masking the invalid ones. -/
theorem ColIs.add {b : Nat → Nat → Bool} {oi c m : Nat} {col col' : Word} {v : Nat → Bool}
    (h : ColIs b oi (c / 16) (c % 16) col) (hm : m ≤ 4)
    (hc : ∀ i, i < 32 → col'.getLsbD i
      = (col.getLsbD i || (decide (c % 16 ≤ i) && decide (i < c % 16 + 4) && v (i - c % 16))))
    (hv : ∀ j, j < m → v j = b oi (c + j)) :
    ColIs b oi (c / 16) (c % 16 + m) (if m < 4 then col' &&& ((1#32 <<< (c % 16 + m)) - 1#32) else col') := by
  have hfull : ∀ i, i < 32 → i < c % 16 + m → col'.getLsbD i = b oi (16 * (c / 16) + i) := by
    intro i hi him
    rw [hc i hi, h i hi]
    by_cases hlo : i < c % 16
    · have : ¬ (c % 16 ≤ i) := by omega
      simp [hlo, this]
    · have h1 : c % 16 ≤ i := by omega
      have h2 : i < c % 16 + 4 := by omega
      have e : c + (i - c % 16) = 16 * (c / 16) + i := by omega
      rw [hv (i - c % 16) (by omega), e]
      simp [hlo, h1, h2]
  intro i hi
  by_cases him : i < c % 16 + m
  · have := hfull i hi him
    split
    · rw [BitVec.getLsbD_and, lowMask_getLsbD (by omega) hi, this]
      simp [him]
    · rw [this]; simp [him]
  · split
    · rw [BitVec.getLsbD_and, lowMask_getLsbD (by omega) hi]
      simp [him]
    · have h1 : ¬ (i < c % 16) := by omega
      have h2 : ¬ (i < c % 16 + 4) := by omega
      rw [hc i hi, h i hi]
      simp [him, h1, h2]

theorem iAdvance_eq {K : IKernel} {s : BitSt} {col0 col1 : Word} {m D opg : Nat}
    (hm : m = min 4 (s.groupEnd - s.c)) (hlt : s.c < s.groupEnd)
    (hD : K.inputDepth / K.groups = D) (hC : K.outputChannels / K.groups = opg) :
    iAdvance K s col0 col1 =
      { s with
        col0 := if m < 4 then col0 &&& ((1#32 <<< (s.c % 16 + m)) - 1#32) else col0
        col1 := if m < 4 then col1 &&& ((1#32 <<< (s.c % 16 + m)) - 1#32) else col1
        c := s.c + m
        depthOff := if s.c + m = s.groupEnd then s.depthOff + D else s.depthOff
        groupEnd := if s.c + m = s.groupEnd then s.groupEnd + opg else s.groupEnd } := by
  unfold iAdvance
  by_cases h : s.groupEnd > s.c + 4
  · have m4 : m = 4 := by omega
    have : ¬ (s.c + 4 = s.groupEnd) := by omega
    subst m4
    simp [h, this]
  · have hg : s.groupEnd - s.c = m := by omega
    have hc : s.c + m = s.groupEnd := by omega
    rw [if_neg h]
    simp only [hg, hD, hC, if_pos hc]
    rw [hc]

/-- One pixel-loop iteration, bitpacked output. -/
theorem iBitTile_eq {K : IKernel} {p : BConv} {inp filt : List Word} (h : p.Dims inp filt)
    (hm : K.Made p filt) (hF : 1 ≤ p.filtH * p.filtW) (hD : 1 ≤ p.filtDepth) (hC : 1 ≤ p.cout)
    {run : Nat → Nat → Option Bool} {f : Nat → Nat → Bool}
    (hrun : ∀ a c, a ≤ 32 * (p.filtH * p.filtW * p.filtDepth) →
      c < p.cout - p.outPerGroup + ceilMul p.outPerGroup 4 → run a c = some (f a c))
    {s0 s : List (BitVec 16)}
    (hlen : s0.length = p.batches * p.outH * p.outW * (2 * packedSize p.cout))
    {W : Nat → Prop} {t : Nat} (ht : t < ceilDiv (p.batches * p.outH * p.outW) 2)
    (hs : Fills s0 s W (fun i => halfOf (fun oi c => f (p.accPix inp filt oi c) c) p.cout
      (i / (2 * packedSize p.cout)) (i % (2 * packedSize p.cout)))) :
    ∃ s', iBitTile K inp run K.numOutputPixels (2 * t) s = some s' ∧
      Fills s0 s' (fun i => W i ∨ ∃ j, 16 * j < p.cout ∧ (i = 2 * t * (2 * packedSize p.cout) + j ∨
          i = min (2 * t + 1) (p.batches * p.outH * p.outW - 1) * (2 * packedSize p.cout) + j))
        (fun i => halfOf (fun oi c => f (p.accPix inp filt oi c) c) p.cout
          (i / (2 * packedSize p.cout)) (i % (2 * packedSize p.cout))) := by
  set n := p.batches * p.outH * p.outW with hn
  set P := 2 * packedSize p.cout with hP
  set B : Nat → Nat → Bool := fun oi c => f (p.accPix inp filt oi c) c with hB
  set G : Nat → BitVec 16 := fun i => halfOf B p.cout (i / P) (i % P) with hG
  have hPs : p.cout ≤ 16 * P := by
    rw [hP, packedSize_eq]; omega
  have htn : t * 2 < n := lt_of_lt_ceilDiv (by omega) ht
  set q := min (2 * t + 1) (n - 1) with hq
  have hqn : q < n := by omega
  have hopg : p.groups * p.outPerGroup = p.cout :=
    Nat.mul_div_cancel' (Nat.dvd_of_mod_eq_zero h.cout_div)
  have hopg1 : 1 ≤ p.outPerGroup := by
    rcases Nat.eq_zero_or_pos p.outPerGroup with h0 | h0
    · rw [h0] at hopg; omega
    · exact h0
  have hDe : K.inputDepth / K.groups = p.filtDepth := by
    rw [hm.inputDepth, hm.groups, h.depth, Nat.mul_div_cancel_left _ h.groups_pos]
  have hCe : K.outputChannels / K.groups = p.outPerGroup := by
    rw [hm.outputChannels, hm.groups]; rfl
  have hNB0 : 0 < ceilDiv p.outPerGroup 4 := by
    have := ceilDiv_mul_ge p.outPerGroup 4 (by omega)
    omega
  have ho0 : 2 * (2 * t * packedSize K.outputChannels) = 2 * t * P := by
    rw [hm.outputChannels, hP]; ring
  have ho1 : (if K.numOutputPixels < 2 * t + 2 then 2 * t * P
      else 2 * t * P + 2 * packedSize K.outputChannels) = q * P := by
    rw [hm.pixels, hm.outputChannels]
    change (if n < 2 * t + 2 then _ else _) = _
    split
    · have : q = 2 * t := by omega
      rw [this]
    · have : q = 2 * t + 1 := by omega
      rw [this, ← hP]; ring
  have hGv : ∀ oi j, oi < n → 16 * j < p.cout → G (oi * P + j) = halfOf B p.cout oi j ∧ oi * P + j < s0.length := by
    intro oi j hoi hj
    have hlt : j < P := by omega
    constructor
    · simp only [hG]
      rw [(div_mod_row hlt).1, (div_mod_row hlt).2]
    · rw [hlen]; exact row_lt hoi hlt
  unfold iBitTile
  simp only []
  rw [ho0, ho1, hCe]
  let I : BitSt → Prop := fun s =>
    (∃ g blk, BlockPos p g blk s.w s.c s.depthOff s.groupEnd) ∧
    s.out0 = 2 * t * P + s.c / 16 ∧ s.out1 = q * P + s.c / 16 ∧
    ColIs B (2 * t) (s.c / 16) (s.c % 16) s.col0 ∧ ColIs B q (s.c / 16) (s.c % 16) s.col1 ∧
    Fills s0 s.out (fun i => W i ∨ ∃ j, j < s.c / 16 ∧ (i = 2 * t * P + j ∨ i = q * P + j)) G
  let Q : BitSt → Prop := fun s =>
    s.out0 = 2 * t * P + p.cout / 16 ∧ s.out1 = q * P + p.cout / 16 ∧
    ColIs B (2 * t) (p.cout / 16) (p.cout % 16) s.col0 ∧ ColIs B q (p.cout / 16) (p.cout % 16) s.col1 ∧
    Fills s0 s.out (fun i => W i ∨ ∃ j, j < p.cout / 16 ∧ (i = 2 * t * P + j ∨ i = q * P + j)) G
  have hmain := doWhile_inv (cond := fun s : BitSt => decide (s.c < K.outputChannels))
    (body := iBitStep K inp run (2 * t * K.filterSize)) I Q (fun s => p.cout - s.c)
    (by
      rintro s ⟨⟨g, blk, hBp⟩, hs0, hs1, hc0, hc1, hF'⟩
      obtain ⟨A, hA, hAw, hA0, hA1, hAv⟩ := block_acc h hm hF hD ht hBp.hg hBp.hblk
      have hblk4 : blk * 4 < p.outPerGroup := lt_of_lt_ceilDiv (by omega) hBp.hblk
      have hgl : g * p.outPerGroup + p.outPerGroup ≤ p.cout := by
        rw [← hopg, ← Nat.succ_mul]
        exact Nat.mul_le_mul_right _ hBp.hg
      have hc := hBp.c
      have hge := hBp.gend
      have hcm : ceilMul p.outPerGroup 4 = ceilDiv p.outPerGroup 4 * 4 := rfl
      have hblk' := hBp.hblk
      have hA' : iAccumulate K inp (2 * t * K.filterSize) s.depthOff s.w = some A := by
        rw [hBp.w, hBp.off]; exact hA
      let m := min 4 (s.groupEnd - s.c)
      have hmdef : m = min 4 (s.groupEnd - s.c) := rfl
      obtain ⟨col0, hk0, hb0⟩ := iColumn_eq (run := run) (A := A.p0) (c := s.c) (col := s.col0)
        (v := fun j => f (A.p0.get j) (s.c + j)) (fun j hj => hrun _ _ (hA0 j) (by omega))
      obtain ⟨col1, hk1, hb1⟩ := iColumn_eq (run := run) (A := A.p1) (c := s.c) (col := s.col1)
        (v := fun j => f (A.p1.get j) (s.c + j)) (fun j hj => hrun _ _ (hA1 j) (by omega))
      have hn0 := hc0.add (m := m) (v := fun j => f (A.p0.get j) (s.c + j)) (by omega) hb0 (by
        intro j hj
        simp only [hB]
        rw [(hAv j (by omega) (by omega)).1]
        have : s.c + j = g * p.outPerGroup + (blk * 4 + j) := by omega
        rw [this])
      have hn1 := hc1.add (m := m) (v := fun j => f (A.p1.get j) (s.c + j)) (by omega) hb1 (by
        intro j hj
        simp only [hB]
        rw [(hAv j (by omega) (by omega)).2]
        have : s.c + j = g * p.outPerGroup + (blk * 4 + j) := by omega
        rw [this])
      have hadv := iAdvance_eq (K := K) (s := { s with w := A.w }) (col0 := col0) (col1 := col1) (m := m)
        hmdef (by simp only []; omega) hDe hCe
      simp only [] at hadv
      generalize hx0 : (if m < 4 then col0 &&& ((1#32 <<< (s.c % 16 + m)) - 1#32) else col0) = x0 at hn0 hadv
      generalize hx1 : (if m < 4 then col1 &&& ((1#32 <<< (s.c % 16 + m)) - 1#32) else col1) = x1 at hn1 hadv
      -- positions after the step
      have hpos : s.c + m < p.cout → ∃ g' blk', BlockPos p g' blk' A.w (s.c + m)
          (if s.c + m = s.groupEnd then s.depthOff + p.filtDepth else s.depthOff)
          (if s.c + m = s.groupEnd then s.groupEnd + p.outPerGroup else s.groupEnd) := by
        intro hcond
        by_cases hend : s.c + m = s.groupEnd
        · rw [if_pos hend, if_pos hend]
          have hg1 : g + 1 < p.groups := by
            by_contra hcon
            have : g + 1 = p.groups := by have := hBp.hg; omega
            have e : (g + 1) * p.outPerGroup = p.cout := by rw [this, hopg]
            rw [Nat.succ_mul] at e
            omega
          have hlast : blk + 1 = ceilDiv p.outPerGroup 4 := by
            have : p.outPerGroup ≤ (blk + 1) * 4 := by omega
            have := ceilDiv_le (b := 4) (by omega) this
            omega
          refine ⟨g + 1, 0, hg1, hNB0, ?_, ?_, ?_, ?_⟩
          · rw [hAw, hlast]; ring
          · rw [hend, hge]; ring
          · rw [hBp.off]; ring
          · rw [hge]; ring
        · rw [if_neg hend, if_neg hend]
          have hm4 : m = 4 := by omega
          have hb1 : blk + 1 < ceilDiv p.outPerGroup 4 := by
            have := ceilDiv_mul_ge p.outPerGroup 4 (by omega)
            omega
          exact ⟨g, blk + 1, hBp.hg, hb1, hAw, by omega, hBp.off, hBp.gend⟩
      unfold iBitStep
      simp only [hA', hk0, hk1, hadv, Option.bind_eq_bind, Option.bind_some]
      by_cases hwrap : (s.c + m) % 16 < s.c % 16
      · rw [if_pos hwrap]
        have hge16 : 16 ≤ s.c % 16 + m := by omega
        have hdiv : (s.c + m) / 16 = s.c / 16 + 1 := by omega
        have hmod : (s.c + m) % 16 = s.c % 16 + m - 16 := by omega
        have hfull : 16 * (s.c / 16) + 16 ≤ p.cout := by omega
        obtain ⟨g1, l1⟩ := hGv q (s.c / 16) hqn (by omega)
        obtain ⟨g0, l0⟩ := hGv (2 * t) (s.c / 16) (by omega) (by omega)
        obtain ⟨o1, e1, f1⟩ := hF'.write (i := s.out1) (v := x1.extractLsb' 0 16)
          (by rw [hs1]; exact l1) (by rw [hs1, g1]; exact hn1.half (Or.inl ⟨hge16, hfull⟩))
        obtain ⟨o0, e0, f0⟩ := f1.write (i := s.out0) (v := x0.extractLsb' 0 16)
          (by rw [hs0]; exact l0) (by rw [hs0, g0]; exact hn0.half (Or.inl ⟨hge16, hfull⟩))
        simp only [e1, e0, Option.bind_some]
        refine ⟨_, rfl, ?_⟩
        have hfin : s.out0 + 1 = 2 * t * P + (s.c + m) / 16 ∧ s.out1 + 1 = q * P + (s.c + m) / 16 ∧
            ColIs B (2 * t) ((s.c + m) / 16) ((s.c + m) % 16) (x0.sshiftRight 16) ∧
            ColIs B q ((s.c + m) / 16) ((s.c + m) % 16) (x1.sshiftRight 16) ∧
            Fills s0 o0 (fun i => W i ∨ ∃ j, j < (s.c + m) / 16 ∧ (i = 2 * t * P + j ∨ i = q * P + j)) G := by
          refine ⟨by omega, by omega, ?_, ?_, ?_⟩
          · rw [hdiv, hmod]; exact hn0.shift hge16 (by omega)
          · rw [hdiv, hmod]; exact hn1.shift hge16 (by omega)
          · refine f0.congr ?_ (fun _ _ _ => rfl)
            intro i _
            constructor
            · rintro (hw | ⟨j, hj, hh⟩)
              · exact Or.inl (Or.inl (Or.inl hw))
              · by_cases hjc : j < s.c / 16
                · exact Or.inl (Or.inl (Or.inr ⟨j, hjc, hh⟩))
                · have : j = s.c / 16 := by omega
                  subst this
                  rcases hh with hh | hh
                  · exact Or.inr (by omega)
                  · exact Or.inl (Or.inr (by omega))
            · rintro (((hw | ⟨j, hj, hh⟩) | hh) | hh)
              · exact Or.inl hw
              · exact Or.inr ⟨j, by omega, hh⟩
              · exact Or.inr ⟨s.c / 16, by omega, by omega⟩
              · exact Or.inr ⟨s.c / 16, by omega, by omega⟩
        constructor
        · intro hcond
          simp only [hm.outputChannels, decide_eq_true_eq] at hcond
          exact ⟨⟨hpos hcond, hfin⟩, by simp only []; omega⟩
        · intro hcond
          simp only [hm.outputChannels, decide_eq_false_iff_not] at hcond
          have : s.c + m = p.cout := by omega
          rw [this] at hfin
          exact hfin
      · rw [if_neg hwrap]
        refine ⟨_, rfl, ?_⟩
        have hlt16 : s.c % 16 + m < 16 := by omega
        have hdiv : (s.c + m) / 16 = s.c / 16 := by omega
        have hmod : (s.c + m) % 16 = s.c % 16 + m := by omega
        have hfin : s.out0 = 2 * t * P + (s.c + m) / 16 ∧ s.out1 = q * P + (s.c + m) / 16 ∧
            ColIs B (2 * t) ((s.c + m) / 16) ((s.c + m) % 16) x0 ∧
            ColIs B q ((s.c + m) / 16) ((s.c + m) % 16) x1 ∧
            Fills s0 s.out (fun i => W i ∨ ∃ j, j < (s.c + m) / 16 ∧ (i = 2 * t * P + j ∨ i = q * P + j)) G := by
          rw [hdiv, hmod]
          exact ⟨hs0, hs1, hn0, hn1, hF'⟩
        constructor
        · intro hcond
          simp only [hm.outputChannels, decide_eq_true_eq] at hcond
          exact ⟨⟨hpos hcond, hfin⟩, by simp only []; omega⟩
        · intro hcond
          simp only [hm.outputChannels, decide_eq_false_iff_not] at hcond
          have : s.c + m = p.cout := by omega
          rw [this] at hfin
          exact hfin)
    (K.outputChannels + 1)
    ⟨0, 2 * t * P, q * P, 0#32, 0#32, 0, p.outPerGroup, 0, s⟩
    (by
      refine ⟨⟨0, 0, h.groups_pos, hNB0, by simp, by simp, by simp, by simp⟩, by simp, by simp,
        ?_, ?_, ?_⟩
      · intro i _; simp
      · intro i _; simp
      · exact hs.congr (by simp) (fun _ _ _ => rfl))
    (by rw [hm.outputChannels]; simp only []; omega)
  obtain ⟨s', h1, hs0, hs1, hc0, hc1, hF'⟩ := hmain
  simp only [h1, Option.bind_eq_bind, Option.bind_some]
  rw [hm.outputChannels]
  by_cases hrem : p.cout % 16 > 0
  · rw [if_pos hrem]
    obtain ⟨g1, l1⟩ := hGv q (p.cout / 16) hqn (by omega)
    obtain ⟨g0, l0⟩ := hGv (2 * t) (p.cout / 16) (by omega) (by omega)
    obtain ⟨o1, e1, f1⟩ := hF'.write (i := s'.out1) (v := s'.col1.extractLsb' 0 16)
      (by rw [hs1]; exact l1) (by rw [hs1, g1]; exact hc1.half (Or.inr (by omega)))
    obtain ⟨o0, e0, f0⟩ := f1.write (i := s'.out0) (v := s'.col0.extractLsb' 0 16)
      (by rw [hs0]; exact l0) (by rw [hs0, g0]; exact hc0.half (Or.inr (by omega)))
    simp only [e1, e0, Option.bind_some]
    refine ⟨o0, rfl, f0.congr ?_ (fun _ _ _ => rfl)⟩
    intro i _
    constructor
    · rintro (hw | ⟨j, hj, hh⟩)
      · exact Or.inl (Or.inl (Or.inl hw))
      · by_cases hjc : j < p.cout / 16
        · exact Or.inl (Or.inl (Or.inr ⟨j, hjc, hh⟩))
        · have : j = p.cout / 16 := by omega
          subst this
          rcases hh with hh | hh
          · exact Or.inr (by omega)
          · exact Or.inl (Or.inr (by omega))
    · rintro (((hw | ⟨j, hj, hh⟩) | hh) | hh)
      · exact Or.inl hw
      · exact Or.inr ⟨j, by omega, hh⟩
      · exact Or.inr ⟨p.cout / 16, by omega, by omega⟩
      · exact Or.inr ⟨p.cout / 16, by omega, by omega⟩
  · rw [if_neg hrem]
    refine ⟨s'.out, rfl, hF'.congr ?_ (fun _ _ _ => rfl)⟩
    intro i _
    constructor
    · rintro (hw | ⟨j, hj, hh⟩)
      · exact Or.inl hw
      · exact Or.inr ⟨j, by omega, hh⟩
    · rintro (hw | ⟨j, hj, hh⟩)
      · exact Or.inl hw
      · exact Or.inr ⟨j, by omega, hh⟩

/-! Words and half words -/

theorem toHalves_length (l : List Word) : (toHalves l).length = 2 * l.length := by
  induction l with
  | nil => rfl
  | cons w l ih => simp only [toHalves, List.length_cons, ih]; omega

theorem toHalves_getElem? (l : List Word) (k : Nat) :
    (toHalves l)[2 * k]? = l[k]?.map (fun w => w.extractLsb' 0 16) ∧
      (toHalves l)[2 * k + 1]? = l[k]?.map (fun w => w.extractLsb' 16 16) := by
  induction l generalizing k with
  | nil => simp [toHalves]
  | cons w l ih =>
    cases k with
    | zero => simp [toHalves]
    | succ k =>
      have e1 : 2 * (k + 1) = 2 * k + 1 + 1 := by omega
      simp only [toHalves, e1, List.getElem?_cons_succ]
      exact ih k

theorem ofHalves_map (N : Nat) (g : Nat → BitVec 16) :
    ofHalves ((List.range (2 * N)).map g) = (List.range N).map (fun k => g (2 * k + 1) ++ g (2 * k)) := by
  induction N generalizing g with
  | zero => rfl
  | succ N ih =>
    have e : 2 * (N + 1) = 2 * N + 1 + 1 := by omega
    rw [e, List.range_succ_eq_map, List.range_succ_eq_map, List.range_succ_eq_map]
    simp only [List.map_cons, List.map_map, ofHalves]
    congr 1
    have := ih (fun k => g (k + 1 + 1))
    simp only [Function.comp_def, Nat.succ_eq_add_one]
    rw [this]
    simp [Nat.mul_add]

theorem halves_append (b : Nat → Nat → Bool) (cout oi k : Nat) :
    halfOf b cout oi (2 * k + 1) ++ halfOf b cout oi (2 * k)
      = wordOf fun i => if 32 * k + i < cout then b oi (32 * k + i) else false := by
  apply eq_wordOf
  intro i hi
  unfold halfOf
  rw [BitVec.getLsbD_append]
  by_cases h : i < 16
  · have e : 16 * (2 * k) + i = 32 * k + i := by omega
    rw [BitVec.getLsbD_extractLsb', Nat.zero_add, wordOf_getLsbD, e]
    by_cases hc : 32 * k + i < cout <;> simp [h, hc]
    omega
  · have e : 16 * (2 * k + 1) + (i - 16) = 32 * k + i := by omega
    rw [BitVec.getLsbD_extractLsb', BitVec.getLsbD_extractLsb', Nat.zero_add, Nat.zero_add,
      wordOf_getLsbD, wordOf_getLsbD, e]
    have h16 : i - 16 < 16 := by omega
    have h32 : i - 16 < 32 := by omega
    by_cases hc : 32 * k + i < cout <;> simp [h, hc, h16, h32]

theorem zeroFill_eq {N : Nat} {out : List Word} (h : out.length = N) :
    forN N (fun i out => wr out i 0#32) out = some (List.replicate N 0#32) := by
  obtain ⟨s, h1, h2⟩ := Fills.loop (s0 := out) (s := out) (n := N) (W0 := fun _ => False) (f := fun _ => 0#32)
    (body := fun i out => wr out i 0#32) (fun k i => i = k) (Fills.init _ _ (by simp))
    (fun k W s hk hs => hs.write (by omega) rfl)
  rw [h1, h2.all (fun i hi => Or.inr ⟨i, by omega, rfl⟩), h]
  simp

theorem halfOf_zero {b : Nat → Nat → Bool} {cout oi h : Nat} (hh : cout ≤ 16 * h) :
    halfOf b cout oi h = 0#16 := by
  unfold halfOf
  apply BitVec.eq_of_getLsbD_eq
  intro i hi
  rw [BitVec.getLsbD_extractLsb', wordOf_getLsbD]
  have : decide (16 * h + (0 + i) < cout) = false := by
    rw [decide_eq_false_iff_not]; omega
  rw [this]
  simp

theorem half_index (k P : Nat) :
    (2 * k + 1) / (2 * P) = k / P ∧ 2 * k / (2 * P) = k / P ∧ 2 * k % (2 * P) = 2 * (k % P) ∧
      (2 * k + 1) % (2 * P) = 2 * (k % P) + 1 := by
  have e1 : (2 * k + 1) / (2 * P) = k / P := by
    rw [← Nat.div_div_eq_div_mul]
    congr 1
    omega
  have e2 : 2 * k / (2 * P) = k / P := Nat.mul_div_mul_left k P (by omega)
  have e3 : 2 * k % (2 * P) = 2 * (k % P) := Nat.mul_mod_mul_left 2 k P
  refine ⟨e1, e2, e3, ?_⟩
  have a1 := Nat.div_add_mod (2 * k + 1) (2 * P)
  have a2 := Nat.div_add_mod (2 * k) (2 * P)
  rw [e1] at a1
  rw [e2] at a2
  omega

theorem toHalves_replicate {N i : Nat} (hi : i < 2 * N) :
    (toHalves (List.replicate N 0#32))[i]? = some 0#16 := by
  have hk : i / 2 < N := by omega
  rcases Nat.mod_two_eq_zero_or_one i with h0 | h0
  · have e : i = 2 * (i / 2) := by omega
    rw [e, (toHalves_getElem? _ _).1, List.getElem?_replicate_of_lt hk]
    rfl
  · have e : i = 2 * (i / 2) + 1 := by omega
    rw [e, (toHalves_getElem? _ _).2, List.getElem?_replicate_of_lt hk]
    rfl

set_option maxHeartbeats 1000000 in
/-- The whole kernel, bitpacked output. -/
theorem bconvIndirectBits_eq {p : BConv} {inp filt : List Word} (h : p.Dims inp filt)
    (hF : 1 ≤ p.filtH * p.filtW) (hD : 1 ≤ p.filtDepth) (hC : 1 ≤ p.cout)
    {run : Nat → Nat → Option Bool} {f : Nat → Nat → Bool}
    (hrun : ∀ a c, a ≤ 32 * (p.filtH * p.filtW * p.filtDepth) →
      c < p.cout - p.outPerGroup + ceilMul p.outPerGroup 4 → run a c = some (f a c))
    {out0 : List Word} (hlen : out0.length = p.batches * p.outH * p.outW * packedSize p.cout) :
    bconvIndirectBits p inp filt run out0 = some ((List.range out0.length).map
      (fun k => wordOf fun i => if 32 * (k % packedSize p.cout) + i < p.cout then
        f (p.accPix inp filt (k / packedSize p.cout) (32 * (k % packedSize p.cout) + i))
          (32 * (k % packedSize p.cout) + i) else false)) := by
  obtain ⟨K, hK, hm⟩ := mkKernel_made h
  unfold bconvIndirectBits
  simp only [hK, Option.bind_eq_bind, Option.bind_some]
  unfold iDispatchBits
  set P := packedSize p.cout with hP
  have hPe : P = (p.cout + 31) / 32 := packedSize_eq _
  have hzero : ∃ z : List Word, (if K.outputChannels % 32 ≠ 0 then
      forN (K.numOutputPixels * packedSize K.outputChannels) (fun i out => wr out i 0#32) out0
    else some out0) = some z ∧ z.length = out0.length ∧
      (p.cout % 32 ≠ 0 → z = List.replicate out0.length 0#32) := by
    rw [hm.outputChannels, hm.pixels]
    by_cases h32 : p.cout % 32 ≠ 0
    · rw [if_pos h32, zeroFill_eq (by rw [hlen])]
      rw [← hP, ← hlen]
      exact ⟨_, rfl, by simp, fun _ => rfl⟩
    · rw [if_neg h32]
      exact ⟨_, rfl, rfl, fun hc => absurd hc h32⟩
  obtain ⟨z, hz, hzl, hz0⟩ := hzero
  simp only [hz, Option.bind_eq_bind, Option.bind_some]
  unfold iBitRun
  rw [hm.pixels]
  set n := p.batches * p.outH * p.outW with hn
  have hl2 : (toHalves z).length = n * (2 * P) := by
    rw [toHalves_length, hzl, hlen]; ring
  let B : Nat → Nat → Bool := fun oi c => f (p.accPix inp filt oi c) c
  let G : Nat → BitVec 16 := fun i => halfOf B p.cout (i / (2 * P)) (i % (2 * P))
  obtain ⟨s', h1, h2⟩ := Fills.loop (s0 := toHalves z) (s := toHalves z) (n := ceilDiv n 2)
    (W0 := fun _ => False) (f := G)
    (body := fun t out => iBitTile K inp run n (2 * t) out)
    (fun t i => ∃ j, 16 * j < p.cout ∧ (i = 2 * t * (2 * P) + j ∨
          i = min (2 * t + 1) (n - 1) * (2 * P) + j))
    (Fills.init _ _ (by simp))
    (fun t W s ht hs => by
      have := iBitTile_eq h hm hF hD hC hrun (s0 := toHalves z) hl2 ht hs
      rw [hm.pixels] at this
      exact this)
  rw [h1]
  -- every half word ends up with its value
  have hall : s' = (List.range (2 * (n * P))).map G := by
    apply List.ext_getElem?
    intro i
    by_cases hi : i < n * (2 * P)
    · have hi' : i < 2 * (n * P) := by
        have : n * (2 * P) = 2 * (n * P) := by ring
        omega
      rw [List.getElem?_map, List.getElem?_range hi', Option.map_some]
      obtain ⟨e1, e2⟩ := mod_lt_of_lt_mul hi
      have hd := div_mul_add_mod i (2 * P)
      by_cases hj : 16 * (i % (2 * P)) < p.cout
      · apply h2.hit i (by rw [hl2]; exact hi)
        right
        generalize i / (2 * P) = oi at *
        refine ⟨oi / 2, ?_, i % (2 * P), hj, ?_⟩
        · have := ceilDiv_mul_ge n 2 (by omega)
          omega
        · rcases Nat.mod_two_eq_zero_or_one oi with h0 | h0
          · left
            have : 2 * (oi / 2) = oi := by omega
            rw [this, hd]
          · right
            have : min (2 * (oi / 2) + 1) (n - 1) = oi := by omega
            rw [this, hd]
      · -- never written: the second half of the last word, zeroed before
        have h32 : p.cout % 32 ≠ 0 := by omega
        have hmiss : s'[i]? = (toHalves z)[i]? := by
          apply h2.miss
          rintro (hf | ⟨t, ht, j, hj', hh⟩)
          · exact hf
          · have hjP : j < 2 * P := by omega
            rcases hh with rfl | rfl
            · rw [(div_mod_row hjP).2] at hj; omega
            · rw [(div_mod_row hjP).2] at hj; omega
        rw [hmiss, hz0 h32]
        rw [toHalves_replicate (by rw [hlen]; exact hi')]
        exact (congrArg some (halfOf_zero (by omega))).symm
    · have hi' : ¬ i < 2 * (n * P) := by
        have : n * (2 * P) = 2 * (n * P) := by ring
        omega
      rw [List.getElem?_eq_none (by rw [h2.len, hl2]; omega), List.getElem?_eq_none (by simp; omega)]
  rw [hall, Option.map_some, ofHalves_map, hlen]
  congr 1
  apply List.map_congr_left
  intro k _
  simp only [G]
  obtain ⟨e1, e2, e3, e4⟩ := half_index k P
  rw [e1, e2, e3, e4]
  exact halves_append B p.cout (k / P) (k % P)

end Verif
