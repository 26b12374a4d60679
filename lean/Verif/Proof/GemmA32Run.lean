import Verif.Proof.GemmA32Code
import Verif.Proof.GemmA64Final

/-! The 32-bit Arm BGEMM kernel: accumulation, parts put together, and a call on a block. -/

namespace Verif

open Finset

/-- The state before the accumulation of a block. -/
structure A4Ready (m : NMem) (lb rb : Nat) (s : NState) : Prop where
  acc : ∀ c, c < 4 → s.v (8 + c) = fun _ => 0#8
  l : ∀ q, q < 4 → s.v q = m.reg ⟨0, lb⟩ (16 * q)
  r : ∀ q, q < 4 → s.v (4 + q) = m.reg ⟨1, rb⟩ (16 * q)
  xl : s.x 10 = ⟨0, lb + 64⟩
  xr : s.x 11 = ⟨1, rb + 64⟩
  x14 : s.x 14 = ⟨6, 0⟩
  ok : s.ok = true

/-- `n` blocks are accumulated, block `n` is loaded next. -/
structure A4Head (m : NMem) (lb rb n : Nat) (s0 s : NState) : Prop where
  acc : ∀ c r, c < 4 → r < 4 → laneWord (s.v (8 + c)) r = BitVec.ofNat 32 (∑ n' ∈ range n, gS m 4 lb rb n' c r)
  xl : s.x 10 = ⟨0, lb + 64 * n⟩
  xr : s.x 11 = ⟨1, rb + 64 * n⟩
  x12 : s.x 12 = s0.x 12
  x13 : s.x 13 = s0.x 13
  x14 : s.x 14 = s0.x 14
  ok : s.ok = true

section
variable {F : FOps} {m : NMem} {o : NOps} {lb rb n : Nat} {s0 s : NState}

theorem a4_head1 (h : A4Ready m lb rb s) : A4Head m lb rb 1 s (nExecs F m o a4First s) where
  acc := by
    intro c r hc hr
    have hz : laneWord (fun _ => 0#8) r = BitVec.ofNat 32 0 := by
      show (0#8 ++ 0#8 ++ 0#8 ++ 0#8 : BitVec 32) = 0#32
      decide
    rw [a4_first_acc F m o s c hc, h.acc c hc, a4Bmla_word _ _ _ r hr]
    refine Eq.trans (g4_bmla (n := 0) (c := c) (lb := lb) (T := 0) (h.r c hc) (fun q hq => h.l q hq) hr hz) ?_
    rw [sum_range_one, Nat.zero_add]
  xl := by rw [a4_first_x, h.xl]
  xr := by rw [a4_first_x, h.xr]
  x12 := by rw [a4_first_x]
  x13 := by rw [a4_first_x]
  x14 := by rw [a4_first_x]
  ok := by rw [a4_first_ok, h.ok]

theorem a4_step (h : A4Head m lb rb n s0 s) (hl : lb + 64 * (n + 1) ≤ m.size 0) (hr : rb + 64 * (n + 1) ≤ m.size 1) :
    A4Head m lb rb (n + 1) s0 (nExecs F m o a4Loop s) where
  acc := by
    intro c r hc hr
    rw [a4_loop_acc F m o s c hc, a4Bmla_word _ _ _ r hr, h.xl, h.xr, sum_range_succ]
    exact g4_bmla (n := n) (c := c) rfl (fun q _ => rfl) hr (h.acc c r hc hr)
  xl := by rw [a4_loop_x10, h.xl]; rfl
  xr := by rw [a4_loop_x11, h.xr]; rfl
  x12 := by rw [a4_loop_x F m o s 12 (by omega), h.x12]
  x13 := by rw [a4_loop_x F m o s 13 (by omega), h.x13]
  x14 := by rw [a4_loop_x F m o s 14 (by omega), h.x14]
  ok := by
    rw [a4_loop_okList]
    apply a4LoadOkList_ok m s h.ok
    · rw [h.xl]; show lb + 64 * n + 64 ≤ m.size 0; omega
    · rw [h.xr]; show rb + 64 * n + 64 ≤ m.size 1; omega

set_option maxRecDepth 4000 in
theorem a4Accum_eq (h : A4Ready m lb rb s) {depth : Nat} (h4 : depth % 4 = 0) (hd : 4 ≤ depth)
    (hl : lb + 16 * depth ≤ m.size 0) (hr : rb + 16 * depth ≤ m.size 1) :
    ∃ s', a4Accum F m depth s = some s' ∧ A4Head m lb rb (depth / 4) s s' := by
  unfold a4Accum
  by_cases h1 : 4 = depth
  · simp only [if_pos h1]
    refine ⟨_, rfl, ?_⟩
    have e : depth / 4 = 1 := by omega
    rw [e]
    exact a4_head1 h
  · simp only [if_neg h1]
    obtain ⟨t, e1, e2⟩ := doWhile_inv (cond := fun (t : Nat × NState) => decide (t.1 < depth))
      (body := fun t => some (t.1 + 4, nExecs F m (gOps 0) a4Loop t.2))
      (fun t => ∃ n, t.1 = 4 * n ∧ 4 * n < depth ∧ A4Head m lb rb n s t.2)
      (fun t => A4Head m lb rb (depth / 4) s t.2)
      (fun t => depth - t.1)
      (by
        rintro ⟨w1, s'⟩ ⟨n, hn, hlt, hh⟩
        simp only at hn hh
        have hst := a4_step (F := F) (o := gOps 0) hh (by omega) (by omega)
        refine ⟨_, rfl, ?_, ?_⟩
        · intro hc
          simp only [decide_eq_true_eq] at hc
          exact ⟨⟨n + 1, by omega, by omega, hst⟩, by simp only; omega⟩
        · intro hc
          simp only [decide_eq_false_iff_not] at hc
          have e : depth / 4 = n + 1 := by omega
          rw [e]
          exact hst)
      (depth + 1) (4, nExecs F m (gOps 0) a4First s) ⟨1, by omega, by omega, a4_head1 h⟩ (by simp only; omega)
    rw [e1]
    exact ⟨_, rfl, e2⟩

end

section
variable {m : NMem} {l r : Nat} {s s' : NState}

theorem a4_ready_pre (h : G4Loaded m s s') (ha : ∀ c, c < 4 → s'.v (8 + c) = fun _ => 0#8) (hk : s'.ok = true)
    (h10 : s.x 10 = ⟨0, l⟩) (h11 : s.x 11 = ⟨1, r⟩) (h14 : s.x 14 = ⟨6, 0⟩) : A4Ready m l r s' where
  acc := ha
  r := by intro q hq; rw [h.r q hq, h11]
  l := by intro q hq; rw [h.l q hq, h10]
  xl := by rw [h.xl, h10]; rfl
  xr := by rw [h.xr, h11]; rfl
  x14 := by rw [h.x14, h14]
  ok := hk

theorem a4_ready_zero {F : FOps} (h : G4Loaded m s s') (hk : s'.ok = true)
    (h10 : s.x 10 = ⟨0, l⟩) (h11 : s.x 11 = ⟨1, r⟩) (h14 : s.x 14 = ⟨6, 0⟩) : A4Ready m l r (nExecs F m (gOps 0) a4Zero s') where
  acc := a4_zero_acc F m _ s'
  r := by intro q hq; rw [a4_zero_v F m _ s' (4 + q) (by omega), h.r q hq, h11]
  l := by intro q hq; rw [a4_zero_v F m _ s' q (by omega), h.l q hq, h10]
  xl := by rw [a4_zero_x, h.xl, h10]; rfl
  xr := by rw [a4_zero_x, h.xr, h11]; rfl
  x14 := by rw [a4_zero_x, h.x14, h14]
  ok := by rw [a4_zero_ok, hk]

end

theorem aKern_facts {F : FOps} {m : NMem} {depth : Nat} (h4 : depth % 4 = 0) (hd : 4 ≤ depth) (h6 : 68 ≤ m.size 6)
    {α : Type} {K : GKern α} {res : (Nat → Nat → BitVec 8) → Nat → Nat → α} {fr : BitVec 32 → Word → Word → α}
    (hpre : K.pre = a4Pre) (hacc : K.acc = a4Accum) (hzero : K.zero = a4Zero)
    (p60 : m.ptr 6 60 = ⟨4, 0⟩) (p64 : m.ptr 6 64 = ⟨5, 0⟩)
    (hload : ∀ o s, G4Loaded m s (nExecs F m o K.ot s))
    (hok : ∀ o s, (nExecs F m o K.ot s).ok = (a4OtOkList m o s).foldl (fun b p => b && p) s.ok)
    (hres : ∀ (o : NOps) (s : NState), s.x 14 = ⟨6, 0⟩ → ∀ c i, c < 4 → i < 4 → res (nExecs F m o K.ot s).v c i
      = fr (laneWord (s.v (8 + c)) i) (m.word ⟨4, 4 * o.cIdx + 4 * i⟩) (m.word ⟨5, 4 * o.cIdx + 4 * i⟩)) :
    K.Facts F m depth (fun l => l + 16 * depth ≤ m.size 0) (fun r => r + 16 * depth ≤ m.size 1)
      (fun row => 4 * row + 16 ≤ m.size 4 ∧ 4 * row + 16 ≤ m.size 5) (A4Ready m) (GRes m 4 (depth / 4) 32 res fr) where
  pre := by
    intro l r s hl hr h10 h11 h14 hk
    rw [hpre]
    have ok' : (nExecs F m (gOps 0) a4Pre s).ok = true := by
      rw [a4_pre_okList]
      exact a4LoadOkList_ok m s hk (by rw [h10]; show l + 64 ≤ m.size 0; omega) (by rw [h11]; show r + 64 ≤ m.size 1; omega)
    exact ⟨ok', a4_ready_pre (a4_pre F m _ s) (a4_pre_acc F m _ s) ok' h10 h11 h14, (a4_pre F m _ s).x12, (a4_pre F m _ s).x13⟩
  step := by
    intro l r s hl hr hs
    obtain ⟨s1, e1, e2⟩ := a4Accum_eq (F := F) hs h4 hd hl hr
    rw [hacc, hzero]
    refine ⟨s1, e1, e2.x12, e2.x13, e2.x14.trans hs.x14, ?_⟩
    intro row l' r' x' hrow hl' hr' h10 h11 h14
    have ok' : (nExecs F m (gOps row) K.ot { s1 with x := x' }).ok = true := by
      rw [hok]
      exact a4OtOkList_ok m (gOps row) { s1 with x := x' } e2.ok h14 p60 p64 h6 hrow.1 hrow.2
        (by simp only [h10]; omega) (by simp only [h11]; omega)
    have hld := hload (gOps row) { s1 with x := x' }
    refine ⟨ok', ?_, a4_ready_zero hld ok' h10 h11 h14, ?_, ?_⟩
    · intro c i hc hi
      rw [hres (gOps row) { s1 with x := x' } h14 c i hc hi]
      simp only
      rw [e2.acc c i hc hi]
      rfl
    · rw [a4_zero_x]; exact hld.x12
    · rw [a4_zero_x]; exact hld.x13

section
variable {lhs xl rhs xr mult bias : List Word} {cmin cmax : Int}

theorem aMem_size (o : Nat) :
    (aMem lhs xl rhs xr mult bias cmin cmax).size o = 4 * (aWords lhs xl rhs xr mult bias cmin cmax o).length := rfl

theorem aMem_word (o n : Nat) :
    (aMem lhs xl rhs xr mult bias cmin cmax).word ⟨o, 4 * n⟩
      = ((aWords lhs xl rhs xr mult bias cmin cmax o)[n]?).getD 0#32 := by
  unfold NMem.word
  apply laneWord_wordByte
  intro j hj
  unfold aMem
  simp only []
  have e1 : (4 * n + (4 * 0 + j)) / 4 = n := by omega
  have e2 : (4 * n + (4 * 0 + j)) % 4 = j := by omega
  rw [e1, e2]

theorem aMem_mult (row i : Nat) : (aMem lhs xl rhs xr mult bias cmin cmax).word ⟨4, 4 * row + 4 * i⟩ = (mult[row + i]?).getD 0#32 := by
  rw [← Nat.mul_add, aMem_word]; rfl

theorem aMem_bias (row i : Nat) : (aMem lhs xl rhs xr mult bias cmin cmax).word ⟨5, 4 * row + 4 * i⟩ = (bias[row + i]?).getD 0#32 := by
  rw [← Nat.mul_add, aMem_word]; rfl

theorem aMem_cmin : (aMem lhs xl rhs xr mult bias cmin cmax).word ⟨6, 52⟩ = BitVec.ofInt 32 cmin :=
  (aMem_word 6 13).trans rfl

theorem aMem_cmax : (aMem lhs xl rhs xr mult bias cmin cmax).word ⟨6, 56⟩ = BitVec.ofInt 32 cmax :=
  (aMem_word 6 14).trans rfl

/-- The operands are where the Aarch64 kernels have them. -/
theorem aMem_gSum (kr nb l r c i : Nat) :
    gSum (aMem lhs xl rhs xr mult bias cmin cmax) kr nb l r c i = gSum (gMem false lhs xl rhs xr mult bias cmin cmax) kr nb l r c i := rfl

end

/-- The kernel on a block. -/
theorem aRun_emits {α : Type} {E : GemmEnv} {rows cols k : Nat} {lhs rhs : List Word} {ot : List NInstr}
    {res : (Nat → Nat → BitVec 8) → Nat → Nat → α} {fr : BitVec 32 → Word → Word → α}
    {tmp : List α} (hk : 0 < k) (hls : ceilMul k 4 ≤ E.ls) (hrs : ceilMul k 4 ≤ E.rs)
    (hm : ceilMul rows 4 ≤ E.mult.length) (hb : ceilMul rows 4 ≤ E.bias.length) (htmp : tmp.length = 16)
    (hload : ∀ m o s, G4Loaded m s (nExecs E.F m o ot s))
    (hok : ∀ m o s, (nExecs E.F m o ot s).ok = (a4OtOkList m o s).foldl (fun b p => b && p) s.ok)
    (hres : ∀ (m : NMem) (o : NOps) (s : NState), s.x 14 = ⟨6, 0⟩ → m.ptr 6 60 = ⟨4, 0⟩ → m.ptr 6 64 = ⟨5, 0⟩ →
      m.word ⟨6, 52⟩ = BitVec.ofInt 32 E.cmin → m.word ⟨6, 56⟩ = BitVec.ofInt 32 E.cmax →
      ∀ c i, c < 4 → i < 4 → res (nExecs E.F m o ot s).v c i
        = fr (laneWord (s.v (8 + c)) i) (m.word ⟨4, 4 * o.cIdx + 4 * i⟩) (m.word ⟨5, 4 * o.cIdx + 4 * i⟩))
    {G : Nat → α}
    (hG : ∀ i j, i < rows → j < cols → G (i + j * rows)
      = fr (BitVec.ofNat 32 (gemmNat k lhs rhs i j)) ((E.mult[i]?).getD 0#32) ((E.bias[i]?).getD 0#32))
    {b : Blk} (hg : b.Good rows cols 4 4) {tr : List (Write α)} {W : Nat → Prop} (h : Emits tr W G) :
    ∃ tr', aRun ⟨4, a4Pre, a4Accum, ot, a4Zero, gStore 4 tmp res, 4⟩ E rows cols k lhs rhs b tr = some tr' ∧
      Emits tr' (fun x => W x ∨ ∃ i j, b.Cell rows cols i j ∧ x = i + j * rows) G := by
  obtain ⟨k1, k2, k3, k4⟩ := ceilMul4_eq k
  unfold aRun
  refine gKernel_emits (K := ⟨4, a4Pre, a4Accum, ot, a4Zero, gStore 4 tmp res, 4⟩) (dst0 := id) (stride := rows) (pos := fun i j => i + j * rows)
    (aKern_facts (res := res) (fr := fr) k4 (by omega) (by rw [aMem_size]; simp [aWords]) rfl rfl rfl rfl rfl (hload _) (hok _)
      (fun o s h14 => hres _ o s h14 rfl rfl aMem_cmin aMem_cmax))
    (by simp only; omega) (by simp only; omega) ?_ ?_ ?_ rfl (fun _ _ => rfl) (fun _ _ => rfl) ?_ hg.r0 hg.r1 hg.c0 hg.c1 hg.r hg.c hg.rr hg.cc h
  · intro row h1 h2
    exact fits_bytes (x := E.xl.length) (kc := 4) (by omega) hls (by rw [aMem_size]; simp [aWords, gWords, gPacked_length]) h1 h2
  · intro col h1 h2
    exact fits_bytes (x := E.xr.length) (kc := 4) (by omega) hrs (by rw [aMem_size]; simp [aWords, gWords, gPacked_length]) h1 h2
  · intro row h1 h2
    have := ceilMul_aligned (kc := 4) (by omega) h1 h2
    rw [aMem_size, aMem_size]
    simp only [aWords, gWords]
    simp only [Nat.reduceEqDiff, if_false, if_true]
    omega
  · intro row col v tr W h1 h2 h3 h4 hr he
    simp only [id] at *
    obtain ⟨tr', e1, e2⟩ := gStore_emits (kr := 4) (tmp := tmp) (res := res) (v := v) (G := G) (dst := col * rows + row) (stride := rows)
      (by omega) htmp h3 h4
      (by
        intro c r hc hr8 hrr hcc
        have e : col * rows + row + c * rows + r = (row + r) + (col + c) * rows := by ring
        rw [hr c r hc hr8, aMem_gSum, gSum_gemm (Or.inl rfl) hls hrs h1 h2 hr8 hc hrr hcc, aMem_mult, aMem_bias, e, hG _ _ hrr hcc]) he
    refine ⟨tr', e1, e2.congr (fun x => ?_)⟩
    constructor
    · rintro (hw | ⟨i, j, hcell, rfl⟩)
      · exact Or.inl hw
      · refine Or.inr ⟨i, j, hcell, ?_⟩
        obtain ⟨u1, u2, u3, u4⟩ := hcell
        simp only at u1 u2 u3 u4
        obtain ⟨i', rfl⟩ := Nat.exists_eq_add_of_le u1
        obtain ⟨j', rfl⟩ := Nat.exists_eq_add_of_le u3
        rw [Nat.add_sub_cancel_left, Nat.add_sub_cancel_left]
        ring
    · rintro (hw | ⟨i, j, hcell, rfl⟩)
      · exact Or.inl hw
      · refine Or.inr ⟨i, j, hcell, ?_⟩
        obtain ⟨u1, u2, u3, u4⟩ := hcell
        simp only at u1 u2 u3 u4
        obtain ⟨i', rfl⟩ := Nat.exists_eq_add_of_le u1
        obtain ⟨j', rfl⟩ := Nat.exists_eq_add_of_le u3
        rw [Nat.add_sub_cancel_left, Nat.add_sub_cancel_left]
        ring

end Verif
