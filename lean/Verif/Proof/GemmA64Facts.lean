import Verif.Proof.GemmA64Run

/-! The parts of the Aarch64 BGEMM kernels, put together. -/

namespace Verif

open Finset

section
variable {m : NMem} {l r : Nat} {s s' : NState}

theorem g8_ready_pre (h : G8Loaded m s s') (ha : ∀ c, c < 4 → s'.v (24 + c) = fun _ => 0#8) (hk : s'.ok = true)
    (h10 : s.x 10 = ⟨0, l⟩) (h11 : s.x 11 = ⟨1, r⟩) (h14 : s.x 14 = ⟨6, 0⟩) : G8Ready m l r s' where
  acc := ha
  r := by rw [h.r, h11]
  l := by intro q hq; rw [h.l q hq, h10]
  xl := by rw [h.xl, h10]; rfl
  xr := by rw [h.xr, h11]; rfl
  x14 := by rw [h.x14, h14]
  ok := hk

theorem g8_ready_zero {F : FOps} (h : G8Loaded m s s') (hk : s'.ok = true)
    (h10 : s.x 10 = ⟨0, l⟩) (h11 : s.x 11 = ⟨1, r⟩) (h14 : s.x 14 = ⟨6, 0⟩) : G8Ready m l r (nExecs F m (gOps 0) g8Zero s') where
  acc := g8_zero_acc F m _ s'
  r := by rw [g8_zero_v F m _ s' 8 (by omega), h.r, h11]
  l := by intro q hq; rw [g8_zero_v F m _ s' q (by omega), h.l q hq, h10]
  xl := by rw [g8_zero_x, h.xl, h10]; rfl
  xr := by rw [g8_zero_x, h.xr, h11]; rfl
  x14 := by rw [g8_zero_x, h.x14, h14]
  ok := by rw [g8_zero_ok, hk]

theorem g4_ready_pre (h : G4Loaded m s s') (ha : ∀ c, c < 4 → s'.v (24 + c) = fun _ => 0#8) (hk : s'.ok = true)
    (h10 : s.x 10 = ⟨0, l⟩) (h11 : s.x 11 = ⟨1, r⟩) (h14 : s.x 14 = ⟨6, 0⟩) : G4Ready m l r s' where
  acc := ha
  r := by intro q hq; rw [h.r q hq, h11]
  l := by intro q hq; rw [h.l q hq, h10]
  xl := by rw [h.xl, h10]; rfl
  xr := by rw [h.xr, h11]; rfl
  x14 := by rw [h.x14, h14]
  ok := hk

theorem g4_ready_zero {F : FOps} (h : G4Loaded m s s') (hk : s'.ok = true)
    (h10 : s.x 10 = ⟨0, l⟩) (h11 : s.x 11 = ⟨1, r⟩) (h14 : s.x 14 = ⟨6, 0⟩) : G4Ready m l r (nExecs F m (gOps 0) g4Zero s') where
  acc := g4_zero_acc F m _ s'
  r := by intro q hq; rw [g4_zero_v F m _ s' (4 + q) (by omega), h.r q hq, h11]
  l := by intro q hq; rw [g4_zero_v F m _ s' q (by omega), h.l q hq, h10]
  xl := by rw [g4_zero_x, h.xl, h10]; rfl
  xr := by rw [g4_zero_x, h.xr, h11]; rfl
  x14 := by rw [g4_zero_x, h.x14, h14]
  ok := by rw [g4_zero_ok, hk]

end

/-- The accumulator of column `c` and row `r` of a block. -/
def gSum (m : NMem) (kr nb l r : Nat) (c i : Nat) : Nat := ∑ n ∈ range nb, gS m kr l r n c i

/-- The results of a block: `fr` of the accumulator, the multiplier and the bias. -/
def GRes {α : Type} (m : NMem) (kr nb w : Nat) (res : (Nat → Nat → BitVec 8) → Nat → Nat → α)
    (fr : BitVec w → Word → Word → α) (row l r : Nat) (v : Nat → Nat → BitVec 8) : Prop :=
  ∀ c i, c < 4 → i < kr → res v c i = fr (BitVec.ofNat w (gSum m kr nb l r c i)) (m.word ⟨4, 4 * row + 4 * i⟩) (m.word ⟨5, 4 * row + 4 * i⟩)

/-- The bits of a block. -/
def GResB (m : NMem) (nb : Nat) (row l r : Nat) (v : Nat → Nat → BitVec 8) : Prop :=
  ∀ c i, c < 4 → i < 8 → (v (20 + c) 0).getLsbD i = gBit (BitVec.ofNat 16 (gSum m 8 nb l r c i)) (m.word ⟨4, 4 * row + 4 * i⟩)

section
variable {F : FOps} {m : NMem} {depth : Nat} (h4 : depth % 4 = 0) (hd : 4 ≤ depth) (h6 : 88 ≤ m.size 6)
include h4 hd h6

/-- The 8x4 kernel, float and int8. -/
theorem gKern8_facts {α : Type} {K : GKern α} {res : (Nat → Nat → BitVec 8) → Nat → Nat → α} {fr : BitVec 16 → Word → Word → α}
    (hpre : K.pre = g8Pre) (hacc : K.acc = g8Accum) (hzero : K.zero = g8Zero)
    (p72 : m.ptr 6 72 = ⟨4, 0⟩) (p80 : m.ptr 6 80 = ⟨5, 0⟩)
    (hload : ∀ o s, G8Loaded m s (nExecs F m o K.ot s))
    (hok : ∀ o s, (nExecs F m o K.ot s).ok = (g8OtOkList m o s).foldl (fun b p => b && p) s.ok)
    (hres : ∀ (o : NOps) (s : NState), s.x 14 = ⟨6, 0⟩ → ∀ c i, c < 4 → i < 8 → res (nExecs F m o K.ot s).v c i
      = fr (laneHalf (s.v (24 + c)) i) (m.word ⟨4, 4 * o.cIdx + 4 * i⟩) (m.word ⟨5, 4 * o.cIdx + 4 * i⟩)) :
    K.Facts F m depth (fun l => l + 32 * depth ≤ m.size 0) (fun r => r + 16 * depth ≤ m.size 1)
      (fun row => 4 * row + 32 ≤ m.size 4 ∧ 4 * row + 32 ≤ m.size 5) (G8Ready m) (GRes m 8 (depth / 4) 16 res fr) where
  pre := by
    intro l r s hl hr h10 h11 h14 hk
    rw [hpre]
    have ok' := g8_pre_ok F m (gOps 0) s hk (by rw [h10]; show l + 128 ≤ m.size 0; omega) (by rw [h11]; show r + 16 ≤ m.size 1; omega)
    exact ⟨ok', g8_ready_pre (g8_pre F m _ s) (g8_pre_acc F m _ s) ok' h10 h11 h14, (g8_pre F m _ s).x12, (g8_pre F m _ s).x13⟩
  step := by
    intro l r s hl hr hs
    obtain ⟨s1, e1, e2, _⟩ := g8Accum_eq (F := F) hs h4 hd hl hr
    rw [hacc, hzero]
    refine ⟨s1, e1, e2.x12, e2.x13, e2.x14.trans hs.x14, ?_⟩
    intro row l' r' x' hrow hl' hr' h10 h11 h14
    have ok' : (nExecs F m (gOps row) K.ot { s1 with x := x' }).ok = true := by
      rw [hok]
      exact g8OtOkList_ok m (gOps row) { s1 with x := x' } e2.ok h14 p72 p80 h6 hrow.1 hrow.2
        (by simp only [h10]; omega) (by simp only [h11]; omega)
    have hld := hload (gOps row) { s1 with x := x' }
    refine ⟨ok', ?_, g8_ready_zero hld ok' h10 h11 h14, ?_, ?_⟩
    · intro c i hc hi
      rw [hres (gOps row) { s1 with x := x' } h14 c i hc hi]
      simp only
      have := e2.acc c i hc hi
      unfold cell16 at this
      rw [this]
      rfl
    · rw [g8_zero_x]; exact hld.x12
    · rw [g8_zero_x]; exact hld.x13

/-- The 8x4 kernel, bitpacked. -/
theorem gKern8B_facts (p64 : m.ptr 6 64 = ⟨4, 0⟩) :
    gKern8B.Facts F m depth (fun l => l + 32 * depth ≤ m.size 0) (fun r => r + 16 * depth ≤ m.size 1)
      (fun row => 4 * row + 32 ≤ m.size 4) (fun l r s => G8Ready m l r s ∧ ∀ j, j < 16 → s.v 31 j = g8Mask j)
      (GResB m (depth / 4)) where
  pre := by
    intro l r s hl hr h10 h11 h14 hk
    have ok' := g8_preB_ok F m (gOps 0) s g8MaskX2 g8MaskX3 hk (by rw [h10]; show l + 128 ≤ m.size 0; omega)
      (by rw [h11]; show r + 16 ≤ m.size 1; omega)
    have hld := g8_preB_loaded F m (gOps 0) s g8MaskX2 g8MaskX3
    refine ⟨ok', ⟨g8_ready_pre hld (g8_preB_acc F m _ s _ _) ok' h10 h11 h14, ?_⟩, hld.x12, hld.x13⟩
    intro j hj
    have e := g8_preB_31 F m (gOps 0) s g8MaskX2 g8MaskX3
    unfold gKern8B
    rw [e]
    unfold g8Mask
    by_cases h8 : j / 8 = 1
    · simp only [if_pos h8]
    · have h0 : j / 8 = 0 := by omega
      simp only [if_neg h8, if_pos h0]
  step := by
    rintro l r s hl hr ⟨hs, h31⟩
    obtain ⟨s1, e1, e2, e3⟩ := g8Accum_eq (F := F) hs h4 hd hl hr
    unfold gKern8B
    refine ⟨s1, e1, e2.x12, e2.x13, e2.x14.trans hs.x14, ?_⟩
    intro row l' r' x' hrow hl' hr' h10 h11 h14
    have ok' : (nExecs F m (gOps row) g8OtB { s1 with x := x' }).ok = true :=
      g8_otB_ok F m (gOps row) { s1 with x := x' } e2.ok h14 p64 h6 hrow (by simp only [h10]; omega) (by simp only [h11]; omega)
    have hld := g8_otB_loaded F m (gOps row) { s1 with x := x' }
    refine ⟨ok', ?_, ⟨g8_ready_zero hld ok' h10 h11 h14, ?_⟩, ?_, ?_⟩
    · intro c i hc hi
      rw [g8_resB F m (gOps row) { s1 with x := x' } h14 p64 (fun j hj => by simp only; rw [e3]; exact h31 j hj) c i hc hi]
      simp only
      have := e2.acc c i hc hi
      unfold cell16 at this
      rw [this]
      rfl
    · intro j hj
      rw [g8_zero_v F m _ _ 31 (by omega), g8_otB_31]
      simp only
      rw [e3]
      exact h31 j hj
    · rw [g8_zero_x]; exact hld.x12
    · rw [g8_zero_x]; exact hld.x13

omit h6 in
theorem g4Blocks_pos (stream : Bool) : 1 ≤ g4Blocks stream depth := by
  unfold g4Blocks
  split
  · split <;> omega
  · omega

/-- The 4x4 kernel. -/
theorem gKern4_facts (stream : Bool) {α : Type} {K : GKern α} {res : (Nat → Nat → BitVec 8) → Nat → Nat → α}
    {fr : BitVec 32 → Word → Word → α}
    (hpre : K.pre = g4Pre) (hacc : K.acc = g4Accum stream) (hzero : K.zero = g4Zero)
    (p72 : m.ptr 6 72 = ⟨4, 0⟩) (p80 : m.ptr 6 80 = ⟨5, 0⟩)
    (hload : ∀ o s, G4Loaded m s (nExecs F m o K.ot s))
    (hok : ∀ o s, (nExecs F m o K.ot s).ok = (g4OtOkList m o s).foldl (fun b p => b && p) s.ok)
    (hres : ∀ (o : NOps) (s : NState), s.x 14 = ⟨6, 0⟩ → ∀ c i, c < 4 → i < 4 → res (nExecs F m o K.ot s).v c i
      = fr (laneWord (s.v (24 + c)) i) (m.word ⟨4, 4 * o.cIdx + 4 * i⟩) (m.word ⟨5, 4 * o.cIdx + 4 * i⟩)) :
    K.Facts F m depth (fun l => l + 64 * g4Blocks stream depth ≤ m.size 0) (fun r => r + 64 * g4Blocks stream depth ≤ m.size 1)
      (fun row => 4 * row + 16 ≤ m.size 4 ∧ 4 * row + 16 ≤ m.size 5) (G4Ready m) (GRes m 4 (g4Blocks stream depth) 32 res fr) where
  pre := by
    intro l r s hl hr h10 h11 h14 hk
    have hb := g4Blocks_pos h4 hd stream
    rw [hpre]
    have ok' := g4_pre_ok F m (gOps 0) s hk (by rw [h10]; show l + 64 ≤ m.size 0; omega) (by rw [h11]; show r + 64 ≤ m.size 1; omega)
    exact ⟨ok', g4_ready_pre (g4_pre F m _ s) (g4_pre_acc F m _ s) ok' h10 h11 h14, (g4_pre F m _ s).x12, (g4_pre F m _ s).x13⟩
  step := by
    intro l r s hl hr hs
    have hb := g4Blocks_pos h4 hd stream
    obtain ⟨s1, e1, e2⟩ := g4Accum_eq (F := F) stream hs h4 hd hl hr
    rw [hacc, hzero]
    refine ⟨s1, e1, e2.x12, e2.x13, e2.x14.trans hs.x14, ?_⟩
    intro row l' r' x' hrow hl' hr' h10 h11 h14
    have ok' : (nExecs F m (gOps row) K.ot { s1 with x := x' }).ok = true := by
      rw [hok]
      exact g4OtOkList_ok m (gOps row) { s1 with x := x' } e2.ok h14 p72 p80 h6 hrow.1 hrow.2
        (by simp only [h10]; omega) (by simp only [h11]; omega)
    have hld := hload (gOps row) { s1 with x := x' }
    refine ⟨ok', ?_, g4_ready_zero hld ok' h10 h11 h14, ?_, ?_⟩
    · intro c i hc hi
      rw [hres (gOps row) { s1 with x := x' } h14 c i hc hi]
      simp only
      have := e2.acc c i hc hi
      unfold cell32 at this
      rw [this]
      rfl
    · rw [g4_zero_x]; exact hld.x12
    · rw [g4_zero_x]; exact hld.x13

end

end Verif
