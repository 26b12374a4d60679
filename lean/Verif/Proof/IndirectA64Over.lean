import Verif.Proof.IndirectA64Final
import Verif.Proof.GemmA64Over

/-! The Aarch64 indirect kernels with too few multipliers, or with nothing behind the activations: which loads they need. -/

namespace Verif

/-- What the output transform must be able to load. -/
structure OtNeed (bd : Nat) (m : NMem) (o : NOps) (x : Nat → NAddr) : Prop where
  mult : 4 * o.cIdx + 32 ≤ m.size 4
  act : ∀ k, k < 4 → (nInd m x k).off + 4 * o.off + 4 * bd ≤ m.size (nInd m x k).obj

section
variable (F : FOps) (m : NMem) (o : NOps) (s : NState)

theorem x1_otF_need (g : Bool) (x : Nat → NAddr) (hg : g = false → o.off = 0) (p8 : m.ptr 6 8 = ⟨4, 0⟩)
    (h : (nExecs F m o (kernelX1.otF g) { s with x := nOtRegs o.cIdx x }).ok = true) : OtNeed 1 m o x := by
  cases g
  · have e : (nExecs F m o (kernelX1.otF false) { s with x := nOtRegs o.cIdx x }).ok =
        [decide ((x 21).off + 0 + 16 ≤ m.size (x 21).obj),
        decide ((x 21).off + 16 + 16 ≤ m.size (x 21).obj),
        decide (0 + 4 ≤ m.size 6),
        decide (4 + 4 ≤ m.size 6),
        decide (4 * o.cIdx + 0 + 16 ≤ m.size 4),
        decide (4 * o.cIdx + 16 + 16 ≤ m.size 4),
        decide (4 * o.cIdx + 0 + 16 ≤ m.size 5),
        decide (4 * o.cIdx + 16 + 16 ≤ m.size 5),
        decide ((nInd m x 0).off + 4 ≤ m.size (nInd m x 0).obj),
        decide ((nInd m x 1).off + 4 ≤ m.size (nInd m x 1).obj),
        decide ((nInd m x 2).off + 4 ≤ m.size (nInd m x 2).obj),
        decide ((nInd m x 3).off + 4 ≤ m.size (nInd m x 3).obj),
        decide (32 ≤ (x 20).off ∧ (x 20).off - 32 + 16 ≤ m.size (x 20).obj),
        decide (16 ≤ (x 20).off ∧ (x 20).off - 16 + 16 ≤ m.size (x 20).obj)].foldl (fun b p => b && p) s.ok := by kernel_rfl
    have h0 := hg rfl
    rw [e] at h
    simp only [List.foldl_cons, List.foldl_nil, Bool.and_eq_true, decide_eq_true_eq] at h
    exact ⟨by omega, fin4 (by omega) (by omega) (by omega) (by omega)⟩
  · have e : (nExecs F m o (kernelX1.otF true) { s with x := nOtRegs o.cIdx x }).ok =
        [decide ((x 21).off + 0 + 16 ≤ m.size (x 21).obj),
        decide ((x 21).off + 16 + 16 ≤ m.size (x 21).obj),
        decide (0 + 4 ≤ m.size 6),
        decide (4 + 4 ≤ m.size 6),
        decide (4 * o.cIdx + 0 + 16 ≤ m.size 4),
        decide (4 * o.cIdx + 16 + 16 ≤ m.size 4),
        decide (4 * o.cIdx + 0 + 16 ≤ m.size 5),
        decide (4 * o.cIdx + 16 + 16 ≤ m.size 5),
        decide ((nInd m x 0).off + 4 * o.off + 4 ≤ m.size (nInd m x 0).obj),
        decide ((nInd m x 1).off + 4 * o.off + 4 ≤ m.size (nInd m x 1).obj),
        decide ((nInd m x 2).off + 4 * o.off + 4 ≤ m.size (nInd m x 2).obj),
        decide ((nInd m x 3).off + 4 * o.off + 4 ≤ m.size (nInd m x 3).obj),
        decide (32 ≤ (x 20).off ∧ (x 20).off - 32 + 16 ≤ m.size (x 20).obj),
        decide (16 ≤ (x 20).off ∧ (x 20).off - 16 + 16 ≤ m.size (x 20).obj)].foldl (fun b p => b && p) s.ok := by kernel_rfl
    rw [e] at h
    simp only [List.foldl_cons, List.foldl_nil, Bool.and_eq_true, decide_eq_true_eq] at h
    exact ⟨by omega, fin4 (by omega) (by omega) (by omega) (by omega)⟩

theorem x1_otI_need (g : Bool) (x : Nat → NAddr) (hg : g = false → o.off = 0) (p8 : m.ptr 6 8 = ⟨4, 0⟩)
    (h : (nExecs F m o (kernelX1.otI g) { s with x := nOtRegs o.cIdx x }).ok = true) : OtNeed 1 m o x := by
  cases g
  · have e : (nExecs F m o (kernelX1.otI false) { s with x := nOtRegs o.cIdx x }).ok =
        [decide ((x 21).off + 0 + 16 ≤ m.size (x 21).obj),
        decide ((x 21).off + 16 + 16 ≤ m.size (x 21).obj),
        decide (0 + 4 ≤ m.size 6),
        decide (4 + 4 ≤ m.size 6),
        decide (4 * o.cIdx + 0 + 16 ≤ m.size 4),
        decide (4 * o.cIdx + 16 + 16 ≤ m.size 4),
        decide (4 * o.cIdx + 0 + 16 ≤ m.size 5),
        decide (4 * o.cIdx + 16 + 16 ≤ m.size 5),
        decide ((nInd m x 0).off + 4 ≤ m.size (nInd m x 0).obj),
        decide ((nInd m x 1).off + 4 ≤ m.size (nInd m x 1).obj),
        decide ((nInd m x 2).off + 4 ≤ m.size (nInd m x 2).obj),
        decide ((nInd m x 3).off + 4 ≤ m.size (nInd m x 3).obj),
        decide (32 ≤ (x 20).off ∧ (x 20).off - 32 + 16 ≤ m.size (x 20).obj),
        decide (16 ≤ (x 20).off ∧ (x 20).off - 16 + 16 ≤ m.size (x 20).obj)].foldl (fun b p => b && p) s.ok := by kernel_rfl
    have h0 := hg rfl
    rw [e] at h
    simp only [List.foldl_cons, List.foldl_nil, Bool.and_eq_true, decide_eq_true_eq] at h
    exact ⟨by omega, fin4 (by omega) (by omega) (by omega) (by omega)⟩
  · have e : (nExecs F m o (kernelX1.otI true) { s with x := nOtRegs o.cIdx x }).ok =
        [decide ((x 21).off + 0 + 16 ≤ m.size (x 21).obj),
        decide ((x 21).off + 16 + 16 ≤ m.size (x 21).obj),
        decide (0 + 4 ≤ m.size 6),
        decide (4 + 4 ≤ m.size 6),
        decide (4 * o.cIdx + 0 + 16 ≤ m.size 4),
        decide (4 * o.cIdx + 16 + 16 ≤ m.size 4),
        decide (4 * o.cIdx + 0 + 16 ≤ m.size 5),
        decide (4 * o.cIdx + 16 + 16 ≤ m.size 5),
        decide ((nInd m x 0).off + 4 * o.off + 4 ≤ m.size (nInd m x 0).obj),
        decide ((nInd m x 1).off + 4 * o.off + 4 ≤ m.size (nInd m x 1).obj),
        decide ((nInd m x 2).off + 4 * o.off + 4 ≤ m.size (nInd m x 2).obj),
        decide ((nInd m x 3).off + 4 * o.off + 4 ≤ m.size (nInd m x 3).obj),
        decide (32 ≤ (x 20).off ∧ (x 20).off - 32 + 16 ≤ m.size (x 20).obj),
        decide (16 ≤ (x 20).off ∧ (x 20).off - 16 + 16 ≤ m.size (x 20).obj)].foldl (fun b p => b && p) s.ok := by kernel_rfl
    rw [e] at h
    simp only [List.foldl_cons, List.foldl_nil, Bool.and_eq_true, decide_eq_true_eq] at h
    exact ⟨by omega, fin4 (by omega) (by omega) (by omega) (by omega)⟩

theorem x2_otF_need (g : Bool) (x : Nat → NAddr) (hg : g = false → o.off = 0) (p8 : m.ptr 6 8 = ⟨4, 0⟩)
    (h : (nExecs F m o (kernelX2.otF g) { s with x := nOtRegs o.cIdx x }).ok = true) : OtNeed 2 m o x := by
  cases g
  · have e : (nExecs F m o (kernelX2.otF false) { s with x := nOtRegs o.cIdx x }).ok =
        [decide ((x 21).off + 0 + 16 ≤ m.size (x 21).obj),
        decide ((x 21).off + 16 + 16 ≤ m.size (x 21).obj),
        decide (0 + 4 ≤ m.size 6),
        decide (4 + 4 ≤ m.size 6),
        decide (4 * o.cIdx + 0 + 16 ≤ m.size 4),
        decide (4 * o.cIdx + 16 + 16 ≤ m.size 4),
        decide (4 * o.cIdx + 0 + 16 ≤ m.size 5),
        decide (4 * o.cIdx + 16 + 16 ≤ m.size 5),
        decide (64 ≤ (x 20).off ∧ (x 20).off - 64 + 16 ≤ m.size (x 20).obj),
        decide (48 ≤ (x 20).off ∧ (x 20).off - 48 + 16 ≤ m.size (x 20).obj),
        decide ((nInd m x 0).off + 8 ≤ m.size (nInd m x 0).obj),
        decide ((nInd m x 1).off + 8 ≤ m.size (nInd m x 1).obj),
        decide ((nInd m x 2).off + 8 ≤ m.size (nInd m x 2).obj),
        decide ((nInd m x 3).off + 8 ≤ m.size (nInd m x 3).obj),
        decide ((nInd m x 0).off + 8 ≤ m.size (nInd m x 0).obj),
        decide ((nInd m x 1).off + 8 ≤ m.size (nInd m x 1).obj),
        decide ((nInd m x 2).off + 8 ≤ m.size (nInd m x 2).obj),
        decide ((nInd m x 3).off + 8 ≤ m.size (nInd m x 3).obj),
        decide (32 ≤ (x 20).off ∧ (x 20).off - 32 + 16 ≤ m.size (x 20).obj),
        decide (16 ≤ (x 20).off ∧ (x 20).off - 16 + 16 ≤ m.size (x 20).obj)].foldl (fun b p => b && p) s.ok := by kernel_rfl
    have h0 := hg rfl
    rw [e] at h
    simp only [List.foldl_cons, List.foldl_nil, Bool.and_eq_true, decide_eq_true_eq] at h
    exact ⟨by omega, fin4 (by omega) (by omega) (by omega) (by omega)⟩
  · have e : (nExecs F m o (kernelX2.otF true) { s with x := nOtRegs o.cIdx x }).ok =
        [decide ((x 21).off + 0 + 16 ≤ m.size (x 21).obj),
        decide ((x 21).off + 16 + 16 ≤ m.size (x 21).obj),
        decide (0 + 4 ≤ m.size 6),
        decide (4 + 4 ≤ m.size 6),
        decide (4 * o.cIdx + 0 + 16 ≤ m.size 4),
        decide (4 * o.cIdx + 16 + 16 ≤ m.size 4),
        decide (4 * o.cIdx + 0 + 16 ≤ m.size 5),
        decide (4 * o.cIdx + 16 + 16 ≤ m.size 5),
        decide (64 ≤ (x 20).off ∧ (x 20).off - 64 + 16 ≤ m.size (x 20).obj),
        decide (48 ≤ (x 20).off ∧ (x 20).off - 48 + 16 ≤ m.size (x 20).obj),
        decide ((nInd m x 0).off + 4 * o.off + 8 ≤ m.size (nInd m x 0).obj),
        decide ((nInd m x 1).off + 4 * o.off + 8 ≤ m.size (nInd m x 1).obj),
        decide ((nInd m x 2).off + 4 * o.off + 8 ≤ m.size (nInd m x 2).obj),
        decide ((nInd m x 3).off + 4 * o.off + 8 ≤ m.size (nInd m x 3).obj),
        decide ((nInd m x 0).off + 4 * o.off + 8 ≤ m.size (nInd m x 0).obj),
        decide ((nInd m x 1).off + 4 * o.off + 8 ≤ m.size (nInd m x 1).obj),
        decide ((nInd m x 2).off + 4 * o.off + 8 ≤ m.size (nInd m x 2).obj),
        decide ((nInd m x 3).off + 4 * o.off + 8 ≤ m.size (nInd m x 3).obj),
        decide (32 ≤ (x 20).off ∧ (x 20).off - 32 + 16 ≤ m.size (x 20).obj),
        decide (16 ≤ (x 20).off ∧ (x 20).off - 16 + 16 ≤ m.size (x 20).obj)].foldl (fun b p => b && p) s.ok := by kernel_rfl
    rw [e] at h
    simp only [List.foldl_cons, List.foldl_nil, Bool.and_eq_true, decide_eq_true_eq] at h
    exact ⟨by omega, fin4 (by omega) (by omega) (by omega) (by omega)⟩

theorem x2_otI_need (g : Bool) (x : Nat → NAddr) (hg : g = false → o.off = 0) (p8 : m.ptr 6 8 = ⟨4, 0⟩)
    (h : (nExecs F m o (kernelX2.otI g) { s with x := nOtRegs o.cIdx x }).ok = true) : OtNeed 2 m o x := by
  cases g
  · have e : (nExecs F m o (kernelX2.otI false) { s with x := nOtRegs o.cIdx x }).ok =
        [decide ((x 21).off + 0 + 16 ≤ m.size (x 21).obj),
        decide ((x 21).off + 16 + 16 ≤ m.size (x 21).obj),
        decide (0 + 4 ≤ m.size 6),
        decide (4 + 4 ≤ m.size 6),
        decide (4 * o.cIdx + 0 + 16 ≤ m.size 4),
        decide (4 * o.cIdx + 16 + 16 ≤ m.size 4),
        decide (4 * o.cIdx + 0 + 16 ≤ m.size 5),
        decide (4 * o.cIdx + 16 + 16 ≤ m.size 5),
        decide (64 ≤ (x 20).off ∧ (x 20).off - 64 + 16 ≤ m.size (x 20).obj),
        decide (48 ≤ (x 20).off ∧ (x 20).off - 48 + 16 ≤ m.size (x 20).obj),
        decide ((nInd m x 0).off + 8 ≤ m.size (nInd m x 0).obj),
        decide ((nInd m x 1).off + 8 ≤ m.size (nInd m x 1).obj),
        decide ((nInd m x 2).off + 8 ≤ m.size (nInd m x 2).obj),
        decide ((nInd m x 3).off + 8 ≤ m.size (nInd m x 3).obj),
        decide ((nInd m x 0).off + 8 ≤ m.size (nInd m x 0).obj),
        decide ((nInd m x 1).off + 8 ≤ m.size (nInd m x 1).obj),
        decide ((nInd m x 2).off + 8 ≤ m.size (nInd m x 2).obj),
        decide ((nInd m x 3).off + 8 ≤ m.size (nInd m x 3).obj),
        decide (32 ≤ (x 20).off ∧ (x 20).off - 32 + 16 ≤ m.size (x 20).obj),
        decide (16 ≤ (x 20).off ∧ (x 20).off - 16 + 16 ≤ m.size (x 20).obj)].foldl (fun b p => b && p) s.ok := by kernel_rfl
    have h0 := hg rfl
    rw [e] at h
    simp only [List.foldl_cons, List.foldl_nil, Bool.and_eq_true, decide_eq_true_eq] at h
    exact ⟨by omega, fin4 (by omega) (by omega) (by omega) (by omega)⟩
  · have e : (nExecs F m o (kernelX2.otI true) { s with x := nOtRegs o.cIdx x }).ok =
        [decide ((x 21).off + 0 + 16 ≤ m.size (x 21).obj),
        decide ((x 21).off + 16 + 16 ≤ m.size (x 21).obj),
        decide (0 + 4 ≤ m.size 6),
        decide (4 + 4 ≤ m.size 6),
        decide (4 * o.cIdx + 0 + 16 ≤ m.size 4),
        decide (4 * o.cIdx + 16 + 16 ≤ m.size 4),
        decide (4 * o.cIdx + 0 + 16 ≤ m.size 5),
        decide (4 * o.cIdx + 16 + 16 ≤ m.size 5),
        decide (64 ≤ (x 20).off ∧ (x 20).off - 64 + 16 ≤ m.size (x 20).obj),
        decide (48 ≤ (x 20).off ∧ (x 20).off - 48 + 16 ≤ m.size (x 20).obj),
        decide ((nInd m x 0).off + 4 * o.off + 8 ≤ m.size (nInd m x 0).obj),
        decide ((nInd m x 1).off + 4 * o.off + 8 ≤ m.size (nInd m x 1).obj),
        decide ((nInd m x 2).off + 4 * o.off + 8 ≤ m.size (nInd m x 2).obj),
        decide ((nInd m x 3).off + 4 * o.off + 8 ≤ m.size (nInd m x 3).obj),
        decide ((nInd m x 0).off + 4 * o.off + 8 ≤ m.size (nInd m x 0).obj),
        decide ((nInd m x 1).off + 4 * o.off + 8 ≤ m.size (nInd m x 1).obj),
        decide ((nInd m x 2).off + 4 * o.off + 8 ≤ m.size (nInd m x 2).obj),
        decide ((nInd m x 3).off + 4 * o.off + 8 ≤ m.size (nInd m x 3).obj),
        decide (32 ≤ (x 20).off ∧ (x 20).off - 32 + 16 ≤ m.size (x 20).obj),
        decide (16 ≤ (x 20).off ∧ (x 20).off - 16 + 16 ≤ m.size (x 20).obj)].foldl (fun b p => b && p) s.ok := by kernel_rfl
    rw [e] at h
    simp only [List.foldl_cons, List.foldl_nil, Bool.and_eq_true, decide_eq_true_eq] at h
    exact ⟨by omega, fin4 (by omega) (by omega) (by omega) (by omega)⟩

theorem x4_otF_need (g : Bool) (x : Nat → NAddr) (hg : g = false → o.off = 0) (p8 : m.ptr 6 8 = ⟨4, 0⟩)
    (h : (nExecs F m o (kernelX4.otF g) { s with x := nOtRegs o.cIdx x }).ok = true) : OtNeed 4 m o x := by
  have e : (nExecs F m o (kernelX4.otF g) { s with x := nOtRegs o.cIdx x }).ok =
      [decide (0 + 8 + 8 ≤ m.size 6),
      decide (0 + 4 ≤ m.size 6),
      decide (0 + 4 + 4 ≤ m.size 6),
      decide ((m.ptr 6 8).off + 4 * o.cIdx + 0 + 16 ≤ m.size (m.ptr 6 8).obj),
      decide ((m.ptr 6 8).off + 4 * o.cIdx + 16 + 16 ≤ m.size (m.ptr 6 8).obj),
      decide ((x 21).off + 0 + 16 ≤ m.size (x 21).obj),
      decide ((x 21).off + 16 + 16 ≤ m.size (x 21).obj),
      decide (128 ≤ (x 20).off ∧ (x 20).off - 128 + 16 ≤ m.size (x 20).obj),
      decide (112 ≤ (x 20).off ∧ (x 20).off - 112 + 16 ≤ m.size (x 20).obj),
      decide ((nInd m x 0).off + 4 * o.off + 16 ≤ m.size (nInd m x 0).obj),
      decide (0 + 16 + 8 ≤ m.size 6),
      decide ((nInd m x 1).off + 4 * o.off + 16 ≤ m.size (nInd m x 1).obj),
      decide ((nInd m x 2).off + 4 * o.off + 16 ≤ m.size (nInd m x 2).obj),
      decide ((m.ptr 6 16).off + 4 * o.cIdx + 0 + 16 ≤ m.size (m.ptr 6 16).obj),
      decide ((nInd m x 3).off + 4 * o.off + 16 ≤ m.size (nInd m x 3).obj),
      decide ((m.ptr 6 16).off + 4 * o.cIdx + 16 + 16 ≤ m.size (m.ptr 6 16).obj),
      decide (96 ≤ (x 20).off ∧ (x 20).off - 96 + 16 ≤ m.size (x 20).obj),
      decide (80 ≤ (x 20).off ∧ (x 20).off - 80 + 16 ≤ m.size (x 20).obj),
      decide (64 ≤ (x 20).off ∧ (x 20).off - 64 + 16 ≤ m.size (x 20).obj),
      decide (48 ≤ (x 20).off ∧ (x 20).off - 48 + 16 ≤ m.size (x 20).obj),
      decide (32 ≤ (x 20).off ∧ (x 20).off - 32 + 16 ≤ m.size (x 20).obj),
      decide (16 ≤ (x 20).off ∧ (x 20).off - 16 + 16 ≤ m.size (x 20).obj)].foldl (fun b p => b && p) s.ok := by kernel_rfl
  rw [e] at h
  simp only [p8, List.foldl_cons, List.foldl_nil, Bool.and_eq_true, decide_eq_true_eq] at h
  exact ⟨by omega, fin4 (by omega) (by omega) (by omega) (by omega)⟩

theorem x4_otI_need (g : Bool) (x : Nat → NAddr) (hg : g = false → o.off = 0) (p8 : m.ptr 6 8 = ⟨4, 0⟩)
    (h : (nExecs F m o (kernelX4.otI g) { s with x := nOtRegs o.cIdx x }).ok = true) : OtNeed 4 m o x := by
  have e : (nExecs F m o (kernelX4.otI g) { s with x := nOtRegs o.cIdx x }).ok =
      [decide (0 + 8 + 8 ≤ m.size 6),
      decide (0 + 4 ≤ m.size 6),
      decide (0 + 4 + 4 ≤ m.size 6),
      decide ((m.ptr 6 8).off + 4 * o.cIdx + 0 + 16 ≤ m.size (m.ptr 6 8).obj),
      decide ((m.ptr 6 8).off + 4 * o.cIdx + 16 + 16 ≤ m.size (m.ptr 6 8).obj),
      decide ((x 21).off + 0 + 16 ≤ m.size (x 21).obj),
      decide ((x 21).off + 16 + 16 ≤ m.size (x 21).obj),
      decide (128 ≤ (x 20).off ∧ (x 20).off - 128 + 16 ≤ m.size (x 20).obj),
      decide (112 ≤ (x 20).off ∧ (x 20).off - 112 + 16 ≤ m.size (x 20).obj),
      decide ((nInd m x 0).off + 4 * o.off + 16 ≤ m.size (nInd m x 0).obj),
      decide (0 + 16 + 8 ≤ m.size 6),
      decide ((nInd m x 1).off + 4 * o.off + 16 ≤ m.size (nInd m x 1).obj),
      decide ((nInd m x 2).off + 4 * o.off + 16 ≤ m.size (nInd m x 2).obj),
      decide ((m.ptr 6 16).off + 4 * o.cIdx + 0 + 16 ≤ m.size (m.ptr 6 16).obj),
      decide ((nInd m x 3).off + 4 * o.off + 16 ≤ m.size (nInd m x 3).obj),
      decide ((m.ptr 6 16).off + 4 * o.cIdx + 16 + 16 ≤ m.size (m.ptr 6 16).obj),
      decide (96 ≤ (x 20).off ∧ (x 20).off - 96 + 16 ≤ m.size (x 20).obj),
      decide (80 ≤ (x 20).off ∧ (x 20).off - 80 + 16 ≤ m.size (x 20).obj),
      decide (64 ≤ (x 20).off ∧ (x 20).off - 64 + 16 ≤ m.size (x 20).obj),
      decide (48 ≤ (x 20).off ∧ (x 20).off - 48 + 16 ≤ m.size (x 20).obj),
      decide (32 ≤ (x 20).off ∧ (x 20).off - 32 + 16 ≤ m.size (x 20).obj),
      decide (16 ≤ (x 20).off ∧ (x 20).off - 16 + 16 ≤ m.size (x 20).obj)].foldl (fun b p => b && p) s.ok := by kernel_rfl
  rw [e] at h
  simp only [p8, List.foldl_cons, List.foldl_nil, Bool.and_eq_true, decide_eq_true_eq] at h
  exact ⟨by omega, fin4 (by omega) (by omega) (by omega) (by omega)⟩

end

theorem forFrom_none {σ : Type _} {body : Nat → σ → Option σ} {i : Nat} (h : ∀ s, body i s = none) :
    ∀ (n k : Nat) (s : σ), k ≤ i → i < k + n → forFrom body n k s = none
  | 0, k, s, h1, h2 => by omega
  | n + 1, k, s, h1, h2 => by
    unfold forFrom
    by_cases e : k = i
    · rw [e, h]; rfl
    · cases hb : body k s with
      | none => rfl
      | some s' =>
        rw [Option.bind_some]
        exact forFrom_none h n (k + 1) s' (by omega) (by omega)

theorem forN_none {σ : Type _} {body : Nat → σ → Option σ} {n i : Nat} {s : σ} (hi : i < n) (h : ∀ s, body i s = none) :
    forN n body s = none := forFrom_none h n 0 s (by omega) (by omega)

theorem nAccum_x21 {A : NKernel} {F : FOps} {m : NMem} {d2 g : Bool} {o : NOps} {fs : Nat} {s s' : NState}
    (h : nAccum A F m d2 g o fs s = some s') : s'.x 21 = s.x 21 := by
  unfold nAccum at h
  rw [Option.bind_eq_some_iff] at h
  obtain ⟨s1, h1, h2⟩ := h
  rw [Option.map_eq_some_iff] at h1
  obtain ⟨s0, _, rfl⟩ := h1
  unfold nCheck at h2
  split at h2
  · rw [← Option.some.inj h2]; rfl
  · cases h2

theorem nStore_inv {α : Type} {res : Nat → Nat → α} {t t' : NChan α} (h : nStore res t = some t') :
    t'.s = t.s ∧ t'.off = t.off ∧ t'.groupEnd = t.groupEnd ∧ t'.c = if t.c + 8 ≤ t.groupEnd then t.c + 8 else t.groupEnd := by
  unfold nStore at h
  by_cases c8 : t.c + 8 ≤ t.groupEnd
  · rw [if_pos c8] at h
    simp only [Option.bind_eq_bind, Option.bind_eq_some_iff] at h
    obtain ⟨_, _, _, _, _, _, _, _, h⟩ := h
    rw [← Option.some.inj h]
    exact ⟨rfl, rfl, rfl, by rw [if_pos c8]⟩
  · rw [if_neg c8] at h
    simp only [Option.bind_eq_bind, Option.bind_eq_some_iff] at h
    obtain ⟨_, _, h⟩ := h
    rw [← Option.some.inj h]
    exact ⟨rfl, rfl, rfl, by rw [if_neg c8]⟩

/-- One iteration of the pixel loop does not end if the last step needs something that is not there. -/
theorem nTile_none {α : Type} {A : NKernel} (hA : A.Facts) {F : FOps} {K : IKernel} {p : BConv} {bd : Nat}
    {inp filt : List Word} (hd : p.Dims inp filt) (hK : K.MadeA p bd filt) (hC : 1 ≤ p.cout) {m : NMem}
    (hp8 : m.ptr 6 8 = ⟨4, 0⟩) (hp16 : m.ptr 6 16 = ⟨5, 0⟩)
    {ot : Bool → List NInstr} {res : (Nat → Nat → BitVec 8) → Nat → Nat → α}
    (hot : ∀ g o (s : NState) x, (g = false → o.off = 0) →
      A.OtFacts m g o { s with x := nOtRegs o.cIdx x } (nExecs F m o (ot g) { s with x := nOtRegs o.cIdx x }))
    (hneed : ∀ g o (s : NState) x, (g = false → o.off = 0) →
      (nExecs F m o (ot g) { s with x := nOtRegs o.cIdx x }).ok = true → OtNeed A.bd m o x)
    {d2 g : Bool} (hgr : g = decide (1 < p.groups)) {v : Nat → Nat → BitVec 8} {x : Nat → NAddr} {t : Nat}
    (hbad : m.size 4 < 4 * (p.cout - p.outPerGroup + ceilMul p.outPerGroup 8) ∨
      (1 < p.groups ∧ ∃ k, k < 4 ∧ m.size (m.ptr 3 (8 * (4 * t * K.filterSize) + 8 * k)).obj
        < (m.ptr 3 (8 * (4 * t * K.filterSize) + 8 * k)).off + 4 * p.inDepth + 4 * A.bd)) (pe : Nat) (s : List α) :
    nTile A ot res F m d2 g K v x pe (4 * t) s = none := by
  have hopg : p.groups * p.outPerGroup = p.cout :=
    Nat.mul_div_cancel' (Nat.dvd_of_mod_eq_zero hd.cout_div)
  have hopg1 : 1 ≤ p.outPerGroup := by
    rcases Nat.eq_zero_or_pos p.outPerGroup with h0 | h0
    · rw [h0] at hopg; omega
    · exact h0
  have hDe : K.inputDepth / K.groups = p.filtDepth := by
    rw [hK.inputDepth, hK.groups, hd.depth, Nat.mul_div_cancel_left _ hd.groups_pos]
  have hCe : K.outputChannels / K.groups = p.outPerGroup := by
    rw [hK.outputChannels, hK.groups]; rfl
  set NB := ceilDiv p.outPerGroup 8 with hNB
  have hNB8 : p.outPerGroup ≤ NB * 8 := ceilDiv_mul_ge _ _ (by omega)
  have hNB0 : 0 < NB := by omega
  have hcm : ceilMul p.outPerGroup 8 = NB * 8 := rfl
  have hgp := hd.groups_pos
  let I : NAddr := ⟨3, 8 * (4 * t * K.filterSize)⟩
  unfold nTile
  simp only [Option.bind_eq_bind]
  rw [Option.bind_eq_none_iff]
  intro s1 hs1
  have hx1 : s1.x 21 = I := by
    unfold nCheck at hs1
    split at hs1
    · rw [← Option.some.inj hs1, (hA.pre F m _ _).xi]
      rfl
    · cases hs1
  rw [hCe]
  rw [doWhile_none (I := fun u : NChan α => ∃ gi blk, gi < p.groups ∧ blk < NB ∧ u.c = gi * p.outPerGroup + blk * 8 ∧
      u.off = gi * p.filtDepth ∧ u.groupEnd = gi * p.outPerGroup + p.outPerGroup ∧ u.s.x 21 = I) ?_]
  · rfl
  · exact ⟨0, 0, hgp, hNB0, by simp, by simp, by simp, hx1⟩
  rintro u u' ⟨gi, blk, hgi, hblk, huc, huoff, huge, hux⟩ hb
  have hblk8 : blk * 8 < p.outPerGroup := lt_of_lt_ceilDiv (by omega) hblk
  have hgl : gi * p.outPerGroup + p.outPerGroup ≤ p.cout := by
    rw [← hopg, ← Nat.succ_mul]
    exact Nat.mul_le_mul_right _ hgi
  have hgfalse : g = false → gi = 0 ∧ p.groups = 1 := by
    intro hf
    rw [hgr, decide_eq_false_iff_not] at hf
    omega
  unfold nChanStep at hb
  simp only [Option.bind_eq_bind] at hb
  rw [hDe, hCe] at hb
  simp only [Option.bind_eq_some_iff] at hb
  obtain ⟨s2, h2, s3, h3, u3, h4, h5⟩ := hb
  have hx2 := nAccum_x21 h2
  rw [hux] at hx2
  generalize hlast : (g && decide (u.groupEnd ≤ u.c + 8)) = last at h3 h4 h5
  generalize hoff' : (if last = true then u.off + p.filtDepth else u.off) = off' at h3 h4
  have hg0' : g = false → off' = 0 := by
    intro hf
    rw [hf, Bool.false_and] at hlast
    rw [← hoff', ← hlast, huoff, (hgfalse hf).1]
    simp
  have hok : s3 = nExecs F m ⟨p.filtDepth / A.bd, off', u.c⟩ (ot g) { s2 with x := nOtRegs u.c s2.x } ∧ s3.ok = true := by
    unfold nCheck at h3
    split at h3
    · rename_i hc
      exact ⟨(Option.some.inj h3).symm, by rw [← Option.some.inj h3]; exact hc⟩
    · cases h3
  have hN : OtNeed A.bd m ⟨p.filtDepth / A.bd, off', u.c⟩ s2.x :=
    hneed g ⟨p.filtDepth / A.bd, off', u.c⟩ s2 s2.x hg0' (by have := hok.2; rw [hok.1] at this; exact this)
  have hx3 : s3.x 21 = I := by
    rw [hok.1, (hot g ⟨p.filtDepth / A.bd, off', u.c⟩ s2 s2.x hg0').xi]
    exact hx2
  obtain ⟨i1, i2, i3, i4⟩ := nStore_inv h4
  simp only [] at i1 i2 i3 i4
  have hu' := (Option.some.inj h5).symm
  -- the last step
  have hnl : ¬ (gi + 1 = p.groups ∧ blk + 1 = NB) := by
    rintro ⟨e1, e2⟩
    have hce : gi * p.outPerGroup + p.outPerGroup = p.cout := by rw [← Nat.add_one_mul, e1, hopg]
    rcases hbad with hbad | ⟨h1, k, hk, hbad⟩
    · have := hN.mult
      change 4 * u.c + 32 ≤ m.size 4 at this
      rw [hcm, ← e2] at hbad
      omega
    · have hgt : g = true := by rw [hgr]; simpa using h1
      have hl : last = true := by
        rw [← hlast, hgt, Bool.true_and, decide_eq_true_eq]
        omega
      have ho : off' = p.inDepth := by
        rw [← hoff', if_pos hl, huoff, ← Nat.add_one_mul, e1, hd.depth]
      have := hN.act k hk
      unfold nInd at this
      rw [hx2] at this
      change (m.ptr 3 (8 * (4 * t * K.filterSize) + 8 * k)).off + 4 * off' + 4 * A.bd
        ≤ m.size (m.ptr 3 (8 * (4 * t * K.filterSize) + 8 * k)).obj at this
      rw [ho] at this
      omega
  have hK' := hK.outputChannels
  by_cases hb1 : blk + 1 < NB
  · have hlt : (blk + 1) * 8 < p.outPerGroup := lt_of_lt_ceilDiv (by omega) hb1
    have hl : last = false := by
      rw [← hlast, Bool.and_eq_false_iff]
      right
      rw [decide_eq_false_iff_not]
      omega
    rw [if_pos (by omega)] at i4
    have hge : (if g = true then (if last = true then u.groupEnd + p.outPerGroup else u.groupEnd) else u3.groupEnd) = u.groupEnd := by
      rw [hl]
      cases g
      · exact i3
      · rfl
    have ho : off' = u.off := by rw [← hoff', hl]; rfl
    refine ⟨?_, gi, blk + 1, hgi, hb1, ?_, ?_, ?_, ?_⟩
    · rw [hu', decide_eq_true_eq]
      show u3.c < _
      omega
    · rw [hu']; show u3.c = _; omega
    · rw [hu']; show u3.off = _; omega
    · rw [hu', ← huge]; exact hge
    · rw [hu']; show u3.s.x 21 = _; rw [i1]; exact hx3
  · have hg1 : gi + 1 < p.groups := by omega
    have hgt : g = true := by rw [hgr]; simp; omega
    have hbl : blk + 1 = NB := by omega
    have hl : last = true := by
      rw [← hlast, hgt, Bool.true_and, decide_eq_true_eq]
      omega
    have hc3 : u3.c = u.groupEnd := by
      rw [i4]
      split <;> omega
    have hgl2 : (gi + 1) * p.outPerGroup + p.outPerGroup ≤ p.cout := by
      rw [← hopg, ← Nat.succ_mul]
      exact Nat.mul_le_mul_right _ hg1
    have e : (gi + 1) * p.outPerGroup = gi * p.outPerGroup + p.outPerGroup := Nat.succ_mul _ _
    refine ⟨?_, gi + 1, 0, hg1, hNB0, ?_, ?_, ?_, ?_⟩
    · rw [hu', decide_eq_true_eq]
      show u3.c < _
      omega
    · rw [hu']; show u3.c = _; omega
    · rw [hu']; show u3.off = _; rw [i2, ← hoff', if_pos hl, huoff, Nat.succ_mul]
    · rw [hu', hgt, hl]; show u.groupEnd + p.outPerGroup = _; omega
    · rw [hu']; show u3.s.x 21 = _; rw [i1]; exact hx3

/-- The kernel that is selected needs these loads. -/
theorem selectA64_need (p : BConv) (F : FOps) (m : NMem) (hp8 : m.ptr 6 8 = ⟨4, 0⟩) :
    (∀ g o (s : NState) x, (g = false → o.off = 0) →
      (nExecs F m o ((selectA64 p).1.otF g) { s with x := nOtRegs o.cIdx x }).ok = true → OtNeed (selectA64 p).1.bd m o x) ∧
    (∀ g o (s : NState) x, (g = false → o.off = 0) →
      (nExecs F m o ((selectA64 p).1.otI g) { s with x := nOtRegs o.cIdx x }).ok = true → OtNeed (selectA64 p).1.bd m o x) := by
  unfold selectA64
  simp only []
  split
  · exact ⟨fun g o s x hg h => x4_otF_need F m o s g x hg hp8 h, fun g o s x hg h => x4_otI_need F m o s g x hg hp8 h⟩
  · split
    · exact ⟨fun g o s x hg h => x2_otF_need F m o s g x hg hp8 h, fun g o s x hg h => x2_otI_need F m o s g x hg hp8 h⟩
    · exact ⟨fun g o s x hg h => x1_otF_need F m o s g x hg hp8 h, fun g o s x hg h => x1_otI_need F m o s g x hg hp8 h⟩

/-- `Run` does not end if the multipliers are too few or there is nothing behind the activations of a first filter position. -/
theorem nRun_none {α : Type} {A : NKernel} (hA : A.Facts) {F : FOps} {K : IKernel} {p : BConv}
    {inp xi xz filt mult bias : List Word} {cmin cmax : Int} (hd : p.Dims inp filt) (hK : K.MadeA p A.bd filt) (hC : 1 ≤ p.cout)
    (hF : 1 ≤ p.filtH * p.filtW) (hmin : A.minDepth ≤ p.filtDepth) (hpx : 0 < p.batches * p.outH * p.outW)
    {ot : Bool → List NInstr} {res : (Nat → Nat → BitVec 8) → Nat → Nat → α}
    (hot : ∀ m g o (s : NState) x, (g = false → o.off = 0) → m.ptr 6 8 = ⟨4, 0⟩ → m.ptr 6 16 = ⟨5, 0⟩ →
      A.OtFacts m g o { s with x := nOtRegs o.cIdx x } (nExecs F m o (ot g) { s with x := nOtRegs o.cIdx x }))
    (hneed : ∀ m : NMem, m.ptr 6 8 = ⟨4, 0⟩ → ∀ g o (s : NState) x, (g = false → o.off = 0) →
      (nExecs F m o (ot g) { s with x := nOtRegs o.cIdx x }).ok = true → OtNeed A.bd m o x)
    {d2 g : Bool} (hgr : g = decide (1 < p.groups)) {v : Nat → Nat → BitVec 8} {x : Nat → NAddr}
    (hbad : mult.length < p.cout - p.outPerGroup + ceilMul p.outPerGroup 8 ∨
      (1 < p.groups ∧ ∃ oi, oi < p.batches * p.outH * p.outW ∧ ¬ A64Room p A.bd inp xi xz (indirectPtr p oi 0 0)))
    (out0 : List α) :
    nRun A ot res F (nMem K inp xi xz mult bias cmin cmax) d2 g K v x out0 = none := by
  have hopg : p.groups * p.outPerGroup = p.cout :=
    Nat.mul_div_cancel' (Nat.dvd_of_mod_eq_zero hd.cout_div)
  have hopg1 : 1 ≤ p.outPerGroup := by
    rcases Nat.eq_zero_or_pos p.outPerGroup with h0 | h0
    · rw [h0] at hopg; omega
    · exact h0
  have hDe : K.inputDepth / K.groups = p.filtDepth := by
    rw [hK.inputDepth, hK.groups, hd.depth, Nat.mul_div_cancel_left _ hd.groups_pos]
  have hCe : K.outputChannels / K.groups = p.outPerGroup := by
    rw [hK.outputChannels, hK.groups]; rfl
  set m := nMem K inp xi xz mult bias cmin cmax with hm
  have hp8 : m.ptr 6 8 = ⟨4, 0⟩ := rfl
  have hp16 : m.ptr 6 16 = ⟨5, 0⟩ := rfl
  unfold nRun
  rw [hDe, hCe, hK.filterSize, if_neg (by omega), hK.pixels]
  set n := p.batches * p.outH * p.outW with hn
  have hnt : n ≤ ceilDiv n 4 * 4 := ceilDiv_mul_ge n 4 (by omega)
  rcases hbad with hb | ⟨hg1, oi, hoi, hb⟩
  · refine forN_none (i := 0) (by omega) (fun s => ?_)
    refine nTile_none hA hd hK hC hp8 hp16 (fun g o s x h => hot m g o s x h hp8 hp16) (hneed m hp8) hgr (Or.inl ?_) n s
    change 4 * mult.length < _
    omega
  · have ht : oi / 4 < ceilDiv n 4 := by omega
    refine forN_none (i := oi / 4) ht (fun s => ?_)
    refine nTile_none hA hd hK hC hp8 hp16 (fun g o s x h => hot m g o s x h hp8 hp16) (hneed m hp8) hgr
      (Or.inr ⟨hg1, oi % 4, by omega, ?_⟩) n s
    have hi := hK.ind (oi / 4) (oi % 4) 0 ht (by omega) hF
    rw [Nat.zero_div, Nat.zero_mod, ← hn] at hi
    have e1 : min (oi / 4 * 4 + oi % 4) (n - 1) = oi := by omega
    rw [e1] at hi
    have hptr : m.ptr 3 (8 * (4 * (oi / 4) * K.filterSize) + 8 * (oi % 4)) = Ptr.addr (indirectPtr p oi 0 0) := by
      change nPtr K 3 _ = _
      unfold nPtr
      have e2 : (8 * (4 * (oi / 4) * K.filterSize) + 8 * (oi % 4)) / 8 = (oi / 4 * (p.filtH * p.filtW) + 0) * 4 + oi % 4 := by
        rw [hK.filterSize]
        have : 8 * (4 * (oi / 4) * (p.filtH * p.filtW)) + 8 * (oi % 4) = 8 * ((oi / 4 * (p.filtH * p.filtW) + 0) * 4 + oi % 4) := by
          ring
        rw [this]
        omega
      rw [if_pos rfl, e2, hi]
      rfl
    rw [hptr]
    generalize indirectPtr p oi 0 0 = q at hb
    cases q with
    | inp a =>
      change ¬ (a + p.inDepth + A.bd ≤ inp.length + xi.length) at hb
      change 4 * (inp ++ xi).length < 4 * a + _ + _
      rw [List.length_append]
      omega
    | zero a =>
      change ¬ (a + p.inDepth + A.bd ≤ p.filtH * p.filtW * p.inDepth + xz.length) at hb
      change 4 * (K.zeroBuffer ++ xz).length < 4 * a + _ + _
      rw [List.length_append, hK.zero, List.length_replicate]
      generalize p.filtH * p.filtW * p.inDepth = Z at *
      omega

section
variable {p : BConv} {inp xi xz filt mult bias : List Word} {cmin cmax : Int}
  (h : p.Dims inp filt) (hF : 1 ≤ p.filtH * p.filtW) (hD : 1 ≤ p.filtDepth) (hC : 1 ≤ p.cout)
  (hpx : 0 < p.batches * p.outH * p.outW)
  (hbad : ¬ (p.cout - p.outPerGroup + ceilMul p.outPerGroup 8 ≤ mult.length ∧ A64Slack p inp xi xz))
  {F : FOps} {v : Nat → Nat → BitVec 8} {x : Nat → NAddr}
include h hF hD hC hpx hbad

theorem bconvA64_none (out0 : List Word) (out1 : List (BitVec 8)) :
    bconvA64F p inp xi xz filt mult bias cmin cmax F v x out0 = none ∧
    bconvA64I p inp xi xz filt mult bias cmin cmax F v x out1 = none := by
  obtain ⟨A, d2, g, hsel, hA, hdiv, hmin, _, hd2, hg, _, _⟩ := selectA64_spec h hD
  have hn := selectA64_need p F
  unfold A64Slack at hbad
  rw [hsel] at hbad hn
  simp only [] at hbad hn
  have hbd : 0 < A.bd := by rcases hA.bd with h | h | h <;> omega
  obtain ⟨K, e, hm'⟩ := mkKernelA64_made h hbd hdiv
  have hgp := h.groups_pos
  have hb : mult.length < p.cout - p.outPerGroup + ceilMul p.outPerGroup 8 ∨
      (1 < p.groups ∧ ∃ oi, oi < p.batches * p.outH * p.outW ∧ ¬ A64Room p A.bd inp xi xz (indirectPtr p oi 0 0)) := by
    by_cases h1 : p.cout - p.outPerGroup + ceilMul p.outPerGroup 8 ≤ mult.length
    · right
      have h2 : ¬ (p.groups = 1 ∨ ∀ oi, oi < p.batches * p.outH * p.outW → A64Room p A.bd inp xi xz (indirectPtr p oi 0 0)) :=
        fun h' => hbad ⟨h1, h'⟩
      push Not at h2
      exact ⟨by omega, h2.2⟩
    · left; omega
  unfold bconvA64F bconvA64I
  rw [hsel]
  simp only [Option.bind_eq_bind, e, Option.bind_some]
  exact ⟨nRun_none hA h hm' hC hF hmin hpx (fun m g o s x => hA.otF F m g o s x) (fun m h8 => (hn m h8).1) hg hb out0,
    nRun_none hA h hm' hC hF hmin hpx (fun m g o s x => hA.otI F m g o s x) (fun m h8 => (hn m h8).2) hg hb out1⟩

end

end Verif
