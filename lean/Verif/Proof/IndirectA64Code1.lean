import Verif.Proof.IndirectA64Facts

/-! The facts of Proof/IndirectA64Facts.lean for the 8x4x1 kernel. Generated by `tools/gen_a64_facts.py`. -/

namespace Verif

variable (F : FOps) (m : NMem) (o : NOps) (s : NState)

theorem x1_block : kernelX1.BlockFacts F m o s (nExecs F m o x1Block s) where
  a := by
    intro k j hk hj
    have e : (nExecs F m o x1Block s).v (16 + k) = fun j => m.byte (s.x (10 + k)).obj ((s.x (10 + k)).off + j % 4) := by
      interval_cases k <;> kernel_rfl
    rw [e]
    exact rfl
  w := by
    intro q j hq hj
    have hq : q < 2 := hq
    refine congrFun (g := fun j => m.byte (s.x 20).obj ((s.x 20).off + 16 * q + j)) ?_ j
    interval_cases q <;> kernel_rfl
  acc := by
    intro k h hk hh
    have e : (nExecs F m o x1Block s).v (28 + k)
        = laneUadalp (s.v (28 + k)) (laneAddp (xc (s.v (16 + k)) (s.v 20)) (xc (s.v (16 + k)) (s.v 21))) := by
      interval_cases k <;> kernel_rfl
    rw [e, laneHalf_uadalp]
    exact congrArg (fun n => laneHalf (s.v (28 + k)) h + BitVec.ofNat 16 n)
      (tree1 (s.v (16 + k)) (fun q => s.v (20 + q)) h hh)
  xa := fin4 (by kernel_rfl) (by kernel_rfl) (by kernel_rfl) (by kernel_rfl)
  xw := by kernel_rfl
  xi := by kernel_rfl
  w1 := by kernel_rfl
  fs := by kernel_rfl
  gt := by kernel_rfl
  ok := by
    intro h ha hw
    have e : (nExecs F m o x1Block s).ok =
        [decide ((s.x 20).off + 0 + 16 ≤ m.size (s.x 20).obj),
         decide ((s.x 20).off + 16 + 16 ≤ m.size (s.x 20).obj),
         decide ((s.x 10).off + 4 ≤ m.size (s.x 10).obj),
         decide ((s.x 11).off + 4 ≤ m.size (s.x 11).obj),
         decide ((s.x 12).off + 4 ≤ m.size (s.x 12).obj),
         decide ((s.x 13).off + 4 ≤ m.size (s.x 13).obj)].foldl (fun b p => b && p) s.ok := by
      kernel_rfl
    have a0 := ha 0 (by omega)
    have a1 := ha 1 (by omega)
    have a2 := ha 2 (by omega)
    have a3 := ha 3 (by omega)
    try simp only [Nat.reduceAdd] at a0 a1 a2 a3
    simp only [kernelX1] at *
    rw [e, h]
    simp only [List.foldl_cons, List.foldl_nil, Bool.and_eq_true, decide_eq_true_eq, true_and]
    omega

theorem x1_pro2 (g : Bool) : kernelX1.Pro2Facts m g o s (nExecs F m o (x1Pro2 g) s) where
  a := by cases g <;> exact fin4 (by kernel_rfl) (by kernel_rfl) (by kernel_rfl) (by kernel_rfl)
  w := by
    intro q hq
    have hq : q < 2 := hq
    cases g <;> interval_cases q <;> kernel_rfl
  acc := by cases g <;> exact fin4 (by kernel_rfl) (by kernel_rfl) (by kernel_rfl) (by kernel_rfl)
  xa := by cases g <;> exact fin4 (by kernel_rfl) (by kernel_rfl) (by kernel_rfl) (by kernel_rfl)
  xw := by cases g <;> kernel_rfl
  xi := by cases g <;> kernel_rfl
  w1 := by cases g <;> kernel_rfl
  fs := by cases g <;> kernel_rfl
  ok := by
    intro h hi
    unfold nIndOk at hi
    cases g
    · have e : (nExecs F m o (x1Pro2 false) s).ok =
          [decide ((s.x 21).off + 0 + 16 ≤ m.size (s.x 21).obj),
           decide ((s.x 21).off + 16 + 16 ≤ m.size (s.x 21).obj)].foldl (fun b p => b && p) s.ok := by
        kernel_rfl
      rw [e, h]
      simp only [List.foldl_cons, List.foldl_nil, Bool.and_eq_true, decide_eq_true_eq, true_and]
      omega
    · have e : (nExecs F m o (x1Pro2 true) s).ok =
          [decide ((s.x 21).off + 0 + 16 ≤ m.size (s.x 21).obj),
           decide ((s.x 21).off + 16 + 16 ≤ m.size (s.x 21).obj)].foldl (fun b p => b && p) s.ok := by
        kernel_rfl
      rw [e, h]
      simp only [List.foldl_cons, List.foldl_nil, Bool.and_eq_true, decide_eq_true_eq, true_and]
      omega

theorem x1_mid2 (g : Bool) : NKernel.Mid2Facts m g o s (nExecs F m o (x1Mid2 g) s) where
  v := by cases g <;> kernel_rfl
  xa := by cases g <;> exact fin4 (by kernel_rfl) (by kernel_rfl) (by kernel_rfl) (by kernel_rfl)
  xw := by cases g <;> kernel_rfl
  xi := by cases g <;> kernel_rfl
  w1 := by cases g <;> kernel_rfl
  fs := by cases g <;> kernel_rfl
  gt := by cases g <;> kernel_rfl
  ok := by
    intro h hi
    unfold nIndOk at hi
    cases g
    · have e : (nExecs F m o (x1Mid2 false) s).ok =
          [decide ((s.x 21).off + 0 + 16 ≤ m.size (s.x 21).obj),
           decide ((s.x 21).off + 16 + 16 ≤ m.size (s.x 21).obj)].foldl (fun b p => b && p) s.ok := by
        kernel_rfl
      rw [e, h]
      simp only [List.foldl_cons, List.foldl_nil, Bool.and_eq_true, decide_eq_true_eq, true_and]
      omega
    · have e : (nExecs F m o (x1Mid2 true) s).ok =
          [decide ((s.x 21).off + 0 + 16 ≤ m.size (s.x 21).obj),
           decide ((s.x 21).off + 16 + 16 ≤ m.size (s.x 21).obj)].foldl (fun b p => b && p) s.ok := by
        kernel_rfl
      rw [e, h]
      simp only [List.foldl_cons, List.foldl_nil, Bool.and_eq_true, decide_eq_true_eq, true_and]
      omega

theorem x1_pro1 : kernelX1.Pro1Facts s (nExecs F m o x1Pro1 s) where
  a := fin4 (by kernel_rfl) (by kernel_rfl) (by kernel_rfl) (by kernel_rfl)
  w := by
    intro q hq
    have hq : q < 2 := hq
    interval_cases q <;> kernel_rfl
  acc := fin4 (by kernel_rfl) (by kernel_rfl) (by kernel_rfl) (by kernel_rfl)
  xw := by kernel_rfl
  xi := by kernel_rfl
  fs := by kernel_rfl
  ok := by kernel_rfl

theorem x1_body1 (g : Bool) : NKernel.Body1Facts m g o s (nExecs F m o (x1Body1 g) s) where
  v := by cases g <;> kernel_rfl
  xa := by cases g <;> exact fin4 (by kernel_rfl) (by kernel_rfl) (by kernel_rfl) (by kernel_rfl)
  xw := by cases g <;> kernel_rfl
  xi := by cases g <;> kernel_rfl
  fs := by cases g <;> kernel_rfl
  gt := by cases g <;> kernel_rfl
  ok := by
    intro h hi
    unfold nIndOk at hi
    cases g
    · have e : (nExecs F m o (x1Body1 false) s).ok =
          [decide ((s.x 21).off + 0 + 16 ≤ m.size (s.x 21).obj),
           decide ((s.x 21).off + 16 + 16 ≤ m.size (s.x 21).obj)].foldl (fun b p => b && p) s.ok := by
        kernel_rfl
      rw [e, h]
      simp only [List.foldl_cons, List.foldl_nil, Bool.and_eq_true, decide_eq_true_eq, true_and]
      omega
    · have e : (nExecs F m o (x1Body1 true) s).ok =
          [decide ((s.x 21).off + 0 + 16 ≤ m.size (s.x 21).obj),
           decide ((s.x 21).off + 16 + 16 ≤ m.size (s.x 21).obj)].foldl (fun b p => b && p) s.ok := by
        kernel_rfl
      rw [e, h]
      simp only [List.foldl_cons, List.foldl_nil, Bool.and_eq_true, decide_eq_true_eq, true_and]
      omega

theorem x1_pre : kernelX1.PreFacts m s (nExecs F m o x1Preload s) where
  a := by
    intro k j hk hj
    have e : (nExecs F m o x1Preload s).v (16 + k) = fun j => m.byte (nInd m s.x k).obj ((nInd m s.x k).off + j % 4) := by
      interval_cases k <;> kernel_rfl
    rw [e]
    exact rfl
  w := by
    intro q j hq hj
    have hq : q < 2 := hq
    refine congrFun (g := fun j => m.byte (s.x 20).obj ((s.x 20).off + 16 * q + j)) ?_ j
    interval_cases q <;> kernel_rfl
  xw := by kernel_rfl
  xi := by kernel_rfl
  ok := by
    intro h hi ha hw
    unfold nIndOk at hi
    have e : (nExecs F m o x1Preload s).ok =
        [decide ((s.x 20).off + 0 + 16 ≤ m.size (s.x 20).obj),
         decide ((s.x 20).off + 16 + 16 ≤ m.size (s.x 20).obj),
         decide ((s.x 21).off + 0 + 16 ≤ m.size (s.x 21).obj),
         decide ((s.x 21).off + 16 + 16 ≤ m.size (s.x 21).obj),
         decide ((nInd m s.x 0).off + 4 ≤ m.size (nInd m s.x 0).obj),
         decide ((nInd m s.x 1).off + 4 ≤ m.size (nInd m s.x 1).obj),
         decide ((nInd m s.x 2).off + 4 ≤ m.size (nInd m s.x 2).obj),
         decide ((nInd m s.x 3).off + 4 ≤ m.size (nInd m s.x 3).obj)].foldl (fun b p => b && p) s.ok := by
      kernel_rfl
    have a0 := ha 0 (by omega)
    have a1 := ha 1 (by omega)
    have a2 := ha 2 (by omega)
    have a3 := ha 3 (by omega)
    try simp only [Nat.reduceAdd] at a0 a1 a2 a3
    simp only [kernelX1] at *
    rw [e, h]
    simp only [List.foldl_cons, List.foldl_nil, Bool.and_eq_true, decide_eq_true_eq, true_and]
    omega

theorem x1_otF (g : Bool) (x : Nat → NAddr) (hg : g = false → o.off = 0) (_p8 : m.ptr 6 8 = ⟨4, 0⟩)
    (_p16 : m.ptr 6 16 = ⟨5, 0⟩) : kernelX1.OtFacts m g o { s with x := nOtRegs o.cIdx x }
    (nExecs F m o (x1OtF g) { s with x := nOtRegs o.cIdx x }) where
  a := by
    intro k j hk hj
    have e : (nExecs F m o (x1OtF g) { s with x := nOtRegs o.cIdx x }).v (16 + k)
        = fun j => m.byte (nInd m x k).obj ((nInd m x k).off + 4 * (if g = true then o.off else 0) + j % 4) := by
      cases g <;> interval_cases k <;> kernel_rfl
    have hgo : (if g = true then o.off else 0) = o.off := by
      cases g
      · rw [hg rfl]; rfl
      · rfl
    rw [hgo] at e
    rw [e]
    exact rfl
  w := by
    intro q j hq hj hw
    have hq : q < 2 := hq
    have hw : 32 ≤ (x 20).off := hw
    have e : (nExecs F m o (x1OtF g) { s with x := nOtRegs o.cIdx x }).v (20 + q) = fun j => m.byte (x 20).obj ((x 20).off - (32 - 16 * q) + j) := by
      cases g <;> interval_cases q <;> kernel_rfl
    rw [e]
    have e2 : (x 20).off - (32 - 16 * q) + j = (x 20).off - 32 + 16 * q + j := by omega
    exact congrArg (m.byte (x 20).obj) e2
  xw := by cases g <;> kernel_rfl
  xi := by cases g <;> kernel_rfl
  ok := by
    intro h hi ha h1 h2 h3 h4 h5
    unfold nIndOk at hi
    change (x 21).off + 32 ≤ m.size (x 21).obj at hi
    change ∀ k, k < 4 → (nInd m x k).off + 4 * o.off + 4 ≤ m.size (nInd m x k).obj at ha
    change 32 ≤ (x 20).off at h1
    change (x 20).off ≤ m.size (x 20).obj at h2
    change s.ok = true at h
    have a0 := ha 0 (by omega)
    have a1 := ha 1 (by omega)
    have a2 := ha 2 (by omega)
    have a3 := ha 3 (by omega)
    try simp only [Nat.reduceAdd] at a0 a1 a2 a3
    cases g
    · have h0 := hg rfl
      have e : (nExecs F m o (x1OtF false) { s with x := nOtRegs o.cIdx x }).ok =
          [decide ((x 21).off + 0 + 16 ≤ m.size (x 21).obj),
           decide ((x 21).off + 16 + 16 ≤ m.size (x 21).obj),
           decide (0 + 4 ≤ m.size 6),
           decide (4 + 4 ≤ m.size 6),
           decide (4 * o.cIdx + 0 + 16 ≤ m.size 4),
           decide (4 * o.cIdx + 16 + 16 ≤ m.size 4),
           decide (4 * o.cIdx + 0 + 16 ≤ m.size 5),
           decide (4 * o.cIdx + 16 + 16 ≤ m.size 5),
           decide ((nInd m x 0).off + 4 ≤ m.size (nInd m x 0).obj),
           decide ((nInd m x 1).off + 4 ≤ m.size (nInd m x 1).obj),
           decide ((nInd m x 2).off + 4 ≤ m.size (nInd m x 2).obj),
           decide ((nInd m x 3).off + 4 ≤ m.size (nInd m x 3).obj),
           decide (32 ≤ (x 20).off ∧ (x 20).off - 32 + 16 ≤ m.size (x 20).obj),
           decide (16 ≤ (x 20).off ∧ (x 20).off - 16 + 16 ≤ m.size (x 20).obj)].foldl (fun b p => b && p) s.ok := by
        kernel_rfl
      rw [e, h]
      simp only [List.foldl_cons, List.foldl_nil, Bool.and_eq_true, decide_eq_true_eq, true_and]
      omega
    · have e : (nExecs F m o (x1OtF true) { s with x := nOtRegs o.cIdx x }).ok =
          [decide ((x 21).off + 0 + 16 ≤ m.size (x 21).obj),
           decide ((x 21).off + 16 + 16 ≤ m.size (x 21).obj),
           decide (0 + 4 ≤ m.size 6),
           decide (4 + 4 ≤ m.size 6),
           decide (4 * o.cIdx + 0 + 16 ≤ m.size 4),
           decide (4 * o.cIdx + 16 + 16 ≤ m.size 4),
           decide (4 * o.cIdx + 0 + 16 ≤ m.size 5),
           decide (4 * o.cIdx + 16 + 16 ≤ m.size 5),
           decide ((nInd m x 0).off + 4 * o.off + 4 ≤ m.size (nInd m x 0).obj),
           decide ((nInd m x 1).off + 4 * o.off + 4 ≤ m.size (nInd m x 1).obj),
           decide ((nInd m x 2).off + 4 * o.off + 4 ≤ m.size (nInd m x 2).obj),
           decide ((nInd m x 3).off + 4 * o.off + 4 ≤ m.size (nInd m x 3).obj),
           decide (32 ≤ (x 20).off ∧ (x 20).off - 32 + 16 ≤ m.size (x 20).obj),
           decide (16 ≤ (x 20).off ∧ (x 20).off - 16 + 16 ≤ m.size (x 20).obj)].foldl (fun b p => b && p) s.ok := by
        kernel_rfl
      rw [e, h]
      simp only [List.foldl_cons, List.foldl_nil, Bool.and_eq_true, decide_eq_true_eq, true_and]
      omega

theorem x1_resF (g : Bool) (x : Nat → NAddr) (_p8 : m.ptr 6 8 = ⟨4, 0⟩) (_p16 : m.ptr 6 16 = ⟨5, 0⟩) :
    OtFloatRes F m o s (nExecs F m o (x1OtF g) { s with x := nOtRegs o.cIdx x }) := by
  intro p j hp hj
  unfold resF
  by_cases h4 : j < 4
  · have e : (nExecs F m o (x1OtF g) { s with x := nOtRegs o.cIdx x }).v (32 + 2 * p)
        = otVec F (fun j => m.byte 6 (0 + j % 4)) (fun j => m.byte 6 (4 + j % 4))
          (fun j => m.byte (⟨4, 4 * o.cIdx⟩ : NAddr).obj ((⟨4, 4 * o.cIdx⟩ : NAddr).off + 0 + j)) (fun j => m.byte (⟨5, 4 * o.cIdx⟩ : NAddr).obj ((⟨5, 4 * o.cIdx⟩ : NAddr).off + 0 + j))
          (fun l => laneHalf (s.v (28 + p)) l) := by
      cases g <;> interval_cases p <;> kernel_rfl
    rw [show j / 4 = 0 by omega, show j % 4 = j by omega, Nat.add_zero, e]
    exact otVec_lane F m ⟨6, 0⟩ ⟨6, 4⟩ ⟨4, 4 * o.cIdx⟩ ⟨5, 4 * o.cIdx⟩ 0 0 (fun l => laneHalf (s.v (28 + p)) l) j
  · have e : (nExecs F m o (x1OtF g) { s with x := nOtRegs o.cIdx x }).v (32 + 2 * p + 1)
        = otVec F (fun j => m.byte 6 (0 + j % 4)) (fun j => m.byte 6 (4 + j % 4))
          (fun j => m.byte (⟨4, 4 * o.cIdx⟩ : NAddr).obj ((⟨4, 4 * o.cIdx⟩ : NAddr).off + 16 + j)) (fun j => m.byte (⟨5, 4 * o.cIdx⟩ : NAddr).obj ((⟨5, 4 * o.cIdx⟩ : NAddr).off + 16 + j))
          (fun l => laneHalf (s.v (28 + p)) (l + 4)) := by
      cases g <;> interval_cases p <;> kernel_rfl
    rw [show j / 4 = 1 by omega, show j % 4 = j - 4 by omega, e]
    refine Eq.trans (otVec_lane F m ⟨6, 0⟩ ⟨6, 4⟩ ⟨4, 4 * o.cIdx⟩ ⟨5, 4 * o.cIdx⟩ 16 16
      (fun l => laneHalf (s.v (28 + p)) (l + 4)) (j - 4)) ?_
    have e1 : j - 4 + 4 = j := by omega
    have e2 : 4 * o.cIdx + 16 + 4 * (j - 4) = 4 * o.cIdx + 4 * j := by omega
    simp only [e1, e2]

theorem x1_otI (g : Bool) (x : Nat → NAddr) (hg : g = false → o.off = 0) (_p8 : m.ptr 6 8 = ⟨4, 0⟩)
    (_p16 : m.ptr 6 16 = ⟨5, 0⟩) : kernelX1.OtFacts m g o { s with x := nOtRegs o.cIdx x }
    (nExecs F m o (x1OtI g) { s with x := nOtRegs o.cIdx x }) where
  a := by
    intro k j hk hj
    have e : (nExecs F m o (x1OtI g) { s with x := nOtRegs o.cIdx x }).v (16 + k)
        = fun j => m.byte (nInd m x k).obj ((nInd m x k).off + 4 * (if g = true then o.off else 0) + j % 4) := by
      cases g <;> interval_cases k <;> kernel_rfl
    have hgo : (if g = true then o.off else 0) = o.off := by
      cases g
      · rw [hg rfl]; rfl
      · rfl
    rw [hgo] at e
    rw [e]
    exact rfl
  w := by
    intro q j hq hj hw
    have hq : q < 2 := hq
    have hw : 32 ≤ (x 20).off := hw
    have e : (nExecs F m o (x1OtI g) { s with x := nOtRegs o.cIdx x }).v (20 + q) = fun j => m.byte (x 20).obj ((x 20).off - (32 - 16 * q) + j) := by
      cases g <;> interval_cases q <;> kernel_rfl
    rw [e]
    have e2 : (x 20).off - (32 - 16 * q) + j = (x 20).off - 32 + 16 * q + j := by omega
    exact congrArg (m.byte (x 20).obj) e2
  xw := by cases g <;> kernel_rfl
  xi := by cases g <;> kernel_rfl
  ok := by
    intro h hi ha h1 h2 h3 h4 h5
    unfold nIndOk at hi
    change (x 21).off + 32 ≤ m.size (x 21).obj at hi
    change ∀ k, k < 4 → (nInd m x k).off + 4 * o.off + 4 ≤ m.size (nInd m x k).obj at ha
    change 32 ≤ (x 20).off at h1
    change (x 20).off ≤ m.size (x 20).obj at h2
    change s.ok = true at h
    have a0 := ha 0 (by omega)
    have a1 := ha 1 (by omega)
    have a2 := ha 2 (by omega)
    have a3 := ha 3 (by omega)
    try simp only [Nat.reduceAdd] at a0 a1 a2 a3
    cases g
    · have h0 := hg rfl
      have e : (nExecs F m o (x1OtI false) { s with x := nOtRegs o.cIdx x }).ok =
          [decide ((x 21).off + 0 + 16 ≤ m.size (x 21).obj),
           decide ((x 21).off + 16 + 16 ≤ m.size (x 21).obj),
           decide (0 + 4 ≤ m.size 6),
           decide (4 + 4 ≤ m.size 6),
           decide (4 * o.cIdx + 0 + 16 ≤ m.size 4),
           decide (4 * o.cIdx + 16 + 16 ≤ m.size 4),
           decide (4 * o.cIdx + 0 + 16 ≤ m.size 5),
           decide (4 * o.cIdx + 16 + 16 ≤ m.size 5),
           decide ((nInd m x 0).off + 4 ≤ m.size (nInd m x 0).obj),
           decide ((nInd m x 1).off + 4 ≤ m.size (nInd m x 1).obj),
           decide ((nInd m x 2).off + 4 ≤ m.size (nInd m x 2).obj),
           decide ((nInd m x 3).off + 4 ≤ m.size (nInd m x 3).obj),
           decide (32 ≤ (x 20).off ∧ (x 20).off - 32 + 16 ≤ m.size (x 20).obj),
           decide (16 ≤ (x 20).off ∧ (x 20).off - 16 + 16 ≤ m.size (x 20).obj)].foldl (fun b p => b && p) s.ok := by
        kernel_rfl
      rw [e, h]
      simp only [List.foldl_cons, List.foldl_nil, Bool.and_eq_true, decide_eq_true_eq, true_and]
      omega
    · have e : (nExecs F m o (x1OtI true) { s with x := nOtRegs o.cIdx x }).ok =
          [decide ((x 21).off + 0 + 16 ≤ m.size (x 21).obj),
           decide ((x 21).off + 16 + 16 ≤ m.size (x 21).obj),
           decide (0 + 4 ≤ m.size 6),
           decide (4 + 4 ≤ m.size 6),
           decide (4 * o.cIdx + 0 + 16 ≤ m.size 4),
           decide (4 * o.cIdx + 16 + 16 ≤ m.size 4),
           decide (4 * o.cIdx + 0 + 16 ≤ m.size 5),
           decide (4 * o.cIdx + 16 + 16 ≤ m.size 5),
           decide ((nInd m x 0).off + 4 * o.off + 4 ≤ m.size (nInd m x 0).obj),
           decide ((nInd m x 1).off + 4 * o.off + 4 ≤ m.size (nInd m x 1).obj),
           decide ((nInd m x 2).off + 4 * o.off + 4 ≤ m.size (nInd m x 2).obj),
           decide ((nInd m x 3).off + 4 * o.off + 4 ≤ m.size (nInd m x 3).obj),
           decide (32 ≤ (x 20).off ∧ (x 20).off - 32 + 16 ≤ m.size (x 20).obj),
           decide (16 ≤ (x 20).off ∧ (x 20).off - 16 + 16 ≤ m.size (x 20).obj)].foldl (fun b p => b && p) s.ok := by
        kernel_rfl
      rw [e, h]
      simp only [List.foldl_cons, List.foldl_nil, Bool.and_eq_true, decide_eq_true_eq, true_and]
      omega

theorem x1_resI (g : Bool) (x : Nat → NAddr) (_p8 : m.ptr 6 8 = ⟨4, 0⟩) (_p16 : m.ptr 6 16 = ⟨5, 0⟩) :
    OtInt8Res F m o s (nExecs F m o (x1OtI g) { s with x := nOtRegs o.cIdx x }) := by
  intro p j hp hj
  unfold resI
  have e : (nExecs F m o (x1OtI g) { s with x := nOtRegs o.cIdx x }).v (32 + 2 * p)
      = narrow (ofWords fun l => F.fcvtns (laneWord (otVec F (fun j => m.byte 6 (0 + j % 4)) (fun j => m.byte 6 (4 + j % 4))
          (fun j => m.byte (⟨4, 4 * o.cIdx⟩ : NAddr).obj ((⟨4, 4 * o.cIdx⟩ : NAddr).off + 0 + j)) (fun j => m.byte (⟨5, 4 * o.cIdx⟩ : NAddr).obj ((⟨5, 4 * o.cIdx⟩ : NAddr).off + 0 + j))
          (fun l => laneHalf (s.v (28 + p)) l)) l))
        (ofWords fun l => F.fcvtns (laneWord (otVec F (fun j => m.byte 6 (0 + j % 4)) (fun j => m.byte 6 (4 + j % 4))
          (fun j => m.byte (⟨4, 4 * o.cIdx⟩ : NAddr).obj ((⟨4, 4 * o.cIdx⟩ : NAddr).off + 16 + j)) (fun j => m.byte (⟨5, 4 * o.cIdx⟩ : NAddr).obj ((⟨5, 4 * o.cIdx⟩ : NAddr).off + 16 + j))
          (fun l => laneHalf (s.v (28 + p)) (l + 4))) l)) := by
    cases g <;> interval_cases p <;> kernel_rfl
  rw [e, narrow_eq _ _ j hj]
  by_cases h4 : j < 4
  · rw [if_pos h4, show j % 4 = j by omega, laneWord_ofWords]
    exact congrArg (fun w => sat8 (sat16 (F.fcvtns w)))
      (otVec_lane F m ⟨6, 0⟩ ⟨6, 4⟩ ⟨4, 4 * o.cIdx⟩ ⟨5, 4 * o.cIdx⟩ 0 0 (fun l => laneHalf (s.v (28 + p)) l) j)
  · rw [if_neg h4, show j % 4 = j - 4 by omega, laneWord_ofWords]
    refine congrArg (fun w => sat8 (sat16 (F.fcvtns w))) (Eq.trans
      (otVec_lane F m ⟨6, 0⟩ ⟨6, 4⟩ ⟨4, 4 * o.cIdx⟩ ⟨5, 4 * o.cIdx⟩ 16 16
        (fun l => laneHalf (s.v (28 + p)) (l + 4)) (j - 4)) ?_)
    have e1 : j - 4 + 4 = j := by omega
    have e2 : 4 * o.cIdx + 16 + 4 * (j - 4) = 4 * o.cIdx + 4 * j := by omega
    simp only [e1, e2]

theorem x1_facts : kernelX1.Facts where
  bd := by decide
  block := fun F m o s => x1_block F m o s
  pro2 := fun F m g o s => x1_pro2 F m o s g
  mid2 := fun F m g o s => x1_mid2 F m o s g
  pro1 := fun F m o s => x1_pro1 F m o s
  body1 := fun F m g o s => x1_body1 F m o s g
  pre := fun F m o s => x1_pre F m o s
  otF := fun F m g o s x hg p8 p16 => x1_otF F m o s g x hg p8 p16
  otI := fun F m g o s x hg p8 p16 => x1_otI F m o s g x hg p8 p16
  resF := fun F m g o s x p8 p16 => x1_resF F m o s g x p8 p16
  resI := fun F m g o s x p8 p16 => x1_resI F m o s g x p8 p16

end Verif
