import Verif.Proof.IndirectA64Facts

/-! The facts of Proof/IndirectA64Facts.lean for the 8x4x4 kernel. Generated by `tools/gen_a64_facts.py`. -/

namespace Verif

variable (F : FOps) (m : NMem) (o : NOps) (s : NState)

theorem x4_block : kernelX4.BlockFacts F m o s (nExecs F m o x4Block s) where
  a := by
    intro k j hk hj
    have e : (nExecs F m o x4Block s).v (16 + k) = fun j => m.byte (s.x (10 + k)).obj ((s.x (10 + k)).off + j) := by
      interval_cases k <;> kernel_rfl
    rw [e]
    exact load4 (fun i => m.byte (s.x (10 + k)).obj ((s.x (10 + k)).off + i)) j hj
  w := by
    intro q j hq hj
    have hq : q < 8 := hq
    refine congrFun (g := fun j => m.byte (s.x 20).obj ((s.x 20).off + 16 * q + j)) ?_ j
    interval_cases q <;> kernel_rfl
  acc := by
    intro k h hk hh
    have e : (nExecs F m o x4Block s).v (28 + k)
        = laneUadalp (s.v (28 + k)) (laneAddp
          (laneAddp (laneAddp (xc (s.v (16 + k)) (s.v 20)) (xc (s.v (16 + k)) (s.v 21)))
            (laneAddp (xc (s.v (16 + k)) (s.v 22)) (xc (s.v (16 + k)) (s.v 23))))
          (laneAddp (laneAddp (xc (s.v (16 + k)) (s.v 24)) (xc (s.v (16 + k)) (s.v 25)))
            (laneAddp (xc (s.v (16 + k)) (s.v 26)) (xc (s.v (16 + k)) (s.v 27))))) := by
      interval_cases k <;> kernel_rfl
    rw [e, laneHalf_uadalp]
    exact congrArg (fun n => laneHalf (s.v (28 + k)) h + BitVec.ofNat 16 n)
      (tree4 (s.v (16 + k)) (fun q => s.v (20 + q)) h hh)
  xa := fin4 (by kernel_rfl) (by kernel_rfl) (by kernel_rfl) (by kernel_rfl)
  xw := by kernel_rfl
  xi := by kernel_rfl
  w1 := by kernel_rfl
  fs := by kernel_rfl
  gt := by kernel_rfl
  ok := by
    intro h ha hw
    have e : (nExecs F m o x4Block s).ok =
        [decide ((s.x 10).off + 16 ≤ m.size (s.x 10).obj),
         decide ((s.x 11).off + 16 ≤ m.size (s.x 11).obj),
         decide ((s.x 12).off + 16 ≤ m.size (s.x 12).obj),
         decide ((s.x 13).off + 16 ≤ m.size (s.x 13).obj),
         decide ((s.x 20).off + 0 + 16 ≤ m.size (s.x 20).obj),
         decide ((s.x 20).off + 16 + 16 ≤ m.size (s.x 20).obj),
         decide ((s.x 20).off + 32 + 16 ≤ m.size (s.x 20).obj),
         decide ((s.x 20).off + 48 + 16 ≤ m.size (s.x 20).obj),
         decide ((s.x 20).off + 64 + 16 ≤ m.size (s.x 20).obj),
         decide ((s.x 20).off + 80 + 16 ≤ m.size (s.x 20).obj),
         decide ((s.x 20).off + 96 + 16 ≤ m.size (s.x 20).obj),
         decide ((s.x 20).off + 112 + 16 ≤ m.size (s.x 20).obj)].foldl (fun b p => b && p) s.ok := by
      kernel_rfl
    have a0 := ha 0 (by omega)
    have a1 := ha 1 (by omega)
    have a2 := ha 2 (by omega)
    have a3 := ha 3 (by omega)
    try simp only [Nat.reduceAdd] at a0 a1 a2 a3
    simp only [kernelX4] at *
    rw [e, h]
    simp only [List.foldl_cons, List.foldl_nil, Bool.and_eq_true, decide_eq_true_eq, true_and]
    omega

theorem x4_pro2 (g : Bool) : kernelX4.Pro2Facts m g o s (nExecs F m o (x4Pro2 g) s) where
  a := by cases g <;> exact fin4 (by kernel_rfl) (by kernel_rfl) (by kernel_rfl) (by kernel_rfl)
  w := by
    intro q hq
    have hq : q < 8 := hq
    cases g <;> interval_cases q <;> kernel_rfl
  acc := by cases g <;> exact fin4 (by kernel_rfl) (by kernel_rfl) (by kernel_rfl) (by kernel_rfl)
  xa := by cases g <;> exact fin4 (by kernel_rfl) (by kernel_rfl) (by kernel_rfl) (by kernel_rfl)
  xw := by cases g <;> kernel_rfl
  xi := by cases g <;> kernel_rfl
  w1 := by cases g <;> kernel_rfl
  fs := by cases g <;> kernel_rfl
  ok := by
    intro h hi
    unfold nIndOk at hi
    cases g
    · have e : (nExecs F m o (x4Pro2 false) s).ok =
          [decide ((s.x 21).off + 0 + 16 ≤ m.size (s.x 21).obj),
           decide ((s.x 21).off + 16 + 16 ≤ m.size (s.x 21).obj)].foldl (fun b p => b && p) s.ok := by
        kernel_rfl
      rw [e, h]
      simp only [List.foldl_cons, List.foldl_nil, Bool.and_eq_true, decide_eq_true_eq, true_and]
      omega
    · have e : (nExecs F m o (x4Pro2 true) s).ok =
          [decide ((s.x 21).off + 0 + 16 ≤ m.size (s.x 21).obj),
           decide ((s.x 21).off + 16 + 16 ≤ m.size (s.x 21).obj)].foldl (fun b p => b && p) s.ok := by
        kernel_rfl
      rw [e, h]
      simp only [List.foldl_cons, List.foldl_nil, Bool.and_eq_true, decide_eq_true_eq, true_and]
      omega

theorem x4_mid2 (g : Bool) : NKernel.Mid2Facts m g o s (nExecs F m o (x4Mid2 g) s) where
  v := by cases g <;> kernel_rfl
  xa := by cases g <;> exact fin4 (by kernel_rfl) (by kernel_rfl) (by kernel_rfl) (by kernel_rfl)
  xw := by cases g <;> kernel_rfl
  xi := by cases g <;> kernel_rfl
  w1 := by cases g <;> kernel_rfl
  fs := by cases g <;> kernel_rfl
  gt := by cases g <;> kernel_rfl
  ok := by
    intro h hi
    unfold nIndOk at hi
    cases g
    · have e : (nExecs F m o (x4Mid2 false) s).ok =
          [decide ((s.x 21).off + 0 + 16 ≤ m.size (s.x 21).obj),
           decide ((s.x 21).off + 16 + 16 ≤ m.size (s.x 21).obj)].foldl (fun b p => b && p) s.ok := by
        kernel_rfl
      rw [e, h]
      simp only [List.foldl_cons, List.foldl_nil, Bool.and_eq_true, decide_eq_true_eq, true_and]
      omega
    · have e : (nExecs F m o (x4Mid2 true) s).ok =
          [decide ((s.x 21).off + 0 + 16 ≤ m.size (s.x 21).obj),
           decide ((s.x 21).off + 16 + 16 ≤ m.size (s.x 21).obj)].foldl (fun b p => b && p) s.ok := by
        kernel_rfl
      rw [e, h]
      simp only [List.foldl_cons, List.foldl_nil, Bool.and_eq_true, decide_eq_true_eq, true_and]
      omega

theorem x4_pro1 : kernelX4.Pro1Facts s (nExecs F m o x4Pro1 s) where
  a := fin4 (by kernel_rfl) (by kernel_rfl) (by kernel_rfl) (by kernel_rfl)
  w := by
    intro q hq
    have hq : q < 8 := hq
    interval_cases q <;> kernel_rfl
  acc := fin4 (by kernel_rfl) (by kernel_rfl) (by kernel_rfl) (by kernel_rfl)
  xw := by kernel_rfl
  xi := by kernel_rfl
  fs := by kernel_rfl
  ok := by kernel_rfl

theorem x4_body1 (g : Bool) : NKernel.Body1Facts m g o s (nExecs F m o (x4Body1 g) s) where
  v := by cases g <;> kernel_rfl
  xa := by cases g <;> exact fin4 (by kernel_rfl) (by kernel_rfl) (by kernel_rfl) (by kernel_rfl)
  xw := by cases g <;> kernel_rfl
  xi := by cases g <;> kernel_rfl
  fs := by cases g <;> kernel_rfl
  gt := by cases g <;> kernel_rfl
  ok := by
    intro h hi
    unfold nIndOk at hi
    cases g
    · have e : (nExecs F m o (x4Body1 false) s).ok =
          [decide ((s.x 21).off + 0 + 16 ≤ m.size (s.x 21).obj),
           decide ((s.x 21).off + 16 + 16 ≤ m.size (s.x 21).obj)].foldl (fun b p => b && p) s.ok := by
        kernel_rfl
      rw [e, h]
      simp only [List.foldl_cons, List.foldl_nil, Bool.and_eq_true, decide_eq_true_eq, true_and]
      omega
    · have e : (nExecs F m o (x4Body1 true) s).ok =
          [decide ((s.x 21).off + 0 + 16 ≤ m.size (s.x 21).obj),
           decide ((s.x 21).off + 16 + 16 ≤ m.size (s.x 21).obj)].foldl (fun b p => b && p) s.ok := by
        kernel_rfl
      rw [e, h]
      simp only [List.foldl_cons, List.foldl_nil, Bool.and_eq_true, decide_eq_true_eq, true_and]
      omega

theorem x4_pre : kernelX4.PreFacts m s (nExecs F m o x4Preload s) where
  a := by
    intro k j hk hj
    have e : (nExecs F m o x4Preload s).v (16 + k) = fun j => m.byte (nInd m s.x k).obj ((nInd m s.x k).off + j) := by
      interval_cases k <;> kernel_rfl
    rw [e]
    exact load4 (fun i => m.byte (nInd m s.x k).obj ((nInd m s.x k).off + i)) j hj
  w := by
    intro q j hq hj
    have hq : q < 8 := hq
    refine congrFun (g := fun j => m.byte (s.x 20).obj ((s.x 20).off + 16 * q + j)) ?_ j
    interval_cases q <;> kernel_rfl
  xw := by kernel_rfl
  xi := by kernel_rfl
  ok := by
    intro h hi ha hw
    unfold nIndOk at hi
    have e : (nExecs F m o x4Preload s).ok =
        [decide ((s.x 20).off + 0 + 16 ≤ m.size (s.x 20).obj),
         decide ((s.x 20).off + 16 + 16 ≤ m.size (s.x 20).obj),
         decide ((s.x 20).off + 32 + 16 ≤ m.size (s.x 20).obj),
         decide ((s.x 20).off + 48 + 16 ≤ m.size (s.x 20).obj),
         decide ((s.x 20).off + 64 + 16 ≤ m.size (s.x 20).obj),
         decide ((s.x 20).off + 80 + 16 ≤ m.size (s.x 20).obj),
         decide ((s.x 20).off + 96 + 16 ≤ m.size (s.x 20).obj),
         decide ((s.x 20).off + 112 + 16 ≤ m.size (s.x 20).obj),
         decide ((s.x 21).off + 0 + 16 ≤ m.size (s.x 21).obj),
         decide ((s.x 21).off + 16 + 16 ≤ m.size (s.x 21).obj),
         decide ((nInd m s.x 0).off + 16 ≤ m.size (nInd m s.x 0).obj),
         decide ((nInd m s.x 1).off + 16 ≤ m.size (nInd m s.x 1).obj),
         decide ((nInd m s.x 2).off + 16 ≤ m.size (nInd m s.x 2).obj),
         decide ((nInd m s.x 3).off + 16 ≤ m.size (nInd m s.x 3).obj)].foldl (fun b p => b && p) s.ok := by
      kernel_rfl
    have a0 := ha 0 (by omega)
    have a1 := ha 1 (by omega)
    have a2 := ha 2 (by omega)
    have a3 := ha 3 (by omega)
    try simp only [Nat.reduceAdd] at a0 a1 a2 a3
    simp only [kernelX4] at *
    rw [e, h]
    simp only [List.foldl_cons, List.foldl_nil, Bool.and_eq_true, decide_eq_true_eq, true_and]
    omega

theorem x4_otF (g : Bool) (x : Nat → NAddr) (_hg : g = false → o.off = 0) (p8 : m.ptr 6 8 = ⟨4, 0⟩)
    (p16 : m.ptr 6 16 = ⟨5, 0⟩) : kernelX4.OtFacts m g o { s with x := nOtRegs o.cIdx x }
    (nExecs F m o (x4OtF) { s with x := nOtRegs o.cIdx x }) where
  a := by
    intro k j hk hj
    have e : (nExecs F m o (x4OtF) { s with x := nOtRegs o.cIdx x }).v (16 + k)
        = fun j => m.byte (nInd m x k).obj ((nInd m x k).off + 4 * o.off + j) := by
      interval_cases k <;> kernel_rfl
    rw [e]
    exact load4 (fun i => m.byte (nInd m x k).obj ((nInd m x k).off + 4 * o.off + i)) j hj
  w := by
    intro q j hq hj hw
    have hq : q < 8 := hq
    have hw : 128 ≤ (x 20).off := hw
    have e : (nExecs F m o (x4OtF) { s with x := nOtRegs o.cIdx x }).v (20 + q) = fun j => m.byte (x 20).obj ((x 20).off - (128 - 16 * q) + j) := by
      interval_cases q <;> kernel_rfl
    rw [e]
    have e2 : (x 20).off - (128 - 16 * q) + j = (x 20).off - 128 + 16 * q + j := by omega
    exact congrArg (m.byte (x 20).obj) e2
  xw := by kernel_rfl
  xi := by kernel_rfl
  ok := by
    intro h hi ha h1 h2 h3 h4 h5
    unfold nIndOk at hi
    change (x 21).off + 32 ≤ m.size (x 21).obj at hi
    change ∀ k, k < 4 → (nInd m x k).off + 4 * o.off + 16 ≤ m.size (nInd m x k).obj at ha
    change 128 ≤ (x 20).off at h1
    change (x 20).off ≤ m.size (x 20).obj at h2
    change s.ok = true at h
    have a0 := ha 0 (by omega)
    have a1 := ha 1 (by omega)
    have a2 := ha 2 (by omega)
    have a3 := ha 3 (by omega)
    try simp only [Nat.reduceAdd] at a0 a1 a2 a3
    have e : (nExecs F m o (x4OtF) { s with x := nOtRegs o.cIdx x }).ok =
        [decide (0 + 8 + 8 ≤ m.size 6),
         decide (0 + 4 ≤ m.size 6),
         decide (0 + 4 + 4 ≤ m.size 6),
         decide ((m.ptr 6 8).off + 4 * o.cIdx + 0 + 16 ≤ m.size (m.ptr 6 8).obj),
         decide ((m.ptr 6 8).off + 4 * o.cIdx + 16 + 16 ≤ m.size (m.ptr 6 8).obj),
         decide ((x 21).off + 0 + 16 ≤ m.size (x 21).obj),
         decide ((x 21).off + 16 + 16 ≤ m.size (x 21).obj),
         decide (128 ≤ (x 20).off ∧ (x 20).off - 128 + 16 ≤ m.size (x 20).obj),
         decide (112 ≤ (x 20).off ∧ (x 20).off - 112 + 16 ≤ m.size (x 20).obj),
         decide ((nInd m x 0).off + 4 * o.off + 16 ≤ m.size (nInd m x 0).obj),
         decide (0 + 16 + 8 ≤ m.size 6),
         decide ((nInd m x 1).off + 4 * o.off + 16 ≤ m.size (nInd m x 1).obj),
         decide ((nInd m x 2).off + 4 * o.off + 16 ≤ m.size (nInd m x 2).obj),
         decide ((m.ptr 6 16).off + 4 * o.cIdx + 0 + 16 ≤ m.size (m.ptr 6 16).obj),
         decide ((nInd m x 3).off + 4 * o.off + 16 ≤ m.size (nInd m x 3).obj),
         decide ((m.ptr 6 16).off + 4 * o.cIdx + 16 + 16 ≤ m.size (m.ptr 6 16).obj),
         decide (96 ≤ (x 20).off ∧ (x 20).off - 96 + 16 ≤ m.size (x 20).obj),
         decide (80 ≤ (x 20).off ∧ (x 20).off - 80 + 16 ≤ m.size (x 20).obj),
         decide (64 ≤ (x 20).off ∧ (x 20).off - 64 + 16 ≤ m.size (x 20).obj),
         decide (48 ≤ (x 20).off ∧ (x 20).off - 48 + 16 ≤ m.size (x 20).obj),
         decide (32 ≤ (x 20).off ∧ (x 20).off - 32 + 16 ≤ m.size (x 20).obj),
         decide (16 ≤ (x 20).off ∧ (x 20).off - 16 + 16 ≤ m.size (x 20).obj)].foldl (fun b p => b && p) s.ok := by
      kernel_rfl
    rw [e, h]
    simp only [p8, p16, List.foldl_cons, List.foldl_nil, Bool.and_eq_true, decide_eq_true_eq, true_and]
    omega

theorem x4_resF (_g : Bool) (x : Nat → NAddr) (p8 : m.ptr 6 8 = ⟨4, 0⟩) (p16 : m.ptr 6 16 = ⟨5, 0⟩) :
    OtFloatRes F m o s (nExecs F m o (x4OtF) { s with x := nOtRegs o.cIdx x }) := by
  intro p j hp hj
  unfold resF
  by_cases h4 : j < 4
  · have e : (nExecs F m o (x4OtF) { s with x := nOtRegs o.cIdx x }).v (32 + 2 * p)
        = otVec F (fun j => m.byte 6 (0 + j % 4)) (fun j => m.byte 6 (4 + j % 4))
          (fun j => m.byte ((m.ptr 6 8).add (4 * o.cIdx)).obj (((m.ptr 6 8).add (4 * o.cIdx)).off + 0 + j)) (fun j => m.byte ((m.ptr 6 16).add (4 * o.cIdx)).obj (((m.ptr 6 16).add (4 * o.cIdx)).off + 0 + j))
          (fun l => laneHalf (s.v (28 + p)) l) := by
      interval_cases p <;> kernel_rfl
    rw [show j / 4 = 0 by omega, show j % 4 = j by omega, Nat.add_zero, e, p8, p16, addr0, addr0]
    exact otVec_lane F m ⟨6, 0⟩ ⟨6, 4⟩ ⟨4, 4 * o.cIdx⟩ ⟨5, 4 * o.cIdx⟩ 0 0 (fun l => laneHalf (s.v (28 + p)) l) j
  · have e : (nExecs F m o (x4OtF) { s with x := nOtRegs o.cIdx x }).v (32 + 2 * p + 1)
        = otVec F (fun j => m.byte 6 (0 + j % 4)) (fun j => m.byte 6 (4 + j % 4))
          (fun j => m.byte ((m.ptr 6 8).add (4 * o.cIdx)).obj (((m.ptr 6 8).add (4 * o.cIdx)).off + 16 + j)) (fun j => m.byte ((m.ptr 6 16).add (4 * o.cIdx)).obj (((m.ptr 6 16).add (4 * o.cIdx)).off + 16 + j))
          (fun l => laneHalf (s.v (28 + p)) (l + 4)) := by
      interval_cases p <;> kernel_rfl
    rw [show j / 4 = 1 by omega, show j % 4 = j - 4 by omega, e, p8, p16, addr0, addr0]
    refine Eq.trans (otVec_lane F m ⟨6, 0⟩ ⟨6, 4⟩ ⟨4, 4 * o.cIdx⟩ ⟨5, 4 * o.cIdx⟩ 16 16
      (fun l => laneHalf (s.v (28 + p)) (l + 4)) (j - 4)) ?_
    have e1 : j - 4 + 4 = j := by omega
    have e2 : 4 * o.cIdx + 16 + 4 * (j - 4) = 4 * o.cIdx + 4 * j := by omega
    simp only [e1, e2]

theorem x4_otI (g : Bool) (x : Nat → NAddr) (_hg : g = false → o.off = 0) (p8 : m.ptr 6 8 = ⟨4, 0⟩)
    (p16 : m.ptr 6 16 = ⟨5, 0⟩) : kernelX4.OtFacts m g o { s with x := nOtRegs o.cIdx x }
    (nExecs F m o (x4OtI) { s with x := nOtRegs o.cIdx x }) where
  a := by
    intro k j hk hj
    have e : (nExecs F m o (x4OtI) { s with x := nOtRegs o.cIdx x }).v (16 + k)
        = fun j => m.byte (nInd m x k).obj ((nInd m x k).off + 4 * o.off + j) := by
      interval_cases k <;> kernel_rfl
    rw [e]
    exact load4 (fun i => m.byte (nInd m x k).obj ((nInd m x k).off + 4 * o.off + i)) j hj
  w := by
    intro q j hq hj hw
    have hq : q < 8 := hq
    have hw : 128 ≤ (x 20).off := hw
    have e : (nExecs F m o (x4OtI) { s with x := nOtRegs o.cIdx x }).v (20 + q) = fun j => m.byte (x 20).obj ((x 20).off - (128 - 16 * q) + j) := by
      interval_cases q <;> kernel_rfl
    rw [e]
    have e2 : (x 20).off - (128 - 16 * q) + j = (x 20).off - 128 + 16 * q + j := by omega
    exact congrArg (m.byte (x 20).obj) e2
  xw := by kernel_rfl
  xi := by kernel_rfl
  ok := by
    intro h hi ha h1 h2 h3 h4 h5
    unfold nIndOk at hi
    change (x 21).off + 32 ≤ m.size (x 21).obj at hi
    change ∀ k, k < 4 → (nInd m x k).off + 4 * o.off + 16 ≤ m.size (nInd m x k).obj at ha
    change 128 ≤ (x 20).off at h1
    change (x 20).off ≤ m.size (x 20).obj at h2
    change s.ok = true at h
    have a0 := ha 0 (by omega)
    have a1 := ha 1 (by omega)
    have a2 := ha 2 (by omega)
    have a3 := ha 3 (by omega)
    try simp only [Nat.reduceAdd] at a0 a1 a2 a3
    have e : (nExecs F m o (x4OtI) { s with x := nOtRegs o.cIdx x }).ok =
        [decide (0 + 8 + 8 ≤ m.size 6),
         decide (0 + 4 ≤ m.size 6),
         decide (0 + 4 + 4 ≤ m.size 6),
         decide ((m.ptr 6 8).off + 4 * o.cIdx + 0 + 16 ≤ m.size (m.ptr 6 8).obj),
         decide ((m.ptr 6 8).off + 4 * o.cIdx + 16 + 16 ≤ m.size (m.ptr 6 8).obj),
         decide ((x 21).off + 0 + 16 ≤ m.size (x 21).obj),
         decide ((x 21).off + 16 + 16 ≤ m.size (x 21).obj),
         decide (128 ≤ (x 20).off ∧ (x 20).off - 128 + 16 ≤ m.size (x 20).obj),
         decide (112 ≤ (x 20).off ∧ (x 20).off - 112 + 16 ≤ m.size (x 20).obj),
         decide ((nInd m x 0).off + 4 * o.off + 16 ≤ m.size (nInd m x 0).obj),
         decide (0 + 16 + 8 ≤ m.size 6),
         decide ((nInd m x 1).off + 4 * o.off + 16 ≤ m.size (nInd m x 1).obj),
         decide ((nInd m x 2).off + 4 * o.off + 16 ≤ m.size (nInd m x 2).obj),
         decide ((m.ptr 6 16).off + 4 * o.cIdx + 0 + 16 ≤ m.size (m.ptr 6 16).obj),
         decide ((nInd m x 3).off + 4 * o.off + 16 ≤ m.size (nInd m x 3).obj),
         decide ((m.ptr 6 16).off + 4 * o.cIdx + 16 + 16 ≤ m.size (m.ptr 6 16).obj),
         decide (96 ≤ (x 20).off ∧ (x 20).off - 96 + 16 ≤ m.size (x 20).obj),
         decide (80 ≤ (x 20).off ∧ (x 20).off - 80 + 16 ≤ m.size (x 20).obj),
         decide (64 ≤ (x 20).off ∧ (x 20).off - 64 + 16 ≤ m.size (x 20).obj),
         decide (48 ≤ (x 20).off ∧ (x 20).off - 48 + 16 ≤ m.size (x 20).obj),
         decide (32 ≤ (x 20).off ∧ (x 20).off - 32 + 16 ≤ m.size (x 20).obj),
         decide (16 ≤ (x 20).off ∧ (x 20).off - 16 + 16 ≤ m.size (x 20).obj)].foldl (fun b p => b && p) s.ok := by
      kernel_rfl
    rw [e, h]
    simp only [p8, p16, List.foldl_cons, List.foldl_nil, Bool.and_eq_true, decide_eq_true_eq, true_and]
    omega

theorem x4_resI (_g : Bool) (x : Nat → NAddr) (p8 : m.ptr 6 8 = ⟨4, 0⟩) (p16 : m.ptr 6 16 = ⟨5, 0⟩) :
    OtInt8Res F m o s (nExecs F m o (x4OtI) { s with x := nOtRegs o.cIdx x }) := by
  intro p j hp hj
  unfold resI
  have e : (nExecs F m o (x4OtI) { s with x := nOtRegs o.cIdx x }).v (32 + 2 * p)
      = narrow (ofWords fun l => F.fcvtns (laneWord (otVec F (fun j => m.byte 6 (0 + j % 4)) (fun j => m.byte 6 (4 + j % 4))
          (fun j => m.byte ((m.ptr 6 8).add (4 * o.cIdx)).obj (((m.ptr 6 8).add (4 * o.cIdx)).off + 0 + j)) (fun j => m.byte ((m.ptr 6 16).add (4 * o.cIdx)).obj (((m.ptr 6 16).add (4 * o.cIdx)).off + 0 + j))
          (fun l => laneHalf (s.v (28 + p)) l)) l))
        (ofWords fun l => F.fcvtns (laneWord (otVec F (fun j => m.byte 6 (0 + j % 4)) (fun j => m.byte 6 (4 + j % 4))
          (fun j => m.byte ((m.ptr 6 8).add (4 * o.cIdx)).obj (((m.ptr 6 8).add (4 * o.cIdx)).off + 16 + j)) (fun j => m.byte ((m.ptr 6 16).add (4 * o.cIdx)).obj (((m.ptr 6 16).add (4 * o.cIdx)).off + 16 + j))
          (fun l => laneHalf (s.v (28 + p)) (l + 4))) l)) := by
    interval_cases p <;> kernel_rfl
  rw [e, narrow_eq _ _ j hj, p8, p16, addr0, addr0]
  by_cases h4 : j < 4
  · rw [if_pos h4, show j % 4 = j by omega, laneWord_ofWords]
    exact congrArg (fun w => sat8 (sat16 (F.fcvtns w)))
      (otVec_lane F m ⟨6, 0⟩ ⟨6, 4⟩ ⟨4, 4 * o.cIdx⟩ ⟨5, 4 * o.cIdx⟩ 0 0 (fun l => laneHalf (s.v (28 + p)) l) j)
  · rw [if_neg h4, show j % 4 = j - 4 by omega, laneWord_ofWords]
    refine congrArg (fun w => sat8 (sat16 (F.fcvtns w))) (Eq.trans
      (otVec_lane F m ⟨6, 0⟩ ⟨6, 4⟩ ⟨4, 4 * o.cIdx⟩ ⟨5, 4 * o.cIdx⟩ 16 16
        (fun l => laneHalf (s.v (28 + p)) (l + 4)) (j - 4)) ?_)
    have e1 : j - 4 + 4 = j := by omega
    have e2 : 4 * o.cIdx + 16 + 4 * (j - 4) = 4 * o.cIdx + 4 * j := by omega
    simp only [e1, e2]

theorem x4_facts : kernelX4.Facts where
  bd := by decide
  block := fun F m o s => x4_block F m o s
  pro2 := fun F m g o s => x4_pro2 F m o s g
  mid2 := fun F m g o s => x4_mid2 F m o s g
  pro1 := fun F m o s => x4_pro1 F m o s
  body1 := fun F m g o s => x4_body1 F m o s g
  pre := fun F m o s => x4_pre F m o s
  otF := fun F m g o s x hg p8 p16 => x4_otF F m o s g x hg p8 p16
  otI := fun F m g o s x hg p8 p16 => x4_otI F m o s g x hg p8 p16
  resF := fun F m g o s x p8 p16 => x4_resF F m o s g x p8 p16
  resI := fun F m g o s x p8 p16 => x4_resI F m o s g x p8 p16

end Verif
