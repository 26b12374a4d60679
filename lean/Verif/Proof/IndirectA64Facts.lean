import Verif.Basic.KernelRfl
import Verif.Proof.NeonA64

/-! What the instruction sequences of the three Aarch64 indirect kernels compute. -/

namespace Verif

/-- `XOR_POPCOUNT_ACCUM_LOAD_BLOCK`. -/
structure NKernel.BlockFacts (A : NKernel) (F : FOps) (m : NMem) (o : NOps) (s s' : NState) : Prop where
  a : ∀ k j, k < 4 → j < 16 → s'.v (16 + k) j = m.byte (s.x (10 + k)).obj ((s.x (10 + k)).off + j % (4 * A.bd))
  w : ∀ q j, q < 2 * A.bd → j < 16 → s'.v (20 + q) j = m.byte (s.x 20).obj ((s.x 20).off + 16 * q + j)
  acc : ∀ k h, k < 4 → h < 8 → laneHalf (s'.v (28 + k)) h = laneHalf (s.v (28 + k)) h +
    BitVec.ofNat 16 (blockSum A.bd (s.v (16 + k)) (fun q => s.v (20 + q)) h)
  xa : ∀ k, k < 4 → s'.x (10 + k) = (s.x (10 + k)).add (4 * A.bd)
  xw : s'.x 20 = (s.x 20).add (32 * A.bd)
  xi : s'.x 21 = s.x 21
  w1 : s'.w1 = s.w1
  fs : s'.fs = s.fs
  gt : s'.gt = s.gt
  ok : s.ok = true → (∀ k, k < 4 → (s.x (10 + k)).off + 4 * A.bd ≤ m.size (s.x (10 + k)).obj) →
    (s.x 20).off + 32 * A.bd ≤ m.size (s.x 20).obj → s'.ok = true

/-- The pointer to the activations of pixel `k` that `indirection_ptr` points to. -/
def nInd (m : NMem) (x : Nat → NAddr) (k : Nat) : NAddr := m.ptr (x 21).obj ((x 21).off + 8 * k)

/-- Four activation pointers are readable. -/
def nIndOk (m : NMem) (x : Nat → NAddr) : Prop := (x 21).off + 32 ≤ m.size (x 21).obj

/-- Beginning of `AccumulationLoop_Depth2OrMore`. -/
structure NKernel.Pro2Facts (A : NKernel) (m : NMem) (g : Bool) (o : NOps) (s s' : NState) : Prop where
  a : ∀ k, k < 4 → s'.v (16 + k) = s.v (16 + k)
  w : ∀ q, q < 2 * A.bd → s'.v (20 + q) = s.v (20 + q)
  acc : ∀ k, k < 4 → s'.v (28 + k) = fun _ => 0#8
  xa : ∀ k, k < 4 → s'.x (10 + k) = ((nInd m s.x k).add (4 * if g then o.off else 0)).add (4 * A.bd)
  xw : s'.x 20 = s.x 20
  xi : s'.x 21 = (s.x 21).add 32
  w1 : s'.w1 = (o.depth : Int) - 1
  fs : s'.fs = s.fs
  ok : s.ok = true → nIndOk m s.x → s'.ok = true

/-- `AccumulationLoop_Depth2OrMore` between the inner loop and the last block. -/
structure NKernel.Mid2Facts (m : NMem) (g : Bool) (o : NOps) (s s' : NState) : Prop where
  v : s'.v = s.v
  xa : ∀ k, k < 4 → s'.x (10 + k) = (nInd m s.x k).add (4 * if g then o.off else 0)
  xw : s'.x 20 = s.x 20
  xi : s'.x 21 = (s.x 21).add 32
  w1 : s'.w1 = (o.depth : Int) - 1
  fs : s'.fs = s.fs - 1
  gt : s'.gt = decide (s.fs - 1 > 0)
  ok : s.ok = true → nIndOk m s.x → s'.ok = true

/-- Beginning of `AccumulationLoop_Depth1`. -/
structure NKernel.Pro1Facts (A : NKernel) (s s' : NState) : Prop where
  a : ∀ k, k < 4 → s'.v (16 + k) = s.v (16 + k)
  w : ∀ q, q < 2 * A.bd → s'.v (20 + q) = s.v (20 + q)
  acc : ∀ k, k < 4 → s'.v (28 + k) = fun _ => 0#8
  xw : s'.x 20 = s.x 20
  xi : s'.x 21 = (s.x 21).add 32
  fs : s'.fs = s.fs
  ok : s'.ok = s.ok

/-- `AccumulationLoop_Depth1`, loop body before the block. -/
structure NKernel.Body1Facts (m : NMem) (g : Bool) (o : NOps) (s s' : NState) : Prop where
  v : s'.v = s.v
  xa : ∀ k, k < 4 → s'.x (10 + k) = (nInd m s.x k).add (4 * if g then o.off else 0)
  xw : s'.x 20 = s.x 20
  xi : s'.x 21 = (s.x 21).add 32
  fs : s'.fs = s.fs - 1
  gt : s'.gt = decide (s.fs - 1 > 0)
  ok : s.ok = true → nIndOk m s.x → s'.ok = true

/-- Pre-loading of weights and activations. -/
structure NKernel.PreFacts (A : NKernel) (m : NMem) (s s' : NState) : Prop where
  a : ∀ k j, k < 4 → j < 16 → s'.v (16 + k) j = m.byte (nInd m s.x k).obj ((nInd m s.x k).off + j % (4 * A.bd))
  w : ∀ q j, q < 2 * A.bd → j < 16 → s'.v (20 + q) j = m.byte (s.x 20).obj ((s.x 20).off + 16 * q + j)
  xw : s'.x 20 = (s.x 20).add (32 * A.bd)
  xi : s'.x 21 = s.x 21
  ok : s.ok = true → nIndOk m s.x → (∀ k, k < 4 → (nInd m s.x k).off + 4 * A.bd ≤ m.size (nInd m s.x k).obj) →
    (s.x 20).off + 32 * A.bd ≤ m.size (s.x 20).obj → s'.ok = true

/-- The output transform, common part: activations and weights for the next block are loaded. -/
structure NKernel.OtFacts (A : NKernel) (m : NMem) (g : Bool) (o : NOps) (s s' : NState) : Prop where
  a : ∀ k j, k < 4 → j < 16 → s'.v (16 + k) j = m.byte (nInd m s.x k).obj ((nInd m s.x k).off + 4 * o.off + j % (4 * A.bd))
  w : ∀ q j, q < 2 * A.bd → j < 16 → 32 * A.bd ≤ (s.x 20).off →
    s'.v (20 + q) j = m.byte (s.x 20).obj ((s.x 20).off - 32 * A.bd + 16 * q + j)
  xw : s'.x 20 = s.x 20
  xi : s'.x 21 = s.x 21
  ok : s.ok = true → nIndOk m s.x →
    (∀ k, k < 4 → (nInd m s.x k).off + 4 * o.off + 4 * A.bd ≤ m.size (nInd m s.x k).obj) →
    32 * A.bd ≤ (s.x 20).off → (s.x 20).off ≤ m.size (s.x 20).obj →
    4 * o.cIdx + 32 ≤ m.size 4 → 4 * o.cIdx + 32 ≤ m.size 5 → 24 ≤ m.size 6 → s'.ok = true

/-- The float results. -/
def OtFloatRes (F : FOps) (m : NMem) (o : NOps) (s s' : NState) : Prop :=
  ∀ p j, p < 4 → j < 8 → resF s'.v p j = otFloat F (m.word ⟨6, 0⟩) (m.word ⟨6, 4⟩) (laneHalf (s.v (28 + p)) j)
    (m.word ⟨4, 4 * o.cIdx + 4 * j⟩) (m.word ⟨5, 4 * o.cIdx + 4 * j⟩)

/-- The int8 results. -/
def OtInt8Res (F : FOps) (m : NMem) (o : NOps) (s s' : NState) : Prop :=
  ∀ p j, p < 4 → j < 8 → resI s'.v p j = sat8 (sat16 (F.fcvtns (otFloat F (m.word ⟨6, 0⟩) (m.word ⟨6, 4⟩)
    (laneHalf (s.v (28 + p)) j) (m.word ⟨4, 4 * o.cIdx + 4 * j⟩) (m.word ⟨5, 4 * o.cIdx + 4 * j⟩))))

/-- Everything about a kernel's code. -/
structure NKernel.Facts (A : NKernel) : Prop where
  bd : A.bd = 1 ∨ A.bd = 2 ∨ A.bd = 4
  block : ∀ F m o s, A.BlockFacts F m o s (nExecs F m o A.block s)
  pro2 : ∀ F m g o s, A.Pro2Facts m g o s (nExecs F m o (A.pro2 g) s)
  mid2 : ∀ F m g o s, NKernel.Mid2Facts m g o s (nExecs F m o (A.mid2 g) s)
  pro1 : ∀ F m o s, A.Pro1Facts s (nExecs F m o A.pro1 s)
  body1 : ∀ F m g o s, NKernel.Body1Facts m g o s (nExecs F m o (A.body1 g) s)
  pre : ∀ F m o s, A.PreFacts m s (nExecs F m o A.preload s)
  otF : ∀ F m g o (s : NState) x, (g = false → o.off = 0) → m.ptr 6 8 = ⟨4, 0⟩ → m.ptr 6 16 = ⟨5, 0⟩ →
    A.OtFacts m g o { s with x := nOtRegs o.cIdx x }
    (nExecs F m o (A.otF g) { s with x := nOtRegs o.cIdx x })
  otI : ∀ F m g o (s : NState) x, (g = false → o.off = 0) → m.ptr 6 8 = ⟨4, 0⟩ → m.ptr 6 16 = ⟨5, 0⟩ →
    A.OtFacts m g o { s with x := nOtRegs o.cIdx x }
    (nExecs F m o (A.otI g) { s with x := nOtRegs o.cIdx x })
  resF : ∀ F m g o (s : NState) x, m.ptr 6 8 = ⟨4, 0⟩ → m.ptr 6 16 = ⟨5, 0⟩ →
    OtFloatRes F m o s (nExecs F m o (A.otF g) { s with x := nOtRegs o.cIdx x })
  resI : ∀ F m g o (s : NState) x, m.ptr 6 8 = ⟨4, 0⟩ → m.ptr 6 16 = ⟨5, 0⟩ →
    OtInt8Res F m o s (nExecs F m o (A.otI g) { s with x := nOtRegs o.cIdx x })


theorem addr0 (a n : Nat) : (⟨a, 0⟩ : NAddr).add n = ⟨a, n⟩ := by
  unfold NAddr.add; rw [Nat.zero_add]

theorem load2 (f : Nat → BitVec 8) (old : BitVec 8) (j : Nat) (hj : j < 16) :
    (if j / 8 = 1 then f (j % 8) else if j / 8 = 0 then f (j % 8) else old) = f (j % (4 * 2)) := by
  by_cases h : j / 8 = 1
  · rw [if_pos h]
  · have h0 : j / 8 = 0 := by omega
    rw [if_neg h, if_pos h0]

theorem load4 (f : Nat → BitVec 8) (j : Nat) (hj : j < 16) : f j = f (j % (4 * 4)) := by
  rw [Nat.mod_eq_of_lt (show j < 4 * 4 from hj)]

theorem fin4 {P : Nat → Prop} (h0 : P 0) (h1 : P 1) (h2 : P 2) (h3 : P 3) : ∀ k, k < 4 → P k := by
  intro k hk; interval_cases k <;> assumption

end Verif
