import Verif.Proof.IndirectA64Facts
import Mathlib.Tactic.Ring
import Mathlib.Algebra.Order.BigOperators.Group.Finset

/-! The accumulation loops of the Aarch64 indirect kernels, for any kernel whose code satisfies `NKernel.Facts`. -/

namespace Verif

open Finset

theorem nExecs_append (F : FOps) (m : NMem) (o : NOps) (p q : List NInstr) (s : NState) :
    nExecs F m o (p ++ q) s = nExecs F m o q (nExecs F m o p s) := by
  unfold nExecs; rw [List.foldl_append]

theorem nExecs_cons (F : FOps) (m : NMem) (o : NOps) (i : NInstr) (q : List NInstr) (s : NState) :
    nExecs F m o (i :: q) s = nExecs F m o q (nExec F m o i s) := rfl

/-- The activations of block `i` of pixel `k`, repeated to fill a register: `P k f` is the pointer for filter position `f`. -/
def abk (bd DB : Nat) (m : NMem) (off : Nat) (P : Nat → Nat → NAddr) (k i j : Nat) : BitVec 8 :=
  m.byte (P k (i / DB)).obj ((P k (i / DB)).off + 4 * off + 4 * bd * (i % DB) + j % (4 * bd))

/-- The weights of block `i`, register `q`. -/
def wbk (bd : Nat) (m : NMem) (W : NAddr) (i q j : Nat) : BitVec 8 := m.byte W.obj (W.off + 32 * bd * i + 16 * q + j)

theorem blockSum_congr {bd : Nat} (hbd : bd = 1 ∨ bd = 2 ∨ bd = 4) {a a' : Nat → BitVec 8} {w w' : Nat → Nat → BitVec 8} {h : Nat} (hh : h < 8)
    (ha : ∀ j, j < 16 → a j = a' j) (hw : ∀ q j, q < 2 * bd → j < 16 → w q j = w' q j) :
    blockSum bd a w h = blockSum bd a' w' h := by
  unfold blockSum
  apply sum_congr rfl
  intro i hi
  have hi : i < 4 * bd := by simpa using hi
  have hq : (4 * bd * h + i) / 16 < 2 * bd := by
    rcases hbd with rfl | rfl | rfl <;> omega
  unfold xc
  rw [ha _ (by omega), hw _ _ hq (by omega)]

theorem laneHalf_zero (h : Nat) : laneHalf (fun _ => 0#8) h = BitVec.ofNat 16 0 := by
  
  change (0#8 ++ 0#8 : BitVec 16) = 0#16
  decide

/-- Between two blocks: the registers hold block `i`, the accumulators the blocks before. -/
structure NKernel.At (A : NKernel) (m : NMem) (off : Nat) (P : Nat → Nat → NAddr) (W : NAddr) (DB i : Nat) (s : NState) : Prop where
  a : ∀ k j, k < 4 → j < 16 → s.v (16 + k) j = abk A.bd DB m off P k i j
  w : ∀ q j, q < 2 * A.bd → j < 16 → s.v (20 + q) j = wbk A.bd m W i q j
  acc : ∀ k h, k < 4 → h < 8 → laneHalf (s.v (28 + k)) h =
    BitVec.ofNat 16 (∑ i' ∈ range i, blockSum A.bd (abk A.bd DB m off P k i') (wbk A.bd m W i') h)
  xw : s.x 20 = W.add (32 * A.bd * (i + 1))
  ok : s.ok = true

/-- The pointers to block `i` of the four pixels. -/
def NKernel.PtrAt (A : NKernel) (off : Nat) (P : Nat → Nat → NAddr) (DB i : Nat) (s : NState) : Prop :=
  ∀ k, k < 4 → s.x (10 + k) = (P k (i / DB)).add (4 * off + 4 * A.bd * (i % DB))

variable {A : NKernel} (hA : A.Facts) (F : FOps) {m : NMem} {o : NOps} {P : Nat → Nat → NAddr} {W : NAddr} {DB : Nat}
include hA

theorem NKernel.At.step {i : Nat} {s : NState} (h : A.At m o.off P W DB i s) (hp : A.PtrAt o.off P DB (i + 1) s)
    (hb : ∀ k, k < 4 → (P k ((i + 1) / DB)).off + 4 * o.off + 4 * A.bd * ((i + 1) % DB) + 4 * A.bd
      ≤ m.size (P k ((i + 1) / DB)).obj)
    (hw : W.off + 32 * A.bd * (i + 2) ≤ m.size W.obj) :
    A.At m o.off P W DB (i + 1) (nExecs F m o A.block s) := by
  have B := hA.block F m o s
  refine ⟨?_, ?_, ?_, ?_, ?_⟩
  · intro k j hk hj
    rw [B.a k j hk hj, hp k hk]
    unfold NAddr.add abk
    simp only [Nat.add_assoc]
  · intro q j hq hj
    rw [B.w q j hq hj, h.xw]
    unfold NAddr.add wbk
    rfl
  · intro k hh hk hhh
    rw [B.acc k hh hk hhh, h.acc k hh hk hhh, sum_range_succ]
    rw [blockSum_congr hA.bd hhh (fun j hj => h.a k j hk hj) (fun q j hq hj => h.w q j hq hj)]
    rw [BitVec.ofNat_add]
  · rw [B.xw, h.xw]
    unfold NAddr.add
    simp only [NAddr.mk.injEq, true_and]
    ring
  · apply B.ok h.ok
    · intro k hk
      rw [hp k hk]
      have := hb k hk
      unfold NAddr.add
      simp only []
      omega
    · rw [h.xw]
      unfold NAddr.add
      simp only []
      have e : 32 * A.bd * (i + 2) = 32 * A.bd * (i + 1) + 32 * A.bd := by ring
      omega

/-- `AccumulationLoop_Depth2OrMore`. -/
theorem nLoop2_eq {g : Bool} (hg : g = false → o.off = 0) {fs : Nat} {s : NState} {I : NAddr} (hI : s.x 21 = I)
    (hfs : 1 ≤ fs) (hDB : 2 ≤ DB) (hd : o.depth = DB)
    (hind : ∀ k f, k < 4 → f ≤ fs → m.ptr I.obj (I.off + 32 * f + 8 * k) = P k f)
    (hIs : I.off + 32 * (fs + 1) ≤ m.size I.obj)
    (hPs : ∀ k f, k < 4 → f ≤ fs → (P k f).off + 4 * o.off + 4 * A.bd * DB ≤ m.size (P k f).obj)
    (hWs : W.off + 32 * A.bd * (fs * DB + 1) ≤ m.size W.obj)
    (h0a : ∀ k j, k < 4 → j < 16 → s.v (16 + k) j = abk A.bd DB m o.off P k 0 j)
    (h0w : ∀ q j, q < 2 * A.bd → j < 16 → s.v (20 + q) j = wbk A.bd m W 0 q j)
    (h0x : s.x 20 = W.add (32 * A.bd)) (h0k : s.ok = true) :
    ∃ s', nLoop2 A F m g o fs s = some s' ∧ A.At m o.off P W DB (fs * DB) s' := by
  have hgo : (if g = true then o.off else 0) = o.off := by
    cases g
    · rw [hg rfl]; rfl
    · rfl
  unfold nLoop2
  have hdm : ∀ f d, d < DB → (f * DB + d) / DB = f ∧ (f * DB + d) % DB = d := fun f d h => div_mod_row h
  have hWle : ∀ f d, f < fs → d < DB → W.off + 32 * A.bd * (f * DB + d + 2) ≤ m.size W.obj := by
    intro f d hf hd
    have h1 : f * DB + d + 2 ≤ fs * DB + 1 := by
      have := row_lt hf hd
      omega
    have := Nat.mul_le_mul_left (32 * A.bd) h1
    omega
  let Inv : Nat → NState → Prop := fun f s =>
    f < fs ∧ A.At m o.off P W DB (f * DB) s ∧ A.PtrAt o.off P DB (f * DB + 1) s ∧ s.x 21 = I.add (32 * (f + 1)) ∧
      s.w1 = (DB : Int) - 1 ∧ s.fs = (fs : Int) - f
  have inner : ∀ f s, Inv f s → ∃ s',
      doWhile (·.gt) (fun s => some (nExecs F m o (.subsW1 :: A.block) s)) (o.depth + 1) s = some s' ∧
      A.At m o.off P W DB (f * DB + (DB - 1)) s' ∧ s'.x 21 = I.add (32 * (f + 1)) ∧ s'.fs = (fs : Int) - f := by
    rintro f s ⟨hf, hat, hpt, hxi, hw1, hfs'⟩
    apply doWhile_inv (cond := fun s : NState => s.gt)
      (fun s => ∃ n : Nat, n + 1 < DB ∧ A.At m o.off P W DB (f * DB + n) s ∧ A.PtrAt o.off P DB (f * DB + (n + 1)) s ∧
        s.x 21 = I.add (32 * (f + 1)) ∧ s.w1 = (DB : Int) - 1 - n ∧ s.fs = (fs : Int) - f)
      _ (fun s => s.w1.toNat)
    · rintro s ⟨n, hn, hat, hpt, hxi, hw1, hfs'⟩
      refine ⟨_, rfl, ?_⟩
      rw [nExecs_cons]
      set s1 : NState := nExec F m o .subsW1 s with hs1
      have hat1 : A.At m o.off P W DB (f * DB + n) s1 := ⟨hat.a, hat.w, hat.acc, hat.xw, hat.ok⟩
      have hpt1 : A.PtrAt o.off P DB (f * DB + (n + 1)) s1 := hpt
      have B := hA.block F m o s1
      obtain ⟨e1, e2⟩ := hdm f (n + 1) hn
      have hat2 := hat1.step hA F (i := f * DB + n) hpt1
        (by
          intro k hk
          rw [Nat.add_assoc (f * DB) n 1, e1, e2]
          have := hPs k f hk (by omega)
          have h2 : 4 * A.bd * (n + 1) + 4 * A.bd ≤ 4 * A.bd * DB := by
            have h3 := Nat.mul_le_mul_left (4 * A.bd) (show n + 1 + 1 ≤ DB from hn)
            rw [Nat.mul_add _ (n + 1) 1, Nat.mul_one] at h3
            exact h3
          omega)
        (hWle f n hf (by omega))
      have w1' : (nExecs F m o A.block s1).w1 = (DB : Int) - 1 - (n + 1 : Nat) := by
        rw [B.w1]
        change s.w1 - 1 = _
        rw [hw1]; push_cast; omega
      have gt' : (nExecs F m o A.block s1).gt = decide ((DB : Int) - 1 - (n + 1 : Nat) > 0) := by
        rw [B.gt]
        change decide (s.w1 - 1 > 0) = _
        rw [hw1]
        congr 1
        push_cast
        apply propext
        constructor <;> intro h <;> omega
      have xi' : (nExecs F m o A.block s1).x 21 = I.add (32 * (f + 1)) := B.xi.trans hxi
      have fs' : (nExecs F m o A.block s1).fs = (fs : Int) - f := B.fs.trans hfs'
      refine ⟨?_, ?_⟩
      · intro hc
        rw [gt', decide_eq_true_eq] at hc
        refine ⟨⟨n + 1, by omega, hat2, ?_, xi', w1', fs'⟩, ?_⟩
        · intro k hk
          rw [B.xa k hk, hpt1 k hk, e1, e2, (hdm f (n + 1 + 1) (by omega)).1, (hdm f (n + 1 + 1) (by omega)).2]
          unfold NAddr.add
          simp only [NAddr.mk.injEq, true_and]
          ring
        · rw [w1']
          rw [hw1]; push_cast; omega
      · intro hc
        rw [gt', decide_eq_false_iff_not] at hc
        have : n + 1 = DB - 1 := by push_cast at hc; omega
        refine ⟨?_, xi', fs'⟩
        rw [← this]; exact hat2
    · refine ⟨0, by omega, hat, ?_, hxi, ?_, hfs'⟩
      · exact hpt
      · rw [hw1]; simp
    · rw [hw1, hd]; omega
  apply doWhile_inv (cond := fun s : NState => s.gt) (fun s => ∃ f, Inv f s) _ (fun s => s.fs.toNat)
  · rintro s ⟨f, hinv⟩
    obtain ⟨s1, h1, hat, hxi, hfs1⟩ := inner f s hinv
    obtain ⟨hf, -, -, -, -, hfs'⟩ := hinv
    refine ⟨_, by rw [h1]; rfl, ?_⟩
    rw [nExecs_append]
    have M := hA.mid2 F m g o s1
    set s2 := nExecs F m o (A.mid2 g) s1 with hs2
    have nind : ∀ k, k < 4 → nInd m s1.x k = P k (f + 1) := by
      intro k hk
      rw [← hind k (f + 1) hk (by omega)]
      unfold nInd
      rw [hxi]
      rfl
    have hi1 : f * DB + (DB - 1) + 1 = (f + 1) * DB := by rw [Nat.succ_mul]; omega
    have e12 : ((f + 1) * DB) / DB = f + 1 ∧ ((f + 1) * DB) % DB = 0 := hdm (f + 1) 0 (by omega)
    have hat2 : A.At m o.off P W DB (f * DB + (DB - 1)) s2 := by
      refine ⟨?_, ?_, ?_, ?_, ?_⟩
      · intro k j; rw [M.v]; exact hat.a k j
      · intro k j; rw [M.v]; exact hat.w k j
      · intro k j; rw [M.v]; exact hat.acc k j
      · rw [M.xw]; exact hat.xw
      · apply M.ok hat.ok
        unfold nIndOk
        rw [hxi]
        change I.off + 32 * (f + 1) + 32 ≤ m.size I.obj
        omega
    have hpt2 : A.PtrAt o.off P DB (f * DB + (DB - 1) + 1) s2 := by
      intro k hk
      rw [M.xa k hk, nind k hk, hgo, hi1, e12.1, e12.2, Nat.mul_zero, Nat.add_zero (4 * o.off)]
    have hat3 := hat2.step hA F hpt2
      (by
        intro k hk
        rw [hi1, e12.1, e12.2]
        have := hPs k (f + 1) hk (by omega)
        have h2 : 4 * A.bd ≤ 4 * A.bd * DB := Nat.le_mul_of_pos_right _ (by omega)
        omega)
      (hWle f (DB - 1) hf (by omega))
    rw [hi1] at hat3 hpt2
    have B := hA.block F m o s2
    have gt' : (nExecs F m o A.block s2).gt = decide (((fs : Int) - (f + 1 : Nat)) > 0) := by
      rw [B.gt, M.gt, hfs1]
      congr 1
      push_cast
      apply propext
      constructor <;> intro h <;> omega
    have fs2 : (nExecs F m o A.block s2).fs = (fs : Int) - (f + 1 : Nat) := by
      rw [B.fs, M.fs, hfs1]; push_cast; omega
    refine ⟨?_, ?_⟩
    · intro hc
      rw [gt', decide_eq_true_eq] at hc
      refine ⟨⟨f + 1, by omega, hat3, ?_, ?_, ?_, fs2⟩, ?_⟩
      · intro k hk
        rw [B.xa k hk, hpt2 k hk, e12.1, e12.2, (hdm (f + 1) 1 (by omega)).1, (hdm (f + 1) 1 (by omega)).2]
        unfold NAddr.add
        simp only [NAddr.mk.injEq, true_and]
        ring
      · rw [B.xi, M.xi, hxi]
        unfold NAddr.add
        simp only [NAddr.mk.injEq, true_and]
        ring
      · rw [B.w1, M.w1, hd]
      · rw [fs2]
        rw [hfs']; omega
    · intro hc
      rw [gt', decide_eq_false_iff_not] at hc
      have : f + 1 = fs := by omega
      rw [← this]; exact hat3
  · have R := hA.pro2 F m g o { s with fs := (fs : Int) }
    have hk0 : nIndOk m s.x := by
      unfold nIndOk
      rw [hI]; omega
    refine ⟨0, by omega, ⟨?_, ?_, ?_, ?_, ?_⟩, ?_, ?_, ?_, ?_⟩
    · intro k j hk hj; rw [R.a k hk, Nat.zero_mul]; exact h0a k j hk hj
    · intro q j hq hj; rw [R.w q hq, Nat.zero_mul]; exact h0w q j hq hj
    · intro k h hk hh
      rw [R.acc k hk, Nat.zero_mul, sum_range_zero]
      exact laneHalf_zero h
    · rw [R.xw, Nat.zero_mul, Nat.zero_add, Nat.mul_one]; exact h0x
    · exact R.ok h0k hk0
    · intro k hk
      have e1 : 1 / DB = 0 := Nat.div_eq_of_lt (by omega)
      have e2 : 1 % DB = 1 := Nat.mod_eq_of_lt (by omega)
      rw [R.xa k hk, hgo, Nat.zero_mul, Nat.zero_add, e1, e2, Nat.mul_one]
      have : nInd m s.x k = P k 0 := by
        rw [← hind k 0 hk (by omega)]
        unfold nInd
        rw [hI]; rfl
      change ((nInd m s.x k).add _).add _ = _
      rw [this]
      unfold NAddr.add
      simp only [NAddr.mk.injEq, true_and]
      ring
    · rw [R.xi]
      change (s.x 21).add 32 = _
      rw [hI]
    · rw [R.w1, hd]
    · rw [R.fs]; simp
  · have R := hA.pro2 F m g o { s with fs := (fs : Int) }
    rw [R.fs]
    change (fs : Int).toNat < fs + 1
    omega

/-- `AccumulationLoop_Depth1`. -/
theorem nLoop1_eq {g : Bool} (hg : g = false → o.off = 0) {fs : Nat} {s : NState} {I : NAddr} (hI : s.x 21 = I)
    (hfs : 1 ≤ fs)
    (hind : ∀ k f, k < 4 → f ≤ fs → m.ptr I.obj (I.off + 32 * f + 8 * k) = P k f)
    (hIs : I.off + 32 * (fs + 1) ≤ m.size I.obj)
    (hPs : ∀ k f, k < 4 → f ≤ fs → (P k f).off + 4 * o.off + 4 * A.bd ≤ m.size (P k f).obj)
    (hWs : W.off + 32 * A.bd * (fs + 1) ≤ m.size W.obj)
    (h0a : ∀ k j, k < 4 → j < 16 → s.v (16 + k) j = abk A.bd 1 m o.off P k 0 j)
    (h0w : ∀ q j, q < 2 * A.bd → j < 16 → s.v (20 + q) j = wbk A.bd m W 0 q j)
    (h0x : s.x 20 = W.add (32 * A.bd)) (h0k : s.ok = true) :
    ∃ s', nLoop1 A F m g o fs s = some s' ∧ A.At m o.off P W 1 fs s' := by
  have hgo : (if g = true then o.off else 0) = o.off := by
    cases g
    · rw [hg rfl]; rfl
    · rfl
  unfold nLoop1
  have R := hA.pro1 F m o { s with fs := (fs : Int) }
  apply doWhile_inv (cond := fun s : NState => s.gt)
    (fun s => ∃ f : Nat, f < fs ∧ A.At m o.off P W 1 f s ∧ s.x 21 = I.add (32 * (f + 1)) ∧ s.fs = (fs : Int) - f)
    _ (fun s => s.fs.toNat)
  · rintro s ⟨f, hf, hat, hxi, hfs'⟩
    refine ⟨_, rfl, ?_⟩
    rw [nExecs_append]
    have M := hA.body1 F m g o s
    set s2 := nExecs F m o (A.body1 g) s with hs2
    have nind : ∀ k, k < 4 → nInd m s.x k = P k (f + 1) := by
      intro k hk
      rw [← hind k (f + 1) hk (by omega)]
      unfold nInd
      rw [hxi]
      rfl
    have hat2 : A.At m o.off P W 1 f s2 := by
      refine ⟨?_, ?_, ?_, ?_, ?_⟩
      · intro k j; rw [M.v]; exact hat.a k j
      · intro k j; rw [M.v]; exact hat.w k j
      · intro k j; rw [M.v]; exact hat.acc k j
      · rw [M.xw]; exact hat.xw
      · apply M.ok hat.ok
        unfold nIndOk
        rw [hxi]
        change I.off + 32 * (f + 1) + 32 ≤ m.size I.obj
        omega
    have hpt2 : A.PtrAt o.off P 1 (f + 1) s2 := by
      intro k hk
      rw [M.xa k hk, nind k hk, hgo, Nat.div_one, Nat.mod_one, Nat.mul_zero, Nat.add_zero (4 * o.off)]
    have hat3 := hat2.step hA F hpt2
      (by
        intro k hk
        rw [Nat.div_one, Nat.mod_one]
        have := hPs k (f + 1) hk (by omega)
        omega)
      (by
        have := Nat.mul_le_mul_left (32 * A.bd) (show f + 2 ≤ fs + 1 by omega)
        omega)
    have B := hA.block F m o s2
    have gt' : (nExecs F m o A.block s2).gt = decide (((fs : Int) - (f + 1 : Nat)) > 0) := by
      rw [B.gt, M.gt, hfs']
      congr 1
      push_cast
      apply propext
      constructor <;> intro h <;> omega
    have fs2 : (nExecs F m o A.block s2).fs = (fs : Int) - (f + 1 : Nat) := by
      rw [B.fs, M.fs, hfs']; push_cast; omega
    refine ⟨?_, ?_⟩
    · intro hc
      rw [gt', decide_eq_true_eq] at hc
      refine ⟨⟨f + 1, by omega, hat3, ?_, fs2⟩, ?_⟩
      · rw [B.xi, M.xi, hxi]
        unfold NAddr.add
        simp only [NAddr.mk.injEq, true_and]
        ring
      · rw [fs2]
        rw [hfs']; omega
    · intro hc
      rw [gt', decide_eq_false_iff_not] at hc
      have : f + 1 = fs := by omega
      rw [← this]; exact hat3
  · refine ⟨0, by omega, ⟨?_, ?_, ?_, ?_, ?_⟩, ?_, ?_⟩
    · intro k j hk hj; rw [R.a k hk]; exact h0a k j hk hj
    · intro q j hq hj; rw [R.w q hq]; exact h0w q j hq hj
    · intro k h hk hh
      rw [R.acc k hk, sum_range_zero]
      exact laneHalf_zero h
    · rw [R.xw, Nat.zero_add, Nat.mul_one]; exact h0x
    · rw [R.ok]; exact h0k
    · rw [R.xi]
      change (s.x 21).add 32 = _
      rw [hI]
    · rw [R.fs]; simp
  · rw [R.fs]
    change (fs : Int).toNat < fs + 1
    omega

/-- Both loops, as called. -/
theorem nAccum_eq {d2 g : Bool} (hg : g = false → o.off = 0) {fs : Nat} {s : NState} {I : NAddr} (hI : s.x 21 = I)
    (hfs : 1 ≤ fs) (hDB : 1 ≤ DB) (hd2 : d2 = decide (2 ≤ DB)) (hd : o.depth = DB)
    (hind : ∀ k f, k < 4 → f ≤ fs → m.ptr I.obj (I.off + 32 * f + 8 * k) = P k f)
    (hIs : I.off + 32 * (fs + 1) ≤ m.size I.obj)
    (hPs : ∀ k f, k < 4 → f ≤ fs → (P k f).off + 4 * o.off + 4 * A.bd * DB ≤ m.size (P k f).obj)
    (hWs : W.off + 32 * A.bd * (fs * DB + 1) ≤ m.size W.obj)
    (h0a : ∀ k j, k < 4 → j < 16 → s.v (16 + k) j = abk A.bd DB m o.off P k 0 j)
    (h0w : ∀ q j, q < 2 * A.bd → j < 16 → s.v (20 + q) j = wbk A.bd m W 0 q j)
    (h0x : s.x 20 = W.add (32 * A.bd)) (h0k : s.ok = true) :
    ∃ s', nAccum A F m d2 g o fs s = some s' ∧ A.At m o.off P W DB (fs * DB) s' ∧ s'.x 21 = I := by
  unfold nAccum
  have fin : ∀ s1 : NState, A.At m o.off P W DB (fs * DB) s1 →
      ∃ s', (((some s1).map fun s' : NState => { s' with x := setX s'.x 21 (s.x 21) }).bind nCheck) = some s' ∧
        A.At m o.off P W DB (fs * DB) s' ∧ s'.x 21 = I := by
    intro s1 h1
    refine ⟨{ s1 with x := setX s1.x 21 (s.x 21) }, ?_, ⟨h1.a, h1.w, h1.acc, h1.xw, h1.ok⟩, hI⟩
    simp only [Option.map_some, Option.bind_some, nCheck, h1.ok, if_true]
  by_cases h2 : 2 ≤ DB
  · obtain ⟨s1, e1, h1⟩ := nLoop2_eq hA F hg hI hfs h2 hd hind hIs hPs hWs h0a h0w h0x h0k
    rw [hd2, if_pos (by simp [h2]), e1]
    exact fin s1 h1
  · have hDB1 : DB = 1 := by omega
    subst hDB1
    obtain ⟨s1, e1, h1⟩ := nLoop1_eq hA F hg hI hfs hind hIs (by simpa using hPs) (by simpa using hWs) h0a h0w h0x h0k
    rw [hd2, if_neg (by simp), e1]
    apply fin s1
    rw [Nat.mul_one]; exact h1

end Verif
