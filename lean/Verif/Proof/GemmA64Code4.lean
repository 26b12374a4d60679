import Mathlib.Algebra.Order.BigOperators.Group.Finset
import Verif.Proof.GemmA64Code8

/-! What the instruction sequences of the Aarch64 4x4 BGEMM kernel compute. -/

namespace Verif

open Finset

variable (F : FOps) (m : NMem) (o : NOps) (s : NState)

/-- The tree of additions on bit counts of the 4x4 kernel. -/
def g4Tree (a : Nat → BitVec 8) (w : Nat → Nat → BitVec 8) : Nat → BitVec 8 :=
  laneAddp (laneAddp (xc a (w 0)) (xc a (w 1))) (laneAddp (xc a (w 2)) (xc a (w 3)))

/-- An accumulator after `LCE_BMLA`. -/
def g4Bmla (acc a : Nat → BitVec 8) (w : Nat → Nat → BitVec 8) : Nat → BitVec 8 :=
  ofWords (wordUadalp acc (laneUaddlp (g4Tree a w)))

theorem laneHalf_uaddlp (a : Nat → BitVec 8) (h : Nat) :
    (laneHalf (laneUaddlp a) h).toNat = (a (2 * h)).toNat + (a (2 * h + 1)).toNat := by
  have e : laneHalf (laneUaddlp a) h = (a (2 * h)).zeroExtend 16 + (a (2 * h + 1)).zeroExtend 16 := by
    apply laneHalf_halfByte
    intro j hj
    unfold laneUaddlp
    have e1 : (2 * h + j) / 2 = h := by omega
    have e2 : (2 * h + j) % 2 = j := by omega
    rw [e1, e2]
  rw [e]
  have h1 := (a (2 * h)).isLt
  have h2 := (a (2 * h + 1)).isLt
  simp only [BitVec.toNat_add, BitVec.toNat_setWidth]
  omega

theorem g4Bmla_word (acc a : Nat → BitVec 8) (w : Nat → Nat → BitVec 8) (l : Nat) (hl : l < 4) :
    laneWord (g4Bmla acc a w) l = laneWord acc l + BitVec.ofNat 32 (blockSum 4 a w l) := by
  unfold g4Bmla
  rw [laneWord_ofWords]
  unfold wordUadalp
  refine congrArg (laneWord acc l + ·) ?_
  generalize hT : g4Tree a w = tr
  apply BitVec.eq_of_toNat_eq
  have t : ∀ h, (laneHalf (laneUaddlp tr) h).toNat < 65536 := fun h => (laneHalf _ h).isLt
  have t1 := t (2 * l)
  have t2 := t (2 * l + 1)
  rw [BitVec.toNat_add, BitVec.toNat_setWidth, BitVec.toNat_setWidth, BitVec.toNat_ofNat, Nat.mod_eq_of_lt (by omega),
    Nat.mod_eq_of_lt (by omega), Nat.mod_eq_of_lt (by omega), laneHalf_uaddlp, laneHalf_uaddlp]
  have l0 : ∀ n j, j < 16 → (xc a (w n) j).toNat ≤ 8 := fun n j hj => xc_le _ _ j hj
  have S : ∀ n k j, j < 16 → _ := fun n k => addp_toNat (l0 n) (l0 k) (by omega)
  have l1 : ∀ n k j, j < 16 → _ := fun n k => addp_le (l0 n) (l0 k) (by omega)
  have T : ∀ j, j < 16 → (laneAddp (laneAddp (xc a (w 0)) (xc a (w 1))) (laneAddp (xc a (w 2)) (xc a (w 3))) j).toNat = _ :=
    addp_toNat (l1 0 1) (l1 2 3) (by omega)
  have hT' : tr = laneAddp (laneAddp (xc a (w 0)) (xc a (w 1))) (laneAddp (xc a (w 2)) (xc a (w 3))) := hT.symm
  subst hT'
  have hb : blockSum 4 a w l < 4294967296 := by
    have : blockSum 4 a w l ≤ ∑ _i ∈ range 16, 8 := by
      unfold blockSum
      exact Finset.sum_le_sum fun i _ => byteCnt_le _
    rw [Finset.sum_const, Finset.card_range, Nat.nsmul_eq_mul] at this
    omega
  rw [Nat.mod_eq_of_lt hb]
  rw [T _ (by omega), T _ (by omega), T _ (by omega), T _ (by omega)]
  unfold blockSum
  interval_cases l <;> simp [sum_range_succ, S] <;> omega

/-- The registers after the loads for a block: `v0`-`v3` are the LHS, `v4`-`v7` the RHS. -/
structure G4Loaded (s s' : NState) : Prop where
  l : ∀ q, q < 4 → s'.v q = m.reg (s.x 10) (16 * q)
  r : ∀ q, q < 4 → s'.v (4 + q) = m.reg (s.x 11) (16 * q)
  xl : s'.x 10 = (s.x 10).add 64
  xr : s'.x 11 = (s.x 11).add 64
  x12 : s'.x 12 = s.x 12
  x13 : s'.x 13 = s.x 13
  x14 : s'.x 14 = s.x 14

theorem g4_pre : G4Loaded m s (nExecs F m o g4Pre s) where
  l := by intro q hq; interval_cases q <;> kernel_rfl
  r := by intro q hq; interval_cases q <;> kernel_rfl
  xl := by kernel_rfl
  xr := by kernel_rfl
  x12 := by kernel_rfl
  x13 := by kernel_rfl
  x14 := by kernel_rfl

theorem g4_pre_acc (c : Nat) (hc : c < 4) : (nExecs F m o g4Pre s).v (24 + c) = fun _ => 0#8 := by
  interval_cases c <;> kernel_rfl

theorem g4_pre_ok (h : s.ok = true) (hl : (s.x 10).off + 64 ≤ m.size (s.x 10).obj)
    (hr : (s.x 11).off + 64 ≤ m.size (s.x 11).obj) : (nExecs F m o g4Pre s).ok = true := by
  have e : (nExecs F m o g4Pre s).ok =
      [decide ((s.x 10).off + 0 + 16 ≤ m.size (s.x 10).obj),
       decide ((s.x 10).off + 16 + 16 ≤ m.size (s.x 10).obj),
       decide ((s.x 10).off + 32 + 16 ≤ m.size (s.x 10).obj),
       decide ((s.x 10).off + 48 + 16 ≤ m.size (s.x 10).obj),
       decide ((s.x 11).off + 0 + 16 ≤ m.size (s.x 11).obj),
       decide ((s.x 11).off + 16 + 16 ≤ m.size (s.x 11).obj),
       decide ((s.x 11).off + 32 + 16 ≤ m.size (s.x 11).obj),
       decide ((s.x 11).off + 48 + 16 ≤ m.size (s.x 11).obj)].foldl (fun b p => b && p) s.ok := by
    kernel_rfl
  rw [e, h]
  simp only [List.foldl_cons, List.foldl_nil, Bool.and_eq_true, decide_eq_true_eq, true_and]
  omega

theorem g4_first_acc0 : (nExecs F m o g4First s).v 24 = g4Bmla (s.v 24) (s.v 4) s.v := by kernel_rfl
theorem g4_first_acc (c : Nat) (hc : c < 3) : (nExecs F m o g4First s).v (25 + c) = s.v (25 + c) := by
  interval_cases c <;> kernel_rfl
theorem g4_first_v (q : Nat) (hq : q < 8) : (nExecs F m o g4First s).v q = s.v q := by
  interval_cases q <;> kernel_rfl
theorem g4_first_x : (nExecs F m o g4First s).x = s.x := by kernel_rfl
theorem g4_first_ok : (nExecs F m o g4First s).ok = s.ok := by kernel_rfl

theorem g4_load_v (q : Nat) (hq : q < 8) : (nExecs F m o g4Load s).v q = s.v q := by
  interval_cases q <;> kernel_rfl
theorem g4_load_acc (c : Nat) (hc : c < 4) : (nExecs F m o g4Load s).v (24 + c) = s.v (24 + c) := by
  interval_cases c <;> kernel_rfl
theorem g4_load_l (q : Nat) (hq : q < 4) : (nExecs F m o g4Load s).v (8 + q) = m.reg (s.x 10) (16 * q) := by
  interval_cases q <;> kernel_rfl
theorem g4_load_r (q : Nat) (hq : q < 4) : (nExecs F m o g4Load s).v (12 + q) = m.reg (s.x 11) (16 * q) := by
  interval_cases q <;> kernel_rfl
theorem g4_load_x (i : Nat) (hi : i = 12 ∨ i = 13 ∨ i = 14) : (nExecs F m o g4Load s).x i = s.x i := by
  rcases hi with rfl | rfl | rfl <;> kernel_rfl
theorem g4_load_x10 : (nExecs F m o g4Load s).x 10 = (s.x 10).add 64 := by kernel_rfl
theorem g4_load_x11 : (nExecs F m o g4Load s).x 11 = (s.x 11).add 64 := by kernel_rfl

theorem g4_load_ok (h : s.ok = true) (hl : (s.x 10).off + 64 ≤ m.size (s.x 10).obj)
    (hr : (s.x 11).off + 64 ≤ m.size (s.x 11).obj) : (nExecs F m o g4Load s).ok = true := by
  have e : (nExecs F m o g4Load s).ok =
      [decide ((s.x 10).off + 0 + 16 ≤ m.size (s.x 10).obj),
       decide ((s.x 10).off + 16 + 16 ≤ m.size (s.x 10).obj),
       decide ((s.x 10).off + 32 + 16 ≤ m.size (s.x 10).obj),
       decide ((s.x 10).off + 48 + 16 ≤ m.size (s.x 10).obj),
       decide ((s.x 11).off + 0 + 16 ≤ m.size (s.x 11).obj),
       decide ((s.x 11).off + 16 + 16 ≤ m.size (s.x 11).obj),
       decide ((s.x 11).off + 32 + 16 ≤ m.size (s.x 11).obj),
       decide ((s.x 11).off + 48 + 16 ≤ m.size (s.x 11).obj)].foldl (fun b p => b && p) s.ok := by
    kernel_rfl
  rw [e, h]
  simp only [List.foldl_cons, List.foldl_nil, Bool.and_eq_true, decide_eq_true_eq, true_and]
  omega

/-- Column 0: the block in `v8`-`v15`, then the block loaded into `v0`-`v7`. -/
theorem g4_stream_acc0 : (nExecs F m o g4Stream s).v 24
    = g4Bmla (g4Bmla (s.v 24) (s.v 12) (fun q => s.v (8 + q))) (m.reg (s.x 11) 0) (fun q => m.reg (s.x 10) (16 * q)) := by
  kernel_rfl
/-- Columns 1-3: the block in `v0`-`v7`, then the block in `v8`-`v15`. -/
theorem g4_stream_acc (c : Nat) (hc : c < 3) : (nExecs F m o g4Stream s).v (25 + c)
    = g4Bmla (g4Bmla (s.v (25 + c)) (s.v (5 + c)) s.v) (s.v (13 + c)) (fun q => s.v (8 + q)) := by
  interval_cases c <;> kernel_rfl
theorem g4_stream_l (q : Nat) (hq : q < 4) : (nExecs F m o g4Stream s).v q = m.reg (s.x 10) (16 * q) := by
  interval_cases q <;> kernel_rfl
theorem g4_stream_r (q : Nat) (hq : q < 4) : (nExecs F m o g4Stream s).v (4 + q) = m.reg (s.x 11) (16 * q) := by
  interval_cases q <;> kernel_rfl
theorem g4_stream_l2 (q : Nat) (hq : q < 4) : (nExecs F m o g4Stream s).v (8 + q) = m.reg (s.x 10) (64 + 16 * q) := by
  interval_cases q <;> kernel_rfl
theorem g4_stream_r2 (q : Nat) (hq : q < 4) : (nExecs F m o g4Stream s).v (12 + q) = m.reg (s.x 11) (64 + 16 * q) := by
  interval_cases q <;> kernel_rfl
theorem g4_stream_x (i : Nat) (hi : i = 12 ∨ i = 13 ∨ i = 14) : (nExecs F m o g4Stream s).x i = s.x i := by
  rcases hi with rfl | rfl | rfl <;> kernel_rfl
theorem g4_stream_x10 : (nExecs F m o g4Stream s).x 10 = (s.x 10).add 128 := by kernel_rfl
theorem g4_stream_x11 : (nExecs F m o g4Stream s).x 11 = (s.x 11).add 128 := by kernel_rfl

theorem g4_stream_ok (h : s.ok = true) (hl : (s.x 10).off + 128 ≤ m.size (s.x 10).obj)
    (hr : (s.x 11).off + 128 ≤ m.size (s.x 11).obj) : (nExecs F m o g4Stream s).ok = true := by
  have e : (nExecs F m o g4Stream s).ok =
      [decide ((s.x 11).off + 0 + 16 ≤ m.size (s.x 11).obj),
       decide ((s.x 11).off + 16 + 16 ≤ m.size (s.x 11).obj),
       decide ((s.x 11).off + 32 + 16 ≤ m.size (s.x 11).obj),
       decide ((s.x 11).off + 48 + 16 ≤ m.size (s.x 11).obj),
       decide ((s.x 10).off + 0 + 16 ≤ m.size (s.x 10).obj),
       decide ((s.x 10).off + 16 + 16 ≤ m.size (s.x 10).obj),
       decide ((s.x 10).off + 32 + 16 ≤ m.size (s.x 10).obj),
       decide ((s.x 10).off + 48 + 16 ≤ m.size (s.x 10).obj),
       decide ((s.x 11).off + 64 + 16 ≤ m.size (s.x 11).obj),
       decide ((s.x 11).off + 80 + 16 ≤ m.size (s.x 11).obj),
       decide ((s.x 11).off + 96 + 16 ≤ m.size (s.x 11).obj),
       decide ((s.x 11).off + 112 + 16 ≤ m.size (s.x 11).obj),
       decide ((s.x 10).off + 64 + 16 ≤ m.size (s.x 10).obj),
       decide ((s.x 10).off + 80 + 16 ≤ m.size (s.x 10).obj),
       decide ((s.x 10).off + 96 + 16 ≤ m.size (s.x 10).obj),
       decide ((s.x 10).off + 112 + 16 ≤ m.size (s.x 10).obj)].foldl (fun b p => b && p) s.ok := by
    kernel_rfl
  rw [e, h]
  simp only [List.foldl_cons, List.foldl_nil, Bool.and_eq_true, decide_eq_true_eq, true_and]
  omega

theorem g4_stail_acc (c : Nat) (hc : c < 4) : (nExecs F m o g4StreamTail s).v (24 + c)
    = g4Bmla (s.v (24 + c)) (s.v (12 + c)) (fun q => s.v (8 + q)) := by
  interval_cases c <;> kernel_rfl
theorem g4_stail_v (q : Nat) (hq : q < 8) : (nExecs F m o g4StreamTail s).v q = s.v q := by
  interval_cases q <;> kernel_rfl
theorem g4_stail_x : (nExecs F m o g4StreamTail s).x = s.x := by kernel_rfl
theorem g4_stail_ok : (nExecs F m o g4StreamTail s).ok = s.ok := by kernel_rfl

theorem g4_loop_acc0 : (nExecs F m o g4Loop s).v 24 = g4Bmla (s.v 24) (m.reg (s.x 11) 0) (fun q => m.reg (s.x 10) (16 * q)) := by
  kernel_rfl
theorem g4_loop_acc (c : Nat) (hc : c < 3) : (nExecs F m o g4Loop s).v (25 + c) = g4Bmla (s.v (25 + c)) (s.v (5 + c)) s.v := by
  interval_cases c <;> kernel_rfl

theorem g4_loop : G4Loaded m s (nExecs F m o g4Loop s) where
  l := by intro q hq; interval_cases q <;> kernel_rfl
  r := by intro q hq; interval_cases q <;> kernel_rfl
  xl := by kernel_rfl
  xr := by kernel_rfl
  x12 := by kernel_rfl
  x13 := by kernel_rfl
  x14 := by kernel_rfl

/-- The loads of the loop. -/
def g4LoopOkList : List Bool :=
  [decide ((s.x 11).off + 0 + 16 ≤ m.size (s.x 11).obj),
   decide ((s.x 11).off + 16 + 16 ≤ m.size (s.x 11).obj),
   decide ((s.x 11).off + 32 + 16 ≤ m.size (s.x 11).obj),
   decide ((s.x 11).off + 48 + 16 ≤ m.size (s.x 11).obj),
   decide ((s.x 10).off + 0 + 16 ≤ m.size (s.x 10).obj),
   decide ((s.x 10).off + 16 + 16 ≤ m.size (s.x 10).obj),
   decide ((s.x 10).off + 32 + 16 ≤ m.size (s.x 10).obj),
   decide ((s.x 10).off + 48 + 16 ≤ m.size (s.x 10).obj)]

theorem g4_loop_okList : (nExecs F m o g4Loop s).ok = (g4LoopOkList m s).foldl (fun b p => b && p) s.ok := by kernel_rfl

theorem g4_loop_ok (h : s.ok = true) (hl : (s.x 10).off + 64 ≤ m.size (s.x 10).obj)
    (hr : (s.x 11).off + 64 ≤ m.size (s.x 11).obj) : (nExecs F m o g4Loop s).ok = true := by
  rw [g4_loop_okList, h]
  unfold g4LoopOkList
  simp only [List.foldl_cons, List.foldl_nil, Bool.and_eq_true, decide_eq_true_eq, true_and]
  omega

theorem g4_tail_acc0 : (nExecs F m o g4Tail s).v 24 = s.v 24 := by kernel_rfl
theorem g4_tail_acc (c : Nat) (hc : c < 3) : (nExecs F m o g4Tail s).v (25 + c) = g4Bmla (s.v (25 + c)) (s.v (5 + c)) s.v := by
  interval_cases c <;> kernel_rfl
theorem g4_tail_x : (nExecs F m o g4Tail s).x = s.x := by kernel_rfl
theorem g4_tail_ok : (nExecs F m o g4Tail s).ok = s.ok := by kernel_rfl

theorem g4_zero_acc (c : Nat) (hc : c < 4) : (nExecs F m o g4Zero s).v (24 + c) = fun _ => 0#8 := by
  interval_cases c <;> kernel_rfl
theorem g4_zero_v (q : Nat) (hq : q < 8) : (nExecs F m o g4Zero s).v q = s.v q := by
  interval_cases q <;> kernel_rfl
theorem g4_zero_x : (nExecs F m o g4Zero s).x = s.x := by kernel_rfl
theorem g4_zero_ok : (nExecs F m o g4Zero s).ok = s.ok := by kernel_rfl

theorem g4_otF_loaded : G4Loaded m s (nExecs F m o g4OtF s) where
  l := by intro q hq; interval_cases q <;> kernel_rfl
  r := by intro q hq; interval_cases q <;> kernel_rfl
  xl := by kernel_rfl
  xr := by kernel_rfl
  x12 := by kernel_rfl
  x13 := by kernel_rfl
  x14 := by kernel_rfl

theorem g4_otI_loaded : G4Loaded m s (nExecs F m o g4OtI s) where
  l := by intro q hq; interval_cases q <;> kernel_rfl
  r := by intro q hq; interval_cases q <;> kernel_rfl
  xl := by kernel_rfl
  xr := by kernel_rfl
  x12 := by kernel_rfl
  x13 := by kernel_rfl
  x14 := by kernel_rfl

/-- The loads of the output transforms. -/
def g4OtOkList : List Bool :=
  [decide ((s.x 14).off + 72 + 8 ≤ m.size (s.x 14).obj),
   decide ((m.ptr (s.x 14).obj ((s.x 14).off + 72)).off + 4 * o.cIdx + 16 ≤ m.size (m.ptr (s.x 14).obj ((s.x 14).off + 72)).obj),
   decide ((s.x 14).off + 80 + 8 ≤ m.size (s.x 14).obj),
   decide ((m.ptr (s.x 14).obj ((s.x 14).off + 80)).off + 4 * o.cIdx + 16 ≤ m.size (m.ptr (s.x 14).obj ((s.x 14).off + 80)).obj),
   decide ((s.x 10).off + 0 + 16 ≤ m.size (s.x 10).obj),
   decide ((s.x 10).off + 16 + 16 ≤ m.size (s.x 10).obj),
   decide ((s.x 10).off + 32 + 16 ≤ m.size (s.x 10).obj),
   decide ((s.x 10).off + 48 + 16 ≤ m.size (s.x 10).obj),
   decide ((s.x 11).off + 0 + 16 ≤ m.size (s.x 11).obj),
   decide ((s.x 11).off + 16 + 16 ≤ m.size (s.x 11).obj),
   decide ((s.x 11).off + 32 + 16 ≤ m.size (s.x 11).obj),
   decide ((s.x 11).off + 48 + 16 ≤ m.size (s.x 11).obj),
   decide ((s.x 14).off + 64 + 4 ≤ m.size (s.x 14).obj),
   decide ((s.x 14).off + 68 + 4 ≤ m.size (s.x 14).obj)]

theorem g4_otF_okList : (nExecs F m o g4OtF s).ok = (g4OtOkList m o s).foldl (fun b p => b && p) s.ok := by kernel_rfl
theorem g4_otI_okList : (nExecs F m o g4OtI s).ok = (g4OtOkList m o s).foldl (fun b p => b && p) s.ok := by kernel_rfl

theorem g4OtOkList_ok (h : s.ok = true) (h14 : s.x 14 = ⟨6, 0⟩) (p72 : m.ptr 6 72 = ⟨4, 0⟩) (p80 : m.ptr 6 80 = ⟨5, 0⟩)
    (h6 : 88 ≤ m.size 6) (h4 : 4 * o.cIdx + 16 ≤ m.size 4) (h5 : 4 * o.cIdx + 16 ≤ m.size 5)
    (hl : (s.x 10).off + 64 ≤ m.size (s.x 10).obj) (hr : (s.x 11).off + 64 ≤ m.size (s.x 11).obj) :
    (g4OtOkList m o s).foldl (fun b p => b && p) s.ok = true := by
  unfold g4OtOkList
  rw [h, h14]
  simp only [Nat.zero_add, p72, p80, List.foldl_cons, List.foldl_nil, Bool.and_eq_true, decide_eq_true_eq, true_and]
  omega

/-- The instructions of the float output transform on a register of accumulators. -/
def otVec4 (F : FOps) (cmin cmax mu bi : Nat → BitVec 8) (acc : Nat → BitVec 8) : Nat → BitVec 8 :=
  ofWords fun l => F.fadd (laneWord (ofWords fun l => F.fmul (laneWord (ofWords fun l => F.scvtf (laneWord
    (ofWords fun l => wordSmin (laneWord (ofWords fun l => wordSmax (laneWord (ofWords fun l => laneWord acc l <<< 1) l)
      (laneWord cmin l)) l) (laneWord cmax l)) l)) l) (laneWord mu l)) l) (laneWord bi l)

/-- The float output transform of a 32-bit accumulator. -/
def otFloat4 (F : FOps) (cmin cmax : Word) (acc : Word) (mu bi : Word) : Word :=
  F.fadd (F.fmul (F.scvtf (wordSmin (wordSmax (acc <<< 1) cmin) cmax)) mu) bi

theorem otVec4_lane (F : FOps) (m : NMem) (amin amax amu abi : NAddr) (acc : Nat → BitVec 8) (l : Nat) :
    laneWord (otVec4 F (fun j => m.byte amin.obj (amin.off + j % 4)) (fun j => m.byte amax.obj (amax.off + j % 4))
      (m.reg amu 0) (m.reg abi 0) acc) l
    = otFloat4 F (m.word amin) (m.word amax) (laneWord acc l) (m.word ⟨amu.obj, amu.off + 4 * l⟩) (m.word ⟨abi.obj, abi.off + 4 * l⟩) := by
  unfold otVec4 otFloat4
  simp only [laneWord_ofWords]
  rw [laneWord_dup, laneWord_dup]
  unfold NMem.reg
  rw [laneWord_load, laneWord_load]
  rfl

/-- The 4x4 kernel's float results. -/
theorem g4_resF (h14 : s.x 14 = ⟨6, 0⟩) (p72 : m.ptr 6 72 = ⟨4, 0⟩) (p80 : m.ptr 6 80 = ⟨5, 0⟩) (c r : Nat) (hc : c < 4) :
    g4ResF (nExecs F m o g4OtF s).v c r = otFloat4 F (m.word ⟨6, 64⟩) (m.word ⟨6, 68⟩) (laneWord (s.v (24 + c)) r)
      (m.word ⟨4, 4 * o.cIdx + 4 * r⟩) (m.word ⟨5, 4 * o.cIdx + 4 * r⟩) := by
  unfold g4ResF
  have e : (nExecs F m o g4OtF s).v (24 + c)
        = otVec4 F (fun j => m.byte (s.x 14).obj ((s.x 14).off + 64 + j % 4)) (fun j => m.byte (s.x 14).obj ((s.x 14).off + 68 + j % 4))
          (m.reg ((m.ptr (s.x 14).obj ((s.x 14).off + 72)).add (4 * o.cIdx)) 0)
          (m.reg ((m.ptr (s.x 14).obj ((s.x 14).off + 80)).add (4 * o.cIdx)) 0) (s.v (24 + c)) := by
      interval_cases c <;> kernel_rfl
  rw [e, h14]
  simp only [Nat.zero_add, p72, p80, addr0]
  exact otVec4_lane F m ⟨6, 64⟩ ⟨6, 68⟩ ⟨4, 4 * o.cIdx⟩ ⟨5, 4 * o.cIdx⟩ (s.v (24 + c)) r

/-- The two narrowing instructions of the 4x4 kernel. -/
def narrow4 (a : Nat → BitVec 8) : Nat → BitVec 8 := fun j =>
  if j < 8 then sat8 (laneHalf (fun j => if j < 8 then halfByte (sat16 (laneWord a (j / 2))) (j % 2) else 0#8) j) else 0#8

theorem narrow4_eq (a : Nat → BitVec 8) (r : Nat) (hr : r < 4) : narrow4 a r = sat8 (sat16 (laneWord a r)) := by
  unfold narrow4
  rw [if_pos (by omega)]
  congr 1
  apply laneHalf_halfByte
  intro i hi2
  have e1 : 2 * r + i < 8 := by omega
  have e2 : (2 * r + i) / 2 = r := by omega
  have e3 : (2 * r + i) % 2 = i := by omega
  simp only [e1, if_true, e2, e3]

/-- The 4x4 kernel's int8 results. -/
theorem g4_resI (h14 : s.x 14 = ⟨6, 0⟩) (p72 : m.ptr 6 72 = ⟨4, 0⟩) (p80 : m.ptr 6 80 = ⟨5, 0⟩) (c r : Nat) (hc : c < 4) (hr : r < 4) :
    g4ResI (nExecs F m o g4OtI s).v c r = sat8 (sat16 (F.fcvtns (otFloat4 F (m.word ⟨6, 64⟩) (m.word ⟨6, 68⟩)
      (laneWord (s.v (24 + c)) r) (m.word ⟨4, 4 * o.cIdx + 4 * r⟩) (m.word ⟨5, 4 * o.cIdx + 4 * r⟩)))) := by
  unfold g4ResI
  have e : (nExecs F m o g4OtI s).v (24 + c)
        = narrow4 (ofWords fun l => F.fcvtns (laneWord (otVec4 F (fun j => m.byte (s.x 14).obj ((s.x 14).off + 64 + j % 4))
          (fun j => m.byte (s.x 14).obj ((s.x 14).off + 68 + j % 4))
          (m.reg ((m.ptr (s.x 14).obj ((s.x 14).off + 72)).add (4 * o.cIdx)) 0)
          (m.reg ((m.ptr (s.x 14).obj ((s.x 14).off + 80)).add (4 * o.cIdx)) 0) (s.v (24 + c))) l)) := by
      interval_cases c <;> kernel_rfl
  rw [e, narrow4_eq _ r hr, h14, laneWord_ofWords]
  simp only [Nat.zero_add, p72, p80, addr0]
  exact congrArg (fun w => sat8 (sat16 (F.fcvtns w)))
    (otVec4_lane F m ⟨6, 64⟩ ⟨6, 68⟩ ⟨4, 4 * o.cIdx⟩ ⟨5, 4 * o.cIdx⟩ (s.v (24 + c)) r)

end Verif
