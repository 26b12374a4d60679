import Verif.Basic.KernelRfl
import Verif.Model.GemmA64
import Verif.Proof.IndirectA64Facts

/-! What the instruction sequences of the Aarch64 8x4 BGEMM kernel compute. -/

namespace Verif

variable (F : FOps) (m : NMem) (o : NOps) (s : NState)

/-- The 16 bytes at an address. -/
def NMem.reg (m : NMem) (a : NAddr) (n : Nat) : Nat → BitVec 8 := fun j => m.byte a.obj (a.off + n + j)

/-- The registers after the loads for a block: `v8` is the first RHS column, `v0`-`v7` the LHS. -/
structure G8Loaded (s s' : NState) : Prop where
  r : s'.v 8 = m.reg (s.x 11) 0
  l : ∀ q, q < 8 → s'.v q = m.reg (s.x 10) (16 * q)
  xl : s'.x 10 = (s.x 10).add 128
  xr : s'.x 11 = (s.x 11).add 16
  x12 : s'.x 12 = s.x 12
  x13 : s'.x 13 = s.x 13
  x14 : s'.x 14 = s.x 14

theorem g8_pre : G8Loaded m s (nExecs F m o g8Pre s) where
  r := by kernel_rfl
  l := by intro q hq; interval_cases q <;> kernel_rfl
  xl := by kernel_rfl
  xr := by kernel_rfl
  x12 := by kernel_rfl
  x13 := by kernel_rfl
  x14 := by kernel_rfl

theorem g8_pre_acc (c : Nat) (hc : c < 4) : (nExecs F m o g8Pre s).v (24 + c) = fun _ => 0#8 := by
  interval_cases c <;> kernel_rfl

theorem g8_pre_ok (h : s.ok = true) (hl : (s.x 10).off + 128 ≤ m.size (s.x 10).obj)
    (hr : (s.x 11).off + 16 ≤ m.size (s.x 11).obj) : (nExecs F m o g8Pre s).ok = true := by
  have e : (nExecs F m o g8Pre s).ok =
      [decide ((s.x 11).off + 0 + 16 ≤ m.size (s.x 11).obj),
       decide ((s.x 10).off + 0 + 16 ≤ m.size (s.x 10).obj),
       decide ((s.x 10).off + 16 + 16 ≤ m.size (s.x 10).obj),
       decide ((s.x 10).off + 32 + 16 ≤ m.size (s.x 10).obj),
       decide ((s.x 10).off + 48 + 16 ≤ m.size (s.x 10).obj),
       decide ((s.x 10).off + 64 + 16 ≤ m.size (s.x 10).obj),
       decide ((s.x 10).off + 80 + 16 ≤ m.size (s.x 10).obj),
       decide ((s.x 10).off + 96 + 16 ≤ m.size (s.x 10).obj),
       decide ((s.x 10).off + 112 + 16 ≤ m.size (s.x 10).obj)].foldl (fun b p => b && p) s.ok := by
    kernel_rfl
  rw [e, h]
  simp only [List.foldl_cons, List.foldl_nil, Bool.and_eq_true, decide_eq_true_eq, true_and]
  omega

theorem g8_xor_v (q : Nat) (hq : q < 8) : (nExecs F m o g8Xor s).v (12 + q) = fun j => s.v 8 j ^^^ s.v q j := by
  interval_cases q <;> kernel_rfl

theorem g8_xor_l (q : Nat) (hq : q < 8) : (nExecs F m o g8Xor s).v q = s.v q := by
  interval_cases q <;> kernel_rfl

theorem g8_xor_acc (c : Nat) (hc : c < 4) : (nExecs F m o g8Xor s).v (24 + c) = s.v (24 + c) := by
  interval_cases c <;> kernel_rfl

theorem g8_xor_31 : (nExecs F m o g8Xor s).v 31 = s.v 31 := by kernel_rfl
theorem g8_xor_x : (nExecs F m o g8Xor s).x = s.x := by kernel_rfl
theorem g8_xor_ok : (nExecs F m o g8Xor s).ok = s.ok := by kernel_rfl

/-- The tree of additions on bit counts. -/
def gTree (d : Nat → Nat → BitVec 8) : Nat → BitVec 8 :=
  laneAddp
    (laneAddp (laneAddp (fun j => byteCnt (d 0 j)) (fun j => byteCnt (d 1 j)))
      (laneAddp (fun j => byteCnt (d 2 j)) (fun j => byteCnt (d 3 j))))
    (laneAddp (laneAddp (fun j => byteCnt (d 4 j)) (fun j => byteCnt (d 5 j)))
      (laneAddp (fun j => byteCnt (d 6 j)) (fun j => byteCnt (d 7 j))))

theorem gTree_half (acc a : Nat → BitVec 8) (w d : Nat → Nat → BitVec 8) (hd : ∀ q, q < 8 → d q = fun j => a j ^^^ w q j)
    (h : Nat) (hh : h < 8) :
    laneHalf (laneUadalp acc (gTree d)) h = laneHalf acc h + BitVec.ofNat 16 (blockSum 4 a w h) := by
  rw [laneHalf_uadalp]
  have e : gTree d = laneAddp
      (laneAddp (laneAddp (xc a (w 0)) (xc a (w 1))) (laneAddp (xc a (w 2)) (xc a (w 3))))
      (laneAddp (laneAddp (xc a (w 4)) (xc a (w 5))) (laneAddp (xc a (w 6)) (xc a (w 7)))) := by
    unfold gTree
    rw [hd 0 (by omega), hd 1 (by omega), hd 2 (by omega), hd 3 (by omega), hd 4 (by omega), hd 5 (by omega), hd 6 (by omega),
      hd 7 (by omega)]
    rfl
  rw [e]
  exact congrArg (fun n => laneHalf acc h + BitVec.ofNat 16 n) (tree4 a w h hh)

theorem g8_loop_acc0 : (nExecs F m o g8Loop s).v 24 = laneUadalp (s.v 24) (gTree fun q => s.v (12 + q)) := by kernel_rfl

theorem g8_loop_acc (c : Nat) (hc : c < 3) : (nExecs F m o g8Loop s).v (25 + c)
    = laneUadalp (s.v (25 + c)) (gTree fun q j => m.reg (s.x 11) (16 * c) j ^^^ s.v q j) := by
  interval_cases c <;> kernel_rfl

theorem g8_loop_l (q : Nat) (hq : q < 8) : (nExecs F m o g8Loop s).v q = m.reg (s.x 10) (16 * q) := by
  interval_cases q <;> kernel_rfl

theorem g8_loop_d (q : Nat) (hq : q < 8) :
    (nExecs F m o g8Loop s).v (12 + q) = fun j => m.reg (s.x 11) 48 j ^^^ m.reg (s.x 10) (16 * q) j := by
  interval_cases q <;> kernel_rfl

theorem g8_loop_31 : (nExecs F m o g8Loop s).v 31 = s.v 31 := by kernel_rfl
theorem g8_loop_x10 : (nExecs F m o g8Loop s).x 10 = (s.x 10).add 128 := by kernel_rfl
theorem g8_loop_x11 : (nExecs F m o g8Loop s).x 11 = (s.x 11).add 64 := by kernel_rfl
theorem g8_loop_x12 : (nExecs F m o g8Loop s).x 12 = s.x 12 := by kernel_rfl
theorem g8_loop_x13 : (nExecs F m o g8Loop s).x 13 = s.x 13 := by kernel_rfl
theorem g8_loop_x14 : (nExecs F m o g8Loop s).x 14 = s.x 14 := by kernel_rfl

theorem g8_loop_ok (h : s.ok = true) (hl : (s.x 10).off + 128 ≤ m.size (s.x 10).obj)
    (hr : (s.x 11).off + 64 ≤ m.size (s.x 11).obj) : (nExecs F m o g8Loop s).ok = true := by
  have e : (nExecs F m o g8Loop s).ok =
      [decide ((s.x 11).off + 0 + 16 ≤ m.size (s.x 11).obj),
       decide ((s.x 11).off + 16 + 16 ≤ m.size (s.x 11).obj),
       decide ((s.x 11).off + 32 + 16 ≤ m.size (s.x 11).obj),
       decide ((s.x 11).off + 48 + 16 ≤ m.size (s.x 11).obj),
       decide ((s.x 10).off + 0 + 16 ≤ m.size (s.x 10).obj),
       decide ((s.x 10).off + 16 + 16 ≤ m.size (s.x 10).obj),
       decide ((s.x 10).off + 32 + 16 ≤ m.size (s.x 10).obj),
       decide ((s.x 10).off + 48 + 16 ≤ m.size (s.x 10).obj),
       decide ((s.x 10).off + 64 + 16 ≤ m.size (s.x 10).obj),
       decide ((s.x 10).off + 80 + 16 ≤ m.size (s.x 10).obj),
       decide ((s.x 10).off + 96 + 16 ≤ m.size (s.x 10).obj),
       decide ((s.x 10).off + 112 + 16 ≤ m.size (s.x 10).obj)].foldl (fun b p => b && p) s.ok := by
    kernel_rfl
  rw [e, h]
  simp only [List.foldl_cons, List.foldl_nil, Bool.and_eq_true, decide_eq_true_eq, true_and]
  omega

theorem g8_tail_acc0 : (nExecs F m o g8Tail s).v 24 = laneUadalp (s.v 24) (gTree fun q => s.v (12 + q)) := by kernel_rfl

theorem g8_tail_acc (c : Nat) (hc : c < 3) : (nExecs F m o g8Tail s).v (25 + c)
    = laneUadalp (s.v (25 + c)) (gTree fun q j => m.reg (s.x 11) (16 * c) j ^^^ s.v q j) := by
  interval_cases c <;> kernel_rfl

theorem g8_tail_31 : (nExecs F m o g8Tail s).v 31 = s.v 31 := by kernel_rfl
theorem g8_tail_x12 : (nExecs F m o g8Tail s).x 12 = s.x 12 := by kernel_rfl
theorem g8_tail_x13 : (nExecs F m o g8Tail s).x 13 = s.x 13 := by kernel_rfl
theorem g8_tail_x14 : (nExecs F m o g8Tail s).x 14 = s.x 14 := by kernel_rfl

theorem g8_tail_ok (h : s.ok = true) (hr : (s.x 11).off + 48 ≤ m.size (s.x 11).obj) :
    (nExecs F m o g8Tail s).ok = true := by
  have e : (nExecs F m o g8Tail s).ok =
      [decide ((s.x 11).off + 0 + 16 ≤ m.size (s.x 11).obj),
       decide ((s.x 11).off + 16 + 16 ≤ m.size (s.x 11).obj),
       decide ((s.x 11).off + 32 + 16 ≤ m.size (s.x 11).obj)].foldl (fun b p => b && p) s.ok := by
    kernel_rfl
  rw [e, h]
  simp only [List.foldl_cons, List.foldl_nil, Bool.and_eq_true, decide_eq_true_eq, true_and]
  omega

theorem g8_zero_acc (c : Nat) (hc : c < 4) : (nExecs F m o g8Zero s).v (24 + c) = fun _ => 0#8 := by
  interval_cases c <;> kernel_rfl
theorem g8_zero_v (q : Nat) (hq : q < 9 ∨ q = 31) : (nExecs F m o g8Zero s).v q = s.v q := by
  rcases hq with hq | rfl
  · interval_cases q <;> kernel_rfl
  · kernel_rfl
theorem g8_zero_x : (nExecs F m o g8Zero s).x = s.x := by kernel_rfl
theorem g8_zero_ok : (nExecs F m o g8Zero s).ok = s.ok := by kernel_rfl

end Verif
