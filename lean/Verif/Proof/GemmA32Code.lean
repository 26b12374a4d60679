import Verif.Proof.GemmA64Code4
import Verif.Model.GemmA32

/-! What the instruction sequences of the 32-bit Arm 4x4 BGEMM kernel compute. -/

namespace Verif

open Finset

variable (F : FOps) (m : NMem) (o : NOps) (s : NState)

/-- `vpadd` into half `h` of `old` from half `ha` of `a` and half `hb` of `b`. -/
def vpaddH (old : Nat → BitVec 8) (h : Nat) (a : Nat → BitVec 8) (ha : Nat) (b : Nat → BitVec 8) (hb : Nat) : Nat → BitVec 8 := fun j =>
  if j / 8 = h then
    (if j % 8 < 4 then a (8 * ha + (2 * (j % 8))) + a (8 * ha + (2 * (j % 8) + 1))
      else b (8 * hb + (2 * (j % 8) - 8)) + b (8 * hb + (2 * (j % 8) + 1 - 8)))
  else old j

/-- The six `vpadd` of `LCE_BMLA`. -/
def a4Pads (x0 x1 x2 x3 : Nat → BitVec 8) : Nat → BitVec 8 :=
  let q12 := vpaddH (vpaddH x0 0 x0 0 x0 1) 1 x1 0 x1 1
  let q14 := vpaddH (vpaddH x2 0 x2 0 x2 1) 1 x3 0 x3 1
  vpaddH (vpaddH q12 0 q12 0 q12 1) 1 q14 0 q14 1

/-- An accumulator after `LCE_BMLA`. -/
def a4Bmla (acc a : Nat → BitVec 8) (w : Nat → Nat → BitVec 8) : Nat → BitVec 8 :=
  ofWords (wordUadalp acc (laneUaddlp (a4Pads (xc a (w 0)) (xc a (w 1)) (xc a (w 2)) (xc a (w 3)))))

theorem a4Pads_eq (x0 x1 x2 x3 : Nat → BitVec 8) (j : Nat) (hj : j < 16) :
    a4Pads x0 x1 x2 x3 j = laneAddp (laneAddp x0 x1) (laneAddp x2 x3) j := by
  interval_cases j <;> rfl

theorem a4Bmla_word (acc a : Nat → BitVec 8) (w : Nat → Nat → BitVec 8) (l : Nat) (hl : l < 4) :
    laneWord (a4Bmla acc a w) l = laneWord (g4Bmla acc a w) l := by
  unfold a4Bmla g4Bmla
  rw [laneWord_ofWords, laneWord_ofWords]
  unfold wordUadalp
  have h : ∀ j, j < 16 → laneUaddlp (a4Pads (xc a (w 0)) (xc a (w 1)) (xc a (w 2)) (xc a (w 3))) j = laneUaddlp (g4Tree a w) j := by
    intro j hj
    unfold laneUaddlp g4Tree
    rw [a4Pads_eq _ _ _ _ _ (by omega), a4Pads_eq _ _ _ _ _ (by omega)]
  have h2 : ∀ k, k < 8 → laneHalf (laneUaddlp (a4Pads (xc a (w 0)) (xc a (w 1)) (xc a (w 2)) (xc a (w 3)))) k
      = laneHalf (laneUaddlp (g4Tree a w)) k := by
    intro k hk
    unfold laneHalf
    rw [h _ (by omega), h _ (by omega)]
  rw [h2 _ (by omega), h2 _ (by omega)]

theorem a4_pre : G4Loaded m s (nExecs F m o a4Pre s) where
  l := by intro q hq; interval_cases q <;> kernel_rfl
  r := by intro q hq; interval_cases q <;> kernel_rfl
  xl := by kernel_rfl
  xr := by kernel_rfl
  x12 := by kernel_rfl
  x13 := by kernel_rfl
  x14 := by kernel_rfl

theorem a4_pre_acc (c : Nat) (hc : c < 4) : (nExecs F m o a4Pre s).v (8 + c) = fun _ => 0#8 := by
  interval_cases c <;> kernel_rfl

/-- The loads of a block. -/
def a4LoadOkList : List Bool :=
  [decide ((s.x 10).off + 0 + 16 ≤ m.size (s.x 10).obj),
   decide ((s.x 10).off + 16 + 16 ≤ m.size (s.x 10).obj),
   decide ((s.x 10).off + 32 + 16 ≤ m.size (s.x 10).obj),
   decide ((s.x 10).off + 48 + 16 ≤ m.size (s.x 10).obj),
   decide ((s.x 11).off + 0 + 16 ≤ m.size (s.x 11).obj),
   decide ((s.x 11).off + 16 + 16 ≤ m.size (s.x 11).obj),
   decide ((s.x 11).off + 32 + 16 ≤ m.size (s.x 11).obj),
   decide ((s.x 11).off + 48 + 16 ≤ m.size (s.x 11).obj)]

theorem a4_pre_okList : (nExecs F m o a4Pre s).ok = (a4LoadOkList m s).foldl (fun b p => b && p) s.ok := by kernel_rfl
theorem a4_loop_okList : (nExecs F m o a4Loop s).ok = (a4LoadOkList m s).foldl (fun b p => b && p) s.ok := by kernel_rfl

theorem a4LoadOkList_ok (h : s.ok = true) (hl : (s.x 10).off + 64 ≤ m.size (s.x 10).obj)
    (hr : (s.x 11).off + 64 ≤ m.size (s.x 11).obj) : (a4LoadOkList m s).foldl (fun b p => b && p) s.ok = true := by
  rw [h]
  unfold a4LoadOkList
  simp only [List.foldl_cons, List.foldl_nil, Bool.and_eq_true, decide_eq_true_eq, true_and]
  omega

theorem a4_first_acc (c : Nat) (hc : c < 4) : (nExecs F m o a4First s).v (8 + c) = a4Bmla (s.v (8 + c)) (s.v (4 + c)) s.v := by
  interval_cases c <;> kernel_rfl
theorem a4_first_x : (nExecs F m o a4First s).x = s.x := by kernel_rfl
theorem a4_first_ok : (nExecs F m o a4First s).ok = s.ok := by kernel_rfl

theorem a4_loop_acc (c : Nat) (hc : c < 4) : (nExecs F m o a4Loop s).v (8 + c)
    = a4Bmla (s.v (8 + c)) (m.reg (s.x 11) (16 * c)) (fun q => m.reg (s.x 10) (16 * q)) := by
  interval_cases c <;> kernel_rfl
theorem a4_loop_x10 : (nExecs F m o a4Loop s).x 10 = (s.x 10).add 64 := by kernel_rfl
theorem a4_loop_x11 : (nExecs F m o a4Loop s).x 11 = (s.x 11).add 64 := by kernel_rfl
theorem a4_loop_x (i : Nat) (hi : i = 12 ∨ i = 13 ∨ i = 14) : (nExecs F m o a4Loop s).x i = s.x i := by
  rcases hi with rfl | rfl | rfl <;> kernel_rfl

theorem a4_zero_acc (c : Nat) (hc : c < 4) : (nExecs F m o a4Zero s).v (8 + c) = fun _ => 0#8 := by
  interval_cases c <;> kernel_rfl
theorem a4_zero_v (q : Nat) (hq : q < 8) : (nExecs F m o a4Zero s).v q = s.v q := by
  interval_cases q <;> kernel_rfl
theorem a4_zero_x : (nExecs F m o a4Zero s).x = s.x := by kernel_rfl
theorem a4_zero_ok : (nExecs F m o a4Zero s).ok = s.ok := by kernel_rfl

theorem a4_otF_loaded : G4Loaded m s (nExecs F m o a4OtF s) where
  l := by intro q hq; interval_cases q <;> kernel_rfl
  r := by intro q hq; interval_cases q <;> kernel_rfl
  xl := by kernel_rfl
  xr := by kernel_rfl
  x12 := by kernel_rfl
  x13 := by kernel_rfl
  x14 := by kernel_rfl

theorem a4_otI_loaded : G4Loaded m s (nExecs F m o a4OtI s) where
  l := by intro q hq; interval_cases q <;> kernel_rfl
  r := by intro q hq; interval_cases q <;> kernel_rfl
  xl := by kernel_rfl
  xr := by kernel_rfl
  x12 := by kernel_rfl
  x13 := by kernel_rfl
  x14 := by kernel_rfl

/-- The loads of the output transforms. -/
def a4OtOkList : List Bool :=
  [decide ((s.x 14).off + 60 + 4 ≤ m.size (s.x 14).obj),
   decide ((m.ptr (s.x 14).obj ((s.x 14).off + 60)).off + 4 * o.cIdx + 16 ≤ m.size (m.ptr (s.x 14).obj ((s.x 14).off + 60)).obj),
   decide ((s.x 14).off + 64 + 4 ≤ m.size (s.x 14).obj),
   decide ((m.ptr (s.x 14).obj ((s.x 14).off + 64)).off + 4 * o.cIdx + 16 ≤ m.size (m.ptr (s.x 14).obj ((s.x 14).off + 64)).obj),
   decide ((s.x 10).off + 0 + 16 ≤ m.size (s.x 10).obj),
   decide ((s.x 10).off + 16 + 16 ≤ m.size (s.x 10).obj),
   decide ((s.x 10).off + 32 + 16 ≤ m.size (s.x 10).obj),
   decide ((s.x 10).off + 48 + 16 ≤ m.size (s.x 10).obj),
   decide ((s.x 11).off + 0 + 16 ≤ m.size (s.x 11).obj),
   decide ((s.x 11).off + 16 + 16 ≤ m.size (s.x 11).obj),
   decide ((s.x 11).off + 32 + 16 ≤ m.size (s.x 11).obj),
   decide ((s.x 11).off + 48 + 16 ≤ m.size (s.x 11).obj),
   decide ((s.x 14).off + 52 + 4 ≤ m.size (s.x 14).obj),
   decide ((s.x 14).off + 56 + 4 ≤ m.size (s.x 14).obj)]

theorem a4_otF_okList : (nExecs F m o a4OtF s).ok = (a4OtOkList m o s).foldl (fun b p => b && p) s.ok := by kernel_rfl
theorem a4_otI_okList : (nExecs F m o a4OtI s).ok = (a4OtOkList m o s).foldl (fun b p => b && p) s.ok := by kernel_rfl

theorem a4OtOkList_ok (h : s.ok = true) (h14 : s.x 14 = ⟨6, 0⟩) (p60 : m.ptr 6 60 = ⟨4, 0⟩) (p64 : m.ptr 6 64 = ⟨5, 0⟩)
    (h6 : 68 ≤ m.size 6) (h4 : 4 * o.cIdx + 16 ≤ m.size 4) (h5 : 4 * o.cIdx + 16 ≤ m.size 5)
    (hl : (s.x 10).off + 64 ≤ m.size (s.x 10).obj) (hr : (s.x 11).off + 64 ≤ m.size (s.x 11).obj) :
    (a4OtOkList m o s).foldl (fun b p => b && p) s.ok = true := by
  unfold a4OtOkList
  rw [h, h14]
  simp only [Nat.zero_add, p60, p64, List.foldl_cons, List.foldl_nil, Bool.and_eq_true, decide_eq_true_eq, true_and]
  omega

/-- The float results. -/
theorem a4_resF (h14 : s.x 14 = ⟨6, 0⟩) (p60 : m.ptr 6 60 = ⟨4, 0⟩) (p64 : m.ptr 6 64 = ⟨5, 0⟩) (c r : Nat) (hc : c < 4) :
    a4ResF (nExecs F m o a4OtF s).v c r = otFloat4 F (m.word ⟨6, 52⟩) (m.word ⟨6, 56⟩) (laneWord (s.v (8 + c)) r)
      (m.word ⟨4, 4 * o.cIdx + 4 * r⟩) (m.word ⟨5, 4 * o.cIdx + 4 * r⟩) := by
  unfold a4ResF
  have e : (nExecs F m o a4OtF s).v (8 + c)
        = otVec4 F (fun j => m.byte (s.x 14).obj ((s.x 14).off + 52 + j % 4)) (fun j => m.byte (s.x 14).obj ((s.x 14).off + 56 + j % 4))
          (m.reg ((m.ptr (s.x 14).obj ((s.x 14).off + 60)).add (4 * o.cIdx)) 0)
          (m.reg ((m.ptr (s.x 14).obj ((s.x 14).off + 64)).add (4 * o.cIdx)) 0) (s.v (8 + c)) := by
      interval_cases c <;> kernel_rfl
  rw [e, h14]
  simp only [Nat.zero_add, p60, p64, addr0]
  exact otVec4_lane F m ⟨6, 52⟩ ⟨6, 56⟩ ⟨4, 4 * o.cIdx⟩ ⟨5, 4 * o.cIdx⟩ (s.v (8 + c)) r

/-- The narrowing instructions on the fixed-point values. -/
def a4Narrow (a : Nat → BitVec 8) : Nat → BitVec 8 := fun j =>
  let h : Nat → BitVec 8 := fun j => if j < 8 then halfByte (qrshrn8 (laneWord a (j / 2))) (j % 2) else a j
  if j < 8 then sat8 (laneHalf h j) else h j

theorem a4Narrow_eq (a : Nat → BitVec 8) (r : Nat) (hr : r < 4) : a4Narrow a r = sat8 (qrshrn8 (laneWord a r)) := by
  unfold a4Narrow
  simp only
  rw [if_pos (by omega)]
  congr 1
  apply laneHalf_halfByte
  intro i hi2
  have e1 : 2 * r + i < 8 := by omega
  have e2 : (2 * r + i) / 2 = r := by omega
  have e3 : (2 * r + i) % 2 = i := by omega
  simp only [e1, if_true, e2, e3]

/-- The int8 results. -/
theorem a4_resI (h14 : s.x 14 = ⟨6, 0⟩) (p60 : m.ptr 6 60 = ⟨4, 0⟩) (p64 : m.ptr 6 64 = ⟨5, 0⟩) (c r : Nat) (hc : c < 4) (hr : r < 4) :
    a4ResI (nExecs F m o a4OtI s).v c r = sat8 (qrshrn8 (F.fcvtFix8 (otFloat4 F (m.word ⟨6, 52⟩) (m.word ⟨6, 56⟩)
      (laneWord (s.v (8 + c)) r) (m.word ⟨4, 4 * o.cIdx + 4 * r⟩) (m.word ⟨5, 4 * o.cIdx + 4 * r⟩)))) := by
  unfold a4ResI
  have e : (nExecs F m o a4OtI s).v (8 + c)
        = a4Narrow (ofWords fun l => F.fcvtFix8 (laneWord (otVec4 F (fun j => m.byte (s.x 14).obj ((s.x 14).off + 52 + j % 4))
          (fun j => m.byte (s.x 14).obj ((s.x 14).off + 56 + j % 4))
          (m.reg ((m.ptr (s.x 14).obj ((s.x 14).off + 60)).add (4 * o.cIdx)) 0)
          (m.reg ((m.ptr (s.x 14).obj ((s.x 14).off + 64)).add (4 * o.cIdx)) 0) (s.v (8 + c))) l)) := by
      interval_cases c <;> kernel_rfl
  rw [e, a4Narrow_eq _ r hr, h14, laneWord_ofWords]
  simp only [Nat.zero_add, p60, p64, addr0]
  exact congrArg (fun w => sat8 (qrshrn8 (F.fcvtFix8 w)))
    (otVec4_lane F m ⟨6, 52⟩ ⟨6, 56⟩ ⟨4, 4 * o.cIdx⟩ ⟨5, 4 * o.cIdx⟩ (s.v (8 + c)) r)

end Verif
