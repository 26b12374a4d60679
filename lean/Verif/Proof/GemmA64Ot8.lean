import Verif.Proof.GemmA64Code8

/-! What the output transforms of the Aarch64 8x4 BGEMM kernel compute. -/

namespace Verif

variable (F : FOps) (m : NMem) (o : NOps) (s : NState)

theorem g8_otF_loaded : G8Loaded m s (nExecs F m o g8OtF s) where
  r := by kernel_rfl
  l := by intro q hq; interval_cases q <;> kernel_rfl
  xl := by kernel_rfl
  xr := by kernel_rfl
  x12 := by kernel_rfl
  x13 := by kernel_rfl
  x14 := by kernel_rfl

theorem g8_otI_loaded : G8Loaded m s (nExecs F m o g8OtI s) where
  r := by kernel_rfl
  l := by intro q hq; interval_cases q <;> kernel_rfl
  xl := by kernel_rfl
  xr := by kernel_rfl
  x12 := by kernel_rfl
  x13 := by kernel_rfl
  x14 := by kernel_rfl

theorem g8_otB_loaded : G8Loaded m s (nExecs F m o g8OtB s) where
  r := by kernel_rfl
  l := by intro q hq; interval_cases q <;> kernel_rfl
  xl := by kernel_rfl
  xr := by kernel_rfl
  x12 := by kernel_rfl
  x13 := by kernel_rfl
  x14 := by kernel_rfl

theorem g8_otB_31 : (nExecs F m o g8OtB s).v 31 = s.v 31 := by kernel_rfl

/-- The loads of the float and int8 output transforms. -/
def g8OtOkList : List Bool :=
  [decide ((s.x 14).off + 64 + 4 ≤ m.size (s.x 14).obj),
   decide ((s.x 14).off + 68 + 4 ≤ m.size (s.x 14).obj),
   decide ((s.x 11).off + 0 + 16 ≤ m.size (s.x 11).obj),
   decide ((s.x 14).off + 72 + 8 ≤ m.size (s.x 14).obj),
   decide ((s.x 14).off + 80 + 8 ≤ m.size (s.x 14).obj),
   decide ((s.x 10).off + 0 + 16 ≤ m.size (s.x 10).obj),
   decide ((s.x 10).off + 16 + 16 ≤ m.size (s.x 10).obj),
   decide ((s.x 10).off + 32 + 16 ≤ m.size (s.x 10).obj),
   decide ((s.x 10).off + 48 + 16 ≤ m.size (s.x 10).obj),
   decide ((s.x 10).off + 64 + 16 ≤ m.size (s.x 10).obj),
   decide ((s.x 10).off + 80 + 16 ≤ m.size (s.x 10).obj),
   decide ((s.x 10).off + 96 + 16 ≤ m.size (s.x 10).obj),
   decide ((s.x 10).off + 112 + 16 ≤ m.size (s.x 10).obj),
   decide ((m.ptr (s.x 14).obj ((s.x 14).off + 72)).off + 4 * o.cIdx + 0 + 16 ≤ m.size (m.ptr (s.x 14).obj ((s.x 14).off + 72)).obj),
   decide ((m.ptr (s.x 14).obj ((s.x 14).off + 72)).off + 4 * o.cIdx + 16 + 16 ≤ m.size (m.ptr (s.x 14).obj ((s.x 14).off + 72)).obj),
   decide ((m.ptr (s.x 14).obj ((s.x 14).off + 80)).off + 4 * o.cIdx + 0 + 16 ≤ m.size (m.ptr (s.x 14).obj ((s.x 14).off + 80)).obj),
   decide ((m.ptr (s.x 14).obj ((s.x 14).off + 80)).off + 4 * o.cIdx + 16 + 16 ≤ m.size (m.ptr (s.x 14).obj ((s.x 14).off + 80)).obj)]

theorem g8_otF_okList : (nExecs F m o g8OtF s).ok = (g8OtOkList m o s).foldl (fun b p => b && p) s.ok := by kernel_rfl
theorem g8_otI_okList : (nExecs F m o g8OtI s).ok = (g8OtOkList m o s).foldl (fun b p => b && p) s.ok := by kernel_rfl

theorem g8OtOkList_ok (h : s.ok = true) (h14 : s.x 14 = ⟨6, 0⟩) (p72 : m.ptr 6 72 = ⟨4, 0⟩) (p80 : m.ptr 6 80 = ⟨5, 0⟩)
    (h6 : 88 ≤ m.size 6) (h4 : 4 * o.cIdx + 32 ≤ m.size 4) (h5 : 4 * o.cIdx + 32 ≤ m.size 5)
    (hl : (s.x 10).off + 128 ≤ m.size (s.x 10).obj) (hr : (s.x 11).off + 16 ≤ m.size (s.x 11).obj) :
    (g8OtOkList m o s).foldl (fun b p => b && p) s.ok = true := by
  unfold g8OtOkList
  rw [h, h14]
  simp only [Nat.zero_add, p72, p80, List.foldl_cons, List.foldl_nil, Bool.and_eq_true, decide_eq_true_eq, true_and]
  omega

/-- The loads of the bitpacked output transform. -/
def g8OtBOkList : List Bool :=
  [decide ((s.x 14).off + 64 + 8 ≤ m.size (s.x 14).obj),
   decide ((m.ptr (s.x 14).obj ((s.x 14).off + 64)).off + 4 * o.cIdx + 0 + 16 ≤ m.size (m.ptr (s.x 14).obj ((s.x 14).off + 64)).obj),
   decide ((m.ptr (s.x 14).obj ((s.x 14).off + 64)).off + 4 * o.cIdx + 16 + 16 ≤ m.size (m.ptr (s.x 14).obj ((s.x 14).off + 64)).obj),
   decide ((s.x 11).off + 0 + 16 ≤ m.size (s.x 11).obj),
   decide ((s.x 10).off + 0 + 16 ≤ m.size (s.x 10).obj),
   decide ((s.x 10).off + 16 + 16 ≤ m.size (s.x 10).obj),
   decide ((s.x 10).off + 32 + 16 ≤ m.size (s.x 10).obj),
   decide ((s.x 10).off + 48 + 16 ≤ m.size (s.x 10).obj),
   decide ((s.x 10).off + 64 + 16 ≤ m.size (s.x 10).obj),
   decide ((s.x 10).off + 80 + 16 ≤ m.size (s.x 10).obj),
   decide ((s.x 10).off + 96 + 16 ≤ m.size (s.x 10).obj),
   decide ((s.x 10).off + 112 + 16 ≤ m.size (s.x 10).obj)]

theorem g8_otB_okList : (nExecs F m o g8OtB s).ok = (g8OtBOkList m o s).foldl (fun b p => b && p) s.ok := by kernel_rfl

theorem g8_otB_ok (h : s.ok = true) (h14 : s.x 14 = ⟨6, 0⟩) (p64 : m.ptr 6 64 = ⟨4, 0⟩)
    (h6 : 88 ≤ m.size 6) (h4 : 4 * o.cIdx + 32 ≤ m.size 4)
    (hl : (s.x 10).off + 128 ≤ m.size (s.x 10).obj) (hr : (s.x 11).off + 16 ≤ m.size (s.x 11).obj) :
    (nExecs F m o g8OtB s).ok = true := by
  rw [g8_otB_okList, h]
  unfold g8OtBOkList
  rw [h14]
  simp only [Nat.zero_add, p64, List.foldl_cons, List.foldl_nil, Bool.and_eq_true, decide_eq_true_eq, true_and]
  omega

/-- The 8x4 kernel's float results. -/
theorem g8_resF (h14 : s.x 14 = ⟨6, 0⟩) (p72 : m.ptr 6 72 = ⟨4, 0⟩) (p80 : m.ptr 6 80 = ⟨5, 0⟩) (c r : Nat) (hc : c < 4) (hr : r < 8) :
    g8ResF (nExecs F m o g8OtF s).v c r = otFloat F (m.word ⟨6, 64⟩) (m.word ⟨6, 68⟩) (laneHalf (s.v (24 + c)) r)
      (m.word ⟨4, 4 * o.cIdx + 4 * r⟩) (m.word ⟨5, 4 * o.cIdx + 4 * r⟩) := by
  unfold g8ResF
  by_cases h4 : r < 4
  · have e : (nExecs F m o g8OtF s).v (20 + 2 * c)
        = otVec F (fun j => m.byte (s.x 14).obj ((s.x 14).off + 64 + j % 4)) (fun j => m.byte (s.x 14).obj ((s.x 14).off + 68 + j % 4))
          (m.reg ((m.ptr (s.x 14).obj ((s.x 14).off + 72)).add (4 * o.cIdx)) 0)
          (m.reg ((m.ptr (s.x 14).obj ((s.x 14).off + 80)).add (4 * o.cIdx)) 0)
          (fun l => laneHalf (s.v (24 + c)) l) := by
      interval_cases c <;> kernel_rfl
    rw [show r / 4 = 0 by omega, show r % 4 = r by omega, Nat.add_zero, e, h14]
    simp only [Nat.zero_add, p72, p80, addr0]
    exact otVec_lane F m ⟨6, 64⟩ ⟨6, 68⟩ ⟨4, 4 * o.cIdx⟩ ⟨5, 4 * o.cIdx⟩ 0 0 (fun l => laneHalf (s.v (24 + c)) l) r
  · have e : (nExecs F m o g8OtF s).v (20 + 2 * c + 1)
        = otVec F (fun j => m.byte (s.x 14).obj ((s.x 14).off + 64 + j % 4)) (fun j => m.byte (s.x 14).obj ((s.x 14).off + 68 + j % 4))
          (m.reg ((m.ptr (s.x 14).obj ((s.x 14).off + 72)).add (4 * o.cIdx)) 16)
          (m.reg ((m.ptr (s.x 14).obj ((s.x 14).off + 80)).add (4 * o.cIdx)) 16)
          (fun l => laneHalf (s.v (24 + c)) (l + 4)) := by
      interval_cases c <;> kernel_rfl
    rw [show r / 4 = 1 by omega, show r % 4 = r - 4 by omega, e, h14]
    simp only [Nat.zero_add, p72, p80, addr0]
    refine Eq.trans (otVec_lane F m ⟨6, 64⟩ ⟨6, 68⟩ ⟨4, 4 * o.cIdx⟩ ⟨5, 4 * o.cIdx⟩ 16 16
      (fun l => laneHalf (s.v (24 + c)) (l + 4)) (r - 4)) ?_
    have e1 : r - 4 + 4 = r := by omega
    have e2 : 4 * o.cIdx + 16 + 4 * (r - 4) = 4 * o.cIdx + 4 * r := by omega
    simp only [e1, e2]

/-- The 8x4 kernel's int8 results. -/
theorem g8_resI (h14 : s.x 14 = ⟨6, 0⟩) (p72 : m.ptr 6 72 = ⟨4, 0⟩) (p80 : m.ptr 6 80 = ⟨5, 0⟩) (c r : Nat) (hc : c < 4) (hr : r < 8) :
    g8ResI (nExecs F m o g8OtI s).v c r = sat8 (sat16 (F.fcvtns (otFloat F (m.word ⟨6, 64⟩) (m.word ⟨6, 68⟩)
      (laneHalf (s.v (24 + c)) r) (m.word ⟨4, 4 * o.cIdx + 4 * r⟩) (m.word ⟨5, 4 * o.cIdx + 4 * r⟩)))) := by
  unfold g8ResI
  have e : (nExecs F m o g8OtI s).v (20 + c)
        = narrow (ofWords fun l => F.fcvtns (laneWord (otVec F (fun j => m.byte (s.x 14).obj ((s.x 14).off + 64 + j % 4)) (fun j => m.byte (s.x 14).obj ((s.x 14).off + 68 + j % 4))
          (m.reg ((m.ptr (s.x 14).obj ((s.x 14).off + 72)).add (4 * o.cIdx)) 0)
          (m.reg ((m.ptr (s.x 14).obj ((s.x 14).off + 80)).add (4 * o.cIdx)) 0)
          (fun l => laneHalf (s.v (24 + c)) l)) l))
          (ofWords fun l => F.fcvtns (laneWord (otVec F (fun j => m.byte (s.x 14).obj ((s.x 14).off + 64 + j % 4)) (fun j => m.byte (s.x 14).obj ((s.x 14).off + 68 + j % 4))
          (m.reg ((m.ptr (s.x 14).obj ((s.x 14).off + 72)).add (4 * o.cIdx)) 16)
          (m.reg ((m.ptr (s.x 14).obj ((s.x 14).off + 80)).add (4 * o.cIdx)) 16)
          (fun l => laneHalf (s.v (24 + c)) (l + 4))) l)) := by
      interval_cases c <;> kernel_rfl
  rw [e, narrow_eq _ _ r hr, h14]
  simp only [Nat.zero_add, p72, p80, addr0]
  by_cases h4 : r < 4
  · rw [if_pos h4, show r % 4 = r by omega, laneWord_ofWords]
    exact congrArg (fun w => sat8 (sat16 (F.fcvtns w)))
      (otVec_lane F m ⟨6, 64⟩ ⟨6, 68⟩ ⟨4, 4 * o.cIdx⟩ ⟨5, 4 * o.cIdx⟩ 0 0 (fun l => laneHalf (s.v (24 + c)) l) r)
  · rw [if_neg h4, show r % 4 = r - 4 by omega, laneWord_ofWords]
    refine congrArg (fun w => sat8 (sat16 (F.fcvtns w))) (Eq.trans
      (otVec_lane F m ⟨6, 64⟩ ⟨6, 68⟩ ⟨4, 4 * o.cIdx⟩ ⟨5, 4 * o.cIdx⟩ 16 16
        (fun l => laneHalf (s.v (24 + c)) (l + 4)) (r - 4)) ?_)
    have e1 : r - 4 + 4 = r := by omega
    have e2 : 4 * o.cIdx + 16 + 4 * (r - 4) = 4 * o.cIdx + 4 * r := by omega
    simp only [e1, e2]

/-- The comparison, narrowing and masking instructions of the bitpacked output transform. -/
def gCmp (acc t0 t1 mask : Nat → BitVec 8) : Nat → BitVec 8 := fun j =>
  (if j < 8 then (fun j => if j < 8 then halfByte ((laneWord (ofWords fun l => wordCmgt (laneWord (ofWords fun l =>
      (laneHalf acc l).zeroExtend 32) l) (laneWord t0 l)) (j / 2)).truncate 16) (j % 2) else 0#8) j
    else halfByte ((laneWord (ofWords fun l => wordCmgt (laneWord (ofWords fun l => (laneHalf acc (l + 4)).zeroExtend 32) l)
      (laneWord t1 l)) (j / 2 - 4)).truncate 16) (j % 2)) &&& mask j

theorem g8_otB_res (c : Nat) (hc : c < 4) : (nExecs F m o g8OtB s).v (20 + c) = fun j => if j < 2 then
    halfByte (sumHalf (gCmp (s.v (24 + c)) (m.reg ((m.ptr (s.x 14).obj ((s.x 14).off + 64)).add (4 * o.cIdx)) 0)
      (m.reg ((m.ptr (s.x 14).obj ((s.x 14).off + 64)).add (4 * o.cIdx)) 16) (s.v 31))) j else 0#8 := by
  interval_cases c <;> kernel_rfl

/-- `cmgt` on a half word and a threshold. -/
def gBit (acc : BitVec 16) (thr : Word) : Bool := thr.slt (acc.zeroExtend 32)

theorem gCmp_half (acc t0 t1 mask : Nat → BitVec 8) (h : Nat) (hh : h < 8) :
    laneHalf (gCmp acc t0 t1 mask) h
      = if gBit (laneHalf acc h) (laneWord (if h < 4 then t0 else t1) (h % 4)) then laneHalf mask h else 0#16 := by
  have key : laneHalf (gCmp acc t0 t1 mask) h
      = (wordCmgt ((laneHalf acc h).zeroExtend 32) (laneWord (if h < 4 then t0 else t1) (h % 4))).truncate 16 &&& laneHalf mask h := by
    apply laneHalf_halfByte
    intro j hj
    unfold gCmp
    have e2 : (2 * h + j) / 2 = h := by omega
    have e3 : (2 * h + j) % 2 = j := by omega
    have em : mask (2 * h + j) = halfByte (laneHalf mask h) j := by
      apply BitVec.eq_of_getLsbD_eq
      intro i hi
      rw [halfByte_getLsbD _ _ _ hi, laneHalf_getLsbD _ _ _ (by omega)]
      have a1 : (8 * j + i) / 8 = j := by omega
      have a2 : (8 * j + i) % 8 = i := by omega
      rw [a1, a2]
    have ea : ∀ a b : BitVec 16, halfByte (a &&& b) j = halfByte a j &&& halfByte b j := by
      intro a b
      apply BitVec.eq_of_getLsbD_eq
      intro i hi
      rw [halfByte_getLsbD _ _ _ hi, BitVec.getLsbD_and, BitVec.getLsbD_and, halfByte_getLsbD _ _ _ hi, halfByte_getLsbD _ _ _ hi]
    rw [em, ea]
    congr 1
    by_cases h4 : h < 4
    · have hj8 : 2 * h + j < 8 := by omega
      simp only [hj8, if_true, h4, e2, e3, Nat.mod_eq_of_lt h4, laneWord_ofWords]
    · have hj8 : ¬ 2 * h + j < 8 := by omega
      have e4 : h % 4 = h - 4 := by omega
      have e5 : h - 4 + 4 = h := by omega
      simp only [hj8, if_false, h4, e2, e3, e4, laneWord_ofWords, e5]
  rw [key]
  unfold wordCmgt gBit
  generalize (laneWord (if h < 4 then t0 else t1) (h % 4)).slt ((laneHalf acc h).zeroExtend 32) = b
  cases b
  · simp
  · rw [if_pos rfl, if_pos rfl]
    have : (BitVec.allOnes 32).truncate 16 = BitVec.allOnes 16 := by decide
    rw [this, BitVec.allOnes_and]

theorem sumBits (b : Nat → Bool) (i : Nat) (hi : i < 8) :
    (halfByte ((if b 0 then 1#16 else 0#16) + (if b 1 then 2#16 else 0#16) + (if b 2 then 4#16 else 0#16)
      + (if b 3 then 8#16 else 0#16) + (if b 4 then 16#16 else 0#16) + (if b 5 then 32#16 else 0#16)
      + (if b 6 then 64#16 else 0#16) + (if b 7 then 128#16 else 0#16)) 0).getLsbD i = b i := by
  have key : ∀ b0 b1 b2 b3 b4 b5 b6 b7 : Bool, ∀ i : Fin 8,
    (halfByte ((if b0 then 1#16 else 0#16) + (if b1 then 2#16 else 0#16) + (if b2 then 4#16 else 0#16)
      + (if b3 then 8#16 else 0#16) + (if b4 then 16#16 else 0#16) + (if b5 then 32#16 else 0#16)
      + (if b6 then 64#16 else 0#16) + (if b7 then 128#16 else 0#16)) 0).getLsbD i
      = [b0, b1, b2, b3, b4, b5, b6, b7].getD i false := by decide +kernel
  have := key (b 0) (b 1) (b 2) (b 3) (b 4) (b 5) (b 6) (b 7) ⟨i, hi⟩
  rw [this]
  interval_cases i <;> rfl

/-- The mask in `v31`. -/
def g8Mask : Nat → BitVec 8 := fun j =>
  if j / 8 = 1 then g8MaskX3.extractLsb' (8 * (j % 8)) 8 else g8MaskX2.extractLsb' (8 * (j % 8)) 8

/-- The 8x4 kernel's bits. -/
theorem g8_resB (h14 : s.x 14 = ⟨6, 0⟩) (p64 : m.ptr 6 64 = ⟨4, 0⟩) (h31 : ∀ j, j < 16 → s.v 31 j = g8Mask j) (c r : Nat) (hc : c < 4) (hr : r < 8) :
    ((nExecs F m o g8OtB s).v (20 + c) 0).getLsbD r = gBit (laneHalf (s.v (24 + c)) r) (m.word ⟨4, 4 * o.cIdx + 4 * r⟩) := by
  rw [g8_otB_res F m o s c hc, h14]
  simp only [Nat.zero_add, p64, addr0]
  rw [if_pos (by omega)]
  unfold sumHalf
  have hm : ∀ h, h < 8 → laneHalf (s.v 31) h = BitVec.ofNat 16 (2 ^ h) := by
    intro h hh
    unfold laneHalf
    rw [h31 _ (by omega), h31 _ (by omega)]
    interval_cases h <;> decide +kernel
  have hw : ∀ h, h < 8 → laneWord (if h < 4 then m.reg ⟨4, 4 * o.cIdx⟩ 0 else m.reg ⟨4, 4 * o.cIdx⟩ 16) (h % 4)
      = m.word ⟨4, 4 * o.cIdx + 4 * h⟩ := by
    intro h hh
    split
    · refine Eq.trans (laneWord_load m ⟨4, 4 * o.cIdx⟩ 0 (h % 4)) ?_
      congr 2
      show 4 * o.cIdx + 0 + 4 * (h % 4) = 4 * o.cIdx + 4 * h
      omega
    · refine Eq.trans (laneWord_load m ⟨4, 4 * o.cIdx⟩ 16 (h % 4)) ?_
      congr 2
      show 4 * o.cIdx + 16 + 4 * (h % 4) = 4 * o.cIdx + 4 * h
      omega
  have hb : ∀ h, h < 8 → laneHalf (gCmp (s.v (24 + c)) (m.reg ⟨4, 4 * o.cIdx⟩ 0) (m.reg ⟨4, 4 * o.cIdx⟩ 16) (s.v 31)) h
      = if gBit (laneHalf (s.v (24 + c)) h) (m.word ⟨4, 4 * o.cIdx + 4 * h⟩) then BitVec.ofNat 16 (2 ^ h) else 0#16 := by
    intro h hh
    rw [gCmp_half _ _ _ _ h hh, hw h hh, hm h hh]
  rw [hb 0 (by omega), hb 1 (by omega), hb 2 (by omega), hb 3 (by omega), hb 4 (by omega), hb 5 (by omega), hb 6 (by omega),
    hb 7 (by omega)]
  exact sumBits (fun h => gBit (laneHalf (s.v (24 + c)) h) (m.word ⟨4, 4 * o.cIdx + 4 * h⟩)) r hr

/-- Before the main loop of the bitpacked version. -/
theorem g8_preB_loaded (a b : BitVec 64) : G8Loaded m s (nExecs F m o (.insD 31 0 a :: .insD 31 1 b :: g8Pre) s) where
  r := by kernel_rfl
  l := by intro q hq; interval_cases q <;> kernel_rfl
  xl := by kernel_rfl
  xr := by kernel_rfl
  x12 := by kernel_rfl
  x13 := by kernel_rfl
  x14 := by kernel_rfl

theorem g8_preB_acc (a b : BitVec 64) (c : Nat) (hc : c < 4) :
    (nExecs F m o (.insD 31 0 a :: .insD 31 1 b :: g8Pre) s).v (24 + c) = fun _ => 0#8 := by
  interval_cases c <;> kernel_rfl

theorem g8_preB_31 (a b : BitVec 64) : (nExecs F m o (.insD 31 0 a :: .insD 31 1 b :: g8Pre) s).v 31
    = fun j => if j / 8 = 1 then b.extractLsb' (8 * (j % 8)) 8 else if j / 8 = 0 then a.extractLsb' (8 * (j % 8)) 8 else s.v 31 j := by
  kernel_rfl

theorem g8_preB_ok (a b : BitVec 64) (h : s.ok = true) (hl : (s.x 10).off + 128 ≤ m.size (s.x 10).obj)
    (hr : (s.x 11).off + 16 ≤ m.size (s.x 11).obj) :
    (nExecs F m o (.insD 31 0 a :: .insD 31 1 b :: g8Pre) s).ok = true :=
  g8_pre_ok F m o (nExecs F m o [.insD 31 0 a, .insD 31 1 b] s) h hl hr

end Verif
