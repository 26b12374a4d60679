import Mathlib.Tactic.IntervalCases
import Verif.Model.IndirectA64
import Verif.Proof.BitpackA64
import Verif.Proof.Popcount

/-! Lane lemmas for the NEON semantics. -/

namespace Verif

open Finset

theorem wordByte_getLsbD (w : Word) (j i : Nat) (hi : i < 8) : (wordByte w j).getLsbD i = w.getLsbD (8 * j + i) := by
  unfold wordByte
  rw [BitVec.getLsbD_extractLsb']
  simp [hi]

theorem wordByte_laneWord (v : Nat → BitVec 8) (l j : Nat) (hj : j < 4) : wordByte (laneWord v l) j = v (4 * l + j) := by
  apply BitVec.eq_of_getLsbD_eq
  intro i hi
  rw [wordByte_getLsbD _ _ _ hi, laneWord_getLsbD _ _ _ (by omega)]
  have e1 : (8 * j + i) / 8 = j := by omega
  have e2 : (8 * j + i) % 8 = i := by omega
  rw [e1, e2]

theorem laneWord_wordByte {v : Nat → BitVec 8} {l : Nat} {w : Word} (h : ∀ j, j < 4 → v (4 * l + j) = wordByte w j) :
    laneWord v l = w := by
  apply BitVec.eq_of_getLsbD_eq
  intro b hb
  rw [laneWord_getLsbD _ _ _ hb, h _ (by omega), wordByte_getLsbD _ _ _ (by omega)]
  congr 1
  omega

theorem laneWord_ofWords (f : Nat → Word) (l : Nat) : laneWord (ofWords f) l = f l := by
  apply laneWord_wordByte
  intro j hj
  unfold ofWords
  have e1 : (4 * l + j) / 4 = l := by omega
  have e2 : (4 * l + j) % 4 = j := by omega
  rw [e1, e2]

theorem laneHalf_getLsbD (v : Nat → BitVec 8) (h b : Nat) (hb : b < 16) :
    (laneHalf v h).getLsbD b = (v (2 * h + b / 8)).getLsbD (b % 8) := by
  unfold laneHalf
  rw [BitVec.getLsbD_append]
  by_cases hb8 : b < 8
  · rw [if_pos hb8]
    have e1 : b / 8 = 0 := by omega
    have e2 : b % 8 = b := by omega
    rw [e1, e2, Nat.add_zero]
  · rw [if_neg hb8]
    have e1 : b / 8 = 1 := by omega
    have e2 : b % 8 = b - 8 := by omega
    rw [e1, e2]

theorem halfByte_getLsbD (w : BitVec 16) (j i : Nat) (hi : i < 8) : (halfByte w j).getLsbD i = w.getLsbD (8 * j + i) := by
  unfold halfByte
  rw [BitVec.getLsbD_extractLsb']
  simp [hi]

theorem laneHalf_halfByte {v : Nat → BitVec 8} {h : Nat} {w : BitVec 16} (hv : ∀ j, j < 2 → v (2 * h + j) = halfByte w j) :
    laneHalf v h = w := by
  apply BitVec.eq_of_getLsbD_eq
  intro b hb
  rw [laneHalf_getLsbD _ _ _ hb, hv _ (by omega), halfByte_getLsbD _ _ _ (by omega)]
  congr 1
  omega

theorem laneHalf_uadalp (d a : Nat → BitVec 8) (h : Nat) :
    laneHalf (laneUadalp d a) h = laneHalf d h + BitVec.ofNat 16 ((a (2 * h)).toNat + (a (2 * h + 1)).toNat) := by
  apply laneHalf_halfByte
  intro j hj
  unfold laneUadalp
  have e1 : (2 * h + j) / 2 = h := by omega
  have e2 : (2 * h + j) % 2 = j := by omega
  rw [e1, e2]
  have e : (a (2 * h)).zeroExtend 16 + (a (2 * h + 1)).zeroExtend 16
      = BitVec.ofNat 16 ((a (2 * h)).toNat + (a (2 * h + 1)).toNat) := by
    apply BitVec.eq_of_toNat_eq
    have h1 := (a (2 * h)).isLt
    have h2 := (a (2 * h + 1)).isLt
    simp only [BitVec.toNat_add, BitVec.toNat_setWidth, BitVec.toNat_ofNat]
    omega
  rw [e]

theorem byteCnt_toNat (b : BitVec 8) : (byteCnt b).toNat = ∑ i ∈ range 8, if b.getLsbD i then 1 else 0 := by
  unfold byteCnt
  have hle := List.countP_le_length (p := fun i => b.getLsbD i) (l := List.range 8)
  rw [List.length_range] at hle
  rw [BitVec.toNat_ofNat, Nat.mod_eq_of_lt (by omega), List.countP_eq_length_filter, length_filter_range]

theorem byteCnt_le (b : BitVec 8) : (byteCnt b).toNat ≤ 8 := by
  unfold byteCnt
  have hle := List.countP_le_length (p := fun i => b.getLsbD i) (l := List.range 8)
  rw [List.length_range] at hle
  rw [BitVec.toNat_ofNat, Nat.mod_eq_of_lt (by omega)]
  exact hle

/-- The popcount of the exclusive or of two words, byte by byte. -/
theorem xorPopcount_bytes (a b : Word) :
    xorPopcount a b = ∑ j ∈ range 4, (byteCnt (wordByte a j ^^^ wordByte b j)).toNat := by
  unfold xorPopcount
  rw [popcount_eq_sum]
  refine Eq.trans (sum_range_mul 4 8 fun i => if (a ^^^ b).getLsbD i then 1 else 0) ?_
  apply sum_congr rfl
  intro j _
  rw [byteCnt_toNat]
  apply sum_congr rfl
  intro i hi
  have hi : i < 8 := by simpa using hi
  rw [BitVec.getLsbD_xor, BitVec.getLsbD_xor, wordByte_getLsbD _ _ _ hi, wordByte_getLsbD _ _ _ hi]

/-- `addp` on bytes that are small enough. -/
theorem addp_toNat {a b : Nat → BitVec 8} {B : Nat} (ha : ∀ j, j < 16 → (a j).toNat ≤ B) (hb : ∀ j, j < 16 → (b j).toNat ≤ B)
    (hB : 2 * B < 256) (j : Nat) (hj : j < 16) :
    (laneAddp a b j).toNat = (if j < 8 then (a (2 * j)).toNat + (a (2 * j + 1)).toNat
      else (b (2 * j - 16)).toNat + (b (2 * j + 1 - 16)).toNat) := by
  unfold laneAddp
  split
  · have h1 := ha (2 * j) (by omega)
    have h2 := ha (2 * j + 1) (by omega)
    rw [BitVec.toNat_add, Nat.mod_eq_of_lt (by omega)]
  · have h1 := hb (2 * j - 16) (by omega)
    have h2 := hb (2 * j + 1 - 16) (by omega)
    rw [BitVec.toNat_add, Nat.mod_eq_of_lt (by omega)]

theorem addp_le {a b : Nat → BitVec 8} {B : Nat} (ha : ∀ j, j < 16 → (a j).toNat ≤ B) (hb : ∀ j, j < 16 → (b j).toNat ≤ B)
    (hB : 2 * B < 256) (j : Nat) (hj : j < 16) : (laneAddp a b j).toNat ≤ 2 * B := by
  rw [addp_toNat ha hb hB j hj]
  split
  · have h1 := ha (2 * j) (by omega)
    have h2 := ha (2 * j + 1) (by omega)
    omega
  · have h1 := hb (2 * j - 16) (by omega)
    have h2 := hb (2 * j + 1 - 16) (by omega)
    omega

/-- Bit counts of the exclusive or of two registers. -/
def xc (a w : Nat → BitVec 8) : Nat → BitVec 8 := fun j => byteCnt (a j ^^^ w j)

theorem xc_le (a w : Nat → BitVec 8) (j : Nat) (_ : j < 16) : (xc a w j).toNat ≤ 8 := byteCnt_le _

/-- What `n` registers accumulate into half word `h`: the bytes `4 * bd * h + i`, `i < 4 * bd`, of their concatenation. -/
def blockSum (bd : Nat) (a : Nat → BitVec 8) (w : Nat → Nat → BitVec 8) (h : Nat) : Nat :=
  ∑ i ∈ range (4 * bd), (xc a (w ((4 * bd * h + i) / 16)) ((4 * bd * h + i) % 16)).toNat

theorem tree1 (a : Nat → BitVec 8) (w : Nat → Nat → BitVec 8) (h : Nat) (hh : h < 8) :
    let t := laneAddp (xc a (w 0)) (xc a (w 1))
    (t (2 * h)).toNat + (t (2 * h + 1)).toNat = blockSum 1 a w h := by
  intro t
  have l0 : ∀ n j, j < 16 → (xc a (w n) j).toNat ≤ 8 := fun n j hj => xc_le _ _ j hj
  have T : ∀ j, j < 16 → _ := addp_toNat (l0 0) (l0 1) (by omega)
  rw [T _ (by omega), T _ (by omega)]
  unfold blockSum
  interval_cases h <;> simp [sum_range_succ] <;> omega

theorem tree2 (a : Nat → BitVec 8) (w : Nat → Nat → BitVec 8) (h : Nat) (hh : h < 8) :
    let t := laneAddp (laneAddp (xc a (w 0)) (xc a (w 1))) (laneAddp (xc a (w 2)) (xc a (w 3)))
    (t (2 * h)).toNat + (t (2 * h + 1)).toNat = blockSum 2 a w h := by
  intro t
  have l0 : ∀ n j, j < 16 → (xc a (w n) j).toNat ≤ 8 := fun n j hj => xc_le _ _ j hj
  have S : ∀ n k j, j < 16 → _ := fun n k => addp_toNat (l0 n) (l0 k) (by omega)
  have l1 : ∀ n k j, j < 16 → _ := fun n k => addp_le (l0 n) (l0 k) (by omega)
  have T : ∀ j, j < 16 → _ := addp_toNat (l1 0 1) (l1 2 3) (by omega)
  rw [T _ (by omega), T _ (by omega)]
  unfold blockSum
  interval_cases h <;> simp [sum_range_succ, S] <;> omega

theorem tree4 (a : Nat → BitVec 8) (w : Nat → Nat → BitVec 8) (h : Nat) (hh : h < 8) :
    let t := laneAddp
      (laneAddp (laneAddp (xc a (w 0)) (xc a (w 1))) (laneAddp (xc a (w 2)) (xc a (w 3))))
      (laneAddp (laneAddp (xc a (w 4)) (xc a (w 5))) (laneAddp (xc a (w 6)) (xc a (w 7))))
    (t (2 * h)).toNat + (t (2 * h + 1)).toNat = blockSum 4 a w h := by
  intro t
  have l0 : ∀ n j, j < 16 → (xc a (w n) j).toNat ≤ 8 := fun n j hj => xc_le _ _ j hj
  have S : ∀ n k j, j < 16 → _ := fun n k => addp_toNat (l0 n) (l0 k) (by omega)
  have l1 : ∀ n k j, j < 16 → _ := fun n k => addp_le (l0 n) (l0 k) (by omega)
  have S2 : ∀ n k n' k' j, j < 16 → _ := fun n k n' k' => addp_toNat (l1 n k) (l1 n' k') (by omega)
  have l2 : ∀ n k n' k' j, j < 16 → _ := fun n k n' k' => addp_le (l1 n k) (l1 n' k') (by omega)
  have T : ∀ j, j < 16 → _ := addp_toNat (l2 0 1 2 3) (l2 4 5 6 7) (by omega)
  rw [T _ (by omega), T _ (by omega)]
  unfold blockSum
  interval_cases h <;> simp [sum_range_succ, S, S2] <;> omega

/-- The instructions of the float output transform on one register: `hs` are the accumulators. -/
def otVec (F : FOps) (cmin cmax mu bi : Nat → BitVec 8) (hs : Nat → BitVec 16) : Nat → BitVec 8 :=
  ofWords fun l => F.fadd (laneWord (ofWords fun l => F.fmul (laneWord (ofWords fun l => F.scvtf (laneWord
    (ofWords fun l => wordSmin (laneWord (ofWords fun l => wordSmax (laneWord (ofWords fun l => shll1 (hs l)) l)
      (laneWord cmin l)) l) (laneWord cmax l)) l)) l) (laneWord mu l)) l) (laneWord bi l)

/-- The three narrowing instructions. -/
def narrow (lo hi : Nat → BitVec 8) : Nat → BitVec 8 := fun j =>
  if j < 8 then sat8 (laneHalf (fun j =>
    if j < 8 then (fun j => if j < 8 then halfByte (sat16 (laneWord lo (j / 2))) (j % 2) else 0#8) j
    else halfByte (sat16 (laneWord hi (j / 2 - 4))) (j % 2)) j)
  else 0#8

/-- A word in memory. -/
def NMem.word (m : NMem) (a : NAddr) : Word := laneWord (fun j => m.byte a.obj (a.off + j)) 0

/-- The float output transform of an accumulator. -/
def otFloat (F : FOps) (cmin cmax : Word) (acc : BitVec 16) (mu bi : Word) : Word :=
  F.fadd (F.fmul (F.scvtf (wordSmin (wordSmax (shll1 acc) cmin) cmax)) mu) bi

theorem laneWord_dup (m : NMem) (a : NAddr) (l : Nat) :
    laneWord (fun j => m.byte a.obj (a.off + j % 4)) l = m.word a := by
  unfold NMem.word laneWord
  have e3 : (4 * l + 3) % 4 = 3 := by omega
  have e2 : (4 * l + 2) % 4 = 2 := by omega
  have e1 : (4 * l + 1) % 4 = 1 := by omega
  have e0 : (4 * l) % 4 = 0 := by omega
  simp only [e3, e2, e1, e0]

theorem laneWord_load (m : NMem) (a : NAddr) (n l : Nat) :
    laneWord (fun j => m.byte a.obj (a.off + n + j)) l = m.word ⟨a.obj, a.off + n + 4 * l⟩ := by
  unfold NMem.word laneWord
  simp only [Nat.add_assoc, Nat.mul_zero, Nat.zero_add, Nat.add_zero]

theorem otVec_lane (F : FOps) (m : NMem) (amin amax amu abi : NAddr) (nmu nbi : Nat) (hs : Nat → BitVec 16) (l : Nat) :
    laneWord (otVec F (fun j => m.byte amin.obj (amin.off + j % 4)) (fun j => m.byte amax.obj (amax.off + j % 4))
      (fun j => m.byte amu.obj (amu.off + nmu + j)) (fun j => m.byte abi.obj (abi.off + nbi + j)) hs) l
    = otFloat F (m.word amin) (m.word amax) (hs l) (m.word ⟨amu.obj, amu.off + nmu + 4 * l⟩)
        (m.word ⟨abi.obj, abi.off + nbi + 4 * l⟩) := by
  unfold otVec otFloat
  simp only [laneWord_ofWords]
  rw [laneWord_dup, laneWord_dup, laneWord_load, laneWord_load]

theorem narrow_eq (lo hi : Nat → BitVec 8) (j : Nat) (hj : j < 8) :
    narrow lo hi j = sat8 (sat16 (laneWord (if j < 4 then lo else hi) (j % 4))) := by
  unfold narrow
  rw [if_pos hj]
  congr 1
  apply laneHalf_halfByte
  intro i hi2
  have e2 : (2 * j + i) / 2 = j := by omega
  have e3 : (2 * j + i) % 2 = i := by omega
  by_cases h4 : j < 4
  · have h : 2 * j + i < 8 := by omega
    simp only [h, if_true, h4, e2, e3, Nat.mod_eq_of_lt h4]
  · have h : ¬ 2 * j + i < 8 := by omega
    have e4 : j % 4 = j - 4 := by omega
    simp only [h, if_false, h4, e2, e3, e4]

end Verif
