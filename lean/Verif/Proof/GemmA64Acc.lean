import Verif.Proof.GemmA64Code4
import Verif.Proof.GemmA64Ot8

/-! The accumulation loops of the Aarch64 BGEMM kernels. -/

namespace Verif

open Finset

/-- What block `n` (4 words of the depth) contributes to the accumulator of column `c` and row `r`, for a kernel with `kr` rows
whose operands start at `lb` and `rb`. -/
def gS (m : NMem) (kr lb rb n c r : Nat) : Nat :=
  ∑ i ∈ range 16, (byteCnt (m.byte 1 (rb + 64 * n + 16 * c + i) ^^^ m.byte 0 (lb + 16 * kr * n + 16 * r + i))).toNat

theorem blockSum4_eq (a : Nat → BitVec 8) (w : Nat → Nat → BitVec 8) (h : Nat) :
    blockSum 4 a w h = ∑ i ∈ range 16, (xc a (w h) i).toNat := by
  unfold blockSum
  apply sum_congr rfl
  intro i hi
  have hi : i < 16 := by simpa using hi
  have e1 : (4 * 4 * h + i) / 16 = h := by omega
  have e2 : (4 * 4 * h + i) % 16 = i := by omega
  rw [e1, e2]

theorem gS_eq (m : NMem) (kr lb rb n c r : Nat) :
    gS m kr lb rb n c r = ∑ i ∈ range 16, (xc (m.reg ⟨1, rb + 64 * n⟩ (16 * c)) (m.reg ⟨0, lb + 16 * kr * n⟩ (16 * r)) i).toNat := rfl

theorem reg_add (m : NMem) (a : NAddr) (k n : Nat) : m.reg (a.add k) n = m.reg a (k + n) := by
  funext j
  unfold NMem.reg NAddr.add
  simp only [Nat.add_assoc]

theorem reg_mk (m : NMem) (b off k n : Nat) : m.reg ⟨b, off + k⟩ n = m.reg ⟨b, off⟩ (k + n) := reg_add m ⟨b, off⟩ k n

/-- The state before the accumulation of the 8x4 kernel: accumulators cleared, first operands loaded. -/
structure G8Ready (m : NMem) (lb rb : Nat) (s : NState) : Prop where
  acc : ∀ c, c < 4 → s.v (24 + c) = fun _ => 0#8
  r : s.v 8 = m.reg ⟨1, rb⟩ 0
  l : ∀ q, q < 8 → s.v q = m.reg ⟨0, lb⟩ (16 * q)
  xl : s.x 10 = ⟨0, lb + 128⟩
  xr : s.x 11 = ⟨1, rb + 16⟩
  x14 : s.x 14 = ⟨6, 0⟩
  ok : s.ok = true

/-- At the head of the depth loop of the 8x4 kernel, block `n`. -/
structure G8Head (m : NMem) (lb rb n : Nat) (s0 s : NState) : Prop where
  l : ∀ q, q < 8 → s.v q = m.reg ⟨0, lb + 128 * n⟩ (16 * q)
  d : ∀ q, q < 8 → s.v (12 + q) = fun j => m.reg ⟨1, rb + 64 * n⟩ 0 j ^^^ m.reg ⟨0, lb + 128 * n⟩ (16 * q) j
  acc : ∀ c r, c < 4 → r < 8 → laneHalf (s.v (24 + c)) r = BitVec.ofNat 16 (∑ n' ∈ range n, gS m 8 lb rb n' c r)
  xl : s.x 10 = ⟨0, lb + 128 * n + 128⟩
  xr : s.x 11 = ⟨1, rb + 64 * n + 16⟩
  v31 : s.v 31 = s0.v 31
  x12 : s.x 12 = s0.x 12
  x13 : s.x 13 = s0.x 13
  x14 : s.x 14 = s0.x 14
  ok : s.ok = true

/-- The accumulators after the depth loop; `cell` reads one. -/
structure GDone {w : Nat} (cell : (Nat → Nat → BitVec 8) → Nat → Nat → BitVec w) (kr nb : Nat) (m : NMem) (lb rb : Nat)
    (s0 s : NState) : Prop where
  acc : ∀ c r, c < 4 → r < kr → cell s.v c r = BitVec.ofNat w (∑ n ∈ range nb, gS m kr lb rb n c r)
  x12 : s.x 12 = s0.x 12
  x13 : s.x 13 = s0.x 13
  x14 : s.x 14 = s0.x 14
  ok : s.ok = true

/-- 16-bit accumulators. -/
def cell16 (v : Nat → Nat → BitVec 8) (c r : Nat) : BitVec 16 := laneHalf (v (24 + c)) r
/-- 32-bit accumulators. -/
def cell32 (v : Nat → Nat → BitVec 8) (c r : Nat) : BitVec 32 := laneWord (v (24 + c)) r

theorem ofNat_add' (w a b : Nat) : BitVec.ofNat w a + BitVec.ofNat w b = BitVec.ofNat w (a + b) := by
  rw [BitVec.ofNat_add]

section
variable {F : FOps} {m : NMem} {o : NOps} {lb rb n : Nat} {s0 s : NState}

/-- One block of the 8x4 kernel on the accumulators, in the loop and after it. -/
theorem g8_block (h : G8Head m lb rb n s0 s) {v' : Nat → Nat → BitVec 8}
    (h0 : v' 24 = laneUadalp (s.v 24) (gTree fun q => s.v (12 + q)))
    (h1 : ∀ c, c < 3 → v' (25 + c) = laneUadalp (s.v (25 + c)) (gTree fun q j => m.reg (s.x 11) (16 * c) j ^^^ s.v q j))
    (c r : Nat) (hc : c < 4) (hr : r < 8) :
    laneHalf (v' (24 + c)) r = BitVec.ofNat 16 (∑ n' ∈ range (n + 1), gS m 8 lb rb n' c r) := by
  rw [sum_range_succ, ← ofNat_add', ← h.acc c r hc hr]
  rcases Nat.eq_zero_or_pos c with rfl | hc0
  · rw [Nat.add_zero, h0, gTree_half _ (m.reg ⟨1, rb + 64 * n⟩ 0) (fun q => m.reg ⟨0, lb + 128 * n⟩ (16 * q)) _
      (fun q hq => h.d q hq) r hr, blockSum4_eq]
    rfl
  · obtain ⟨c', rfl⟩ : ∃ c', c = c' + 1 := ⟨c - 1, by omega⟩
    have e : 24 + (c' + 1) = 25 + c' := by omega
    rw [e, h1 c' (by omega), gTree_half _ (m.reg ⟨1, rb + 64 * n⟩ (16 * (c' + 1)))
      (fun q => m.reg ⟨0, lb + 128 * n⟩ (16 * q)) _ ?_ r hr, blockSum4_eq]
    · rfl
    · intro q hq
      rw [h.l q hq, h.xr, reg_mk]
      have : 16 + 16 * c' = 16 * (c' + 1) := by omega
      rw [this]

set_option maxRecDepth 4000 in
theorem g8_step (h : G8Head m lb rb n s0 s) (hl : lb + 128 * (n + 2) ≤ m.size 0) (hr : rb + 64 * (n + 2) ≤ m.size 1) :
    G8Head m lb rb (n + 1) s0 (nExecs F m o g8Loop s) where
  l := by
    intro q hq
    rw [g8_loop_l F m o s q hq, h.xl]
    have e : lb + 128 * n + 128 = lb + 128 * (n + 1) := by omega
    rw [e]
  d := by
    intro q hq
    rw [g8_loop_d F m o s q hq, h.xl, h.xr]
    have e : lb + 128 * n + 128 = lb + 128 * (n + 1) := by omega
    have e2 : rb + 64 * (n + 1) = rb + 64 * n + 64 := by omega
    rw [e, e2, reg_mk m 1 (rb + 64 * n) 16 48, reg_mk m 1 (rb + 64 * n) 64 0]
  acc := g8_block h (g8_loop_acc0 F m o s) (g8_loop_acc F m o s)
  xl := by
    rw [g8_loop_x10, h.xl]
    show (⟨0, _⟩ : NAddr) = _
    congr 1
  xr := by
    rw [g8_loop_x11, h.xr]
    show (⟨1, _⟩ : NAddr) = _
    congr 1
  v31 := by rw [g8_loop_31, h.v31]
  x12 := by rw [g8_loop_x12, h.x12]
  x13 := by rw [g8_loop_x13, h.x13]
  x14 := by rw [g8_loop_x14, h.x14]
  ok := by
    apply g8_loop_ok F m o s h.ok
    · rw [h.xl]; show lb + 128 * n + 128 + 128 ≤ m.size 0; omega
    · rw [h.xr]; show rb + 64 * n + 16 + 64 ≤ m.size 1; omega

theorem g8_head0 (h : G8Ready m lb rb s) : G8Head m lb rb 0 s (nExecs F m o g8Xor s) where
  l := by intro q hq; rw [g8_xor_l F m o s q hq, h.l q hq]; rfl
  d := by intro q hq; rw [g8_xor_v F m o s q hq, h.r, h.l q hq]; rfl
  acc := by
    intro c r hc hr
    rw [g8_xor_acc F m o s c hc, h.acc c hc, sum_range_zero]
    show (0#8 ++ 0#8 : BitVec 16) = 0#16
    decide
  xl := by rw [g8_xor_x, h.xl]
  xr := by rw [g8_xor_x, h.xr]
  v31 := g8_xor_31 F m o s
  x12 := by rw [g8_xor_x]
  x13 := by rw [g8_xor_x]
  x14 := by rw [g8_xor_x]
  ok := by rw [g8_xor_ok, h.ok]

set_option maxRecDepth 4000 in
theorem g8Accum_eq (h : G8Ready m lb rb s) {depth : Nat} (h4 : depth % 4 = 0) (hd : 4 ≤ depth)
    (hl : lb + 32 * depth ≤ m.size 0) (hr : rb + 16 * depth ≤ m.size 1) :
    ∃ s', g8Accum F m depth s = some s' ∧ GDone cell16 8 (depth / 4) m lb rb s s' ∧ s'.v 31 = s.v 31 := by
  have fin : ∀ n s', 4 * (n + 1) = depth → G8Head m lb rb n s s' →
      GDone cell16 8 (depth / 4) m lb rb s (nExecs F m (gOps 0) g8Tail s') ∧ (nExecs F m (gOps 0) g8Tail s').v 31 = s.v 31 := by
    intro n s' hn hh
    have e : depth / 4 = n + 1 := by omega
    refine ⟨⟨?_, by rw [g8_tail_x12, hh.x12], by rw [g8_tail_x13, hh.x13], by rw [g8_tail_x14, hh.x14], ?_⟩,
      by rw [g8_tail_31, hh.v31]⟩
    · rw [e]
      exact g8_block hh (g8_tail_acc0 F m _ s') (g8_tail_acc F m _ s')
    · apply g8_tail_ok F m _ s' hh.ok
      rw [hh.xr]; show rb + 64 * n + 16 + 48 ≤ m.size 1; omega
  unfold g8Accum
  by_cases h1 : 4 = depth
  · simp only [if_pos h1, Option.map_some]
    obtain ⟨a, b⟩ := fin 0 _ (by omega) (g8_head0 (F := F) (o := gOps 0) h)
    exact ⟨_, rfl, a, b⟩
  · simp only [if_neg h1]
    obtain ⟨t, e1, n, e2, e3⟩ := doWhile_inv (cond := fun (t : Nat × NState) => decide (t.1 < depth))
      (body := fun t => some (t.1 + 4, nExecs F m (gOps 0) g8Loop t.2))
      (fun t => ∃ n, t.1 = 4 * (n + 1) ∧ 4 * (n + 1) < depth ∧ G8Head m lb rb n s t.2)
      (fun t => ∃ n, 4 * (n + 1) = depth ∧ G8Head m lb rb n s t.2)
      (fun t => depth - t.1)
      (by
        rintro ⟨w1, s'⟩ ⟨n, hn, hlt, hh⟩
        simp only at hn hh
        have hst := g8_step (F := F) (o := gOps 0) hh (by omega) (by omega)
        refine ⟨_, rfl, ?_, ?_⟩
        · intro hc
          simp only [decide_eq_true_eq] at hc
          exact ⟨⟨n + 1, by omega, by omega, hst⟩, by simp only; omega⟩
        · intro hc
          simp only [decide_eq_false_iff_not] at hc
          exact ⟨n + 1, by omega, hst⟩)
      (depth + 1) (4, nExecs F m (gOps 0) g8Xor s) ⟨0, by omega, by omega, g8_head0 h⟩ (by simp only; omega)
    rw [e1]
    obtain ⟨a, b⟩ := fin n _ e2 e3
    exact ⟨_, rfl, a, b⟩

end

/-! The 4x4 kernel. -/

/-- The state before the accumulation of the 4x4 kernel. -/
structure G4Ready (m : NMem) (lb rb : Nat) (s : NState) : Prop where
  acc : ∀ c, c < 4 → s.v (24 + c) = fun _ => 0#8
  l : ∀ q, q < 4 → s.v q = m.reg ⟨0, lb⟩ (16 * q)
  r : ∀ q, q < 4 → s.v (4 + q) = m.reg ⟨1, rb⟩ (16 * q)
  xl : s.x 10 = ⟨0, lb + 64⟩
  xr : s.x 11 = ⟨1, rb + 64⟩
  x14 : s.x 14 = ⟨6, 0⟩
  ok : s.ok = true

/-- Block `n` is in `v0`-`v3`, `v5`-`v7`, column 0 of it is accumulated; block `k` is loaded next; the accumulators are `T`. -/
structure G4Head (m : NMem) (lb rb n k : Nat) (T : Nat → Nat → Nat) (s0 s : NState) : Prop where
  l : ∀ q, q < 4 → s.v q = m.reg ⟨0, lb + 64 * n⟩ (16 * q)
  r : ∀ c, c < 3 → s.v (5 + c) = m.reg ⟨1, rb + 64 * n⟩ (16 * (c + 1))
  acc : ∀ c r, c < 4 → r < 4 → laneWord (s.v (24 + c)) r = BitVec.ofNat 32 (T c r)
  xl : s.x 10 = ⟨0, lb + 64 * k⟩
  xr : s.x 11 = ⟨1, rb + 64 * k⟩
  x12 : s.x 12 = s0.x 12
  x13 : s.x 13 = s0.x 13
  x14 : s.x 14 = s0.x 14
  ok : s.ok = true

/-- In the streaming loop: also block `n + 1` is in `v8`-`v15`. -/
structure G4Head2 (m : NMem) (lb rb n : Nat) (T : Nat → Nat → Nat) (s0 s : NState) : Prop extends G4Head m lb rb n (n + 2) T s0 s where
  l2 : ∀ q, q < 4 → s.v (8 + q) = m.reg ⟨0, lb + 64 * (n + 1)⟩ (16 * q)
  r2 : ∀ q, q < 4 → s.v (12 + q) = m.reg ⟨1, rb + 64 * (n + 1)⟩ (16 * q)

/-- The accumulators when block `n` is in the registers and the blocks before it are done. -/
def gT (m : NMem) (lb rb n c r : Nat) : Nat :=
  if c = 0 then ∑ n' ∈ range (n + 1), gS m 4 lb rb n' c r else ∑ n' ∈ range n, gS m 4 lb rb n' c r

/-- The number of blocks the 4x4 kernel accumulates. -/
def g4Blocks (stream : Bool) (depth : Nat) : Nat :=
  if stream && decide (8 ≤ depth) then
    (if 8 + 8 * max 1 ((depth - 1) / 8) = depth then 2 * max 1 ((depth - 1) / 8) + 2 else 2 * max 1 ((depth - 1) / 8) + 3)
  else depth / 4

theorem g4Bmla_congr {acc a : Nat → BitVec 8} {w w' : Nat → Nat → BitVec 8} (h : ∀ q, q < 4 → w q = w' q) :
    g4Bmla acc a w = g4Bmla acc a w' := by
  unfold g4Bmla g4Tree
  rw [h 0 (by omega), h 1 (by omega), h 2 (by omega), h 3 (by omega)]

/-- `LCE_BMLA` with block `n`, column `c`. -/
theorem g4_bmla {m : NMem} {lb rb n c r T : Nat} {acc a : Nat → BitVec 8} {w : Nat → Nat → BitVec 8}
    (ha : a = m.reg ⟨1, rb + 64 * n⟩ (16 * c)) (hw : ∀ q, q < 4 → w q = m.reg ⟨0, lb + 64 * n⟩ (16 * q)) (hr : r < 4)
    (hT : laneWord acc r = BitVec.ofNat 32 T) :
    laneWord (g4Bmla acc a w) r = BitVec.ofNat 32 (T + gS m 4 lb rb n c r) := by
  rw [g4Bmla_congr hw, g4Bmla_word _ _ _ r hr, hT, ofNat_add', blockSum4_eq, ha]
  rfl

section
variable {F : FOps} {m : NMem} {o : NOps} {lb rb n k : Nat} {T : Nat → Nat → Nat} {s0 s : NState}

theorem g4_head0 (h : G4Ready m lb rb s) : G4Head m lb rb 0 1 (gT m lb rb 0) s (nExecs F m o g4First s) where
  l := by intro q hq; rw [g4_first_v F m o s q (by omega), h.l q hq]; rfl
  r := by
    intro c hc
    have e : 5 + c = 4 + (c + 1) := by omega
    rw [g4_first_v F m o s (5 + c) (by omega), e, h.r (c + 1) (by omega)]; rfl
  acc := by
    intro c r hc hr
    have hz : laneWord (fun _ => 0#8) r = BitVec.ofNat 32 0 := by
      show (0#8 ++ 0#8 ++ 0#8 ++ 0#8 : BitVec 32) = 0#32
      decide
    rcases Nat.eq_zero_or_pos c with rfl | hc0
    · rw [Nat.add_zero, g4_first_acc0, h.acc 0 (by omega)]
      refine Eq.trans (g4_bmla (n := 0) (c := 0) (lb := lb) (T := 0) (h.r 0 (by omega)) (fun q hq => h.l q hq) hr hz) ?_
      unfold gT
      rw [if_pos rfl, sum_range_one, Nat.zero_add]
    · obtain ⟨c', rfl⟩ : ∃ c', c = c' + 1 := ⟨c - 1, by omega⟩
      have e : 24 + (c' + 1) = 25 + c' := by omega
      rw [e, g4_first_acc F m o s c' (by omega), ← e, h.acc _ hc, hz]
      rfl
  xl := by rw [g4_first_x, h.xl]
  xr := by rw [g4_first_x, h.xr]
  x12 := by rw [g4_first_x]
  x13 := by rw [g4_first_x]
  x14 := by rw [g4_first_x]
  ok := by rw [g4_first_ok, h.ok]

/-- The accumulation loop. -/
theorem g4_step (h : G4Head m lb rb n k T s0 s) (hl : lb + 64 * (k + 1) ≤ m.size 0) (hr : rb + 64 * (k + 1) ≤ m.size 1) :
    G4Head m lb rb k (k + 1) (fun c r => T c r + if c = 0 then gS m 4 lb rb k c r else gS m 4 lb rb n c r) s0
      (nExecs F m o g4Loop s) where
  l := by intro q hq; rw [(g4_loop F m o s).l q hq, h.xl]
  r := by
    intro c hc
    have e : 5 + c = 4 + (c + 1) := by omega
    rw [e, (g4_loop F m o s).r (c + 1) (by omega), h.xr]
  acc := by
    intro c r hc hr
    rcases Nat.eq_zero_or_pos c with rfl | hc0
    · rw [Nat.add_zero, g4_loop_acc0, h.xl, h.xr, if_pos rfl]
      exact g4_bmla (n := k) (c := 0) rfl (fun q _ => rfl) hr (h.acc 0 r (by omega) hr)
    · obtain ⟨c', rfl⟩ : ∃ c', c = c' + 1 := ⟨c - 1, by omega⟩
      have e : 24 + (c' + 1) = 25 + c' := by omega
      rw [e, g4_loop_acc F m o s c' (by omega), if_neg (by omega)]
      exact g4_bmla (h.r c' (by omega)) (fun q hq => h.l q hq) hr (by rw [← e]; exact h.acc _ r hc hr)
  xl := by rw [(g4_loop F m o s).xl, h.xl]; rfl
  xr := by rw [(g4_loop F m o s).xr, h.xr]; rfl
  x12 := by rw [(g4_loop F m o s).x12, h.x12]
  x13 := by rw [(g4_loop F m o s).x13, h.x13]
  x14 := by rw [(g4_loop F m o s).x14, h.x14]
  ok := by
    apply g4_loop_ok F m o s h.ok
    · rw [h.xl]; show lb + 64 * k + 64 ≤ m.size 0; omega
    · rw [h.xr]; show rb + 64 * k + 64 ≤ m.size 1; omega

/-- After the accumulation loop. -/
theorem g4_tail (h : G4Head m lb rb n k T s0 s) {nb : Nat}
    (hT : ∀ c r, c < 4 → r < 4 → (T c r + if c = 0 then 0 else gS m 4 lb rb n c r) = ∑ n' ∈ range nb, gS m 4 lb rb n' c r) :
    GDone cell32 4 nb m lb rb s0 (nExecs F m o g4Tail s) where
  acc := by
    intro c r hc hr
    rw [← hT c r hc hr]
    unfold cell32
    rcases Nat.eq_zero_or_pos c with rfl | hc0
    · rw [Nat.add_zero, g4_tail_acc0, if_pos rfl]
      exact h.acc 0 r (by omega) hr
    · obtain ⟨c', rfl⟩ : ∃ c', c = c' + 1 := ⟨c - 1, by omega⟩
      have e : 24 + (c' + 1) = 25 + c' := by omega
      rw [e, g4_tail_acc F m o s c' (by omega), if_neg (by omega)]
      exact g4_bmla (h.r c' (by omega)) (fun q hq => h.l q hq) hr (by rw [← e]; exact h.acc _ r hc hr)
  x12 := by rw [g4_tail_x, h.x12]
  x13 := by rw [g4_tail_x, h.x13]
  x14 := by rw [g4_tail_x, h.x14]
  ok := by rw [g4_tail_ok, h.ok]

theorem g4_load2 (h : G4Head m lb rb n (n + 1) T s0 s) (hl : lb + 64 * (n + 2) ≤ m.size 0) (hr : rb + 64 * (n + 2) ≤ m.size 1) :
    G4Head2 m lb rb n T s0 (nExecs F m o g4Load s) where
  l := by intro q hq; rw [g4_load_v F m o s q (by omega), h.l q hq]
  r := by intro c hc; rw [g4_load_v F m o s (5 + c) (by omega), h.r c hc]
  acc := by intro c r hc hr; rw [g4_load_acc F m o s c hc, h.acc c r hc hr]
  xl := by rw [g4_load_x10, h.xl]; rfl
  xr := by rw [g4_load_x11, h.xr]; rfl
  x12 := by rw [g4_load_x F m o s 12 (by omega), h.x12]
  x13 := by rw [g4_load_x F m o s 13 (by omega), h.x13]
  x14 := by rw [g4_load_x F m o s 14 (by omega), h.x14]
  ok := by
    apply g4_load_ok F m o s h.ok
    · rw [h.xl]; show lb + 64 * (n + 1) + 64 ≤ m.size 0; omega
    · rw [h.xr]; show rb + 64 * (n + 1) + 64 ≤ m.size 1; omega
  l2 := by intro q hq; rw [g4_load_l F m o s q hq, h.xl]
  r2 := by intro q hq; rw [g4_load_r F m o s q hq, h.xr]

theorem gT_succ2 (c r : Nat) : gT m lb rb (n + 2) c r = if c = 0 then gT m lb rb n c r + gS m 4 lb rb (n + 1) c r + gS m 4 lb rb (n + 2) c r
    else gT m lb rb n c r + gS m 4 lb rb n c r + gS m 4 lb rb (n + 1) c r := by
  unfold gT
  by_cases h : c = 0
  · simp only [if_pos h]
    rw [sum_range_succ, sum_range_succ]
  · simp only [if_neg h]
    rw [sum_range_succ, sum_range_succ]

set_option maxRecDepth 4000 in
theorem g4_stream2 (h : G4Head2 m lb rb n (gT m lb rb n) s0 s) (hl : lb + 64 * (n + 4) ≤ m.size 0) (hr : rb + 64 * (n + 4) ≤ m.size 1) :
    G4Head2 m lb rb (n + 2) (gT m lb rb (n + 2)) s0 (nExecs F m o g4Stream s) where
  l := by intro q hq; rw [g4_stream_l F m o s q hq, h.xl]
  r := by
    intro c hc
    have e : 5 + c = 4 + (c + 1) := by omega
    rw [e, g4_stream_r F m o s (c + 1) (by omega), h.xr]
  acc := by
    intro c r hc hr
    rw [gT_succ2]
    rcases Nat.eq_zero_or_pos c with rfl | hc0
    · rw [if_pos rfl, Nat.add_zero, g4_stream_acc0, h.xl, h.xr]
      exact g4_bmla (n := n + 2) (c := 0) rfl (fun q _ => rfl) hr
        (g4_bmla (n := n + 1) (c := 0) (h.r2 0 (by omega)) (fun q hq => h.l2 q hq) hr (h.acc 0 r (by omega) hr))
    · obtain ⟨c', rfl⟩ : ∃ c', c = c' + 1 := ⟨c - 1, by omega⟩
      have e : 24 + (c' + 1) = 25 + c' := by omega
      have e2 : 13 + c' = 12 + (c' + 1) := by omega
      rw [e, g4_stream_acc F m o s c' (by omega), if_neg (by omega), e2]
      exact g4_bmla (h.r2 (c' + 1) (by omega)) (fun q hq => h.l2 q hq) hr
        (g4_bmla (h.r c' (by omega)) (fun q hq => h.l q hq) hr (by rw [← e]; exact h.acc _ r hc hr))
  xl := by rw [g4_stream_x10, h.xl]; rfl
  xr := by rw [g4_stream_x11, h.xr]; rfl
  x12 := by rw [g4_stream_x F m o s 12 (by omega), h.x12]
  x13 := by rw [g4_stream_x F m o s 13 (by omega), h.x13]
  x14 := by rw [g4_stream_x F m o s 14 (by omega), h.x14]
  ok := by
    apply g4_stream_ok F m o s h.ok
    · rw [h.xl]; show lb + 64 * (n + 2) + 128 ≤ m.size 0; omega
    · rw [h.xr]; show rb + 64 * (n + 2) + 128 ≤ m.size 1; omega
  l2 := by
    intro q hq
    have e : lb + 64 * (n + 2 + 1) = lb + 64 * (n + 2) + 64 := by omega
    rw [g4_stream_l2 F m o s q hq, h.xl, e, reg_mk m 0 (lb + 64 * (n + 2)) 64]
  r2 := by
    intro q hq
    have e : rb + 64 * (n + 2 + 1) = rb + 64 * (n + 2) + 64 := by omega
    rw [g4_stream_r2 F m o s q hq, h.xr, e, reg_mk m 1 (rb + 64 * (n + 2)) 64]

theorem g4_stail (h : G4Head2 m lb rb n T s0 s) :
    G4Head m lb rb n (n + 2) (fun c r => T c r + gS m 4 lb rb (n + 1) c r) s0 (nExecs F m o g4StreamTail s) where
  l := by intro q hq; rw [g4_stail_v F m o s q (by omega), h.l q hq]
  r := by intro c hc; rw [g4_stail_v F m o s (5 + c) (by omega), h.r c hc]
  acc := by
    intro c r hc hr
    rw [g4_stail_acc F m o s c hc]
    exact g4_bmla (h.r2 c hc) (fun q hq => h.l2 q hq) hr (h.acc c r hc hr)
  xl := by rw [g4_stail_x, h.xl]
  xr := by rw [g4_stail_x, h.xr]
  x12 := by rw [g4_stail_x, h.x12]
  x13 := by rw [g4_stail_x, h.x13]
  x14 := by rw [g4_stail_x, h.x14]
  ok := by rw [g4_stail_ok, h.ok]

theorem gT_succ (c r : Nat) : gT m lb rb (n + 1) c r
    = gT m lb rb n c r + if c = 0 then gS m 4 lb rb (n + 1) c r else gS m 4 lb rb n c r := by
  unfold gT
  by_cases h : c = 0
  · simp only [if_pos h]
    rw [sum_range_succ]
  · simp only [if_neg h]
    rw [sum_range_succ]

theorem gT_done (c r : Nat) : (gT m lb rb n c r + if c = 0 then 0 else gS m 4 lb rb n c r) = ∑ n' ∈ range (n + 1), gS m 4 lb rb n' c r := by
  unfold gT
  by_cases h : c = 0
  · simp only [if_pos h, Nat.add_zero]
  · simp only [if_neg h]
    rw [sum_range_succ]

theorem G4Head.congrT {T' : Nat → Nat → Nat} (h : G4Head m lb rb n k T s0 s) (e : ∀ c r, T c r = T' c r) :
    G4Head m lb rb n k T' s0 s := by
  have : T = T' := by funext c r; exact e c r
  rw [← this]; exact h

/-- The accumulation loop and what follows it, from block 0. -/
theorem g4_plain {depth : Nat} (h4 : depth % 4 = 0) (hd : 4 ≤ depth) (hl : lb + 64 * (depth / 4) ≤ m.size 0)
    (hr : rb + 64 * (depth / 4) ≤ m.size 1) (h : G4Head m lb rb 0 1 (gT m lb rb 0) s0 s) :
    ∃ s', (if 4 = depth then some s
      else (doWhile (fun (t : Nat × NState) => decide (t.1 < depth)) (fun t => some (t.1 + 4, nExecs F m (gOps 0) g4Loop t.2))
        (depth + 1) (4, s)).map (·.2)).map (nExecs F m (gOps 0) g4Tail) = some s' ∧
      GDone cell32 4 (depth / 4) m lb rb s0 s' := by
  by_cases h1 : 4 = depth
  · rw [if_pos h1]
    refine ⟨_, rfl, g4_tail h fun c r _ _ => ?_⟩
    have : depth / 4 = 0 + 1 := by omega
    rw [this]
    exact gT_done c r
  · rw [if_neg h1]
    obtain ⟨t, e1, n, e2, e3⟩ := doWhile_inv (cond := fun (t : Nat × NState) => decide (t.1 < depth))
      (body := fun t => some (t.1 + 4, nExecs F m (gOps 0) g4Loop t.2))
      (fun t => ∃ n, t.1 = 4 * (n + 1) ∧ 4 * (n + 1) < depth ∧ G4Head m lb rb n (n + 1) (gT m lb rb n) s0 t.2)
      (fun t => ∃ n, 4 * (n + 1) = depth ∧ G4Head m lb rb n (n + 1) (gT m lb rb n) s0 t.2)
      (fun t => depth - t.1)
      (by
        rintro ⟨w1, s'⟩ ⟨n, hn, hlt, hh⟩
        simp only at hn hh
        have hst := (g4_step (F := F) (o := gOps 0) hh (by omega) (by omega)).congrT (fun c r => (gT_succ c r).symm)
        refine ⟨_, rfl, ?_, ?_⟩
        · intro hc
          simp only [decide_eq_true_eq] at hc
          exact ⟨⟨n + 1, by omega, by omega, hst⟩, by simp only; omega⟩
        · intro hc
          simp only [decide_eq_false_iff_not] at hc
          exact ⟨n + 1, by omega, hst⟩)
      (depth + 1) (4, s) ⟨0, by omega, by omega, h⟩ (by simp only; omega)
    rw [e1]
    refine ⟨_, rfl, g4_tail e3 fun c r _ _ => ?_⟩
    have : depth / 4 = n + 1 := by omega
    rw [this]
    exact gT_done c r

set_option maxRecDepth 4000 in
theorem g4Accum_eq (stream : Bool) (h : G4Ready m lb rb s) {depth : Nat} (h4 : depth % 4 = 0) (hd : 4 ≤ depth)
    (hl : lb + 64 * g4Blocks stream depth ≤ m.size 0) (hr : rb + 64 * g4Blocks stream depth ≤ m.size 1) :
    ∃ s', g4Accum stream F m depth s = some s' ∧ GDone cell32 4 (g4Blocks stream depth) m lb rb s s' := by
  unfold g4Accum
  unfold g4Blocks at hl hr ⊢
  by_cases hs : (stream && decide (8 ≤ depth)) = true
  · rw [if_pos hs] at hl hr
    simp only [if_pos hs]
    have h8 : 8 ≤ depth := by
      rw [Bool.and_eq_true, decide_eq_true_eq] at hs
      exact hs.2
    obtain ⟨i, hi⟩ : ∃ i, max 1 ((depth - 1) / 8) = i := ⟨_, rfl⟩
    rw [hi] at hl hr
    rw [hi]
    have hb : lb + 64 * (2 * i + 2) ≤ m.size 0 ∧ rb + 64 * (2 * i + 2) ≤ m.size 1 := by
      split at hl <;> split at hr <;> omega
    have hh0 := g4_load2 (F := F) (o := gOps 0) (g4_head0 (F := F) (o := gOps 0) h) (by omega) (by omega)
    have hd4 : depth / 4 * 4 = depth := by omega
    obtain ⟨t, e1, e2, e3⟩ := doWhile_inv (cond := fun (t : Nat × NState) => decide (t.1 < depth / 4 * 4))
      (body := fun t => some (t.1 + 8, nExecs F m (gOps 0) g4Stream t.2))
      (fun t => ∃ n, t.1 = 8 + 8 * n ∧ n < i ∧ G4Head2 m lb rb (2 * n) (gT m lb rb (2 * n)) s t.2)
      (fun t => t.1 = 8 + 8 * i ∧ G4Head2 m lb rb (2 * i) (gT m lb rb (2 * i)) s t.2)
      (fun t => depth + 8 - t.1)
      (by
        rintro ⟨w1, s'⟩ ⟨n, hn, hlt, hh⟩
        simp only at hn hh
        have hst := g4_stream2 (F := F) (o := gOps 0) hh (by omega) (by omega)
        refine ⟨_, rfl, ?_, ?_⟩
        · intro hc
          simp only [decide_eq_true_eq, hd4] at hc
          refine ⟨⟨n + 1, by omega, by omega, hst⟩, by simp only; omega⟩
        · intro hc
          simp only [decide_eq_false_iff_not, hd4] at hc
          have : i = n + 1 := by omega
          subst this
          exact ⟨by omega, hst⟩)
      (depth + 1) (8, nExecs F m (gOps 0) g4Load (nExecs F m (gOps 0) g4First s))
      ⟨0, by omega, by omega, hh0⟩ (by simp only; omega)
    rw [e1]
    have e4 := g4_stail (F := F) (o := gOps 0) e3
    simp only [Option.map_some, Option.bind_eq_bind, Option.bind_some, e2]
    by_cases he : 8 + 8 * i = depth
    · rw [if_pos he, if_pos he]
      refine ⟨_, rfl, g4_tail e4 fun c r _ _ => ?_⟩
      have := gT_done (m := m) (lb := lb) (rb := rb) (n := 2 * i) c r
      rw [sum_range_succ, ← this]
      omega
    · rw [if_neg he] at hl hr
      rw [if_neg he, if_neg he]
      have e5 := g4_step (F := F) (o := gOps 0) e4 (by omega) (by omega)
      have hnot : ¬ 8 + 8 * i + 4 < depth := by omega
      refine ⟨nExecs F m (gOps 0) g4Tail (nExecs F m (gOps 0) g4Loop (nExecs F m (gOps 0) g4StreamTail t.2)), ?_,
        g4_tail e5 fun c r _ _ => ?_⟩
      · simp only [doWhile, Option.bind_some, decide_eq_true_eq, if_neg hnot, Option.map_some]
      · rw [show 2 * i + 3 = (2 * i + 2) + 1 by omega, ← gT_done, gT_succ2]
        by_cases hc : c = 0
        · simp only [if_pos hc]
        · simp only [if_neg hc]
          omega
  · rw [if_neg hs] at hl hr
    simp only [if_neg hs, Option.bind_eq_bind, Option.bind_some]
    exact g4_plain h4 hd hl hr (g4_head0 h)

end

end Verif
