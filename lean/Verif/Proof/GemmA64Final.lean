import Verif.Proof.GemmA64Mem
import Verif.Proof.IndirectA64Final

/-! The Aarch64 BGEMM kernels under a schedule. -/

namespace Verif

open Finset

/-- A block as a `kr x kc` kernel needs it. -/
structure Blk.Good (b : Blk) (rows cols kr kc : Nat) : Prop where
  r0 : b.r0 % kr = 0
  r1 : b.r1 % kr = 0
  c0 : b.c0 % kc = 0
  c1 : b.c1 % kc = 0
  r : b.r0 < b.r1
  c : b.c0 < b.c1
  rr : b.r1 < rows + kr
  cc : b.c1 < cols + kc

theorem Schedule.good {rows cols kr kc : Nat} {blocks : List Blk} (hs : Schedule rows cols kr kc blocks)
    (hne : ∀ b ∈ blocks, b.r0 < b.r1 ∧ b.c0 < b.c1) : ∀ b ∈ blocks, b.Good rows cols kr kc := by
  intro b hb
  obtain ⟨h1, h2, h3, h4, h5, h6, h7, h8⟩ := hs.aligned b hb
  have hr1 : b.r1 % kr = 0 := by
    have e : b.r1 = b.r0 + (b.r1 - b.r0) := by omega
    rw [e, Nat.add_mod, h1, h5]; simp
  have hc1 : b.c1 % kc = 0 := by
    have e : b.c1 = b.c0 + (b.c1 - b.c0) := by omega
    rw [e, Nat.add_mod, h2, h6]; simp
  exact ⟨h1, hr1, h2, hc1, (hne b hb).1, (hne b hb).2, h7, h8⟩

theorem good_sub {a b k q n : Nat} (hk : 0 < k) (ha : a % k = 0) (hb : b % k = 0) (hq : q < ceilDiv (b - a) k) (hn : b < n + k) :
    (a + q * k) % k = 0 ∧ min (a + q * k + k) b % k = 0 ∧ a + q * k < min (a + q * k + k) b ∧ min (a + q * k + k) b < n + k := by
  have e1 : (a + q * k) % k = 0 := by rw [Nat.add_mul_mod_self_right]; exact ha
  have e2 : q * k < b - a := by
    unfold ceilDiv at hq
    have h1 := (Nat.lt_div_iff_mul_lt hk).1 hq
    omega
  refine ⟨e1, ?_, by omega, by omega⟩
  rcases Nat.le_total (a + q * k + k) b with h | h
  · rw [Nat.min_eq_left h, Nat.add_mod_right]; exact e1
  · rw [Nat.min_eq_right h]; exact hb

/-- `RunBGemmKernelTyped` emits the writes of all cells of the block (`runTyped_emits` for kernels that rely on the alignment of
the columns). -/
theorem runTyped_emits_good {α : Type} {fat : Bool} {rows cols kr kc : Nat} {G : Nat → α} {pos : Nat → Nat → Nat}
    (hkr : 0 < kr) (hkc : 0 < kc)
    {kernel : Blk → List (Write α) → Option (List (Write α))}
    (hk : ∀ (b : Blk) (tr : List (Write α)) (W : Nat → Prop), b.Good rows cols kr kc → Emits tr W G →
      ∃ tr', kernel b tr = some tr' ∧ Emits tr' (fun x => W x ∨ ∃ i j, b.Cell rows cols i j ∧ x = pos i j) G)
    {b : Blk} (hg : b.Good rows cols kr kc) {tr : List (Write α)} {W : Nat → Prop} (h : Emits tr W G) :
    ∃ tr', runTyped fat kr kc kernel b tr = some tr' ∧
      Emits tr' (fun x => W x ∨ ∃ i j, b.Cell rows cols i j ∧ x = pos i j) G := by
  unfold runTyped
  cases fat
  · simp only [Bool.false_eq_true, if_false]
    obtain ⟨tr', h1, h2⟩ := Emits.loop (n := ceilDiv (b.c1 - b.c0) kc) (s := tr) (G := G)
      (body := fun cb tr =>
        forN (ceilDiv (b.r1 - b.r0) kr) (fun rb tr =>
          kernel ⟨b.r0 + rb * kr, min (b.r0 + rb * kr + kr) b.r1, b.c0 + cb * kc, min (b.c0 + cb * kc + kc) b.c1⟩ tr) tr)
      (fun cb x => ∃ rb, rb < ceilDiv (b.r1 - b.r0) kr ∧ ∃ i j,
        Blk.Cell ⟨b.r0 + rb * kr, min (b.r0 + rb * kr + kr) b.r1, b.c0 + cb * kc, min (b.c0 + cb * kc + kc) b.c1⟩
          rows cols i j ∧ x = pos i j) h
      (by
        intro cb W s hcb hs
        refine Emits.loop (n := ceilDiv (b.r1 - b.r0) kr) (s := s) (G := G) _ hs ?_
        intro rb W s hrb hs
        obtain ⟨a1, a2, a3, a4⟩ := good_sub hkr hg.r0 hg.r1 hrb hg.rr
        obtain ⟨b1, b2, b3, b4⟩ := good_sub hkc hg.c0 hg.c1 hcb hg.cc
        exact hk _ s W ⟨a1, a2, b1, b2, a3, b3, a4, b4⟩ hs)
    refine ⟨tr', h1, h2.congr (fun x => ?_)⟩
    constructor
    · rintro (hw | ⟨i, j, ⟨ha, hb, hc, hd⟩, rfl⟩)
      · exact Or.inl hw
      · have hi := Nat.div_add_mod (i - b.r0) kr
        have hj := Nat.div_add_mod (j - b.c0) kc
        have hi2 := Nat.mod_lt (i - b.r0) hkr
        have hj2 := Nat.mod_lt (j - b.c0) hkc
        rw [Nat.mul_comm] at hi hj
        have cr := ceilDiv_mul_ge (b.r1 - b.r0) kr hkr
        have cc := ceilDiv_mul_ge (b.c1 - b.c0) kc hkc
        refine Or.inr ⟨(j - b.c0) / kc, ?_, (i - b.r0) / kr, ?_, i, j, ⟨?_, ?_, ?_, ?_⟩, rfl⟩
        · rw [Nat.div_lt_iff_lt_mul hkc]; omega
        · rw [Nat.div_lt_iff_lt_mul hkr]; omega
        · simp only []; omega
        · simp only []; omega
        · simp only []; omega
        · simp only []; omega
    · rintro (hw | ⟨cb, hcb, rb, hrb, i, j, ⟨ha, hb, hc, hd⟩, rfl⟩)
      · exact Or.inl hw
      · simp only [] at ha hb hc hd
        exact Or.inr ⟨i, j, ⟨by omega, by omega, by omega, by omega⟩, rfl⟩
  · exact hk b tr W hg h

theorem runTyped_schedule_good {α : Type} {fat : Bool} {rows cols kr kc : Nat} {G : Nat → α} {pos : Nat → Nat → Nat}
    (hkr : 0 < kr) (hkc : 0 < kc) {kernel : Blk → List (Write α) → Option (List (Write α))}
    (hk : ∀ (b : Blk) (tr : List (Write α)) (W : Nat → Prop), b.Good rows cols kr kc → Emits tr W G →
      ∃ tr', kernel b tr = some tr' ∧ Emits tr' (fun x => W x ∨ ∃ i j, b.Cell rows cols i j ∧ x = pos i j) G)
    {blocks : List Blk} (hs : Schedule rows cols kr kc blocks) (hne : ∀ b ∈ blocks, b.r0 < b.r1 ∧ b.c0 < b.c1) :
    ∃ trs, scheduleTraces (runTyped fat kr kc kernel) blocks = some trs ∧
      List.Forall₂ (fun b tr => Emits tr (fun x => ∃ i j, Blk.Cell b rows cols i j ∧ x = pos i j) G) blocks trs := by
  apply scheduleTraces_eq
  intro b hb
  obtain ⟨tr, e1, e2⟩ := runTyped_emits_good (fat := fat) hkr hkc hk (hs.good hne b hb)
    (Emits.nil (W := fun _ => False) (fun _ h => h) : Emits [] _ G)
  exact ⟨tr, e1, e2.congr (fun x => by simp)⟩

section
variable {bits : Bool} {lhs xl rhs xr mult bias : List Word} {cmin cmax : Int}

theorem gMem_size (o : Nat) :
    (gMem bits lhs xl rhs xr mult bias cmin cmax).size o = 4 * (gWords lhs xl rhs xr mult bias cmin cmax o).length := rfl

theorem gMem_mult (row i : Nat) : (gMem bits lhs xl rhs xr mult bias cmin cmax).word ⟨4, 4 * row + 4 * i⟩ = (mult[row + i]?).getD 0#32 := by
  rw [← Nat.mul_add, gMem_word]; rfl

theorem gMem_bias (row i : Nat) : (gMem bits lhs xl rhs xr mult bias cmin cmax).word ⟨5, 4 * row + 4 * i⟩ = (bias[row + i]?).getD 0#32 := by
  rw [← Nat.mul_add, gMem_word]; rfl

theorem gMem_cmin : (gMem bits lhs xl rhs xr mult bias cmin cmax).word ⟨6, 64⟩ = BitVec.ofInt 32 cmin :=
  (gMem_word 6 16).trans rfl

theorem gMem_cmax : (gMem bits lhs xl rhs xr mult bias cmin cmax).word ⟨6, 68⟩ = BitVec.ofInt 32 cmax :=
  (gMem_word 6 17).trans rfl

end

/-- The kernels read whole blocks of rows. -/
theorem fits_bytes {kc n stride depth sz x : Nat} (hkc : 0 < kc) (hd : depth ≤ stride) (hsz : sz = 4 * (ceilMul n kc * stride + x))
    {a : Nat} (ha : a % kc = 0) (han : a < n) : 4 * (a * stride) + 4 * kc * depth ≤ sz := by
  have h1 := ceilMul_aligned hkc ha han
  have h2 : (a + kc) * stride ≤ ceilMul n kc * stride := Nat.mul_le_mul_right _ h1
  have h3 : kc * depth ≤ kc * stride := Nat.mul_le_mul_left _ hd
  rw [Nat.add_mul] at h2
  have e : 4 * kc * depth = 4 * (kc * depth) := by ring
  omega

section
variable {α : Type} {E : GemmEnv} {rows cols k : Nat} {lhs rhs : List Word}

/-- The 8x4 kernel on a block, float and int8. -/
theorem gRun8_emits {ot : List NInstr} {res : (Nat → Nat → BitVec 8) → Nat → Nat → α} {fr : BitVec 16 → Word → Word → α}
    {tmp : List α} (hk : 0 < k) (hls : ceilMul k 4 ≤ E.ls) (hrs : ceilMul k 4 ≤ E.rs)
    (hm : ceilMul rows 8 ≤ E.mult.length) (hb : ceilMul rows 8 ≤ E.bias.length) (htmp : tmp.length = 32)
    (hload : ∀ m o s, G8Loaded m s (nExecs E.F m o ot s))
    (hok : ∀ m o s, (nExecs E.F m o ot s).ok = (g8OtOkList m o s).foldl (fun b p => b && p) s.ok)
    (hres : ∀ (m : NMem) (o : NOps) (s : NState), s.x 14 = ⟨6, 0⟩ → m.ptr 6 72 = ⟨4, 0⟩ → m.ptr 6 80 = ⟨5, 0⟩ →
      m.word ⟨6, 64⟩ = BitVec.ofInt 32 E.cmin → m.word ⟨6, 68⟩ = BitVec.ofInt 32 E.cmax →
      ∀ c i, c < 4 → i < 8 → res (nExecs E.F m o ot s).v c i
        = fr (laneHalf (s.v (24 + c)) i) (m.word ⟨4, 4 * o.cIdx + 4 * i⟩) (m.word ⟨5, 4 * o.cIdx + 4 * i⟩))
    {G : Nat → α}
    (hG : ∀ i j, i < rows → j < cols → G (i + j * rows)
      = fr (BitVec.ofNat 16 (gemmNat k lhs rhs i j)) ((E.mult[i]?).getD 0#32) ((E.bias[i]?).getD 0#32))
    {b : Blk} (hg : b.Good rows cols 8 4) {tr : List (Write α)} {W : Nat → Prop} (h : Emits tr W G) :
    ∃ tr', gRun false ⟨8, g8Pre, g8Accum, ot, g8Zero, gStore 8 tmp res, 8⟩ E rows cols k lhs rhs b tr = some tr' ∧
      Emits tr' (fun x => W x ∨ ∃ i j, b.Cell rows cols i j ∧ x = i + j * rows) G := by
  obtain ⟨k1, k2, k3, k4⟩ := ceilMul4_eq k
  unfold gRun
  refine gKernel_emits (K := ⟨8, g8Pre, g8Accum, ot, g8Zero, gStore 8 tmp res, 8⟩) (dst0 := id) (stride := rows) (pos := fun i j => i + j * rows)
    (gKern8_facts (res := res) (fr := fr) k4 (by omega) (by rw [gMem_size]; simp [gWords]) rfl rfl rfl rfl rfl (hload _) (hok _)
      (fun o s h14 => hres _ o s h14 rfl rfl gMem_cmin gMem_cmax))
    (by simp only; omega) (by simp only; omega) ?_ ?_ ?_ rfl (fun _ _ => rfl) (fun _ _ => rfl) ?_ hg.r0 hg.r1 hg.c0 hg.c1 hg.r hg.c hg.rr hg.cc h
  · intro row h1 h2
    exact fits_bytes (x := E.xl.length) (kc := 8) (by omega) hls (by rw [gMem_size]; simp [gWords, gPacked_length]) h1 h2
  · intro col h1 h2
    exact fits_bytes (x := E.xr.length) (kc := 4) (by omega) hrs (by rw [gMem_size]; simp [gWords, gPacked_length]) h1 h2
  · intro row h1 h2
    have := ceilMul_aligned (kc := 8) (by omega) h1 h2
    rw [gMem_size, gMem_size]
    simp only [gWords]
    simp only [Nat.reduceEqDiff, if_false, if_true]
    omega
  · intro row col v tr W h1 h2 h3 h4 hr he
    simp only [id] at *
    obtain ⟨tr', e1, e2⟩ := gStore_emits (kr := 8) (tmp := tmp) (res := res) (v := v) (G := G) (dst := col * rows + row) (stride := rows)
      (by omega) htmp h3 h4
      (by
        intro c r hc hr8 hrr hcc
        have e : col * rows + row + c * rows + r = (row + r) + (col + c) * rows := by ring
        rw [hr c r hc hr8, gSum_gemm (Or.inr rfl) hls hrs h1 h2 hr8 hc hrr hcc, gMem_mult, gMem_bias, e, hG _ _ hrr hcc]) he
    refine ⟨tr', e1, e2.congr (fun x => ?_)⟩
    constructor
    · rintro (hw | ⟨i, j, hcell, rfl⟩)
      · exact Or.inl hw
      · refine Or.inr ⟨i, j, hcell, ?_⟩
        obtain ⟨u1, u2, u3, u4⟩ := hcell
        simp only at u1 u2 u3 u4
        obtain ⟨i', rfl⟩ := Nat.exists_eq_add_of_le u1
        obtain ⟨j', rfl⟩ := Nat.exists_eq_add_of_le u3
        rw [Nat.add_sub_cancel_left, Nat.add_sub_cancel_left]
        ring
    · rintro (hw | ⟨i, j, hcell, rfl⟩)
      · exact Or.inl hw
      · refine Or.inr ⟨i, j, hcell, ?_⟩
        obtain ⟨u1, u2, u3, u4⟩ := hcell
        simp only at u1 u2 u3 u4
        obtain ⟨i', rfl⟩ := Nat.exists_eq_add_of_le u1
        obtain ⟨j', rfl⟩ := Nat.exists_eq_add_of_le u3
        rw [Nat.add_sub_cancel_left, Nat.add_sub_cancel_left]
        ring

/-- The 4x4 kernel on a block. `A` are the accumulators, which the kernel gets right when it adds up the right number of blocks. -/
theorem gRun4_emits (stream : Bool) {ot : List NInstr} {res : (Nat → Nat → BitVec 8) → Nat → Nat → α} {fr : BitVec 32 → Word → Word → α}
    {tmp : List α} (hk : 0 < k)
    (hls : ∀ row, row % 4 = 0 → row < rows →
      4 * (row * E.ls) + 64 * g4Blocks stream (ceilMul k 4) ≤ 4 * (ceilMul rows 4 * E.ls + E.xl.length))
    (hrs : ∀ col, col % 4 = 0 → col < cols →
      4 * (col * E.rs) + 64 * g4Blocks stream (ceilMul k 4) ≤ 4 * (ceilMul cols 4 * E.rs + E.xr.length))
    (hm : ceilMul rows 4 ≤ E.mult.length) (hb : ceilMul rows 4 ≤ E.bias.length) (htmp : tmp.length = 16)
    (hload : ∀ m o s, G4Loaded m s (nExecs E.F m o ot s))
    (hok : ∀ m o s, (nExecs E.F m o ot s).ok = (g4OtOkList m o s).foldl (fun b p => b && p) s.ok)
    (hres : ∀ (m : NMem) (o : NOps) (s : NState), s.x 14 = ⟨6, 0⟩ → m.ptr 6 72 = ⟨4, 0⟩ → m.ptr 6 80 = ⟨5, 0⟩ →
      m.word ⟨6, 64⟩ = BitVec.ofInt 32 E.cmin → m.word ⟨6, 68⟩ = BitVec.ofInt 32 E.cmax →
      ∀ c i, c < 4 → i < 4 → res (nExecs E.F m o ot s).v c i
        = fr (laneWord (s.v (24 + c)) i) (m.word ⟨4, 4 * o.cIdx + 4 * i⟩) (m.word ⟨5, 4 * o.cIdx + 4 * i⟩))
    {A : Nat → Nat → Nat}
    (hA : ∀ row col i c, row % 4 = 0 → col % 4 = 0 → i < 4 → c < 4 → row + i < rows → col + c < cols →
      gSum (gMem false (gPacked 4 k rows k E.ls lhs) E.xl (gPacked 4 k cols k E.rs rhs) E.xr E.mult E.bias E.cmin E.cmax) 4
        (g4Blocks stream (ceilMul k 4)) (4 * (row * E.ls)) (4 * (col * E.rs)) c i = A (row + i) (col + c))
    {G : Nat → α}
    (hG : ∀ i j, i < rows → j < cols → G (i + j * rows)
      = fr (BitVec.ofNat 32 (A i j)) ((E.mult[i]?).getD 0#32) ((E.bias[i]?).getD 0#32))
    {b : Blk} (hg : b.Good rows cols 4 4) {tr : List (Write α)} {W : Nat → Prop} (h : Emits tr W G) :
    ∃ tr', gRun false ⟨4, g4Pre, g4Accum stream, ot, g4Zero, gStore 4 tmp res, 4⟩ E rows cols k lhs rhs b tr = some tr' ∧
      Emits tr' (fun x => W x ∨ ∃ i j, b.Cell rows cols i j ∧ x = i + j * rows) G := by
  obtain ⟨k1, k2, k3, k4⟩ := ceilMul4_eq k
  unfold gRun
  refine gKernel_emits (K := ⟨4, g4Pre, g4Accum stream, ot, g4Zero, gStore 4 tmp res, 4⟩) (dst0 := id) (stride := rows) (pos := fun i j => i + j * rows)
    (gKern4_facts (res := res) (fr := fr) k4 (by omega) (by rw [gMem_size]; simp [gWords]) stream rfl rfl rfl rfl rfl (hload _) (hok _)
      (fun o s h14 => hres _ o s h14 rfl rfl gMem_cmin gMem_cmax))
    (by simp only; omega) (by simp only; omega) ?_ ?_ ?_ rfl (fun _ _ => rfl) (fun _ _ => rfl) ?_ hg.r0 hg.r1 hg.c0 hg.c1 hg.r hg.c hg.rr hg.cc h
  · intro row h1 h2
    have := hls row h1 h2
    rw [gMem_size]
    simpa [gWords, gPacked_length] using this
  · intro col h1 h2
    have := hrs col h1 h2
    rw [gMem_size]
    simpa [gWords, gPacked_length] using this
  · intro row h1 h2
    have := ceilMul_aligned (kc := 4) (by omega) h1 h2
    rw [gMem_size, gMem_size]
    simp only [gWords]
    simp only [Nat.reduceEqDiff, if_false, if_true]
    omega
  · intro row col v tr W h1 h2 h3 h4 hr he
    simp only [id] at *
    obtain ⟨tr', e1, e2⟩ := gStore_emits (kr := 4) (tmp := tmp) (res := res) (v := v) (G := G) (dst := col * rows + row) (stride := rows)
      (by omega) htmp h3 h4
      (by
        intro c r hc hr8 hrr hcc
        have e : col * rows + row + c * rows + r = (row + r) + (col + c) * rows := by ring
        rw [hr c r hc hr8, hA row col r c h1 h2 hr8 hc hrr hcc, gMem_mult, gMem_bias, e, hG _ _ hrr hcc]) he
    refine ⟨tr', e1, e2.congr (fun x => ?_)⟩
    constructor
    · rintro (hw | ⟨i, j, hcell, rfl⟩)
      · exact Or.inl hw
      · refine Or.inr ⟨i, j, hcell, ?_⟩
        obtain ⟨u1, u2, u3, u4⟩ := hcell
        simp only at u1 u2 u3 u4
        obtain ⟨i', rfl⟩ := Nat.exists_eq_add_of_le u1
        obtain ⟨j', rfl⟩ := Nat.exists_eq_add_of_le u3
        rw [Nat.add_sub_cancel_left, Nat.add_sub_cancel_left]
        ring
    · rintro (hw | ⟨i, j, hcell, rfl⟩)
      · exact Or.inl hw
      · refine Or.inr ⟨i, j, hcell, ?_⟩
        obtain ⟨u1, u2, u3, u4⟩ := hcell
        simp only at u1 u2 u3 u4
        obtain ⟨i', rfl⟩ := Nat.exists_eq_add_of_le u1
        obtain ⟨j', rfl⟩ := Nat.exists_eq_add_of_le u3
        rw [Nat.add_sub_cancel_left, Nat.add_sub_cancel_left]
        ring

end

/-- The 8x4 kernel on a block, bitpacked output. -/
theorem gRun8B_emits {E : GemmEnv} {rows cols k : Nat} {lhs rhs : List Word}
    (hk : 0 < k) (hls : ceilMul k 4 ≤ E.ls) (hrs : ceilMul k 4 ≤ E.rs) (hm : ceilMul rows 8 ≤ E.mult.length)
    {G : Nat → BitVec 8}
    (hG : ∀ q j r, 8 * q < rows → j < cols → r < 8 → (G (q + j * (4 * packedSize rows))).getLsbD r
      = (decide (8 * q + r < rows) && gBit (BitVec.ofNat 16 (gemmNat k lhs rhs (8 * q + r) j)) ((E.mult[8 * q + r]?).getD 0#32)))
    {b : Blk} (hg : b.Good rows cols 8 4) {tr : List (Write (BitVec 8))} {W : Nat → Prop} (h : Emits tr W G) :
    ∃ tr', gRun true gKern8B E rows cols k lhs rhs b tr = some tr' ∧
      Emits tr' (fun x => W x ∨ ∃ i j, b.Cell rows cols i j ∧ x = i / 8 + j * (4 * packedSize rows)) G := by
  obtain ⟨k1, k2, k3, k4⟩ := ceilMul4_eq k
  unfold gRun
  refine gKernel_emits (K := gKern8B) (bits := true) (dst0 := fun row => row / 8) (stride := 4 * packedSize rows)
    (pos := fun i j => i / 8 + j * (4 * packedSize rows))
    (gKern8B_facts k4 (by omega) (by rw [gMem_size]; simp [gWords]) rfl)
    (by show 0 < 8; omega) (by show 8 ≤ 8; omega) ?_ ?_ ?_ rfl ?_ (fun _ _ => rfl) ?_ hg.r0 hg.r1 hg.c0 hg.c1 hg.r hg.c hg.rr hg.cc h
  · intro row h1 h2
    exact fits_bytes (x := E.xl.length) (kc := 8) (by omega) hls (by rw [gMem_size]; simp [gWords, gPacked_length, gKern8B]) h1 h2
  · intro col h1 h2
    exact fits_bytes (x := E.xr.length) (kc := 4) (by omega) hrs (by rw [gMem_size]; simp [gWords, gPacked_length]) h1 h2
  · intro row h1 h2
    have := ceilMul_aligned (kc := 8) (by omega) h1 h2
    rw [gMem_size]
    simp only [gWords]
    simp only [Nat.reduceEqDiff, if_false, if_true]
    omega
  · intro row _
    show (row + 8) / 8 = row / 8 + 1
    omega
  · intro row col v tr W h1 h2 h3 h4 hr he
    change row % 8 = 0 at h1
    obtain ⟨tr', e1, e2⟩ := gStoreBits_emits (v := v) (G := G) (dst := col * (4 * packedSize rows) + row / 8)
      (stride := 4 * packedSize rows) h3 h4
      (by
        intro c r hc hr8 hcc
        have e : col * (4 * packedSize rows) + row / 8 + c * (4 * packedSize rows) = row / 8 + (col + c) * (4 * packedSize rows) := by ring
        have e8 : 8 * (row / 8) = row := by omega
        rw [e, hG _ _ _ (by omega) hcc hr8, e8]
        by_cases hrr : row + r < rows
        · rw [hr c r hc hr8]
          have := gSum_gemm (bits := true) (kr := 8) (lhs := lhs) (rhs := rhs) (xl := E.xl) (xr := E.xr) (mult := E.mult) (bias := E.bias)
            (cmin := E.cmin) (cmax := E.cmax) (Or.inr rfl) hls hrs h1 h2 hr8 hc hrr hcc
          have hkr : gKern8B.kr = 8 := rfl
          rw [hkr, this, gMem_mult]
        · simp [hrr]) he
    refine ⟨tr', e1, e2.congr (fun x => ?_)⟩
    constructor
    · rintro (hw | ⟨i, j, hcell, rfl⟩)
      · exact Or.inl hw
      · refine Or.inr ⟨i, j, hcell, ?_⟩
        obtain ⟨u1, u2, u3, u4⟩ := hcell
        simp only at u1 u2 u3 u4
        have hkr : gKern8B.kr = 8 := rfl
        rw [hkr] at u2
        obtain ⟨j', rfl⟩ := Nat.exists_eq_add_of_le u3
        have e8 : i / 8 = row / 8 := by omega
        rw [Nat.add_sub_cancel_left, e8]
        ring
    · rintro (hw | ⟨i, j, hcell, rfl⟩)
      · exact Or.inl hw
      · refine Or.inr ⟨i, j, hcell, ?_⟩
        obtain ⟨u1, u2, u3, u4⟩ := hcell
        simp only at u1 u2 u3 u4
        obtain ⟨j', rfl⟩ := Nat.exists_eq_add_of_le u3
        have e8 : i / 8 = row / 8 := by omega
        rw [Nat.add_sub_cancel_left, e8]
        ring

end Verif
