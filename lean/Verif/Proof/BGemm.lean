import Verif.Model.BGemm
import Verif.Proof.Canonical

/-! The portable BGEMM kernels. -/

namespace Verif

open Finset

/-- The writes in `s` are exactly: at each position in `W`, the value `G`. -/
def Emits {α : Type} (s : List (Write α)) (W : Nat → Prop) (G : Nat → α) : Prop :=
  ∀ w, w ∈ s ↔ W w.1 ∧ w.2 = G w.1

theorem Emits.nil {α : Type} {W : Nat → Prop} {G : Nat → α} (h : ∀ i, ¬ W i) :
    Emits ([] : List (Write α)) W G := by
  intro w; simp [h]

theorem Emits.congr {α : Type} {s : List (Write α)} {W W' : Nat → Prop} {G : Nat → α}
    (h : Emits s W G) (hw : ∀ i, W' i ↔ W i) : Emits s W' G := by
  intro w; rw [h w, hw]

theorem Emits.emit {α : Type} {s : List (Write α)} {W : Nat → Prop} {G : Nat → α} {i : Nat} {v : α}
    (h : Emits s W G) (hv : v = G i) : Emits (s ++ [(i, v)]) (fun j => W j ∨ j = i) G := by
  rintro ⟨j, u⟩
  rw [List.mem_append, h (j, u), List.mem_singleton, Prod.mk.injEq]
  constructor
  · rintro (⟨h1, h2⟩ | ⟨rfl, rfl⟩)
    · exact ⟨Or.inl h1, h2⟩
    · exact ⟨Or.inr rfl, hv⟩
  · rintro ⟨h1 | h1, h2⟩
    · exact Or.inl ⟨h1, h2⟩
    · simp only at h1 h2
      subst h1
      exact Or.inr ⟨rfl, by rw [h2, hv]⟩

theorem Emits.loop {α : Type} {s : List (Write α)} {n : Nat} {W0 : Nat → Prop} {G : Nat → α}
    {body : Nat → List (Write α) → Option (List (Write α))} (R : Nat → Nat → Prop)
    (h0 : Emits s W0 G)
    (hstep : ∀ k W s, k < n → Emits s W G →
      ∃ s', body k s = some s' ∧ Emits s' (fun i => W i ∨ R k i) G) :
    ∃ s', forN n body s = some s' ∧ Emits s' (fun i => W0 i ∨ ∃ k, k < n ∧ R k i) G := by
  refine forN_inv (n := n) (body := body) (s := s)
    (fun m s => Emits s (fun i => W0 i ∨ ∃ k, k < m ∧ R k i) G)
    (h0.congr (fun i => by simp))
    (fun i s hi hp => ?_)
  obtain ⟨s', hb, hs'⟩ := hstep i _ s hi hp
  refine ⟨s', hb, hs'.congr (fun j => ?_)⟩
  constructor
  · rintro (h | ⟨k, hk, hr⟩)
    · exact Or.inl (Or.inl h)
    · rcases Nat.lt_succ_iff_lt_or_eq.1 hk with h | h
      · exact Or.inl (Or.inr ⟨k, h, hr⟩)
      · subst h; exact Or.inr hr
  · rintro ((h | ⟨k, hk, hr⟩) | hr)
    · exact Or.inl h
    · exact Or.inr ⟨k, by omega, hr⟩
    · exact Or.inr ⟨i, by omega, hr⟩

/-- Applying writes that agree with `G`. -/
theorem applyWrites_fills {α : Type} {s0 : List α} {G : Nat → α} :
    ∀ (L : List (Write α)) (s : List α) (W : Nat → Prop), Fills s0 s W G →
      (∀ w ∈ L, w.1 < s0.length ∧ w.2 = G w.1) →
      ∃ s', applyWrites L s = some s' ∧ Fills s0 s' (fun i => W i ∨ ∃ w ∈ L, i = w.1) G
  | [], s, W, h, _ => ⟨s, rfl, h.congr (by simp) (fun _ _ _ => rfl)⟩
  | w :: L, s, W, h, hw => by
    obtain ⟨h1, h2⟩ := hw w (by simp)
    obtain ⟨s1, e1, f1⟩ := h.write h1 h2
    obtain ⟨s2, e2, f2⟩ := applyWrites_fills L s1 _ f1 (fun w' hw' => hw w' (by simp [hw']))
    refine ⟨s2, by simp [applyWrites, e1, e2], f2.congr (fun i _ => ?_) (fun _ _ _ => rfl)⟩
    simp only [List.mem_cons, exists_eq_or_imp, or_assoc]

theorem gemmAcc_eq {depth : Nat} {lhs rhs : List Word} {i j : Nat} {L R : Nat → Word}
    (hl : ∀ k, k < depth → rd lhs (i * depth + k) = some (L k))
    (hr : ∀ k, k < depth → rd rhs (j * depth + k) = some (R k)) :
    gemmAcc depth lhs rhs i j = some (∑ k ∈ range depth, xorPopcount (L k) (R k)) := by
  unfold gemmAcc
  obtain ⟨s', h1, h2⟩ := forN_inv (n := depth) (s := 0)
    (body := fun k acc => do
      let l ← rd lhs (i * depth + k)
      let r ← rd rhs (j * depth + k)
      some (acc + xorPopcount l r))
    (fun n acc => acc = ∑ k ∈ range n, xorPopcount (L k) (R k))
    (by simp)
    (by
      rintro k s hk rfl
      rw [hl k hk, hr k hk]
      exact ⟨_, rfl, (sum_range_succ _ _).symm⟩)
  rw [h1, h2]

/-- The positions of the cells of a block, clamped to the matrix. -/
def Blk.Cell (b : Blk) (rows cols : Nat) (i j : Nat) : Prop :=
  b.r0 ≤ i ∧ i < min b.r1 rows ∧ b.c0 ≤ j ∧ j < min b.c1 cols

theorem gemmTrace_emits {α : Type} {rows cols depth : Nat} {lhs rhs : List Word}
    {run : Nat → Nat → Option α} {A : Nat → Nat → Nat} {G : Nat → α}
    (hacc : ∀ i j, i < rows → j < cols → gemmAcc depth lhs rhs i j = some (A i j))
    (hrun : ∀ i j, i < rows → j < cols → run (A i j) i = some (G (i + j * rows)))
    (b : Blk) {tr : List (Write α)} {W : Nat → Prop} (h : Emits tr W G) :
    ∃ tr', gemmTrace rows cols depth lhs rhs run b tr = some tr' ∧
      Emits tr' (fun x => W x ∨ ∃ i j, b.Cell rows cols i j ∧ x = i + j * rows) G := by
  unfold gemmTrace
  obtain ⟨tr', h1, h2⟩ := Emits.loop (n := min b.r1 rows - b.r0) (s := tr) (G := G)
    (body := fun di tr =>
      forN (min b.c1 cols - b.c0) (fun dj tr => do
        let i := b.r0 + di
        let j := b.c0 + dj
        let acc ← gemmAcc depth lhs rhs i j
        let v ← run acc i
        some (tr ++ [(i + j * rows, v)])) tr)
    (fun di x => ∃ dj, dj < min b.c1 cols - b.c0 ∧ x = b.r0 + di + (b.c0 + dj) * rows) h
    (by
      intro di W s hdi hs
      refine Emits.loop (n := min b.c1 cols - b.c0) (s := s) (G := G)
        (fun dj x => x = b.r0 + di + (b.c0 + dj) * rows) hs ?_
      intro dj W s hdj hs
      have hi : b.r0 + di < rows := by omega
      have hj : b.c0 + dj < cols := by omega
      simp only [hacc _ _ hi hj, hrun _ _ hi hj, Option.bind_eq_bind, Option.bind_some]
      exact ⟨_, rfl, hs.emit rfl⟩)
  refine ⟨tr', h1, h2.congr (fun x => ?_)⟩
  constructor
  · rintro (hw | ⟨i, j, ⟨ha, hb, hc, hd⟩, rfl⟩)
    · exact Or.inl hw
    · refine Or.inr ⟨i - b.r0, by omega, j - b.c0, by omega, ?_⟩
      have e1 : b.r0 + (i - b.r0) = i := by omega
      have e2 : b.c0 + (j - b.c0) = j := by omega
      rw [e1, e2]
  · rintro (hw | ⟨di, hdi, dj, hdj, rfl⟩)
    · exact Or.inl hw
    · exact Or.inr ⟨b.r0 + di, b.c0 + dj, ⟨by omega, by omega, by omega, by omega⟩, rfl⟩

/-- One column of the bitpacked kernel. -/
theorem gemmColumnBits_emits {rows cols depth : Nat} {lhs rhs : List Word}
    {run : Nat → Nat → Option Bool} {A : Nat → Nat → Nat} {B : Nat → Nat → Bool} {G : Nat → Word}
    (hacc : ∀ i j, i < rows → j < cols → gemmAcc depth lhs rhs i j = some (A i j))
    (hrun : ∀ i j, i < rows → j < cols → run (A i j) i = some (B i j))
    (hG : ∀ k j, 32 * k < rows → j < cols → G (k + j * packedSize rows)
      = wordOf fun i => if 32 * k + i < rows then B (32 * k + i) j else false)
    {r0 e j : Nat} (hr0 : r0 % 32 = 0) (he : e % 32 = 0 ∨ e = rows) (hre : r0 ≤ e) (her : e ≤ rows) (hj : j < cols)
    {tr : List (Write Word)} {W : Nat → Prop} (h : Emits tr W G) :
    ∃ tr', (forN (e - r0) (fun di (st : Word × List (Write Word)) => do
        let i := r0 + di
        let acc ← gemmAcc depth lhs rhs i j
        let bit ← run acc i
        let col := if bit then st.1 ||| (1#32 <<< ((i - r0) % 32)) else st.1
        if (i - r0 + 1) % 32 = 0 ∨ i + 1 = e then
          some (0#32, st.2 ++ [(i / 32 + j * packedSize rows, col)])
        else some (col, st.2)) (0#32, tr)).map (·.2) = some tr' ∧
      Emits tr' (fun x => W x ∨ ∃ i, r0 ≤ i ∧ i < e ∧ x = i / 32 + j * packedSize rows) G := by
  have := forN_inv (n := e - r0)
    (body := fun di (st : Word × List (Write Word)) => do
        let i := r0 + di
        let acc ← gemmAcc depth lhs rhs i j
        let bit ← run acc i
        let col := if bit then st.1 ||| (1#32 <<< ((i - r0) % 32)) else st.1
        if (i - r0 + 1) % 32 = 0 ∨ i + 1 = e then
          some (0#32, st.2 ++ [(i / 32 + j * packedSize rows, col)])
        else some (col, st.2))
    (s := (0#32, tr))
    (fun n st =>
      (∀ i, i < 32 → st.1.getLsbD i = (if r0 + n < e ∧ i < n % 32 then
          B (32 * ((r0 + n) / 32) + i) j else false)) ∧
      Emits st.2 (fun x => W x ∨ ∃ k, k < (if r0 + n = e then (n + 31) / 32 else n / 32) ∧
        x = r0 / 32 + k + j * packedSize rows) G)
    (by
      refine ⟨by simp, h.congr (fun x => ?_)⟩
      constructor
      · rintro (hw | ⟨k, hk, _⟩)
        · exact hw
        · exfalso
          split at hk <;> simp at hk
      · exact Or.inl)
    (by
      rintro n ⟨col, s⟩ hn ⟨hcol, hs⟩
      simp only at hcol hs
      have hi : r0 + n < rows := by omega
      simp only [hacc _ _ hi hj, hrun _ _ hi hj, Option.bind_eq_bind, Option.bind_some]
      have esub : r0 + n - r0 = n := by omega
      rw [esub]
      generalize hbit : B (r0 + n) j = bit
      have hcol' : ∀ i, i < 32 → (if bit then col ||| (1#32 <<< (n % 32)) else col).getLsbD i
          = if i ≤ n % 32 then B (32 * ((r0 + n) / 32) + i) j else false := by
        intro i hi
        have h0 := hcol i hi
        have hor : (if bit then col ||| (1#32 <<< (n % 32)) else col).getLsbD i
            = (col.getLsbD i || (bit && decide (i = n % 32))) := by
          cases bit
          · simp
          · simp only [if_true]
            rw [BitVec.getLsbD_or, getLsbD_one_shl]
            simp [hi]
        rw [hor, h0]
        have hlt' : r0 + n < e := by omega
        by_cases hlt : i < n % 32
        · have hne : i ≠ n % 32 := by omega
          have hle : i ≤ n % 32 := by omega
          simp [hlt, hne, hle]
          intro hcon; omega
        · by_cases heq : i = n % 32
          · subst heq
            have e2 : 32 * ((r0 + n) / 32) + n % 32 = r0 + n := by omega
            simp [e2, hbit]
          · have hle : ¬ i ≤ n % 32 := by omega
            simp [hlt, heq, hle]
      by_cases hend : (n + 1) % 32 = 0 ∨ r0 + n + 1 = e
      · rw [if_pos hend]
        refine ⟨_, rfl, ?_, ?_⟩
        · intro i hi
          simp only [BitVec.getLsbD_zero]
          rw [if_neg (by omega)]
        · have hem := hs.emit (i := (r0 + n) / 32 + j * packedSize rows)
            (v := if bit then col ||| (1#32 <<< (n % 32)) else col)
            (by
              rw [hG _ _ (by omega) hj]
              apply eq_wordOf
              intro i hi
              rw [hcol' i hi]
              by_cases hle : i ≤ n % 32
              · rw [if_pos hle, if_pos (by omega)]
              · rw [if_neg hle, if_neg (by omega)])
          refine hem.congr (fun x => ?_)
          have hold : (if r0 + n = e then (n + 31) / 32 else n / 32) = n / 32 := if_neg (by omega)
          rw [hold]
          have hcnt : (if r0 + (n + 1) = e then (n + 1 + 31) / 32 else (n + 1) / 32) = n / 32 + 1 := by
            split <;> omega
          rw [hcnt]
          have hw : (r0 + n) / 32 = r0 / 32 + n / 32 := by omega
          rw [hw]
          constructor
          · rintro (h | ⟨k, hk, rfl⟩)
            · exact Or.inl (Or.inl h)
            · by_cases hke : k = n / 32
              · subst hke; exact Or.inr rfl
              · exact Or.inl (Or.inr ⟨k, by omega, rfl⟩)
          · rintro ((h | ⟨k, hk, rfl⟩) | rfl)
            · exact Or.inl h
            · exact Or.inr ⟨k, by omega, rfl⟩
            · exact Or.inr ⟨n / 32, by omega, rfl⟩
      · rw [if_neg hend]
        refine ⟨_, rfl, ?_, ?_⟩
        · intro i hi
          simp only
          rw [hcol' i hi]
          have e1 : (r0 + (n + 1)) / 32 = (r0 + n) / 32 := by omega
          rw [e1]
          by_cases hle : i ≤ n % 32
          · rw [if_pos hle, if_pos (by omega)]
          · rw [if_neg hle, if_neg (by omega)]
        · refine hs.congr (fun x => ?_)
          have hold : (if r0 + n = e then (n + 31) / 32 else n / 32) = n / 32 := if_neg (by omega)
          have hnew : (if r0 + (n + 1) = e then (n + 1 + 31) / 32 else (n + 1) / 32) = n / 32 := by
            rw [if_neg (by omega)]; omega
          rw [hold, hnew])
  obtain ⟨⟨col, s'⟩, h1, _, h2⟩ := this
  refine ⟨s', by rw [h1]; rfl, h2.congr (fun x => ?_)⟩
  have hc : (if r0 + (e - r0) = e then (e - r0 + 31) / 32 else (e - r0) / 32) = (e - r0 + 31) / 32 :=
    if_pos (by omega)
  rw [hc]
  constructor
  · rintro (hw | ⟨i, h1, h2, rfl⟩)
    · exact Or.inl hw
    · refine Or.inr ⟨i / 32 - r0 / 32, by omega, ?_⟩
      have : r0 / 32 + (i / 32 - r0 / 32) = i / 32 := by omega
      rw [this]
  · rintro (hw | ⟨k, hk, rfl⟩)
    · exact Or.inl hw
    · refine Or.inr ⟨r0 + 32 * k, by omega, by omega, ?_⟩
      have : (r0 + 32 * k) / 32 = r0 / 32 + k := by omega
      rw [this]

theorem gemmTraceBits_emits {rows cols depth : Nat} {lhs rhs : List Word}
    {run : Nat → Nat → Option Bool} {A : Nat → Nat → Nat} {B : Nat → Nat → Bool} {G : Nat → Word}
    (hacc : ∀ i j, i < rows → j < cols → gemmAcc depth lhs rhs i j = some (A i j))
    (hrun : ∀ i j, i < rows → j < cols → run (A i j) i = some (B i j))
    (hG : ∀ k j, 32 * k < rows → j < cols → G (k + j * packedSize rows)
      = wordOf fun i => if 32 * k + i < rows then B (32 * k + i) j else false)
    {b : Blk} (hb0 : b.r0 % 32 = 0) (hb1 : b.r1 % 32 = 0) 
    {tr : List (Write Word)} {W : Nat → Prop} (h : Emits tr W G) :
    ∃ tr', gemmTraceBits rows cols depth lhs rhs run b tr = some tr' ∧
      Emits tr' (fun x => W x ∨ ∃ i j, b.Cell rows cols i j ∧ x = i / 32 + j * packedSize rows) G := by
  unfold gemmTraceBits
  simp only []
  obtain ⟨tr', h1, h2⟩ := Emits.loop (n := min b.c1 cols - b.c0) (s := tr) (G := G)
    (body := fun dj tr =>
      (forN (min b.r1 rows - b.r0) (fun di (st : Word × List (Write Word)) => do
        let i := b.r0 + di
        let j := b.c0 + dj
        let acc ← gemmAcc depth lhs rhs i j
        let bit ← run acc i
        let col := if bit then st.1 ||| (1#32 <<< ((i - b.r0) % 32)) else st.1
        if (i - b.r0 + 1) % 32 = 0 ∨ i + 1 = min b.r1 rows then
          some (0#32, st.2 ++ [(i / 32 + j * packedSize rows, col)])
        else some (col, st.2)) (0#32, tr)).map (·.2))
    (fun dj x => ∃ i, b.r0 ≤ i ∧ i < min b.r1 rows ∧ x = i / 32 + (b.c0 + dj) * packedSize rows) h
    (by
      intro dj W s hdj hs
      by_cases hle : b.r0 ≤ min b.r1 rows
      · exact gemmColumnBits_emits hacc hrun hG hb0 (by omega) hle (by omega)
          (j := b.c0 + dj) (by omega) hs
      · have : min b.r1 rows - b.r0 = 0 := by omega
        rw [this]
        refine ⟨s, rfl, hs.congr (fun x => ?_)⟩
        constructor
        · rintro (hw | ⟨i, h1, h2, _⟩)
          · exact hw
          · omega
        · exact Or.inl)
  refine ⟨tr', h1, h2.congr (fun x => ?_)⟩
  constructor
  · rintro (hw | ⟨i, j, ⟨ha, hb, hc, hd⟩, rfl⟩)
    · exact Or.inl hw
    · refine Or.inr ⟨j - b.c0, by omega, i, ha, hb, ?_⟩
      have e2 : b.c0 + (j - b.c0) = j := by omega
      rw [e2]
  · rintro (hw | ⟨dj, hdj, i, h1, h2, rfl⟩)
    · exact Or.inl hw
    · exact Or.inr ⟨i, b.c0 + dj, ⟨by omega, by omega, by omega, by omega⟩, rfl⟩

/-- `RunBGemmKernelTyped` emits the writes of all cells of the block. `pos` is the position
written for a cell. -/
theorem runTyped_emits {α : Type} {fat : Bool} {rows cols kr kc : Nat} {G : Nat → α} {pos : Nat → Nat → Nat}
    (hkr : 0 < kr) (hkc : 0 < kc)
    {kernel : Blk → List (Write α) → Option (List (Write α))}
    (hk : ∀ (b : Blk) (tr : List (Write α)) (W : Nat → Prop), b.r0 % kr = 0 → b.r1 % kr = 0 → Emits tr W G →
      ∃ tr', kernel b tr = some tr' ∧ Emits tr' (fun x => W x ∨ ∃ i j, b.Cell rows cols i j ∧ x = pos i j) G)
    {b : Blk} (hr0 : b.r0 % kr = 0) (hr1 : b.r1 % kr = 0)
    {tr : List (Write α)} {W : Nat → Prop} (h : Emits tr W G) :
    ∃ tr', runTyped fat kr kc kernel b tr = some tr' ∧
      Emits tr' (fun x => W x ∨ ∃ i j, b.Cell rows cols i j ∧ x = pos i j) G := by
  unfold runTyped
  cases fat
  · simp only [Bool.false_eq_true, if_false]
    have hrow : ∀ rb, rb < ceilDiv (b.r1 - b.r0) kr → (b.r0 + rb * kr) % kr = 0 ∧
        min (b.r0 + rb * kr + kr) b.r1 % kr = 0 := by
      intro rb hrb
      have e1 : (b.r0 + rb * kr) % kr = 0 := by rw [Nat.add_mul_mod_self_right]; exact hr0
      refine ⟨e1, ?_⟩
      rcases Nat.le_total (b.r0 + rb * kr + kr) b.r1 with h | h
      · rw [Nat.min_eq_left h, Nat.add_mod_right]; exact e1
      · rw [Nat.min_eq_right h]; exact hr1
    obtain ⟨tr', h1, h2⟩ := Emits.loop (n := ceilDiv (b.c1 - b.c0) kc) (s := tr) (G := G)
      (body := fun cb tr =>
        forN (ceilDiv (b.r1 - b.r0) kr) (fun rb tr =>
          kernel ⟨b.r0 + rb * kr, min (b.r0 + rb * kr + kr) b.r1, b.c0 + cb * kc, min (b.c0 + cb * kc + kc) b.c1⟩ tr) tr)
      (fun cb x => ∃ rb, rb < ceilDiv (b.r1 - b.r0) kr ∧ ∃ i j,
        Blk.Cell ⟨b.r0 + rb * kr, min (b.r0 + rb * kr + kr) b.r1, b.c0 + cb * kc, min (b.c0 + cb * kc + kc) b.c1⟩
          rows cols i j ∧ x = pos i j) h
      (by
        intro cb W s hcb hs
        refine Emits.loop (n := ceilDiv (b.r1 - b.r0) kr) (s := s) (G := G) _ hs ?_
        intro rb W s hrb hs
        exact hk _ s W (hrow rb hrb).1 (hrow rb hrb).2 hs)
    refine ⟨tr', h1, h2.congr (fun x => ?_)⟩
    constructor
    · rintro (hw | ⟨i, j, ⟨ha, hb, hc, hd⟩, rfl⟩)
      · exact Or.inl hw
      · -- the sub-block containing (i, j)
        have hi := Nat.div_add_mod (i - b.r0) kr
        have hj := Nat.div_add_mod (j - b.c0) kc
        have hi2 := Nat.mod_lt (i - b.r0) hkr
        have hj2 := Nat.mod_lt (j - b.c0) hkc
        rw [Nat.mul_comm] at hi hj
        have cr := ceilDiv_mul_ge (b.r1 - b.r0) kr hkr
        have cc := ceilDiv_mul_ge (b.c1 - b.c0) kc hkc
        refine Or.inr ⟨(j - b.c0) / kc, ?_, (i - b.r0) / kr, ?_, i, j, ⟨?_, ?_, ?_, ?_⟩, rfl⟩
        · rw [Nat.div_lt_iff_lt_mul hkc]; omega
        · rw [Nat.div_lt_iff_lt_mul hkr]; omega
        · simp only []; omega
        · simp only []; omega
        · simp only []; omega
        · simp only []; omega
    · rintro (hw | ⟨cb, hcb, rb, hrb, i, j, ⟨ha, hb, hc, hd⟩, rfl⟩)
      · exact Or.inl hw
      · simp only [] at ha hb hc hd
        exact Or.inr ⟨i, j, ⟨by omega, by omega, by omega, by omega⟩, rfl⟩
  · exact hk b tr W hr0 hr1 h

theorem scheduleTraces_eq {α : Type} {kernel : Blk → List (Write α) → Option (List (Write α))}
    {G : Nat → α} {P : Blk → Nat → Prop} :
    ∀ (blocks : List Blk), (∀ b ∈ blocks, ∃ tr, kernel b [] = some tr ∧ Emits tr (P b) G) →
      ∃ trs, scheduleTraces kernel blocks = some trs ∧ List.Forall₂ (fun b tr => Emits tr (P b) G) blocks trs
  | [], _ => ⟨[], rfl, List.Forall₂.nil⟩
  | b :: bs, h => by
    obtain ⟨tr, h1, h2⟩ := h b (by simp)
    obtain ⟨trs, h3, h4⟩ := scheduleTraces_eq bs (fun b' hb' => h b' (by simp [hb']))
    refine ⟨tr :: trs, ?_, List.Forall₂.cons h2 h4⟩
    unfold scheduleTraces at h3 ⊢
    rw [List.mapM_cons, h1, h3]
    rfl

theorem flatten_emits {α : Type} {G : Nat → α} {P : Blk → Nat → Prop} {blocks : List Blk}
    {trs : List (List (Write α))} (h : List.Forall₂ (fun b tr => Emits tr (P b) G) blocks trs) :
    Emits trs.flatten (fun x => ∃ b ∈ blocks, P b x) G := by
  induction h with
  | nil => intro w; simp
  | cons h1 _ ih =>
    intro w
    rw [List.flatten_cons, List.mem_append, h1 w, ih w]
    simp only [List.mem_cons, exists_eq_or_imp]
    tauto

end Verif
