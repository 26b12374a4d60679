import Verif.Proof.GemmA64Acc
import Verif.Proof.BGemm

/-! The loop over the blocks of the destination of the Aarch64 BGEMM kernels. -/

namespace Verif

/-- What is needed of the parts of a kernel: `Ready l r` is the state before the accumulation of a block whose operands are at
byte `l` of the LHS and byte `r` of the RHS, `Res row l r` says what is in the vector registers after its output transform;
`fl`, `fr`, `frow` are the positions for which the operands exist. -/
structure GKern.Facts {α : Type} (K : GKern α) (F : FOps) (m : NMem) (depth : Nat) (fl fr frow : Nat → Prop)
    (Ready : Nat → Nat → NState → Prop) (Res : Nat → Nat → Nat → (Nat → Nat → BitVec 8) → Prop) : Prop where
  pre : ∀ l r (s : NState), fl l → fr r → s.x 10 = ⟨0, l⟩ → s.x 11 = ⟨1, r⟩ → s.x 14 = ⟨6, 0⟩ → s.ok = true →
    (nExecs F m (gOps 0) K.pre s).ok = true ∧ Ready l r (nExecs F m (gOps 0) K.pre s) ∧
      (nExecs F m (gOps 0) K.pre s).x 12 = s.x 12 ∧ (nExecs F m (gOps 0) K.pre s).x 13 = s.x 13
  step : ∀ l r (s : NState), fl l → fr r → Ready l r s →
    ∃ s1, K.acc F m depth s = some s1 ∧ s1.x 12 = s.x 12 ∧ s1.x 13 = s.x 13 ∧ s1.x 14 = ⟨6, 0⟩ ∧
      ∀ row l' r' x', frow row → fl l' → fr r' → x' 10 = ⟨0, l'⟩ → x' 11 = ⟨1, r'⟩ → x' 14 = ⟨6, 0⟩ →
        (nExecs F m (gOps row) K.ot { s1 with x := x' }).ok = true ∧
        Res row l r (nExecs F m (gOps row) K.ot { s1 with x := x' }).v ∧
        Ready l' r' (nExecs F m (gOps 0) K.zero (nExecs F m (gOps row) K.ot { s1 with x := x' })) ∧
        (nExecs F m (gOps 0) K.zero (nExecs F m (gOps row) K.ot { s1 with x := x' })).x 12 = x' 12 ∧
        (nExecs F m (gOps 0) K.zero (nExecs F m (gOps row) K.ot { s1 with x := x' })).x 13 = x' 13

/-- The pointers for the next block. -/
theorem gAdvance_eq {kr : Nat} {P : GParams} {row col l' r' : Nat} {x : Nat → NAddr}
    (h12 : (gAdvance kr P row col x) 12 = ⟨0, l'⟩) (h13 : (gAdvance kr P row col x) 13 = ⟨1, r'⟩) :
    (gAdvance kr P row col x) 10 = ⟨0, l'⟩ ∧ (gAdvance kr P row col x) 11 = ⟨1, r'⟩ ∧ (gAdvance kr P row col x) 14 = x 14 := by
  refine ⟨?_, ?_, ?_⟩
  · rw [← h12]; simp [gAdvance, setX]
  · rw [← h13]; simp [gAdvance, setX]
  · unfold gAdvance
    by_cases h1 : (row : Int) ≥ P.lastRow
    · by_cases h2 : (col : Int) ≥ P.lastCol
      · simp [setX, h1, h2]
      · simp [setX, h1, h2]
    · simp [setX, h1]

theorem gAdvance_next {kr : Nat} {P : GParams} {row col l r : Nat} {x : Nat → NAddr}
    (h12 : x 12 = ⟨0, l⟩) (h13 : x 13 = ⟨1, r⟩) :
    (gAdvance kr P row col x) 12 = ⟨0, if (row : Int) ≥ P.lastRow then 4 * P.lhsBase else l + 4 * P.lhsStride * kr⟩ ∧
    (gAdvance kr P row col x) 13
      = ⟨1, if (row : Int) ≥ P.lastRow ∧ ¬ (col : Int) ≥ P.lastCol then r + 4 * P.rhsStride * 4 else r⟩ := by
  unfold gAdvance
  by_cases h1 : (row : Int) ≥ P.lastRow
  · by_cases h2 : (col : Int) ≥ P.lastCol
    · simp [setX, h1, h2, h13]
    · simp [setX, h1, h2, h13, NAddr.add]
  · simp [setX, h1, h13, h12, NAddr.add]

section
variable {α : Type} {K : GKern α} {F : FOps} {m : NMem} {bits : Bool} {rows cols depth ls rs : Nat}
  {fl fr frow : Nat → Prop} {Ready : Nat → Nat → NState → Prop} {Res : Nat → Nat → Nat → (Nat → Nat → BitVec 8) → Prop}
  {G : Nat → α} {pos : Nat → Nat → Nat} {dst0 : Nat → Nat} {stride : Nat}

/-- A call of the kernel writes the cells of the block. `dst0 row` is the position of `row` in a column. -/
theorem gKernel_emits (hK : K.Facts F m depth fl fr frow Ready Res) (hkr : 0 < K.kr)
    (hkr8 : K.kr ≤ 8)
    (hfl : ∀ row, row % K.kr = 0 → row < rows → fl (4 * (row * ls)))
    (hfr : ∀ col, col % 4 = 0 → col < cols → fr (4 * (col * rs)))
    (hfrow : ∀ row, row % K.kr = 0 → row < rows → frow row)
    (hstride : gDstStride bits rows = stride)
    (hdst0 : ∀ row, row % K.kr = 0 → dst0 (row + K.kr) = dst0 row + K.inc)
    (hbase : ∀ row, row % K.kr = 0 → (if bits then row / 8 else row) = dst0 row)
    (hstore : ∀ row col v tr W, row % K.kr = 0 → col % 4 = 0 → row < rows → col < cols →
      Res row (4 * (row * ls)) (4 * (col * rs)) v → Emits tr W G →
      ∃ tr', K.store v (min ((rows : Int) - row) K.kr) (min ((cols : Int) - col) 4) (col * stride + dst0 row) stride tr = some tr' ∧
        Emits tr' (fun x => W x ∨ ∃ i j, Blk.Cell ⟨row, row + K.kr, col, col + 4⟩ rows cols i j ∧ x = pos i j) G)
    {b : Blk} (hr0 : b.r0 % K.kr = 0) (hr1 : b.r1 % K.kr = 0) (hc0 : b.c0 % 4 = 0) (hc1 : b.c1 % 4 = 0)
    (hr : b.r0 < b.r1) (hc : b.c0 < b.c1) (hrr : b.r1 < rows + K.kr) (hcc : b.c1 < cols + 4)
    {v : Nat → Nat → BitVec 8} {x : Nat → NAddr} {tr : List (Write α)} {W : Nat → Prop} (h : Emits tr W G) :
    ∃ tr', gKernel K F m (mkGParams bits K.kr rows cols depth ls rs b) v x tr = some tr' ∧
      Emits tr' (fun y => W y ∨ ∃ i j, b.Cell rows cols i j ∧ y = pos i j) G := by
  have al : ∀ a c, a % K.kr = 0 → c % K.kr = 0 → a < c → a + K.kr ≤ c := by
    intro a c ha hc h
    obtain ⟨a', rfl⟩ := Nat.dvd_of_mod_eq_zero ha
    obtain ⟨c', rfl⟩ := Nat.dvd_of_mod_eq_zero hc
    have h1 : a' < c' := by
      by_contra hn
      have := Nat.mul_le_mul_left K.kr (Nat.le_of_not_lt hn)
      omega
    have := Nat.mul_le_mul_left K.kr (Nat.succ_le_of_lt h1)
    rw [Nat.mul_succ] at this
    exact this
  have hlast : b.r0 + K.kr ≤ b.r1 := al _ _ hr0 hr1 hr
  have mod_add : ∀ a, a % K.kr = 0 → (a + K.kr) % K.kr = 0 := by
    intro a ha; rw [Nat.add_mod_right]; exact ha
  unfold gKernel
  obtain ⟨p1, p2, p3, p4⟩ := hK.pre (4 * (b.r0 * ls)) (4 * (b.c0 * rs))
    { v := v, x := setX (setX (setX (setX (setX x 10 ⟨0, 4 * (b.r0 * ls)⟩) 11 ⟨1, 4 * (b.c0 * rs)⟩) 12 ⟨0, 4 * (b.r0 * ls)⟩) 13
      ⟨1, 4 * (b.c0 * rs)⟩) 14 ⟨6, 0⟩, w1 := 0, fs := 0, gt := false, ok := true }
    (hfl _ hr0 (by omega)) (hfr _ hc0 (by omega)) (by simp [setX]) (by simp [setX]) (by simp [setX]) rfl
  simp only [mkGParams] at *
  unfold nCheck
  rw [if_pos p1]
  simp only [Option.bind_eq_bind, Option.bind_some]
  generalize nExecs F m (gOps 0) K.pre _ = s0 at *
  have q12 : s0.x 12 = ⟨0, 4 * (b.r0 * ls)⟩ := by rw [p3]; simp [setX]
  have q13 : s0.x 13 = ⟨1, 4 * (b.c0 * rs)⟩ := by rw [p4]; simp [setX]
  rw [hstride]
  obtain ⟨t, e1, e2⟩ := doWhile_inv
    (cond := fun (t : GLoop α) => decide ((t.col : Int) ≤ (b.c1 : Int) - 4))
    (body := gStep K F m ⟨b.r0 * ls, b.c0 * rs, b.c0 * stride + (if bits then b.r0 / 8 else b.r0), b.r0, b.c0, (b.r1 : Int) - K.kr,
      (b.c1 : Int) - 4, rows, cols, ls, rs, stride, depth⟩)
    (fun t => t.row % K.kr = 0 ∧ t.col % 4 = 0 ∧ b.r0 ≤ t.row ∧ t.row + K.kr ≤ b.r1 ∧ b.c0 ≤ t.col ∧ t.col + 4 ≤ b.c1 ∧
      Ready (4 * (t.row * ls)) (4 * (t.col * rs)) t.s ∧ t.s.x 12 = ⟨0, 4 * (t.row * ls)⟩ ∧ t.s.x 13 = ⟨1, 4 * (t.col * rs)⟩ ∧
      t.dstCol = t.col * stride + dst0 b.r0 ∧ t.dst = t.col * stride + dst0 t.row ∧
      Emits t.tr (fun y => W y ∨ ∃ i j, b.Cell rows cols i j ∧ (j < t.col ∨ (j < t.col + 4 ∧ i < t.row)) ∧ y = pos i j) G)
    (fun t => Emits t.tr (fun y => W y ∨ ∃ i j, b.Cell rows cols i j ∧ y = pos i j) G)
    (fun t => (b.c1 - t.col) * (rows + 8) + (b.r1 - t.row))
    (by
      rintro ⟨s, row, col, dstCol, dst, tr⟩ ⟨i1, i2, i3, i4, i5, i6, i7, i8, i9, i10, i11, i12⟩
      simp only at i1 i2 i3 i4 i5 i6 i7 i8 i9 i10 i11 i12
      have hrow : row < rows := by omega
      have hcol : col < cols := by omega
      obtain ⟨s1, a1, a2, a3, a4, a5⟩ := hK.step _ _ s (hfl row i1 hrow) (hfr col i2 hcol) i7
      unfold gStep
      simp only [a1, Option.bind_eq_bind, Option.bind_some]
      set P : GParams := ⟨b.r0 * ls, b.c0 * rs, b.c0 * stride + (if bits then b.r0 / 8 else b.r0), b.r0, b.c0,
        (b.r1 : Int) - K.kr, (b.c1 : Int) - 4, rows, cols, ls, rs, stride, depth⟩ with hP
      -- the next block
      obtain ⟨row', col', hn1, hn2, hn3⟩ : ∃ row' col',
          (gAdvance K.kr P row col s1.x) 12 = ⟨0, 4 * (row' * ls)⟩ ∧ (gAdvance K.kr P row col s1.x) 13 = ⟨1, 4 * (col' * rs)⟩ ∧
          ((row + K.kr < b.r1 ∧ row' = row + K.kr ∧ col' = col) ∨ (row + K.kr = b.r1 ∧ row' = b.r0 ∧
            (col' = if col + 4 < b.c1 then col + 4 else col))) := by
        obtain ⟨g1, g2⟩ := gAdvance_next (kr := K.kr) (P := P) (row := row) (col := col) (a2.trans i8) (a3.trans i9)
        rw [g1, g2, hP]
        simp only
        by_cases hl : row + K.kr = b.r1
        · have c1 : (row : Int) ≥ (b.r1 : Int) - K.kr := by omega
          simp only [if_pos c1]
          by_cases hl2 : col + 4 < b.c1
          · have c2 : (row : Int) ≥ (b.r1 : Int) - K.kr ∧ ¬ (col : Int) ≥ (b.c1 : Int) - 4 := by omega
            refine ⟨b.r0, col + 4, rfl, ?_, Or.inr ⟨hl, rfl, by rw [if_pos hl2]⟩⟩
            rw [if_pos c2]
            congr 1
            ring
          · have c2 : ¬ ((row : Int) ≥ (b.r1 : Int) - K.kr ∧ ¬ (col : Int) ≥ (b.c1 : Int) - 4) := by omega
            refine ⟨b.r0, col, rfl, ?_, Or.inr ⟨hl, rfl, by rw [if_neg hl2]⟩⟩
            rw [if_neg c2]
        · have c1 : ¬ (row : Int) ≥ (b.r1 : Int) - K.kr := by omega
          have c2 : ¬ ((row : Int) ≥ (b.r1 : Int) - K.kr ∧ ¬ (col : Int) ≥ (b.c1 : Int) - 4) := fun h => c1 h.1
          refine ⟨row + K.kr, col, ?_, ?_, Or.inl ⟨by omega, rfl, rfl⟩⟩
          · rw [if_neg c1]
            congr 1
            ring
          · rw [if_neg c2]
      obtain ⟨g10, g11, g14⟩ := gAdvance_eq hn1 hn2
      have hrow' : row' % K.kr = 0 ∧ row' < rows ∧ b.r0 ≤ row' ∧ row' + K.kr ≤ b.r1 := by
        rcases hn3 with ⟨h1, h2, h3⟩ | ⟨h1, h2, h3⟩
        · have := mod_add row i1
          have := al (row + K.kr) b.r1 this hr1 h1
          rw [h2]
          exact ⟨mod_add row i1, by omega, by omega, by omega⟩
        · rw [h2]
          exact ⟨hr0, by omega, by omega, by omega⟩
      have hcol' : col' % 4 = 0 ∧ col' < cols := by
        rcases hn3 with ⟨h1, h2, h3⟩ | ⟨h1, h2, h3⟩
        · omega
        · split at h3 <;> omega
      obtain ⟨b1, b2, b3, b4, b5⟩ := a5 row _ _ (gAdvance K.kr P row col s1.x) (hfrow row i1 hrow)
        (hfl row' hrow'.1 hrow'.2.1) (hfr col' hcol'.1 hcol'.2) g10 g11 (g14.trans a4)
      unfold nCheck
      rw [if_pos b1]
      simp only [Option.bind_some]
      obtain ⟨tr', c1, c2⟩ := hstore row col _ tr _ i1 i2 hrow hcol b2 i12
      rw [i11, c1]
      simp only [Option.bind_some]
      by_cases hl : row + K.kr = b.r1
      · have hl' : (row : Int) = (b.r1 : Int) - K.kr := by omega
        rw [if_pos hl']
        rcases hn3 with ⟨h1, _⟩ | ⟨_, h2, h3⟩
        · omega
        refine ⟨_, rfl, ?_, ?_⟩
        · intro hcond
          simp only [decide_eq_true_eq] at hcond
          rw [if_pos (by omega)] at h3
          subst h2
          subst h3
          refine ⟨⟨hr0, by simp only; omega, by simp only; omega, by simp only; omega, by simp only; omega, by simp only; omega,
            b3, b4.trans hn1, b5.trans hn2, ?_, ?_, ?_⟩, ?_⟩
          · simp only; rw [i10]; ring
          · simp only; rw [i10]; ring
          · refine c2.congr (fun y => ?_)
            simp only
            constructor
            · rintro (hw | ⟨i, j, hcell, hij, rfl⟩)
              · exact Or.inl (Or.inl hw)
              · by_cases hj : j < col
                · exact Or.inl (Or.inr ⟨i, j, hcell, Or.inl hj, rfl⟩)
                · by_cases hi : i < row
                  · exact Or.inl (Or.inr ⟨i, j, hcell, Or.inr ⟨by have := hcell.1; omega, hi⟩, rfl⟩)
                  · obtain ⟨u1, u2, u3, u4⟩ := hcell
                    exact Or.inr ⟨i, j, ⟨by simp only; omega, by simp only; omega, by simp only; omega, by simp only; omega⟩, rfl⟩
            · rintro ((hw | ⟨i, j, hcell, hij, rfl⟩) | ⟨i, j, ⟨u1, u2, u3, u4⟩, rfl⟩)
              · exact Or.inl hw
              · exact Or.inr ⟨i, j, hcell, Or.inl (by omega), rfl⟩
              · simp only at u1 u2 u3 u4
                exact Or.inr ⟨i, j, ⟨by omega, by omega, by omega, by omega⟩, Or.inl (by omega), rfl⟩
          · simp only
            have e : b.c1 - col = (b.c1 - (col + 4)) + 4 := by omega
            rw [e, Nat.add_mul]
            omega
        · intro hcond
          simp only [decide_eq_false_iff_not] at hcond
          refine c2.congr (fun y => ?_)
          constructor
          · rintro (hw | ⟨i, j, hcell, rfl⟩)
            · exact Or.inl (Or.inl hw)
            · by_cases hj : j < col
              · exact Or.inl (Or.inr ⟨i, j, hcell, Or.inl hj, rfl⟩)
              · obtain ⟨u1, u2, u3, u4⟩ := hcell
                by_cases hi : i < row
                · exact Or.inl (Or.inr ⟨i, j, ⟨u1, u2, u3, u4⟩, Or.inr ⟨by omega, hi⟩, rfl⟩)
                · exact Or.inr ⟨i, j, ⟨by simp only; omega, by simp only; omega, by simp only; omega, by simp only; omega⟩, rfl⟩
          · rintro ((hw | ⟨i, j, hcell, hij, rfl⟩) | ⟨i, j, ⟨u1, u2, u3, u4⟩, rfl⟩)
            · exact Or.inl hw
            · exact Or.inr ⟨i, j, hcell, rfl⟩
            · simp only at u1 u2 u3 u4
              exact Or.inr ⟨i, j, ⟨by omega, by omega, by omega, by omega⟩, rfl⟩
      · have hl' : ¬ (row : Int) = (b.r1 : Int) - K.kr := by omega
        rw [if_neg hl']
        rcases hn3 with ⟨h1, h2, h3⟩ | ⟨h1, _⟩
        swap
        · omega
        subst h2
        subst h3
        refine ⟨_, rfl, ?_, ?_⟩
        · intro _
          refine ⟨⟨hrow'.1, i2, by simp only; omega, hrow'.2.2.2, i5, i6, b3, b4.trans hn1, b5.trans hn2, i10, ?_, ?_⟩, ?_⟩
          · simp only; rw [hdst0 _ i1]; ring
          · refine c2.congr (fun y => ?_)
            simp only
            constructor
            · rintro (hw | ⟨i, j, hcell, hij, rfl⟩)
              · exact Or.inl (Or.inl hw)
              · by_cases hj : j < col'
                · exact Or.inl (Or.inr ⟨i, j, hcell, Or.inl hj, rfl⟩)
                · obtain ⟨u1, u2, u3, u4⟩ := hcell
                  by_cases hi : i < row
                  · exact Or.inl (Or.inr ⟨i, j, ⟨u1, u2, u3, u4⟩, Or.inr ⟨by omega, hi⟩, rfl⟩)
                  · exact Or.inr ⟨i, j, ⟨by simp only; omega, by simp only; omega, by simp only; omega, by simp only; omega⟩, rfl⟩
            · rintro ((hw | ⟨i, j, hcell, hij, rfl⟩) | ⟨i, j, ⟨u1, u2, u3, u4⟩, rfl⟩)
              · exact Or.inl hw
              · exact Or.inr ⟨i, j, hcell, by omega, rfl⟩
              · simp only at u1 u2 u3 u4
                exact Or.inr ⟨i, j, ⟨by omega, by omega, by omega, by omega⟩, by omega, rfl⟩
          · simp only
            omega
        · intro hcond
          simp only [decide_eq_false_iff_not] at hcond
          omega)
    ((rows + 8) * (cols + 4) + 1) ⟨s0, b.r0, b.c0, b.c0 * stride + (if bits then b.r0 / 8 else b.r0),
      b.c0 * stride + (if bits then b.r0 / 8 else b.r0), tr⟩
    (by
      simp only
      refine ⟨hr0, hc0, by omega, hlast, by omega, by omega, p2, q12, q13, by rw [hbase _ hr0], by rw [hbase _ hr0], ?_⟩
      refine h.congr (fun y => ?_)
      constructor
      · rintro (hw | ⟨i, j, ⟨u1, u2, u3, u4⟩, hij, _⟩)
        · exact hw
        · omega
      · exact Or.inl)
    (by
      simp only
      have h1 : (b.c1 - b.c0) * (rows + 8) ≤ (cols + 3) * (rows + 8) := Nat.mul_le_mul_right _ (by omega)
      have h2 : (rows + 8) * (cols + 4) = (cols + 3) * (rows + 8) + (rows + 8) := by ring
      omega)
  exact ⟨t.tr, congrArg (fun o : Option (GLoop α) => o.bind fun t => some t.tr) e1, e2⟩

end

/-- The stores of a block, float and int8. -/
theorem gStore_emits {α : Type} {kr rows cols row col dst stride : Nat} {tmp : List α}
    {res : (Nat → Nat → BitVec 8) → Nat → Nat → α} {v : Nat → Nat → BitVec 8} {G : Nat → α}
    (hkr : 0 < kr) (htmp : tmp.length = kr * 4) (hrow : row < rows) (hcol : col < cols)
    (hG : ∀ c r, c < 4 → r < kr → row + r < rows → col + c < cols → res v c r = G (dst + c * stride + r))
    {tr : List (Write α)} {W : Nat → Prop} (h : Emits tr W G) :
    ∃ tr', gStore kr tmp res v (min ((rows : Int) - row) kr) (min ((cols : Int) - col) 4) dst stride tr = some tr' ∧
      Emits tr' (fun x => W x ∨ ∃ i j, Blk.Cell ⟨row, row + kr, col, col + 4⟩ rows cols i j ∧
        x = dst + (j - col) * stride + (i - row)) G := by
  unfold gStore
  by_cases hfit : min ((rows : Int) - row) kr = kr ∧ min ((cols : Int) - col) 4 = 4
  · rw [if_pos hfit]
    obtain ⟨tr', h1, h2⟩ := Emits.loop (n := 4) (s := tr) (G := G)
      (body := fun c tr => forN kr (fun r tr => some (tr ++ [(dst + c * stride + r, res v c r)])) tr)
      (fun c x => ∃ r, r < kr ∧ x = dst + c * stride + r) h
      (by
        intro c W s hc hs
        refine Emits.loop (n := kr) (s := s) (G := G) (fun r x => x = dst + c * stride + r) hs ?_
        intro r W s hr hs
        exact ⟨_, rfl, hs.emit (hG c r hc hr (by omega) (by omega))⟩)
    refine ⟨tr', h1, h2.congr (fun x => ?_)⟩
    constructor
    · rintro (hw | ⟨i, j, ⟨u1, u2, u3, u4⟩, rfl⟩)
      · exact Or.inl hw
      · simp only at u1 u2 u3 u4
        exact Or.inr ⟨j - col, by omega, i - row, by omega, rfl⟩
    · rintro (hw | ⟨c, hc, r, hr, rfl⟩)
      · exact Or.inl hw
      · refine Or.inr ⟨row + r, col + c, ⟨by simp only; omega, by simp only; omega, by simp only; omega, by simp only; omega⟩, ?_⟩
        rw [Nat.add_sub_cancel_left, Nat.add_sub_cancel_left]
  · rw [if_neg hfit]
    obtain ⟨buf, b1, b2⟩ := Fills.loop (s0 := tmp) (s := tmp) (n := 4) (W0 := fun _ => False)
      (f := fun i => res v (i / kr) (i % kr))
      (body := fun c buf => forN kr (fun r buf => wr buf (c * kr + r) (res v c r)) buf)
      (fun c i => ∃ r, r < kr ∧ i = c * kr + r) (Fills.init _ _ (by simp))
      (by
        intro c W s hc hs
        refine Fills.loop (n := kr) (fun r i => i = c * kr + r) hs ?_
        intro r W s hr hs
        refine hs.write ?_ ?_
        · have := row_lt hc hr
          rw [htmp]
          omega
        · simp only [(div_mod_row hr).1, (div_mod_row hr).2])
    simp only [b1, Option.bind_eq_bind, Option.bind_some]
    have e1 : (max 1 (min ((cols : Int) - col) 4)).toNat = min (cols - col) 4 := by omega
    have e2 : (max 1 (min ((rows : Int) - row) kr)).toNat = min (rows - row) kr := by omega
    rw [e1, e2]
    obtain ⟨tr', h1, h2⟩ := Emits.loop (n := min (cols - col) 4) (s := tr) (G := G)
      (body := fun c tr => forN (min (rows - row) kr) (fun r tr => (rd buf (c * kr + r)).map fun x =>
        tr ++ [(dst + c * stride + r, x)]) tr)
      (fun c x => ∃ r, r < min (rows - row) kr ∧ x = dst + c * stride + r) h
      (by
        intro c W s hc hs
        refine Emits.loop (n := min (rows - row) kr) (s := s) (G := G) (fun r x => x = dst + c * stride + r) hs ?_
        intro r W s hr hs
        have hr' : r < kr := by omega
        have hx : rd buf (c * kr + r) = some (res v c r) := by
          have := b2.hit (c * kr + r) (by have := row_lt (rows := 4) (r := c) (by omega) hr'; rw [htmp]; omega)
            (Or.inr ⟨c, by omega, r, hr', rfl⟩)
          rw [rd, this, (div_mod_row hr').1, (div_mod_row hr').2]
        rw [hx]
        exact ⟨_, rfl, hs.emit (hG c r (by omega) hr' (by omega) (by omega))⟩)
    refine ⟨tr', h1, h2.congr (fun x => ?_)⟩
    constructor
    · rintro (hw | ⟨i, j, ⟨u1, u2, u3, u4⟩, rfl⟩)
      · exact Or.inl hw
      · simp only at u1 u2 u3 u4
        exact Or.inr ⟨j - col, by omega, i - row, by omega, rfl⟩
    · rintro (hw | ⟨c, hc, r, hr, rfl⟩)
      · exact Or.inl hw
      · refine Or.inr ⟨row + r, col + c, ⟨by simp only; omega, by simp only; omega, by simp only; omega, by simp only; omega⟩, ?_⟩
        rw [Nat.add_sub_cancel_left, Nat.add_sub_cancel_left]

/-- The mask of a partial byte. -/
theorem mask_getLsbD (n i : Nat) (hn : n ≤ 8) (hi : i < 8) :
    (((1#32 <<< n) - 1#32).truncate 8 : BitVec 8).getLsbD i = decide (i < n) := by
  have key : ∀ n : Fin 9, ∀ i : Fin 8, (((1#32 <<< n.val) - 1#32).truncate 8 : BitVec 8).getLsbD i.val = decide (i.val < n.val) := by
    decide +kernel
  exact key ⟨n, by omega⟩ ⟨i, hi⟩

/-- The stores of a block, bitpacked output: bit `r` of the byte of column `c` is `bit c r`, or 0 past the last row. -/
theorem gStoreBits_emits {rows cols row col dst stride : Nat} {v : Nat → Nat → BitVec 8} {G : Nat → BitVec 8}
    (hrow : row < rows) (hcol : col < cols)
    (hG : ∀ c r, c < 4 → r < 8 → col + c < cols → (G (dst + c * stride)).getLsbD r = (decide (row + r < rows) && (v (20 + c) 0).getLsbD r))
    {tr : List (Write (BitVec 8))} {W : Nat → Prop} (h : Emits tr W G) :
    ∃ tr', gStoreBits v (min ((rows : Int) - row) 8) (min ((cols : Int) - col) 4) dst stride tr = some tr' ∧
      Emits tr' (fun x => W x ∨ ∃ i j, Blk.Cell ⟨row, row + 8, col, col + 4⟩ rows cols i j ∧
        x = dst + (j - col) * stride) G := by
  unfold gStoreBits
  by_cases hfit : min ((rows : Int) - row) 8 = 8 ∧ min ((cols : Int) - col) 4 = 4
  · rw [if_pos hfit]
    obtain ⟨tr', h1, h2⟩ := Emits.loop (n := 4) (s := tr) (G := G)
      (body := fun c tr => some (tr ++ [(dst + c * stride, v (20 + c) 0)]))
      (fun c x => x = dst + c * stride) h
      (by
        intro c W s hc hs
        refine ⟨_, rfl, hs.emit ?_⟩
        apply BitVec.eq_of_getLsbD_eq
        intro i hi
        rw [hG c i hc hi (by omega)]
        have : row + i < rows := by omega
        simp [this])
    refine ⟨tr', h1, h2.congr (fun x => ?_)⟩
    constructor
    · rintro (hw | ⟨i, j, ⟨u1, u2, u3, u4⟩, rfl⟩)
      · exact Or.inl hw
      · simp only at u1 u2 u3 u4
        exact Or.inr ⟨j - col, by omega, rfl⟩
    · rintro (hw | ⟨c, hc, rfl⟩)
      · exact Or.inl hw
      · refine Or.inr ⟨row, col + c, ⟨by simp only; omega, by simp only; omega, by simp only; omega, by simp only; omega⟩, ?_⟩
        rw [Nat.add_sub_cancel_left]
  · rw [if_neg hfit]
    have e1 : (min 4 (max 1 (min ((cols : Int) - col) 4))).toNat = min (cols - col) 4 := by omega
    have e2 : (min ((rows : Int) - row) 8).toNat = min (rows - row) 8 := by omega
    rw [e1, e2]
    obtain ⟨tr', h1, h2⟩ := Emits.loop (n := min (cols - col) 4) (s := tr) (G := G)
      (body := fun c tr => some (tr ++ [(dst + c * stride, v (20 + c) 0 &&& ((1#32 <<< (min (rows - row) 8)) - 1#32).truncate 8)]))
      (fun c x => x = dst + c * stride) h
      (by
        intro c W s hc hs
        refine ⟨_, rfl, hs.emit ?_⟩
        apply BitVec.eq_of_getLsbD_eq
        intro i hi
        rw [BitVec.getLsbD_and, mask_getLsbD _ _ (by omega) hi, hG c i (by omega) hi (by omega), Bool.and_comm]
        congr 1
        rw [decide_eq_decide]
        omega)
    refine ⟨tr', h1, h2.congr (fun x => ?_)⟩
    constructor
    · rintro (hw | ⟨i, j, ⟨u1, u2, u3, u4⟩, rfl⟩)
      · exact Or.inl hw
      · simp only at u1 u2 u3 u4
        exact Or.inr ⟨j - col, by omega, rfl⟩
    · rintro (hw | ⟨c, hc, rfl⟩)
      · exact Or.inl hw
      · refine Or.inr ⟨row, col + c, ⟨by simp only; omega, by simp only; omega, by simp only; omega, by simp only; omega⟩, ?_⟩
        rw [Nat.add_sub_cancel_left]

end Verif
