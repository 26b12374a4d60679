import Verif.Proof.GemmA64Final

/-! The Aarch64 8x4 BGEMM kernel with too few multipliers or thresholds: it loads past their end. -/

namespace Verif

theorem doWhile_pres {σ : Type _} {cond : σ → Bool} {body : σ → Option σ} {P : σ → Prop}
    (h : ∀ s s', P s → body s = some s' → P s') : ∀ (fuel : Nat) (s s' : σ), P s → doWhile cond body fuel s = some s' → P s'
  | 0, _, _, _, he => by simp [doWhile] at he
  | n + 1, s, s', hp, he => by
    unfold doWhile at he
    rw [Option.bind_eq_some_iff] at he
    obtain ⟨s1, h1, h2⟩ := he
    have hp1 := h s s1 hp h1
    by_cases hc : cond s1 = true
    · rw [if_pos hc] at h2
      exact doWhile_pres h n s1 s' hp1 h2
    · rw [if_neg hc] at h2
      rw [← Option.some.inj h2]
      exact hp1

/-- A loop that can only go on. -/
theorem doWhile_none {σ : Type _} {cond : σ → Bool} {body : σ → Option σ} {I : σ → Prop}
    (h : ∀ s s', I s → body s = some s' → cond s' = true ∧ I s') : ∀ (fuel : Nat) (s : σ), I s → doWhile cond body fuel s = none
  | 0, _, _ => rfl
  | n + 1, s, hi => by
    unfold doWhile
    cases hb : body s with
    | none => rfl
    | some s' =>
      obtain ⟨h1, h2⟩ := h s s' hi hb
      rw [Option.bind_some, if_pos h1]
      exact doWhile_none h n s' h2

theorem foldl_and_all {l : List Bool} {b : Bool} (h : l.foldl (fun b p => b && p) b = true) : ∀ p ∈ l, p = true := by
  induction l generalizing b with
  | nil => simp
  | cons a l ih =>
    intro p hp
    rw [List.foldl_cons] at h
    rcases List.mem_cons.1 hp with rfl | hp
    · cases p
      · have : ∀ l : List Bool, l.foldl (fun b p => b && p) false = false := by
          intro l
          induction l with
          | nil => rfl
          | cons a l ih => rw [List.foldl_cons, Bool.false_and]; exact ih
        rw [Bool.and_false, this] at h
        cases h
      · rfl
    · exact ih h p hp

theorem g8_xor_x14 (F : FOps) (m : NMem) (o : NOps) (s : NState) : (nExecs F m o g8Xor s).x 14 = s.x 14 := by kernel_rfl

theorem g8Accum_x14 {F : FOps} {m : NMem} {depth : Nat} {s s' : NState} (h : g8Accum F m depth s = some s') : s'.x 14 = s.x 14 := by
  unfold g8Accum at h
  simp only [] at h
  rw [Option.map_eq_some_iff] at h
  obtain ⟨s1, h1, rfl⟩ := h
  rw [g8_tail_x14]
  by_cases hd : 4 = depth
  · rw [if_pos hd] at h1
    rw [← Option.some.inj h1, g8_xor_x14]
  · rw [if_neg hd, Option.map_eq_some_iff] at h1
    obtain ⟨t, h2, rfl⟩ := h1
    refine doWhile_pres (P := fun t : Nat × NState => t.2.x 14 = s.x 14) ?_ _ _ _ (g8_xor_x14 F m (gOps 0) s) h2
    intro t t' hp hb
    rw [← Option.some.inj hb]
    simp only []
    rw [g8_loop_x14, hp]

theorem gAdvance_x14 (kr : Nat) (P : GParams) (row col : Nat) (x : Nat → NAddr) : (gAdvance kr P row col x) 14 = x 14 := by
  unfold gAdvance
  by_cases g1 : (row : Int) ≥ P.lastRow
  · by_cases g2 : (col : Int) ≥ P.lastCol
    · simp [setX, g1, g2]
    · simp [setX, g1, g2]
  · simp [setX, g1]

section
variable {α : Type} {K : GKern α} {F : FOps} {m : NMem}

/-- The kernel does not end when a load in the step of the last rows is out of bounds. `J row` is an invariant of the states in
which the step of `row` begins. -/
theorem gKernel_none {J : Nat → NState → Prop} {P : GParams} {rl cl : Nat} (hrl : P.lastRow = rl) (hcl : P.lastCol = cl)
    (hpre : ∀ s : NState, s.x 10 = ⟨0, 4 * P.lhsBase⟩ → s.x 12 = ⟨0, 4 * P.lhsBase⟩ → s.x 14 = ⟨6, 0⟩ →
      J P.startRow (nExecs F m (gOps 0) K.pre s))
    (hstep : ∀ row col s s1, row ≠ rl → row < rl → J row s → K.acc F m P.depth s = some s1 →
      J (row + K.kr) (nExecs F m (gOps 0) K.zero (nExecs F m (gOps row) K.ot { s1 with x := gAdvance K.kr P row col s1.x })))
    (hbad : ∀ col s s1, J rl s → K.acc F m P.depth s = some s1 →
      (nExecs F m (gOps rl) K.ot { s1 with x := gAdvance K.kr P rl col s1.x }).ok = false)
    (hr : P.startRow ≤ rl) (hrm : (rl - P.startRow) % K.kr = 0) (hc : P.startCol ≤ cl)
    (v : Nat → Nat → BitVec 8) (x : Nat → NAddr) (tr : List (Write α)) : gKernel K F m P v x tr = none := by
  unfold gKernel
  simp only [Option.bind_eq_bind]
  rw [Option.bind_eq_none_iff]
  intro s hs
  have hs14 : J P.startRow s := by
    unfold nCheck at hs
    split at hs
    · rw [← Option.some.inj hs]
      exact hpre _ (by simp [setX]) (by simp [setX]) (by simp [setX])
    · cases hs
  rw [doWhile_none (I := fun t : GLoop α => J t.row t.s ∧ t.row ≤ rl ∧ (rl - t.row) % K.kr = 0 ∧ t.col = P.startCol) ?_]
  · rfl
  · exact ⟨hs14, hr, hrm, rfl⟩
  · rintro t t' ⟨i1, i2, i3, i4⟩ hb
    unfold gStep at hb
    simp only [Option.bind_eq_bind, Option.bind_eq_some_iff] at hb
    obtain ⟨s1, h1, s2, h2, tr', h3, h4⟩ := hb
    have hne : t.row ≠ rl := by
      intro he
      rw [he] at h2 i1
      unfold nCheck at h2
      rw [hbad t.col t.s s1 i1 h1] at h2
      cases h2
    have hnx := hstep t.row t.col t.s s1 hne (by omega) i1 h1
    rw [hrl, if_neg (by omega)] at h4
    have h4 := Option.some.inj h4
    have hs2 : s2 = nExecs F m (gOps t.row) K.ot { s1 with x := gAdvance K.kr P t.row t.col s1.x } := by
      unfold nCheck at h2
      split at h2
      · exact (Option.some.inj h2).symm
      · cases h2
    have hd := Nat.div_add_mod (rl - t.row) K.kr
    have hq : K.kr ≤ rl - t.row := by
      rcases Nat.eq_zero_or_pos ((rl - t.row) / K.kr) with h0 | h0
      · rw [h0] at hd; omega
      · have := Nat.mul_le_mul_left K.kr h0
        omega
    subst h4
    refine ⟨?_, ?_, ?_, ?_, i4⟩
    · simp only [decide_eq_true_eq, i4, hcl]; omega
    · simp only []; rw [hs2]; exact hnx
    · simp only []; omega
    · simp only []
      have e : rl - (t.row + K.kr) = rl - t.row - K.kr := by omega
      have e2 := Nat.mod_eq_sub_mod hq
      rw [e, ← e2, i3]

end

/-- A schedule whose kernel fails on blocks that reach the last rows. -/
theorem runTyped_none {α : Type} {fat : Bool} {rows cols kr kc : Nat} (hkr : 0 < kr) (hkc : 0 < kc)
    {kernel : Blk → List (Write α) → Option (List (Write α))}
    (hk : ∀ (b : Blk) (tr : List (Write α)), b.Good rows cols kr kc → rows ≤ b.r1 → kernel b tr = none)
    {b : Blk} (hg : b.Good rows cols kr kc) (hr : rows ≤ b.r1) (tr : List (Write α)) :
    runTyped fat kr kc kernel b tr = none := by
  unfold runTyped
  cases fat
  · simp only [Bool.false_eq_true, if_false]
    have hc0 : 0 < ceilDiv (b.c1 - b.c0) kc := by
      have := ceilDiv_mul_ge (b.c1 - b.c0) kc hkc
      rcases Nat.eq_zero_or_pos (ceilDiv (b.c1 - b.c0) kc) with h | h
      · rw [h] at this; have := hg.c; omega
      · exact h
    have hr0 : 0 < ceilDiv (b.r1 - b.r0) kr := by
      have := ceilDiv_mul_ge (b.r1 - b.r0) kr hkr
      rcases Nat.eq_zero_or_pos (ceilDiv (b.r1 - b.r0) kr) with h | h
      · rw [h] at this; have := hg.r; omega
      · exact h
    obtain ⟨nc, hnc⟩ := Nat.exists_eq_succ_of_ne_zero (Nat.pos_iff_ne_zero.1 hc0)
    obtain ⟨nr, hnr⟩ := Nat.exists_eq_succ_of_ne_zero (Nat.pos_iff_ne_zero.1 hr0)
    rw [hnc, hnr, forN_succ]
    rw [Option.bind_eq_none_iff]
    intro tr1 _
    rw [forN_succ, Option.bind_eq_none_iff]
    intro tr2 _
    obtain ⟨a1, a2, a3, a4⟩ := good_sub hkr hg.r0 hg.r1 (q := nr) (by omega) hg.rr
    obtain ⟨b1, b2, b3, b4⟩ := good_sub hkc hg.c0 hg.c1 (q := nc) (by omega) hg.cc
    refine hk _ tr2 ⟨a1, a2, b1, b2, a3, b3, a4, b4⟩ ?_
    have := ceilDiv_mul_ge (b.r1 - b.r0) kr hkr
    rw [hnr, Nat.succ_mul] at this
    show rows ≤ min _ _
    omega
  · exact hk b tr hg hr

theorem scheduleTraces_none {α : Type} {kernel : Blk → List (Write α) → Option (List (Write α))} {blocks : List Blk} {b : Blk}
    (hb : b ∈ blocks) (h : kernel b [] = none) : scheduleTraces kernel blocks = none := by
  unfold scheduleTraces
  induction blocks with
  | nil => cases hb
  | cons a l ih =>
    rw [List.mapM_cons]
    rcases List.mem_cons.1 hb with rfl | hb
    · rw [h]; rfl
    · rw [ih hb]
      cases kernel a [] <;> rfl

/-- The last block of rows of a `rows`-row destination, with a kernel of 8 rows. -/
theorem last_rows {rows b1 : Nat} (h : b1 % 8 = 0) (h1 : rows ≤ b1) (h2 : b1 < rows + 8) : b1 = ceilMul rows 8 := by
  unfold ceilMul ceilDiv
  omega

/-- The 8x4 kernels do not end on a block with the last rows if `ceilMul rows 8` is more than the multipliers or thresholds. -/
theorem gRun8_none {α : Type} {bits : Bool} {K : GKern α} {E : GemmEnv} {rows cols k : Nat} {lhs rhs : List Word} (h8 : K.kr = 8)
    (hpre : ∀ m s, (nExecs E.F m (gOps 0) K.pre s).x 14 = s.x 14) (hacc : K.acc = g8Accum)
    (hot : ∀ m o s, (nExecs E.F m o K.ot s).x 14 = s.x 14) (hzero : ∀ m s, (nExecs E.F m (gOps 0) K.zero s).x 14 = s.x 14)
    (hbad : ∀ m o s, s.x 14 = ⟨6, 0⟩ → m.ptr = gPtr bits → m.size 4 < 4 * o.cIdx + 32 → (nExecs E.F m o K.ot s).ok = false)
    (hm : E.mult.length < ceilMul rows 8) {b : Blk} {tr : List (Write α)} (hg : b.Good rows cols 8 4) (hr : rows ≤ b.r1) :
    gRun bits K E rows cols k lhs rhs b tr = none := by
  have hl := last_rows hg.r1 hr hg.rr
  have a1 := hg.r0
  have a2 := hg.r1
  have a3 := hg.r
  have a4 := hg.c0
  have a5 := hg.c1
  have a6 := hg.c
  unfold gRun
  refine gKernel_none (J := fun _ s => s.x 14 = ⟨6, 0⟩) (rl := b.r1 - 8) (cl := b.c1 - 4) ?_ ?_ (fun s _ _ h => by rw [hpre, h])
    (fun row col s s1 _ _ hJ h => ?_) (fun col s s1 hJ h => ?_) ?_ ?_ ?_ _ _ _
  · show (b.r1 : Int) - (K.kr : Int) = _
    rw [h8]; omega
  · show (b.c1 : Int) - 4 = _
    omega
  · rw [hacc] at h
    rw [hzero, hot]
    exact (gAdvance_x14 _ _ _ _ _).trans ((g8Accum_x14 h).trans hJ)
  · rw [hacc] at h
    refine hbad _ _ _ ((gAdvance_x14 _ _ _ _ _).trans ((g8Accum_x14 h).trans hJ)) rfl ?_
    rw [gMem_size]
    show 4 * E.mult.length < 4 * (b.r1 - 8) + 32
    omega
  · show b.r0 ≤ _
    omega
  · rw [h8]
    show (b.r1 - 8 - b.r0) % 8 = 0
    omega
  · show b.c0 ≤ _
    omega

section
variable (F : FOps) (m : NMem) (o : NOps) (s : NState)

theorem g8_otF_bad (h14 : s.x 14 = ⟨6, 0⟩) (hp : m.ptr = gPtr false) (h4 : m.size 4 < 4 * o.cIdx + 32) :
    (nExecs F m o g8OtF s).ok = false := by
  rw [g8_otF_okList]
  by_contra hn
  have := foldl_and_all (Bool.eq_true_of_not_eq_false hn)
    (decide ((m.ptr (s.x 14).obj ((s.x 14).off + 72)).off + 4 * o.cIdx + 16 + 16 ≤ m.size (m.ptr (s.x 14).obj ((s.x 14).off + 72)).obj))
    (by unfold g8OtOkList; simp)
  rw [h14, hp] at this
  have e : gPtr false 6 (0 + 72) = ⟨4, 0⟩ := rfl
  simp only [e, decide_eq_true_eq] at this
  omega

theorem g8_otI_bad (h14 : s.x 14 = ⟨6, 0⟩) (hp : m.ptr = gPtr false) (h4 : m.size 4 < 4 * o.cIdx + 32) :
    (nExecs F m o g8OtI s).ok = false := by
  rw [g8_otI_okList, ← g8_otF_okList F]
  exact g8_otF_bad F m o s h14 hp h4

theorem g8_otB_bad (h14 : s.x 14 = ⟨6, 0⟩) (hp : m.ptr = gPtr true) (h4 : m.size 4 < 4 * o.cIdx + 32) :
    (nExecs F m o g8OtB s).ok = false := by
  rw [g8_otB_okList]
  by_contra hn
  have := foldl_and_all (Bool.eq_true_of_not_eq_false hn)
    (decide ((m.ptr (s.x 14).obj ((s.x 14).off + 64)).off + 4 * o.cIdx + 16 + 16 ≤ m.size (m.ptr (s.x 14).obj ((s.x 14).off + 64)).obj))
    (by unfold g8OtBOkList; simp)
  rw [h14, hp] at this
  have e : gPtr true 6 (0 + 64) = ⟨4, 0⟩ := rfl
  simp only [e, decide_eq_true_eq] at this
  omega

end

/-! ### The streaming 4x4 kernel -/

theorem doWhile_last {σ : Type _} {cond : σ → Bool} {body : σ → Option σ} {P : σ → Prop}
    (h : ∀ s s', P s → body s = some s' → P s') : ∀ (fuel : Nat) (s s' : σ), P s → doWhile cond body fuel s = some s' →
      (∃ s0, P s0 ∧ body s0 = some s') ∧ cond s' = false
  | 0, _, _, _, he => by simp [doWhile] at he
  | n + 1, s, s', hp, he => by
    unfold doWhile at he
    rw [Option.bind_eq_some_iff] at he
    obtain ⟨s1, h1, h2⟩ := he
    have hp1 := h s s1 hp h1
    by_cases hc : cond s1 = true
    · rw [if_pos hc] at h2
      exact doWhile_last h n s1 s' hp1 h2
    · rw [if_neg hc] at h2
      rw [← Option.some.inj h2]
      exact ⟨⟨s, hp, h1⟩, by simpa using hc⟩

section
variable (F : FOps) (m : NMem) (o : NOps) (s : NState)

theorem g4_loop_bound (h : (nExecs F m o g4Loop s).ok = true) : (s.x 10).off + 64 ≤ m.size (s.x 10).obj := by
  rw [g4_loop_okList] at h
  have := foldl_and_all h (decide ((s.x 10).off + 48 + 16 ≤ m.size (s.x 10).obj)) (by unfold g4LoopOkList; simp)
  rw [decide_eq_true_eq] at this
  omega

end

/-- With the streaming loop and a bad depth the kernel ends with all loads in bounds only if there are two blocks more. -/
theorem g4Accum_over {F : FOps} {m : NMem} {depth l : Nat} {s s' : NState} (h4 : depth % 4 = 0) (hd : 8 ≤ depth)
    (hbad : depth = 8 ∨ depth % 8 = 4) (h10 : s.x 10 = ⟨0, l + 64⟩) (h : g4Accum true F m depth s = some s') :
    s'.x 12 = s.x 12 ∧ (s'.ok = true → l + 16 * depth + 128 ≤ m.size 0) := by
  unfold g4Accum at h
  simp only [Bool.true_and, decide_eq_true hd, if_true, Option.bind_eq_bind, Option.bind_eq_some_iff] at h
  obtain ⟨⟨w1, s1⟩, h1, h2⟩ := h
  rw [Option.map_eq_some_iff] at h1
  obtain ⟨t, ht, hs1⟩ := h1
  cases hs1
  -- the streaming loop
  have hst : t.1 % 8 = 0 ∧ 16 ≤ t.1 ∧ t.2.x 10 = ⟨0, l + 16 * t.1⟩ ∧ t.2.x 12 = s.x 12 ∧ depth / 4 * 4 ≤ t.1 := by
    obtain ⟨⟨t0, ⟨p1, p2, p3, p4⟩, hb⟩, hc⟩ := doWhile_last
      (P := fun t : Nat × NState => t.1 % 8 = 0 ∧ 8 ≤ t.1 ∧ t.2.x 10 = ⟨0, l + 16 * t.1⟩ ∧ t.2.x 12 = s.x 12)
      (by
        rintro t t' ⟨p1, p2, p3, p4⟩ hb
        rw [← Option.some.inj hb]
        refine ⟨by simp only []; omega, by simp only []; omega, ?_, ?_⟩
        · simp only []
          rw [g4_stream_x10, p3]
          unfold NAddr.add
          simp only [NAddr.mk.injEq, true_and]
          omega
        · simp only []
          rw [g4_stream_x _ _ _ _ 12 (Or.inl rfl), p4]) _ _ _
      (by
        refine ⟨Nat.mod_self 8, Nat.le_refl _, ?_, ?_⟩
        · simp only []
          rw [g4_load_x10, g4_first_x, h10]
          unfold NAddr.add
          simp only [NAddr.mk.injEq, true_and]
        · simp only []
          rw [g4_load_x _ _ _ _ 12 (Or.inl rfl), g4_first_x]) ht
    rw [decide_eq_false_iff_not] at hc
    rw [← Option.some.inj hb] at hc ⊢
    simp only [] at hc ⊢
    refine ⟨by omega, by omega, ?_, ?_, by omega⟩
    · rw [g4_stream_x10, p3]
      unfold NAddr.add
      simp only [NAddr.mk.injEq, true_and]
      omega
    · rw [g4_stream_x _ _ _ _ 12 (Or.inl rfl), p4]
  obtain ⟨q1, q2, q3, q4, q5⟩ := hst
  simp only [] at h2
  rw [Option.map_eq_some_iff] at h2
  obtain ⟨s2, h3, rfl⟩ := h2
  rw [if_neg (by omega), Option.map_eq_some_iff] at h3
  obtain ⟨u, hu, rfl⟩ := h3
  obtain ⟨⟨t0, ⟨p1, p2, p3⟩, hb⟩, hc⟩ := doWhile_last
    (P := fun u : Nat × NState => t.1 ≤ u.1 ∧ u.2.x 10 = ⟨0, l + 16 * u.1⟩ ∧ u.2.x 12 = s.x 12)
    (by
      rintro t t' ⟨p2, p3, p4⟩ hb
      rw [← Option.some.inj hb]
      refine ⟨by simp only []; omega, ?_, ?_⟩
      · simp only []
        rw [(g4_loop F m (gOps 0) t.2).xl, p3]
        unfold NAddr.add
        simp only [NAddr.mk.injEq, true_and]
        omega
      · simp only []
        rw [(g4_loop F m (gOps 0) t.2).x12, p4]) _ _ _
    (by
      refine ⟨Nat.le_refl _, ?_, ?_⟩
      · simp only []
        rw [g4_stail_x, q3]
      · simp only []
        rw [g4_stail_x, q4]) hu
  rw [g4_tail_x, g4_tail_ok]
  rw [← Option.some.inj hb]
  simp only []
  refine ⟨by rw [(g4_loop F m (gOps 0) t0.2).x12, p3], ?_⟩
  intro hok
  have := g4_loop_bound F m (gOps 0) t0.2 hok
  rw [p2] at this
  simp only [] at this
  omega

/-- The 4x4 kernel does not end on a block with the last rows if the two blocks it reads too much are not there. -/
theorem gRun4_none {α : Type} {ot : List NInstr} {st : (Nat → Nat → BitVec 8) → Int → Int → Nat → Nat → List (Write α) → Option (List (Write α))}
    {E : GemmEnv} {rows cols k : Nat} {lhs rhs : List Word}
    (hot : ∀ m o s, G4Loaded m s (nExecs E.F m o ot s))
    (hok : ∀ m o s, (nExecs E.F m o ot s).ok = (g4OtOkList m o s).foldl (fun b p => b && p) s.ok)
    (hd : 8 ≤ ceilMul k 4) (hbad : ceilMul k 4 = 8 ∨ ceilMul k 4 % 8 = 4) (hx : 4 * E.ls + E.xl.length < 4 * ceilMul k 4 + 32)
    {b : Blk} {tr : List (Write α)} (hg : b.Good rows cols 4 4) (hr : rows ≤ b.r1) :
    gRun false ⟨4, g4Pre, g4Accum true, ot, g4Zero, st, 4⟩ E rows cols k lhs rhs b tr = none := by
  obtain ⟨k1, k2, k3, k4⟩ := ceilMul4_eq k
  have a1 := hg.r0
  have a2 := hg.r1
  have a3 := hg.r
  have a4 := hg.c0
  have a5 := hg.c1
  have a6 := hg.c
  have hl : b.r1 = ceilMul rows 4 := by
    have := hg.rr
    unfold ceilMul ceilDiv
    omega
  unfold gRun
  refine gKernel_none (J := fun row s => s.x 10 = ⟨0, 4 * (row * E.ls) + 64⟩ ∧ s.x 12 = ⟨0, 4 * (row * E.ls)⟩)
    (rl := b.r1 - 4) (cl := b.c1 - 4) ?_ ?_ ?_ ?_ ?_ ?_ ?_ ?_ _ _ _
  · show (b.r1 : Int) - ((4 : Nat) : Int) = _
    omega
  · show (b.c1 : Int) - 4 = _
    omega
  · intro s e10 e12 _
    have hp := g4_pre E.F (gMem false (gPacked 4 k rows k E.ls lhs) E.xl (gPacked 4 k cols k E.rs rhs) E.xr E.mult E.bias E.cmin E.cmax) (gOps 0) s
    refine ⟨?_, ?_⟩
    · refine hp.xl.trans ?_
      rw [e10]
      rfl
    · refine hp.x12.trans ?_
      rw [e12]
      rfl
  · intro row col s s1 hne hlt ⟨j1, j2⟩ h
    obtain ⟨c1, _⟩ := g4Accum_over k4 hd hbad j1 h
    have hx12 : gAdvance 4 (mkGParams false 4 rows cols (ceilMul k 4) E.ls E.rs b) row col s1.x 12 = ⟨0, 4 * ((row + 4) * E.ls)⟩ := by
      unfold gAdvance
      have g1 : ¬ ((row : Int) ≥ (mkGParams false 4 rows cols (ceilMul k 4) E.ls E.rs b).lastRow) := by
        show ¬ ((row : Int) ≥ (b.r1 : Int) - ((4 : Nat) : Int))
        omega
      simp only [if_neg g1]
      simp only [setX]
      simp only [Nat.reduceEqDiff, if_false, if_true]
      rw [c1, j2]
      unfold NAddr.add
      simp only [NAddr.mk.injEq, true_and]
      show 4 * (row * E.ls) + 4 * E.ls * 4 = _
      ring
    have hx10 : gAdvance 4 (mkGParams false 4 rows cols (ceilMul k 4) E.ls E.rs b) row col s1.x 10 = ⟨0, 4 * ((row + 4) * E.ls)⟩ := by
      rw [← hx12]
      simp [gAdvance, setX]
    simp only []
    rw [g4_zero_x]
    refine ⟨?_, ?_⟩
    · rw [(hot _ _ _).xl]
      simp only []
      rw [hx10]
      rfl
    · rw [(hot _ _ _).x12]
      exact hx12
  · intro col s s1 ⟨j1, j2⟩ h
    obtain ⟨_, c2⟩ := g4Accum_over k4 hd hbad j1 h
    by_contra hn
    have hn := Bool.eq_true_of_not_eq_false hn
    simp only [] at hn
    rw [hok] at hn
    have hs1 : s1.ok = true := by
      generalize g4OtOkList _ _ _ = L at hn
      simp only [] at hn
      cases hb : s1.ok
      · rw [hb] at hn
        exfalso
        clear * - hn
        induction L with
        | nil => cases hn
        | cons a L ih => rw [List.foldl_cons, Bool.false_and] at hn; exact ih hn
      · rfl
    have hsz := c2 hs1
    rw [gMem_size] at hsz
    simp only [gWords, if_true, List.length_append, gPacked_length] at hsz
    rw [← hl] at hsz
    have e : b.r1 = (b.r1 - 4) + 4 := by omega
    have e2 : b.r1 * E.ls = (b.r1 - 4) * E.ls + 4 * E.ls := by
      conv_lhs => rw [e]
      rw [Nat.add_mul]
    omega
  · show b.r0 ≤ _
    omega
  · show (b.r1 - 4 - b.r0) % 4 = 0
    omega
  · show b.c0 ≤ _
    omega

end Verif
