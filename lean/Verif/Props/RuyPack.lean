import Verif.Model.RuyPack

/-!
C43: packing the right-hand side for the 4x4 kernels.
-/

namespace Verif

/-- Specification: the index in the packed buffer of row `r`, column `c`: blocks of four columns are `4 * stride` words apart,
within such a block four rows of four columns form 16 consecutive words, column after column. -/
def packedPos (stride r c : Nat) : Nat := 4 * stride * (c / 4) + 16 * (r / 4) + 4 * (c % 4) + r % 4

/-- Specification: the element there: the matrix element, or zero outside the matrix. -/
def packedElem (src : List Word) (rows cols srcStride r c : Nat) : Word :=
  if r < rows ∧ c < cols then src[c * srcStride + r]?.getD 0#32 else 0#32

/-- Row and column of a packed index. -/
def posRow (stride i : Nat) : Nat := i % (4 * stride) / 16 * 4 + i % 4
/-- Column. -/
def posCol (stride i : Nat) : Nat := i / (4 * stride) * 4 + i % (4 * stride) % 16 / 4

theorem fills_memcpyW {src : List Word} {p : SrcPtr} {n d : Nat} {s0 s : List Word} {W : Nat → Prop} {f : Nat → Word}
    (h : Fills s0 s W f) (hd : d + n ≤ s0.length) (hr : ∀ i, i < n → p.read src i = some (f (d + i))) :
    ∃ s', memcpyW src p n s d = some s' ∧ Fills s0 s' (fun i => W i ∨ (d ≤ i ∧ i < d + n)) f := by
  unfold memcpyW
  obtain ⟨s', h1, h2⟩ := Fills.loop (n := n) (body := fun i dst => (p.read src i).bind fun x => wr dst (d + i) x)
    (fun k i => i = d + k) h (by
      intro k W s hk hf
      obtain ⟨s', hw, hf'⟩ := hf.write (i := d + k) (v := f (d + k)) (by omega) rfl
      exact ⟨s', by simp only [hr k hk, Option.bind_some, hw], hf'⟩)
  refine ⟨s', h1, h2.congr (fun i _ => ?_) fun _ _ _ => rfl⟩
  constructor
  · rintro (h | ⟨ha, hb⟩)
    · exact .inl h
    · exact .inr ⟨i - d, by omega, by omega⟩
  · rintro (h | ⟨k, hk, rfl⟩)
    · exact .inl h
    · exact .inr ⟨by omega, by omega⟩

theorem fills_memsetW {n d : Nat} {s0 s : List Word} {W : Nat → Prop} {f : Nat → Word}
    (h : Fills s0 s W f) (hd : d + n ≤ s0.length) (hr : ∀ i, i < n → f (d + i) = 0#32) :
    ∃ s', memsetW n s d = some s' ∧ Fills s0 s' (fun i => W i ∨ (d ≤ i ∧ i < d + n)) f := by
  unfold memsetW
  obtain ⟨s', h1, h2⟩ := Fills.loop (n := n) (body := fun i dst => wr dst (d + i) 0#32)
    (fun k i => i = d + k) h (by
      intro k W s hk hf
      obtain ⟨s', hw, hf'⟩ := hf.write (i := d + k) (v := 0#32) (by omega) (hr k hk).symm
      exact ⟨s', hw, hf'⟩)
  refine ⟨s', h1, h2.congr (fun i _ => ?_) fun _ _ _ => rfl⟩
  constructor
  · rintro (h | ⟨ha, hb⟩)
    · exact .inl h
    · exact .inr ⟨i - d, by omega, by omega⟩
  · rintro (h | ⟨k, hk, rfl⟩)
    · exact .inl h
    · exact .inr ⟨by omega, by omega⟩

/-- The pointer of column `c` after `k` row blocks. -/
def colPtr (srcStride cols c k : Nat) : SrcPtr := if c < cols then .mat (srcStride * c + 4 * k) else .zero 0
/-- Its increment. -/
def colInc (cols c : Nat) : Nat := if c < cols then 4 else 0

theorem colPtr_add (srcStride cols c k : Nat) :
    (colPtr srcStride cols c k).add (colInc cols c) = colPtr srcStride cols c (k + 1) := by
  unfold colPtr colInc
  split
  · unfold SrcPtr.add; simp only []; congr 1
  · rfl

theorem packPtrs_eq (srcStride cols bc : Nat) : packPtrs srcStride (cols : Int) (bc : Int) =
    ((colPtr srcStride cols bc 0, colInc cols bc), (colPtr srcStride cols (bc + 1) 0, colInc cols (bc + 1)),
     (colPtr srcStride cols (bc + 2) 0, colInc cols (bc + 2)), (colPtr srcStride cols (bc + 3) 0, colInc cols (bc + 3))) := by
  have e1 : srcStride * (bc + 1) = srcStride * bc + srcStride := by rw [Nat.mul_add, Nat.mul_one]
  have e2 : srcStride * (bc + 2) = srcStride * bc + srcStride + srcStride := by rw [Nat.mul_add]; omega
  have e3 : srcStride * (bc + 3) = srcStride * bc + srcStride + srcStride + srcStride := by rw [Nat.mul_add]; omega
  unfold packPtrs colPtr colInc
  simp only [SrcPtr.add, Int.toNat_natCast, e1, e2, e3, Nat.mul_zero, Nat.add_zero]
  by_cases h3 : bc + 3 < cols
  · rw [if_neg (by omega)]
    simp only [if_pos (show bc < cols by omega), if_pos (show bc + 1 < cols by omega), if_pos (show bc + 2 < cols by omega),
      if_pos h3]
  · rw [if_pos (by omega)]
    simp only [if_neg h3]
    by_cases h2 : bc + 2 < cols
    · simp only [if_neg (show ¬ ((bc : Int) ≥ cols - 0) by omega), if_neg (show ¬ ((bc : Int) ≥ cols - 1) by omega),
        if_neg (show ¬ ((bc : Int) ≥ cols - 2) by omega), if_pos (show bc < cols by omega),
        if_pos (show bc + 1 < cols by omega), if_pos h2]
    · simp only [if_neg h2, if_pos (show ((bc : Int) ≥ cols - 2) by omega)]
      by_cases h1 : bc + 1 < cols
      · simp only [if_neg (show ¬ ((bc : Int) ≥ cols - 0) by omega), if_neg (show ¬ ((bc : Int) ≥ cols - 1) by omega),
          if_pos (show bc < cols by omega), if_pos h1]
      · simp only [if_neg h1, if_pos (show ((bc : Int) ≥ cols - 1) by omega)]
        by_cases h0 : bc < cols
        · simp only [if_neg (show ¬ ((bc : Int) ≥ cols - 0) by omega), if_pos h0]
        · simp only [if_neg h0, if_pos (show ((bc : Int) ≥ cols - 0) by omega)]

theorem stridedCount_rows (rows : Nat) : stridedCount 0 ((rows : Int) - 3) 4 = rows / 4 := by
  unfold stridedCount; omega

section

variable {src : List Word} {rows cols srcStride stride : Nat}

/-- The function the packed buffer is filled with. -/
def packF (src : List Word) (rows cols srcStride stride : Nat) (i : Nat) : Word :=
  packedElem src rows cols srcStride (posRow stride i) (posCol stride i)

theorem packF_pos (hst : ceilDiv rows 4 * 4 ≤ stride) {r c : Nat} (hr : r / 4 < ceilDiv rows 4) :
    packF src rows cols srcStride stride (packedPos stride r c) = packedElem src rows cols srcStride r c := by
  have hlt : 16 * (r / 4) + 4 * (c % 4) + r % 4 < 4 * stride := by omega
  have h1 : packedPos stride r c / (4 * stride) = c / 4 := by
    unfold packedPos
    rw [show 4 * stride * (c / 4) + 16 * (r / 4) + 4 * (c % 4) + r % 4
      = (16 * (r / 4) + 4 * (c % 4) + r % 4) + 4 * stride * (c / 4) by omega]
    rw [Nat.add_mul_div_left _ _ (by omega), Nat.div_eq_of_lt hlt, Nat.zero_add]
  have h2 : packedPos stride r c % (4 * stride) = 16 * (r / 4) + 4 * (c % 4) + r % 4 := by
    unfold packedPos
    rw [show 4 * stride * (c / 4) + 16 * (r / 4) + 4 * (c % 4) + r % 4
      = (16 * (r / 4) + 4 * (c % 4) + r % 4) + 4 * stride * (c / 4) by omega]
    rw [Nat.add_mul_mod_self_left, Nat.mod_eq_of_lt hlt]
  have h3 : packedPos stride r c % 4 = r % 4 := by
    unfold packedPos
    rw [Nat.mul_assoc]
    omega
  unfold packF posRow posCol
  rw [h1, h2, h3]
  congr 1
  · omega
  · omega

theorem read_col (hsrc : ∀ r c, r < rows → c < cols → c * srcStride + r < src.length) {c k i : Nat} (hi : i < 4)
    (hr : 4 * k + i < rows) : (colPtr srcStride cols c k).read src i = some (packedElem src rows cols srcStride (4 * k + i) c) := by
  unfold colPtr packedElem
  by_cases hc : c < cols
  · rw [if_pos hc, if_pos ⟨hr, hc⟩]
    have := hsrc _ _ hr hc
    simp only [SrcPtr.read, rd]
    rw [show srcStride * c + 4 * k + i = c * srcStride + (4 * k + i) by rw [Nat.mul_comm]; omega,
      List.getElem?_eq_getElem this]
    rfl
  · rw [if_neg hc, if_neg fun h => hc h.2]
    simp only [SrcPtr.read, rd, Nat.zero_add]
    rw [List.getElem?_replicate, if_pos hi]

/-- Four words of one column at one row block. -/
theorem posIdx {bc j k i : Nat} (hb : bc % 4 = 0) (hj : j < 4) (hi : i < 4) :
    stride * bc + 16 * k + 4 * j + i = packedPos stride (4 * k + i) (bc + j) := by
  unfold packedPos
  have e1 : (bc + j) / 4 = bc / 4 := by omega
  have e2 : (bc + j) % 4 = j := by omega
  have e3 : (4 * k + i) / 4 = k := by omega
  have e4 : (4 * k + i) % 4 = i := by omega
  rw [e1, e2, e3, e4]
  have : 4 * stride * (bc / 4) = stride * bc := by
    rw [Nat.mul_comm 4 stride, Nat.mul_assoc]; congr 1; omega
  omega

theorem fills_packBlock (hsrc : ∀ r c, r < rows → c < cols → c * srcStride + r < src.length)
    (hst : ceilDiv rows 4 * 4 ≤ stride) {bc : Nat} (hb : bc % 4 = 0) {s0 s : List Word} {W : Nat → Prop}
    (hlen : stride * (bc + 4) ≤ s0.length)
    (h : Fills s0 s W (packF src rows cols srcStride stride)) :
    ∃ s', packBlock src rows cols srcStride stride bc s = some s' ∧
      Fills s0 s' (fun i => W i ∨ (stride * bc ≤ i ∧ i < stride * bc + 16 * ceilDiv rows 4))
        (packF src rows cols srcStride stride) := by
  have hcd : ceilDiv rows 4 = rows / 4 + if rows % 4 = 0 then 0 else 1 := by
    unfold ceilDiv; split <;> omega
  have hlen' : stride * bc + 16 * ceilDiv rows 4 ≤ s0.length := by
    rw [Nat.mul_add] at hlen; omega
  have cpy : ∀ {k j n : Nat} {s : List Word} {W : Nat → Prop}, j < 4 → n ≤ 4 → 4 * k + n ≤ rows →
      Fills s0 s W (packF src rows cols srcStride stride) →
      ∃ s', memcpyW src (colPtr srcStride cols (bc + j) k) n s (stride * bc + 16 * k + 4 * j) = some s' ∧
        Fills s0 s' (fun i => W i ∨ (stride * bc + 16 * k + 4 * j ≤ i ∧ i < stride * bc + 16 * k + 4 * j + n))
          (packF src rows cols srcStride stride) := by
    intro k j n s W hj hn hk hf
    have hkc : n = 0 ∨ k < ceilDiv rows 4 := by
      by_cases h0 : n = 0
      · exact .inl h0
      · right; unfold ceilDiv; omega
    rcases hkc with h0 | hkc
    · subst h0
      refine ⟨s, rfl, hf.congr (fun i _ => ?_) fun _ _ _ => rfl⟩
      constructor
      · rintro (h | h)
        · exact h
        · omega
      · exact .inl
    · refine fills_memcpyW hf (by omega) ?_
      intro i hi
      rw [posIdx hb hj (by omega), packF_pos hst (by omega)]
      exact read_col hsrc (by omega) (by omega)
  unfold packBlock
  rw [packPtrs_eq, stridedCount_rows]
  simp only []
  obtain ⟨st, h1, h2⟩ := forN_inv (n := rows / 4)
    (body := fun _ st => packRowBody src (colInc cols bc) (colInc cols (bc + 1)) (colInc cols (bc + 2)) (colInc cols (bc + 3)) st)
    (s := ((colPtr srcStride cols bc 0, colPtr srcStride cols (bc + 1) 0, colPtr srcStride cols (bc + 2) 0,
      colPtr srcStride cols (bc + 3) 0), stride * bc, s))
    (fun k st => st.1 = (colPtr srcStride cols bc k, colPtr srcStride cols (bc + 1) k, colPtr srcStride cols (bc + 2) k,
        colPtr srcStride cols (bc + 3) k) ∧ st.2.1 = stride * bc + 16 * k ∧
      Fills s0 st.2.2 (fun i => W i ∨ (stride * bc ≤ i ∧ i < stride * bc + 16 * k)) (packF src rows cols srcStride stride))
    ⟨rfl, rfl, h.congr (fun i _ => by constructor
                                      · rintro (h | h)
                                        · exact h
                                        · omega
                                      · exact .inl) fun _ _ _ => rfl⟩
    (by
      rintro k ⟨ps, pp, out⟩ hk ⟨hp, hpp, hf⟩
      simp only at hp hpp hf
      subst hp hpp
      obtain ⟨o0, a0, f0⟩ := cpy (k := k) (j := 0) (n := 4) (by omega) (by omega) (by omega) hf
      obtain ⟨o1, a1, f1⟩ := cpy (k := k) (j := 1) (n := 4) (by omega) (by omega) (by omega) f0
      obtain ⟨o2, a2, f2⟩ := cpy (k := k) (j := 2) (n := 4) (by omega) (by omega) (by omega) f1
      obtain ⟨o3, a3, f3⟩ := cpy (k := k) (j := 3) (n := 4) (by omega) (by omega) (by omega) f2
      refine ⟨(((colPtr srcStride cols bc k).add (colInc cols bc), (colPtr srcStride cols (bc + 1) k).add (colInc cols (bc + 1)),
        (colPtr srcStride cols (bc + 2) k).add (colInc cols (bc + 2)),
        (colPtr srcStride cols (bc + 3) k).add (colInc cols (bc + 3))), stride * bc + 16 * k + 4 * 4, o3), ?_, ?_, ?_, ?_⟩
      · unfold packRowBody
        simp only []
        simp only [Nat.add_zero, Nat.mul_zero, Nat.mul_one] at a0 a1
        rw [a0]; simp only [Option.bind_eq_bind, Option.bind_some]
        rw [a1]; simp only [Option.bind_some]
        rw [show 2 * 4 = 4 * 2 from rfl, a2]; simp only [Option.bind_some]
        rw [show 3 * 4 = 4 * 3 from rfl, a3]; simp only [Option.bind_some]
      · simp only [colPtr_add]
      · simp only []; omega
      · refine f3.congr (fun i _ => ?_) fun _ _ _ => rfl
        constructor
        · rintro (h | h)
          · exact .inl (.inl (.inl (.inl (.inl h))))
          · by_cases g : i < stride * bc + 16 * k
            · exact .inl (.inl (.inl (.inl (.inr ⟨h.1, g⟩))))
            · by_cases g0 : i < stride * bc + 16 * k + 4
              · exact .inl (.inl (.inl (.inr ⟨by omega, by omega⟩)))
              · by_cases g1 : i < stride * bc + 16 * k + 8
                · exact .inl (.inl (.inr ⟨by omega, by omega⟩))
                · by_cases g2 : i < stride * bc + 16 * k + 12
                  · exact .inl (.inr ⟨by omega, by omega⟩)
                  · exact .inr ⟨by omega, by omega⟩
        · rintro (((((h | h) | h) | h) | h) | h)
          · exact .inl h
          all_goals exact .inr ⟨by omega, by omega⟩)
  obtain ⟨ps, pp, out⟩ := st
  obtain ⟨hp, hpp, hf⟩ := h2
  simp only at hp hpp hf
  subst hp hpp
  rw [h1]
  simp only [Option.bind_eq_bind, Option.bind_some]
  unfold packTail
  by_cases hm : rows % 4 = 0
  · rw [if_neg (by omega)]
    refine ⟨out, rfl, hf.congr (fun i _ => ?_) fun _ _ _ => rfl⟩
    rw [hcd, if_pos hm, Nat.add_zero]
  · rw [if_pos hm]
    have hcd' : ceilDiv rows 4 = rows / 4 + 1 := by rw [hcd, if_neg hm]
    have zset : ∀ {j : Nat} {s : List Word} {W : Nat → Prop}, j < 4 →
        Fills s0 s W (packF src rows cols srcStride stride) →
        ∃ s', memsetW (4 - rows % 4) s (stride * bc + 16 * (rows / 4) + 4 * j + rows % 4) = some s' ∧
          Fills s0 s' (fun i => W i ∨ (stride * bc + 16 * (rows / 4) + 4 * j + rows % 4 ≤ i ∧
            i < stride * bc + 16 * (rows / 4) + 4 * j + 4)) (packF src rows cols srcStride stride) := by
      intro j s W hj hf
      obtain ⟨s', g1, g2⟩ := fills_memsetW (n := 4 - rows % 4) (d := stride * bc + 16 * (rows / 4) + 4 * j + rows % 4) hf
        (by omega) (by
          intro i hi
          rw [Nat.add_assoc, posIdx hb hj (by omega), packF_pos hst (by omega)]
          unfold packedElem
          rw [if_neg (by omega)])
      refine ⟨s', g1, g2.congr (fun i _ => ?_) fun _ _ _ => rfl⟩
      have : stride * bc + 16 * (rows / 4) + 4 * j + rows % 4 + (4 - rows % 4) = stride * bc + 16 * (rows / 4) + 4 * j + 4 := by
        omega
      rw [this]
    obtain ⟨o0, a0, f0⟩ := cpy (k := rows / 4) (j := 0) (n := rows % 4) (by omega) (by omega) (by omega) hf
    obtain ⟨z0, b0, g0⟩ := zset (j := 0) (by omega) f0
    obtain ⟨o1, a1, f1⟩ := cpy (k := rows / 4) (j := 1) (n := rows % 4) (by omega) (by omega) (by omega) g0
    obtain ⟨z1, b1, g1⟩ := zset (j := 1) (by omega) f1
    obtain ⟨o2, a2, f2⟩ := cpy (k := rows / 4) (j := 2) (n := rows % 4) (by omega) (by omega) (by omega) g1
    obtain ⟨z2, b2, g2⟩ := zset (j := 2) (by omega) f2
    obtain ⟨o3, a3, f3⟩ := cpy (k := rows / 4) (j := 3) (n := rows % 4) (by omega) (by omega) (by omega) g2
    obtain ⟨z3, b3, g3⟩ := zset (j := 3) (by omega) f3
    refine ⟨z3, ?_, ?_⟩
    · simp only [Nat.add_zero, Nat.mul_zero, Nat.mul_one] at a0 b0 a1 b1
      simp only [Option.bind_eq_bind]
      rw [a0]; simp only [Option.bind_some]
      rw [b0]; simp only [Option.bind_some]
      rw [a1]; simp only [Option.bind_some]
      rw [b1]; simp only [Option.bind_some]
      rw [show stride * bc + 16 * (rows / 4) + 4 + 4 = stride * bc + 16 * (rows / 4) + 4 * 2 from rfl, a2]
      simp only [Option.bind_some]
      rw [b2]; simp only [Option.bind_some]
      rw [show stride * bc + 16 * (rows / 4) + 4 * 2 + 4 = stride * bc + 16 * (rows / 4) + 4 * 3 from rfl, a3]
      simp only [Option.bind_some]
      exact b3
    · refine g3.congr (fun i _ => ?_) fun _ _ _ => rfl
      rw [hcd']
      constructor
      · rintro (h | h)
        · exact .inl (.inl (.inl (.inl (.inl (.inl (.inl (.inl (.inl h))))))))
        · by_cases c0 : i < stride * bc + 16 * (rows / 4)
          · exact .inl (.inl (.inl (.inl (.inl (.inl (.inl (.inl (.inr ⟨h.1, c0⟩))))))))
          by_cases c1 : i < stride * bc + 16 * (rows / 4) + 4 * 0 + rows % 4
          · exact .inl (.inl (.inl (.inl (.inl (.inl (.inl (.inr ⟨by omega, c1⟩)))))))
          by_cases c2 : i < stride * bc + 16 * (rows / 4) + 4 * 0 + 4
          · exact .inl (.inl (.inl (.inl (.inl (.inl (.inr ⟨by omega, c2⟩))))))
          by_cases c3 : i < stride * bc + 16 * (rows / 4) + 4 * 1 + rows % 4
          · exact .inl (.inl (.inl (.inl (.inl (.inr ⟨by omega, c3⟩)))))
          by_cases c4 : i < stride * bc + 16 * (rows / 4) + 4 * 1 + 4
          · exact .inl (.inl (.inl (.inl (.inr ⟨by omega, c4⟩))))
          by_cases c5 : i < stride * bc + 16 * (rows / 4) + 4 * 2 + rows % 4
          · exact .inl (.inl (.inl (.inr ⟨by omega, c5⟩)))
          by_cases c6 : i < stride * bc + 16 * (rows / 4) + 4 * 2 + 4
          · exact .inl (.inl (.inr ⟨by omega, c6⟩))
          by_cases c7 : i < stride * bc + 16 * (rows / 4) + 4 * 3 + rows % 4
          · exact .inl (.inr ⟨by omega, c7⟩)
          · exact .inr ⟨by omega, by omega⟩
      · rintro (((((((((h | h) | h) | h) | h) | h) | h) | h) | h) | h)
        · exact .inl h
        all_goals exact .inr ⟨by omega, by omega⟩

end

/-- **C43**. Let the source hold a `rows` x `cols` column-major matrix with column stride `srcStride`, and let the packed
buffer have column stride `stride`, at least `rows` rounded up to a multiple of 4, and room for `endCol` rounded up to a
multiple of 4 columns. Packing the columns from `startCol` (a multiple of 4) to `endCol` has no undefined behaviour (so
reads stay inside the matrix and writes inside the packed buffer); afterwards every row up to `rows` rounded up to 4 and
every packed column holds the matrix element at its place in the 4x4 blocks, or zero when the matrix has no such element;
and every other word of the buffer is as before. -/
theorem ruy_pack_exact (src : List Word) (rows cols srcStride stride startCol endCol : Nat) (out : List Word)
    (hsrc : ∀ r c, r < rows → c < cols → c * srcStride + r < src.length)
    (hst : ceilDiv rows 4 * 4 ≤ stride) (hstart : startCol % 4 = 0) (hlen : stride * (ceilDiv endCol 4 * 4) ≤ out.length) :
    ∃ out', ruyPack src rows cols srcStride stride startCol endCol out = some out' ∧ out'.length = out.length ∧
      (∀ r c, r < ceilDiv rows 4 * 4 → startCol ≤ c → c < ceilDiv endCol 4 * 4 →
        out'[packedPos stride r c]? = some (packedElem src rows cols srcStride r c)) ∧
      (∀ i, (∀ r c, r < ceilDiv rows 4 * 4 → startCol ≤ c → c < ceilDiv endCol 4 * 4 → i ≠ packedPos stride r c) →
        out'[i]? = out[i]?) := by
  have hcnt : ∀ b, b < stridedCount (startCol : Int) endCol 4 ↔ startCol + 4 * b < endCol := by
    intro b; unfold stridedCount; omega
  obtain ⟨s', h1, h2⟩ := Fills.loop (n := stridedCount (startCol : Int) endCol 4) (s0 := out) (s := out) (W0 := fun _ => False)
    (f := packF src rows cols srcStride stride)
    (body := fun b out => packBlock src rows cols srcStride stride (startCol + 4 * b) out)
    (fun b i => stride * (startCol + 4 * b) ≤ i ∧ i < stride * (startCol + 4 * b) + 16 * ceilDiv rows 4)
    (Fills.init out _ (by simp)) (by
      intro b W s hb hf
      have := (hcnt b).1 hb
      refine fills_packBlock hsrc hst (by omega) ?_ hf
      refine Nat.le_trans (Nat.mul_le_mul_left _ ?_) hlen
      unfold ceilDiv; omega)
  refine ⟨s', ?_, h2.len, ?_, ?_⟩
  · unfold ruyPack
    rw [if_neg (by omega)]
    exact h1
  · intro r c hr hc hc'
    have hpos : packedPos stride r c = stride * (c / 4 * 4) + 16 * (r / 4) + 4 * (c % 4) + r % 4 := by
      unfold packedPos
      rw [Nat.mul_comm 4 stride, Nat.mul_assoc, Nat.mul_comm 4 (c / 4)]
    have hW : stride * (c / 4 * 4) ≤ packedPos stride r c ∧
        packedPos stride r c < stride * (c / 4 * 4) + 16 * ceilDiv rows 4 := by
      rw [hpos]; omega
    have hlt : packedPos stride r c < out.length := by
      have e : stride * (c / 4 * 4 + 4) ≤ out.length := by
        refine Nat.le_trans (Nat.mul_le_mul_left _ ?_) hlen
        unfold ceilDiv at hc' ⊢; omega
      rw [Nat.mul_add] at e
      omega
    rw [h2.hit _ hlt (.inr ⟨c / 4 - startCol / 4, (hcnt _).2 (by unfold ceilDiv at hc'; omega), ?_⟩),
      packF_pos hst (by omega)]
    rw [show startCol + 4 * (c / 4 - startCol / 4) = c / 4 * 4 by omega]
    exact hW
  · intro i hi
    refine h2.miss i ?_
    rintro (h | ⟨b, hb, ha, hb'⟩)
    · exact h
    · have hbe := (hcnt b).1 hb
      let x := i - stride * (startCol + 4 * b)
      refine hi (x / 16 * 4 + x % 4) (startCol + 4 * b + x % 16 / 4) (by omega) (by omega) (by unfold ceilDiv; omega) ?_
      have := posIdx (stride := stride) (bc := startCol + 4 * b) (j := x % 16 / 4) (k := x / 16) (i := x % 4) (by omega)
        (by omega) (by omega)
      rw [show x / 16 * 4 + x % 4 = 4 * (x / 16) + x % 4 by omega, ← this]
      omega

/-- Distinct elements are at distinct places. -/
theorem packedPos_inj {rows stride r c r' c' : Nat} (hst : ceilDiv rows 4 * 4 ≤ stride) (hr : r < ceilDiv rows 4 * 4)
    (hr' : r' < ceilDiv rows 4 * 4) (h : packedPos stride r c = packedPos stride r' c') : r = r' ∧ c = c' := by
  have hs : 0 < 4 * stride := by omega
  unfold packedPos at h
  have key : c / 4 = c' / 4 := by
    have h1 : (16 * (r / 4) + 4 * (c % 4) + r % 4 + 4 * stride * (c / 4)) / (4 * stride) = c / 4 := by
      rw [Nat.add_mul_div_left _ _ hs, Nat.div_eq_of_lt (by omega), Nat.zero_add]
    have h2 : (16 * (r' / 4) + 4 * (c' % 4) + r' % 4 + 4 * stride * (c' / 4)) / (4 * stride) = c' / 4 := by
      rw [Nat.add_mul_div_left _ _ hs, Nat.div_eq_of_lt (by omega), Nat.zero_add]
    rw [← h1, ← h2]
    congr 1
    omega
  rw [key] at h
  omega

/-- A 5 x 3 matrix with stride 6 packed for 8 rows and 4 columns: the last column and the rows past 5 are zero. -/
example : ruyPack ((List.range 18).map fun i => BitVec.ofNat 32 (i + 1)) 5 3 6 8 0 3 (List.replicate 32 9#32) =
    some ([1, 2, 3, 4, 7, 8, 9, 10, 13, 14, 15, 16, 0, 0, 0, 0, 5, 0, 0, 0, 11, 0, 0, 0, 17, 0, 0, 0, 0, 0, 0, 0]) := by
  decide +kernel

end Verif
