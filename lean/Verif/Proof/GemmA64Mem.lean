import Verif.Proof.GemmA64Facts
import Verif.Proof.Im2col

/-! What the memory of an Aarch64 BGEMM kernel contains, and the accumulators in terms of the source matrices. -/

namespace Verif

open Finset

section
variable {bits : Bool} {lhs xl rhs xr mult bias : List Word} {cmin cmax : Int}

theorem gMem_word (o n : Nat) :
    (gMem bits lhs xl rhs xr mult bias cmin cmax).word ⟨o, 4 * n⟩
      = ((gWords lhs xl rhs xr mult bias cmin cmax o)[n]?).getD 0#32 := by
  unfold NMem.word
  apply laneWord_wordByte
  intro j hj
  unfold gMem
  simp only []
  have e1 : (4 * n + (4 * 0 + j)) / 4 = n := by omega
  have e2 : (4 * n + (4 * 0 + j)) % 4 = j := by omega
  rw [e1, e2]

/-- The accumulators, word by word. -/
theorem gSum_words (kr nb l r c i : Nat) :
    gSum (gMem bits lhs xl rhs xr mult bias cmin cmax) kr nb (4 * l) (4 * r) c i
      = ∑ d ∈ range (4 * nb), xorPopcount (((lhs ++ xl)[l + 4 * kr * (d / 4) + 4 * i + d % 4]?).getD 0#32)
          (((rhs ++ xr)[r + 16 * (d / 4) + 4 * c + d % 4]?).getD 0#32) := by
  unfold gSum
  rw [sum_range_mul nb 4]
  apply sum_congr rfl
  intro n _
  unfold gS
  refine Eq.trans (sum_range_mul 4 4 _) ?_
  apply sum_congr rfl
  intro k hk
  have hk : k < 4 := by simpa using hk
  rw [xorPopcount_comm, xorPopcount_bytes]
  apply sum_congr rfl
  intro j hj
  have hj : j < 4 := by simpa using hj
  have d1 : (4 * n + k) / 4 = n := by omega
  have d2 : (4 * n + k) % 4 = k := by omega
  rw [d1, d2]
  unfold gMem
  simp only
  have e1 : (4 * r + 64 * n + 16 * c + (4 * k + j)) / 4 = r + 16 * n + 4 * c + k := by omega
  have e2 : (4 * r + 64 * n + 16 * c + (4 * k + j)) % 4 = j := by omega
  have e3 : 4 * l + 16 * kr * n + 16 * i + (4 * k + j) = 4 * (l + 4 * kr * n + 4 * i + k) + j := by ring
  have e4 : (4 * (l + 4 * kr * n + 4 * i + k) + j) / 4 = l + 4 * kr * n + 4 * i + k := by omega
  have e5 : (4 * (l + 4 * kr * n + 4 * i + k) + j) % 4 = j := by omega
  rw [e1, e2, e3, e4, e5]
  rfl

end

theorem gPacked_length (kc rows cols srcStride stride : Nat) (src : List Word) :
    (gPacked kc rows cols srcStride stride src).length = ceilMul cols kc * stride := by
  simp [gPacked]

theorem ceilMul_aligned {a kc n : Nat} (hkc : 0 < kc) (ha : a % kc = 0) (h : a < n) : a + kc ≤ ceilMul n kc := by
  obtain ⟨q, rfl⟩ := Nat.dvd_of_mod_eq_zero ha
  have h1 : q < ceilDiv n kc := by
    have := ceilDiv_mul_ge n kc hkc
    by_contra hn
    have := Nat.mul_le_mul_right kc (Nat.le_of_not_lt hn)
    rw [Nat.mul_comm q kc] at this
    omega
  have h2 := Nat.mul_le_mul_right kc (Nat.succ_le_of_lt h1)
  rw [Nat.succ_mul, Nat.mul_comm q kc] at h2
  exact h2

/-- An element of a packed matrix, in the block of columns from `col`. -/
theorem gPacked_get {kc rows cols srcStride stride : Nat} {src : List Word} (hkc : 0 < kc) (hk4 : kc % 4 = 0) {col c d : Nat}
    (hcol : col % kc = 0) (hcc : col < cols) (hc : c < kc) (hd : d / 4 * 4 + 4 ≤ stride) :
    (gPacked kc rows cols srcStride stride src)[col * stride + 4 * kc * (d / 4) + 4 * c + d % 4]?
      = some (if d < rows ∧ col + c < cols then (src[(col + c) * srcStride + d]?).getD 0#32 else 0#32) := by
  have hal := ceilMul_aligned hkc hcol hcc
  obtain ⟨q, rfl⟩ := Nat.dvd_of_mod_eq_zero hcol
  have hin : 4 * kc * (d / 4) + 4 * c + d % 4 < kc * stride := by
    have h1 : kc * (d / 4 * 4 + 4) ≤ kc * stride := Nat.mul_le_mul_left _ hd
    have h2 : kc * (d / 4 * 4 + 4) = 4 * kc * (d / 4) + 4 * kc := by ring
    omega
  have hlt : kc * q * stride + 4 * kc * (d / 4) + 4 * c + d % 4 < ceilMul cols kc * stride := by
    have h1 : (kc * q + kc) * stride ≤ ceilMul cols kc * stride := Nat.mul_le_mul_right _ hal
    rw [Nat.add_mul] at h1
    omega
  have ei : kc * q * stride + 4 * kc * (d / 4) + 4 * c + d % 4 = q * (kc * stride) + (4 * kc * (d / 4) + 4 * c + d % 4) := by ring
  have em : (4 * c + d % 4) < 4 * kc := by omega
  have e4 : 4 * kc * (d / 4) + 4 * c + d % 4 = (d / 4) * (4 * kc) + (4 * c + d % 4) := by ring
  have emod4 : (q * (kc * stride) + (4 * kc * (d / 4) + 4 * c + d % 4)) % 4 = d % 4 := by
    obtain ⟨k', rfl⟩ := Nat.dvd_of_mod_eq_zero hk4
    have : q * (4 * k' * stride) + (4 * (4 * k') * (d / 4) + 4 * c + d % 4) = 4 * (q * k' * stride + 4 * k' * (d / 4) + c) + d % 4 := by ring
    rw [this]
    omega
  unfold gPacked
  rw [List.getElem?_map, List.getElem?_range hlt, Option.map_some]
  rw [ei, (div_mod_row hin).1, (div_mod_row hin).2, emod4, e4, (div_mod_row em).1, (div_mod_row em).2]
  have e5 : (4 * c + d % 4) / 4 = c := by omega
  have e6 : d / 4 * 4 + d % 4 = d := by omega
  rw [e5, e6, Nat.mul_comm q kc]

/-- The entry `(i, j)` of the product: Σ of the differing bits of column `i` of the LHS and column `j` of the RHS, `k` words each. -/
def gemmNat (k : Nat) (lhs rhs : List Word) (i j : Nat) : Nat :=
  ∑ d ∈ range k, xorPopcount ((lhs[i * k + d]?).getD 0#32) ((rhs[j * k + d]?).getD 0#32)

section
variable {bits : Bool} {kr rows cols k ls rs : Nat} {lhs xl rhs xr mult bias : List Word} {cmin cmax : Int}

theorem ceilMul4_eq (k : Nat) : ceilMul k 4 = 4 * (ceilMul k 4 / 4) ∧ k ≤ ceilMul k 4 ∧ ceilMul k 4 < k + 4 ∧ ceilMul k 4 % 4 = 0 := by
  unfold ceilMul ceilDiv
  omega

/-- When the kernel adds up as many blocks as the matrices have, the accumulator is the entry of the product. -/
theorem gSum_gemm (hkr : kr = 4 ∨ kr = 8) (hls : ceilMul k 4 ≤ ls) (hrs : ceilMul k 4 ≤ rs) {row col i c : Nat}
    (hrow : row % kr = 0) (hcol : col % 4 = 0) (hi : i < kr) (hc : c < 4) (hri : row + i < rows) (hcj : col + c < cols) :
    gSum (gMem bits (gPacked kr k rows k ls lhs) xl (gPacked 4 k cols k rs rhs) xr mult bias cmin cmax) kr (ceilMul k 4 / 4)
        (4 * (row * ls)) (4 * (col * rs)) c i
      = gemmNat k lhs rhs (row + i) (col + c) := by
  obtain ⟨k1, k2, k3, _⟩ := ceilMul4_eq k
  rw [gSum_words, ← k1]
  have hL : ∀ d, d < ceilMul k 4 → ((gPacked kr k rows k ls lhs ++ xl)[row * ls + 4 * kr * (d / 4) + 4 * i + d % 4]?).getD 0#32
      = if d < k then (lhs[(row + i) * k + d]?).getD 0#32 else 0#32 := by
    intro d hd
    have := gPacked_get (rows := k) (cols := rows) (srcStride := k) (stride := ls) (src := lhs) (kc := kr) (col := row) (c := i) (d := d)
      (by omega) (by omega) hrow (by omega) hi (by omega)
    rw [List.getElem?_append_left ((List.getElem?_eq_some_iff.1 this).1), this, Option.getD_some]
    by_cases hdk : d < k
    · rw [if_pos ⟨hdk, hri⟩, if_pos hdk]
    · rw [if_neg (fun h => hdk h.1), if_neg hdk]
  have hR : ∀ d, d < ceilMul k 4 → ((gPacked 4 k cols k rs rhs ++ xr)[col * rs + 16 * (d / 4) + 4 * c + d % 4]?).getD 0#32
      = if d < k then (rhs[(col + c) * k + d]?).getD 0#32 else 0#32 := by
    intro d hd
    have := gPacked_get (rows := k) (cols := cols) (srcStride := k) (stride := rs) (src := rhs) (kc := 4) (col := col) (c := c) (d := d)
      (by omega) (by omega) hcol (by omega) hc (by omega)
    have e16 : 4 * 4 * (d / 4) = 16 * (d / 4) := by omega
    rw [e16] at this
    rw [List.getElem?_append_left ((List.getElem?_eq_some_iff.1 this).1), this, Option.getD_some]
    by_cases hdk : d < k
    · rw [if_pos ⟨hdk, hcj⟩, if_pos hdk]
    · rw [if_neg (fun h => hdk h.1), if_neg hdk]
  rw [sum_range_of_zero k2]
  · unfold gemmNat
    apply sum_congr rfl
    intro d hd
    have hd : d < k := by simpa using hd
    rw [hL d (by omega), hR d (by omega), if_pos hd, if_pos hd]
  · intro d h1 h2
    rw [hL d h2, hR d h2, if_neg (by omega), if_neg (by omega)]
    decide

end

/-- The entries of the product for a convolution. -/
theorem gemmNat_accPix {p : BConv} {inp filt rhs : List Word} (h : p.Ok inp filt) (hg : p.groups = 1)
    (hr : ∀ j k, j < p.batches * p.outH * p.outW → k < p.filtDepth * p.filtH * p.filtW →
        rd rhs (j * (p.filtDepth * p.filtH * p.filtW) + k) = some (rhsWord p inp j k))
    {i j : Nat} (hi : i < p.cout) (hj : j < p.batches * p.outH * p.outW) :
    gemmNat (p.filtDepth * p.filtH * p.filtW) filt rhs i j = p.accPix inp filt j i := by
  have e := gemmAcc_accPix h hg hr hi hj
  have hF : p.filtDepth * p.filtH * p.filtW = p.filtH * p.filtW * p.filtDepth := by ring
  have hl : ∀ d, d < p.filtDepth * p.filtH * p.filtW → rd filt (i * (p.filtDepth * p.filtH * p.filtW) + d)
      = some ((filt[i * (p.filtDepth * p.filtH * p.filtW) + d]?).getD 0#32) := by
    intro d hd
    have hlt : i * (p.filtDepth * p.filtH * p.filtW) + d < filt.length := by
      rw [h.filtLen]
      have := row_lt hi hd
      have e2 : p.cout * p.filtH * p.filtW * p.filtDepth = p.cout * (p.filtDepth * p.filtH * p.filtW) := by ring
      rw [e2]; exact this
    rw [rd, List.getElem?_eq_getElem hlt, Option.getD_some]
  have hr' : ∀ d, d < p.filtDepth * p.filtH * p.filtW → rd rhs (j * (p.filtDepth * p.filtH * p.filtW) + d)
      = some ((rhs[j * (p.filtDepth * p.filtH * p.filtW) + d]?).getD 0#32) := by
    intro d hd
    have := hr j d hj hd
    rw [this]
    rw [rd] at this
    rw [this, Option.getD_some]
  rw [gemmAcc_eq hl hr'] at e
  exact Option.some.inj e

end Verif
