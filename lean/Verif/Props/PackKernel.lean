import Verif.Props.RuyPack
import Verif.Proof.GemmA64Mem

/-! C43, continued: the matrices the assembly kernels of C52-C57 read are the ones the packing routine makes, whatever the
order in which ruy packs the blocks of columns. -/

namespace Verif

/-- A sequence of packing calls, each for the columns from `a` to `b`. -/
def packCalls (src : List Word) (rows cols srcStride stride : Nat) : List (Nat × Nat) → List Word → Option (List Word)
  | [], out => some out
  | (a, b) :: l, out => (ruyPack src rows cols srcStride stride a b out).bind (packCalls src rows cols srcStride stride l)

variable {src : List Word} {rows cols srcStride stride : Nat}

theorem gPacked_pos (hst : ceilDiv rows 4 * 4 ≤ stride) {r c : Nat} (hr : r < ceilDiv rows 4 * 4) (hc : c < ceilDiv cols 4 * 4) :
    (gPacked 4 rows cols srcStride stride src)[packedPos stride r c]? = some (packedElem src rows cols srcStride r c) := by
  have h := gPacked_get (kc := 4) (rows := rows) (cols := cols) (srcStride := srcStride) (stride := stride) (src := src)
    (col := c / 4 * 4) (c := c % 4) (d := r) (by omega) (by omega) (by omega)
    (by unfold ceilDiv at hc; omega) (by omega) (by omega)
  have e1 : c / 4 * 4 + c % 4 = c := by omega
  have e2 : packedPos stride r c = c / 4 * 4 * stride + 4 * 4 * (r / 4) + 4 * (c % 4) + r % 4 := by
    unfold packedPos
    rw [Nat.mul_comm (c / 4 * 4) stride, Nat.mul_comm 4 stride, Nat.mul_assoc, Nat.mul_comm 4 (c / 4)]
  rw [e2, h, e1]
  rfl

/-- Every index of the packed buffer is the place of a row and a column (rows past the packed ones lie in the gap that a
larger stride leaves). -/
theorem packedPos_surj (hs : 0 < stride) (i : Nat) : ∃ r c, packedPos stride r c = i ∧ c / 4 = i / (4 * stride) ∧
    r / 4 = i % (4 * stride) / 16 ∧ r % 4 = i % 4 ∧ c % 4 = i % (4 * stride) % 16 / 4 := by
  have hm : i % (4 * stride) % 4 = i % 4 := Nat.mod_mul_right_mod i 4 stride
  have hd := Nat.div_add_mod i (4 * stride)
  refine ⟨i % (4 * stride) / 16 * 4 + i % 4, i / (4 * stride) * 4 + i % (4 * stride) % 16 / 4, ?_, ?_, ?_, ?_, ?_⟩
  · unfold packedPos
    generalize i / (4 * stride) = q at *
    generalize hx : i % (4 * stride) = x at *
    have e1 : (q * 4 + x % 16 / 4) / 4 = q := by omega
    rw [e1]
    generalize 4 * stride * q = y at *
    omega
  all_goals omega

theorem packedPos_decode (hst : ceilDiv rows 4 * 4 ≤ stride) {r c : Nat} (hr : r < ceilDiv rows 4 * 4) :
    packedPos stride r c % (4 * stride) / 16 = r / 4 := by
  have hlt : 16 * (r / 4) + 4 * (c % 4) + r % 4 < 4 * stride := by omega
  unfold packedPos
  rw [show 4 * stride * (c / 4) + 16 * (r / 4) + 4 * (c % 4) + r % 4
    = (16 * (r / 4) + 4 * (c % 4) + r % 4) + 4 * stride * (c / 4) by omega]
  rw [Nat.add_mul_mod_self_left, Nat.mod_eq_of_lt hlt]
  omega

/-- **C43**, for the kernels. However ruy divides the columns into calls of the packing routine, and in whatever order it makes
them (also repeatedly), once every column was packed: the packed buffer, whatever it held before, agrees with the matrix the
assembly kernels are proved correct for (`gPacked 4`, C52-C57) at every element of a block; and it is that matrix when there is
no gap between the blocks (or the gap held zeros). -/
theorem C43_kernel_matrix (hsrc : ∀ r c, r < rows → c < cols → c * srcStride + r < src.length)
    (hs : 0 < stride) (hst : ceilDiv rows 4 * 4 ≤ stride) (ranges : List (Nat × Nat))
    (halign : ∀ q ∈ ranges, q.1 % 4 = 0 ∧ q.2 ≤ ceilDiv cols 4 * 4)
    (hcover : ∀ c, c < cols → ∃ q ∈ ranges, q.1 ≤ c ∧ c < q.2)
    (out : List Word) (hlen : out.length = ceilDiv cols 4 * 4 * stride) :
    ∃ out', packCalls src rows cols srcStride stride ranges out = some out' ∧
      out'.length = (gPacked 4 rows cols srcStride stride src).length ∧
      (∀ r c, r < ceilDiv rows 4 * 4 → c < ceilDiv cols 4 * 4 →
        out'[packedPos stride r c]? = (gPacked 4 rows cols srcStride stride src)[packedPos stride r c]?) ∧
      (stride = ceilDiv rows 4 * 4 ∨ (∀ w ∈ out, w = 0#32) → out' = gPacked 4 rows cols srcStride stride src) := by
  -- the state after some calls
  have hgen : ∀ (l : List (Nat × Nat)) (o : List Word), (∀ q ∈ l, q.1 % 4 = 0 ∧ q.2 ≤ ceilDiv cols 4 * 4) →
      o.length = out.length →
      ∃ o', packCalls src rows cols srcStride stride l o = some o' ∧ o'.length = out.length ∧
        (∀ r c, r < ceilDiv rows 4 * 4 → (∃ q ∈ l, q.1 ≤ c ∧ c < ceilDiv q.2 4 * 4) →
          o'[packedPos stride r c]? = some (packedElem src rows cols srcStride r c)) ∧
        (∀ r c, r < ceilDiv rows 4 * 4 → o[packedPos stride r c]? = some (packedElem src rows cols srcStride r c) →
          o'[packedPos stride r c]? = some (packedElem src rows cols srcStride r c)) ∧
        (∀ i, (∀ r c, r < ceilDiv rows 4 * 4 → i ≠ packedPos stride r c) → o'[i]? = o[i]?) := by
    intro l
    induction l with
    | nil =>
      intro o _ ho
      exact ⟨o, rfl, ho, fun r c _ ⟨q, hq, _⟩ => absurd hq (by simp), fun _ _ _ h => h, fun _ _ => rfl⟩
    | cons q l ih =>
      intro o hal ho
      obtain ⟨q1, q2⟩ := hal q (by simp)
      have hq4 : ceilDiv q.2 4 * 4 ≤ ceilDiv cols 4 * 4 := by unfold ceilDiv at q2 ⊢; omega
      obtain ⟨o1, e1, l1, p1, p2⟩ := ruy_pack_exact src rows cols srcStride stride q.1 q.2 o hsrc hst q1
        (by rw [ho, hlen, Nat.mul_comm]; exact Nat.mul_le_mul_right _ hq4)
      have keep : ∀ r c, r < ceilDiv rows 4 * 4 → o[packedPos stride r c]? = some (packedElem src rows cols srcStride r c) →
          o1[packedPos stride r c]? = some (packedElem src rows cols srcStride r c) := by
        intro r c hr h
        by_cases hin : q.1 ≤ c ∧ c < ceilDiv q.2 4 * 4
        · exact p1 r c hr hin.1 hin.2
        · rw [p2 _ (fun r' c' hr' h1 h2 he => hin ?_), h]
          obtain ⟨_, rfl⟩ := packedPos_inj hst hr hr' he
          exact ⟨h1, h2⟩
      obtain ⟨o2, e2, l2, s1, s2, s3⟩ := ih o1 (fun q hq => hal q (by simp [hq])) (by rw [l1, ho])
      refine ⟨o2, ?_, l2, ?_, ?_, ?_⟩
      · simp only [packCalls]; rw [e1, Option.bind_some, e2]
      · rintro r c hr ⟨q', hq', h1, h2⟩
        rcases List.mem_cons.1 hq' with rfl | hq'
        · exact s2 r c hr (p1 r c hr h1 h2)
        · exact s1 r c hr ⟨q', hq', h1, h2⟩
      · exact fun r c hr h => s2 r c hr (keep r c hr h)
      · intro i hi
        rw [s3 i hi, p2 i fun r c hr _ _ => hi r c hr]
  obtain ⟨out', e, hl, s1, s2, s3⟩ := hgen ranges out halign rfl
  have hcov : ∀ c, c < ceilDiv cols 4 * 4 → ∃ q ∈ ranges, q.1 ≤ c ∧ c < ceilDiv q.2 4 * 4 := by
    intro c hc
    obtain ⟨q, hq, h1, h2⟩ := hcover (c / 4 * 4) (by unfold ceilDiv at hc; omega)
    have := (halign q hq).1
    exact ⟨q, hq, by omega, by unfold ceilDiv; omega⟩
  have hgl : (gPacked 4 rows cols srcStride stride src).length = out.length := by
    rw [gPacked_length, hlen]; rfl
  have hpos : ∀ r c, r < ceilDiv rows 4 * 4 → c < ceilDiv cols 4 * 4 →
      out'[packedPos stride r c]? = (gPacked 4 rows cols srcStride stride src)[packedPos stride r c]? := by
    intro r c hr hc
    rw [gPacked_pos hst hr hc, s1 r c hr (hcov c hc)]
  refine ⟨out', e, by rw [hl, hgl], hpos, fun hgap => ?_⟩
  apply List.ext_getElem?
  intro i
  by_cases hi : i < out.length
  · obtain ⟨r, c, hrc, d1, d2, d3, d4⟩ := packedPos_surj hs i
    have hc : c < ceilDiv cols 4 * 4 := by
      have : i / (4 * stride) < ceilDiv cols 4 := Nat.div_lt_of_lt_mul (by
        rw [hlen] at hi
        calc i < ceilDiv cols 4 * 4 * stride := hi
          _ = 4 * stride * ceilDiv cols 4 := by ring)
      omega
    by_cases hr : r < ceilDiv rows 4 * 4
    · rw [← hrc]; exact hpos r c hr hc
    · have hx : i % (4 * stride) < 4 * stride := Nat.mod_lt _ (by omega)
      rcases hgap with hgap | hgap
      · exfalso; omega
      · rw [s3 i (fun r' c' hr' he => hr ?_)]
        · rw [List.getElem?_eq_getElem hi, hgap _ (List.getElem_mem hi)]
          unfold gPacked
          rw [List.getElem?_map, List.getElem?_range (by rw [← gPacked_length 4 rows cols srcStride stride src, hgl]; exact hi)]
          simp only [Option.map_some]
          rw [if_neg]
          rintro ⟨h1, _⟩
          have : ceilDiv rows 4 * 4 ≥ rows := by unfold ceilDiv; omega
          omega
        · have := packedPos_decode (rows := rows) (c := c') hst hr'
          rw [← he] at this
          omega
  · rw [List.getElem?_eq_none (by omega), List.getElem?_eq_none (by omega)]

/-- Two calls in reverse order on a dirty buffer: a 5 x 6 matrix. -/
example : packCalls ((List.range 30).map fun i => BitVec.ofNat 32 (i + 1)) 5 6 5 8 [(4, 6), (0, 4)] (List.replicate 64 9#32) =
    some (gPacked 4 5 6 5 8 ((List.range 30).map fun i => BitVec.ofNat 32 (i + 1))) := by
  decide +kernel

end Verif
