import Verif.Proof.IndirectA64Loop
import Verif.Proof.IndirectRun

/-! What the memory of an Aarch64 indirect kernel contains, and the accumulators in terms of the reference kernel. -/

namespace Verif

open Finset

/-- A freshly made Aarch64 kernel. -/
structure IKernel.MadeA (K : IKernel) (p : BConv) (bd : Nat) (filt : List Word) : Prop where
  inputDepth : K.inputDepth = p.inDepth
  outputChannels : K.outputChannels = p.cout
  filterSize : K.filterSize = p.filtH * p.filtW
  groups : K.groups = p.groups
  pixels : K.numOutputPixels = p.batches * p.outH * p.outW
  zero : K.zeroBuffer = List.replicate (p.filtH * p.filtW * p.inDepth) 0#32
  pwLen : K.packedWeights.length
    = p.groups * ceilDiv p.outPerGroup 8 * (p.filtH * p.filtW) * (p.filtDepth / bd) * (8 * bd) + 8 * bd
  pw : ∀ g blk f cb o co, g < p.groups → blk < ceilDiv p.outPerGroup 8 → f < p.filtH * p.filtW →
    cb < p.filtDepth / bd → o < 8 → co < bd → blk * 8 + o < p.outPerGroup →
    K.packedWeights[pwIndex (ceilDiv p.outPerGroup 8) (p.filtH * p.filtW) (p.filtDepth / bd) 8 bd g blk f cb o co]?
      = some (p.filtWord filt (g * p.outPerGroup + (blk * 8 + o)) (f / p.filtW) (f % p.filtW) (cb * bd + co))
  indLen : K.indirection.length = ceilDiv (p.batches * p.outH * p.outW) 4 * 4 * (p.filtH * p.filtW) + 4
  ind : ∀ t e f, t < ceilDiv (p.batches * p.outH * p.outW) 4 → e < 4 → f < p.filtH * p.filtW →
    K.indirection[(t * (p.filtH * p.filtW) + f) * 4 + e]?
      = some (indirectPtr p (min (t * 4 + e) (p.batches * p.outH * p.outW - 1)) (f / p.filtW) (f % p.filtW))
  indEnd : ∀ i, ceilDiv (p.batches * p.outH * p.outW) 4 * 4 * (p.filtH * p.filtW) ≤ i → i < K.indirection.length →
    K.indirection[i]? = some (.inp 0)

theorem mkKernelA64_made {p : BConv} {inp filt : List Word} {bd : Nat} (h : p.Dims inp filt) (hbd : 0 < bd)
    (hdiv : p.filtDepth % bd = 0) : ∃ K, mkKernelA64 p bd filt = some K ∧ K.MadeA p bd filt := by
  have hDe : p.inDepth / p.groups = p.filtDepth := by
    rw [h.depth, Nat.mul_div_cancel_left _ h.groups_pos]
  have hopg : p.groups * (p.cout / p.groups) = p.cout :=
    Nat.mul_div_cancel' (Nat.dvd_of_mod_eq_zero h.cout_div)
  obtain ⟨pw, h1, h2, h3⟩ := packWeights_eq (F := p.filtH * p.filtW) (inputDepth := p.inDepth)
    (outputChannels := p.cout) (groups := p.groups) (bc := 8) (bd := bd) (weights := filt)
    hbd (by rw [hDe]; exact hdiv) (by rw [hDe, hopg, h.filtLen]; ring)
  obtain ⟨ind, i1, i2, i3, i4⟩ := fillIndirection_eq p (bp := 4) (by omega)
  rw [hDe] at h2 h3
  refine ⟨⟨p.inDepth, p.cout, p.filtH * p.filtW, p.groups, p.batches * p.outH * p.outW, pw, ind,
    List.replicate (p.filtH * p.filtW * p.inDepth) 0#32⟩, ?_, rfl, rfl, rfl, rfl, rfl, rfl, h2, ?_, i2, ?_, i4⟩
  · unfold mkKernelA64
    simp only [h1, i1, Option.bind_eq_bind, Option.bind_some]
  · intro g blk f cb o co hg hblk hf hcb ho hco hch
    refine Eq.trans (h3 g blk f cb o co hg hblk hf hcb ho hco hch) ?_
    unfold BConv.filtWord offset4
    congr 2
    have hF := mod_lt_of_lt_mul hf
    change ((g * p.outPerGroup + (blk * 8 + o)) * (p.filtH * p.filtW) + f) * p.filtDepth + _ = _
    have ef : f / p.filtW * p.filtW + f % p.filtW = f := div_mul_add_mod f p.filtW
    generalize g * p.outPerGroup + (blk * 8 + o) = oc
    have : oc * (p.filtH * p.filtW) + f = (oc * p.filtH + f / p.filtW) * p.filtW + f % p.filtW := by
      rw [Nat.add_mul, Nat.mul_assoc, Nat.add_assoc, ef]
    rw [this]
  · intro t e f ht he hf
    have hF := mod_lt_of_lt_mul hf
    have := i3 t e (f / p.filtW) (f % p.filtW) ht he hF.1 hF.2
    rw [div_mul_add_mod] at this
    exact this

section
variable {K : IKernel} {inp xi xz mult bias : List Word} {cmin cmax : Int}

theorem nMem_word (o n : Nat) :
    (nMem K inp xi xz mult bias cmin cmax).word ⟨o, 4 * n⟩
      = ((nWords K inp xi xz mult bias cmin cmax o)[n]?).getD 0#32 := by
  unfold NMem.word
  apply laneWord_wordByte
  intro j hj
  unfold nMem
  simp only []
  have e1 : (4 * n + (4 * 0 + j)) / 4 = n := by omega
  have e2 : (4 * n + (4 * 0 + j)) % 4 = j := by omega
  rw [e1, e2]

/-- A word read through an indirection pointer. -/
theorem nMem_deref {q : Ptr} {d : Nat} {w : Word} (h : (q.add d).deref inp K.zeroBuffer = some w) :
    (nMem K inp xi xz mult bias cmin cmax).word ⟨q.addr.obj, q.addr.off + 4 * d⟩ = w := by
  cases q with
  | inp n =>
    simp only [Ptr.add, Ptr.deref, rd] at h
    have hl := (List.getElem?_eq_some_iff.1 h).1
    have e : (⟨(Ptr.inp n).addr.obj, (Ptr.inp n).addr.off + 4 * d⟩ : NAddr) = ⟨0, 4 * (n + d)⟩ := by
      simp only [Ptr.addr, NAddr.mk.injEq, true_and]; ring
    rw [e, nMem_word]
    unfold nWords
    rw [if_pos rfl, List.getElem?_append_left hl, h]
    rfl
  | zero n =>
    simp only [Ptr.add, Ptr.deref, rd] at h
    have hl := (List.getElem?_eq_some_iff.1 h).1
    have e : (⟨(Ptr.zero n).addr.obj, (Ptr.zero n).addr.off + 4 * d⟩ : NAddr) = ⟨1, 4 * (n + d)⟩ := by
      simp only [Ptr.addr, NAddr.mk.injEq, true_and]; ring
    rw [e, nMem_word]
    unfold nWords
    rw [if_neg (by omega), if_pos rfl, List.getElem?_append_left hl, h]
    rfl

end

/-- One block in terms of words. -/
theorem blockSum_words {bd DB : Nat} (hbd : bd = 1 ∨ bd = 2 ∨ bd = 4) (m : NMem) (off : Nat) (P : Nat → Nat → NAddr)
    (W : NAddr) (k i h : Nat) :
    blockSum bd (abk bd DB m off P k i) (wbk bd m W i) h
      = ∑ co ∈ range bd, xorPopcount
          (m.word ⟨(P k (i / DB)).obj, (P k (i / DB)).off + 4 * (off + (bd * (i % DB) + co))⟩)
          (m.word ⟨W.obj, W.off + 4 * (i * (8 * bd) + (h * bd + co))⟩) := by
  unfold blockSum
  refine Eq.trans (sum_range_mul bd 4 _) ?_
  apply sum_congr rfl
  intro co hco
  have hco : co < bd := by simpa using hco
  rw [xorPopcount_bytes]
  apply sum_congr rfl
  intro j hj
  have hj : j < 4 := by simpa using hj
  have hm : (4 * bd * h + (4 * co + j)) % 16 % (4 * bd) = 4 * co + j := by
    rcases hbd with rfl | rfl | rfl <;> omega
  have hd : 16 * ((4 * bd * h + (4 * co + j)) / 16) + (4 * bd * h + (4 * co + j)) % 16
      = 4 * bd * h + (4 * co + j) := by omega
  unfold xc
  congr 3
  · unfold NMem.word abk
    rw [wordByte_laneWord _ _ _ hj, hm]
    simp only []
    congr 1
    ring
  · unfold NMem.word wbk
    rw [wordByte_laneWord _ _ _ hj]
    simp only []
    congr 1
    have e : W.off + 32 * bd * i + 16 * ((4 * bd * h + (4 * co + j)) / 16) + (4 * bd * h + (4 * co + j)) % 16
        = W.off + 32 * bd * i + (4 * bd * h + (4 * co + j)) := by omega
    rw [e]
    ring

/-- All blocks. -/
theorem blocks_sum {bd DB : Nat} (hbd : bd = 1 ∨ bd = 2 ∨ bd = 4) (m : NMem) (off : Nat)
    (P : Nat → Nat → NAddr) (W : NAddr) (k h F : Nat) {X V : Nat → Nat → Word}
    (hX : ∀ f d, f < F → d < DB * bd → m.word ⟨(P k f).obj, (P k f).off + 4 * (off + d)⟩ = X f d)
    (hV : ∀ f cb co, f < F → cb < DB → co < bd →
      m.word ⟨W.obj, W.off + 4 * ((f * DB + cb) * (8 * bd) + (h * bd + co))⟩ = V f (cb * bd + co)) :
    ∑ i ∈ range (F * DB), blockSum bd (abk bd DB m off P k i) (wbk bd m W i) h
      = ∑ f ∈ range F, ∑ d ∈ range (DB * bd), xorPopcount (V f d) (X f d) := by
  rw [Nat.mul_comm F DB]
  refine Eq.trans (sum_range_mul F DB _) ?_
  apply sum_congr rfl
  intro f hf
  have hf : f < F := by simpa using hf
  rw [Nat.mul_comm DB bd]
  refine Eq.trans ?_ (sum_range_mul DB bd _).symm
  apply sum_congr rfl
  intro cb hcb
  have hcb : cb < DB := by simpa using hcb
  rw [blockSum_words hbd]
  apply sum_congr rfl
  intro co hco
  have hco : co < bd := by simpa using hco
  have e : DB * f + cb = f * DB + cb := by ring
  rw [e, (div_mod_row hcb).1, (div_mod_row hcb).2]
  have hlt : bd * cb + co < DB * bd := by
    have := row_lt hcb hco
    rw [Nat.mul_comm bd cb]; exact this
  rw [hX f _ hf hlt, hV f cb co hf hcb hco, Nat.mul_comm cb bd, xorPopcount_comm]

end Verif
