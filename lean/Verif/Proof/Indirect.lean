import Mathlib.Algebra.Order.BigOperators.Group.Finset
import Verif.Proof.IndirectPack

/-! The portable indirect BGEMM kernel computes the accumulators of the reference kernel. -/

namespace Verif

open Finset

/-- Accumulator of lane `j`. -/
def Acc4.get (A : Acc4) : Nat → Nat
  | 0 => A.a0
  | 1 => A.a1
  | 2 => A.a2
  | _ => A.a3

theorem Acc4.eq_mk (A : Acc4) : A = ⟨A.get 0, A.get 1, A.get 2, A.get 3⟩ := rfl

/-- The accumulation loops, given what the buffers contain. -/
theorem iAccumulate_eq {K : IKernel} {inp : List Word} {ind off w F D : Nat}
    (hF : K.filterSize = F) (hD : K.inputDepth / K.groups = D) (hF1 : 1 ≤ F) (hD1 : 1 ≤ D)
    {P : Nat → Nat → Ptr} {X : Nat → Nat → Nat → Word} {V : Nat → Nat → Nat → Word}
    (hind0 : ∀ f, f < F → rd K.indirection (ind + 2 * f) = some (P 0 f))
    (hind1 : ∀ f, f < F → rd K.indirection (ind + 2 * f + 1) = some (P 1 f))
    (hx : ∀ e f d, e < 2 → f < F → d < D → (((P e f).add off).add d).deref inp K.zeroBuffer = some (X e f d))
    (hw : ∀ j f d, j < 4 → f < F → d < D → rd K.packedWeights (w + (f * D + d) * 4 + j) = some (V j f d)) :
    iAccumulate K inp ind off w = some ⟨w + F * D * 4,
      ⟨∑ f ∈ range F, ∑ d ∈ range D, xorPopcount (V 0 f d) (X 0 f d),
       ∑ f ∈ range F, ∑ d ∈ range D, xorPopcount (V 1 f d) (X 0 f d),
       ∑ f ∈ range F, ∑ d ∈ range D, xorPopcount (V 2 f d) (X 0 f d),
       ∑ f ∈ range F, ∑ d ∈ range D, xorPopcount (V 3 f d) (X 0 f d)⟩,
      ⟨∑ f ∈ range F, ∑ d ∈ range D, xorPopcount (V 0 f d) (X 1 f d),
       ∑ f ∈ range F, ∑ d ∈ range D, xorPopcount (V 1 f d) (X 1 f d),
       ∑ f ∈ range F, ∑ d ∈ range D, xorPopcount (V 2 f d) (X 1 f d),
       ∑ f ∈ range F, ∑ d ∈ range D, xorPopcount (V 3 f d) (X 1 f d)⟩⟩ := by
  unfold iAccumulate
  rw [hF, hD, Nat.max_eq_right hF1, Nat.max_eq_right hD1]
  let S : Nat → Nat → Nat → Nat := fun j e n => ∑ f ∈ range n, ∑ d ∈ range D, xorPopcount (V j f d) (X e f d)
  obtain ⟨s', h1, h2⟩ := forN_inv (n := F)
    (body := fun f s => do
      let ptr0 ← rd K.indirection (ind + 2 * f)
      let ptr1 ← rd K.indirection (ind + 2 * f + 1)
      forN D (iDepthStep K inp (ptr0.add off) (ptr1.add off)) s)
    (s := (⟨w, ⟨0, 0, 0, 0⟩, ⟨0, 0, 0, 0⟩⟩ : AccSt))
    (fun n s => s = ⟨w + n * D * 4, ⟨S 0 0 n, S 1 0 n, S 2 0 n, S 3 0 n⟩, ⟨S 0 1 n, S 1 1 n, S 2 1 n, S 3 1 n⟩⟩)
    (by simp [S])
    (by
      rintro f s hf rfl
      rw [hind0 f hf, hind1 f hf]
      simp only [Option.bind_eq_bind, Option.bind_some]
      let T : Nat → Nat → Nat → Nat := fun j e n => S j e f + ∑ d ∈ range n, xorPopcount (V j f d) (X e f d)
      obtain ⟨s', h1, h2⟩ := forN_inv (n := D)
        (body := iDepthStep K inp ((P 0 f).add off) ((P 1 f).add off))
        (s := (⟨w + f * D * 4, ⟨S 0 0 f, S 1 0 f, S 2 0 f, S 3 0 f⟩, ⟨S 0 1 f, S 1 1 f, S 2 1 f, S 3 1 f⟩⟩ : AccSt))
        (fun n s => s = ⟨w + (f * D + n) * 4, ⟨T 0 0 n, T 1 0 n, T 2 0 n, T 3 0 n⟩, ⟨T 0 1 n, T 1 1 n, T 2 1 n, T 3 1 n⟩⟩)
        (by simp [T])
        (by
          rintro d s hd rfl
          unfold iDepthStep
          have w0 := hw 0 f d (by omega) hf hd
          rw [Nat.add_zero] at w0
          simp only [w0, hw 1 f d (by omega) hf hd, hw 2 f d (by omega) hf hd,
            hw 3 f d (by omega) hf hd, hx 0 f d (by omega) hf hd, hx 1 f d (by omega) hf hd,
            Option.bind_eq_bind, Option.bind_some]
          refine ⟨_, rfl, ?_⟩
          simp only [T, sum_range_succ, AccSt.mk.injEq, Acc4.mk.injEq]
          refine ⟨by ring, ⟨?_, ?_, ?_, ?_⟩, ⟨?_, ?_, ?_, ?_⟩⟩ <;> ring)
      refine ⟨s', h1, ?_⟩
      rw [h2]
      simp only [T, S, sum_range_succ, AccSt.mk.injEq, and_self, and_true]
      ring)
  rw [h1, h2]

/-- Accumulator of output pixel number `oi`. -/
def BConv.accPix (p : BConv) (inp filt : List Word) (oi oc : Nat) : Nat :=
  p.acc inp filt (oi / (p.outH * p.outW)) (oi % (p.outH * p.outW) / p.outW) (oi % p.outW) oc

theorem BConv.accPix_eq {p : BConv} {inp filt : List Word} {b y x oc : Nat} (hy : y < p.outH)
    (hx : x < p.outW) : p.accPix inp filt ((b * p.outH + y) * p.outW + x) oc = p.acc inp filt b y x oc := by
  unfold BConv.accPix
  have e : (b * p.outH + y) * p.outW + x = b * (p.outH * p.outW) + (y * p.outW + x) := by ring
  have hlt : y * p.outW + x < p.outH * p.outW := row_lt hy hx
  rw [e, (div_mod_row hlt).1, (div_mod_row hlt).2, (div_mod_row hx).1]
  rw [← e, (div_mod_row hx).2]

/-- What the kernels need to know about the buffers: sizes and groups. -/
structure BConv.Dims (p : BConv) (inp filt : List Word) : Prop where
  groups_pos : 0 < p.groups
  cout_div : p.cout % p.groups = 0
  depth : p.inDepth = p.groups * p.filtDepth
  inLen : inp.length = p.batches * p.inH * p.inW * p.inDepth
  filtLen : filt.length = p.cout * p.filtH * p.filtW * p.filtDepth

theorem BConv.Ok.dims {p : BConv} {inp filt : List Word} (h : p.Ok inp filt) : p.Dims inp filt :=
  ⟨h.groups_pos, h.cout_div, h.depth, h.inLen, h.filtLen⟩

/-- Dereferencing an indirection pointer gives the input word of the reference kernel. -/
theorem indirect_deref {p : BConv} {inp filt : List Word} (h : p.Dims inp filt)
    {oi oc fy fx d : Nat} (hoi : oi < p.batches * p.outH * p.outW) (hoc : oc < p.cout)
    (hfy : fy < p.filtH) (hfx : fx < p.filtW) (hd : d < p.filtDepth) :
    (((indirectPtr p oi fy fx).add (oc / p.outPerGroup * p.filtDepth)).add d).deref inp
        (List.replicate (p.filtH * p.filtW * p.inDepth) 0#32)
      = some (p.inWord inp (oi / (p.outH * p.outW)) (oi % (p.outH * p.outW) / p.outW)
          (oi % p.outW) oc fy fx d) := by
  have hb : oi / (p.outH * p.outW) < p.batches := by
    rw [Nat.mul_assoc] at hoi
    exact (mod_lt_of_lt_mul hoi).1
  unfold indirectPtr BConv.inWord
  simp only []
  generalize oi / (p.outH * p.outW) = b at hb
  generalize oi % (p.outH * p.outW) / p.outW = oy
  generalize oi % p.outW = ox
  have ey : ((oy * p.strideH + fy * p.dilH : Nat) : Int) - p.padH = p.inY oy fy := by
    unfold BConv.inY; push_cast; ring
  have ex : ((ox * p.strideW + fx * p.dilW : Nat) : Int) - p.padW = p.inX ox fx := by
    unfold BConv.inX; push_cast; ring
  have hgl := BConv.group_lt h.groups_pos h.cout_div hoc
  have hgd : oc / p.outPerGroup * p.filtDepth + d < p.inDepth := by
    rw [h.depth]; exact row_lt hgl hd
  rw [ey, ex]
  have zread : rd (List.replicate (p.filtH * p.filtW * p.inDepth) 0#32)
      (0 + oc / p.outPerGroup * p.filtDepth + d) = some 0#32 := by
    have hF : 0 < p.filtH * p.filtW := Nat.mul_pos (by omega) (by omega)
    have : 0 + oc / p.outPerGroup * p.filtDepth + d < p.filtH * p.filtW * p.inDepth := by
      calc 0 + oc / p.outPerGroup * p.filtDepth + d < p.inDepth := by omega
        _ ≤ p.filtH * p.filtW * p.inDepth := Nat.le_mul_of_pos_left _ hF
    simp only [rd, List.getElem?_replicate, if_pos this]
  by_cases hin : p.inside (p.inY oy fy) (p.inX ox fx) = true
  · have hh := BConv.inside_iff.1 hin
    rw [if_pos hin, if_pos ⟨hh.1, hh.2.1⟩, if_pos ⟨hh.2.2.1, hh.2.2.2⟩]
    simp only [Ptr.add, Ptr.deref]
    have e : (b * p.inH * p.inW + (p.inY oy fy).toNat * p.inW + (p.inX ox fx).toNat) * p.inDepth
          + oc / p.outPerGroup * p.filtDepth + d
        = offset4 p.inH p.inW p.inDepth b (p.inY oy fy).toNat (p.inX ox fx).toNat
          (oc / p.outPerGroup * p.filtDepth + d) := by
      unfold offset4; ring
    rw [e]
    exact rd_getD (BConv.in_index_lt h.groups_pos h.cout_div h.depth h.inLen hb hoc hd hin)
  · rw [if_neg hin]
    have hz : (if 0 ≤ p.inY oy fy ∧ p.inY oy fy < p.inH then
        if 0 ≤ p.inX ox fx ∧ p.inX ox fx < p.inW then
          Ptr.inp ((b * p.inH * p.inW + (p.inY oy fy).toNat * p.inW + (p.inX ox fx).toNat) * p.inDepth)
        else Ptr.zero 0 else Ptr.zero 0) = Ptr.zero 0 := by
      split
      · rename_i h1
        rw [if_neg]
        intro h2
        exact hin (BConv.inside_iff.2 ⟨h1.1, h1.2, h2.1, h2.2⟩)
      · rfl
    rw [hz]
    simp only [Ptr.add, Ptr.deref]
    exact zread

/-- The reference accumulator as a flat sum over filter positions. -/
theorem BConv.accPix_flat (p : BConv) (inp filt : List Word) (oi oc : Nat) :
    p.accPix inp filt oi oc = ∑ f ∈ range (p.filtH * p.filtW), ∑ d ∈ range p.filtDepth,
      xorPopcount (p.filtWord filt oc (f / p.filtW) (f % p.filtW) d)
        (p.inWord inp (oi / (p.outH * p.outW)) (oi % (p.outH * p.outW) / p.outW) (oi % p.outW) oc
          (f / p.filtW) (f % p.filtW) d) := by
  unfold BConv.accPix BConv.acc BConv.accPixel
  rw [Nat.mul_comm p.filtH p.filtW, sum_range_mul]
  apply sum_congr rfl
  intro fy _
  apply sum_congr rfl
  intro fx hfx
  have hfx : fx < p.filtW := by simpa using hfx
  have e : p.filtW * fy + fx = fy * p.filtW + fx := by ring
  rw [e, (div_mod_row hfx).1, (div_mod_row hfx).2]
  apply sum_congr rfl
  intro d _
  exact xorPopcount_comm _ _

/-- A freshly made kernel. -/
structure IKernel.Made (K : IKernel) (p : BConv) (filt : List Word) : Prop where
  inputDepth : K.inputDepth = p.inDepth
  outputChannels : K.outputChannels = p.cout
  filterSize : K.filterSize = p.filtH * p.filtW
  groups : K.groups = p.groups
  pixels : K.numOutputPixels = p.batches * p.outH * p.outW
  zero : K.zeroBuffer = List.replicate (p.filtH * p.filtW * p.inDepth) 0#32
  pwLen : K.packedWeights.length
    = p.groups * ceilDiv p.outPerGroup 4 * (p.filtH * p.filtW) * p.filtDepth * 4 + 4
  pw : ∀ g blk f d j, g < p.groups → blk < ceilDiv p.outPerGroup 4 → f < p.filtH * p.filtW →
    d < p.filtDepth → j < 4 → blk * 4 + j < p.outPerGroup →
    K.packedWeights[((((g * ceilDiv p.outPerGroup 4 + blk) * (p.filtH * p.filtW) + f) * p.filtDepth + d)
      * 4 + j)]? = some (p.filtWord filt (g * p.outPerGroup + (blk * 4 + j)) (f / p.filtW) (f % p.filtW) d)
  ind : ∀ t e f, t < ceilDiv (p.batches * p.outH * p.outW) 2 → e < 2 → f < p.filtH * p.filtW →
    K.indirection[(t * (p.filtH * p.filtW) + f) * 2 + e]?
      = some (indirectPtr p (min (t * 2 + e) (p.batches * p.outH * p.outW - 1)) (f / p.filtW) (f % p.filtW))

theorem mkKernel_made {p : BConv} {inp filt : List Word} (h : p.Dims inp filt) :
    ∃ K, mkKernel p filt = some K ∧ K.Made p filt := by
  have hDe : p.inDepth / p.groups = p.filtDepth := by
    rw [h.depth, Nat.mul_div_cancel_left _ h.groups_pos]
  have hopg : p.groups * (p.cout / p.groups) = p.cout :=
    Nat.mul_div_cancel' (Nat.dvd_of_mod_eq_zero h.cout_div)
  obtain ⟨pw, h1, h2, h3⟩ := packWeights_eq (F := p.filtH * p.filtW) (inputDepth := p.inDepth)
    (outputChannels := p.cout) (groups := p.groups) (bc := 4) (bd := 1) (weights := filt)
    (by omega) (Nat.mod_one _) (by rw [hDe, hopg, h.filtLen]; ring)
  obtain ⟨ind, i1, i2, i3, -⟩ := fillIndirection_eq p (bp := 2) (by omega)
  rw [hDe] at h2 h3
  refine ⟨⟨p.inDepth, p.cout, p.filtH * p.filtW, p.groups, p.batches * p.outH * p.outW, pw, ind,
    List.replicate (p.filtH * p.filtW * p.inDepth) 0#32⟩, ?_, rfl, rfl, rfl, rfl, rfl, rfl, ?_, ?_, ?_⟩
  · unfold mkKernel
    simp only [h1, i1, Option.bind_eq_bind, Option.bind_some]
  · simp only [h2, Nat.div_one]; rfl
  · intro g blk f d j hg hblk hf hd hj hch
    have := h3 g blk f d j 0 hg hblk hf (by rw [Nat.div_one]; exact hd) hj (by omega) hch
    unfold pwIndex at this
    simp only [Nat.div_one, Nat.mul_one, Nat.add_zero] at this
    change pw[_]? = _ at this
    simp only []
    refine Eq.trans this ?_
    unfold BConv.filtWord offset4
    congr 2
    have hF := mod_lt_of_lt_mul hf
    change ((g * p.outPerGroup + (blk * 4 + j)) * (p.filtH * p.filtW) + f) * p.filtDepth + d = _
    have ef : f / p.filtW * p.filtW + f % p.filtW = f := div_mul_add_mod f p.filtW
    generalize g * p.outPerGroup + (blk * 4 + j) = oc
    have : oc * (p.filtH * p.filtW) + f = (oc * p.filtH + f / p.filtW) * p.filtW + f % p.filtW := by
      rw [Nat.add_mul, Nat.mul_assoc, Nat.add_assoc, ef]
    rw [this]
  · intro t e f ht he hf
    have hF := mod_lt_of_lt_mul hf
    have := i3 t e (f / p.filtW) (f % p.filtW) ht he hF.1 hF.2
    rw [div_mul_add_mod] at this
    exact this

/-- Value of lane `j` of the block `(g, blk)` for the pixel in position `e` of tile `t`. -/
theorem block_acc {K : IKernel} {p : BConv} {inp filt : List Word} (h : p.Dims inp filt)
    (hm : K.Made p filt) (hF : 1 ≤ p.filtH * p.filtW) (hD : 1 ≤ p.filtDepth)
    {t g blk : Nat} (ht : t < ceilDiv (p.batches * p.outH * p.outW) 2) (hg : g < p.groups)
    (hblk : blk < ceilDiv p.outPerGroup 4) :
    ∃ A, iAccumulate K inp (2 * t * K.filterSize) (g * p.filtDepth)
        ((g * ceilDiv p.outPerGroup 4 + blk) * (p.filtH * p.filtW) * p.filtDepth * 4) = some A ∧
      A.w = (g * ceilDiv p.outPerGroup 4 + (blk + 1)) * (p.filtH * p.filtW) * p.filtDepth * 4 ∧
      (∀ j, A.p0.get j ≤ 32 * (p.filtH * p.filtW * p.filtDepth)) ∧
      (∀ j, A.p1.get j ≤ 32 * (p.filtH * p.filtW * p.filtDepth)) ∧
      (∀ j, j < 4 → blk * 4 + j < p.outPerGroup →
        A.p0.get j = p.accPix inp filt (2 * t) (g * p.outPerGroup + (blk * 4 + j)) ∧
        A.p1.get j = p.accPix inp filt (min (2 * t + 1) (p.batches * p.outH * p.outW - 1))
          (g * p.outPerGroup + (blk * 4 + j))) := by
  set F := p.filtH * p.filtW with hFdef
  set D := p.filtDepth with hDdef
  set n := p.batches * p.outH * p.outW with hn
  set NB := ceilDiv p.outPerGroup 4 with hNB
  have hDe : K.inputDepth / K.groups = D := by
    rw [hm.inputDepth, hm.groups, h.depth, Nat.mul_div_cancel_left _ h.groups_pos]
  have htn : t * 2 < n := lt_of_lt_ceilDiv (by omega) ht
  have hblk4 : blk * 4 < p.outPerGroup := lt_of_lt_ceilDiv (by omega) hblk
  -- a channel of the block, to determine the group
  have hgroup : ∀ j, blk * 4 + j < p.outPerGroup →
      (g * p.outPerGroup + (blk * 4 + j)) / p.outPerGroup = g ∧ g * p.outPerGroup + (blk * 4 + j) < p.cout := by
    intro j hj
    refine ⟨(div_mod_row hj).1, ?_⟩
    have := row_lt hg hj
    have hopg : p.groups * p.outPerGroup = p.cout :=
      Nat.mul_div_cancel' (Nat.dvd_of_mod_eq_zero h.cout_div)
    rw [hopg] at this
    exact this
  let oc0 := g * p.outPerGroup + (blk * 4 + 0)
  obtain ⟨hoc0, hoc0'⟩ := hgroup 0 (by omega)
  let oi : Nat → Nat := fun e => min (t * 2 + e) (n - 1)
  have hoi : ∀ e, oi e < n := fun e => by simp only [oi]; omega
  let P : Nat → Nat → Ptr := fun e f => indirectPtr p (oi e) (f / p.filtW) (f % p.filtW)
  let X : Nat → Nat → Nat → Word := fun e f d =>
    p.inWord inp (oi e / (p.outH * p.outW)) (oi e % (p.outH * p.outW) / p.outW) (oi e % p.outW) oc0
      (f / p.filtW) (f % p.filtW) d
  let w := (g * NB + blk) * F * D * 4
  let V : Nat → Nat → Nat → Word := fun j f d => K.packedWeights.getD (w + (f * D + d) * 4 + j) 0#32
  have hidx : ∀ f d j, w + (f * D + d) * 4 + j = (((g * NB + blk) * F + f) * D + d) * 4 + j := by
    intro f d j; simp only [w]; ring
  have hwlt : ∀ j f d, j < 4 → f < F → d < D → w + (f * D + d) * 4 + j < K.packedWeights.length := by
    intro j f d hj hf hd
    rw [hidx]
    have hl : K.packedWeights.length = p.groups * NB * F * D * 4 + 4 := hm.pwLen
    have := row_lt (row_lt (row_lt (row_lt hg hblk) hf) hd) hj
    exact Nat.lt_of_lt_of_le this (by rw [hl]; exact Nat.le_add_right _ _)
  have hacc := iAccumulate_eq (K := K) (inp := inp) (ind := 2 * t * K.filterSize) (off := g * D) (w := w)
    (F := F) (D := D) hm.filterSize hDe hF hD (P := P) (X := X) (V := V)
    (by
      intro f hf
      have := hm.ind t 0 f ht (by omega) hf
      rw [hm.filterSize]
      have e : 2 * t * F + 2 * f = (t * F + f) * 2 + 0 := by ring
      change K.indirection[2 * t * F + 2 * f]? = _
      rw [e]; exact this)
    (by
      intro f hf
      have := hm.ind t 1 f ht (by omega) hf
      rw [hm.filterSize]
      have e : 2 * t * F + 2 * f + 1 = (t * F + f) * 2 + 1 := by ring
      change K.indirection[2 * t * F + 2 * f + 1]? = _
      rw [e]; exact this)
    (by
      intro e f d he hf hd
      have hf' := mod_lt_of_lt_mul hf
      have := indirect_deref h (hoi e) hoc0' hf'.1 hf'.2 hd
      rw [hoc0] at this
      rw [hm.zero]
      exact this)
    (by
      intro j f d hj hf hd
      exact rd_getD (hwlt j f d hj hf hd))
  refine ⟨_, hacc, ?_, ?_, ?_, ?_⟩
  · simp only [w]; ring
  · have hb : ∀ j e, ∑ f ∈ range F, ∑ d ∈ range D, xorPopcount (V j f d) (X e f d) ≤ 32 * (F * D) := by
      intro j e
      calc _ ≤ ∑ f ∈ range F, ∑ d ∈ range D, 32 :=
            sum_le_sum fun f _ => sum_le_sum fun d _ => xorPopcount_le _ _
        _ = 32 * (F * D) := by simp; ring
    intro j
    unfold Acc4.get
    split <;> apply hb
  · have hb : ∀ j e, ∑ f ∈ range F, ∑ d ∈ range D, xorPopcount (V j f d) (X e f d) ≤ 32 * (F * D) := by
      intro j e
      calc _ ≤ ∑ f ∈ range F, ∑ d ∈ range D, 32 :=
            sum_le_sum fun f _ => sum_le_sum fun d _ => xorPopcount_le _ _
        _ = 32 * (F * D) := by simp; ring
    intro j
    unfold Acc4.get
    split <;> apply hb
  · intro j hj hch
    have key : ∀ e, ∑ f ∈ range F, ∑ d ∈ range D, xorPopcount (V j f d) (X e f d)
        = p.accPix inp filt (oi e) (g * p.outPerGroup + (blk * 4 + j)) := by
      intro e
      rw [BConv.accPix_flat]
      apply sum_congr rfl
      intro f hf
      apply sum_congr rfl
      intro d hd
      have hf : f < F := by simpa using hf
      have hd : d < D := by simpa using hd
      have hV : V j f d = p.filtWord filt (g * p.outPerGroup + (blk * 4 + j)) (f / p.filtW) (f % p.filtW) d := by
        have := hm.pw g blk f d j hg hblk hf hd hj hch
        simp only [V, hidx]
        simp only [List.getD_eq_getElem?_getD]
        rw [this]; rfl
      have hX : X e f d = p.inWord inp (oi e / (p.outH * p.outW)) (oi e % (p.outH * p.outW) / p.outW)
          (oi e % p.outW) (g * p.outPerGroup + (blk * 4 + j)) (f / p.filtW) (f % p.filtW) d := by
        simp only [X]
        unfold BConv.inWord
        rw [(hgroup j hch).1, hoc0]
      rw [hV, hX]
    have e0 : oi 0 = 2 * t := by simp only [oi]; omega
    have e1 : oi 1 = min (2 * t + 1) (n - 1) := by simp only [oi]; omega
    have k0 := key 0
    have k1 := key 1
    rw [e0] at k0
    rw [e1] at k1
    rcases j with _ | _ | _ | _ | j
    · exact ⟨k0, k1⟩
    · exact ⟨k0, k1⟩
    · exact ⟨k0, k1⟩
    · exact ⟨k0, k1⟩
    · omega

end Verif
