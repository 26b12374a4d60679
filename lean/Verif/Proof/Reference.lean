import Verif.Model.Reference
import Verif.Spec.Conv
import Verif.Proof.Popcount
import Verif.Proof.Index

/-! The accumulator of the reference kernel. -/

namespace Verif

open Finset

namespace BConv

/-- Word `k` (of the group of output channel `oc`) of the input pixel seen by filter
position `(fy, fx)`; 0 (all +1) outside the image. -/
def inWord (p : BConv) (inp : List Word) (b oy ox oc fy fx k : Nat) : Word :=
  if p.inside (p.inY oy fy) (p.inX ox fx) then
    inp.getD (offset4 p.inH p.inW p.inDepth b (p.inY oy fy).toNat (p.inX ox fx).toNat
      (oc / p.outPerGroup * p.filtDepth + k)) 0#32
  else 0#32

/-- Word of the filter. -/
def filtWord (p : BConv) (filt : List Word) (oc fy fx k : Nat) : Word :=
  filt.getD (offset4 p.filtH p.filtW p.filtDepth oc fy fx k) 0#32

/-- Popcount of one filter pixel. -/
def accPixel (p : BConv) (inp filt : List Word) (b oy ox oc fy fx : Nat) : Nat :=
  ∑ k ∈ range p.filtDepth, xorPopcount (p.inWord inp b oy ox oc fy fx k) (p.filtWord filt oc fy fx k)

/-- The accumulator without zero padding. -/
def acc (p : BConv) (inp filt : List Word) (b oy ox oc : Nat) : Nat :=
  ∑ fy ∈ range p.filtH, ∑ fx ∈ range p.filtW, p.accPixel inp filt b oy ox oc fy fx

/-- The accumulator of the reference kernel, with zero padding if enabled. -/
def accRef (p : BConv) (inp filt : List Word) (b oy ox oc : Nat) : Nat :=
  ∑ fy ∈ range p.filtH, ∑ fx ∈ range p.filtW,
    if p.zeroPadding && !p.inside (p.inY oy fy) (p.inX ox fx) then p.binaryZeroPoint
    else p.accPixel inp filt b oy ox oc fy fx

theorem accRef_eq_acc {p : BConv} (h : p.zeroPadding = false) (inp filt : List Word)
    (b oy ox oc : Nat) : p.accRef inp filt b oy ox oc = p.acc inp filt b oy ox oc := by
  unfold accRef acc
  simp [h]

theorem inside_iff {p : BConv} {iy ix : Int} :
    p.inside iy ix = true ↔ 0 ≤ iy ∧ iy < p.inH ∧ 0 ≤ ix ∧ ix < p.inW := by
  unfold inside
  simp only [Bool.and_eq_true, decide_eq_true_eq]
  omega

theorem group_lt {p : BConv} (_hg : 0 < p.groups) (hd : p.cout % p.groups = 0) {oc : Nat}
    (h : oc < p.cout) : oc / p.outPerGroup < p.groups := by
  unfold outPerGroup
  have e : p.groups * (p.cout / p.groups) = p.cout := Nat.mul_div_cancel' (Nat.dvd_of_mod_eq_zero hd)
  have hpos : 0 < p.cout / p.groups := by
    rcases Nat.eq_zero_or_pos (p.cout / p.groups) with h0 | h0
    · rw [h0] at e; omega
    · exact h0
  rw [Nat.div_lt_iff_lt_mul hpos, e]
  exact h

theorem in_index_lt {p : BConv} {inp : List Word} (hg : 0 < p.groups) (hd : p.cout % p.groups = 0)
    (hdep : p.inDepth = p.groups * p.filtDepth)
    (hlen : inp.length = p.batches * p.inH * p.inW * p.inDepth)
    {b oc k : Nat} {iy ix : Int} (hb : b < p.batches) (hoc : oc < p.cout) (hk : k < p.filtDepth)
    (hi : p.inside iy ix = true) :
    offset4 p.inH p.inW p.inDepth b iy.toNat ix.toNat (oc / p.outPerGroup * p.filtDepth + k)
      < inp.length := by
  rw [inside_iff] at hi
  rw [hlen]
  apply offset4_lt hb (by omega) (by omega)
  rw [hdep]
  exact row_lt (group_lt hg hd hoc) hk

end BConv

theorem rd_getD {xs : List Word} {i : Nat} (h : i < xs.length) : rd xs i = some (xs.getD i 0#32) := by
  simp [rd, h]

theorem refPixel_eq {p : BConv} {inp filt : List Word} (hg : 0 < p.groups)
    (hd : p.cout % p.groups = 0) (hdep : p.inDepth = p.groups * p.filtDepth)
    (hlen : inp.length = p.batches * p.inH * p.inW * p.inDepth)
    (hflen : filt.length = p.cout * p.filtH * p.filtW * p.filtDepth)
    {b oy ox oc fy fx : Nat} (hb : b < p.batches) (hoc : oc < p.cout)
    (hfy : fy < p.filtH) (hfx : fx < p.filtW) (a : Nat) :
    refPixel p inp filt b (p.inY oy fy) (p.inX ox fx) oc fy fx a
      = some (a + p.accPixel inp filt b oy ox oc fy fx) := by
  unfold refPixel BConv.accPixel
  apply forN_sum
  intro k acc hk
  have h1 : (if p.inside (p.inY oy fy) (p.inX ox fx) then
        rd inp (offset4 p.inH p.inW p.inDepth b (p.inY oy fy).toNat (p.inX ox fx).toNat
          (oc / p.outPerGroup * p.filtDepth + k))
      else some 0#32) = some (p.inWord inp b oy ox oc fy fx k) := by
    unfold BConv.inWord
    split
    · rename_i hi
      exact rd_getD (BConv.in_index_lt hg hd hdep hlen hb hoc hk hi)
    · rfl
  have h2 : rd filt (offset4 p.filtH p.filtW p.filtDepth oc fy fx k)
      = some (p.filtWord filt oc fy fx k) := by
    apply rd_getD
    rw [hflen]
    exact offset4_lt hoc hfy hfx hk
  simp only [h1, h2, Option.bind_eq_bind, Option.bind_some]

theorem refAccum_eq {p : BConv} {inp filt : List Word} (hg : 0 < p.groups)
    (hd : p.cout % p.groups = 0) (hdep : p.inDepth = p.groups * p.filtDepth)
    (hlen : inp.length = p.batches * p.inH * p.inW * p.inDepth)
    (hflen : filt.length = p.cout * p.filtH * p.filtW * p.filtDepth)
    {b oy ox oc : Nat} (hb : b < p.batches) (hoc : oc < p.cout) :
    refAccum p inp filt b oy ox oc = some (p.accRef inp filt b oy ox oc) := by
  unfold refAccum BConv.accRef
  rw [forN_sum (v := fun fy => ∑ fx ∈ range p.filtW,
    if p.zeroPadding && !p.inside (p.inY oy fy) (p.inX ox fx) then p.binaryZeroPoint
    else p.accPixel inp filt b oy ox oc fy fx)]
  · simp
  · intro fy a hfy
    apply forN_sum
    intro fx a hfx
    simp only []
    split
    · rfl
    · exact refPixel_eq hg hd hdep hlen hflen hb hoc hfy hfx a

/-- The whole reference kernel, non-bitpacked output. -/
theorem bconvReference_eq {α : Type} {p : BConv} {inp filt : List Word} (hg : 0 < p.groups)
    (hd : p.cout % p.groups = 0) (hdep : p.inDepth = p.groups * p.filtDepth)
    (hlen : inp.length = p.batches * p.inH * p.inW * p.inDepth)
    (hflen : filt.length = p.cout * p.filtH * p.filtW * p.filtDepth)
    {run : Nat → Nat → Option α} {f : Nat → Nat → α}
    {B : Nat} (hB : ∀ b oy ox oc, b < p.batches → oc < p.cout → p.accRef inp filt b oy ox oc ≤ B)
    (hrun : ∀ a c, a ≤ B → c < p.cout → run a c = some (f a c))
    {out0 : List α} (hout : out0.length = p.batches * p.outH * p.outW * p.cout) :
    ∃ out, bconvReference p inp filt run out0 = some out ∧
      out.length = p.batches * p.outH * p.outW * p.cout ∧
      ∀ b oy ox oc, b < p.batches → oy < p.outH → ox < p.outW → oc < p.cout →
        out[offset4 p.outH p.outW p.cout b oy ox oc]?
          = some (f (p.accRef inp filt b oy ox oc) oc) := by
  let g : Nat → α := fun i =>
    f (p.accRef inp filt (dB p.outH p.outW p.cout i) (dY p.outH p.outW p.cout i)
      (dX p.outW p.cout i) (dC p.cout i)) (dC p.cout i)
  have hmain : ∃ out, bconvReference p inp filt run out0 = some out ∧
      Fills out0 out (fun i => False ∨ ∃ b, b < p.batches ∧ ∃ oy, oy < p.outH ∧ ∃ ox, ox < p.outW ∧
        ∃ oc, oc < p.cout ∧ i = offset4 p.outH p.outW p.cout b oy ox oc) g := by
    apply Fills.loop _ (Fills.init _ _ (by simp))
    intro b W s hb hs
    apply Fills.loop _ hs
    intro oy W s hoy hs
    apply Fills.loop _ hs
    intro ox W s hox hs
    apply Fills.loop _ hs
    intro oc W s hoc hs
    rw [refAccum_eq hg hd hdep hlen hflen hb hoc]
    simp only [Option.bind_eq_bind, Option.bind_some, hrun _ _ (hB _ _ _ _ hb hoc) hoc]
    apply hs.write
    · rw [hout]; exact offset4_lt hb hoy hox hoc
    · simp only [g]
      obtain ⟨e1, e2, e3, e4⟩ := offset4_decode (b := b) hoy hox hoc
      rw [e1, e2, e3, e4]
  obtain ⟨out, h1, h2⟩ := hmain
  refine ⟨out, h1, by rw [h2.len, hout], ?_⟩
  intro b oy ox oc hb hoy hox hoc
  rw [h2.hit _ (by rw [hout]; exact offset4_lt hb hoy hox hoc)
    (Or.inr ⟨b, hb, oy, hoy, ox, hox, oc, hoc, rfl⟩)]
  simp only [g]
  obtain ⟨e1, e2, e3, e4⟩ := offset4_decode (b := b) hoy hox hoc
  rw [e1, e2, e3, e4]

/-- One pixel of the bitpacked reference kernel. -/
theorem refPixelBits_fills {p : BConv} {inp filt : List Word} (hg : 0 < p.groups)
    (hd : p.cout % p.groups = 0) (hdep : p.inDepth = p.groups * p.filtDepth)
    (hlen : inp.length = p.batches * p.inH * p.inW * p.inDepth)
    (hflen : filt.length = p.cout * p.filtH * p.filtW * p.filtDepth)
    {run : Nat → Nat → Option Bool} {f : Nat → Nat → Bool}
    {B : Nat} (hB : ∀ b oy ox oc, b < p.batches → oc < p.cout → p.accRef inp filt b oy ox oc ≤ B)
    (hrun : ∀ a c, a ≤ B → c < p.cout → run a c = some (f a c))
    {out0 s : List Word} {W0 : Nat → Prop} {g : Nat → Word}
    (hout : out0.length = p.batches * p.outH * p.outW * packedSize p.cout)
    {b oy ox : Nat} (hb : b < p.batches) (hoy : oy < p.outH) (hox : ox < p.outW)
    (hs : Fills out0 s W0 g)
    (hgv : ∀ k, k < packedSize p.cout → g (offset4 p.outH p.outW (packedSize p.cout) b oy ox k)
      = wordOf fun i => if 32 * k + i < p.cout then
          f (p.accRef inp filt b oy ox (32 * k + i)) (32 * k + i) else false) :
    ∃ s', (refPixelBits p inp filt run b oy ox s).map (·.2) = some s' ∧
      Fills out0 s' (fun i => W0 i ∨ ∃ k, k < packedSize p.cout ∧
        i = offset4 p.outH p.outW (packedSize p.cout) b oy ox k) g := by
  have hps : packedSize p.cout = (p.cout + 31) / 32 := by simp [packedSize, ceilDiv, W]
  -- invariant: `n` channels done, the complete words are written, the column holds the rest
  have := forN_inv (n := p.cout)
    (body := fun oc (st : Word × List Word) => do
      let acc ← refAccum p inp filt b oy ox oc
      let bit ← run acc oc
      let col := if bit then st.1 ||| (1#32 <<< (oc % 32)) else st.1
      if (oc + 1) % 32 = 0 ∨ oc + 1 = p.cout then do
        let out ← wr st.2 (offset4 p.outH p.outW (packedSize p.cout) b oy ox (oc / 32)) col
        some (0#32, out)
      else some (col, st.2))
    (s := (0#32, s))
    (fun n st =>
      (∀ i, i < 32 → st.1.getLsbD i = (if n < p.cout ∧ i < n % 32 then
          f (p.accRef inp filt b oy ox (32 * (n / 32) + i)) (32 * (n / 32) + i) else false)) ∧
      Fills out0 st.2 (fun i => W0 i ∨ ∃ k, k < (if n = p.cout then packedSize p.cout else n / 32) ∧
        i = offset4 p.outH p.outW (packedSize p.cout) b oy ox k) g)
    (by
      refine ⟨by simp, ?_⟩
      refine hs.congr (fun i _ => ?_) (fun _ _ _ => rfl)
      constructor
      · rintro (h | ⟨k, hk, _⟩)
        · exact h
        · exfalso
          split at hk
          · rename_i h0; rw [hps, ← h0] at hk; simp at hk
          · simp at hk
      · exact Or.inl)
    (by
      rintro oc ⟨col, out⟩ hoc ⟨hcol, hf⟩
      simp only at hcol hf
      rw [refAccum_eq hg hd hdep hlen hflen hb hoc]
      simp only [Option.bind_eq_bind, Option.bind_some, hrun _ _ (hB _ _ _ _ hb hoc) hoc]
      generalize hbit : f (p.accRef inp filt b oy ox oc) oc = bit
      have hcol' : ∀ i, i < 32 → (if bit then col ||| (1#32 <<< (oc % 32)) else col).getLsbD i
          = if i ≤ oc % 32 then
              f (p.accRef inp filt b oy ox (32 * (oc / 32) + i)) (32 * (oc / 32) + i) else false := by
        intro i hi
        have h0 := hcol i hi
        have e : (if bit then col ||| (1#32 <<< (oc % 32)) else col).getLsbD i
            = (col.getLsbD i || (bit && decide (i = oc % 32))) := by
          cases bit
          · simp
          · simp only [if_true]
            rw [BitVec.getLsbD_or, getLsbD_one_shl]
            simp [hi]
        rw [e, h0]
        by_cases hlt : i < oc % 32
        · have hne : i ≠ oc % 32 := by omega
          have hle : i ≤ oc % 32 := by omega
          simp [hoc, hlt, hne, hle]
        · by_cases heq : i = oc % 32
          · subst heq
            have e2 : 32 * (oc / 32) + oc % 32 = oc := by omega
            simp [e2, hbit]
          · have hle : ¬ i ≤ oc % 32 := by omega
            simp [hlt, heq, hle]
      by_cases hend : (oc + 1) % 32 = 0 ∨ oc + 1 = p.cout
      · rw [if_pos hend]
        have hk : oc / 32 < packedSize p.cout := by rw [hps]; omega
        obtain ⟨s', hw, hf'⟩ := hf.write
          (i := offset4 p.outH p.outW (packedSize p.cout) b oy ox (oc / 32))
          (v := if bit then col ||| (1#32 <<< (oc % 32)) else col)
          (by rw [hout]; exact offset4_lt hb hoy hox hk)
          (by
            rw [hgv _ hk]
            apply eq_wordOf
            intro i hi
            rw [hcol' i hi]
            by_cases hle : i ≤ oc % 32
            · rw [if_pos hle, if_pos (by omega)]
            · rw [if_neg hle, if_neg (by omega)])
        simp only [hw, Option.bind_some]
        refine ⟨_, rfl, ?_, ?_⟩
        · intro i hi
          simp only [BitVec.getLsbD_zero]
          rw [if_neg (by omega)]
        · refine hf'.congr (fun i _ => ?_) (fun _ _ _ => rfl)
          have hold : (if oc = p.cout then packedSize p.cout else oc / 32) = oc / 32 :=
            if_neg (by omega)
          rw [hold]
          have hcnt : (if oc + 1 = p.cout then packedSize p.cout else (oc + 1) / 32) = oc / 32 + 1 := by
            split
            · rw [hps]; omega
            · omega
          rw [hcnt]
          constructor
          · rintro (h | ⟨k, hk, rfl⟩)
            · exact Or.inl (Or.inl h)
            · by_cases hke : k = oc / 32
              · subst hke; exact Or.inr rfl
              · exact Or.inl (Or.inr ⟨k, by omega, rfl⟩)
          · rintro ((h | ⟨k, hk, rfl⟩) | rfl)
            · exact Or.inl h
            · exact Or.inr ⟨k, by omega, rfl⟩
            · exact Or.inr ⟨oc / 32, by omega, rfl⟩
      · rw [if_neg hend]
        refine ⟨_, rfl, ?_, ?_⟩
        · intro i hi
          simp only
          rw [hcol' i hi]
          have e1 : (oc + 1) / 32 = oc / 32 := by omega
          rw [e1]
          by_cases hle : i ≤ oc % 32
          · rw [if_pos hle, if_pos (by omega)]
          · rw [if_neg hle, if_neg (by omega)]
        · refine hf.congr (fun i _ => ?_) (fun _ _ _ => rfl)
          have hold : (if oc = p.cout then packedSize p.cout else oc / 32) = oc / 32 :=
            if_neg (by omega)
          have hnew : (if oc + 1 = p.cout then packedSize p.cout else (oc + 1) / 32) = oc / 32 := by
            rw [if_neg (by omega)]; omega
          rw [hold, hnew])
  obtain ⟨⟨col, s'⟩, h, _, hf⟩ := this
  refine ⟨s', ?_, ?_⟩
  · unfold refPixelBits
    rw [h]; rfl
  · simpa using hf

/-- The whole reference kernel, bitpacked output. -/
theorem bconvReferenceBits_eq {p : BConv} {inp filt : List Word} (hg : 0 < p.groups)
    (hd : p.cout % p.groups = 0) (hdep : p.inDepth = p.groups * p.filtDepth)
    (hlen : inp.length = p.batches * p.inH * p.inW * p.inDepth)
    (hflen : filt.length = p.cout * p.filtH * p.filtW * p.filtDepth)
    {run : Nat → Nat → Option Bool} {f : Nat → Nat → Bool}
    {B : Nat} (hB : ∀ b oy ox oc, b < p.batches → oc < p.cout → p.accRef inp filt b oy ox oc ≤ B)
    (hrun : ∀ a c, a ≤ B → c < p.cout → run a c = some (f a c))
    {out0 : List Word} (hout : out0.length = p.batches * p.outH * p.outW * packedSize p.cout) :
    ∃ out, bconvReferenceBits p inp filt run out0 = some out ∧
      out.length = p.batches * p.outH * p.outW * packedSize p.cout ∧
      ∀ b oy ox k, b < p.batches → oy < p.outH → ox < p.outW → k < packedSize p.cout →
        out[offset4 p.outH p.outW (packedSize p.cout) b oy ox k]?
          = some (wordOf fun i => if 32 * k + i < p.cout then
              f (p.accRef inp filt b oy ox (32 * k + i)) (32 * k + i) else false) := by
  let D := packedSize p.cout
  let g : Nat → Word := fun j => wordOf fun i =>
    if 32 * dC D j + i < p.cout then
      f (p.accRef inp filt (dB p.outH p.outW D j) (dY p.outH p.outW D j) (dX p.outW D j)
        (32 * dC D j + i)) (32 * dC D j + i) else false
  have hgv : ∀ b oy ox k, oy < p.outH → ox < p.outW → k < D →
      g (offset4 p.outH p.outW D b oy ox k)
        = wordOf fun i => if 32 * k + i < p.cout then
          f (p.accRef inp filt b oy ox (32 * k + i)) (32 * k + i) else false := by
    intro b oy ox k hoy hox hk
    simp only [g]
    obtain ⟨e1, e2, e3, e4⟩ := offset4_decode (b := b) hoy hox hk
    rw [e1, e2, e3, e4]
  have hmain : ∃ out, bconvReferenceBits p inp filt run out0 = some out ∧
      Fills out0 out (fun i => False ∨ ∃ b, b < p.batches ∧ ∃ oy, oy < p.outH ∧ ∃ ox, ox < p.outW ∧
        ∃ k, k < D ∧ i = offset4 p.outH p.outW D b oy ox k) g := by
    apply Fills.loop _ (Fills.init _ _ (by simp))
    intro b W s hb hs
    apply Fills.loop _ hs
    intro oy W s hoy hs
    apply Fills.loop _ hs
    intro ox W s hox hs
    exact refPixelBits_fills hg hd hdep hlen hflen hB hrun hout hb hoy hox hs
      (fun k hk => hgv b oy ox k hoy hox hk)
  obtain ⟨out, h1, h2⟩ := hmain
  refine ⟨out, h1, by rw [h2.len, hout], ?_⟩
  intro b oy ox k hb hoy hox hk
  rw [h2.hit _ (by rw [hout]; exact offset4_lt hb hoy hox hk)
    (Or.inr ⟨b, hb, oy, hoy, ox, hox, k, hk, rfl⟩)]
  rw [hgv b oy ox k hoy hox hk]

/-! ### The accumulator is the ±1 convolution -/

namespace BConv

variable {p : BConv} {inp filt : List Word}

theorem Ok.depth' (h : p.Ok inp filt) : p.inDepth = p.groups * p.filtDepth := h.depth

/-- The words of one filter pixel, inside the image or not, encode the ±1 products. -/
theorem accPixel_eq (h : p.Ok inp filt) {b oy ox oc fy fx : Nat} (hb : b < p.batches)
    (hoc : oc < p.cout) (hfy : fy < p.filtH) (hfx : fx < p.filtW) :
    (p.cinG : Int) - 2 * (p.accPixel inp filt b oy ox oc fy fx : Int)
      = ∑ c ∈ range p.cinG, p.inputAt 1 inp b (p.inY oy fy) (p.inX ox fx)
          (oc / (p.cout / p.groups) * p.cinG + c) * p.weight filt oc fy fx c := by
  unfold accPixel
  rw [h.filtDepth]
  have hgl := group_lt h.groups_pos h.cout_div hoc
  have hfrow : (oc * p.filtH + fy) * p.filtW + fx < p.cout * p.filtH * p.filtW :=
    row_lt (row_lt hoc hfy) hfx
  rw [dot_words]
  · apply sum_congr rfl
    intro c hc
    have hc : c < p.cinG := by simpa using hc
    congr 1
    · -- input
      unfold inWord inputAt
      by_cases hi : p.inside (p.inY oy fy) (p.inX ox fx) = true
      · rw [if_pos hi, if_pos (inside_iff.1 hi)]
        unfold pm offset4 outPerGroup
        rw [← h.inDepth]
        rcases h.group_words with hg1 | ⟨hg1, hg2⟩
        · have h0 : oc / (p.cout / p.groups) = 0 := by
            unfold outPerGroup at hgl; rw [hg1] at hgl ⊢; exact Nat.lt_one_iff.1 hgl
          rw [h0]
          simp
        · have e : p.cinG = 32 * p.filtDepth := by rw [h.filtDepth]; omega
          have e2 : ∀ g, g * p.cinG = 32 * (g * p.filtDepth) := by
            intro g; rw [e]; ring
          have e3 : (oc / (p.cout / p.groups) * p.cinG + c) / 32
              = oc / (p.cout / p.groups) * p.filtDepth + c / 32 := by
            rw [e2]; omega
          have e4 : (oc / (p.cout / p.groups) * p.cinG + c) % 32 = c % 32 := by
            rw [e2]; omega
          rw [e3, e4]
      · rw [if_neg hi, if_neg (fun hh => hi (inside_iff.2 hh))]
        simp [signVal]
    · unfold filtWord weight pm offset4
      rw [← h.filtDepth]
  · -- unused input bits
    intro k i hk hi hc
    unfold inWord
    split
    · rename_i hin
      rw [inside_iff] at hin
      rcases h.group_words with hg1 | ⟨hg1, hg2⟩
      · have h0 : oc / p.outPerGroup = 0 := by rw [hg1] at hgl; exact Nat.lt_one_iff.1 hgl
        rw [h0]
        have hcg : p.cinG = p.cin := by unfold cinG; rw [hg1]; simp
        have hk' : k < p.inDepth := by rw [h.inDepth, ← hcg]; exact hk
        have := h.inUnused ((b * p.inH + (p.inY oy fy).toNat) * p.inW + (p.inX ox fx).toNat) k i
          (row_lt (row_lt hb (by omega)) (by omega)) hk' hi (by omega)
        simpa [offset4] using this
      · exfalso; omega
    · simp
  · -- unused filter bits
    intro k i hk hi hc
    unfold filtWord offset4
    exact h.filtUnused _ k i hfrow (by rw [h.filtDepth]; exact hk) hi hc

theorem inY_eq (oy fy : Nat) : p.inY oy fy = (oy : Int) * p.strideH - p.padH + p.dilH * fy := by
  unfold inY; push_cast; ring

theorem inX_eq (ox fx : Nat) : p.inX ox fx = (ox : Int) * p.strideW - p.padW + p.dilW * fx := by
  unfold inX; push_cast; ring

/-- `K - 2 * acc` is the convolution padded with `+1`. -/
theorem acc_eq_conv (h : p.Ok inp filt) {b oy ox oc : Nat} (hb : b < p.batches)
    (hoc : oc < p.cout) :
    (p.K : Int) - 2 * (p.acc inp filt b oy ox oc : Int) = p.conv 1 inp filt b oy ox oc := by
  unfold acc conv K
  push_cast
  have : ((p.filtH : Int) * p.filtW * p.cinG)
      = ∑ _fy ∈ range p.filtH, ∑ _fx ∈ range p.filtW, (p.cinG : Int) := by
    simp [mul_assoc]
  rw [this, mul_sum, ← sum_sub_distrib]
  apply sum_congr rfl
  intro fy hfy
  rw [mul_sum, ← sum_sub_distrib]
  apply sum_congr rfl
  intro fx hfx
  rw [accPixel_eq h hb hoc (by simpa using hfy) (by simpa using hfx), inY_eq, inX_eq]

/-- With zero padding, an even number of channels per group, `K - 2 * acc` is the
convolution padded with `0`. -/
theorem accRef_eq_conv_zero (h : p.Ok inp filt) (hz : p.zeroPadding = true)
    (heven : p.cinG % 2 = 0) {b oy ox oc : Nat} (hb : b < p.batches) (hoc : oc < p.cout) :
    (p.K : Int) - 2 * (p.accRef inp filt b oy ox oc : Int) = p.conv 0 inp filt b oy ox oc := by
  unfold accRef conv K
  push_cast
  have : ((p.filtH : Int) * p.filtW * p.cinG)
      = ∑ _fy ∈ range p.filtH, ∑ _fx ∈ range p.filtW, (p.cinG : Int) := by
    simp [mul_assoc]
  rw [this, mul_sum, ← sum_sub_distrib]
  apply sum_congr rfl
  intro fy hfy
  rw [mul_sum, ← sum_sub_distrib]
  apply sum_congr rfl
  intro fx hfx
  rw [hz]
  simp only [Bool.true_and]
  cases hi : p.inside (p.inY oy fy) (p.inX ox fx) with
  | true =>
    simp only [Bool.not_true]
    rw [if_neg (by simp), accPixel_eq h hb hoc (by simpa using hfy) (by simpa using hfx), ← inY_eq, ← inX_eq]
    apply sum_congr rfl
    intro c _
    unfold inputAt
    rw [if_pos (inside_iff.1 hi), if_pos (inside_iff.1 hi)]
  | false =>
    simp only [Bool.not_false, if_true]
    rw [← inY_eq, ← inX_eq]
    rw [sum_eq_zero]
    · unfold binaryZeroPoint
      have : p.cin / p.groups = p.cinG := rfl
      rw [this]
      push_cast
      omega
    · intro c _
      unfold inputAt
      rw [if_neg (fun hh => by rw [inside_iff.2 hh] at hi; cases hi)]
      simp

end BConv

end Verif
