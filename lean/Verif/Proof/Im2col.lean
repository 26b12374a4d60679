import Verif.Proof.BGemm

/-! The right-hand side matrix of the BGEMM: im2col buffer or the input itself. -/

namespace Verif

open Finset

/-- Flattened filter position and word. -/
theorem flat_filter {fH fW D col fy fx d : Nat} :
    ((col * fH + fy) * fW + fx) * D + d = col * (D * fH * fW) + ((fy * fW + fx) * D + d) := by ring

theorem flat_filter_lt {fH fW D fy fx d : Nat} (hfy : fy < fH) (hfx : fx < fW) (hd : d < D) :
    (fy * fW + fx) * D + d < D * fH * fW := by
  have : D * fH * fW = fH * fW * D := by ring
  rw [this]
  exact row_lt (row_lt hfy hfx) hd

/-- Entry `k` of column `j` of the RHS matrix. -/
def rhsWord (p : BConv) (inp : List Word) (j k : Nat) : Word :=
  p.inWord inp (j / (p.outH * p.outW)) (j % (p.outH * p.outW) / p.outW) (j % p.outW) 0
    (k / p.filtDepth / p.filtW) (k / p.filtDepth % p.filtW) (k % p.filtDepth)

theorem pixel_decode {oH oW b oy ox : Nat} (hy : oy < oH) (hx : ox < oW) :
    ((b * oH + oy) * oW + ox) / (oH * oW) = b ∧
    ((b * oH + oy) * oW + ox) % (oH * oW) / oW = oy ∧
    ((b * oH + oy) * oW + ox) % oW = ox := by
  have e : (b * oH + oy) * oW + ox = b * (oH * oW) + (oy * oW + ox) := by ring
  have hlt : oy * oW + ox < oH * oW := row_lt hy hx
  refine ⟨?_, ?_, ?_⟩
  · rw [e, (div_mod_row hlt).1]
  · rw [e, (div_mod_row hlt).2, (div_mod_row hx).1]
  · rw [(div_mod_row hx).2]

theorem im2colLoop_eq {p : BConv} {inp : List Word} (hD : p.inDepth = p.filtDepth)
    (hlen : inp.length = p.batches * p.inH * p.inW * p.inDepth) {buf0 : List Word}
    (hbuf : buf0.length = p.batches * p.outH * p.outW * (p.filtDepth * p.filtH * p.filtW)) :
    im2colLoop p inp buf0 = some ((List.range buf0.length).map
      (fun i => rhsWord p inp (i / (p.filtDepth * p.filtH * p.filtW)) (i % (p.filtDepth * p.filtH * p.filtW)))) := by
  unfold im2colLoop
  simp only [hD]
  set f : Nat → Word := fun i =>
    rhsWord p inp (i / (p.filtDepth * p.filtH * p.filtW)) (i % (p.filtDepth * p.filtH * p.filtW)) with hf
  have key := Fills.loop (s0 := buf0) (s := buf0) (n := p.batches) (f := f) (W0 := fun _ => False)
    (body := fun b buf =>
    forN p.outH (fun oy buf =>
      forN p.outW (fun ox buf =>
        forN p.filtH (fun fy buf =>
          forN p.filtW (fun fx buf =>
            forN p.filtDepth (fun d buf => do
              let iy := p.inY oy fy
              let ix := p.inX ox fx
              let v ← (if p.inside iy ix then
                  rd inp (offset4 p.inH p.inW p.filtDepth b iy.toNat ix.toNat d)
                else some 0#32)
              wr buf ((((((b * p.outH + oy) * p.outW + ox) * p.filtH + fy) * p.filtW + fx)) * p.filtDepth + d) v)
              buf) buf) buf) buf) buf)
    (fun b i => ∃ oy, oy < p.outH ∧ ∃ ox, ox < p.outW ∧ ∃ fy, fy < p.filtH ∧ ∃ fx, fx < p.filtW ∧
      ∃ d, d < p.filtDepth ∧
        i = (((((b * p.outH + oy) * p.outW + ox) * p.filtH + fy) * p.filtW + fx)) * p.filtDepth + d)
    (Fills.init buf0 f (fun _ _ h => h))
    (by
      intro b W s hb hs
      refine Fills.loop (n := p.outH) _ hs ?_
      intro oy W s hoy hs
      refine Fills.loop (n := p.outW) _ hs ?_
      intro ox W s hox hs
      refine Fills.loop (n := p.filtH) _ hs ?_
      intro fy W s hfy hs
      refine Fills.loop (n := p.filtW) _ hs ?_
      intro fx W s hfx hs
      refine Fills.loop (n := p.filtDepth) _ hs ?_
      intro d W s hd hs
      have hfl := flat_filter_lt hfy hfx hd
      have hlt : (((((b * p.outH + oy) * p.outW + ox) * p.filtH + fy) * p.filtW + fx)) * p.filtDepth + d
          < buf0.length := by
        rw [flat_filter, hbuf]
        exact row_lt (row_lt (row_lt hb hoy) hox) hfl
      have hval : f ((((((b * p.outH + oy) * p.outW + ox) * p.filtH + fy) * p.filtW + fx)) * p.filtDepth + d)
          = p.inWord inp b oy ox 0 fy fx d := by
        rw [hf]
        simp only []
        rw [flat_filter, (div_mod_row hfl).1, (div_mod_row hfl).2]
        unfold rhsWord
        obtain ⟨e1, e2, e3⟩ := pixel_decode (b := b) hoy hox
        rw [e1, e2, e3, (div_mod_row hd).1, (div_mod_row hd).2, (div_mod_row hfx).1, (div_mod_row hfx).2]
      simp only []
      have hv : (if p.inside (p.inY oy fy) (p.inX ox fx) = true then
          rd inp (offset4 p.inH p.inW p.filtDepth b (p.inY oy fy).toNat (p.inX ox fx).toNat d)
          else some 0#32) = some (p.inWord inp b oy ox 0 fy fx d) := by
        unfold BConv.inWord
        by_cases hin : p.inside (p.inY oy fy) (p.inX ox fx) = true
        · rw [if_pos hin, if_pos hin]
          have h := BConv.inside_iff.1 hin
          rw [Nat.zero_div, Nat.zero_mul, Nat.zero_add, hD]
          apply rd_getD
          rw [hlen, hD]
          exact offset4_lt hb (by omega) (by omega) hd
        · rw [if_neg hin, if_neg hin]
      rw [hv]
      simp only [Option.bind_eq_bind, Option.bind_some]
      exact hs.write hlt hval.symm)
  obtain ⟨s', h1, h2⟩ := key
  rw [h1]
  congr 1
  apply h2.all
  intro i hi
  right
  rw [hbuf] at hi
  obtain ⟨a1, a2⟩ := mod_lt_of_lt_mul hi
  obtain ⟨a3, a4⟩ := mod_lt_of_lt_mul a1
  obtain ⟨a5, a6⟩ := mod_lt_of_lt_mul a3
  have a2' : i % (p.filtDepth * p.filtH * p.filtW) < p.filtH * p.filtW * p.filtDepth := by
    have e : p.filtDepth * p.filtH * p.filtW = p.filtH * p.filtW * p.filtDepth := by ring
    rw [← e]; exact a2
  obtain ⟨b1, b2⟩ := mod_lt_of_lt_mul a2'
  obtain ⟨b3, b4⟩ := mod_lt_of_lt_mul b1
  refine ⟨_, a5, _, a6, _, a4, _, b3, _, b4, _, b2, ?_⟩
  rw [flat_filter, div_mul_add_mod, div_mul_add_mod, div_mul_add_mod, div_mul_add_mod, div_mul_add_mod]

theorem geom_unit {p : Padding} {inS : Nat} {o : Nat}
    (ho : (o : Int) = computeOutSize p inS 1 1 1) : o = inS ∧ computePadding 1 1 inS 1 o = 0 := by
  have : o = inS := by
    unfold computeOutSize effSize at ho
    cases p <;> simp at ho <;> omega
  subst this
  refine ⟨rfl, ?_⟩
  unfold computePadding effSize
  simp

/-- What the BGEMM sees as RHS: dimensions and entries. -/
theorem im2colRhs_eq {p : BConv} {inp filt : List Word} (h : p.Ok inp filt) (hg : p.groups = 1)
    (hgeo : p.Geom) :
    ∃ rhs, im2colRhs p inp = some (rhs, p.filtDepth * p.filtH * p.filtW, p.batches * p.outH * p.outW) ∧
      ∀ j k, j < p.batches * p.outH * p.outW → k < p.filtDepth * p.filtH * p.filtW →
        rd rhs (j * (p.filtDepth * p.filtH * p.filtW) + k) = some (rhsWord p inp j k) := by
  have hD : p.inDepth = p.filtDepth := by have := h.depth; rw [hg] at this; omega
  have hps : packedSize p.cin = p.filtDepth := by rw [packedSize_eq, ← h.inDepth, hD]
  unfold im2colRhs
  by_cases hn : needIm2col p = true
  · rw [if_pos hn, hps]
    simp only []
    rw [im2colLoop_eq hD h.inLen (by simp)]
    refine ⟨_, rfl, ?_⟩
    intro j k hj hk
    have hlt := row_lt hj hk
    unfold rd
    rw [List.getElem?_map, List.length_replicate, List.getElem?_range hlt, Option.map_some,
      (div_mod_row hk).1, (div_mod_row hk).2]
  · rw [if_neg hn]
    unfold needIm2col at hn
    simp only [Bool.or_eq_true, bne_iff_ne, ne_eq, not_or, Decidable.not_not] at hn
    obtain ⟨⟨⟨⟨⟨s1, s2⟩, s3⟩, s4⟩, s5⟩, s6⟩ := hn
    have g1 := hgeo.outH
    have g2 := hgeo.outW
    have g3 := hgeo.padH
    have g4 := hgeo.padW
    rw [s2, s4, s6] at g1
    rw [s1, s3, s5] at g2
    rw [s2, s4, s6, (geom_unit g1).2] at g3
    rw [s1, s3, s5, (geom_unit g2).2] at g4
    have eH := (geom_unit g1).1
    have eW := (geom_unit g2).1
    have eF : p.filtDepth * p.filtH * p.filtW = p.filtDepth := by rw [s5, s6]; omega
    rw [eF, eH, eW, hD]
    refine ⟨inp, rfl, ?_⟩
    intro j k hj hk
    unfold rhsWord BConv.inWord
    have k1 : k / p.filtDepth = 0 := Nat.div_eq_of_lt hk
    rw [k1, Nat.mod_eq_of_lt hk, s5]
    obtain ⟨a1, a2⟩ := mod_lt_of_lt_mul hj
    obtain ⟨a3, a4⟩ := mod_lt_of_lt_mul a1
    have hY : p.inY (j % (p.outH * p.outW) / p.outW) (0 / 1) = ((j / p.inW % p.inH : Nat) : Int) := by
      unfold BConv.inY
      rw [g3, s2, eH, eW, flat_pixel.2]; simp
    have hX : p.inX (j % p.outW) (0 % 1) = ((j % p.inW : Nat) : Int) := by
      unfold BConv.inX
      rw [g4, s1, eW]; simp
    rw [hY, hX]
    have hin : p.inside ((j / p.inW % p.inH : Nat) : Int) ((j % p.inW : Nat) : Int) = true := by
      rw [BConv.inside_iff]
      refine ⟨by omega, by exact_mod_cast a4, by omega, by exact_mod_cast a2⟩
    rw [if_pos hin, Int.toNat_natCast, Int.toNat_natCast, eH, eW, flat_pixel.1, Nat.zero_div,
      Nat.zero_mul, Nat.zero_add]
    unfold offset4
    rw [div_mul_add_mod, div_mul_add_mod, hD]
    apply rd_getD
    rw [h.inLen, hD]
    exact row_lt hj hk

/-- The accumulator of the GEMM is the accumulator of the reference kernel. -/
theorem gemmAcc_accPix {p : BConv} {inp filt rhs : List Word} (h : p.Ok inp filt) (hg : p.groups = 1)
    (hr : ∀ j k, j < p.batches * p.outH * p.outW → k < p.filtDepth * p.filtH * p.filtW →
        rd rhs (j * (p.filtDepth * p.filtH * p.filtW) + k) = some (rhsWord p inp j k))
    {i j : Nat} (hi : i < p.cout) (hj : j < p.batches * p.outH * p.outW) :
    gemmAcc (p.filtDepth * p.filtH * p.filtW) filt rhs i j = some (p.accPix inp filt j i) := by
  have hout : i / p.outPerGroup = 0 := by
    unfold BConv.outPerGroup; rw [hg, Nat.div_one]; exact Nat.div_eq_of_lt hi
  have eK : p.filtDepth * p.filtH * p.filtW = p.filtH * p.filtW * p.filtDepth := by ring
  rw [gemmAcc_eq (L := fun k => p.filtWord filt i (k / p.filtDepth / p.filtW) (k / p.filtDepth % p.filtW)
      (k % p.filtDepth)) (R := fun k => rhsWord p inp j k) _ (fun k hk => hr j k hj hk)]
  · rw [BConv.accPix_flat, eK, Nat.mul_comm (p.filtH * p.filtW), sum_range_mul]
    congr 1
    apply sum_congr rfl
    intro f hf
    apply sum_congr rfl
    intro d hd
    have hd : d < p.filtDepth := by simpa using hd
    have e : p.filtDepth * f + d = f * p.filtDepth + d := by ring
    unfold rhsWord
    rw [e, (div_mod_row hd).1, (div_mod_row hd).2]
    unfold BConv.inWord
    rw [hout, Nat.zero_div]
  · intro k hk
    rw [eK] at hk
    obtain ⟨b1, b2⟩ := mod_lt_of_lt_mul hk
    unfold BConv.filtWord offset4
    have e : i * (p.filtDepth * p.filtH * p.filtW) + k
        = ((i * p.filtH + k / p.filtDepth / p.filtW) * p.filtW + k / p.filtDepth % p.filtW) * p.filtDepth
          + k % p.filtDepth := by
      rw [flat_filter, div_mul_add_mod, div_mul_add_mod]
    rw [← e]
    apply rd_getD
    rw [h.filtLen, eK]
    have := row_lt hi hk
    have e2 : p.cout * p.filtH * p.filtW * p.filtDepth = p.cout * (p.filtH * p.filtW * p.filtDepth) := by ring
    rw [e2]; exact this

end Verif
