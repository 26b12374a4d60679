import Verif.Spec.Block
import Verif.Props.BinaryFilter
import Verif.Props.FuseAffine
import Verif.Props.FuseAct
import Verif.Props.OpResultInt

/-! C46: a whole block of the original model against its converted version. -/

namespace Verif

open Finset

/-- The part of `BConv.Ok` that is about the shapes alone. -/
structure BConv.ShapesOk (p : BConv) : Prop where
  groups_pos : 0 < p.groups
  cout_div : p.cout % p.groups = 0
  inDepth : p.inDepth = (p.cin + 31) / 32
  filtDepth : p.filtDepth = (p.cinG + 31) / 32
  depth : p.inDepth = p.groups * p.filtDepth
  group_words : p.groups = 1 ∨ (p.cin = p.groups * p.cinG ∧ p.cinG % 32 = 0)

theorem BConv.ShapesOk.ok {p : BConv} (h : p.ShapesOk) {inp filt : List Word}
    (hi : IsPacked (p.batches * p.inH * p.inW) p.cin inp) (hf : IsPacked (p.cout * p.filtH * p.filtW) p.cinG filt) :
    p.Ok inp filt :=
  { h with
    inLen := by rw [hi.len, h.inDepth]
    filtLen := by rw [hf.len, h.filtDepth]
    inUnused := by
      intro r k b hr hk hb hc
      rw [h.inDepth] at hk ⊢
      have hl : r * ((p.cin + 31) / 32) + k < inp.length := by rw [hi.len]; exact row_lt hr hk
      have := hi.unused r k b _ hr hk hb hc (List.getElem?_eq_getElem hl)
      simpa [hl] using this
    filtUnused := by
      intro r k b hr hk hb hc
      rw [h.filtDepth] at hk ⊢
      have hl : r * ((p.cinG + 31) / 32) + k < filt.length := by rw [hf.len]; exact row_lt hr hk
      have := hf.unused r k b _ hr hk hb hc (List.getElem?_eq_getElem hl)
      simpa [hl] using this }

theorem BConv.ShapesOk.chan {p : BConv} (h : p.ShapesOk) {oc c : Nat} (ho : oc < p.cout) (hc : c < p.cinG) :
    oc / (p.cout / p.groups) * p.cinG + c < p.cin := by
  have hg : oc / (p.cout / p.groups) < p.groups := by
    have h1 : p.groups * (p.cout / p.groups) = p.cout := Nat.mul_div_cancel' (Nat.dvd_of_mod_eq_zero h.cout_div)
    have h2 : 0 < p.cout / p.groups := by
      rcases Nat.eq_zero_or_pos (p.cout / p.groups) with h0 | h0
      · rw [h0] at h1; omega
      · exact h0
    rw [Nat.div_lt_iff_lt_mul h2, h1]; exact ho
  rcases h.group_words with h1 | ⟨h1, _⟩
  · rw [h1] at hg
    have : p.cinG = p.cin := by unfold BConv.cinG; rw [h1, Nat.div_one]
    rw [h1]
    have e0 : oc / (p.cout / 1) = 0 := Nat.lt_one_iff.1 hg
    rw [e0]; omega
  · rw [h1]; exact row_lt hg hc

/-- Reading the packed input is taking signs of the float input. -/
theorem inputAt_sign {p : BConv} {pad : Int} {x : List Rat} {inp : List Word}
    (hbits : ∀ r c, r < p.batches * p.inH * p.inW → c < p.cin → ∃ w v, inp[r * ((p.cin + 31) / 32) + c / 32]? = some w ∧
        x[r * p.cin + c]? = some v ∧ (w.getLsbD (c % 32) = true ↔ v < 0))
    {b : Nat} {y x' : Int} {c : Nat} (hb : b < p.batches) (hc : c < p.cin) :
    (p.inputAt pad inp b y x' c : Rat) = if 0 ≤ y ∧ y < p.inH ∧ 0 ≤ x' ∧ x' < p.inW then
      signR (x.getD (((b * p.inH + y.toNat) * p.inW + x'.toNat) * p.cin + c) 0) else (pad : Rat) := by
  unfold BConv.inputAt
  split
  · next h =>
    obtain ⟨h1, h2, h3, h4⟩ := h
    obtain ⟨w, v, e1, e2, e3⟩ := hbits ((b * p.inH + y.toNat) * p.inW + x'.toNat) c
      (row_lt (row_lt hb (by omega)) (by omega)) hc
    unfold pm signVal signR
    rw [List.getD_eq_getElem?_getD, e1, List.getD_eq_getElem?_getD, e2]
    simp only [Option.getD_some]
    by_cases hv : v < 0
    · rw [if_pos (e3.2 hv), if_pos hv]; norm_num
    · rw [if_neg (fun hh => hv (e3.1 hh)), if_neg hv]; norm_num
  · rfl

theorem floatConv_sign {p : BConv} {pad : Int} (hp : p.ShapesOk) {x f : List Rat} {inp : List Word}
    (hbits : ∀ r c, r < p.batches * p.inH * p.inW → c < p.cin → ∃ w v, inp[r * ((p.cin + 31) / 32) + c / 32]? = some w ∧
        x[r * p.cin + c]? = some v ∧ (w.getLsbD (c % 32) = true ↔ v < 0))
    {b oy ox oc : Nat} (hb : b < p.batches) (ho : oc < p.cout) :
    p.floatConv pad inp (fun fy fx c oc => f.getD (hwio p.filtW p.cinG p.cout fy fx c oc) 0) b oy ox oc
      = signConv p pad x f b oy ox oc := by
  unfold BConv.floatConv signConv
  refine sum_congr rfl fun fy _ => sum_congr rfl fun fx _ => sum_congr rfl fun c hc => ?_
  rw [inputAt_sign hbits hb (hp.chan ho (mem_range.1 hc))]
  rfl

/-- The list of an output given element by element. -/
theorem list_of_elems {n h w c : Nat} {o : List Rat} {g : Nat → Nat → Nat → Nat → Rat}
    (hl : o.length = n * h * w * c)
    (he : ∀ b y x k, b < n → y < h → x < w → k < c → o[((b * h + y) * w + x) * c + k]? = some (g b y x k)) :
    o = (tensor4 n h w c g).data := by
  apply List.ext_getElem?
  intro i
  unfold tensor4
  by_cases hi : i < n * h * w * c
  · obtain ⟨d1, d2, d3, d4⟩ := decode_lt hi
    have := he _ _ _ _ d1 d2 d3 d4
    have enc := offset4_encode h w c i
    unfold offset4 at enc
    rw [enc] at this
    rw [this]
    simp [hi, dB, dY, dX, dC]
  · rw [List.getElem?_eq_none (by omega), List.getElem?_eq_none (by simp; omega)]

theorem preparedFilter_ne_zero {p : BConv} {f : List Rat}
    (hacc : isBinaryFilter p.filtH p.filtW p.cinG p.cout f = true) :
    ∀ x ∈ preparedFilter p.filtH p.filtW p.cinG p.cout f, x ≠ 0 := by
  intro x hx
  unfold preparedFilter at hx
  simp only [List.mem_map, List.mem_range] at hx
  obtain ⟨n, hn, rfl⟩ := hx
  rw [isBinaryFilter_iff] at hacc
  obtain ⟨g1, g2⟩ := mod_lt_of_lt_mul hn
  obtain ⟨g3, g4⟩ := mod_lt_of_lt_mul g1
  obtain ⟨g5, g6⟩ := mod_lt_of_lt_mul g3
  obtain ⟨a1, a2⟩ := hacc _ _ _ _ g6 g4 g2 g5
  rw [scaleVector_getD g5]
  have h0 := (accepted_value a1 a2).1
  have hp : 0 < |f.getD (hwio p.filtW p.cinG p.cout 0 0 0 (n / p.cinG / p.filtW / p.filtH)) 0| :=
    lt_trans (by norm_num [floatEpsilon]) a1
  exact div_ne_zero h0 hp.ne'

/-- The BConv2D convolution of the packed signs, scaled, is the convolution of the original model. -/
theorem block_conv {p : BConv} {x f : List Rat} {inp : List Word} {junk : Word} (hp : p.ShapesOk)
    (hpos : 0 < p.filtH ∧ 0 < p.filtW ∧ 0 < p.cinG)
    (heven : p.padding = .same → p.padValue = 0 → p.cin % 2 = 0)
    (hK : 2 * (p.filtH * p.filtW * (p.cin / p.groups)) < 2147483648)
    (hacc : isBinaryFilter p.filtH p.filtW p.cinG p.cout f = true)
    (hmag : ∀ fy fx c o, fy < p.filtH → fx < p.filtW → c < p.cinG → o < p.cout →
      |f.getD (hwio p.filtW p.cinG p.cout fy fx c o) 0| = |f.getD (hwio p.filtW p.cinG p.cout 0 0 0 o) 0|)
    (hi2 : IsPacked (p.batches * p.inH * p.inW) p.cin inp)
    (hi3 : ∀ r c, r < p.batches * p.inH * p.inW → c < p.cin → ∃ w v, inp[r * ((p.cin + 31) / 32) + c / 32]? = some w ∧
        x[r * p.cin + c]? = some v ∧ (w.getLsbD (c % 32) = true ↔ v < 0)) :
    ∃ filt0, bitpackConst p.cout p.filtH p.filtW p.cinG (preparedFilter p.filtH p.filtW p.cinG p.cout f) junk
        = some filt0 ∧ p.Ok inp filt0 ∧
      ∀ b y xx o, b < p.batches → y < p.outH → xx < p.outW → o < p.cout →
      (p.conv p.padVal inp filt0 b y xx o : Rat) * (scaleVector p.filtW p.cinG p.cout f).getD o 0
        = signConv p p.padVal x f b y xx o := by
  have hok : ∀ filt, IsPacked (p.cout * p.filtH * p.filtW) p.cinG filt → p.Ok inp filt := fun filt hf => hp.ok hi2 hf
  have hN : (List.replicate (p.batches * p.outH * p.outW * p.cout) (0 : Rat)).length
      = p.batches * p.outH * p.outW * p.cout := by simp
  obtain ⟨filt0, out, f1, f2, f3, f4⟩ := C31_binary_filter (junk := junk) hacc hpos hok heven hK hN
  have hpk : IsPacked (p.cout * p.filtH * p.filtW) p.cinG filt0 := by
    obtain ⟨g, g1, g2, _⟩ := bitpackConst_weight (p := p) (junk := junk)
      (w := preparedFilter p.filtH p.filtW p.cinG p.cout f) (by simp [preparedFilter])
    rw [f1] at g1; cases g1; exact g2
  have hok0 := hok filt0 hpk
  refine ⟨filt0, f1, hok0, ?_⟩
  intro b y xx o hb' hy hx' ho'
  obtain ⟨v, v1, _, v3⟩ := f4 b y xx o hb' hy hx' ho'
  have hv := v3 (fun fy fx c h1 h2 h3 => hmag fy fx c o h1 h2 h3 ho')
  have heven' : p.zeroPadding = true → p.cinG % 2 = 0 := by
    intro hz
    unfold BConv.zeroPadding at hz
    simp only [Bool.and_eq_true, decide_eq_true_eq] at hz
    exact cinG_even hok0 (heven hz.1 hz.2)
  obtain ⟨out', g1, _, g3⟩ := evalRefFloat_eq (act := .none) (mult := scaleVector p.filtW p.cinG p.cout f)
    (bias := List.replicate p.cout 0) hok0 heven' (by simp [scaleVector]) (by simp) hK hN
  rw [f2] at g1; cases g1
  have e := g3 b y xx o hb' hy hx' ho'
  rw [v1] at e
  have e := Option.some.inj e
  rw [hv, floatConv_sign hp hi3 hb' ho'] at e
  rw [e]
  simp [Act.apply, ho']

/-- The float block in terms of the BConv2D with the fused multiplier and bias. -/
theorem block_run {p : BConv} {act : Act} {chain : List (BinOp × Tens)} {x f mult bias : List Rat}
    {cv : Nat → Nat → Nat → Nat → Int} {pad : Rat}
    (hconv : ∀ b y xx o, b < p.batches → y < p.outH → xx < p.outW → o < p.cout →
      (cv b y xx o : Rat) * (scaleVector p.filtW p.cinG p.cout f).getD o 0 = signConv p pad x f b y xx o)
    (hact : act = .none ∨ ∀ o, o < p.cout → |f.getD (hwio p.filtW p.cinG p.cout 0 0 0 o) 0| = 1)
    (hfuse : fuseChain chain (⟨[p.cout], scaleVector p.filtW p.cinG p.cout f⟩, ⟨[p.cout], List.replicate p.cout 0⟩) =
      some (⟨[p.cout], mult⟩, ⟨[p.cout], bias⟩))
    (hm : mult.length = p.cout) (hb : bias.length = p.cout) :
    floatBlock p pad act chain x f = some (tensor4 p.batches p.outH p.outW p.cout
      fun b y x c => ((act.apply (cv b y x c) : Int) : Rat) * mult.getD c 0 + bias.getD c 0) := by
  have key := chain_run (n := p.batches) (h := p.outH) (w := p.outW) chain (by simp [scaleVector]) (by simp) hm hb hfuse
    (fun i => ((act.apply (cv (dB p.outH p.outW p.cout i) (dY p.outH p.outW p.cout i)
          (dX p.outW p.cout i) (i % p.cout)) : Int) : Rat))
  unfold floatBlock
  have e1 : tensor4 p.batches p.outH p.outW p.cout (fun b oy ox oc => act.real (signConv p pad x f b oy ox oc)) =
      ⟨[p.batches, p.outH, p.outW, p.cout], (List.range (p.batches * p.outH * p.outW * p.cout)).map fun i =>
        ((act.apply (cv (dB p.outH p.outW p.cout i) (dY p.outH p.outW p.cout i)
          (dX p.outW p.cout i) (i % p.cout)) : Int) : Rat) * (scaleVector p.filtW p.cinG p.cout f).getD (i % p.cout) 0
          + (List.replicate p.cout (0 : Rat)).getD (i % p.cout) 0⟩ := by
    unfold tensor4
    congr 1
    apply List.map_congr_left
    intro i hi
    obtain ⟨d1, d2, d3, d4⟩ := decode_lt (List.mem_range.1 hi)
    have hc := hconv _ _ _ _ d1 d2 d3 d4
    have d4' : i % p.cout < p.cout := d4
    have hs : (List.replicate p.cout (0 : Rat)).getD (i % p.cout) 0 = 0 := by simp [d4']
    rw [hs, add_zero]
    show act.real (signConv p pad x f (dB p.outH p.outW p.cout i) (dY p.outH p.outW p.cout i)
          (dX p.outW p.cout i) (dC p.cout i)) = _
    rw [← hc]
    rcases hact with rfl | h1
    · simp only [Act.real, Act.apply]; rfl
    · have : (scaleVector p.filtW p.cinG p.cout f).getD (dC p.cout i) 0 = 1 := by
        rw [scaleVector_getD d4, h1 _ d4]
      rw [this]
      have this' : (scaleVector p.filtW p.cinG p.cout f).getD (i % p.cout) 0 = 1 := this
      rw [this', mul_one, mul_one, Act.real_cast]; rfl
  rw [e1, key]
  rfl

/-- **C46, float output.** For every padding (SAME with zeros needs an even number of channels) the converted block
without the final Quantize, a BConv2D with float output and the fused multiplier and bias, computes exactly the float
block. -/
theorem C46_block_float {p : BConv} {act : Act} {chain : List (BinOp × Tens)} {x f mult bias y0 : List Rat}
    {i0 : List Word} {junk : Word} (hp : p.ShapesOk) (hpos : 0 < p.filtH ∧ 0 < p.filtW ∧ 0 < p.cinG)
    (heven : p.padding = .same → p.padValue = 0 → p.cin % 2 = 0)
    (hK : 2 * (p.filtH * p.filtW * (p.cin / p.groups)) < 2147483648)
    (hx : x.length = p.batches * p.inH * p.inW * p.cin)
    (hacc : isBinaryFilter p.filtH p.filtW p.cinG p.cout f = true)
    (hmag : ∀ fy fx c o, fy < p.filtH → fx < p.filtW → c < p.cinG → o < p.cout →
      |f.getD (hwio p.filtW p.cinG p.cout fy fx c o) 0| = |f.getD (hwio p.filtW p.cinG p.cout 0 0 0 o) 0|)
    (hact : act = .none ∨ ∀ o, o < p.cout → |f.getD (hwio p.filtW p.cinG p.cout 0 0 0 o) 0| = 1)
    (hfuse : fuseChain chain (⟨[p.cout], scaleVector p.filtW p.cinG p.cout f⟩, ⟨[p.cout], List.replicate p.cout 0⟩) =
      some (⟨[p.cout], mult⟩, ⟨[p.cout], bias⟩))
    (hm : mult.length = p.cout) (hb : bias.length = p.cout)
    (hi : i0.length = p.batches * p.inH * p.inW * ((p.cin + 31) / 32))
    (hy : y0.length = p.batches * p.outH * p.outW * p.cout) :
    ∃ inp filt y, bitpackMatrix x (p.batches * p.inH * p.inW) p.cin i0 0 junk = some inp ∧
      bitpackConst p.cout p.filtH p.filtW p.cinG (preparedFilter p.filtH p.filtW p.cinG p.cout f) junk = some filt ∧
      evalRefFloat p act mult bias inp filt y0 = some y ∧
      floatBlock p (if p.padding = .same ∧ p.padValue = 0 then 0 else 1) act chain x f
        = some ⟨[p.batches, p.outH, p.outW, p.cout], y⟩ := by
  obtain ⟨inp, hi1, hi2, hi3⟩ := bitpackMatrix_rat (x := x) (rows := p.batches * p.inH * p.inW) (cols := p.cin)
    (out0 := i0) (junk := junk) hx hi
  obtain ⟨filt0, f1, hok0, hconv⟩ := block_conv (junk := junk) hp hpos heven hK hacc hmag hi2 hi3
  have heven' : p.zeroPadding = true → p.cinG % 2 = 0 := by
    intro hz
    unfold BConv.zeroPadding at hz
    simp only [Bool.and_eq_true, decide_eq_true_eq] at hz
    exact cinG_even hok0 (heven hz.1 hz.2)
  obtain ⟨y, g1, g2, g3⟩ := evalRefFloat_eq (act := act) hok0 heven' hm hb hK hy
  refine ⟨inp, filt0, y, hi1, f1, g1, ?_⟩
  have hpv : (if p.padding = .same ∧ p.padValue = 0 then 0 else 1 : Rat) = (p.padVal : Rat) := by
    unfold BConv.padVal BConv.zeroPadding
    by_cases h1 : p.padding = .same <;> by_cases h2 : p.padValue = 0 <;> simp [h1, h2]
  rw [hpv, block_run hconv hact hfuse hm hb, list_of_elems (by rw [g2, hy]) g3]
  rfl

/-- **C46.** Take a block of the original float model: the sign of a tensor `x`, a Conv2D with an HWIO filter `f`
that `IsBinaryFilter` accepts and whose elements have the same magnitude within each output channel, an activation
(none, unless all magnitudes are 1) and a chain of constant Add/Sub/Mul/Div operators that the converter fuses,
followed by the sign (Quantize). The padding is VALID or SAME with ones.

The converted block quantizes `x` into packed words, and runs a BConv2D with bitpacked output whose filter is the
bitpacked sign filter (with the channels of negative multiplier flipped) and whose thresholds come from the fused
multiplier and bias. In exact arithmetic it computes exactly the packed signs of the float block. -/
theorem C46_block_reference {p : BConv} {act : Act} {chain : List (BinOp × Tens)} {x f mult bias : List Rat}
    {i0 o0 q0 : List Word} {junk : Word} (hp : p.ShapesOk) (hpos : 0 < p.filtH ∧ 0 < p.filtW ∧ 0 < p.cinG)
    (hpad : p.padding = .valid ∨ p.padValue = 1)
    (hK : 2 * (p.filtH * p.filtW * (p.cin / p.groups)) < 2147483648)
    (hx : x.length = p.batches * p.inH * p.inW * p.cin)
    (hacc : isBinaryFilter p.filtH p.filtW p.cinG p.cout f = true)
    (hmag : ∀ fy fx c o, fy < p.filtH → fx < p.filtW → c < p.cinG → o < p.cout →
      |f.getD (hwio p.filtW p.cinG p.cout fy fx c o) 0| = |f.getD (hwio p.filtW p.cinG p.cout 0 0 0 o) 0|)
    (hact : act = .none ∨ ∀ o, o < p.cout → |f.getD (hwio p.filtW p.cinG p.cout 0 0 0 o) 0| = 1)
    (hfuse : fuseChain chain (⟨[p.cout], scaleVector p.filtW p.cinG p.cout f⟩, ⟨[p.cout], List.replicate p.cout 0⟩) =
      some (⟨[p.cout], mult⟩, ⟨[p.cout], bias⟩))
    (hm : mult.length = p.cout) (hb : bias.length = p.cout)
    (hi : i0.length = p.batches * p.inH * p.inW * ((p.cin + 31) / 32))
    (ho : o0.length = p.batches * p.outH * p.outW * ((p.cout + 31) / 32))
    (hq : q0.length = p.batches * p.outH * p.outW * ((p.cout + 31) / 32)) :
    ∃ inp filt o y, bitpackMatrix x (p.batches * p.inH * p.inW) p.cin i0 0 junk = some inp ∧
      bitpackConst p.cout p.filtH p.filtW p.cinG (mulSigns (p.filtH * p.filtW * p.cinG)
        (preparedFilter p.filtH p.filtW p.cinG p.cout f) (signsOf mult)) junk = some filt ∧
      evalRefBits p (bitpackedThresholds id p.filtH p.filtW p.cinG act mult bias) inp filt o0 = some o ∧
      floatBlock p 1 act chain x f = some ⟨[p.batches, p.outH, p.outW, p.cout], y⟩ ∧
      bitpackMatrix y (p.batches * p.outH * p.outW) p.cout q0 0 junk = some o := by
  obtain ⟨inp, hi1, hi2, hi3⟩ := bitpackMatrix_rat (x := x) (rows := p.batches * p.inH * p.inW) (cols := p.cin)
    (out0 := i0) (junk := junk) hx hi
  have hz : p.zeroPadding = false := by
    unfold BConv.zeroPadding
    rcases hpad with h | h <;> simp [h]
  have hpv : p.padVal = 1 := by simp [BConv.padVal, hz]
  have hzero : p.padding = .same → p.padValue = 0 → p.cin % 2 = 0 := by
    intro h1 h2
    rcases hpad with h | h
    · rw [h] at h1; cases h1
    · omega
  have hN : (List.replicate (p.batches * p.outH * p.outW * p.cout) (0 : Rat)).length
      = p.batches * p.outH * p.outW * p.cout := by simp
  obtain ⟨filt0, f1, hok0, hconv⟩ := block_conv (junk := junk) hp hpos hzero hK hacc hmag hi2 hi3
  rw [hpv] at hconv
  obtain ⟨y, filt, o, y1, y2, y3, y4, _⟩ := C25_threshold_exact (act := act) (mult := mult) (bias := bias) (o0 := o0)
    (q0 := q0) hok0 hpad f1 (by simp [preparedFilter]) (preparedFilter_ne_zero hacc) hm hb hK hN ho hq
  refine ⟨inp, filt, o, y, hi1, y2, y3, ?_, y4⟩
  obtain ⟨y', g1, g2, g3⟩ := C07_reference_float (act := act) hok0 hpad hm hb hK hN
  rw [y1] at g1; cases g1
  have hrun := block_run hconv hact hfuse hm hb
  norm_cast at hrun
  rw [hrun, list_of_elems (by rw [g2]; simp) g3]
  rfl

/-- **C46, the runtime operator.** The same for a BConv2D node of the converted model, with any of the three kernels:
`Prepare` accepts the node with result `r`, its filter and thresholds are the converted constants, and its input is
the packed `x`. A new interpreter writes exactly the packed signs of the float block. -/
theorem C46_block_kernels {n : Node} {a : Attrs} {e : InputDesc} {b h w cout fh fw fd g : Nat}
    {chain : List (BinOp × Tens)} {x f mult bias : List Rat} {i0 o0 : List Word} {junk : Word}
    (ha : n.attrs = some a) (hty : n.outType = .int32)
    {r : Prepared} {m : Machine} (hr : prepare n e = .ok r) (hf : freshMachine n e = some m)
    (ht : ∀ inp, IsPacked (b * h * w) a.cin inp → TensorsOk n a e inp b h w cout fh fw fd g)
    (hpad : a.padding = .valid ∨ a.padValue = 1)
    (hx : x.length = b * h * w * a.cin)
    (hacc : isBinaryFilter fh fw (a.cin / g) cout f = true)
    (hmag : ∀ fy fx c o, fy < fh → fx < fw → c < a.cin / g → o < cout →
      |f.getD (hwio fw (a.cin / g) cout fy fx c o) 0| = |f.getD (hwio fw (a.cin / g) cout 0 0 0 o) 0|)
    (hact : a.act = .none ∨ ∀ o, o < cout → |f.getD (hwio fw (a.cin / g) cout 0 0 0 o) 0| = 1)
    (hfuse : fuseChain chain (⟨[cout], scaleVector fw (a.cin / g) cout f⟩, ⟨[cout], List.replicate cout 0⟩) =
      some (⟨[cout], mult⟩, ⟨[cout], bias⟩))
    (hm : mult.length = cout) (hb : bias.length = cout)
    (hfilt : bitpackConst cout fh fw (a.cin / g) (mulSigns (fh * fw * (a.cin / g))
        (preparedFilter fh fw (a.cin / g) cout f) (signsOf mult)) junk = some n.filtData)
    (hthr : n.thrData = bitpackedThresholds id fh fw (a.cin / g) a.act mult bias)
    (h4 : n.kt = .indirect → cout / g % 4 = 0 ∧ 2 * (32 * (fh * fw * fd)) < 2147483648)
    (c : RunCfg) (hs : n.kt = .bgemm → Schedule cout (b * r.p.outH * r.p.outW) 32 1 c.blocks)
    (hi : i0.length = b * h * w * ((a.cin + 31) / 32))
    (ho : o0.length = b * r.p.outH * r.p.outW * ((cout + 31) / 32)) :
    ∃ inp o y, bitpackMatrix x (b * h * w) a.cin i0 0 junk = some inp ∧
      output n c m inp (.w o0) = some (.w o) ∧
      floatBlock r.p 1 a.act chain x f = some ⟨[b, r.p.outH, r.p.outW, cout], y⟩ ∧
      bitpackMatrix y (b * r.p.outH * r.p.outW) cout o0 0 junk = some o := by
  obtain ⟨inp, hi1, hi2, _⟩ := bitpackMatrix_rat (x := x) (rows := b * h * w) (cols := a.cin)
    (out0 := i0) (junk := junk) hx hi
  have ht' := ht inp hi2
  obtain ⟨hok, _, hg, hK⟩ := ht'.facts ha hr
  obtain ⟨_, _, ⟨e1, e2, e3, e4⟩, ⟨e5, e6, e7, e8⟩, ⟨s1, s2, d1, d2, e11, e10, e9⟩, _⟩ :=
    C21_prepare_result ha ht'.dims ht'.fdims hr
  have hcg : r.p.cinG = a.cin / g := by unfold BConv.cinG; rw [e9, hg]
  have hp : r.p.ShapesOk := { hok with }
  have hpos : 0 < r.p.filtH ∧ 0 < r.p.filtW ∧ 0 < r.p.cinG := by
    obtain ⟨p1, p2, p3, p4, p5, p6⟩ := ht'.pos
    rw [e6, e7]
    refine ⟨p3, p4, ?_⟩
    rcases hok.group_words with h1 | ⟨h1, _⟩
    · unfold BConv.cinG; rw [h1, Nat.div_one, e9]; exact p1
    · rcases Nat.eq_zero_or_pos r.p.cinG with h0 | h0
      · rw [h0, Nat.mul_zero, e9] at h1; omega
      · exact h0
  have hpad' : r.p.padding = .valid ∨ r.p.padValue = 1 := by rw [e11, e10]; exact hpad
  obtain ⟨inp', filt, o, y, q1, q2, q3, q4, q5⟩ := C46_block_reference (p := r.p) (act := a.act) (chain := chain)
    (x := x) (f := f) (mult := mult) (bias := bias) (i0 := i0) (o0 := o0) (q0 := o0) (junk := junk) hp hpos hpad' hK
    (by rw [e1, e2, e3, e9]; exact hx) (by rw [e6, e7, e5, hcg]; exact hacc)
    (by rw [e6, e7, e5, hcg]; exact hmag) (by rw [e7, e5, hcg]; exact hact)
    (by rw [e7, e5, hcg]; exact hfuse) (by rw [e5]; exact hm) (by rw [e5]; exact hb)
    (by rw [e1, e2, e3, e9]; exact hi) (by rw [e1, e5]; exact ho) (by rw [e1, e5]; exact ho)
  rw [e1, e2, e3, e9, hi1] at q1; cases q1
  rw [e5, e6, e7, hcg, hfilt] at q2; cases q2
  have hthr' : n.thrData = bitpackedThresholds id r.p.filtH r.p.filtW r.p.cinG a.act mult bias := by
    rw [e6, e7, hcg]; exact hthr
  have htl : n.thrData.length = cout := by rw [hthr]; simp [bitpackedThresholds, hm, hb]
  obtain ⟨out, w1, w2, w3⟩ := fresh_bits_any ha hty ht' htl
    (by intro h1 h2; rcases hpad with h | h
        · rw [h] at h1; cases h1
        · omega) h4 hr hf c hs ho
  obtain ⟨o', z1, z2, z3⟩ := C11_reference_bitpacked hok (by
    intro h1 h2; rcases hpad' with h | h
    · rw [h] at h1; cases h1
    · omega) (by rw [htl, e5]) hK (by rw [e1, e5]; exact ho)
  rw [hthr', q3] at z1; cases z1
  rw [e1, e5] at q4 q5
  refine ⟨inp, o, y, hi1, ?_, q4, q5⟩
  rw [w1]
  congr 2
  apply packed_ext w2 z2
  intro rr cc hrr hcc
  obtain ⟨g1, g2⟩ := mod_lt_of_lt_mul hrr
  obtain ⟨g3, g4⟩ := mod_lt_of_lt_mul g1
  obtain ⟨wa, da, u1, u2, u3⟩ := w3 _ _ _ cc g3 g4 g2 hcc
  obtain ⟨wb, db, v1, v2, v3⟩ := z3 _ _ _ cc g3 g4 g2 hcc
  rw [div_mul_add_mod, div_mul_add_mod] at u1 v1
  refine ⟨wa, wb, u1, v1, ?_⟩
  rw [padVal_of_prepared e11 e10, ← u2, e6, e7, e9, hg] at v2
  have : da = db := by omega
  rw [Bool.eq_iff_iff, u3, v3, this]

/-! Non-vacuity of C46: `thrP` (a 2x2 image with three channels, two 1x1 filters of magnitudes 1 and 1/2), an input
with a zero, and a batch normalisation with a negative factor. -/

/-- the float input: pixels (+,0,+), (-,+,+), (-,-,+), (-,-,-) -/
def blockX : List Rat := [3, 0, 1/2, -1, 2, 5, -2, -1/3, 7, -1, -1, -2]

/-- the HWIO filter (shape `[1, 1, 3, 2]`) -/
def blockF : List Rat := [1, -1/2, -1, 1/2, 1, 1/2]

/-- the batch normalisation: `* [-1, 1]`, `+ [1/4, -1]` -/
def blockChain : List (BinOp × Tens) := [(.mul, ⟨[2], [-1, 1]⟩), (.add, ⟨[2], [1/4, -1]⟩)]

example : thrP.ShapesOk ∧ isBinaryFilter 1 1 3 2 blockF = true ∧
    fuseChain blockChain (⟨[2], scaleVector 1 3 2 blockF⟩, ⟨[2], [0, 0]⟩) = some (⟨[2], [-1, 1/2]⟩, ⟨[2], [1/4, -1]⟩) ∧
    (floatBlock thrP 1 .none blockChain blockX blockF).map (·.data)
      = some [-3/4, -1/2, 5/4, 1/2, -3/4, -1/2, 5/4, -3/2] ∧
    bitpackMatrix blockX 4 3 (List.replicate 4 0#32) 0 0#32 = some thrInp ∧
    evalRefBits thrP [1, 0] thrInp [5#32, 1#32] (List.replicate 4 0#32) = some [3#32, 0#32, 3#32, 2#32] :=
  ⟨{ thrP_ok with }, by decide +kernel, by decide +kernel, by decide +kernel, by decide +kernel, by decide +kernel⟩

end Verif
