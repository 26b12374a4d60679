import Verif.Props.BGemm
import Verif.Props.IndirectA64
import Verif.Proof.GemmA64Over

/-!
C52-C55: the Aarch64 assembly kernels of the BGEMM.

The assembly of the kernels is executed instruction by instruction (Model/NeonA64.lean, Model/GemmA64Code.lean). A `GemmEnv` `E`
holds everything a call needs besides the block: strides of the packed matrices, what follows them in memory (`xl`, `xr`),
multipliers, biases and clamp values, arbitrary floating-point operations `F` and arbitrary contents `v`, `x` of the registers.
`... = some trs` includes that no load leaves its buffer and every loop ends. As in C14, a schedule is any list of (non-empty)
blocks aligned to the kernel layout that covers the destination, and the writes of the blocks may reach memory in any order.
-/

namespace Verif

open Finset

section
variable {p : BConv} {inp filt : List Word} {E : GemmEnv}

/-- Words of depth: those of an input pixel times the positions of the filter. -/
theorem depth_pos (hok : p.Ok inp filt) (hfh : 0 < p.filtH) (hfw : 0 < p.filtW) (hci : 0 < p.cin) (hg : p.groups = 1) :
    0 < p.filtDepth * p.filtH * p.filtW := by
  have : 0 < p.filtDepth := by
    have h := hok.filtDepth
    have : p.cinG = p.cin := by unfold BConv.cinG; rw [hg, Nat.div_one]
    omega
  exact Nat.mul_pos (Nat.mul_pos this hfh) hfw

theorem gK_lt (hg : p.groups = 1) (hsel : bgemm16Selected p = true) : p.K < 65536 := by
  have hs : p.filtH * p.filtW * p.cin + 512 < 65536 := by simpa [bgemm16Selected] using hsel
  unfold BConv.K BConv.cinG
  rw [hg, Nat.div_one]
  omega

/-- From a kernel that is right on every block to the output, for float and int8. -/
theorem gemmA64_perm {α : Type} {K : GKern α} {m : Nat} {f : Nat → Nat → α} (hkr : 0 < K.kr)
    (hm : m = p.batches * p.outH * p.outW) {rhs : List Word}
    {k : Nat} (hr : im2colRhs p inp = some (rhs, k, m))
    (hker : ∀ (b : Blk) (tr : List (Write α)) (W : Nat → Prop), b.Good p.cout m K.kr 4 →
      Emits tr W (fun x => f (x / p.cout) (x % p.cout)) →
      ∃ tr', gRun false K E p.cout m k filt rhs b tr = some tr' ∧
        Emits tr' (fun x => W x ∨ ∃ i j, b.Cell p.cout m i j ∧ x = i + j * p.cout) (fun x => f (x / p.cout) (x % p.cout)))
    (fat : Bool) {blocks : List Blk} (hs : Schedule p.cout (p.batches * p.outH * p.outW) K.kr 4 blocks)
    (hne : ∀ b ∈ blocks, b.r0 < b.r1 ∧ b.c0 < b.c1)
    {out0 : List α} (h0 : out0.length = p.batches * p.outH * p.outW * p.cout) :
    ∃ trs, bgemmA64Traces false K E p fat blocks inp filt = some trs ∧
      ∀ L, L.Perm trs.flatten → applyWrites L out0 = some ((List.range out0.length).map fun x => f (x / p.cout) (x % p.cout)) := by
  subst hm
  unfold bgemmA64Traces
  rw [hr]
  simp only [Option.bind_eq_bind, Option.bind_some]
  obtain ⟨trs, e1, e2⟩ := runTyped_schedule_good (fat := fat) hkr (by omega) hker hs hne
  refine ⟨trs, e1, ?_⟩
  intro L hL
  rw [applyWrites_perm hs e2 _ _ hL]
  · intro i j hi hj
    have := row_lt hj hi
    rw [h0]; omega
  · intro x hx
    rw [h0] at hx
    obtain ⟨a1, a2⟩ := mod_lt_of_lt_mul hx
    exact ⟨x % p.cout, x / p.cout, a2, a1, by rw [Nat.add_comm, div_mul_add_mod]⟩

/-- **C52.** Float output with 16-bit accumulators: the 8x4 assembly kernel leaves in the output what the reference kernel leaves
there, for every schedule and interleaving, whenever the op selects this kernel. Hypotheses on the buffers: the strides ruy chooses
are at least the packed depth; multiplier and bias are readable up to a multiple of 8 channels (whether the op provides this is
C55); `tmp`: the initial content of the buffer for incomplete blocks. -/
theorem C52_a64_bgemm_float (hok : p.Ok inp filt) (hg : p.groups = 1) (hgeo : p.Geom) (hpad : p.padding = .valid ∨ p.padValue = 1)
    (hfh : 0 < p.filtH) (hfw : 0 < p.filtW) (hci : 0 < p.cin) (hsel : bgemm16Selected p = true)
    (h1 : Fits32 E.cmin) (h2 : Fits32 E.cmax) (hle : E.cmin ≤ E.cmax)
    (hls : ceilMul (p.filtDepth * p.filtH * p.filtW) 4 ≤ E.ls) (hrs : ceilMul (p.filtDepth * p.filtH * p.filtW) 4 ≤ E.rs)
    (hm : ceilMul p.cout 8 ≤ E.mult.length) (hb : ceilMul p.cout 8 ≤ E.bias.length)
    {tmp : List Word} (htmp : tmp.length = 32)
    (fat : Bool) {blocks : List Blk} (hs : Schedule p.cout (p.batches * p.outH * p.outW) 8 4 blocks)
    (hne : ∀ b ∈ blocks, b.r0 < b.r1 ∧ b.c0 < b.c1)
    {out0 out1 : List Word} (ho0 : out0.length = p.batches * p.outH * p.outW * p.cout)
    (ho1 : out1.length = p.batches * p.outH * p.outW * p.cout) :
    ∃ trs out, bgemmA64Traces false (gKern8F tmp) E p fat blocks inp filt = some trs ∧
      bconvReference p inp filt (runFloatBits E.F E.cmin E.cmax E.mult E.bias) out1 = some out ∧
      ∀ L, L.Perm trs.flatten → applyWrites L out0 = some out := by
  have hz := zeroPadding_false hpad
  have hK := gK_lt hg hsel
  have hcl : p.cout ≤ ceilMul p.cout 8 := ceilDiv_mul_ge p.cout 8 (by omega)
  obtain ⟨rhs, hr, hrd⟩ := im2colRhs_eq hok hg hgeo
  obtain ⟨trs, e1, e2⟩ := gemmA64_perm (E := E) (filt := filt) (K := gKern8F tmp) (f := fun j i => otFloat E.F (BitVec.ofInt 32 E.cmin)
      (BitVec.ofInt 32 E.cmax) (BitVec.ofNat 16 (p.accPix inp filt j i)) ((E.mult[i]?).getD 0#32) ((E.bias[i]?).getD 0#32))
    (by show 0 < 8; omega) rfl hr (fun b tr W hgd he => gRun8_emits (fr := otFloat E.F (BitVec.ofInt 32 E.cmin) (BitVec.ofInt 32 E.cmax))
      (depth_pos hok hfh hfw hci hg) hls hrs hm hb htmp (fun m o s => g8_otF_loaded E.F m o s) (fun m o s => g8_otF_okList E.F m o s)
      (fun m o s a1 a2 a3 a4 a5 c i hc hi => by rw [g8_resF E.F m o s a1 a2 a3 c i hc hi, a4, a5])
      (fun i j hi hj => by
        have e : i + j * p.cout = j * p.cout + i := by omega
        simp only [e, (div_mod_row hi).1, (div_mod_row hi).2]
        rw [gemmNat_accPix hok hg hrd hi hj]) hgd he) fat hs hne ho0
  have href := bconvReference_list hok hz (f := fun a c => E.F.fadd (E.F.fmul (E.F.scvtf (BitVec.ofInt 32
      (max (min ((a : Int) * 2) E.cmax) E.cmin))) (E.mult.getD c 0#32)) (E.bias.getD c 0#32))
    (fun a c ha hc => runFloatBits_eq (by omega) (by omega) (by omega)) ho1
  refine ⟨trs, _, e1, href, ?_⟩
  intro L hL
  rw [e2 L hL, ho0, ho1]
  refine congrArg some ?_
  apply List.map_congr_left
  intro i hi
  rw [List.mem_range] at hi
  obtain ⟨e1, e2⟩ := mod_lt_of_lt_mul hi
  rw [otFloat_eq h1 h2 hle (by have := accPix_le hok e1 e2; omega)]
  simp only [List.getD_eq_getElem?_getD]

/-- **C52**, int8 output (rounding to nearest, ties to even, as in C50). -/
theorem C52_a64_bgemm_int8 (hok : p.Ok inp filt) (hg : p.groups = 1) (hgeo : p.Geom) (hpad : p.padding = .valid ∨ p.padValue = 1)
    (hfh : 0 < p.filtH) (hfw : 0 < p.filtW) (hci : 0 < p.cin) (hsel : bgemm16Selected p = true)
    (h1 : Fits32 E.cmin) (h2 : Fits32 E.cmax) (hle : E.cmin ≤ E.cmax)
    (hls : ceilMul (p.filtDepth * p.filtH * p.filtW) 4 ≤ E.ls) (hrs : ceilMul (p.filtDepth * p.filtH * p.filtW) 4 ≤ E.rs)
    (hm : ceilMul p.cout 8 ≤ E.mult.length) (hb : ceilMul p.cout 8 ≤ E.bias.length)
    {tmp : List (BitVec 8)} (htmp : tmp.length = 32)
    (fat : Bool) {blocks : List Blk} (hs : Schedule p.cout (p.batches * p.outH * p.outW) 8 4 blocks)
    (hne : ∀ b ∈ blocks, b.r0 < b.r1 ∧ b.c0 < b.c1)
    {out0 out1 : List (BitVec 8)} (ho0 : out0.length = p.batches * p.outH * p.outW * p.cout)
    (ho1 : out1.length = p.batches * p.outH * p.outW * p.cout) :
    ∃ trs out, bgemmA64Traces false (gKern8I tmp) E p fat blocks inp filt = some trs ∧
      bconvReference p inp filt (runInt8Bits E.F E.cmin E.cmax E.mult E.bias) out1 = some out ∧
      ∀ L, L.Perm trs.flatten → applyWrites L out0 = some out := by
  have hz := zeroPadding_false hpad
  have hK := gK_lt hg hsel
  have hcl : p.cout ≤ ceilMul p.cout 8 := ceilDiv_mul_ge p.cout 8 (by omega)
  obtain ⟨rhs, hr, hrd⟩ := im2colRhs_eq hok hg hgeo
  obtain ⟨trs, e1, e2⟩ := gemmA64_perm (E := E) (filt := filt) (K := gKern8I tmp) (f := fun j i => sat8 (sat16 (E.F.fcvtns (otFloat E.F
      (BitVec.ofInt 32 E.cmin) (BitVec.ofInt 32 E.cmax) (BitVec.ofNat 16 (p.accPix inp filt j i)) ((E.mult[i]?).getD 0#32)
      ((E.bias[i]?).getD 0#32)))))
    (by show 0 < 8; omega) rfl hr (fun b tr W hgd he => gRun8_emits
      (fr := fun a m b => sat8 (sat16 (E.F.fcvtns (otFloat E.F (BitVec.ofInt 32 E.cmin) (BitVec.ofInt 32 E.cmax) a m b))))
      (depth_pos hok hfh hfw hci hg) hls hrs hm hb htmp (fun m o s => g8_otI_loaded E.F m o s) (fun m o s => g8_otI_okList E.F m o s)
      (fun m o s a1 a2 a3 a4 a5 c i hc hi => by rw [g8_resI E.F m o s a1 a2 a3 c i hc hi, a4, a5])
      (fun i j hi hj => by
        have e : i + j * p.cout = j * p.cout + i := by omega
        simp only [e, (div_mod_row hi).1, (div_mod_row hi).2]
        rw [gemmNat_accPix hok hg hrd hi hj]) hgd he) fat hs hne ho0
  have href := bconvReference_list hok hz (run := runInt8Bits E.F E.cmin E.cmax E.mult E.bias) (f := fun a c => BitVec.ofInt 8 (max (-128) (min 127 (E.F.fcvtns (E.F.fadd (E.F.fmul (E.F.scvtf
      (BitVec.ofInt 32 (max (min ((a : Int) * 2) E.cmax) E.cmin))) (E.mult.getD c 0#32)) (E.bias.getD c 0#32))).toInt)))
    (fun a c ha hc => by
      unfold runInt8Bits
      rw [runFloatBits_eq (by omega) (by omega) (by omega)]
      rfl) ho1
  refine ⟨trs, _, e1, href, ?_⟩
  intro L hL
  rw [e2 L hL, ho0, ho1]
  refine congrArg some ?_
  apply List.map_congr_left
  intro i hi
  rw [List.mem_range] at hi
  obtain ⟨e1, e2⟩ := mod_lt_of_lt_mul hi
  rw [otFloat_eq h1 h2 hle (by have := accPix_le hok e1 e2; omega), sat8_sat16]
  simp only [List.getD_eq_getElem?_getD]

end

/-- The bytes of a list of words in memory (little endian). -/
def wordsBytes (ws : List Word) : List (BitVec 8) :=
  (List.range (4 * ws.length)).map fun i => wordByte ((ws[i / 4]?).getD 0#32) (i % 4)

theorem gBit_ofNat {a : Nat} (ha : a < 65536) (t : Word) : gBit (BitVec.ofNat 16 a) t = decide ((a : Int) > t.toInt) := by
  unfold gBit BitVec.slt
  have e : ((BitVec.ofNat 16 a).zeroExtend 32).toInt = (a : Int) := by
    have hn : ((BitVec.ofNat 16 a).zeroExtend 32).toNat = a := by
      rw [BitVec.toNat_setWidth, BitVec.toNat_ofNat, Nat.mod_eq_of_lt (a := a) (by omega), Nat.mod_eq_of_lt (by omega)]
    rw [BitVec.toInt_eq_toNat_of_lt (by omega), hn]
  rw [e]

/-- What a cleared buffer holds. -/
theorem bgemmClear_zero {p : BConv} {out0 : List Word} (h0 : out0.length = p.batches * p.outH * p.outW * packedSize p.cout)
    (hc : p.cout % 32 ≠ 0) : bgemmClear p out0 = some (List.replicate out0.length 0#32) := by
  unfold bgemmClear
  rw [if_pos hc]
  obtain ⟨s', e1, e2⟩ := Fills.loop (s0 := out0) (s := out0) (n := p.batches * p.outH * p.outW * packedSize p.cout)
    (W0 := fun _ => False) (f := fun _ => 0#32) (body := fun i out => wr out i 0#32) (fun i x => x = i) (Fills.init _ _ (by simp))
    (fun i W s hi hs => hs.write (by omega) rfl)
  rw [e1, e2.all (fun i hi => Or.inr ⟨i, by omega, rfl⟩)]
  congr 1
  apply List.ext_getElem?
  intro i
  by_cases hi : i < out0.length
  · simp [hi]
  · simp [hi]

/-- **C53.** Bitpacked output with 16-bit accumulators: after the clearing of the output, the 8x4 assembly kernel, which writes
bytes, leaves the bytes of the reference kernel's bitpacked output, for every schedule and interleaving, whatever the output buffer
held before. `E.mult` are the thresholds, readable up to a multiple of 8 channels (C55). -/
theorem C53_a64_bgemm_bits {p : BConv} {inp filt : List Word} {E : GemmEnv}
    (hok : p.Ok inp filt) (hg : p.groups = 1) (hgeo : p.Geom) (hpad : p.padding = .valid ∨ p.padValue = 1)
    (hfh : 0 < p.filtH) (hfw : 0 < p.filtW) (hci : 0 < p.cin) (hsel : bgemm16Selected p = true)
    (hls : ceilMul (p.filtDepth * p.filtH * p.filtW) 4 ≤ E.ls) (hrs : ceilMul (p.filtDepth * p.filtH * p.filtW) 4 ≤ E.rs)
    (hm : ceilMul p.cout 8 ≤ E.mult.length)
    (fat : Bool) {blocks : List Blk} (hs : Schedule p.cout (p.batches * p.outH * p.outW) 8 4 blocks)
    (hne : ∀ b ∈ blocks, b.r0 < b.r1 ∧ b.c0 < b.c1)
    {out0 out1 : List Word} (ho0 : out0.length = p.batches * p.outH * p.outW * ((p.cout + 31) / 32))
    (ho1 : out1.length = p.batches * p.outH * p.outW * ((p.cout + 31) / 32)) :
    ∃ trs out out', bgemmA64Traces true gKern8B E p fat blocks inp filt = some trs ∧
      bconvReferenceBits p inp filt (runThreshold (E.mult.map BitVec.toInt)) out1 = some out ∧
      bgemmClear p out0 = some out' ∧
      ∀ L, L.Perm trs.flatten → applyWrites L (wordsBytes out') = some (wordsBytes out) := by
  have hz := zeroPadding_false hpad
  rw [← packedSize_eq] at ho0 ho1
  have hK := gK_lt hg hsel
  have hcl : p.cout ≤ ceilMul p.cout 8 := ceilDiv_mul_ge p.cout 8 (by omega)
  obtain ⟨rhs, hr, hrd⟩ := im2colRhs_eq hok hg hgeo
  obtain ⟨out', c1, c2⟩ := bgemmClear_eq (p := p) ho0
  have hrun : ∀ a c, a ≤ p.K → c < p.cout → runThreshold (E.mult.map BitVec.toInt) a c
      = some (decide ((a : Int) > ((E.mult[c]?).getD 0#32).toInt)) := by
    intro a c ha hc
    have h1 : chk32 (a : Int) = some (a : Int) := chk32_eq (by omega) (by omega)
    have h2 : c < E.mult.length := by omega
    unfold runThreshold
    simp only [h1, rd, Option.bind_eq_bind, Option.bind_some, List.getElem?_map, List.getElem?_eq_getElem h2, Option.map_some,
      Option.getD_some]
  have hps := packedSize_eq p.cout
  generalize hg' : (fun k => wordOf fun i => if 32 * (k % packedSize p.cout) + i < p.cout then
      decide ((p.accPix inp filt (k / packedSize p.cout) (32 * (k % packedSize p.cout) + i) : Int)
        > ((E.mult[32 * (k % packedSize p.cout) + i]?).getD 0#32).toInt) else false) = g'
  have href := bconvReferenceBits_list hok hz hrun ho1
  rw [hg'] at href
  have key : ∃ trs, bgemmA64Traces true gKern8B E p fat blocks inp filt = some trs ∧
      List.Forall₂ (fun b tr => Emits tr
        (fun x => ∃ i j, Blk.Cell b p.cout (p.batches * p.outH * p.outW) i j ∧ x = i / 8 + j * (4 * packedSize p.cout))
        (fun x => wordByte (g' (x / 4)) (x % 4))) blocks trs := by
    unfold bgemmA64Traces
    rw [hr]
    simp only [Option.bind_eq_bind, Option.bind_some]
    refine runTyped_schedule_good (by show 0 < 8; omega) (by omega) (fun b tr W hgd he => ?_) hs hne
    refine gRun8B_emits (depth_pos hok hfh hfw hci hg) hls hrs hm ?_ hgd he
    intro q j r hq hj hr8
    have hq4 : q / 4 < packedSize p.cout := by omega
    have e1 : (q + j * (4 * packedSize p.cout)) / 4 = j * packedSize p.cout + q / 4 := by
      have : q + j * (4 * packedSize p.cout) = q + 4 * (j * packedSize p.cout) := by ring
      rw [this]; omega
    have e2 : (q + j * (4 * packedSize p.cout)) % 4 = q % 4 := by
      have : q + j * (4 * packedSize p.cout) = q + 4 * (j * packedSize p.cout) := by ring
      rw [this]; omega
    rw [e1, e2, wordByte_getLsbD _ _ _ hr8, ← hg']
    simp only [(div_mod_row hq4).1, (div_mod_row hq4).2]
    rw [wordOf_getLsbD]
    have e3 : 32 * (q / 4) + (8 * (q % 4) + r) = 8 * q + r := by omega
    have e4 : 8 * (q % 4) + r < 32 := by omega
    rw [e3, decide_eq_true e4, Bool.true_and]
    by_cases hc : 8 * q + r < p.cout
    · rw [if_pos hc, decide_eq_true hc, Bool.true_and, gemmNat_accPix hok hg hrd hc hj,
        gBit_ofNat (by have := accPix_le hok hj hc; omega)]
    · rw [if_neg hc, decide_eq_false hc, Bool.false_and]
  obtain ⟨trs, t1, t2⟩ := key
  refine ⟨trs, _, out', t1, href, c1, ?_⟩
  intro L hL
  have he := flatten_emits t2
  have hlen : (wordsBytes out').length = 4 * (p.batches * p.outH * p.outW * packedSize p.cout) := by
    simp [wordsBytes, c2, ho0]
  obtain ⟨s', a1, a2⟩ := applyWrites_fills L (wordsBytes out') (fun _ => False) (Fills.init (wordsBytes out')
      (fun x => wordByte (g' (x / 4)) (x % 4)) (fun _ _ h => h))
    (fun w hw => by
      obtain ⟨⟨b, hb, i, j, ⟨_, d2, _, d4⟩, hx⟩, hv⟩ := (he w).1 (hL.mem_iff.1 hw)
      refine ⟨?_, hv⟩
      have hi : i / 8 < 4 * packedSize p.cout := by omega
      have := row_lt (rows := p.batches * p.outH * p.outW) (cols := 4 * packedSize p.cout) (r := j) (c := i / 8) (by omega) hi
      have e : p.batches * p.outH * p.outW * (4 * packedSize p.cout) = 4 * (p.batches * p.outH * p.outW * packedSize p.cout) := by ring
      rw [hlen, hx]
      omega)
  rw [a1]
  refine congrArg some ?_
  have hfin : ∀ x, x < (wordsBytes out').length → s'[x]? = some (wordByte (g' (x / 4)) (x % 4)) := by
    intro x hx
    by_cases hw : False ∨ ∃ w ∈ L, x = w.1
    · exact a2.hit x hx hw
    · rw [a2.miss x hw]
      rw [hlen] at hx
      have hx4 : x / 4 < p.batches * p.outH * p.outW * packedSize p.cout := by omega
      obtain ⟨m1, m2⟩ := mod_lt_of_lt_mul hx4
      have hd := div_mul_add_mod (x / 4) (packedSize p.cout)
      -- the byte is past the last channel
      have hpast : p.cout ≤ 32 * (x / 4 % packedSize p.cout) + 8 * (x % 4) := by
        by_contra hn
        apply hw
        right
        obtain ⟨b, hb, v1, v2, v3, v4⟩ := hs.cover (32 * (x / 4 % packedSize p.cout) + 8 * (x % 4)) (x / 4 / packedSize p.cout)
          (by omega) m1
        refine ⟨(x, wordByte (g' (x / 4)) (x % 4)), hL.mem_iff.2 ((he _).2 ⟨⟨b, hb, _, _, ⟨v1, ?_, v3, ?_⟩, ?_⟩, rfl⟩), rfl⟩
        · omega
        · omega
        · have e : x / 4 / packedSize p.cout * (4 * packedSize p.cout) = 4 * (x / 4 / packedSize p.cout * packedSize p.cout) := by ring
          show x = _
          rw [e]
          omega
      have hc32 : p.cout % 32 ≠ 0 := by
        intro h0
        omega
      have hrep := bgemmClear_zero (p := p) ho0 hc32
      rw [c1] at hrep
      have hrep := Option.some.inj hrep
      have hx' : x < 4 * out0.length := by rw [ho0]; exact hx
      have e0 : (wordsBytes out')[x]? = some 0#8 := by
        unfold wordsBytes
        rw [c2, List.getElem?_map, List.getElem?_range hx', Option.map_some, hrep]
        have e : ((List.replicate out0.length 0#32)[x / 4]?).getD 0#32 = 0#32 := by
          by_cases hh : x / 4 < out0.length
          · simp [hh]
          · simp [hh]
        rw [e]
        unfold wordByte
        simp
      rw [e0]
      refine congrArg some ?_
      symm
      apply BitVec.eq_of_getLsbD_eq
      intro r hr8
      rw [wordByte_getLsbD _ _ _ hr8, ← hg']
      simp only []
      rw [wordOf_getLsbD, if_neg (by omega)]
      simp
  apply List.ext_getElem?
  intro x
  by_cases hx : x < (wordsBytes out').length
  · rw [hfin x hx]
    rw [hlen] at hx
    have hx' : x < 4 * out1.length := by rw [ho1]; exact hx
    unfold wordsBytes
    have hl : ((List.range out1.length).map g').length = out1.length := by simp
    rw [hl, List.getElem?_map, List.getElem?_range hx', Option.map_some, List.getElem?_map, List.getElem?_range (by omega)]
    rfl
  · have h1 : s'[x]? = none := by rw [List.getElem?_eq_none_iff, a2.len]; omega
    rw [h1, eq_comm, List.getElem?_eq_none_iff]
    rw [hlen] at hx
    simp only [wordsBytes, List.length_map, List.length_range]
    rw [ho1]; omega

theorem runFloatBits_eq' {F : FOps} {cmin cmax : Int} {mult bias : List Word} {a c : Nat} (ha : 2 * a < 2147483648)
    (hm : c < mult.length) (hb : c < bias.length) :
    runFloatBits F cmin cmax mult bias a c = some (F.fadd (F.fmul (F.scvtf (BitVec.ofInt 32
      (max (min ((a : Int) * 2) cmax) cmin))) (mult.getD c 0#32)) (bias.getD c 0#32)) := by
  have c1 : chk32 (a : Int) = some (a : Int) := chk32_eq (by omega) (by omega)
  have c2 : chk32 ((a : Int) * 2) = some ((a : Int) * 2) := chk32_eq (by omega) (by omega)
  unfold runFloatBits
  simp only [c1, c2, rd, Option.bind_eq_bind, Option.bind_some, List.getElem?_eq_getElem hm, List.getElem?_eq_getElem hb,
    List.getD_eq_getElem?_getD, Option.getD_some]

theorem shl1_ofNat {a : Nat} (h : 2 * a < 2147483648) : (BitVec.ofNat 32 a) <<< 1 = BitVec.ofInt 32 ((a : Int) * 2) := by
  apply BitVec.eq_of_toNat_eq
  rw [BitVec.toNat_ofInt]
  simp only [BitVec.toNat_shiftLeft, BitVec.toNat_ofNat]
  rw [Nat.shiftLeft_eq, Nat.mod_eq_of_lt (a := a) (by omega)]
  omega

theorem otFloat4_eq {F : FOps} {cmin cmax : Int} (h1 : Fits32 cmin) (h2 : Fits32 cmax) (hle : cmin ≤ cmax) {a : Nat}
    (ha : 2 * a < 2147483648) (mu bi : Word) :
    otFloat4 F (BitVec.ofInt 32 cmin) (BitVec.ofInt 32 cmax) (BitVec.ofNat 32 a) mu bi
      = F.fadd (F.fmul (F.scvtf (BitVec.ofInt 32 (max (min ((a : Int) * 2) cmax) cmin))) mu) bi := by
  unfold otFloat4
  have h3 : Fits32 ((a : Int) * 2) := by unfold Fits32; omega
  have h4 : Fits32 (max ((a : Int) * 2) cmin) := by unfold Fits32 at *; omega
  rw [shl1_ofNat ha, wordSmax_ofInt h3 h1, wordSmin_ofInt h4 h2]
  have : min (max ((a : Int) * 2) cmin) cmax = max (min ((a : Int) * 2) cmax) cmin := by omega
  rw [this]

/-- The depths (in words, rounded up to 4) with which the 4x4 kernel adds up the right number of blocks. -/
def StreamOk (stream : Bool) (depth : Nat) : Prop := stream = false ∨ depth = 4 ∨ (16 ≤ depth ∧ depth % 8 = 0)

theorem g4Blocks_ok {stream : Bool} {d : Nat} (h4 : d % 4 = 0) (h : StreamOk stream d) : g4Blocks stream d = d / 4 := by
  unfold g4Blocks
  rcases h with rfl | rfl | ⟨h1, h2⟩
  · simp
  · simp
  · cases stream
    · simp
    · have h8 : 8 ≤ d := by omega
      simp only [Bool.true_and, decide_eq_true h8, if_true]
      have : max 1 ((d - 1) / 8) = (d - 1) / 8 := by omega
      rw [this, if_pos (by omega)]
      omega

section
variable {p : BConv} {inp filt : List Word} {E : GemmEnv}

/-- **C54.** Float output with 32-bit accumulators: the 4x4 assembly kernel leaves in the output what the reference kernel leaves
there, for every schedule and interleaving. Partial: with the streaming loop (`stream`, on by default in ruy) only for depths
of 4 words or a multiple of 8 words other than 8; in the other cases the statement is false (`C54_stream_wrong`,
`C54_stream_wrong_witness`). -/
theorem C54_a64_bgemm4_float_partial {stream : Bool} (hok : p.Ok inp filt) (hg : p.groups = 1) (hgeo : p.Geom)
    (hpad : p.padding = .valid ∨ p.padValue = 1) (hfh : 0 < p.filtH) (hfw : 0 < p.filtW) (hci : 0 < p.cin)
    (hstr : StreamOk stream (ceilMul (p.filtDepth * p.filtH * p.filtW) 4))
    (hK : 2 * (p.filtH * p.filtW * p.cin) < 2147483648)
    (h1 : Fits32 E.cmin) (h2 : Fits32 E.cmax) (hle : E.cmin ≤ E.cmax)
    (hls : ceilMul (p.filtDepth * p.filtH * p.filtW) 4 ≤ E.ls) (hrs : ceilMul (p.filtDepth * p.filtH * p.filtW) 4 ≤ E.rs)
    (hm : ceilMul p.cout 4 ≤ E.mult.length) (hb : ceilMul p.cout 4 ≤ E.bias.length)
    {tmp : List Word} (htmp : tmp.length = 16)
    (fat : Bool) {blocks : List Blk} (hs : Schedule p.cout (p.batches * p.outH * p.outW) 4 4 blocks)
    (hne : ∀ b ∈ blocks, b.r0 < b.r1 ∧ b.c0 < b.c1)
    {out0 out1 : List Word} (ho0 : out0.length = p.batches * p.outH * p.outW * p.cout)
    (ho1 : out1.length = p.batches * p.outH * p.outW * p.cout) :
    ∃ trs out, bgemmA64Traces false (gKern4F stream tmp) E p fat blocks inp filt = some trs ∧
      bconvReference p inp filt (runFloatBits E.F E.cmin E.cmax E.mult E.bias) out1 = some out ∧
      ∀ L, L.Perm trs.flatten → applyWrites L out0 = some out := by
  have hz := zeroPadding_false hpad
  have hK' : 2 * p.K < 2147483648 := by
    unfold BConv.K BConv.cinG; rw [hg, Nat.div_one]; exact hK
  have hcl : p.cout ≤ ceilMul p.cout 4 := ceilDiv_mul_ge p.cout 4 (by omega)
  obtain ⟨k1, k2, k3, k4⟩ := ceilMul4_eq (p.filtDepth * p.filtH * p.filtW)
  have hnb := g4Blocks_ok k4 hstr
  obtain ⟨rhs, hr, hrd⟩ := im2colRhs_eq hok hg hgeo
  obtain ⟨trs, e1, e2⟩ := gemmA64_perm (E := E) (filt := filt) (K := gKern4F stream tmp) (f := fun j i => otFloat4 E.F (BitVec.ofInt 32 E.cmin)
      (BitVec.ofInt 32 E.cmax) (BitVec.ofNat 32 (p.accPix inp filt j i)) ((E.mult[i]?).getD 0#32) ((E.bias[i]?).getD 0#32))
    (by show 0 < 4; omega) rfl hr (fun b tr W hgd he => gRun4_emits stream
      (A := fun i j => gemmNat (p.filtDepth * p.filtH * p.filtW) filt rhs i j)
      (fr := otFloat4 E.F (BitVec.ofInt 32 E.cmin) (BitVec.ofInt 32 E.cmax))
      (depth_pos hok hfh hfw hci hg)
      (fun row r1 r2 => by
        have := fits_bytes (kc := 4) (n := p.cout) (x := E.xl.length) (by omega) hls rfl r1 r2
        rw [hnb]; omega)
      (fun row r1 r2 => by
        have := fits_bytes (kc := 4) (n := p.batches * p.outH * p.outW) (x := E.xr.length) (by omega) hrs rfl r1 r2
        rw [hnb]; omega)
      hm hb htmp (fun m o s => g4_otF_loaded E.F m o s) (fun m o s => g4_otF_okList E.F m o s)
      (fun m o s a1 a2 a3 a4 a5 c i hc hi => by rw [g4_resF E.F m o s a1 a2 a3 c i hc, a4, a5])
      (fun row col i c r1 r2 r3 r4 r5 r6 => by
        rw [hnb]; exact gSum_gemm (Or.inl rfl) hls hrs r1 r2 r3 r4 r5 r6)
      (fun i j hi hj => by
        have e : i + j * p.cout = j * p.cout + i := by omega
        simp only [e, (div_mod_row hi).1, (div_mod_row hi).2]
        rw [gemmNat_accPix hok hg hrd hi hj]) hgd he) fat hs hne ho0
  have href := bconvReference_list hok hz (f := fun a c => E.F.fadd (E.F.fmul (E.F.scvtf (BitVec.ofInt 32
      (max (min ((a : Int) * 2) E.cmax) E.cmin))) (E.mult.getD c 0#32)) (E.bias.getD c 0#32))
    (fun a c ha hc => runFloatBits_eq' (by omega) (by omega) (by omega)) ho1
  refine ⟨trs, _, e1, href, ?_⟩
  intro L hL
  rw [e2 L hL, ho0, ho1]
  refine congrArg some ?_
  apply List.map_congr_left
  intro i hi
  rw [List.mem_range] at hi
  obtain ⟨e1, e2⟩ := mod_lt_of_lt_mul hi
  rw [otFloat4_eq h1 h2 hle (by have := accPix_le hok e1 e2; omega)]
  simp only [List.getD_eq_getElem?_getD]

/-- **C54**, int8 output (partial in the same way). -/
theorem C54_a64_bgemm4_int8_partial {stream : Bool} (hok : p.Ok inp filt) (hg : p.groups = 1) (hgeo : p.Geom)
    (hpad : p.padding = .valid ∨ p.padValue = 1) (hfh : 0 < p.filtH) (hfw : 0 < p.filtW) (hci : 0 < p.cin)
    (hstr : StreamOk stream (ceilMul (p.filtDepth * p.filtH * p.filtW) 4))
    (hK : 2 * (p.filtH * p.filtW * p.cin) < 2147483648)
    (h1 : Fits32 E.cmin) (h2 : Fits32 E.cmax) (hle : E.cmin ≤ E.cmax)
    (hls : ceilMul (p.filtDepth * p.filtH * p.filtW) 4 ≤ E.ls) (hrs : ceilMul (p.filtDepth * p.filtH * p.filtW) 4 ≤ E.rs)
    (hm : ceilMul p.cout 4 ≤ E.mult.length) (hb : ceilMul p.cout 4 ≤ E.bias.length)
    {tmp : List (BitVec 8)} (htmp : tmp.length = 16)
    (fat : Bool) {blocks : List Blk} (hs : Schedule p.cout (p.batches * p.outH * p.outW) 4 4 blocks)
    (hne : ∀ b ∈ blocks, b.r0 < b.r1 ∧ b.c0 < b.c1)
    {out0 out1 : List (BitVec 8)} (ho0 : out0.length = p.batches * p.outH * p.outW * p.cout)
    (ho1 : out1.length = p.batches * p.outH * p.outW * p.cout) :
    ∃ trs out, bgemmA64Traces false (gKern4I stream tmp) E p fat blocks inp filt = some trs ∧
      bconvReference p inp filt (runInt8Bits E.F E.cmin E.cmax E.mult E.bias) out1 = some out ∧
      ∀ L, L.Perm trs.flatten → applyWrites L out0 = some out := by
  have hz := zeroPadding_false hpad
  have hK' : 2 * p.K < 2147483648 := by
    unfold BConv.K BConv.cinG; rw [hg, Nat.div_one]; exact hK
  have hcl : p.cout ≤ ceilMul p.cout 4 := ceilDiv_mul_ge p.cout 4 (by omega)
  obtain ⟨k1, k2, k3, k4⟩ := ceilMul4_eq (p.filtDepth * p.filtH * p.filtW)
  have hnb := g4Blocks_ok k4 hstr
  obtain ⟨rhs, hr, hrd⟩ := im2colRhs_eq hok hg hgeo
  obtain ⟨trs, e1, e2⟩ := gemmA64_perm (E := E) (filt := filt) (K := gKern4I stream tmp) (f := fun j i => sat8 (sat16 (E.F.fcvtns
      (otFloat4 E.F (BitVec.ofInt 32 E.cmin)
      (BitVec.ofInt 32 E.cmax) (BitVec.ofNat 32 (p.accPix inp filt j i)) ((E.mult[i]?).getD 0#32) ((E.bias[i]?).getD 0#32)))))
    (by show 0 < 4; omega) rfl hr (fun b tr W hgd he => gRun4_emits stream
      (A := fun i j => gemmNat (p.filtDepth * p.filtH * p.filtW) filt rhs i j)
      (fr := fun a m b => sat8 (sat16 (E.F.fcvtns (otFloat4 E.F (BitVec.ofInt 32 E.cmin) (BitVec.ofInt 32 E.cmax) a m b))))
      (depth_pos hok hfh hfw hci hg)
      (fun row r1 r2 => by
        have := fits_bytes (kc := 4) (n := p.cout) (x := E.xl.length) (by omega) hls rfl r1 r2
        rw [hnb]; omega)
      (fun row r1 r2 => by
        have := fits_bytes (kc := 4) (n := p.batches * p.outH * p.outW) (x := E.xr.length) (by omega) hrs rfl r1 r2
        rw [hnb]; omega)
      hm hb htmp (fun m o s => g4_otI_loaded E.F m o s) (fun m o s => g4_otI_okList E.F m o s)
      (fun m o s a1 a2 a3 a4 a5 c i hc hi => by rw [g4_resI E.F m o s a1 a2 a3 c i hc hi, a4, a5])
      (fun row col i c r1 r2 r3 r4 r5 r6 => by
        rw [hnb]; exact gSum_gemm (Or.inl rfl) hls hrs r1 r2 r3 r4 r5 r6)
      (fun i j hi hj => by
        have e : i + j * p.cout = j * p.cout + i := by omega
        simp only [e, (div_mod_row hi).1, (div_mod_row hi).2]
        rw [gemmNat_accPix hok hg hrd hi hj]) hgd he) fat hs hne ho0
  have href := bconvReference_list hok hz (run := runInt8Bits E.F E.cmin E.cmax E.mult E.bias) (f := fun a c => BitVec.ofInt 8
      (max (-128) (min 127 (E.F.fcvtns (E.F.fadd (E.F.fmul (E.F.scvtf
      (BitVec.ofInt 32 (max (min ((a : Int) * 2) E.cmax) E.cmin))) (E.mult.getD c 0#32)) (E.bias.getD c 0#32))).toInt)))
    (fun a c ha hc => by
      unfold runInt8Bits
      rw [runFloatBits_eq' (by omega) (by omega) (by omega)]
      rfl) ho1
  refine ⟨trs, _, e1, href, ?_⟩
  intro L hL
  rw [e2 L hL, ho0, ho1]
  refine congrArg some ?_
  apply List.map_congr_left
  intro i hi
  rw [List.mem_range] at hi
  obtain ⟨e1, e2⟩ := mod_lt_of_lt_mul hi
  rw [otFloat4_eq h1 h2 hle (by have := accPix_le hok e1 e2; omega), sat8_sat16]
  simp only [List.getD_eq_getElem?_getD]

/-- The blocks the streaming kernel adds up when the depth is 4 modulo 8: two too many. -/
theorem g4Blocks_bad {d : Nat} (h : 12 ≤ d) (h8 : d % 8 = 4) : g4Blocks true d = d / 4 + 2 := by
  unfold g4Blocks
  have h8' : 8 ≤ d := by omega
  simp only [Bool.true_and, decide_eq_true h8', if_true]
  have : max 1 ((d - 1) / 8) = (d - 1) / 8 := by omega
  rw [this, if_neg (by omega)]
  omega

/-- The words after a block are those of the next block. -/
theorem gSum_overshoot {rows cols k : Nat} {lhs rhs xl xr mult bias : List Word} {cmin cmax : Int}
    (h9 : 9 ≤ k) {row col i c : Nat} (hrow : row % 4 = 0) (hcol : col % 4 = 0)
    (hi : i < 4) (hc : c < 4) (hri : row + i + 4 < rows) (hcj : col + c + 4 < cols) :
    gSum (gMem false (gPacked 4 k rows k (ceilMul k 4) lhs) xl (gPacked 4 k cols k (ceilMul k 4) rhs) xr mult bias cmin cmax) 4
        (ceilMul k 4 / 4 + 2) (4 * (row * ceilMul k 4)) (4 * (col * ceilMul k 4)) c i
      = gemmNat k lhs rhs (row + i) (col + c) + ∑ e ∈ range 8, xorPopcount ((lhs[(row + i + 4) * k + e]?).getD 0#32)
          ((rhs[(col + c + 4) * k + e]?).getD 0#32) := by
  obtain ⟨k1, k2, k3, k4⟩ := ceilMul4_eq k
  have hmain := gSum_gemm (bits := false) (kr := 4) (lhs := lhs) (rhs := rhs) (xl := xl) (xr := xr) (mult := mult) (bias := bias)
    (cmin := cmin) (cmax := cmax) (Or.inl rfl) (Nat.le_refl (ceilMul k 4)) (Nat.le_refl (ceilMul k 4)) hrow hcol hi hc
    (show row + i < rows by omega) (show col + c < cols by omega)
  rw [← hmain, gSum_words, gSum_words]
  have e4 : 4 * (ceilMul k 4 / 4 + 2) = 4 * (ceilMul k 4 / 4) + 8 := by omega
  rw [e4, sum_range_add]
  refine congrArg (_ + ·) ?_
  apply sum_congr rfl
  intro e he
  have he : e < 8 := by simpa using he
  generalize hd : ceilMul k 4 = d at *
  have g1 := gPacked_get (rows := k) (cols := rows) (srcStride := k) (stride := d) (src := lhs) (kc := 4) (col := row + 4) (c := i) (d := e)
    (by omega) (by omega) (by omega) (by omega) hi (by omega)
  have g2 := gPacked_get (rows := k) (cols := cols) (srcStride := k) (stride := d) (src := rhs) (kc := 4) (col := col + 4) (c := c) (d := e)
    (by omega) (by omega) (by omega) (by omega) hc (by omega)
  have i1 : row * d + 4 * 4 * ((4 * (d / 4) + e) / 4) + 4 * i + (4 * (d / 4) + e) % 4 = (row + 4) * d + 4 * 4 * (e / 4) + 4 * i + e % 4 := by
    rw [Nat.add_mul]; omega
  have i2 : col * d + 16 * ((4 * (d / 4) + e) / 4) + 4 * c + (4 * (d / 4) + e) % 4 = (col + 4) * d + 4 * 4 * (e / 4) + 4 * c + e % 4 := by
    rw [Nat.add_mul]; omega
  rw [i1, i2, List.getElem?_append_left ((List.getElem?_eq_some_iff.1 g1).1), g1, Option.getD_some,
    List.getElem?_append_left ((List.getElem?_eq_some_iff.1 g2).1), g2, Option.getD_some, if_pos ⟨by omega, by omega⟩, if_pos ⟨by omega, by omega⟩]
  have j1 : row + 4 + i = row + i + 4 := by omega
  have j2 : col + 4 + c = col + c + 4 := by omega
  rw [j1, j2]

/-- **C54**, the defect in general: with the streaming loop, when the depth in words (rounded up to 4, the packed matrices having
this stride) is 4 modulo 8 and at least 12, the kernel accumulates two blocks too many. Every output `(i, j)` that has a channel
`i + 4` and a pixel `j + 4` is the transform of the true accumulator `a` plus the differing bits of the first 8 words of channel
`i + 4` and pixel `j + 4`. (32 words of any content `xl`, `xr` must be readable behind the packed matrices.) -/
theorem C54_stream_wrong (hok : p.Ok inp filt) (hg : p.groups = 1) (hgeo : p.Geom)
    (hfh : 0 < p.filtH) (hfw : 0 < p.filtW) (hci : 0 < p.cin)
    (hd12 : 12 ≤ ceilMul (p.filtDepth * p.filtH * p.filtW) 4) (hd8 : ceilMul (p.filtDepth * p.filtH * p.filtW) 4 % 8 = 4)
    (hls : E.ls = ceilMul (p.filtDepth * p.filtH * p.filtW) 4) (hrs : E.rs = ceilMul (p.filtDepth * p.filtH * p.filtW) 4)
    (hxl : 32 ≤ E.xl.length) (hxr : 32 ≤ E.xr.length)
    (hK : 2 * (p.filtH * p.filtW * p.cin + 256) < 2147483648)
    (h1 : Fits32 E.cmin) (h2 : Fits32 E.cmax) (hle : E.cmin ≤ E.cmax)
    (hm : ceilMul p.cout 4 ≤ E.mult.length) (hb : ceilMul p.cout 4 ≤ E.bias.length)
    {tmp : List Word} (htmp : tmp.length = 16)
    (fat : Bool) {blocks : List Blk} (hs : Schedule p.cout (p.batches * p.outH * p.outW) 4 4 blocks)
    (hne : ∀ b ∈ blocks, b.r0 < b.r1 ∧ b.c0 < b.c1)
    {out0 : List Word} (ho0 : out0.length = p.batches * p.outH * p.outW * p.cout) :
    ∃ rhs trs, im2colRhs p inp = some (rhs, p.filtDepth * p.filtH * p.filtW, p.batches * p.outH * p.outW) ∧
      bgemmA64Traces false (gKern4F true tmp) E p fat blocks inp filt = some trs ∧
      ∀ L, L.Perm trs.flatten → ∃ out, applyWrites L out0 = some out ∧
        ∀ i j, i + 4 < p.cout → j + 4 < p.batches * p.outH * p.outW →
          ∃ a, gemmAcc (p.filtDepth * p.filtH * p.filtW) filt rhs i j = some a ∧
          out[j * p.cout + i]? = runFloatBits E.F E.cmin E.cmax E.mult E.bias
            (a + ∑ e ∈ range 8, xorPopcount ((filt[(i + 4) * (p.filtDepth * p.filtH * p.filtW) + e]?).getD 0#32)
              ((rhs[(j + 4) * (p.filtDepth * p.filtH * p.filtW) + e]?).getD 0#32)) i := by
  have hcl : p.cout ≤ ceilMul p.cout 4 := ceilDiv_mul_ge p.cout 4 (by omega)
  obtain ⟨k1, k2, k3, k4⟩ := ceilMul4_eq (p.filtDepth * p.filtH * p.filtW)
  have hnb := g4Blocks_bad hd12 hd8
  obtain ⟨rhs, hr, hrd⟩ := im2colRhs_eq hok hg hgeo
  generalize hAd : (fun i j => gSum (gMem false (gPacked 4 (p.filtDepth * p.filtH * p.filtW) p.cout (p.filtDepth * p.filtH * p.filtW) E.ls filt)
    E.xl (gPacked 4 (p.filtDepth * p.filtH * p.filtW) (p.batches * p.outH * p.outW) (p.filtDepth * p.filtH * p.filtW) E.rs rhs) E.xr
    E.mult E.bias E.cmin E.cmax) 4 (g4Blocks true (ceilMul (p.filtDepth * p.filtH * p.filtW) 4)) (4 * (i / 4 * 4 * E.ls)) (4 * (j / 4 * 4 * E.rs))
    (j % 4) (i % 4)) = A
  obtain ⟨trs, e1, e2⟩ := gemmA64_perm (E := E) (filt := filt) (K := gKern4F true tmp) (f := fun j i => otFloat4 E.F (BitVec.ofInt 32 E.cmin)
      (BitVec.ofInt 32 E.cmax) (BitVec.ofNat 32 (A i j)) ((E.mult[i]?).getD 0#32) ((E.bias[i]?).getD 0#32))
    (by show 0 < 4; omega) rfl hr (fun b tr W hgd he => gRun4_emits true (A := A)
      (fr := otFloat4 E.F (BitVec.ofInt 32 E.cmin) (BitVec.ofInt 32 E.cmax))
      (depth_pos hok hfh hfw hci hg)
      (fun row r1 r2 => by
        have := fits_bytes (kc := 4) (n := p.cout) (x := 0) (by omega) (Nat.le_of_eq hls.symm) rfl r1 r2
        rw [hnb]; omega)
      (fun row r1 r2 => by
        have := fits_bytes (kc := 4) (n := p.batches * p.outH * p.outW) (x := 0) (by omega) (Nat.le_of_eq hrs.symm) rfl r1 r2
        rw [hnb]; omega)
      hm hb htmp (fun m o s => g4_otF_loaded E.F m o s) (fun m o s => g4_otF_okList E.F m o s)
      (fun m o s a1 a2 a3 a4 a5 c i hc hi => by rw [g4_resF E.F m o s a1 a2 a3 c i hc, a4, a5])
      (fun row col i c r1 r2 r3 r4 r5 r6 => by
        rw [← hAd]
        have q1 : (row + i) / 4 * 4 = row := by omega
        have q2 : (col + c) / 4 * 4 = col := by omega
        have q3 : (row + i) % 4 = i := by omega
        have q4 : (col + c) % 4 = c := by omega
        simp only [q1, q2, q3, q4])
      (fun i j hi hj => by
        have e : i + j * p.cout = j * p.cout + i := by omega
        simp only [e, (div_mod_row hi).1, (div_mod_row hi).2]) hgd he) fat hs hne ho0
  refine ⟨rhs, trs, hr, e1, ?_⟩
  intro L hL
  refine ⟨_, e2 L hL, ?_⟩
  intro i j hi hj
  have hi' : i < p.cout := by omega
  have hj' : j < p.batches * p.outH * p.outW := by omega
  refine ⟨_, gemmAcc_accPix hok hg hrd hi' hj', ?_⟩
  have hA : A i j = p.accPix inp filt j i
      + ∑ e ∈ range 8, xorPopcount ((filt[(i + 4) * (p.filtDepth * p.filtH * p.filtW) + e]?).getD 0#32)
              ((rhs[(j + 4) * (p.filtDepth * p.filtH * p.filtW) + e]?).getD 0#32) := by
    rw [← hAd, ← gemmNat_accPix hok hg hrd hi' hj']
    simp only [hnb, hls, hrs]
    have := gSum_overshoot (k := p.filtDepth * p.filtH * p.filtW) (rows := p.cout) (cols := p.batches * p.outH * p.outW)
      (lhs := filt) (rhs := rhs) (xl := E.xl) (xr := E.xr) (mult := E.mult) (bias := E.bias)
      (cmin := E.cmin) (cmax := E.cmax) (by omega) (row := i / 4 * 4) (col := j / 4 * 4) (i := i % 4) (c := j % 4)
      (by omega) (by omega) (by omega) (by omega) (by omega) (by omega)
    have q1 : i / 4 * 4 + i % 4 = i := by omega
    have q2 : j / 4 * 4 + j % 4 = j := by omega
    rw [q1, q2] at this
    exact this
  have hK' : p.K = p.filtH * p.filtW * p.cin := by
    unfold BConv.K BConv.cinG; rw [hg, Nat.div_one]
  have hex : ∑ e ∈ range 8, xorPopcount ((filt[(i + 4) * (p.filtDepth * p.filtH * p.filtW) + e]?).getD 0#32)
              ((rhs[(j + 4) * (p.filtDepth * p.filtH * p.filtW) + e]?).getD 0#32) ≤ 256 := by
    refine (sum_le_sum (fun e _ => xorPopcount_le _ _)).trans ?_
    simp
  have hacc := accPix_le hok hj' hi'
  rw [← hA]
  have hA2 : 2 * A i j < 2147483648 := by omega
  have hlt : j * p.cout + i < out0.length := by rw [ho0]; exact row_lt hj' hi'
  rw [List.getElem?_map, List.getElem?_range hlt, Option.map_some, (div_mod_row hi').1, (div_mod_row hi').2,
    runFloatBits_eq' hA2 (by omega) (by omega), otFloat4_eq h1 h2 hle hA2]
  simp only [List.getD_eq_getElem?_getD]

end

/-! ### C54: a reachable wrong result -/

/-- A 1x1 convolution of a 1x8 image with 65152 channels (2036 words) to 8 channels. -/
def streamConv : BConv :=
  { batches := 1, inH := 1, inW := 8, inDepth := 2036, cin := 65152, filtH := 1, filtW := 1,
    filtDepth := 2036, cout := 8, groups := 1, strideH := 1, strideW := 1, dilH := 1, dilW := 1,
    padding := .valid, padH := 0, padW := 0, padValue := 0, outH := 1, outW := 8 }

/-- Four pixels whose channels are all `+1`, then four whose channels are all `-1`. -/
def streamInput : List Word := List.replicate 8144 0#32 ++ List.replicate 8144 (BitVec.allOnes 32)

theorem streamConv_ok : streamConv.Ok streamInput (List.replicate 16288 0#32) where
  groups_pos := by decide
  cout_div := by decide
  inDepth := by decide
  filtDepth := by decide
  depth := by decide
  group_words := by decide
  inLen := by unfold streamInput; rw [List.length_append, List.length_replicate, List.length_replicate]; rfl
  filtLen := by rw [List.length_replicate]; rfl
  inUnused := by
    intro r k b _ hk hb h
    have h1 : (65152 : Nat) ≤ 32 * k + b := h
    have h2 : k < 2036 := hk
    omega
  filtUnused := by
    intro r k b _ hk hb h
    have h1 : (65152 : Nat) / 1 ≤ 32 * k + b := h
    have h2 : k < 2036 := hk
    omega

theorem streamConv_geom : streamConv.Geom := ⟨by decide, by decide, by decide, by decide⟩

theorem streamConv_schedule : Schedule streamConv.cout (streamConv.batches * streamConv.outH * streamConv.outW) 4 4 [⟨0, 8, 0, 8⟩] where
  aligned := by
    intro b hb
    rw [List.mem_singleton] at hb
    subst hb
    decide
  cover := by
    intro i j hi hj
    have h1 : i < 8 := hi
    have h2 : j < 1 * 1 * 8 := hj
    exact ⟨_, List.mem_singleton.2 rfl, Nat.zero_le _, h1, Nat.zero_le _, by simpa using h2⟩

/-- **C54**, a wrong result: for this convolution the op chooses the 4x4 kernel (the accumulators might not fit in 16 bits). The
first pixel and the weights of the first channel agree in all 65152 channels, and the reference kernel's first output is the
transform of 0; the assembly kernel's is the transform of 256 differing channels. -/
theorem C54_stream_wrong_witness {E : GemmEnv} (hls : E.ls = 2036) (hrs : E.rs = 2036) (hxl : 32 ≤ E.xl.length)
    (hxr : 32 ≤ E.xr.length) (hm : E.mult.length = 12) (hb : E.bias.length = 12) (hmin : E.cmin = 0) (hmax : E.cmax = 130304)
    {tmp : List Word} (htmp : tmp.length = 16) {out0 : List Word} (h0 : out0.length = 64) :
    bgemm16Selected streamConv = false ∧
    ∃ trs out ref, bgemmA64Traces false (gKern4F true tmp) E streamConv true [⟨0, 8, 0, 8⟩] streamInput
        (List.replicate 16288 0#32) = some trs ∧
      applyWrites trs.flatten out0 = some out ∧
      bconvReference streamConv streamInput (List.replicate 16288 0#32) (runFloatBits E.F E.cmin E.cmax E.mult E.bias) out0 = some ref ∧
      out[0]? = some (E.F.fadd (E.F.fmul (E.F.scvtf 512#32) (E.mult.getD 0 0#32)) (E.bias.getD 0 0#32)) ∧
      ref[0]? = some (E.F.fadd (E.F.fmul (E.F.scvtf 0#32) (E.mult.getD 0 0#32)) (E.bias.getD 0 0#32)) := by
  refine ⟨by decide, ?_⟩
  have hok := streamConv_ok
  have f0 : Fits32 E.cmin := by rw [hmin]; unfold Fits32; omega
  have f1 : Fits32 E.cmax := by rw [hmax]; unfold Fits32; omega
  obtain ⟨rhs, trs, e1, e2, e3⟩ := C54_stream_wrong (E := E) hok rfl streamConv_geom (by decide) (by decide) (by decide) (by decide) (by decide)
    hls hrs hxl hxr (by decide) f0 f1 (by rw [hmin, hmax]; omega) (by rw [hm]; decide) (by rw [hb]; decide) htmp true
    streamConv_schedule (by intro b hb; rw [List.mem_singleton] at hb; subst hb; decide) (out0 := out0) h0
  obtain ⟨out, e4, e5⟩ := e3 trs.flatten (List.Perm.refl _)
  obtain ⟨a, a1, a2⟩ := e5 0 0 (by decide) (by decide)
  have hrhs : rhs = streamInput := by
    have : im2colRhs streamConv streamInput = some (streamInput, 2036, 8) := by
      unfold im2colRhs
      rw [if_neg (by decide)]
      rfl
    rw [this] at e1
    exact (Prod.mk.inj (Option.some.inj e1)).1.symm
  subst hrhs
  have hw : ∀ n : Nat, ((List.replicate 16288 0#32)[n]?).getD 0#32 = 0#32 := by
    intro n
    rw [List.getElem?_replicate]
    by_cases h : n < 16288
    · rw [if_pos h, Option.getD_some]
    · rw [if_neg h, Option.getD_none]
  have ha : a = 0 := by
    have : gemmAcc 2036 (List.replicate 16288 0#32) streamInput 0 0 = some (∑ k ∈ range 2036, xorPopcount 0#32 0#32) := by
      refine gemmAcc_eq (L := fun _ => 0#32) (R := fun _ => 0#32) ?_ ?_
      · intro k hk
        unfold rd
        rw [List.getElem?_replicate, if_pos (by omega)]
      · intro k hk
        unfold rd streamInput
        rw [List.getElem?_append_left (by rw [List.length_replicate]; omega), List.getElem?_replicate, if_pos (by omega)]
    have e : gemmAcc 2036 (List.replicate 16288 0#32) streamInput 0 0 = some a := a1
    rw [this] at e
    have x0 : xorPopcount 0#32 0#32 = 0 := by decide
    rw [← Option.some.inj e, x0]
    simp
  have hex : ∑ e ∈ range 8, xorPopcount (((List.replicate 16288 0#32)[(0 + 4) * 2036 + e]?).getD 0#32)
      ((streamInput[(0 + 4) * 2036 + e]?).getD 0#32) = 256 := by
    have : ∀ e ∈ range 8, xorPopcount (((List.replicate 16288 0#32)[(0 + 4) * 2036 + e]?).getD 0#32)
        ((streamInput[(0 + 4) * 2036 + e]?).getD 0#32) = 32 := by
      intro e he
      have he : e < 8 := by simpa using he
      rw [hw]
      unfold streamInput
      rw [List.getElem?_append_right (by rw [List.length_replicate]; omega), List.length_replicate, List.getElem?_replicate,
        if_pos (by omega), Option.getD_some]
      decide
    rw [sum_congr rfl this]
    simp
  have a3 : out[0]? = runFloatBits E.F E.cmin E.cmax E.mult E.bias
      (a + ∑ e ∈ range 8, xorPopcount (((List.replicate 16288 0#32)[(0 + 4) * 2036 + e]?).getD 0#32)
      ((streamInput[(0 + 4) * 2036 + e]?).getD 0#32)) 0 := a2
  rw [hex, ha, runFloatBits_eq (by omega) (by omega) (by omega), hmin, hmax] at a3
  have hz : streamConv.zeroPadding = false := by decide
  refine ⟨trs, out, _, e2, e4, bconvReference_list hok hz (f := fun a c => (E.F.fadd (E.F.fmul (E.F.scvtf (BitVec.ofInt 32
        (max (min ((a : Int) * 2) E.cmax) E.cmin))) (E.mult.getD c 0#32)) (E.bias.getD c 0#32))) ?_ h0, ?_, ?_⟩
  · intro a c ha hc
    have hc8 : c < 8 := hc
    have ha' : a ≤ 65152 := ha
    exact runFloatBits_eq (by omega) (by omega) (by omega)
  · rw [a3]
    rfl
  · have hacc : streamConv.accPix streamInput (List.replicate 16288 0#32) 0 0 = 0 := by
      obtain ⟨r2, b1, b2⟩ := im2colRhs_eq hok rfl streamConv_geom
      rw [e1] at b1
      have hr2 : streamInput = r2 := (Prod.mk.inj (Option.some.inj b1)).1
      subst hr2
      have := gemmAcc_accPix hok rfl b2 (i := 0) (j := 0) (by decide) (by decide)
      rw [a1] at this
      rw [← Option.some.inj this, ha]
    rw [List.getElem?_map, List.getElem?_range (by omega), Option.map_some]
    have d1 : 0 / streamConv.cout = 0 := by decide
    have d2 : 0 % streamConv.cout = 0 := by decide
    rw [d1, d2, hacc, hmin, hmax]
    rfl

/-! ### C55: the buffers the op allocates -/

section
variable {p : BConv} {inp filt : List Word} {E : GemmEnv}

/-- A schedule of a non-empty destination has a block with the last rows. -/
theorem Schedule.last {rows cols kr kc : Nat} {blocks : List Blk} (hs : Schedule rows cols kr kc blocks) (hr : 0 < rows) (hc : 0 < cols) :
    ∃ b ∈ blocks, rows ≤ b.r1 := by
  obtain ⟨b, hb, h1, h2, h3, h4⟩ := hs.cover (rows - 1) 0 (by omega) hc
  exact ⟨b, hb, by omega⟩

/-- The traces when the kernel fails on every block with the last rows. -/
theorem bgemmA64Traces_none {α : Type} {bits : Bool} {K : GKern α} (hok : p.Ok inp filt) (hg : p.groups = 1) (hgeo : p.Geom)
    (hkr : 0 < K.kr) (hco : 0 < p.cout) (hpx : 0 < p.batches * p.outH * p.outW)
    (h : ∀ (rhs : List Word) (b : Blk) (tr : List (Write α)), b.Good p.cout (p.batches * p.outH * p.outW) K.kr 4 → p.cout ≤ b.r1 →
      gRun bits K E p.cout (p.batches * p.outH * p.outW) (p.filtDepth * p.filtH * p.filtW) filt rhs b tr = none)
    (fat : Bool) {blocks : List Blk} (hs : Schedule p.cout (p.batches * p.outH * p.outW) K.kr 4 blocks)
    (hne : ∀ b ∈ blocks, b.r0 < b.r1 ∧ b.c0 < b.c1) : bgemmA64Traces bits K E p fat blocks inp filt = none := by
  obtain ⟨rhs, hr, _⟩ := im2colRhs_eq hok hg hgeo
  obtain ⟨b, hb, hb1⟩ := hs.last hco hpx
  unfold bgemmA64Traces
  rw [hr]
  simp only [Option.bind_eq_bind, Option.bind_some]
  exact scheduleTraces_none hb (runTyped_none hkr (by omega) (h rhs) (hs.good hne b hb) hb1 [])

/-- **C55**, 8x4 kernel, float output: with the `channels_out + 4` multipliers and biases the op allocates, all loads of the kernel
are within the buffers (and C52 applies) if and only if `channels_out` is 0, 4, 5, 6 or 7 modulo 8. -/
theorem C55_reads_float (hok : p.Ok inp filt) (hg : p.groups = 1) (hgeo : p.Geom) (hpad : p.padding = .valid ∨ p.padValue = 1)
    (hfh : 0 < p.filtH) (hfw : 0 < p.filtW) (hci : 0 < p.cin) (hco : 0 < p.cout) (hpx : 0 < p.batches * p.outH * p.outW)
    (hsel : bgemm16Selected p = true) (h1 : Fits32 E.cmin) (h2 : Fits32 E.cmax) (hle : E.cmin ≤ E.cmax)
    (hls : ceilMul (p.filtDepth * p.filtH * p.filtW) 4 ≤ E.ls) (hrs : ceilMul (p.filtDepth * p.filtH * p.filtW) 4 ≤ E.rs)
    (hm : E.mult.length = p.cout + 4) (hb : E.bias.length = p.cout + 4)
    {tmp : List Word} (htmp : tmp.length = 32)
    (fat : Bool) {blocks : List Blk} (hs : Schedule p.cout (p.batches * p.outH * p.outW) 8 4 blocks)
    (hne : ∀ b ∈ blocks, b.r0 < b.r1 ∧ b.c0 < b.c1) :
    (bgemmA64Traces false (gKern8F tmp) E p fat blocks inp filt).isSome ↔ p.cout % 8 = 0 ∨ 4 ≤ p.cout % 8 := by
  have hcm : ceilMul p.cout 8 ≤ p.cout + 4 ↔ p.cout % 8 = 0 ∨ 4 ≤ p.cout % 8 := by
    unfold ceilMul ceilDiv
    omega
  constructor
  · intro h
    by_contra hn
    rw [bgemmA64Traces_none hok hg hgeo (by show 0 < 8; omega) hco hpx (fun rhs b tr hgd hr => ?_) fat hs hne] at h
    · cases h
    · exact gRun8_none rfl (fun m s => (g8_pre E.F m (gOps 0) s).x14) rfl (fun m o s => (g8_otF_loaded E.F m o s).x14)
        (fun m s => by show (nExecs E.F m (gOps 0) g8Zero s).x 14 = _; rw [g8_zero_x])
        (fun m o s a b c => g8_otF_bad E.F m o s a b c) (by rw [← hcm] at hn; omega) hgd hr
  · intro h
    obtain ⟨trs, out, e, _⟩ := C52_a64_bgemm_float hok hg hgeo hpad hfh hfw hci hsel h1 h2 hle hls hrs (by rw [hm]; exact hcm.2 h)
      (by rw [hb]; exact hcm.2 h) htmp fat hs hne (out0 := List.replicate (p.batches * p.outH * p.outW * p.cout) 0#32)
      (out1 := List.replicate (p.batches * p.outH * p.outW * p.cout) 0#32) (by simp) (by simp)
    rw [e]; rfl

/-- **C55**, 8x4 kernel, int8 output. -/
theorem C55_reads_int8 (hok : p.Ok inp filt) (hg : p.groups = 1) (hgeo : p.Geom) (hpad : p.padding = .valid ∨ p.padValue = 1)
    (hfh : 0 < p.filtH) (hfw : 0 < p.filtW) (hci : 0 < p.cin) (hco : 0 < p.cout) (hpx : 0 < p.batches * p.outH * p.outW)
    (hsel : bgemm16Selected p = true) (h1 : Fits32 E.cmin) (h2 : Fits32 E.cmax) (hle : E.cmin ≤ E.cmax)
    (hls : ceilMul (p.filtDepth * p.filtH * p.filtW) 4 ≤ E.ls) (hrs : ceilMul (p.filtDepth * p.filtH * p.filtW) 4 ≤ E.rs)
    (hm : E.mult.length = p.cout + 4) (hb : E.bias.length = p.cout + 4)
    {tmp : List (BitVec 8)} (htmp : tmp.length = 32)
    (fat : Bool) {blocks : List Blk} (hs : Schedule p.cout (p.batches * p.outH * p.outW) 8 4 blocks)
    (hne : ∀ b ∈ blocks, b.r0 < b.r1 ∧ b.c0 < b.c1) :
    (bgemmA64Traces false (gKern8I tmp) E p fat blocks inp filt).isSome ↔ p.cout % 8 = 0 ∨ 4 ≤ p.cout % 8 := by
  have hcm : ceilMul p.cout 8 ≤ p.cout + 4 ↔ p.cout % 8 = 0 ∨ 4 ≤ p.cout % 8 := by
    unfold ceilMul ceilDiv
    omega
  constructor
  · intro h
    by_contra hn
    rw [bgemmA64Traces_none hok hg hgeo (by show 0 < 8; omega) hco hpx (fun rhs b tr hgd hr => ?_) fat hs hne] at h
    · cases h
    · exact gRun8_none rfl (fun m s => (g8_pre E.F m (gOps 0) s).x14) rfl (fun m o s => (g8_otI_loaded E.F m o s).x14)
        (fun m s => by show (nExecs E.F m (gOps 0) g8Zero s).x 14 = _; rw [g8_zero_x])
        (fun m o s a b c => g8_otI_bad E.F m o s a b c) (by rw [← hcm] at hn; omega) hgd hr
  · intro h
    obtain ⟨trs, out, e, _⟩ := C52_a64_bgemm_int8 hok hg hgeo hpad hfh hfw hci hsel h1 h2 hle hls hrs (by rw [hm]; exact hcm.2 h)
      (by rw [hb]; exact hcm.2 h) htmp fat hs hne (out0 := List.replicate (p.batches * p.outH * p.outW * p.cout) 0#8)
      (out1 := List.replicate (p.batches * p.outH * p.outW * p.cout) 0#8) (by simp) (by simp)
    rw [e]; rfl

/-- **C55**, 8x4 kernel, bitpacked output: the kernel loads the thresholds from the model's tensor, which has `channels_out`
elements; all loads are within the buffers (and C53 applies) if and only if `channels_out` is a multiple of 8. -/
theorem C55_reads_bits (hok : p.Ok inp filt) (hg : p.groups = 1) (hgeo : p.Geom) (hpad : p.padding = .valid ∨ p.padValue = 1)
    (hfh : 0 < p.filtH) (hfw : 0 < p.filtW) (hci : 0 < p.cin) (hco : 0 < p.cout) (hpx : 0 < p.batches * p.outH * p.outW)
    (hsel : bgemm16Selected p = true)
    (hls : ceilMul (p.filtDepth * p.filtH * p.filtW) 4 ≤ E.ls) (hrs : ceilMul (p.filtDepth * p.filtH * p.filtW) 4 ≤ E.rs)
    (hm : E.mult.length = p.cout)
    (fat : Bool) {blocks : List Blk} (hs : Schedule p.cout (p.batches * p.outH * p.outW) 8 4 blocks)
    (hne : ∀ b ∈ blocks, b.r0 < b.r1 ∧ b.c0 < b.c1) :
    (bgemmA64Traces true gKern8B E p fat blocks inp filt).isSome ↔ p.cout % 8 = 0 := by
  have hcm : ceilMul p.cout 8 ≤ p.cout ↔ p.cout % 8 = 0 := by
    unfold ceilMul ceilDiv
    omega
  constructor
  · intro h
    by_contra hn
    rw [bgemmA64Traces_none hok hg hgeo (by show 0 < 8; omega) hco hpx (fun rhs b tr hgd hr => ?_) fat hs hne] at h
    · cases h
    · exact gRun8_none rfl (fun m s => (g8_preB_loaded E.F m (gOps 0) s g8MaskX2 g8MaskX3).x14) rfl
        (fun m o s => (g8_otB_loaded E.F m o s).x14)
        (fun m s => by show (nExecs E.F m (gOps 0) g8Zero s).x 14 = _; rw [g8_zero_x])
        (fun m o s a b c => g8_otB_bad E.F m o s a b c) (by rw [← hcm] at hn; omega) hgd hr
  · intro h
    obtain ⟨trs, out, out', e, _⟩ := C53_a64_bgemm_bits hok hg hgeo hpad hfh hfw hci hsel hls hrs (by rw [hm]; exact hcm.2 h)
      fat hs hne (out0 := List.replicate (p.batches * p.outH * p.outW * ((p.cout + 31) / 32)) 0#32)
      (out1 := List.replicate (p.batches * p.outH * p.outW * ((p.cout + 31) / 32)) 0#32) (by simp) (by simp)
    rw [e]; rfl

/-- **C55**, 4x4 kernel, float output: with the multipliers and biases the op allocates, packed matrices whose stride is the
packed depth and nothing behind them, all loads are within the buffers (and C54 applies) if and only if the streaming loop is
off or the packed depth is 4 or a multiple of 8 other than 8. -/
theorem C55_reads_4x4_float {stream : Bool} (hok : p.Ok inp filt) (hg : p.groups = 1) (hgeo : p.Geom)
    (hpad : p.padding = .valid ∨ p.padValue = 1) (hfh : 0 < p.filtH) (hfw : 0 < p.filtW) (hci : 0 < p.cin)
    (hco : 0 < p.cout) (hpx : 0 < p.batches * p.outH * p.outW) (hK : 2 * (p.filtH * p.filtW * p.cin) < 2147483648)
    (h1 : Fits32 E.cmin) (h2 : Fits32 E.cmax) (hle : E.cmin ≤ E.cmax)
    (hls : E.ls = ceilMul (p.filtDepth * p.filtH * p.filtW) 4) (hrs : E.rs = ceilMul (p.filtDepth * p.filtH * p.filtW) 4)
    (hxl : E.xl = []) (hm : E.mult.length = p.cout + 4) (hb : E.bias.length = p.cout + 4)
    {tmp : List Word} (htmp : tmp.length = 16)
    (fat : Bool) {blocks : List Blk} (hs : Schedule p.cout (p.batches * p.outH * p.outW) 4 4 blocks)
    (hne : ∀ b ∈ blocks, b.r0 < b.r1 ∧ b.c0 < b.c1) :
    (bgemmA64Traces false (gKern4F stream tmp) E p fat blocks inp filt).isSome ↔
      StreamOk stream (ceilMul (p.filtDepth * p.filtH * p.filtW) 4) := by
  have hcm : ceilMul p.cout 4 ≤ p.cout + 4 := by unfold ceilMul ceilDiv; omega
  have hdp := depth_pos hok hfh hfw hci hg
  obtain ⟨k1, k2, k3, k4⟩ := ceilMul4_eq (p.filtDepth * p.filtH * p.filtW)
  constructor
  · intro h
    by_contra hn
    unfold StreamOk at hn
    have hst : stream = true := by
      cases stream
      · exact absurd (Or.inl rfl) hn
      · rfl
    subst hst
    rw [bgemmA64Traces_none hok hg hgeo (by show 0 < 4; omega) hco hpx (fun rhs b tr hgd hr => ?_) fat hs hne] at h
    · cases h
    · have hn' : ¬ (ceilMul (p.filtDepth * p.filtH * p.filtW) 4 = 4 ∨
          (16 ≤ ceilMul (p.filtDepth * p.filtH * p.filtW) 4 ∧ ceilMul (p.filtDepth * p.filtH * p.filtW) 4 % 8 = 0)) :=
        fun hc => hn (Or.inr hc)
      refine gRun4_none (fun m o s => g4_otF_loaded E.F m o s) (fun m o s => g4_otF_okList E.F m o s) (by omega) (by omega) ?_ hgd hr
      rw [hls, hxl, List.length_nil]
      omega
  · intro h
    obtain ⟨trs, out, e, _⟩ := C54_a64_bgemm4_float_partial hok hg hgeo hpad hfh hfw hci h hK h1 h2 hle (Nat.le_of_eq hls.symm)
      (Nat.le_of_eq hrs.symm) (by rw [hm]; exact hcm) (by rw [hb]; exact hcm) htmp fat hs hne
      (out0 := List.replicate (p.batches * p.outH * p.outW * p.cout) 0#32)
      (out1 := List.replicate (p.batches * p.outH * p.outW * p.cout) 0#32) (by simp) (by simp)
    rw [e]; rfl

/-- **C55**, 4x4 kernel, int8 output. -/
theorem C55_reads_4x4_int8 {stream : Bool} (hok : p.Ok inp filt) (hg : p.groups = 1) (hgeo : p.Geom)
    (hpad : p.padding = .valid ∨ p.padValue = 1) (hfh : 0 < p.filtH) (hfw : 0 < p.filtW) (hci : 0 < p.cin)
    (hco : 0 < p.cout) (hpx : 0 < p.batches * p.outH * p.outW) (hK : 2 * (p.filtH * p.filtW * p.cin) < 2147483648)
    (h1 : Fits32 E.cmin) (h2 : Fits32 E.cmax) (hle : E.cmin ≤ E.cmax)
    (hls : E.ls = ceilMul (p.filtDepth * p.filtH * p.filtW) 4) (hrs : E.rs = ceilMul (p.filtDepth * p.filtH * p.filtW) 4)
    (hxl : E.xl = []) (hm : E.mult.length = p.cout + 4) (hb : E.bias.length = p.cout + 4)
    {tmp : List (BitVec 8)} (htmp : tmp.length = 16)
    (fat : Bool) {blocks : List Blk} (hs : Schedule p.cout (p.batches * p.outH * p.outW) 4 4 blocks)
    (hne : ∀ b ∈ blocks, b.r0 < b.r1 ∧ b.c0 < b.c1) :
    (bgemmA64Traces false (gKern4I stream tmp) E p fat blocks inp filt).isSome ↔
      StreamOk stream (ceilMul (p.filtDepth * p.filtH * p.filtW) 4) := by
  have hcm : ceilMul p.cout 4 ≤ p.cout + 4 := by unfold ceilMul ceilDiv; omega
  have hdp := depth_pos hok hfh hfw hci hg
  obtain ⟨k1, k2, k3, k4⟩ := ceilMul4_eq (p.filtDepth * p.filtH * p.filtW)
  constructor
  · intro h
    by_contra hn
    unfold StreamOk at hn
    have hst : stream = true := by
      cases stream
      · exact absurd (Or.inl rfl) hn
      · rfl
    subst hst
    rw [bgemmA64Traces_none hok hg hgeo (by show 0 < 4; omega) hco hpx (fun rhs b tr hgd hr => ?_) fat hs hne] at h
    · cases h
    · have hn' : ¬ (ceilMul (p.filtDepth * p.filtH * p.filtW) 4 = 4 ∨
          (16 ≤ ceilMul (p.filtDepth * p.filtH * p.filtW) 4 ∧ ceilMul (p.filtDepth * p.filtH * p.filtW) 4 % 8 = 0)) :=
        fun hc => hn (Or.inr hc)
      refine gRun4_none (fun m o s => g4_otI_loaded E.F m o s) (fun m o s => g4_otI_okList E.F m o s) (by omega) (by omega) ?_ hgd hr
      rw [hls, hxl, List.length_nil]
      omega
  · intro h
    obtain ⟨trs, out, e, _⟩ := C54_a64_bgemm4_int8_partial hok hg hgeo hpad hfh hfw hci h hK h1 h2 hle (Nat.le_of_eq hls.symm)
      (Nat.le_of_eq hrs.symm) (by rw [hm]; exact hcm) (by rw [hb]; exact hcm) htmp fat hs hne
      (out0 := List.replicate (p.batches * p.outH * p.outW * p.cout) 0#8)
      (out1 := List.replicate (p.batches * p.outH * p.outW * p.cout) 0#8) (by simp) (by simp)
    rw [e]; rfl

end

/-! ### Non-vacuity -/

/-- 2x2 filter on a 3x3 image with 40 channels (8 words of depth), 11 output channels. -/
def gemmExample : BConv := ⟨1, 3, 3, 2, 40, 2, 2, 2, 11, 1, 1, 1, 1, 1, .valid, 0, 0, 1, 2, 2⟩

theorem gemmExample_ok : gemmExample.Ok (List.replicate 18 0xEF#32) (List.replicate 88 0x78#32) := by
  refine ⟨by decide, by decide, by decide, by decide, by decide, by decide, by decide, by decide, ?_, ?_⟩
  · intro r k b hr hk hb hc
    have h1 : k < 2 := hk
    have h2 : (40 : Nat) ≤ 32 * k + b := hc
    have hr' : r < 9 := hr
    have e : (List.replicate 18 0xEF#32).getD (r * gemmExample.inDepth + k) 0#32 = 0xEF#32 := by
      have : r * gemmExample.inDepth + k < 18 := by show r * 2 + k < 18; omega
      rw [List.getD_eq_getElem?_getD, List.getElem?_replicate, if_pos this]; rfl
    rw [e]
    have : 8 ≤ b := by omega
    interval_cases b <;> rfl
  · intro r k b hr hk hb hc
    have h1 : k < 2 := hk
    have h2 : (40 : Nat) / 1 ≤ 32 * k + b := hc
    have hr' : r < 44 := hr
    have e : (List.replicate 88 0x78#32).getD (r * gemmExample.filtDepth + k) 0#32 = 0x78#32 := by
      have : r * gemmExample.filtDepth + k < 88 := by show r * 2 + k < 88; omega
      rw [List.getD_eq_getElem?_getD, List.getElem?_replicate, if_pos this]; rfl
    rw [e]
    have : 8 ≤ b := by omega
    interval_cases b <;> rfl

/-- Two blocks (out of order); the 16-bit kernel is selected; 11 channels need 16 multipliers. -/
example : gemmExample.Ok (List.replicate 18 0xEF#32) (List.replicate 88 0x78#32) ∧ gemmExample.Geom ∧
    bgemm16Selected gemmExample = true ∧ ceilMul (gemmExample.filtDepth * gemmExample.filtH * gemmExample.filtW) 4 = 8 ∧
    ceilMul gemmExample.cout 8 = 16 ∧
    Schedule gemmExample.cout (gemmExample.batches * gemmExample.outH * gemmExample.outW) 8 4 [⟨8, 16, 0, 4⟩, ⟨0, 8, 0, 4⟩] := by
  refine ⟨gemmExample_ok, ⟨by decide, by decide, by decide, by decide⟩, by decide, by decide, by decide, ?_, ?_⟩
  · intro b hb
    simp only [List.mem_cons, List.not_mem_nil, or_false] at hb
    rcases hb with rfl | rfl <;> decide
  · intro i j hi hj
    have h1 : i < 11 := hi
    have h2 : j < 1 * 2 * 2 := hj
    by_cases h : i < 8
    · exact ⟨⟨0, 8, 0, 4⟩, by simp, by simp, h, by simp, by simpa using h2⟩
    · exact ⟨⟨8, 16, 0, 4⟩, by simp, by simp; omega, by simp; omega, by simp, by simpa using h2⟩

/-- 4x4 kernel: the depth of `streamConv` with one word more is fine, its own depth is not; nor is 8. -/
example : StreamOk true 2040 ∧ ¬ StreamOk true 2036 ∧ ¬ StreamOk true 8 ∧ StreamOk false 2036 := by
  unfold StreamOk; decide

end Verif
