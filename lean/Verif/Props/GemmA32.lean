import Verif.Props.GemmA64
import Verif.Proof.GemmA32Run
import Verif.Proof.Round
import Verif.Spec.F32Val
import Mathlib.Tactic.Linarith
import Mathlib.Algebra.Order.Floor.Ring
import Mathlib.Tactic.FieldSimp

/-!
C56, C57: the 32-bit Arm assembly kernel of the BGEMM, under the conventions of Props/GemmA64.lean.
-/

namespace Verif

section
variable {p : BConv} {inp filt : List Word} {E : GemmEnv}

/-- From a kernel that is right on every block to the output. -/
theorem gemmA32_perm {α : Type} {K : GKern α} {m : Nat} {f : Nat → Nat → α} (hkr : 0 < K.kr)
    (hm : m = p.batches * p.outH * p.outW) {rhs : List Word}
    {k : Nat} (hr : im2colRhs p inp = some (rhs, k, m))
    (hker : ∀ (b : Blk) (tr : List (Write α)) (W : Nat → Prop), b.Good p.cout m K.kr 4 →
      Emits tr W (fun x => f (x / p.cout) (x % p.cout)) →
      ∃ tr', aRun K E p.cout m k filt rhs b tr = some tr' ∧
        Emits tr' (fun x => W x ∨ ∃ i j, b.Cell p.cout m i j ∧ x = i + j * p.cout) (fun x => f (x / p.cout) (x % p.cout)))
    (fat : Bool) {blocks : List Blk} (hs : Schedule p.cout (p.batches * p.outH * p.outW) K.kr 4 blocks)
    (hne : ∀ b ∈ blocks, b.r0 < b.r1 ∧ b.c0 < b.c1)
    {out0 : List α} (h0 : out0.length = p.batches * p.outH * p.outW * p.cout) :
    ∃ trs, bgemmA32Traces K E p fat blocks inp filt = some trs ∧
      ∀ L, L.Perm trs.flatten → applyWrites L out0 = some ((List.range out0.length).map fun x => f (x / p.cout) (x % p.cout)) := by
  subst hm
  unfold bgemmA32Traces
  rw [hr]
  simp only [Option.bind_eq_bind, Option.bind_some]
  obtain ⟨trs, e1, e2⟩ := runTyped_schedule_good (fat := fat) hkr (by omega) hker hs hne
  refine ⟨trs, e1, ?_⟩
  intro L hL
  rw [applyWrites_perm hs e2 _ _ hL]
  · intro i j hi hj
    have := row_lt hj hi
    rw [h0]; omega
  · intro x hx
    rw [h0] at hx
    obtain ⟨a1, a2⟩ := mod_lt_of_lt_mul hx
    exact ⟨x % p.cout, x / p.cout, a2, a1, by rw [Nat.add_comm, div_mul_add_mod]⟩

/-- **C56.** Float output: the 32-bit Arm 4x4 assembly kernel leaves in the output what the reference kernel leaves there, for
every depth, schedule and interleaving. The op's `channels_out + 4` multipliers and biases are enough
(`C56_buffers_suffice`). -/
theorem C56_a32_bgemm_float (hok : p.Ok inp filt) (hg : p.groups = 1) (hgeo : p.Geom)
    (hpad : p.padding = .valid ∨ p.padValue = 1) (hfh : 0 < p.filtH) (hfw : 0 < p.filtW) (hci : 0 < p.cin)
    (hK : 2 * (p.filtH * p.filtW * p.cin) < 2147483648)
    (h1 : Fits32 E.cmin) (h2 : Fits32 E.cmax) (hle : E.cmin ≤ E.cmax)
    (hls : ceilMul (p.filtDepth * p.filtH * p.filtW) 4 ≤ E.ls) (hrs : ceilMul (p.filtDepth * p.filtH * p.filtW) 4 ≤ E.rs)
    (hm : ceilMul p.cout 4 ≤ E.mult.length) (hb : ceilMul p.cout 4 ≤ E.bias.length)
    {tmp : List Word} (htmp : tmp.length = 16)
    (fat : Bool) {blocks : List Blk} (hs : Schedule p.cout (p.batches * p.outH * p.outW) 4 4 blocks)
    (hne : ∀ b ∈ blocks, b.r0 < b.r1 ∧ b.c0 < b.c1)
    {out0 out1 : List Word} (ho0 : out0.length = p.batches * p.outH * p.outW * p.cout)
    (ho1 : out1.length = p.batches * p.outH * p.outW * p.cout) :
    ∃ trs out, bgemmA32Traces (aKernF tmp) E p fat blocks inp filt = some trs ∧
      bconvReference p inp filt (runFloatBits E.F E.cmin E.cmax E.mult E.bias) out1 = some out ∧
      ∀ L, L.Perm trs.flatten → applyWrites L out0 = some out := by
  have hz := zeroPadding_false hpad
  have hK' : 2 * p.K < 2147483648 := by
    unfold BConv.K BConv.cinG; rw [hg, Nat.div_one]; exact hK
  have hcl : p.cout ≤ ceilMul p.cout 4 := ceilDiv_mul_ge p.cout 4 (by omega)
  obtain ⟨rhs, hr, hrd⟩ := im2colRhs_eq hok hg hgeo
  obtain ⟨trs, e1, e2⟩ := gemmA32_perm (E := E) (filt := filt) (K := aKernF tmp) (f := fun j i => otFloat4 E.F (BitVec.ofInt 32 E.cmin)
      (BitVec.ofInt 32 E.cmax) (BitVec.ofNat 32 (p.accPix inp filt j i)) ((E.mult[i]?).getD 0#32) ((E.bias[i]?).getD 0#32))
    (by show 0 < 4; omega) rfl hr (fun b tr W hgd he => aRun_emits
      (fr := otFloat4 E.F (BitVec.ofInt 32 E.cmin) (BitVec.ofInt 32 E.cmax))
      (depth_pos hok hfh hfw hci hg) hls hrs
      hm hb htmp (fun m o s => a4_otF_loaded E.F m o s) (fun m o s => a4_otF_okList E.F m o s)
      (fun m o s a1 a2 a3 a4 a5 c i hc hi => by rw [a4_resF E.F m o s a1 a2 a3 c i hc, a4, a5])
      (fun i j hi hj => by
        have e : i + j * p.cout = j * p.cout + i := by omega
        simp only [e, (div_mod_row hi).1, (div_mod_row hi).2]
        rw [gemmNat_accPix hok hg hrd hi hj]) hgd he) fat hs hne ho0
  have href := bconvReference_list hok hz (f := fun a c => E.F.fadd (E.F.fmul (E.F.scvtf (BitVec.ofInt 32
      (max (min ((a : Int) * 2) E.cmax) E.cmin))) (E.mult.getD c 0#32)) (E.bias.getD c 0#32))
    (fun a c ha hc => runFloatBits_eq' (by omega) (by omega) (by omega)) ho1
  refine ⟨trs, _, e1, href, ?_⟩
  intro L hL
  rw [e2 L hL, ho0, ho1]
  refine congrArg some ?_
  apply List.map_congr_left
  intro i hi
  rw [List.mem_range] at hi
  obtain ⟨e1, e2⟩ := mod_lt_of_lt_mul hi
  rw [otFloat4_eq h1 h2 hle (by have := accPix_le hok e1 e2; omega)]
  simp only [List.getD_eq_getElem?_getD]

/-- The saturating narrowings of the kernel as one clamp. -/
theorem sat8_qrshrn8 (w : Word) : sat8 (qrshrn8 w) = BitVec.ofInt 8 (max (-128) (min 127 ((w.toInt + 128) / 256))) := by
  unfold sat8 qrshrn8
  generalize (w.toInt + 128) / 256 = z
  have e : (BitVec.ofInt 16 (max (-32768) (min 32767 z))).toInt = max (-32768) (min 32767 z) := by
    rw [BitVec.toInt_ofInt]
    unfold Int.bmod
    simp only [Nat.reducePow, Int.cast_ofNat_Int]
    split <;> omega
  rw [e]
  congr 1
  omega

/-- **C57.** int8 output: the 32-bit Arm 4x4 assembly kernel leaves in the output what the reference kernel leaves there with the
rounding of `runInt8Fix8Bits`, for every depth, schedule and interleaving. -/
theorem C57_a32_bgemm_int8 (hok : p.Ok inp filt) (hg : p.groups = 1) (hgeo : p.Geom)
    (hpad : p.padding = .valid ∨ p.padValue = 1) (hfh : 0 < p.filtH) (hfw : 0 < p.filtW) (hci : 0 < p.cin)
    (hK : 2 * (p.filtH * p.filtW * p.cin) < 2147483648)
    (h1 : Fits32 E.cmin) (h2 : Fits32 E.cmax) (hle : E.cmin ≤ E.cmax)
    (hls : ceilMul (p.filtDepth * p.filtH * p.filtW) 4 ≤ E.ls) (hrs : ceilMul (p.filtDepth * p.filtH * p.filtW) 4 ≤ E.rs)
    (hm : ceilMul p.cout 4 ≤ E.mult.length) (hb : ceilMul p.cout 4 ≤ E.bias.length)
    {tmp : List (BitVec 8)} (htmp : tmp.length = 16)
    (fat : Bool) {blocks : List Blk} (hs : Schedule p.cout (p.batches * p.outH * p.outW) 4 4 blocks)
    (hne : ∀ b ∈ blocks, b.r0 < b.r1 ∧ b.c0 < b.c1)
    {out0 out1 : List (BitVec 8)} (ho0 : out0.length = p.batches * p.outH * p.outW * p.cout)
    (ho1 : out1.length = p.batches * p.outH * p.outW * p.cout) :
    ∃ trs out, bgemmA32Traces (aKernI tmp) E p fat blocks inp filt = some trs ∧
      bconvReference p inp filt (runInt8Fix8Bits E.F E.cmin E.cmax E.mult E.bias) out1 = some out ∧
      ∀ L, L.Perm trs.flatten → applyWrites L out0 = some out := by
  have hz := zeroPadding_false hpad
  have hK' : 2 * p.K < 2147483648 := by
    unfold BConv.K BConv.cinG; rw [hg, Nat.div_one]; exact hK
  have hcl : p.cout ≤ ceilMul p.cout 4 := ceilDiv_mul_ge p.cout 4 (by omega)
  obtain ⟨rhs, hr, hrd⟩ := im2colRhs_eq hok hg hgeo
  obtain ⟨trs, e1, e2⟩ := gemmA32_perm (E := E) (filt := filt) (K := aKernI tmp) (f := fun j i => sat8 (qrshrn8 (E.F.fcvtFix8
      (otFloat4 E.F (BitVec.ofInt 32 E.cmin) (BitVec.ofInt 32 E.cmax) (BitVec.ofNat 32 (p.accPix inp filt j i))
      ((E.mult[i]?).getD 0#32) ((E.bias[i]?).getD 0#32)))))
    (by show 0 < 4; omega) rfl hr (fun b tr W hgd he => aRun_emits
      (fr := fun a m b => sat8 (qrshrn8 (E.F.fcvtFix8 (otFloat4 E.F (BitVec.ofInt 32 E.cmin) (BitVec.ofInt 32 E.cmax) a m b))))
      (depth_pos hok hfh hfw hci hg) hls hrs
      hm hb htmp (fun m o s => a4_otI_loaded E.F m o s) (fun m o s => a4_otI_okList E.F m o s)
      (fun m o s a1 a2 a3 a4 a5 c i hc hi => by rw [a4_resI E.F m o s a1 a2 a3 c i hc hi, a4, a5])
      (fun i j hi hj => by
        have e : i + j * p.cout = j * p.cout + i := by omega
        simp only [e, (div_mod_row hi).1, (div_mod_row hi).2]
        rw [gemmNat_accPix hok hg hrd hi hj]) hgd he) fat hs hne ho0
  have href := bconvReference_list hok hz (run := runInt8Fix8Bits E.F E.cmin E.cmax E.mult E.bias)
    (f := fun a c => BitVec.ofInt 8 (max (-128) (min 127 (((E.F.fcvtFix8 (E.F.fadd (E.F.fmul (E.F.scvtf
      (BitVec.ofInt 32 (max (min ((a : Int) * 2) E.cmax) E.cmin))) (E.mult.getD c 0#32)) (E.bias.getD c 0#32))).toInt + 128) / 256))))
    (fun a c ha hc => by
      unfold runInt8Fix8Bits
      rw [runFloatBits_eq' (by omega) (by omega) (by omega)]
      rfl) ho1
  refine ⟨trs, _, e1, href, ?_⟩
  intro L hL
  rw [e2 L hL, ho0, ho1]
  refine congrArg some ?_
  apply List.map_congr_left
  intro i hi
  rw [List.mem_range] at hi
  obtain ⟨e1, e2⟩ := mod_lt_of_lt_mul hi
  rw [otFloat4_eq h1 h2 hle (by have := accPix_le hok e1 e2; omega), sat8_qrshrn8]
  simp only [List.getD_eq_getElem?_getD]

end

/-- The buffers the op allocates (`channels_out + 4` elements, C21) are as long as C56 and C57 ask, for every `channels_out`. -/
theorem C56_buffers_suffice (cout : Nat) : ceilMul cout 4 ≤ cout + 4 := by
  unfold ceilMul ceilDiv; omega

/-! ### The rounding of the int8 output -/

/-- Conversion of a number to signed 32-bit fixed point with 8 fraction bits: toward zero, saturating (`vcvt.s32.f32 #8`). -/
def fix8 (y : Rat) : Int :=
  max (-2147483648) (min 2147483647 (if 0 ≤ y then (256 * y).floor else -(256 * -y).floor))

/-- The result the kernel computes from the float result `y`. -/
def fix8Round (y : Rat) : Int := max (-128) (min 127 ((fix8 y + 128) / 256))

/-- **C57**, exact rounding: the kernel's int8 value is the reference's (nearest, ties away from zero, saturated), except that
for `y` at most `1/256` below a negative tie `-(n + 1/2)`, or the tie itself, it is one larger. -/
theorem C57_fix8Round_eq (y : Rat) : fix8Round y = saturate (roundHalfAway y) +
    (if ∃ n : Nat, n < 128 ∧ -((n : Rat) + 1 / 2) - 1 / 256 < y ∧ y ≤ -((n : Rat) + 1 / 2) then 1 else 0) := by
  by_cases h0 : 0 ≤ y
  · have hn : ¬ ∃ n : Nat, n < 128 ∧ -((n : Rat) + 1 / 2) - 1 / 256 < y ∧ y ≤ -((n : Rat) + 1 / 2) := by
      rintro ⟨n, _, _, h⟩
      have : (0 : Rat) ≤ n := Nat.cast_nonneg n
      linarith
    rw [if_neg hn]
    unfold fix8Round fix8 saturate
    rw [if_pos h0, roundHalfAway_nonneg h0, floor_eq]
    have e : ⌊y + 1 / 2⌋ = (⌊256 * y⌋ + 128) / 256 := by
      have := Int.floor_div_natCast (256 * y + (128 : Int)) 256
      rw [Int.floor_add_intCast] at this
      refine Eq.trans ?_ this
      congr 1
      push_cast
      ring
    rw [e]
    have hp : 0 ≤ ⌊256 * y⌋ := Int.floor_nonneg.2 (by linarith)
    generalize ⌊256 * y⌋ = k at *
    simp only
    omega
  · have h0' : y < 0 := lt_of_not_ge h0
    have e : roundHalfAway y = (-⌊256 * -y⌋ + 127) / 256 := by
      rw [roundHalfAway_neg h0']
      have := Int.floor_div_natCast (256 * -y + (128 : Int)) 256
      rw [Int.floor_add_intCast] at this
      have e2 : ⌊-y + 1 / 2⌋ = (⌊256 * -y⌋ + 128) / 256 := by
        refine Eq.trans ?_ this
        congr 1
        push_cast
        ring
      rw [e2]
      omega
    have hiff : (∃ n : Nat, n < 128 ∧ -((n : Rat) + 1 / 2) - 1 / 256 < y ∧ y ≤ -((n : Rat) + 1 / 2)) ↔
        ∃ n : Nat, n < 128 ∧ ⌊256 * -y⌋ = 256 * (n : Int) + 128 := by
      refine exists_congr fun n => and_congr Iff.rfl ?_
      rw [Int.floor_eq_iff]
      push_cast
      constructor
      · rintro ⟨a, b⟩; constructor <;> linarith
      · rintro ⟨a, b⟩; constructor <;> linarith
    have hp : 0 ≤ ⌊256 * -y⌋ := Int.floor_nonneg.2 (by linarith)
    unfold fix8Round fix8 saturate
    rw [if_neg h0, e, floor_eq]
    generalize ⌊256 * -y⌋ = k at *
    simp only
    by_cases hx : ∃ n : Nat, n < 128 ∧ k = 256 * (n : Int) + 128
    · rw [if_pos (hiff.2 hx)]
      obtain ⟨n, h1, h2⟩ := hx
      omega
    · rw [if_neg (fun h => hx (hiff.1 h))]
      have hq : ∀ q : Int, 0 ≤ q → q < 128 → k ≠ 256 * q + 128 := by
        intro q q1 q2 hk
        exact hx ⟨q.toNat, by omega, by omega⟩
      have hd : k % 256 ≠ 128 ∨ 128 ≤ k / 256 := by
        by_contra hc
        exact hq (k / 256) (by omega) (by omega) (by omega)
      omega

/-- The conversion instruction does what `fix8` says on every finite float. -/
def FOps.Fix8 (F : FOps) : Prop := ∀ w : Word, F32.Finite w → (F.fcvtFix8 w).toInt = fix8 (F32.val w)

/-- **C57**, rounding of the transform: when the float result is a finite number `y`, the int8 output is `y` rounded to nearest
(ties away from zero) and saturated, as in the reference, plus one exactly when `y` is a negative tie `-(n + 1/2)`, `n < 128`, or
less than `1/256` below one. -/
theorem C57_a32_int8_rounding {F : FOps} (hF : F.Fix8) {cmin cmax : Int} {mult bias : List Word} {a c : Nat} {y : Word}
    (hy : runFloatBits F cmin cmax mult bias a c = some y) (hfin : F32.Finite y) :
    runInt8Fix8Bits F cmin cmax mult bias a c = some (BitVec.ofInt 8 (saturate (roundHalfAway (F32.val y)) +
      (if ∃ n : Nat, n < 128 ∧ -((n : Rat) + 1 / 2) - 1 / 256 < F32.val y ∧ F32.val y ≤ -((n : Rat) + 1 / 2) then 1 else 0))) := by
  unfold runInt8Fix8Bits
  rw [hy, ← C57_fix8Round_eq]
  simp only [Option.bind_eq_bind, Option.bind_some]
  rw [hF y hfin]
  rfl

/-- The deviation is real: -0.5 becomes 0 (reference -1), and so does -0.501953125, whose nearest integer is -1. -/
theorem C57_rounding_witness : fix8Round (-1 / 2) = 0 ∧ saturate (roundHalfAway (-1 / 2)) = -1 ∧
    fix8Round (-257 / 512) = 0 ∧ saturate (roundHalfAway (-257 / 512)) = -1 := by
  decide +kernel

/-- The specification of the conversion instruction can be met. -/
example : ∃ F : FOps, F.Fix8 :=
  ⟨⟨id, fun a _ => a, fun a _ => a, id, fun w => BitVec.ofInt 32 (fix8 (F32.val w))⟩, by
    intro w _
    show (BitVec.ofInt 32 (fix8 (F32.val w))).toInt = _
    have h : -2147483648 ≤ fix8 (F32.val w) ∧ fix8 (F32.val w) ≤ 2147483647 := by unfold fix8; omega
    generalize fix8 (F32.val w) = z at *
    rw [BitVec.toInt_ofInt]
    unfold Int.bmod
    simp only [Nat.reducePow, Int.cast_ofNat_Int]
    split <;> omega⟩

/-- The hypotheses of C56 and C57 on a concrete convolution: 11 output channels, hence 12 multipliers (15 are allocated). -/
example : gemmExample.Ok (List.replicate 18 0xEF#32) (List.replicate 88 0x78#32) ∧ gemmExample.Geom ∧
    2 * (gemmExample.filtH * gemmExample.filtW * gemmExample.cin) < 2147483648 ∧
    ceilMul (gemmExample.filtDepth * gemmExample.filtH * gemmExample.filtW) 4 = 8 ∧ ceilMul gemmExample.cout 4 ≤ 15 ∧
    Schedule gemmExample.cout (gemmExample.batches * gemmExample.outH * gemmExample.outW) 4 4 [⟨8, 12, 0, 4⟩, ⟨0, 8, 0, 4⟩] := by
  refine ⟨gemmExample_ok, ⟨by decide, by decide, by decide, by decide⟩, by decide, by decide, by decide, ?_, ?_⟩
  · intro b hb
    simp only [List.mem_cons, List.not_mem_nil, or_false] at hb
    rcases hb with rfl | rfl <;> decide
  · intro i j hi hj
    have h1 : i < 11 := hi
    have h2 : j < 1 * 2 * 2 := hj
    by_cases h : i < 8
    · exact ⟨⟨0, 8, 0, 4⟩, by simp, by simp, h, by simp, by simpa using h2⟩
    · exact ⟨⟨8, 12, 0, 4⟩, by simp, by simp; omega, by simp; omega, by simp, by simpa using h2⟩

end Verif
