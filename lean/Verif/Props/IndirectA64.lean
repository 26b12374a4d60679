import Verif.Props.Accum16
import Verif.Proof.IndirectA64Over
import Verif.Spec.OutputBits

/-!
C49, C50, C51: the Aarch64 assembly kernels of the indirect BGEMM.

The assembly of the three kernels is executed instruction by instruction (Model/NeonA64.lean); `v` and `x` are the arbitrary
contents of the registers before the call, `F` are arbitrary floating-point operations, so the statements hold bit for bit
for the operations of the machine. `... = some out` includes that no load or store leaves its buffer and every loop ends.
-/

namespace Verif

section
variable {p : BConv} {inp filt mult bias : List Word} {cmin cmax : Int}

theorem runFloatBits_eq {F : FOps} {a c : Nat} (ha : a < 65536) (hm : c < mult.length) (hb : c < bias.length) :
    runFloatBits F cmin cmax mult bias a c = some (F.fadd (F.fmul (F.scvtf (BitVec.ofInt 32
      (max (min ((a : Int) * 2) cmax) cmin))) (mult.getD c 0#32)) (bias.getD c 0#32)) := by
  have c1 : chk32 (a : Int) = some (a : Int) := chk32_eq (by omega) (by omega)
  have c2 : chk32 ((a : Int) * 2) = some ((a : Int) * 2) := chk32_eq (by omega) (by omega)
  unfold runFloatBits
  simp only [c1, c2, rd, Option.bind_eq_bind, Option.bind_some, List.getElem?_eq_getElem hm, List.getElem?_eq_getElem hb,
    List.getD_eq_getElem?_getD, Option.getD_some]

/-- The words of the input that a pixel has. -/
theorem inDepth_le_length (hok : p.Ok inp filt) (h : 0 < p.batches * p.inH * p.inW) : p.inDepth ≤ inp.length := by
  rw [hok.inLen]; exact Nat.le_mul_of_pos_left _ h

/-- The multipliers of the channels past the end of a group are read too. -/
theorem cout_le_pad (p : BConv) : p.cout ≤ p.cout - p.outPerGroup + ceilMul p.outPerGroup 8 := by
  have h1 := ceilDiv_mul_ge p.outPerGroup 8 (by omega)
  have h2 : p.outPerGroup ≤ p.cout := Nat.div_le_self _ _
  have e : ceilMul p.outPerGroup 8 = ceilDiv p.outPerGroup 8 * 8 := rfl
  omega

/-- C49, with the loads behind the activations as a condition. -/
theorem a64_float_of_slack (hok : p.Ok inp filt) (hpad : p.padding = .valid ∨ p.padValue = 1)
    (hfh : 0 < p.filtH) (hfw : 0 < p.filtW) (hci : 0 < p.cin) (hco : 0 < p.cout) (hin : 0 < p.batches * p.inH * p.inW)
    (hK : p.filtH * p.filtW * (p.cin / p.groups) < 2 ^ 16)
    (h1 : Fits32 cmin) (h2 : Fits32 cmax) (hle : cmin ≤ cmax)
    (hm : p.cout - p.outPerGroup + ceilMul p.outPerGroup 8 ≤ mult.length)
    (hb : p.cout - p.outPerGroup + ceilMul p.outPerGroup 8 ≤ bias.length)
    {xi xz : List Word} (hslack : A64Slack p inp xi xz)
    (F : FOps) (v : Nat → Nat → BitVec 8) (x : Nat → NAddr) {out0 out1 : List Word}
    (ho0 : out0.length = p.batches * p.outH * p.outW * p.cout) (ho1 : out1.length = p.batches * p.outH * p.outW * p.cout) :
    ∃ out, bconvA64F p inp xi xz filt mult bias cmin cmax F v x out0 = some out ∧
      bconvReference p inp filt (runFloatBits F cmin cmax mult bias) out1 = some out := by
  have hz := zeroPadding_false hpad
  have hcl := cout_le_pad p
  have hF : 1 ≤ p.filtH * p.filtW := Nat.mul_pos hfh hfw
  have hD := hok.filtDepth_pos hci
  refine ⟨_, bconvA64F_eq hok.dims hF hD hco (inDepth_le_length hok hin) hslack hm hb ho0, ?_⟩
  have hK' : p.K < 65536 := hK
  rw [bconvReference_list hok hz (f := fun a c => F.fadd (F.fmul (F.scvtf (BitVec.ofInt 32
      (max (min ((a : Int) * 2) cmax) cmin))) (mult.getD c 0#32)) (bias.getD c 0#32))
    (fun a c ha hc => runFloatBits_eq (by omega) (by omega) (by omega)) ho1, ho0, ho1]
  congr 1
  apply List.map_congr_left
  intro i hi
  rw [List.mem_range] at hi
  obtain ⟨e1, e2⟩ := mod_lt_of_lt_mul hi
  rw [otFloat_eq h1 h2 hle (by have := accPix_le hok e1 e2; omega)]

/-- **C49.** Float output. The assembly kernel that is selected for the shape, run on any register contents, leaves in every
element of the output what the reference kernel leaves there. Hypotheses on the buffers: the words the kernel loads without using
them exist (multiplier and bias are readable up to a multiple of 8 channels of the last group, and, with more than one group, 4
words `xi`, `xz` of any content follow the input tensor and the zero buffer; whether the op provides them is C51), and the true
accumulators fit in 16 bits (whether the selection ensures this is C19, see also `C49_overflow_witness`). -/
theorem C49_a64_float (hok : p.Ok inp filt) (hpad : p.padding = .valid ∨ p.padValue = 1)
    (hfh : 0 < p.filtH) (hfw : 0 < p.filtW) (hci : 0 < p.cin) (hco : 0 < p.cout) (hin : 0 < p.batches * p.inH * p.inW)
    (hK : p.filtH * p.filtW * (p.cin / p.groups) < 2 ^ 16)
    (h1 : Fits32 cmin) (h2 : Fits32 cmax) (hle : cmin ≤ cmax)
    (hm : p.cout - p.outPerGroup + ceilMul p.outPerGroup 8 ≤ mult.length)
    (hb : p.cout - p.outPerGroup + ceilMul p.outPerGroup 8 ≤ bias.length)
    {xi xz : List Word} (hx : p.groups = 1 ∨ (4 ≤ xi.length ∧ 4 ≤ xz.length))
    (F : FOps) (v : Nat → Nat → BitVec 8) (x : Nat → NAddr) {out0 out1 : List Word}
    (ho0 : out0.length = p.batches * p.outH * p.outW * p.cout) (ho1 : out1.length = p.batches * p.outH * p.outW * p.cout) :
    ∃ out, bconvA64F p inp xi xz filt mult bias cmin cmax F v x out0 = some out ∧
      bconvReference p inp filt (runFloatBits F cmin cmax mult bias) out1 = some out := by
  have hF : 1 ≤ p.filtH * p.filtW := Nat.mul_pos hfh hfw
  have hbd : (selectA64 p).1.bd ≤ 4 := by
    obtain ⟨A, d2, g, hsel, hA, _⟩ := selectA64_spec hok.dims (hok.filtDepth_pos hci)
    rw [hsel]; rcases hA.bd with h | h | h <;> simp only [h] <;> omega
  exact a64_float_of_slack hok hpad hfh hfw hci hco hin hK h1 h2 hle hm hb
    (A64Slack.of_extra hok.dims hF (hx.imp id (fun h => ⟨by omega, by omega⟩))) F v x ho0 ho1

/-- C50, with the loads behind the activations as a condition. -/
theorem a64_int8_of_slack (hok : p.Ok inp filt) (hpad : p.padding = .valid ∨ p.padValue = 1)
    (hfh : 0 < p.filtH) (hfw : 0 < p.filtW) (hci : 0 < p.cin) (hco : 0 < p.cout) (hin : 0 < p.batches * p.inH * p.inW)
    (hK : p.filtH * p.filtW * (p.cin / p.groups) < 2 ^ 16)
    (h1 : Fits32 cmin) (h2 : Fits32 cmax) (hle : cmin ≤ cmax)
    (hm : p.cout - p.outPerGroup + ceilMul p.outPerGroup 8 ≤ mult.length)
    (hb : p.cout - p.outPerGroup + ceilMul p.outPerGroup 8 ≤ bias.length)
    {xi xz : List Word} (hslack : A64Slack p inp xi xz)
    (F : FOps) (v : Nat → Nat → BitVec 8) (x : Nat → NAddr) {out0 out1 : List (BitVec 8)}
    (ho0 : out0.length = p.batches * p.outH * p.outW * p.cout) (ho1 : out1.length = p.batches * p.outH * p.outW * p.cout) :
    ∃ out, bconvA64I p inp xi xz filt mult bias cmin cmax F v x out0 = some out ∧
      bconvReference p inp filt (runInt8Bits F cmin cmax mult bias) out1 = some out := by
  have hz := zeroPadding_false hpad
  have hcl := cout_le_pad p
  have hF : 1 ≤ p.filtH * p.filtW := Nat.mul_pos hfh hfw
  have hD := hok.filtDepth_pos hci
  refine ⟨_, bconvA64I_eq hok.dims hF hD hco (inDepth_le_length hok hin) hslack hm hb ho0, ?_⟩
  have hK' : p.K < 65536 := hK
  rw [bconvReference_list hok hz (f := fun a c => BitVec.ofInt 8 (max (-128) (min 127 (F.fcvtns (F.fadd (F.fmul (F.scvtf
      (BitVec.ofInt 32 (max (min ((a : Int) * 2) cmax) cmin))) (mult.getD c 0#32)) (bias.getD c 0#32))).toInt)))
    (fun a c ha hc => by
      unfold runInt8Bits
      rw [runFloatBits_eq (by omega) (by omega) (by omega)]
      rfl) ho1, ho0, ho1]
  congr 1
  apply List.map_congr_left
  intro i hi
  rw [List.mem_range] at hi
  obtain ⟨e1, e2⟩ := mod_lt_of_lt_mul hi
  rw [otFloat_eq h1 h2 hle (by have := accPix_le hok e1 e2; omega), sat8_sat16]

/-- **C50.** Int8 output. The rounding is the one of the `fcvtns` instruction: to nearest, ties to even, where
the portable code rounds ties away from zero (C10). -/
theorem C50_a64_int8 (hok : p.Ok inp filt) (hpad : p.padding = .valid ∨ p.padValue = 1)
    (hfh : 0 < p.filtH) (hfw : 0 < p.filtW) (hci : 0 < p.cin) (hco : 0 < p.cout) (hin : 0 < p.batches * p.inH * p.inW)
    (hK : p.filtH * p.filtW * (p.cin / p.groups) < 2 ^ 16)
    (h1 : Fits32 cmin) (h2 : Fits32 cmax) (hle : cmin ≤ cmax)
    (hm : p.cout - p.outPerGroup + ceilMul p.outPerGroup 8 ≤ mult.length)
    (hb : p.cout - p.outPerGroup + ceilMul p.outPerGroup 8 ≤ bias.length)
    {xi xz : List Word} (hx : p.groups = 1 ∨ (4 ≤ xi.length ∧ 4 ≤ xz.length))
    (F : FOps) (v : Nat → Nat → BitVec 8) (x : Nat → NAddr) {out0 out1 : List (BitVec 8)}
    (ho0 : out0.length = p.batches * p.outH * p.outW * p.cout) (ho1 : out1.length = p.batches * p.outH * p.outW * p.cout) :
    ∃ out, bconvA64I p inp xi xz filt mult bias cmin cmax F v x out0 = some out ∧
      bconvReference p inp filt (runInt8Bits F cmin cmax mult bias) out1 = some out := by
  have hF : 1 ≤ p.filtH * p.filtW := Nat.mul_pos hfh hfw
  have hbd : (selectA64 p).1.bd ≤ 4 := by
    obtain ⟨A, d2, g, hsel, hA, _⟩ := selectA64_spec hok.dims (hok.filtDepth_pos hci)
    rw [hsel]; rcases hA.bd with h | h | h <;> simp only [h] <;> omega
  exact a64_int8_of_slack hok hpad hfh hfw hci hco hin hK h1 h2 hle hm hb
    (A64Slack.of_extra hok.dims hF (hx.imp id (fun h => ⟨by omega, by omega⟩))) F v x ho0 ho1

end

/-- The clamp values of the one-time setup meet the conditions of C49 and C50. -/
theorem otSetup_clamp {p : BConv} {act : Act} {mult bias : List Rat} {scale zp : Rat} {t : OTParams}
    (h : otSetup p act mult bias scale zp = some t) : Fits32 t.clampMin ∧ Fits32 t.clampMax ∧ t.clampMin ≤ t.clampMax := by
  unfold otSetup at h
  simp only [Option.bind_eq_bind, Option.bind_eq_some_iff] at h
  obtain ⟨k, hk, ⟨m, b⟩, _, lo, hlo, hi, hhi, he⟩ := h
  cases he
  have hk0 : 0 ≤ k := by
    unfold chk32 at hk; split at hk
    · cases hk; omega
    · cases hk
  have f : ∀ {x y : Int}, chk32 x = some y → Fits32 y ∧ y = x := by
    intro x y hx
    unfold chk32 at hx
    split at hx
    · cases hx; exact ⟨by assumption, rfl⟩
    · cases hx
  obtain ⟨f1, e1⟩ := f hlo
  obtain ⟨f2, e2⟩ := f hhi
  refine ⟨f1, f2, ?_⟩
  change lo ≤ hi
  rw [e1, e2]
  cases act <;> simp only [activationRange] <;> omega

/-- When the buffers the op allocates are enough for the Aarch64 indirect kernels: the channels of a group are 0, 4, 5, 6 or 7
modulo 8, and, with more than one group, no output pixel has its first (top left) filter position on the last input pixel, nor,
with a 1x1 filter, in the padding. -/
structure A64Fits (p : BConv) : Prop where
  channels : p.cout / p.groups % 8 = 0 ∨ 4 ≤ p.cout / p.groups % 8
  last : p.groups = 1 ∨ ∀ oy ox : Nat, oy < p.outH → ox < p.outW →
    ¬ ((oy * p.strideH : Nat) - (p.padH : Int) = p.inH - 1 ∧ (ox * p.strideW : Nat) - (p.padW : Int) = p.inW - 1)
  padding : p.groups = 1 ∨ 2 ≤ p.filtH * p.filtW ∨ ∀ oy ox : Nat, oy < p.outH → ox < p.outW →
    (0 ≤ (oy * p.strideH : Nat) - (p.padH : Int) ∧ (oy * p.strideH : Nat) - (p.padH : Int) < p.inH) ∧
    (0 ≤ (ox * p.strideW : Nat) - (p.padW : Int) ∧ (ox * p.strideW : Nat) - (p.padW : Int) < p.inW)

theorem ceilMul8_le_iff {p : BConv} (hg : 0 < p.groups) (hd : p.cout % p.groups = 0) :
    p.cout - p.outPerGroup + ceilMul p.outPerGroup 8 ≤ p.cout + 4
      ↔ p.cout / p.groups % 8 = 0 ∨ 4 ≤ p.cout / p.groups % 8 := by
  have h2 : p.outPerGroup ≤ p.cout := Nat.div_le_self _ _
  change _ ↔ p.outPerGroup % 8 = 0 ∨ 4 ≤ p.outPerGroup % 8
  unfold ceilMul ceilDiv
  omega

/-- What the first filter position of a pixel needs. -/
theorem room_iff {p : BConv} {inp filt : List Word} (h : p.Dims inp filt) {bd b oy ox : Nat} (hbd : 1 ≤ bd) (hbd2 : bd ≤ p.inDepth)
    (hF : 1 ≤ p.filtH * p.filtW) (hb : b < p.batches) (hoy : oy < p.outH) (hox : ox < p.outW) :
    A64Room p bd inp [] [] (indirectPtr p (b * (p.outH * p.outW) + (oy * p.outW + ox)) 0 0) ↔
      if (0 ≤ (oy * p.strideH : Nat) - (p.padH : Int) ∧ (oy * p.strideH : Nat) - (p.padH : Int) < p.inH) ∧
        (0 ≤ (ox * p.strideW : Nat) - (p.padW : Int) ∧ (ox * p.strideW : Nat) - (p.padW : Int) < p.inW)
      then ¬ (b + 1 = p.batches ∧
        (oy * p.strideH : Nat) - (p.padH : Int) = p.inH - 1 ∧ (ox * p.strideW : Nat) - (p.padW : Int) = p.inW - 1)
      else 2 ≤ p.filtH * p.filtW := by
  have hr : oy * p.outW + ox < p.outH * p.outW := row_lt hoy hox
  have e1 := (div_mod_row (r := b) hr).1
  have e2 := (div_mod_row (r := b) hr).2
  have e3 : (b * (p.outH * p.outW) + (oy * p.outW + ox)) % p.outW = ox := by
    have : b * (p.outH * p.outW) + (oy * p.outW + ox) = (b * p.outH + oy) * p.outW + ox := by ring
    rw [this]; exact (div_mod_row hox).2
  unfold indirectPtr
  simp only [e1, e2, e3, (div_mod_row hox).1, Nat.zero_mul, Nat.add_zero]
  generalize ((oy * p.strideH : Nat) : Int) - (p.padH : Int) = iy
  generalize ((ox * p.strideW : Nat) : Int) - (p.padW : Int) = ix
  have hz : A64Room p bd inp [] [] (.zero 0) ↔ 2 ≤ p.filtH * p.filtW := by
    change 0 + p.inDepth + bd ≤ p.filtH * p.filtW * p.inDepth + 0 ↔ _
    constructor
    · intro h'
      by_contra hc
      have : p.filtH * p.filtW = 1 := by omega
      rw [this] at h'
      omega
    · intro h'
      have := Nat.mul_le_mul_right p.inDepth h'
      omega
  by_cases h1 : 0 ≤ iy ∧ iy < p.inH
  · by_cases h2 : 0 ≤ ix ∧ ix < p.inW
    · rw [if_pos h1, if_pos h2, if_pos ⟨h1, h2⟩]
      change _ + p.inDepth + bd ≤ inp.length + 0 ↔ _
      rw [h.inLen]
      obtain ⟨y, rfl⟩ := Int.eq_ofNat_of_zero_le h1.1
      obtain ⟨w, rfl⟩ := Int.eq_ofNat_of_zero_le h2.1
      have hy : y < p.inH := by omega
      have hw : w < p.inW := by omega
      rw [Int.toNat_natCast, Int.toNat_natCast]
      have e : b * p.inH * p.inW + y * p.inW + w = (b * p.inH + y) * p.inW + w := by ring
      rw [e]
      have hq : (b * p.inH + y) * p.inW + w < p.batches * p.inH * p.inW := row_lt (row_lt hb hy) hw
      have key : (b * p.inH + y) * p.inW + w + 1 = p.batches * p.inH * p.inW ↔ (b + 1 = p.batches ∧ y + 1 = p.inH ∧ w + 1 = p.inW) := by
        constructor
        · intro he
          have hwl : w + 1 = p.inW := by
            by_contra hc
            have := row_lt (row_lt hb hy) (show w + 1 < p.inW by omega)
            omega
          have he2 : (b * p.inH + y + 1) * p.inW = p.batches * p.inH * p.inW := by
            rw [← he, Nat.succ_mul]; omega
          have he3 := Nat.eq_of_mul_eq_mul_right (by omega) he2
          have hyl : y + 1 = p.inH := by
            by_contra hc
            have := row_lt hb (show y + 1 < p.inH by omega)
            omega
          have he4 : (b + 1) * p.inH = p.batches * p.inH := by
            rw [← he3, Nat.succ_mul]; omega
          exact ⟨Nat.eq_of_mul_eq_mul_right (by omega) he4, hyl, hwl⟩
        · rintro ⟨a1, a2, a3⟩
          rw [← a1, ← a2, ← a3]; ring
      generalize (b * p.inH + y) * p.inW + w = q at hq key
      generalize p.batches * p.inH * p.inW = P at hq key
      have : (q * p.inDepth + p.inDepth + bd ≤ P * p.inDepth + 0) ↔ ¬ (q + 1 = P) := by
        constructor
        · intro h' he
          rw [← he, Nat.succ_mul] at h'
          omega
        · intro hne
          have := Nat.mul_le_mul_right p.inDepth (show q + 2 ≤ P by omega)
          have e : (q + 2) * p.inDepth = q * p.inDepth + p.inDepth + p.inDepth := by ring
          omega
      rw [this, key]
      omega
    · rw [if_pos h1, if_neg h2, if_neg (fun h => h2 h.2)]
      exact hz
  · rw [if_neg h1, if_neg (fun h => h1 h.1)]
    exact hz

theorem A64Fits.iff {p : BConv} {inp filt : List Word} (h : p.Dims inp filt) (hF : 1 ≤ p.filtH * p.filtW) (hD : 1 ≤ p.filtDepth)
    (hb : 0 < p.batches) (hpos : 0 < p.inH ∧ 0 < p.inW) :
    A64Fits p ↔ p.cout - p.outPerGroup + ceilMul p.outPerGroup 8 ≤ p.cout + 4 ∧ A64Slack p inp [] [] := by
  obtain ⟨A, d2, g, hsel, hA, hdiv, hmin, hle, _⟩ := selectA64_spec h hD
  have hbd : 1 ≤ A.bd := by rcases hA.bd with h | h | h <;> omega
  have hDin : p.filtDepth ≤ p.inDepth := by rw [h.depth]; exact Nat.le_mul_of_pos_left _ h.groups_pos
  rw [ceilMul8_le_iff h.groups_pos h.cout_div]
  unfold A64Slack
  rw [hsel]
  simp only []
  have hroom := fun {b oy ox : Nat} => room_iff (p := p) h (bd := A.bd) (b := b) (oy := oy) (ox := ox) hbd (by omega) hF
  constructor
  · rintro ⟨f1, f2, f3⟩
    refine ⟨f1, ?_⟩
    by_cases hg : p.groups = 1
    · exact Or.inl hg
    · right
      intro oi hoi
      rw [Nat.mul_assoc] at hoi
      obtain ⟨a1, a2⟩ := mod_lt_of_lt_mul hoi
      obtain ⟨b1, b2⟩ := mod_lt_of_lt_mul a2
      have e1 := div_mul_add_mod oi (p.outH * p.outW)
      have e2 := div_mul_add_mod (oi % (p.outH * p.outW)) p.outW
      rw [← e1, ← e2, hroom a1 b1 b2]
      split
      · rintro ⟨_, hl⟩
        exact (f2.resolve_left hg) _ _ b1 b2 hl
      · rename_i hn
        rcases f3.resolve_left hg with f3 | f3
        · exact f3
        · exact absurd (f3 _ _ b1 b2) hn
  · rintro ⟨f1, f2⟩
    by_cases hg : p.groups = 1
    · exact ⟨f1, Or.inl hg, Or.inl hg⟩
    · have f2 := f2.resolve_left hg
      have hlt : ∀ b oy ox, b < p.batches → oy < p.outH → ox < p.outW →
          b * (p.outH * p.outW) + (oy * p.outW + ox) < p.batches * p.outH * p.outW := by
        intro b oy ox h1 h2 h3
        rw [Nat.mul_assoc]
        exact row_lt h1 (row_lt h2 h3)
      refine ⟨f1, Or.inr ?_, Or.inr ?_⟩
      · intro oy ox h1 h2 hl
        have hr := f2 _ (hlt (p.batches - 1) oy ox (by omega) h1 h2)
        rw [hroom (by omega) h1 h2] at hr
        split at hr
        · exact hr ⟨by omega, hl⟩
        · rename_i hn
          exact hn (by
            have hH : 0 < p.inH := hpos.1
            have hW : 0 < p.inW := hpos.2
            omega)
      · by_cases hF2 : 2 ≤ p.filtH * p.filtW
        · exact Or.inl hF2
        · right
          intro oy ox h1 h2
          have hr := f2 _ (hlt 0 oy ox hb h1 h2)
          rw [hroom hb h1 h2] at hr
          by_contra hn
          rw [if_neg hn] at hr
          exact hF2 hr

/-- **C51.** With the buffers the op allocates (`channels_out + 4` multipliers and biases, nothing after the input tensor and the
zero buffer) the kernels stay within them, and C49 and C50 apply, under the condition `A64Fits` (partial: in the other cases the full
statement is false: `C51_a64_fits_iff`, and the witnesses below). -/
theorem C51_a64_allocated_partial {p : BConv} {inp filt mult bias : List Word} {cmin cmax : Int}
    (hok : p.Ok inp filt) (hpad : p.padding = .valid ∨ p.padValue = 1)
    (hfh : 0 < p.filtH) (hfw : 0 < p.filtW) (hci : 0 < p.cin) (hco : 0 < p.cout) (hin : 0 < p.batches * p.inH * p.inW)
    (hK : p.filtH * p.filtW * (p.cin / p.groups) < 2 ^ 16)
    (h1 : Fits32 cmin) (h2 : Fits32 cmax) (hle : cmin ≤ cmax) (hfit : A64Fits p)
    (hm : mult.length = p.cout + 4) (hb : bias.length = p.cout + 4)
    (F : FOps) (v : Nat → Nat → BitVec 8) (x : Nat → NAddr) :
    (∀ out0 out1 : List Word, out0.length = p.batches * p.outH * p.outW * p.cout →
      out1.length = p.batches * p.outH * p.outW * p.cout →
      ∃ out, bconvA64F p inp [] [] filt mult bias cmin cmax F v x out0 = some out ∧
        bconvReference p inp filt (runFloatBits F cmin cmax mult bias) out1 = some out) ∧
    (∀ out0 out1 : List (BitVec 8), out0.length = p.batches * p.outH * p.outW * p.cout →
      out1.length = p.batches * p.outH * p.outW * p.cout →
      ∃ out, bconvA64I p inp [] [] filt mult bias cmin cmax F v x out0 = some out ∧
        bconvReference p inp filt (runInt8Bits F cmin cmax mult bias) out1 = some out) := by
  have hbp : 0 < p.batches := Nat.pos_of_ne_zero (fun h0 => by rw [h0] at hin; simp at hin)
  have hpp : 0 < p.inH ∧ 0 < p.inW := ⟨Nat.pos_of_ne_zero (fun h0 => by rw [h0] at hin; simp at hin),
    Nat.pos_of_ne_zero (fun h0 => by rw [h0] at hin; simp at hin)⟩
  obtain ⟨hc, hs⟩ := (A64Fits.iff hok.dims (Nat.mul_pos hfh hfw) (hok.filtDepth_pos hci) hbp hpp).1 hfit
  exact ⟨fun out0 out1 ho0 ho1 => a64_float_of_slack hok hpad hfh hfw hci hco hin hK h1 h2 hle (by omega) (by omega)
      hs F v x ho0 ho1,
    fun out0 out1 ho0 ho1 => a64_int8_of_slack hok hpad hfh hfw hci hco hin hK h1 h2 hle (by omega) (by omega)
      hs F v x ho0 ho1⟩

/-- **C51, exact.** The condition `A64Fits` is exact: with these buffers some load of the kernel is outside its buffer, whatever the
contents of the tensors and the registers, if and only if it fails. -/
theorem C51_a64_fits_iff {p : BConv} {inp filt mult bias : List Word} {cmin cmax : Int}
    (hok : p.Ok inp filt) (hfh : 0 < p.filtH) (hfw : 0 < p.filtW) (hci : 0 < p.cin) (hco : 0 < p.cout)
    (hin : 0 < p.batches * p.inH * p.inW) (hout : 0 < p.batches * p.outH * p.outW)
    (hm : mult.length = p.cout + 4) (hb : bias.length = p.cout + 4)
    (F : FOps) (v : Nat → Nat → BitVec 8) (x : Nat → NAddr) {out0 : List Word} {out1 : List (BitVec 8)}
    (ho0 : out0.length = p.batches * p.outH * p.outW * p.cout) (ho1 : out1.length = p.batches * p.outH * p.outW * p.cout) :
    ((bconvA64F p inp [] [] filt mult bias cmin cmax F v x out0).isSome ↔ A64Fits p) ∧
    ((bconvA64I p inp [] [] filt mult bias cmin cmax F v x out1).isSome ↔ A64Fits p) := by
  have hbp : 0 < p.batches := Nat.pos_of_ne_zero (fun h0 => by rw [h0] at hin; simp at hin)
  have hpp : 0 < p.inH ∧ 0 < p.inW := ⟨Nat.pos_of_ne_zero (fun h0 => by rw [h0] at hin; simp at hin),
    Nat.pos_of_ne_zero (fun h0 => by rw [h0] at hin; simp at hin)⟩
  have hF : 1 ≤ p.filtH * p.filtW := Nat.mul_pos hfh hfw
  have hD := hok.filtDepth_pos hci
  rw [A64Fits.iff hok.dims hF hD hbp hpp]
  by_cases hc : p.cout - p.outPerGroup + ceilMul p.outPerGroup 8 ≤ p.cout + 4 ∧ A64Slack p inp [] []
  · have e1 := bconvA64F_eq (cmin := cmin) (cmax := cmax) hok.dims hF hD hco (inDepth_le_length hok hin) hc.2
      (mult := mult) (bias := bias) (by omega) (by omega) (F := F) (v := v) (x := x) ho0
    have e2 := bconvA64I_eq (cmin := cmin) (cmax := cmax) hok.dims hF hD hco (inDepth_le_length hok hin) hc.2
      (mult := mult) (bias := bias) (by omega) (by omega) (F := F) (v := v) (x := x) ho1
    rw [e1, e2]
    exact ⟨⟨fun _ => hc, fun _ => rfl⟩, ⟨fun _ => hc, fun _ => rfl⟩⟩
  · rw [← hm] at hc
    obtain ⟨e1, e2⟩ := bconvA64_none (cmin := cmin) (cmax := cmax) (bias := bias) hok.dims hF hD hco hout hc
      (F := F) (v := v) (x := x) out0 out1
    rw [e1, e2, ← hm]
    exact ⟨⟨fun h => absurd h (by simp), fun h => absurd h hc⟩, ⟨fun h => absurd h (by simp), fun h => absurd h hc⟩⟩

/-- A grouped 3x3 convolution with padding SAME fits; with a 2x2 filter it does not, because the filter of the last output pixel
begins at the last input pixel. -/
example :
    A64Fits ⟨2, 4, 4, 2, 64, 3, 3, 1, 24, 2, 1, 1, 1, 1, .same, 1, 1, 1, 4, 4⟩ ∧
    ¬ A64Fits ⟨2, 4, 4, 2, 64, 2, 2, 1, 24, 2, 1, 1, 1, 1, .same, 0, 0, 1, 4, 4⟩ := by
  refine ⟨⟨by decide, Or.inr ?_, Or.inr (Or.inl (by decide))⟩, ?_⟩
  · intro oy ox h1 h2
    simp only [] at *
    omega
  · rintro ⟨_, h, _⟩
    exact (h.resolve_left (by decide)) 3 3 (by decide) (by decide) (by decide)

/-- Floating-point operations for the witnesses. -/
def trivialFOps : FOps := ⟨id, fun a _ => a, fun a _ => a, id, id⟩

set_option maxRecDepth 100000 in
/-- One output channel: the kernel loads 8 multipliers, the op allocates 5. -/
theorem C51_multiplier_overread_witness :
    let p : BConv := ⟨1, 1, 1, 1, 32, 1, 1, 1, 1, 1, 1, 1, 1, 1, .valid, 0, 0, 1, 1, 1⟩
    p.Ok [7#32] [0#32] ∧ indirect16Selected p = true ∧
    bconvA64F p [7#32] [] [] [0#32] (List.replicate (p.cout + 4) 0#32) (List.replicate (p.cout + 4) 0#32) 0 64 trivialFOps
      (fun _ _ => 0#8) (fun _ => ⟨7, 0⟩) [0#32] = none := by
  refine ⟨⟨by decide, by decide, by decide, by decide, by decide, by decide, by decide, by decide, ?_, ?_⟩, by decide,
    by decide +kernel⟩
  · intro r k b hr hk hb hc; simp at hk hc; omega
  · intro r k b hr hk hb hc; simp [BConv.cinG] at hk hc; omega

set_option maxRecDepth 100000 in
/-- Two groups of 8 channels: after the last group the kernel loads the activations of a third group, past the end of the
input tensor. -/
theorem C51_input_overread_witness :
    let p : BConv := ⟨1, 1, 1, 2, 64, 1, 1, 1, 16, 2, 1, 1, 1, 1, .valid, 0, 0, 1, 1, 1⟩
    p.Ok [7#32, 0#32] (List.replicate 16 0#32) ∧ indirect16Selected p = true ∧
    bconvA64F p [7#32, 0#32] [] [] (List.replicate 16 0#32) (List.replicate (p.cout + 4) 0#32)
      (List.replicate (p.cout + 4) 0#32) 0 64 trivialFOps (fun _ _ => 0#8) (fun _ => ⟨7, 0⟩) (List.replicate 16 0#32) = none := by
  refine ⟨⟨by decide, by decide, by decide, by decide, by decide, by decide, by decide, by decide, ?_, ?_⟩, by decide,
    by decide +kernel⟩
  · intro r k b hr hk hb hc; simp at hk hc; omega
  · intro r k b hr hk hb hc; simp [BConv.cinG] at hk hc; omega

/-- The 16-bit accumulators of the selected kernel do wrap: for the convolution of `C19_indirect_overflow_witness` the output is
the transform of 65472, the reference kernel's is the transform of the true accumulator 131008. -/
theorem C49_overflow_witness (mult bias : List Word) (hm : mult.length = 8) (hb : bias.length = 8) (F : FOps)
    (v : Nat → Nat → BitVec 8) (x : Nat → NAddr) :
    indirect16Selected overflowConv = true ∧
    bconvA64F overflowConv (List.replicate 2047 0#32) [] [] (List.replicate 4094 (BitVec.allOnes 32)) mult bias 0 262016 F v x
        [0#32]
      = some [F.fadd (F.fmul (F.scvtf (BitVec.ofInt 32 (2 * 65472))) (mult.getD 0 0#32)) (bias.getD 0 0#32)] ∧
    bconvReference overflowConv (List.replicate 2047 0#32) (List.replicate 4094 (BitVec.allOnes 32))
        (runFloatBits F 0 262016 mult bias) [0#32]
      = some [F.fadd (F.fmul (F.scvtf (BitVec.ofInt 32 (2 * 131008))) (mult.getD 0 0#32)) (bias.getD 0 0#32)] := by
  have hw := C19_indirect_overflow_witness
  have hok := overflowConv_ok
  have hz : overflowConv.zeroPadding = false := by decide
  have hacc : overflowConv.accPix (List.replicate 2047 0#32) (List.replicate 4094 (BitVec.allOnes 32)) 0 0 = 131008 := by
    have e := refAccum_eq (p := overflowConv) hok.groups_pos hok.cout_div hok.depth hok.inLen hok.filtLen (b := 0) (oy := 0)
      (ox := 0) (oc := 0) (by decide) (by decide)
    rw [hw.2.2.2.1, BConv.accRef_eq_acc hz] at e
    exact (Option.some.inj e).symm
  have f0 : Fits32 0 := by unfold Fits32; omega
  have f1 : Fits32 262016 := by unfold Fits32; omega
  refine ⟨hw.2.1, ?_, ?_⟩
  · rw [bconvA64F_eq hok.dims (by decide) (by decide) (by decide) (inDepth_le_length hok (by decide)) (Or.inl rfl)
      (by rw [hm]; decide) (by rw [hb]; decide) (out0 := [0#32]) rfl]
    change some [otFloat F (BitVec.ofInt 32 0) (BitVec.ofInt 32 262016) (BitVec.ofNat 16 (overflowConv.accPix _ _ 0 0))
      (mult.getD 0 0#32) (bias.getD 0 0#32)] = _
    rw [hacc]
    have e16 : BitVec.ofNat 16 131008 = BitVec.ofNat 16 65472 := by decide
    rw [e16, otFloat_eq f0 f1 (by omega) (by omega)]
    rfl
  · rw [bconvReference_list hok hz (f := fun a c => (F.fadd (F.fmul (F.scvtf (BitVec.ofInt 32
        (max (min ((a : Int) * 2) 262016) 0))) (mult.getD c 0#32)) (bias.getD c 0#32))) ?_ (out0 := [0#32]) rfl]
    · change some [F.fadd (F.fmul (F.scvtf (BitVec.ofInt 32 (max (min ((overflowConv.accPix _ _ 0 0 : Nat) * 2) 262016) 0)))
        (mult.getD 0 0#32)) (bias.getD 0 0#32)] = _
      rw [hacc]
      rfl
    · intro a c ha hc
      have hc0 : c < 1 := hc
      have ha' : a ≤ 131008 := ha
      have c1 : chk32 (a : Int) = some (a : Int) := chk32_eq (by omega) (by omega)
      have c2 : chk32 ((a : Int) * 2) = some ((a : Int) * 2) := chk32_eq (by omega) (by omega)
      have hcm : c < mult.length := by omega
      have hcb : c < bias.length := by omega
      unfold runFloatBits
      simp only [c1, c2, rd, Option.bind_eq_bind, Option.bind_some, List.getElem?_eq_getElem hcm, List.getElem?_eq_getElem hcb,
        List.getD_eq_getElem?_getD, Option.getD_some]

/-- Non-vacuity of C49 and C50: the convolution of C12's example (2 groups of 3 channels, kernel 8x4x1); the non-trivial clamp
values of a RELU6; and one with 9 words per pixel and one group. -/
example :
    let p : BConv := ⟨1, 4, 5, 2, 64, 2, 3, 1, 6, 2, 2, 1, 1, 2, .same, 0, 1, 1, 2, 5⟩
    p.Ok (List.replicate 40 0xDEADBEEF#32) (List.replicate 36 0x12345678#32) ∧ (p.padding = .valid ∨ p.padValue = 1) ∧
      0 < p.batches * p.inH * p.inW ∧ p.filtH * p.filtW * (p.cin / p.groups) < 2 ^ 16 ∧
      Fits32 (192 - 6) ∧ Fits32 192 ∧ p.cout - p.outPerGroup + ceilMul p.outPerGroup 8 ≤ 11 := by
  refine ⟨⟨by decide, by decide, by decide, by decide, by decide, by decide, by decide, by decide, ?_, ?_⟩,
    by decide, by decide, by decide, by decide, by decide, by decide⟩
  · intro r k b hr hk hb hc; simp at hk hc; omega
  · intro r k b hr hk hb hc; simp [BConv.cinG] at hk hc; omega

end Verif
