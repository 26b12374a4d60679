import Verif.Proof.FloatOutput
import Verif.Props.Reference
import Verif.Props.Indirect
import Verif.Props.BGemm
import Verif.Props.QuantDequant

/-!
C58, C59: the output with the rounding of float and double arithmetic.

`R : FlEnv` is the floating-point arithmetic of the target: `R.fl` rounds to nearest float, `R.dl` to nearest double (any rule for
ties), and `R.fused` says whether the compiler contracts the product and sum into a fused multiply-add.
-/

namespace Verif

section
variable {p : BConv} {inp filt : List Word} {act : Act} {R : FlEnv}

/-- From a bound on the transform to a bound on the output. -/
theorem reference_rel {α : Type} (hok : p.Ok inp filt) (heven : p.zeroPadding = true → p.cinG % 2 = 0)
    {run : Nat → Nat → Option α} {f : Nat → Nat → α} {Rel : Nat → Int → α → Prop}
    (hrun : ∀ a c, a ≤ p.K → c < p.cout → run a c = some (f a c))
    (hrel : ∀ a c, a ≤ p.K → c < p.cout → Rel c (act.apply ((p.K : Int) - 2 * a)) (f a c))
    {out0 : List α} (hout : out0.length = p.batches * p.outH * p.outW * p.cout) :
    ∃ out, bconvReference p inp filt run out0 = some out ∧ out.length = out0.length ∧
      ∀ b y x c, b < p.batches → y < p.outH → x < p.outW → c < p.cout →
        ∃ v, out[((b * p.outH + y) * p.outW + x) * p.cout + c]? = some v ∧
          Rel c (act.apply (p.conv p.padVal inp filt b y x c)) v := by
  obtain ⟨out, h1, h2, h3⟩ := bconvReference_eq hok.groups_pos hok.cout_div hok.depth hok.inLen
    hok.filtLen (fun b oy ox oc hb hoc => BConv.accRef_le hok heven hb hoc) hrun hout
  refine ⟨out, h1, by rw [h2, hout], ?_⟩
  intro b y x c hb hy hx hc
  have := h3 b y x c hb hy hx hc
  unfold offset4 at this
  refine ⟨_, this, ?_⟩
  have := hrel _ c (BConv.accRef_le hok heven (oy := y) (ox := x) hb hc) hc
  rw [BConv.accRef_eq_conv hok heven hb hc] at this
  exact this

/-- **C58.** Float output in float arithmetic: every element of the reference kernel's output differs from
`activation(conv) * multiplier + bias` by at most `5 * 2^-24 * (|bias| + K * |multiplier|) + 2^-147`, for dot products of length
`K` up to `2^23` and channels whose numbers stay below `2^125`. The error is relative to `|bias| + K * |multiplier|`, not to the
result (`C58_cancellation_witness`). -/
theorem C58_float_error (h32 : RoundsToNearest R.fl) (h64 : RoundsToNearest64 R.dl) {mult bias out0 : List Rat}
    (hok : p.Ok inp filt) (heven : p.padding = .same → p.padValue = 0 → p.cin % 2 = 0)
    (hm : mult.length = p.cout) (hb : bias.length = p.cout)
    (hK : 2 * (p.filtH * p.filtW * (p.cin / p.groups)) ≤ 2 ^ 24)
    (hmul : ∀ c, c < p.cout → Binary32 (mult.getD c 0))
    (hr : ∀ c, c < p.cout → |bias.getD c 0| + 4 * (((p.filtH * p.filtW * (p.cin / p.groups) : Nat) : Rat) * |mult.getD c 0|)
      ≤ 2 ^ (125 : Int))
    (hout : out0.length = p.batches * p.outH * p.outW * p.cout) :
    ∃ out, evalRefFloatFl R p act mult bias inp filt out0 = some out ∧ out.length = out0.length ∧
      ∀ b y x c, b < p.batches → y < p.outH → x < p.outW → c < p.cout →
        ∃ v, out[((b * p.outH + y) * p.outW + x) * p.cout + c]? = some v ∧
          |v - ((act.apply (p.conv p.padVal inp filt b y x c) : Int) * mult.getD c 0 + bias.getD c 0)|
            ≤ (|bias.getD c 0| + ((p.filtH * p.filtW * (p.cin / p.groups) : Nat) : Rat) * |mult.getD c 0|) * (5 / 2 ^ 24)
              + 2 ^ (-147 : Int) := by
  have hev : p.zeroPadding = true → p.cinG % 2 = 0 := by
    intro hz
    unfold BConv.zeroPadding at hz
    simp only [Bool.and_eq_true, decide_eq_true_eq] at hz
    exact cinG_even hok (heven hz.1 hz.2)
  have hKK : p.filtH * p.filtW * (p.cin / p.groups) = p.K := rfl
  rw [hKK] at hK
  obtain ⟨t, ht, _, _, hrun⟩ := runFloatFl_eq (R := R) (p := p) (act := act) (scale := 1) (zp := 0) hm hb (by omega)
  obtain ⟨out, e1, e2, e3⟩ := reference_rel (act := act) (Rel := fun c z v => |v - ((z : Int) * mult.getD c 0 + bias.getD c 0)|
      ≤ (|bias.getD c 0| + (p.K : Rat) * |mult.getD c 0|) * (5 / 16777216) + 8 * etaF) hok hev hrun
    (fun a c ha hc => by
      obtain ⟨r1, r2⟩ := apply_range act ha
      have := (float_output_err h32 h64 R.fused hK r1 r2 (hmul c hc) (hr c hc)).1
      rw [sub_sub_cancel] at this
      exact this) hout
  refine ⟨out, ?_, e2, ?_⟩
  · unfold evalRefFloatFl
    rw [ht]
    exact e1
  · intro b y x c hb hy hx hc
    obtain ⟨v, v1, v2⟩ := e3 b y x c hb hy hx hc
    refine ⟨v, v1, ?_⟩
    have e : 8 * etaF = (2 : Rat) ^ (-147 : Int) := by
      unfold etaF
      have : (8 : Rat) = 2 ^ (3 : Int) := by norm_num
      rw [this, ← zpow_add₀ (by norm_num)]
      rfl
    rw [e] at v2
    have e3 : (5 / 16777216 : Rat) = 5 / 2 ^ 24 := by norm_num
    rw [e3] at v2
    exact v2

/-- **C58**, exact results: with multipliers `M * 2^q` and biases `B * 2^q` for integers with `|B| + 2 K |M| ≤ 2^24` (in
particular without fused multiplier and bias, `M = 1`, `B = 0`, `q = 0`, and `K ≤ 2^23`), float arithmetic gives exactly
`activation(conv) * multiplier + bias`. -/
theorem C58_float_exact (h32 : RoundsToNearest R.fl) (h64 : RoundsToNearest64 R.dl) {mult bias out0 : List Rat}
    (hok : p.Ok inp filt) (heven : p.padding = .same → p.padValue = 0 → p.cin % 2 = 0)
    (hm : mult.length = p.cout) (hb : bias.length = p.cout)
    (hK : 2 * (p.filtH * p.filtW * (p.cin / p.groups)) ≤ 2 ^ 24)
    (hint : ∀ c, c < p.cout → ∃ M B q : Int, -149 ≤ q ∧ q ≤ 103 ∧ mult.getD c 0 = (M : Rat) * 2 ^ q ∧
      bias.getD c 0 = (B : Rat) * 2 ^ q ∧ |B| + 2 * (((p.filtH * p.filtW * (p.cin / p.groups) : Nat) : Int) * |M|) ≤ 2 ^ 24)
    (hout : out0.length = p.batches * p.outH * p.outW * p.cout) :
    ∃ out, evalRefFloatFl R p act mult bias inp filt out0 = some out ∧ out.length = out0.length ∧
      ∀ b y x c, b < p.batches → y < p.outH → x < p.outW → c < p.cout →
        out[((b * p.outH + y) * p.outW + x) * p.cout + c]?
          = some ((act.apply (p.conv p.padVal inp filt b y x c) : Int) * mult.getD c 0 + bias.getD c 0) := by
  have hev : p.zeroPadding = true → p.cinG % 2 = 0 := by
    intro hz
    unfold BConv.zeroPadding at hz
    simp only [Bool.and_eq_true, decide_eq_true_eq] at hz
    exact cinG_even hok (heven hz.1 hz.2)
  have hKK : p.filtH * p.filtW * (p.cin / p.groups) = p.K := rfl
  rw [hKK] at hK
  obtain ⟨t, ht, _, _, hrun⟩ := runFloatFl_eq (R := R) (p := p) (act := act) (scale := 1) (zp := 0) hm hb (by omega)
  obtain ⟨out, e1, e2, e3⟩ := reference_rel (act := act) (Rel := fun c z v => v = (z : Int) * mult.getD c 0 + bias.getD c 0)
    hok hev hrun
    (fun a c ha hc => by
      obtain ⟨M, B, q, q1, q2, q3, q4, q5⟩ := hint c hc
      obtain ⟨r1, r2⟩ := apply_range act ha
      have := float_output_exact h32 h64 R.fused hK r1 r2 q1 q2 q5
      rw [sub_sub_cancel, ← q3, ← q4] at this
      exact this) hout
  refine ⟨out, ?_, e2, ?_⟩
  · unfold evalRefFloatFl
    rw [ht]
    exact e1
  · intro b y x c hb hy hx hc
    obtain ⟨v, v1, v2⟩ := e3 b y x c hb hy hx hc
    rw [v1, v2]

/-- **C58**, all portable kernels: with the same float arithmetic the indirect kernel and the BGEMM kernel (any schedule and
interleaving) write the same floats as the reference kernel, so the bounds hold for them too. -/
theorem C58_kernels_agree {mult bias : List Rat}
    (hok : p.Ok inp filt) (hg : p.groups = 1) (hgeo : p.Geom) (hpad : p.padding = .valid ∨ p.padValue = 1)
    (hfh : 0 < p.filtH) (hfw : 0 < p.filtW) (hci : 0 < p.cin) (hco : 0 < p.cout)
    (hm : mult.length = p.cout) (hb : bias.length = p.cout)
    (hK : 2 * (p.filtH * p.filtW * (p.cin / p.groups)) < 2147483648)
    (fat : Bool) {blocks : List Blk} (hs : Schedule p.cout (p.batches * p.outH * p.outW) 1 1 blocks)
    {out0 : List Rat} (h0 : out0.length = p.batches * p.outH * p.outW * p.cout) :
    ∃ t out trs, otSetupFl R p act mult bias 1 0 = some t ∧ evalRefFloatFl R p act mult bias inp filt out0 = some out ∧
      bconvIndirect p inp filt (t.runFloatFl R) out0 = some out ∧
      bgemmTraces p fat blocks inp filt (t.runFloatFl R) = some trs ∧
      ∀ L, L.Perm trs.flatten → applyWrites L out0 = some out := by
  obtain ⟨t, ht, _, _, hrun⟩ := runFloatFl_eq (R := R) (p := p) (act := act) (scale := 1) (zp := 0) hm hb hK
  have hsome : ∀ a c, a ≤ p.filtH * p.filtW * (p.cin / p.groups) → c < p.cout → (t.runFloatFl R a c).isSome := by
    intro a c ha hc
    rw [hrun a c ha hc]; rfl
  obtain ⟨out, e1, e2⟩ := C12_indirect_eq_reference hok hpad hfh hfw hci hco hsome h0 h0
  obtain ⟨trs, out', f1, f2, f3⟩ := C14_bgemm_eq_reference hok hg hgeo hpad hco hsome fat hs h0 h0
  rw [e2] at f2; cases f2
  refine ⟨t, out, trs, ht, ?_, e1, f1, f3⟩
  unfold evalRefFloatFl
  rw [ht]
  exact e2

/-- The number before the final rounding, and its error. -/
theorem int8_key {mult bias : List Rat} {scale zp : Rat} (h32 : RoundsToNearest R.fl) (h64 : RoundsToNearest64 R.dl)
    (hs : (2 : Rat) ^ (-40 : Int) ≤ scale) (hs2 : scale ≤ 2 ^ (40 : Int)) (hK : 2 * p.K ≤ 2 ^ 24) (hK0 : 0 < p.K)
    (hmul : ∀ c, c < p.cout → Binary32 (mult.getD c 0))
    (hT : ∀ c, c < p.cout → (|bias.getD c 0| + (p.K : Rat) * |mult.getD c 0|) / scale + |zp| ≤ 2 ^ 20)
    (a c : Nat) (ha : a ≤ p.K) (hc : c < p.cout) :
    (∀ y : Rat, y = flRun R.fl R.fused (((p.K : Int) - act.apply ((p.K : Int) - 2 * a) : Int) : Rat)
          (R.fl (R.dl (R.dl (-1 * mult.getD c 0) / scale)))
          (R.fl (R.dl (R.dl (R.dl (bias.getD c 0 + R.dl (((p.K : Int) : Rat) * mult.getD c 0)) / scale) + zp))) →
      |y - (((act.apply ((p.K : Int) - 2 * a) : Int) * mult.getD c 0 + bias.getD c 0) / scale + zp)|
        ≤ ((|bias.getD c 0| + (p.K : Rat) * |mult.getD c 0|) / scale + |zp|) * (7 / 2 ^ 24) + 2 ^ (-123 : Int) ∧
      |((act.apply ((p.K : Int) - 2 * a) : Int) * mult.getD c 0 + bias.getD c 0) / scale + zp| ≤ 2 ^ 20) ∧
    ((|bias.getD c 0| + (p.K : Rat) * |mult.getD c 0|) / scale + |zp|) * (7 / 2 ^ 24) + 2 ^ (-123 : Int) < 1 ∧
    (∀ x : Int, x = (p.K : Int) - act.apply ((p.K : Int) - 2 * a) →
      |R.fl x * R.fl (R.dl (R.dl (-1 * mult.getD c 0) / scale))| ≤ maxBinary32 ∧
      |R.fl (R.fl x * R.fl (R.dl (R.dl (-1 * mult.getD c 0) / scale))) +
        R.fl (R.dl (R.dl (R.dl (bias.getD c 0 + R.dl (((p.K : Int) : Rat) * mult.getD c 0)) / scale) + zp))| ≤ maxBinary32) := by
  have hs0 : 0 < scale := lt_of_lt_of_le (by positivity) hs
  have eη : 134217728 * etaF = (2 : Rat) ^ (-123 : Int) := by
    unfold etaF
    have : (134217728 : Rat) = 2 ^ (27 : Int) := by norm_num
    rw [this, ← zpow_add₀ (by norm_num)]
    rfl
  have e24 : (7 / 16777216 : Rat) = 7 / 2 ^ 24 := by norm_num
  have hη : (2 : Rat) ^ (-123 : Int) ≤ 1 / 16 := by
    have : (2 : Rat) ^ (-123 : Int) ≤ 2 ^ (-4 : Int) := zpow_le_zpow_right₀ (by norm_num) (by norm_num)
    refine le_trans this ?_
    norm_num
  obtain ⟨r1, r2⟩ := apply_range act ha
  have T := hT c hc
  have m0 := abs_nonneg (mult.getD c 0)
  have b0 := abs_nonneg (bias.getD c 0)
  have z0 := abs_nonneg zp
  have hbig : (2 : Rat) ^ 20 ≤ bigF / 4 := by unfold bigF; norm_num
  have hk1 : (1 : Rat) ≤ p.K := by exact_mod_cast hK0
  have S1 : |bias.getD c 0| + (p.K : Rat) * |mult.getD c 0| ≤ bigF := by
    have : (|bias.getD c 0| + (p.K : Rat) * |mult.getD c 0|) / scale ≤ 2 ^ 20 := by linarith
    rw [div_le_iff₀ hs0] at this
    refine le_trans this ?_
    have h2 : (2 : Rat) ^ 20 * scale ≤ 2 ^ 20 * 2 ^ (40 : Int) := mul_le_mul_of_nonneg_left hs2 (by positivity)
    refine le_trans h2 ?_
    unfold bigF
    norm_num
  have hσ : |mult.getD c 0| / scale ≤ (|bias.getD c 0| + (p.K : Rat) * |mult.getD c 0|) / scale := by
    refine div_le_div_of_nonneg_right ?_ hs0.le
    nlinarith
  obtain ⟨this, rg⟩ := int8_output_err h32 h64 R.fused hK r1 r2 (hmul c hc) hs S1 (by linarith [bigF_ge]) (le_trans T hbig)
  refine ⟨?_, ?_, fun x hx => by rw [hx]; exact rg⟩
  rotate_left
  · have h1 : ((|bias.getD c 0| + (p.K : Rat) * |mult.getD c 0|) / scale + |zp|) * (7 / 2 ^ 24) ≤ 2 ^ 20 * (7 / 2 ^ 24) :=
      mul_le_mul_of_nonneg_right T (by norm_num)
    have h2 : (2 : Rat) ^ 20 * (7 / 2 ^ 24) = 7 / 16 := by norm_num
    linarith
  · intro y hy
    rw [← hy, sub_sub_cancel, eη, e24] at this
    refine ⟨this, ?_⟩
    have e2 : |((act.apply ((p.K : Int) - 2 * a) : Int) * mult.getD c 0 + bias.getD c 0) / scale + zp|
        ≤ (|bias.getD c 0| + (p.K : Rat) * |mult.getD c 0|) / scale + |zp| := by
      refine le_trans (abs_add2 _ _) ?_
      rw [abs_div, abs_of_pos hs0]
      have h3 : |((act.apply ((p.K : Int) - 2 * a) : Int) : Rat) * mult.getD c 0 + bias.getD c 0|
          ≤ |bias.getD c 0| + (p.K : Rat) * |mult.getD c 0| := by
        refine le_trans (abs_add2 _ _) ?_
        rw [abs_mul]
        have : |((act.apply ((p.K : Int) - 2 * a) : Int) : Rat)| ≤ p.K := by
          rw [← Int.cast_abs]
          have : |act.apply ((p.K : Int) - 2 * a)| ≤ (p.K : Int) := abs_le.2 ⟨by omega, by omega⟩
          exact_mod_cast this
        nlinarith
      have := div_le_div_of_nonneg_right h3 hs0.le
      linarith
    exact le_trans e2 T

/-- Rounding and saturating two nearby numbers. -/
theorem round_pair {rnd rnd' : Rat → Int} (hrnd : ∀ y : Rat, |(rnd y : Rat) - y| ≤ 1 / 2)
    (hrnd' : ∀ y : Rat, |(rnd' y : Rat) - y| ≤ 1 / 2) {y z ε : Rat} (k1 : |y - z| ≤ ε) (k4 : ε < 1) :
    |clampInt8 (rnd y) - clampInt8 (rnd' z)| ≤ 1 ∧
      (clampInt8 (rnd y) ≠ clampInt8 (rnd' z) → ∃ n : Int, |z - ((n : Rat) + 1 / 2)| ≤ ε) := by
  have r1 := abs_le.1 (hrnd y)
  have r2 := abs_le.1 (hrnd' z)
  have k5 := abs_le.1 k1
  have d1 : rnd y - rnd' z < 2 := by
    have : ((rnd y - rnd' z : Int) : Rat) < ((2 : Int) : Rat) := by push_cast; linarith
    exact_mod_cast this
  have d2 : -2 < rnd y - rnd' z := by
    have : ((-2 : Int) : Rat) < ((rnd y - rnd' z : Int) : Rat) := by push_cast; linarith
    exact_mod_cast this
  constructor
  · rw [abs_le]
    unfold clampInt8
    constructor
    · split <;> split <;> (try split) <;> omega
    · split <;> split <;> (try split) <;> omega
  · intro hne
    have hne' : rnd y ≠ rnd' z := fun h => hne (by rw [h])
    rcases lt_or_gt_of_ne hne' with hlt | hgt
    · have e : rnd' z = rnd y + 1 := by omega
      refine ⟨rnd y, ?_⟩
      have er : (rnd' z : Rat) = rnd y + 1 := by rw [e]; push_cast; ring
      rw [abs_le]
      constructor <;> linarith
    · have e : rnd y = rnd' z + 1 := by omega
      refine ⟨rnd' z, ?_⟩
      have er : (rnd y : Rat) = rnd' z + 1 := by rw [e]; push_cast; ring
      rw [abs_le]
      constructor <;> linarith

/-- C59 with the exact number rounded by another rule (`rnd'`) for ties. -/
theorem int8_error_any (h32 : RoundsToNearest R.fl) (h64 : RoundsToNearest64 R.dl) {rnd rnd' : Rat → Int}
    (hrnd : ∀ y : Rat, |(rnd y : Rat) - y| ≤ 1 / 2) (hrnd' : ∀ y : Rat, |(rnd' y : Rat) - y| ≤ 1 / 2) {mult bias : List Rat} {scale zp : Rat} {out0 : List Int}
    (hok : p.Ok inp filt) (heven : p.padding = .same → p.padValue = 0 → p.cin % 2 = 0)
    (hm : mult.length = p.cout) (hb : bias.length = p.cout) (hs : (2 : Rat) ^ (-40 : Int) ≤ scale) (hs2 : scale ≤ 2 ^ (40 : Int))
    (hK : 2 * (p.filtH * p.filtW * (p.cin / p.groups)) ≤ 2 ^ 24) (hK0 : 0 < p.filtH * p.filtW * (p.cin / p.groups))
    (hmul : ∀ c, c < p.cout → Binary32 (mult.getD c 0))
    (hT : ∀ c, c < p.cout → (|bias.getD c 0| + ((p.filtH * p.filtW * (p.cin / p.groups) : Nat) : Rat) * |mult.getD c 0|) / scale
      + |zp| ≤ 2 ^ 20)
    (hout : out0.length = p.batches * p.outH * p.outW * p.cout) :
    ∃ out, evalRefInt8Fl R rnd p act mult bias scale zp inp filt out0 = some out ∧ out.length = out0.length ∧
      ∀ b y x c, b < p.batches → y < p.outH → x < p.outW → c < p.cout →
        ∃ v, out[((b * p.outH + y) * p.outW + x) * p.cout + c]? = some v ∧ (-128 ≤ v ∧ v ≤ 127) ∧
          ∀ z : Rat, z = ((act.apply (p.conv p.padVal inp filt b y x c) : Int) * mult.getD c 0 + bias.getD c 0) / scale + zp →
            |v - clampInt8 (rnd' z)| ≤ 1 ∧
            (v ≠ clampInt8 (rnd' z) → ∃ n : Int, |z - ((n : Rat) + 1 / 2)| ≤
              ((|bias.getD c 0| + ((p.filtH * p.filtW * (p.cin / p.groups) : Nat) : Rat) * |mult.getD c 0|) / scale + |zp|)
                * (7 / 2 ^ 24) + 2 ^ (-123 : Int)) := by
  have hev : p.zeroPadding = true → p.cinG % 2 = 0 := by
    intro hz
    unfold BConv.zeroPadding at hz
    simp only [Bool.and_eq_true, decide_eq_true_eq] at hz
    exact cinG_even hok (heven hz.1 hz.2)
  have hKK : p.filtH * p.filtW * (p.cin / p.groups) = p.K := rfl
  rw [hKK] at hK hT hK0
  rw [hKK]
  have key := fun a c ha hc => (int8_key (act := act) (R := R) h32 h64 hs hs2 hK hK0 hmul hT a c ha hc).1
  have hε := fun c hc => (int8_key (act := act) (R := R) h32 h64 hs hs2 hK hK0 hmul hT 0 c (Nat.zero_le _) hc).2.1
  obtain ⟨t, ht, _, _, hrun⟩ := runFloatFl_eq (R := R) (p := p) (act := act) (scale := scale) (zp := zp) hm hb (by omega)
  obtain ⟨out, e1, e2, e3⟩ := reference_rel (act := act) (run := t.runInt8Fl R rnd)
    (f := fun a c => clampInt8 (rnd (flRun R.fl R.fused (((p.K : Int) - act.apply ((p.K : Int) - 2 * a) : Int) : Rat)
          (R.fl (R.dl (R.dl (-1 * mult.getD c 0) / scale)))
          (R.fl (R.dl (R.dl (R.dl (bias.getD c 0 + R.dl (((p.K : Int) : Rat) * mult.getD c 0)) / scale) + zp))))))
    (Rel := fun c w v => (-128 ≤ v ∧ v ≤ 127) ∧ |v - clampInt8 (rnd' (((w : Int) * mult.getD c 0 + bias.getD c 0) / scale + zp))| ≤ 1 ∧
            (v ≠ clampInt8 (rnd' (((w : Int) * mult.getD c 0 + bias.getD c 0) / scale + zp)) →
              ∃ n : Int, |((w : Int) * mult.getD c 0 + bias.getD c 0) / scale + zp - ((n : Rat) + 1 / 2)| ≤
              ((|bias.getD c 0| + (p.K : Rat) * |mult.getD c 0|) / scale + |zp|) * (7 / 2 ^ 24) + 2 ^ (-123 : Int)))
    hok hev
    (fun a c ha hc => by
      unfold OTParams.runInt8Fl
      rw [hrun a c ha hc]
      simp only [Option.bind_eq_bind, Option.bind_some]
      obtain ⟨k1, k2⟩ := key a c ha hc _ rfl
      have k3 := abs_of_sub k1
      have k4 := hε c hc
      have k5 := hrnd (flRun R.fl R.fused (((p.K : Int) - act.apply ((p.K : Int) - 2 * a) : Int) : Rat)
          (R.fl (R.dl (R.dl (-1 * mult.getD c 0) / scale)))
          (R.fl (R.dl (R.dl (R.dl (bias.getD c 0 + R.dl (((p.K : Int) : Rat) * mult.getD c 0)) / scale) + zp))))
      have k6 := abs_of_sub k5
      rw [← Int.cast_abs] at k6
      generalize rnd _ = r at *
      have k7 : (|r| : Int) ≤ 2 ^ 21 := by
        have e21 : ((2 ^ 21 : Int) : Rat) = 2097152 := by norm_num
        have e20 : (2 : Rat) ^ 20 = 1048576 := by norm_num
        rw [e20] at k2
        have : ((|r| : Int) : Rat) ≤ ((2 ^ 21 : Int) : Rat) := by rw [e21]; linarith
        exact_mod_cast this
      have k8 := abs_le.1 k7
      rw [chk32_eq (by omega) (by omega), Option.bind_some, saturate_eq])
    (fun a c ha hc => by
      obtain ⟨k1, k2⟩ := key a c ha hc _ rfl
      have k4 := hε c hc
      exact ⟨⟨(by unfold clampInt8; split_ifs <;> omega), (by unfold clampInt8; split_ifs <;> omega)⟩, round_pair hrnd hrnd' k1 k4⟩) hout
  refine ⟨out, ?_, e2, ?_⟩
  · unfold evalRefInt8Fl
    rw [ht]
    exact e1
  · intro b y x c hb hy hx hc
    obtain ⟨v, v1, v2⟩ := e3 b y x c hb hy hx hc
    refine ⟨v, v1, v2.1, ?_⟩
    rintro z rfl
    exact v2.2

/-- **C59.** int8 output in float arithmetic, for any rounding to a nearest integer: every element differs by at most 1 from
`y = (activation(conv) * multiplier + bias) / scale + zero_point` rounded and saturated; and it differs only if `y` is within
`7 * 2^-24 * T + 2^-123` of a half-integer, `T = (|bias| + K * |multiplier|) / scale + |zero_point|` (at most `2^20`). -/
theorem C59_int8_error (h32 : RoundsToNearest R.fl) (h64 : RoundsToNearest64 R.dl) {rnd : Rat → Int}
    (hrnd : ∀ y : Rat, |(rnd y : Rat) - y| ≤ 1 / 2) {mult bias : List Rat} {scale zp : Rat} {out0 : List Int}
    (hok : p.Ok inp filt) (heven : p.padding = .same → p.padValue = 0 → p.cin % 2 = 0)
    (hm : mult.length = p.cout) (hb : bias.length = p.cout) (hs : (2 : Rat) ^ (-40 : Int) ≤ scale) (hs2 : scale ≤ 2 ^ (40 : Int))
    (hK : 2 * (p.filtH * p.filtW * (p.cin / p.groups)) ≤ 2 ^ 24) (hK0 : 0 < p.filtH * p.filtW * (p.cin / p.groups))
    (hmul : ∀ c, c < p.cout → Binary32 (mult.getD c 0))
    (hT : ∀ c, c < p.cout → (|bias.getD c 0| + ((p.filtH * p.filtW * (p.cin / p.groups) : Nat) : Rat) * |mult.getD c 0|) / scale
      + |zp| ≤ 2 ^ 20)
    (hout : out0.length = p.batches * p.outH * p.outW * p.cout) :
    ∃ out, evalRefInt8Fl R rnd p act mult bias scale zp inp filt out0 = some out ∧ out.length = out0.length ∧
      ∀ b y x c, b < p.batches → y < p.outH → x < p.outW → c < p.cout →
        ∃ v, out[((b * p.outH + y) * p.outW + x) * p.cout + c]? = some v ∧
          ∀ z : Rat, z = ((act.apply (p.conv p.padVal inp filt b y x c) : Int) * mult.getD c 0 + bias.getD c 0) / scale + zp →
            |v - clampInt8 (rnd z)| ≤ 1 ∧
            (v ≠ clampInt8 (rnd z) → ∃ n : Int, |z - ((n : Rat) + 1 / 2)| ≤
              ((|bias.getD c 0| + ((p.filtH * p.filtW * (p.cin / p.groups) : Nat) : Rat) * |mult.getD c 0|) / scale + |zp|)
                * (7 / 2 ^ 24) + 2 ^ (-123 : Int)) := by
  obtain ⟨out, h1, h2, h3⟩ := int8_error_any (act := act) h32 h64 hrnd hrnd hok heven hm hb hs hs2 hK hK0 hmul hT hout
  refine ⟨out, h1, h2, fun b y x c hb' hy hx hc => ?_⟩
  obtain ⟨v, v1, _, v2⟩ := h3 b y x c hb' hy hx hc
  exact ⟨v, v1, v2⟩

end

/-- A float next to 32 is 32. -/
theorem fl_near32 {fl : Rat → Rat} (h : RoundsToNearest fl) {δ : Rat} (hδ : |δ| ≤ 1 / 1073741824) : fl (32 + δ) = 32 := by
  have hd := abs_le.1 hδ
  have hmx : |32 + δ| ≤ maxBinary32 := by
    refine bigF_le ?_
    rw [abs_of_pos (by linarith)]
    linarith [bigF_ge]
  obtain ⟨⟨m, e, h1, h2, h3, h4⟩, h5⟩ := h _ hmx
  have h6 := h5 32 ⟨32, 0, by norm_num, by norm_num, by norm_num, by norm_num⟩
  have e1 : |(32 : Rat) - (32 + δ)| ≤ 1 / 1073741824 := by
    rw [show (32 : Rat) - (32 + δ) = -δ by ring, abs_neg]; exact hδ
  replace h6 := le_trans h6 e1
  have h7 := abs_le.1 h6
  have p0 : (0 : Rat) < 2 ^ e := by positivity
  have he : -18 ≤ e := by
    by_contra hc
    have k1 : (2 : Rat) ^ e ≤ 2 ^ (-19 : Int) := zpow_le_zpow_right₀ (by norm_num) (by omega)
    have k2 : (2 : Rat) ^ (-19 : Int) = 1 / 524288 := by norm_num
    have k3 : (m : Rat) ≤ 16777215 := by
      have : m ≤ 16777215 := by have := (abs_lt.1 h1).2; omega
      exact_mod_cast this
    have : (m : Rat) * 2 ^ e ≤ 16777215 * (1 / 524288) := by
      rw [← k2]
      refine le_trans (mul_le_mul_of_nonneg_right k3 p0.le) (mul_le_mul_of_nonneg_left k1 (by norm_num))
    rw [← h4] at this
    linarith
  obtain ⟨j, hj⟩ := Int.eq_ofNat_of_zero_le (by omega : 0 ≤ e + 18)
  have e2 : (2 : Rat) ^ e = ((2 ^ j : Int) : Rat) * (1 / 262144) := by
    have : e = (j : Int) + -18 := by omega
    rw [this, zpow_add₀ (by norm_num), zpow_natCast]
    push_cast
    norm_num
  have e3 : fl (32 + δ) = ((m * 2 ^ j : Int) : Rat) * (1 / 262144) := by
    rw [h4, e2]; push_cast; ring
  have b1 : (8388608 : Int) ≤ m * 2 ^ j := by
    have : ((8388608 - 1 : Int) : Rat) < ((m * 2 ^ j : Int) : Rat) := by
      have e8 : ((8388608 - 1 : Int) : Rat) = 8388607 := by norm_num
      rw [e8]
      linarith
    have : (8388608 - 1 : Int) < m * 2 ^ j := by exact_mod_cast this
    omega
  have b2 : m * 2 ^ j ≤ 8388608 := by
    have : ((m * 2 ^ j : Int) : Rat) < ((8388608 + 1 : Int) : Rat) := by
      have e8 : ((8388608 + 1 : Int) : Rat) = 8388609 := by norm_num
      rw [e8]
      linarith
    have : m * 2 ^ j < (8388608 + 1 : Int) := by exact_mod_cast this
    omega
  have b3 : m * 2 ^ j = 8388608 := le_antisymm b2 b1
  rw [e3, b3]
  norm_num

/-- The convolution of the witness: one pixel, 32 input channels, one output channel. -/
def cancelConv : BConv := ⟨1, 1, 1, 1, 32, 1, 1, 1, 1, 1, 1, 1, 1, 1, .valid, 0, 0, 0, 1, 1⟩

theorem cancelConv_ok : cancelConv.Ok [0xFFFF0000#32] [0#32] := by
  refine ⟨by decide, by decide, by decide, by decide, by decide, by decide, by decide, by decide, ?_, ?_⟩
  · intro r k b hr hk hb hc; simp [cancelConv] at hk hc; omega
  · intro r k b hr hk hb hc; simp [BConv.cinG, cancelConv] at hk hc; omega

/-- With a tiny bias the output is 0. -/
theorem cancel_zero (R : FlEnv) (h32 : RoundsToNearest R.fl) (h64 : RoundsToNearest64 R.dl) {δ w : Rat}
    (hδ : |δ| ≤ 1 / 1073741824) (d2 : Binary64 (δ + 32)) :
    evalRefFloatFl R cancelConv .none [1] [δ] [0xFFFF0000#32] [0#32] [w] = some [0] := by
  have hok := cancelConv_ok
  have hconv : cancelConv.conv cancelConv.padVal [0xFFFF0000#32] [0#32] 0 0 0 0 = 0 := by decide
  obtain ⟨t, ht, _, _, hrun⟩ := runFloatFl_eq (R := R) (p := cancelConv) (act := .none) (scale := 1) (zp := 0)
    (mult := [1]) (bias := [δ]) rfl rfl (by decide)
  have d1 : Binary64 (32 : Rat) := ⟨32, 0, by norm_num, by norm_num, by norm_num, by norm_num⟩
  have hB : R.fl (R.dl (R.dl (R.dl (δ + R.dl (((32 : Int) : Rat) * 1)) / 1) + 0)) = 32 := by
    have e : ((32 : Int) : Rat) * 1 = 32 := by norm_num
    rw [e, h64.fix' d1, h64.fix' d2, div_one, h64.fix' d2, add_zero, h64.fix' d2, add_comm, fl_near32 h32 hδ]
  have hM : R.fl (R.dl (R.dl (-1 * 1) / 1)) = -1 :=
    fuseMul_float h32 h64 ⟨1, 0, by norm_num, by norm_num, by norm_num, by norm_num⟩
  obtain ⟨out, e1, e2, e3⟩ := reference_rel (act := .none) (out0 := [w]) (Rel := fun _ z v => z = 0 → v = (0 : Rat)) hok
    (by decide) hrun
    (fun a c ha hc => by
      have hc0 : c = 0 := by
        have : c < 1 := hc
        omega
      subst hc0
      intro hz
      have f1 : (([1] : List Rat).getD 0 0) = 1 := rfl
      have f2 : (([δ] : List Rat).getD 0 0) = δ := rfl
      have f3 : ((cancelConv.K : Nat) : Int) = 32 := by decide
      rw [hz, f1, f2, f3, hM, hB, sub_zero]
      have g1 : R.fl ((32 : Int) : Rat) = 32 := by
        have := fl_int h32 (x := 32) (by norm_num)
        rw [this]; norm_num
      have g0 : R.fl 0 = 0 := by
        have := fl_int h32 (x := 0) (by norm_num)
        simpa using this
      have g2 : R.fl (-32) = -32 := by
        have := fl_int h32 (x := -32) (by norm_num)
        have e : ((-32 : Int) : Rat) = -32 := by norm_num
        rwa [e] at this
      unfold flRun
      rw [g1]
      have e : (32 : Rat) * -1 = -32 := by norm_num
      have e' : (-32 : Rat) + 32 = 0 := by norm_num
      cases R.fused
      · simp only [Bool.false_eq_true, if_false]
        rw [e, g2, e', g0]
      · simp only [if_true]
        rw [e, e', g0]) rfl
  obtain ⟨v, v1, v2⟩ := e3 0 0 0 0 (by decide) (by decide) (by decide) (by decide)
  have v3 := v2 (by rw [hconv]; rfl)
  subst v3
  have : out = [0] := by
    rw [show ((0 * cancelConv.outH + 0) * cancelConv.outW + 0) * cancelConv.cout + 0 = 0 from by decide] at v1
    match out, e2, v1 with
    | [w'], _, v1 => simpa using v1
  unfold evalRefFloatFl
  rw [ht, ← this]
  exact e1

/-- **C58**, the error is not relative to the result: a convolution whose exact output is `2^-30`, with multiplier 1 and bias
`2^-30`, gives 0 in every float arithmetic that rounds to nearest, because the fused bias `32 + 2^-30` is rounded to a float. -/
theorem C58_cancellation_witness (R : FlEnv) (h32 : RoundsToNearest R.fl) (h64 : RoundsToNearest64 R.dl) :
    cancelConv.Ok [0xFFFF0000#32] [0#32] ∧
    (Act.none.apply (cancelConv.conv cancelConv.padVal [0xFFFF0000#32] [0#32] 0 0 0 0) : Int) * (1 : Rat) + 2 ^ (-30 : Int)
      = 2 ^ (-30 : Int) ∧
    evalRefFloatFl R cancelConv .none [1] [2 ^ (-30 : Int)] [0xFFFF0000#32] [0#32] [7] = some [0] := by
  have hconv : cancelConv.conv cancelConv.padVal [0xFFFF0000#32] [0#32] 0 0 0 0 = 0 := by decide
  refine ⟨cancelConv_ok, by rw [hconv]; simp [Act.apply], cancel_zero R h32 h64 ?_ ?_⟩
  · rw [abs_of_pos (by positivity)]; norm_num
  · exact ⟨2 ^ 35 + 1, -30, by norm_num, by norm_num, by norm_num, by norm_num⟩

/-! ### Hypotheses are met -/

/-- There is a float arithmetic, with and without fused multiply-add. -/
theorem exists_flEnv (fused : Bool) : ∃ R : FlEnv, RoundsToNearest R.fl ∧ RoundsToNearest64 R.dl ∧ R.fused = fused := by
  obtain ⟨fl, h1⟩ := exists_roundsToNearest
  obtain ⟨dl, h2⟩ := exists_roundsToNearest64
  exact ⟨⟨fl, dl, fused⟩, h1, h2, rfl⟩

/-- C58_float_error, C58_float_exact: multiplier 3/4, bias -5/2 on the witness convolution. -/
example : ∃ R : FlEnv, ∃ out, evalRefFloatFl R cancelConv .relu [3 / 4] [-5 / 2] [0xFF000000#32] [0#32] [7] = some out ∧
    out[0]? = some ((19 : Rat) / 2) := by
  obtain ⟨R, h1, h2, -⟩ := exists_flEnv true
  have hok : cancelConv.Ok [0xFF000000#32] [0#32] := by
    refine ⟨by decide, by decide, by decide, by decide, by decide, by decide, by decide, by decide, ?_, ?_⟩
    · intro r k b hr hk hb hc; simp [cancelConv] at hk hc; omega
    · intro r k b hr hk hb hc; simp [BConv.cinG, cancelConv] at hk hc; omega
  obtain ⟨out, e1, -, e3⟩ := C58_float_exact (R := R) (act := .relu) (mult := [3 / 4]) (bias := [-5 / 2]) (out0 := [7]) h1 h2 hok
    (by decide) rfl rfl (by decide)
    (by
      intro c hc
      have : c = 0 := by
        have : c < 1 := hc
        omega
      subst this
      exact ⟨3, -10, -2, by norm_num, by norm_num, by norm_num, by norm_num, by decide⟩) rfl
  refine ⟨R, out, e1, ?_⟩
  have := e3 0 0 0 0 (by decide) (by decide) (by decide) (by decide)
  rw [show ((0 * cancelConv.outH + 0) * cancelConv.outW + 0) * cancelConv.cout + 0 = 0 from by decide] at this
  rw [this, show cancelConv.conv cancelConv.padVal [0xFF000000#32] [0#32] 0 0 0 0 = 16 from by decide]
  simp [Act.apply]
  norm_num

/-- C59_int8_error: scale 1/3, zero point 4, rounding half away. -/
example : ∃ R : FlEnv, ∃ out, evalRefInt8Fl R roundHalfAway cancelConv .none [1] [1 / 2] (1 / 3) 4 [0xFF000000#32] [0#32] [7] = some out := by
  obtain ⟨R, h1, h2, -⟩ := exists_flEnv false
  have hok : cancelConv.Ok [0xFF000000#32] [0#32] := by
    refine ⟨by decide, by decide, by decide, by decide, by decide, by decide, by decide, by decide, ?_, ?_⟩
    · intro r k b hr hk hb hc; simp [cancelConv] at hk hc; omega
    · intro r k b hr hk hb hc; simp [BConv.cinG, cancelConv] at hk hc; omega
  obtain ⟨out, e1, -, -⟩ := C59_int8_error (R := R) (act := .none) (mult := [1]) (bias := [1 / 2]) (scale := 1 / 3) (zp := 4)
    (out0 := [7]) (rnd := roundHalfAway) h1 h2 (fun y => by
      obtain ⟨b1, b2⟩ := roundHalfAway_near y
      rw [abs_le]; constructor <;> linarith) hok
    (by decide) rfl rfl (by norm_num) (by norm_num) (by decide) (by decide)
    (by
      intro c hc
      have : c = 0 := by
        have : c < 1 := hc
        omega
      subst this
      exact ⟨1, 0, by norm_num, by norm_num, by norm_num, by norm_num⟩)
    (by
      intro c hc
      have : c = 0 := by
        have : c < 1 := hc
        omega
      subst this
      rw [show cancelConv.filtH * cancelConv.filtW * (cancelConv.cin / cancelConv.groups) = 32 from by decide]
      simp only [List.getD_cons_zero]
      norm_num) rfl
  exact ⟨R, out, e1⟩

end Verif
