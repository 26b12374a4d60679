import Verif.Model.OutputTransform
import Verif.Spec.Activation
import Verif.Proof.Reference
import Mathlib.Tactic.FieldSimp
import Mathlib.Tactic.NormNum
import Mathlib.Tactic.Push
import Mathlib.Algebra.Order.BigOperators.Ring.Finset
import Mathlib.Algebra.Order.BigOperators.Group.Finset
import Mathlib.Algebra.Order.Ring.Abs

/-! The fused output transform. -/

namespace Verif

open Finset

theorem chk32_eq {x : Int} (h1 : -2147483648 ≤ x) (h2 : x < 2147483648) : chk32 x = some x := by
  unfold chk32; exact if_pos ⟨h1, h2⟩

theorem otFuse_eq {p : BConv} {k : Int} {mult bias : List Rat} {scale zp : Rat}
    (hm : mult.length = p.cout) (hb : bias.length = p.cout) :
    ∃ m b, otFuse p k mult bias scale zp = some (m, b) ∧
      (∀ i, i < p.cout → m[i]? = some (-1 * mult.getD i 0 / scale)) ∧
      (∀ i, i < p.cout → b[i]? = some ((bias.getD i 0 + (k : Rat) * mult.getD i 0) / scale + zp)) ∧
      m.length = p.cout + 4 ∧ b.length = p.cout + 4 := by
  have := forN_inv (n := p.cout)
    (body := fun i (s : List Rat × List Rat) => do
      let postMul ← rd mult i
      let postBias ← rd bias i
      let m ← wr s.1 i (-1 * postMul / scale)
      let b ← wr s.2 i ((postBias + (k : Rat) * postMul) / scale + zp)
      some (m, b))
    (s := (List.replicate (p.cout + 4) 0, List.replicate (p.cout + 4) 0))
    (fun n s =>
      (∀ i, i < n → s.1[i]? = some (-1 * mult.getD i 0 / scale)) ∧
      (∀ i, i < n → s.2[i]? = some ((bias.getD i 0 + (k : Rat) * mult.getD i 0) / scale + zp)) ∧
      s.1.length = p.cout + 4 ∧ s.2.length = p.cout + 4)
    (by simp)
    (by
      rintro n ⟨m, b⟩ hn ⟨h1, h2, h3, h4⟩
      simp only at h1 h2 h3 h4
      have e1 : rd mult n = some (mult.getD n 0) := by simp [rd, hm, hn]
      have e2 : rd bias n = some (bias.getD n 0) := by simp [rd, hb, hn]
      have l1 : n < m.length := by omega
      have l2 : n < b.length := by omega
      refine ⟨(m.set n (-1 * mult.getD n 0 / scale),
        b.set n ((bias.getD n 0 + (k : Rat) * mult.getD n 0) / scale + zp)), ?_, ?_, ?_, ?_, ?_⟩
      · simp only [e1, e2, Option.bind_eq_bind, Option.bind_some, wr, if_pos l1, if_pos l2]
      · intro i hi
        rcases Nat.lt_succ_iff_lt_or_eq.1 hi with h | h
        · simp only [List.getElem?_set_ne (show n ≠ i by omega)]; exact h1 i h
        · subst h; simp only [List.getElem?_set_self l1]
      · intro i hi
        rcases Nat.lt_succ_iff_lt_or_eq.1 hi with h | h
        · simp only [List.getElem?_set_ne (show n ≠ i by omega)]; exact h2 i h
        · subst h; simp only [List.getElem?_set_self l2]
      · simp [h3]
      · simp [h4])
  obtain ⟨⟨m, b⟩, h, h1, h2, h3, h4⟩ := this
  exact ⟨m, b, h, h1, h2, h3, h4⟩

theorem clamp_none {K a M lo : Int} (_ha0 : 0 ≤ a) (ha : a ≤ K) (h1 : K ≤ M) (h2 : lo ≤ -K) :
    max (min (a * 2) (-1 * max lo (-1 * K) + K)) (-1 * min M K + K) = K - (K - 2 * a) := by omega

theorem clamp_relu {K a M : Int} (ha0 : 0 ≤ a) (ha : a ≤ K) (h1 : K ≤ M) :
    max (min (a * 2) (-1 * max 0 (-1 * K) + K)) (-1 * min M K + K) = K - max (K - 2 * a) 0 := by
  omega

theorem clamp_relu6 {K a : Int} (ha0 : 0 ≤ a) (ha : a ≤ K) :
    max (min (a * 2) (-1 * max 0 (-1 * K) + K)) (-1 * min 6 K + K)
      = K - min (max (K - 2 * a) 0) 6 := by omega

theorem clamp_reluN1 {K a : Int} (ha0 : 0 ≤ a) (ha : a ≤ K) :
    max (min (a * 2) (-1 * max (-1) (-1 * K) + K)) (-1 * min 1 K + K)
      = K - min (max (K - 2 * a) (-1)) 1 := by omega

/-- The clamp after setup, on doubled accumulators, is the activation on `K - 2*accum`. -/
theorem clamp_eq (act : Act) {K a : Nat} (hK : 2 * K < 2147483648) (ha : a ≤ K) :
    max (min (((a : Int)) * 2) (-1 * max (activationRange act).1 (-1 * (K : Int)) + K))
        (-1 * min (activationRange act).2 (K : Int) + K)
      = K - act.apply (K - 2 * a) := by
  have h1 : (K : Int) ≤ 2147483647 := by omega
  have h2 : (-2147483648 : Int) ≤ -K := by omega
  cases act
  · exact clamp_none (by omega) (by omega) h1 h2
  · exact clamp_relu (by omega) (by omega) h1
  · exact clamp_reluN1 (by omega) (by omega)
  · exact clamp_relu6 (by omega) (by omega)
  · exact clamp_none (by omega) (by omega) h1 h2

theorem actRange_sign (act : Act) : (activationRange act).1 ≤ 0 ∧ 0 ≤ (activationRange act).2 := by
  cases act <;> decide

theorem otSetup_eq {p : BConv} {act : Act} {mult bias : List Rat} {scale zp : Rat} {k : Int}
    {m b : List Rat} (hk : k = p.K) (hK : 2 * k < 2147483648)
    (hf : otFuse p k mult bias scale zp = some (m, b)) :
    otSetup p act mult bias scale zp = some ⟨-1 * min (activationRange act).2 k + k,
      -1 * max (activationRange act).1 (-1 * k) + k, m, b⟩ := by
  have hk0 : 0 ≤ k := by rw [hk]; exact Int.natCast_nonneg _
  have hs := actRange_sign act
  have c1 : chk32 ((p.filtH * p.filtW * (p.cin / p.groups) : Nat) : Int) = some k := by
    have : ((p.filtH * p.filtW * (p.cin / p.groups) : Nat) : Int) = k := by rw [hk]; rfl
    rw [this]; exact chk32_eq (by omega) (by omega)
  have c2 : chk32 (-1 * min (activationRange act).2 k + k)
      = some (-1 * min (activationRange act).2 k + k) := chk32_eq (by omega) (by omega)
  have c3 : chk32 (-1 * max (activationRange act).1 (-1 * k) + k)
      = some (-1 * max (activationRange act).1 (-1 * k) + k) := chk32_eq (by omega) (by omega)
  unfold otSetup
  simp only [c1, Option.bind_eq_bind, Option.bind_some, hf, c2, c3]

theorem linear_algebra (k r : Int) (m b s zp : Rat) (hs : s ≠ 0) :
    ((k - r : Int) : Rat) * (-1 * m / s) + ((b + (k : Rat) * m) / s + zp)
      = ((r : Rat) * m + b) / s + zp := by
  rw [Int.cast_sub]
  field_simp
  ring

theorem linear_val {t : OTParams} {a c : Nat} {x : Int} {m b : Rat}
    (c1 : chk32 (a : Int) = some (a : Int)) (c2 : chk32 ((a : Int) * 2) = some ((a : Int) * 2))
    (hx : max (min ((a : Int) * 2) t.clampMax) t.clampMin = x)
    (hm : t.multiplier[c]? = some m) (hb : t.bias[c]? = some b) :
    t.linear a c = some ((x : Rat) * m + b) := by
  unfold OTParams.linear
  simp only [c1, c2, Option.bind_eq_bind, Option.bind_some, rd, hm, hb, hx]

/-- Setup succeeds and the linear part of `Run` is the documented transform. -/
theorem linear_eq {p : BConv} {act : Act} {mult bias : List Rat} {scale zp : Rat}
    (hm : mult.length = p.cout) (hb : bias.length = p.cout) (hs : scale ≠ 0)
    (hK : 2 * p.K < 2147483648) :
    ∃ t, otSetup p act mult bias scale zp = some t ∧
      ∀ a c, a ≤ p.K → c < p.cout →
        t.linear a c = some (((act.apply ((p.K : Int) - 2 * a) : Int) * mult.getD c 0
          + bias.getD c 0) / scale + zp) := by
  obtain ⟨m, b, hf, h1, h2, _, _⟩ := otFuse_eq (p := p) (k := (p.K : Int)) (scale := scale) (zp := zp) hm hb
  refine ⟨_, otSetup_eq rfl (by omega) hf, ?_⟩
  intro a c ha hc
  have c1 : chk32 (a : Int) = some (a : Int) := chk32_eq (by omega) (by omega)
  have c2 : chk32 ((a : Int) * 2) = some ((a : Int) * 2) := chk32_eq (by omega) (by omega)
  have hcl := clamp_eq act hK ha
  rw [linear_val c1 c2 hcl (h1 c hc) (h2 c hc), linear_algebra _ _ _ _ _ _ hs]

theorem runFloat_eq {p : BConv} {act : Act} {mult bias : List Rat}
    (hm : mult.length = p.cout) (hb : bias.length = p.cout) (hK : 2 * p.K < 2147483648) :
    ∃ t, otSetup p act mult bias 1 0 = some t ∧
      ∀ a c, a ≤ p.K → c < p.cout →
        t.runFloat a c = some ((act.apply ((p.K : Int) - 2 * a) : Int) * mult.getD c 0
          + bias.getD c 0) := by
  obtain ⟨t, h1, h2⟩ := linear_eq (p := p) (act := act) (scale := 1) (zp := 0) hm hb one_ne_zero hK
  refine ⟨t, h1, fun a c ha hc => ?_⟩
  unfold OTParams.runFloat
  rw [h2 a c ha hc]
  simp

namespace BConv

variable {p : BConv} {inp filt : List Word}

theorem abs_pm_le (l : List Word) (cols r c : Nat) : |pm l cols r c| ≤ 1 := by
  unfold pm signVal; split <;> simp

theorem abs_inputAt_le {pad : Int} (hp : |pad| ≤ 1) (b : Nat) (y x : Int) (c : Nat) :
    |p.inputAt pad inp b y x c| ≤ 1 := by
  unfold inputAt
  split
  · exact abs_pm_le _ _ _ _
  · exact hp

theorem abs_conv_le {pad : Int} (hp : |pad| ≤ 1) (b oy ox oc : Nat) :
    |p.conv pad inp filt b oy ox oc| ≤ p.K := by
  have hKs : (p.K : Int) = ∑ _fy ∈ range p.filtH, ∑ _fx ∈ range p.filtW, ∑ _c ∈ range p.cinG, (1 : Int) := by
    simp [K, mul_assoc]
  unfold conv
  rw [hKs]
  refine (abs_sum_le_sum_abs _ _).trans (sum_le_sum fun fy _ => ?_)
  refine (abs_sum_le_sum_abs _ _).trans (sum_le_sum fun fx _ => ?_)
  refine (abs_sum_le_sum_abs _ _).trans (sum_le_sum fun c _ => ?_)
  rw [abs_mul]
  exact mul_le_one₀ (abs_inputAt_le hp _ _ _ _) (abs_nonneg _) (abs_pm_le _ _ _ _)

/-- The padding value the reference kernel implements: 0 for zero padding, else +1. -/
def padVal (p : BConv) : Int := if p.zeroPadding then 0 else 1

theorem accRef_eq_conv (h : p.Ok inp filt) (heven : p.zeroPadding = true → p.cinG % 2 = 0)
    {b oy ox oc : Nat} (hb : b < p.batches) (hoc : oc < p.cout) :
    (p.K : Int) - 2 * (p.accRef inp filt b oy ox oc : Int) = p.conv p.padVal inp filt b oy ox oc := by
  unfold padVal
  cases hz : p.zeroPadding with
  | true => exact accRef_eq_conv_zero h hz (heven hz) hb hoc
  | false => rw [accRef_eq_acc hz]; exact acc_eq_conv h hb hoc

theorem accRef_le (h : p.Ok inp filt) (heven : p.zeroPadding = true → p.cinG % 2 = 0)
    {b oy ox oc : Nat} (hb : b < p.batches) (hoc : oc < p.cout) :
    p.accRef inp filt b oy ox oc ≤ p.K := by
  have h1 := accRef_eq_conv h heven (oy := oy) (ox := ox) hb hoc
  have hp : |p.padVal| ≤ 1 := by unfold padVal; split <;> simp
  have h2 := abs_le.1 (abs_conv_le (p := p) (inp := inp) (filt := filt) hp b oy ox oc)
  omega

theorem acc_le (h : p.Ok inp filt) {b oy ox oc : Nat} (hb : b < p.batches) (hoc : oc < p.cout) :
    p.acc inp filt b oy ox oc ≤ p.K := by
  have h1 := acc_eq_conv h (oy := oy) (ox := ox) hb hoc
  have h2 := abs_le.1 (abs_conv_le (p := p) (inp := inp) (filt := filt) (pad := 1) (by simp) b oy ox oc)
  omega

end BConv

end Verif
