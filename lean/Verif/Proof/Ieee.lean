import Verif.Spec.Ieee
import Verif.Spec.OutputBits
import Verif.Proof.F32Val
import Verif.Proof.FloatOutput

/-!
Bit-level floats and their values.
-/

namespace Verif

namespace F32

theorem magN_surj (j : Nat) : ∀ n : Nat, j ≤ 253 → n < 2 ^ 24 → ∃ k, k < 255 * 2 ^ 23 ∧ magN k = (n : Rat) * 2 ^ ((j : Int) - 149) := by
  have big : ∀ (j n : Nat), j ≤ 253 → n < 2 ^ 24 → 2 ^ 23 ≤ n →
      ∃ k, k < 255 * 2 ^ 23 ∧ magN k = (n : Rat) * 2 ^ ((j : Int) - 149) := by
    intro j n hj hn h
    refine ⟨(j + 1) * 2 ^ 23 + (n - 2 ^ 23), by omega, ?_⟩
    have e1 : ((j + 1) * 2 ^ 23 + (n - 2 ^ 23)) / 2 ^ 23 = j + 1 := by omega
    have e2 : ((j + 1) * 2 ^ 23 + (n - 2 ^ 23)) % 2 ^ 23 = n - 2 ^ 23 := by omega
    have e3 : 2 ^ 23 + (n - 2 ^ 23) = n := by omega
    unfold magN magOf
    rw [e1, e2, if_neg (by omega), e3]
    have e4 : ((j + 1 : Nat) : Int) - 150 = (j : Int) - 149 := by push_cast; ring
    rw [e4]
  induction j with
  | zero =>
    intro n hj hn
    by_cases h : 2 ^ 23 ≤ n
    · exact big 0 n hj hn h
    · refine ⟨n, by omega, ?_⟩
      have e1 : n / 2 ^ 23 = 0 := by omega
      have e2 : n % 2 ^ 23 = n := by omega
      unfold magN magOf
      rw [e1, e2, if_pos rfl]
      rfl
  | succ j ih =>
    intro n hj hn
    by_cases h : 2 ^ 23 ≤ n
    · exact big (j + 1) n hj hn h
    · obtain ⟨k, k1, k2⟩ := ih (2 * n) (by omega) (by omega)
      refine ⟨k, k1, ?_⟩
      rw [k2]
      have e : ((j + 1 : Nat) : Int) - 149 = (j : Int) - 149 + 1 := by push_cast; ring
      rw [e, zpow_add₀ (by norm_num)]
      push_cast
      ring

/-- Every binary32 number is the value of a finite float. -/
theorem val_surj {x : Rat} (h : Binary32 x) : ∃ w : F32, F32.Finite w ∧ F32.val w = x := by
  obtain ⟨m, e, h1, h2, h3, rfl⟩ := h
  obtain ⟨k, k1, k2⟩ := magN_surj (e + 149).toNat m.natAbs (by omega) (by have := abs_lt.1 h1; omega)
  have ee : (((e + 149).toNat : Nat) : Int) - 149 = e := by omega
  rw [ee] at k2
  have fin : ∀ w : F32, w.toNat % 2 ^ 31 = k → F32.Finite w := by
    intro w hw hc
    have hc := congrArg BitVec.toNat hc
    rw [BitVec.extractLsb'_toNat] at hc
    simp only [Nat.shiftRight_eq_div_pow, BitVec.toNat_ofNat] at hc
    omega
  have low : ∀ w : F32, w.toNat % 2 ^ 31 = k → (w.extractLsb' 0 31).toNat = k := by
    intro w hw
    rw [BitVec.extractLsb'_toNat]
    simpa using hw
  rcases le_total 0 m with hm | hm
  · have hw : (BitVec.ofNat 32 k).toNat % 2 ^ 31 = k := by rw [BitVec.toNat_ofNat]; omega
    refine ⟨BitVec.ofNat 32 k, fin _ hw, ?_⟩
    have hmsb : (BitVec.ofNat 32 k).msb = false := by
      rw [BitVec.msb_eq_decide, BitVec.toNat_ofNat]
      simp only [decide_eq_false_iff_not]
      omega
    have hn : (m.natAbs : Rat) = (m : Rat) := by
      have : ((m.natAbs : Int) : Rat) = (m : Rat) := by rw [Int.natAbs_of_nonneg hm]
      rw [← this, Int.cast_natCast]
    rw [val_eq, hmsb, low _ hw, k2, hn]
    simp
  · have hw : (BitVec.ofNat 32 (2 ^ 31 + k)).toNat % 2 ^ 31 = k := by rw [BitVec.toNat_ofNat]; omega
    refine ⟨BitVec.ofNat 32 (2 ^ 31 + k), fin _ hw, ?_⟩
    have hmsb : (BitVec.ofNat 32 (2 ^ 31 + k)).msb = true := by
      rw [BitVec.msb_eq_decide, BitVec.toNat_ofNat]
      simp only [decide_eq_true_eq]
      omega
    have hn : (m.natAbs : Rat) = -(m : Rat) := by
      have : ((m.natAbs : Int) : Rat) = ((-m : Int) : Rat) := by
        congr 1
        omega
      rw [← Int.cast_neg, ← this, Int.cast_natCast]
    rw [val_eq, hmsb, low _ hw, k2, hn]
    simp

end F32

/-- There are float instructions that meet the specification, for every rounding to nearest. -/
theorem exists_ieee {fl : Rat → Rat} (h : RoundsToNearest fl) : ∃ F : FOps, F.Ieee fl := by
  classical
  let enc : Rat → F32 := fun x => if hx : Binary32 x then (F32.val_surj hx).choose else 0#32
  have henc : ∀ x, Binary32 x → F32.Finite (enc x) ∧ F32.val (enc x) = x := by
    intro x hx
    show F32.Finite (dite _ _ _) ∧ F32.val (dite _ _ _) = x
    rw [dif_pos hx]
    exact (F32.val_surj hx).choose_spec
  refine ⟨⟨fun x => enc (fl (x.toInt : Rat)), fun a b => enc (fl (F32.val a * F32.val b)), fun a b => enc (fl (F32.val a + F32.val b)),
    fun a => BitVec.ofInt 32 (max (-2147483648) (min 2147483647 (roundHalfEven (F32.val a)))), id⟩, ?_, ?_, ?_, ?_⟩
  · intro x
    refine henc _ (h _ ?_).1
    have h1 := BitVec.toInt_lt (x := x)
    have h2 := BitVec.le_toInt (x := x)
    refine le_trans (b := (2147483648 : Rat)) ?_ (le_trans ?_ big_le_max)
    · rw [← Int.cast_abs]
      have : |x.toInt| ≤ 2147483648 := abs_le.2 ⟨by omega, by omega⟩
      exact_mod_cast this
    · norm_num
  · intro a b _ _ hr
    exact henc _ (h _ hr).1
  · intro a b _ _ hr
    exact henc _ (h _ hr).1
  · intro a _
    show (BitVec.ofInt 32 _).toInt = _
    generalize roundHalfEven (F32.val a) = z
    rw [BitVec.toInt_ofInt]
    unfold Int.bmod
    simp only [Nat.reducePow, Int.cast_ofNat_Int]
    split <;> omega

/-- The words of a setup exist: rounded numbers are floats. -/
theorem exists_holdsFloats {n : Nat} {xs : List Rat} (hn : n ≤ xs.length) (h : ∀ x ∈ xs, Binary32 x) :
    ∃ ws : List Word, ws.length = xs.length ∧ HoldsFloats n ws xs := by
  induction xs generalizing n with
  | nil => exact ⟨[], rfl, fun c hc => by simp at hn; omega⟩
  | cons x xs ih =>
    obtain ⟨w, w1, w2⟩ := F32.val_surj (h x (by simp))
    obtain ⟨ws, e1, e2⟩ := ih (n := n - 1) (by simp at hn; omega) (fun y hy => h y (by simp [hy]))
    refine ⟨w :: ws, by simp [e1], ?_⟩
    intro c hc
    cases c with
    | zero => exact ⟨w, by simp, w1, by simp [w2]⟩
    | succ c =>
      obtain ⟨v, v1, v2, v3⟩ := e2 c (by omega)
      exact ⟨v, by simpa using v1, v2, by simpa using v3⟩

/-- On stored parameters the bit-level transform computes the float of `runFloatFl`, when nothing overflows. -/
theorem runFloatBits_val {F : FOps} {R : FlEnv} (hF : F.Ieee R.fl) (hfu : R.fused = false) {p : BConv} {act : Act}
    {mult bias : List Rat} {scale zp : Rat} {cmin cmax : Int} {mw bw : List Word}
    (hm : mult.length = p.cout) (hb : bias.length = p.cout) (hK : 2 * p.K < 2147483648)
    (hst : StoredSetup R p act mult bias scale zp cmin cmax mw bw)
    (hrange : ∀ a c : Nat, a ≤ p.K → c < p.cout → ∀ x : Int, x = (p.K : Int) - act.apply ((p.K : Int) - 2 * a) →
      |R.fl x * R.fl (R.dl (R.dl (-1 * mult.getD c 0) / scale))| ≤ maxBinary32 ∧
      |R.fl (R.fl x * R.fl (R.dl (R.dl (-1 * mult.getD c 0) / scale))) +
        R.fl (R.dl (R.dl (R.dl (bias.getD c 0 + R.dl (((p.K : Int) : Rat) * mult.getD c 0)) / scale) + zp))| ≤ maxBinary32) :
    ∃ t, otSetupFl R p act mult bias scale zp = some t ∧ ∀ a c, a ≤ p.K → c < p.cout →
      ∃ w, runFloatBits F cmin cmax mw bw a c = some w ∧ F32.Finite w ∧ t.runFloatFl R a c = some (F32.val w) := by
  obtain ⟨t, ht, -, -, hrun, hmu, hbi, hcl⟩ := runFloatFl_full (R := R) (p := p) (act := act) (scale := scale) (zp := zp) hm hb hK
  obtain ⟨t', ht', rfl, rfl, hmw, hbw⟩ := hst
  rw [ht] at ht'
  cases ht'
  refine ⟨t, ht, ?_⟩
  intro a c ha hc
  obtain ⟨wm, m1, m2, m3⟩ := hmw c hc
  obtain ⟨wb, b1, b2, b3⟩ := hbw c hc
  rw [hmu c hc] at m3
  rw [hbi c hc] at b3
  have m4 := Option.some.inj m3
  have b4 := Option.some.inj b3
  obtain ⟨r1, r2⟩ := hrange a c ha hc _ rfl
  obtain ⟨x0, x1⟩ := apply_range act ha
  rw [hrun a c ha hc]
  have c1 : chk32 (a : Int) = some (a : Int) := chk32_eq (by omega) (by omega)
  have c2 : chk32 ((a : Int) * 2) = some ((a : Int) * 2) := chk32_eq (by omega) (by omega)
  unfold runFloatBits
  simp only [c1, c2, rd, Option.bind_eq_bind, Option.bind_some, m1, b1, hcl a ha]
  generalize (p.K : Int) - act.apply ((p.K : Int) - 2 * a) = x at *
  have hx : (BitVec.ofInt 32 x).toInt = x := by
    rw [BitVec.toInt_ofInt]
    unfold Int.bmod
    simp only [Nat.reducePow, Int.cast_ofNat_Int]
    split <;> omega
  obtain ⟨s1, s2⟩ := hF.scvtf (BitVec.ofInt 32 x)
  rw [hx] at s2
  rw [m4] at r1 r2 ⊢
  rw [b4] at r2 ⊢
  obtain ⟨p1, p2⟩ := hF.fmul (F.scvtf (BitVec.ofInt 32 x)) wm s1 m2 (by rw [s2]; exact r1)
  rw [s2] at p2
  obtain ⟨q1, q2⟩ := hF.fadd (F.fmul (F.scvtf (BitVec.ofInt 32 x)) wm) wb p1 b2 (by rw [p2]; exact r2)
  rw [p2] at q2
  refine ⟨_, rfl, q1, ?_⟩
  rw [q2]
  unfold flRun
  rw [hfu]
  rfl

end Verif
