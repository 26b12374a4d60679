import Verif.Props.QuantPatterns
import Verif.Props.BMaxPool
import Verif.Proof.Ieee
import Mathlib.Tactic.IntervalCases
import Verif.Spec.F32Sub

/-! C32 and C33, on the bit patterns of floats: every float including infinities, NaN and overflowing differences, and exactly for
which values the rewrites keep the meaning. -/

namespace Verif

/-- Equal quantized tensors have equal signs. -/
theorem quantize_inj {shape : List Nat} {cols : Nat} {x y : TData} {out0 out1 q : List Word} {junk junk' : Word}
    (hs : shape.getLast? = some cols)
    (hx : x.size = shape.dropLast.prod * cols) (hy : y.size = shape.dropLast.prod * cols) (hxz : x.zpOk) (hyz : y.zpOk)
    (h0 : out0.length = shape.dropLast.prod * ((cols + 31) / 32))
    (h1 : out1.length = shape.dropLast.prod * ((cols + 31) / 32))
    (e0 : quantizeEval shape x out0 junk = some q) (e1 : quantizeEval shape y out1 junk' = some q) :
    ∀ i, i < shape.dropLast.prod * cols → (x.neg i ↔ y.neg i) := by
  intro i hi
  obtain ⟨q1, a1, a2⟩ := C01_quantize_bits (out0 := out0) (junk := junk) hs hx h0 hxz
  obtain ⟨q2, b1, b2⟩ := C01_quantize_bits (out0 := out1) (junk := junk') hs hy h1 hyz
  rw [e0] at a1; cases a1
  rw [e1] at b1; cases b1
  obtain ⟨hr, hc⟩ := mod_lt_of_lt_mul hi
  obtain ⟨w, k1, k2⟩ := a2 _ _ hr hc
  obtain ⟨w', k1', k2'⟩ := b2 _ _ hr hc
  rw [k1] at k1'; cases k1'
  rw [div_mul_add_mod] at k2 k2'
  rw [← k2, ← k2']

namespace F32

theorem not_negative_of_nan {x : F32} (hx : x.isNaN = true) : ¬ F32.negative x := by
  intro h
  rw [h.1] at hx
  cases hx

theorem ge_iff {a b : F32} (ha : a.isNaN = false) (hb : b.isNaN = false) : F32.ge a b = true ↔ b.key ≤ a.key := by
  unfold ge F32.lt
  rw [ha, hb]
  simp

theorem ge_nan {a b : F32} (h : a.isNaN = true ∨ b.isNaN = true) : F32.ge a b = false := by
  unfold ge
  rcases h with h | h <;> simp [h]

/-- A float is finite, an infinity or NaN. -/
theorem trichotomy (x : F32) : (x.isNaN = false ∧ x.Finite) ∨ (x.isNaN = false ∧ x.isInf) ∨ x.isNaN = true := by
  cases hn : x.isNaN
  · by_cases hf : x.Finite
    · exact Or.inl ⟨rfl, hf⟩
    · refine Or.inr (Or.inl ⟨rfl, ?_⟩)
      unfold Finite at hf
      rw [not_not] at hf
      unfold isNaN at hn
      rw [hf] at hn
      simp only [beq_self_eq_true, Bool.true_and, Bool.not_eq_false', beq_iff_eq] at hn
      have key : ∀ i, i < 31 → x.getLsbD i = (0x7F800000#32).getLsbD i := by
        intro i hi
        by_cases h23 : i < 23
        · have := congrArg (fun v => v.getLsbD i) hn
          simp only [BitVec.getLsbD_extractLsb', h23, decide_true, Bool.true_and, Nat.zero_add, BitVec.getLsbD_zero] at this
          rw [this]
          interval_cases i <;> rfl
        · have := congrArg (fun v => v.getLsbD (i - 23)) hf
          have h8 : i - 23 < 8 := by omega
          simp only [BitVec.getLsbD_extractLsb', h8, decide_true, Bool.true_and] at this
          rw [show 23 + (i - 23) = i by omega] at this
          rw [this]
          interval_cases i <;> rfl
      cases hm : x.getLsbD 31
      · left
        apply BitVec.eq_of_getLsbD_eq
        intro i hi
        by_cases h31 : i < 31
        · exact key i h31
        · have : i = 31 := by omega
          subst this; rw [hm]; rfl
      · right
        apply BitVec.eq_of_getLsbD_eq
        intro i hi
        by_cases h31 : i < 31
        · rw [key i h31]
          interval_cases i <;> rfl
        · have : i = 31 := by omega
          subst this; rw [hm]; rfl
  · exact Or.inr (Or.inr rfl)

/-- Infinities are beyond every finite number. -/
theorem key_abs_lt {x : F32} (h : x.Finite) : x.key < 0x7F800000 ∧ -0x7F800000 < x.key := by
  have hlt : (x.extractLsb' 0 31).toNat < 0x7F800000 := by
    have e : (x.extractLsb' 0 31).toNat = (x.extractLsb' 23 8).toNat * 2 ^ 23 + (x.extractLsb' 0 23).toNat := by
      simp only [BitVec.extractLsb'_toNat, Nat.shiftRight_eq_div_pow]
      omega
    have h1 : (x.extractLsb' 23 8).toNat ≠ 255 := fun he => h (BitVec.eq_of_toNat_eq he)
    have h2 := (x.extractLsb' 23 8).isLt
    have h3 := (x.extractLsb' 0 23).isLt
    omega
  unfold key
  split <;> omega

end F32

/-- **C33, one comparison.** `a >= b` and the sign of the machine's `a - b` are encoded by the same bit exactly when neither is NaN
(for NaN the comparison is encoded as -1, the difference as +1). -/
theorem C33_ge_bit_iff {sub : F32 → F32 → F32} {fl : Rat → Rat} (hfl : RoundsToNearest fl) (hsub : F32.IeeeSub sub fl) (a b : F32) :
    (F32.ge a b = false ↔ F32.negative (sub a b)) ↔ a.isNaN = false ∧ b.isNaN = false := by
  constructor
  · intro h
    by_contra hc
    have hn : a.isNaN = true ∨ b.isNaN = true := by
      cases h1 : a.isNaN
      · cases h2 : b.isNaN
        · exact absurd ⟨h1, h2⟩ hc
        · exact Or.inr rfl
      · exact Or.inl rfl
    exact F32.not_negative_of_nan (hsub.nan a b hn) (h.1 (F32.ge_nan hn))
  · rintro ⟨ha, hb⟩
    rw [← Bool.not_eq_true, F32.ge_iff ha hb, not_le]
    have hpk : F32.key 0x7F800000#32 = 0x7F800000 := by decide
    have hnk : F32.key 0xFF800000#32 = -0x7F800000 := by decide
    rcases F32.trichotomy a with ⟨_, fa⟩ | ⟨_, ia⟩ | na
    · rcases F32.trichotomy b with ⟨_, fb⟩ | ⟨_, ib⟩ | nb
      · rw [← F32.val_lt_iff]
        by_cases ho : |a.val - b.val| ≤ maxBinary32
        · obtain ⟨s1, s2⟩ := hsub.finite a b fa fb ho
          rw [F32.negative_iff s1, s2]
          have := hfl.sum_neg (F32.val_binary32 fa) (F32.val_binary32 fb).neg (by rw [← sub_eq_add_neg]; exact ho)
          rw [← sub_eq_add_neg] at this
          rw [this, sub_neg]
        · have h := hsub.overflow a b fa fb (not_le.1 ho)
          by_cases hl : a.val < b.val
          · rw [if_pos hl] at h
            refine ⟨fun _ => ?_, fun _ => hl⟩
            rcases h with h | h <;> rw [h] <;> decide
          · rw [if_neg hl] at h
            refine ⟨fun h' => absurd h' hl, fun h' => ?_⟩
            rcases h with h | h <;> rw [h] at h' <;> exact absurd h' (by decide)
      · rw [hsub.inf_right a b fa ib]
        have := F32.key_abs_lt fa
        rcases ib with rfl | rfl
        · rw [hpk]
          exact ⟨fun _ => by decide, fun _ => this.1⟩
        · rw [hnk]
          exact ⟨fun h => by omega, fun h => absurd h (by decide)⟩
      · rw [hb] at nb; cases nb
    · by_cases hab : b = a
      · subst hab
        refine ⟨fun h => absurd h (lt_irrefl _), fun h => absurd h (F32.not_negative_of_nan (hsub.inf_inf b ia))⟩
      · rw [hsub.inf_left a b ia hb hab, F32.negative_iff_key ha]
        have hbk : (b.Finite) ∨ b.isInf := by
          rcases F32.trichotomy b with ⟨_, fb⟩ | ⟨_, ib⟩ | nb
          · exact Or.inl fb
          · exact Or.inr ib
          · rw [hb] at nb; cases nb
        have hkb : (a = 0x7F800000#32 → b.key < 0x7F800000) ∧ (a = 0xFF800000#32 → -0x7F800000 < b.key) := by
          rcases hbk with fb | ib
          · have := F32.key_abs_lt fb
            exact ⟨fun _ => this.1, fun _ => this.2⟩
          · rcases ib with rfl | rfl
            · refine ⟨fun h => absurd h.symm hab, fun _ => by rw [hpk]; omega⟩
            · refine ⟨fun _ => by rw [hnk]; omega, fun h => absurd h.symm hab⟩
        rcases ia with rfl | rfl
        · have := hkb.1 rfl
          rw [hpk]; omega
        · have := hkb.2 rfl
          rw [hnk]; omega
    · rw [ha] at na; cases na

/-- **C33, comparisons on floats, exact.** For all tensors of floats (any bit patterns) with compatible shapes,
`LceQuantize(x >= t)` and `LceQuantize(x - t)` with the machine's subtraction are the same packed tensor if and only if no element
of the two broadcast operands is NaN. -/
theorem C33_greater_equal_ieee {sub : F32 → F32 → F32} {fl : Rat → Rat} (hfl : RoundsToNearest fl) (hsub : F32.IeeeSub sub fl)
    {x t d : TensOf F32} {g : TensOf Bool}
    (hg : broadcastG F32.zero F32.zero F32.ge x t = some g) (hd : broadcastG F32.zero F32.zero sub x t = some d) {cols : Nat}
    (hs : g.shape.getLast? = some cols) {out0 out1 : List Word} {junk junk' : Word}
    (h0 : out0.length = g.shape.dropLast.prod * ((cols + 31) / 32))
    (h1 : out1.length = g.shape.dropLast.prod * ((cols + 31) / 32)) :
    d.shape = g.shape ∧
    ((∃ q, quantizeEval g.shape (.bool g.data) out0 junk = some q ∧ quantizeEval d.shape (.f32 d.data) out1 junk' = some q) ↔
      (∀ v ∈ (broadcastTo F32.zero x g.shape).data, v.isNaN = false) ∧
      (∀ v ∈ (broadcastTo F32.zero t g.shape).data, v.isNaN = false)) := by
  unfold broadcastG at hg hd
  rw [Option.map_eq_some_iff] at hg hd
  obtain ⟨rs, hrs, rfl⟩ := hg
  obtain ⟨rs', hrs', rfl⟩ := hd
  rw [hrs] at hrs'; cases hrs'
  refine ⟨rfl, ?_⟩
  simp only at hs h0 h1
  have hsz := prod_dropLast hs
  have hrp : rs.reverse.prod = rs.prod := prod_reverse' rs
  have hneg : ∀ i, i < rs.prod → (((TData.bool ((List.range rs.prod).map fun n =>
        F32.ge (x.data.getD (bidxR rs x.shape.reverse n) F32.zero) (t.data.getD (bidxR rs t.shape.reverse n) F32.zero))).neg i ↔
      (TData.f32 ((List.range rs.prod).map fun n =>
        sub (x.data.getD (bidxR rs x.shape.reverse n) F32.zero) (t.data.getD (bidxR rs t.shape.reverse n) F32.zero))).neg i) ↔
      F32.isNaN (x.data.getD (bidxR rs x.shape.reverse i) F32.zero) = false ∧
      F32.isNaN (t.data.getD (bidxR rs t.shape.reverse i) F32.zero) = false) := by
    intro i hi
    rw [← C33_ge_bit_iff hfl hsub]
    simp only [TData.neg]
    rw [List.getElem?_map, List.getElem?_map, List.getElem?_range hi]
    simp only [Option.map_some, Option.some.injEq, exists_eq_left']
  have hbt : ∀ y : TensOf F32, (∀ v ∈ (broadcastTo F32.zero y rs.reverse).data, v.isNaN = false) ↔
      ∀ i, i < rs.prod → F32.isNaN (y.data.getD (bidxR rs y.shape.reverse i) F32.zero) = false := by
    intro y
    unfold broadcastTo
    simp only [List.mem_map, List.mem_range, List.reverse_reverse]
    rw [hrp]
    exact ⟨fun h i hi => h _ ⟨i, hi, rfl⟩, fun h v ⟨i, hi, e⟩ => e ▸ h i hi⟩
  change _ ↔ (∀ v ∈ (broadcastTo F32.zero x rs.reverse).data, v.isNaN = false) ∧
    (∀ v ∈ (broadcastTo F32.zero t rs.reverse).data, v.isNaN = false)
  rw [hbt, hbt]
  constructor
  · rintro ⟨q, e0, e1⟩
    have h := quantize_inj (x := .bool _) (y := .f32 _) hs (by rw [hsz, hrp]; simp [TData.size]) (by rw [hsz, hrp]; simp [TData.size]) trivial trivial h0 h1 e0 e1
    rw [hsz, hrp] at h
    exact ⟨fun i hi => ((hneg i hi).1 (h i hi)).1, fun i hi => ((hneg i hi).1 (h i hi)).2⟩
  · rintro ⟨hx, ht⟩
    refine quantize_congr hs (by rw [hsz, hrp]; simp [TData.size]) (by rw [hsz, hrp]; simp [TData.size]) trivial trivial h0 h1 ?_
    intro i hi
    rw [hsz, hrp] at hi
    exact (hneg i hi).2 ⟨hx i hi, ht i hi⟩

/-- **C33, zero threshold on floats, exact.** Comparing with a zero of either sign, which the rewrite drops, gives the bit of the
float itself exactly when it is not NaN. -/
theorem C33_ge_zero_bit_iff {a z : F32} (hz : z = 0#32 ∨ z = 0x80000000#32) :
    (F32.ge a z = false ↔ F32.negative a) ↔ a.isNaN = false := by
  have hzn : z.isNaN = false := by rcases hz with rfl | rfl <;> decide
  have hzk : z.key = 0 := by rcases hz with rfl | rfl <;> decide
  constructor
  · intro h
    by_contra hc
    rw [Bool.not_eq_false] at hc
    exact F32.not_negative_of_nan hc (h.1 (F32.ge_nan (Or.inl hc)))
  · intro ha
    rw [← Bool.not_eq_true, F32.ge_iff ha hzn, hzk, not_le, F32.negative_iff_key ha]

/-- Subtractions that meet the specification exist, for every rounding to nearest. -/
theorem exists_ieeeSub {fl : Rat → Rat} (h : RoundsToNearest fl) : ∃ sub : F32 → F32 → F32, F32.IeeeSub sub fl := by
  classical
  let enc : Rat → F32 := fun x => if hx : Binary32 x then (F32.val_surj hx).choose else 0#32
  have henc : ∀ x, Binary32 x → F32.Finite (enc x) ∧ F32.val (enc x) = x := by
    intro x hx
    show F32.Finite (dite _ _ _) ∧ F32.val (dite _ _ _) = x
    rw [dif_pos hx]
    exact (F32.val_surj hx).choose_spec
  have infNaN : ∀ a : F32, a.isInf → a.isNaN = false := by rintro a (rfl | rfl) <;> decide
  have infFin : ∀ a : F32, a.isInf → ¬ a.Finite := by rintro a (rfl | rfl) <;> decide
  have finInf : ∀ a : F32, a.Finite → ¬ a.isInf := fun a h1 h2 => infFin a h2 h1
  have finNaN : ∀ a : F32, a.Finite → a.isNaN = false := by
    intro a ha
    unfold F32.isNaN
    have : (BitVec.extractLsb' 23 8 a == 0xFF#8) = false := beq_false_of_ne ha
    rw [this]; rfl
  refine ⟨fun a b => if a.isNaN = true ∨ b.isNaN = true ∨ (a.isInf ∧ b = a) then 0x7FC00000#32 else if a.isInf then a
    else if b.isInf then b.negate else if |a.val - b.val| ≤ maxBinary32 then enc (fl (a.val - b.val))
    else if a.val < b.val then 0xFF800000#32 else 0x7F800000#32, ?_, ?_, ?_, ?_, ?_, ?_⟩
  · intro a b hn
    beta_reduce
    rw [if_pos (or_assoc.1 (Or.inl hn))]; decide
  · intro a hi
    beta_reduce
    rw [if_pos (Or.inr (Or.inr ⟨hi, rfl⟩))]; decide
  · intro a b hi hb hne
    beta_reduce
    rw [if_neg (by rw [infNaN a hi, hb]; simp [hne]), if_pos hi]
  · intro a b ha hb
    beta_reduce
    rw [if_neg (by rw [finNaN a ha, infNaN b hb]; simp [finInf a ha]), if_neg (finInf a ha), if_pos hb]
  · intro a b ha hb hr
    beta_reduce
    rw [if_neg (by rw [finNaN a ha, finNaN b hb]; simp [finInf a ha]), if_neg (finInf a ha), if_neg (finInf b hb), if_pos hr]
    exact henc _ (h _ hr).1
  · intro a b ha hb hr
    beta_reduce
    have hn : ¬ (a.isNaN = true ∨ b.isNaN = true ∨ (a.isInf ∧ b = a)) := by
      rw [finNaN a ha, finNaN b hb]; simp [finInf a ha]
    by_cases hl : a.val < b.val
    · rw [if_pos hl, if_neg hn, if_neg (finInf a ha), if_neg (finInf b hb), if_neg (not_le.2 hr), if_pos hl]; exact Or.inr rfl
    · rw [if_neg hl, if_neg hn, if_neg (finInf a ha), if_neg (finInf b hb), if_neg (not_le.2 hr), if_neg hl]; exact Or.inr rfl

/-- Non-vacuity and a concrete violation: the hypotheses hold for a real machine; for `inf >= inf`, `1 >= -1` and an overflowing
difference the bits agree, for `NaN >= 0` they differ. -/
example {fl : Rat → Rat} (hfl : RoundsToNearest fl) : ∃ sub, F32.IeeeSub sub fl ∧
    (F32.ge 0x7F800000#32 0x7F800000#32 = false ↔ F32.negative (sub 0x7F800000#32 0x7F800000#32)) ∧
    (F32.ge 0xFF7FFFFF#32 0x7F7FFFFF#32 = false ↔ F32.negative (sub 0xFF7FFFFF#32 0x7F7FFFFF#32)) ∧
    F32.ge 0xFF7FFFFF#32 0x7F7FFFFF#32 = false ∧
    ¬ (F32.ge 0x7FC00000#32 0#32 = false ↔ F32.negative (sub 0x7FC00000#32 0#32)) := by
  obtain ⟨sub, hs⟩ := exists_ieeeSub hfl
  refine ⟨sub, hs, (C33_ge_bit_iff hfl hs _ _).2 (by decide), (C33_ge_bit_iff hfl hs _ _).2 (by decide), by decide, ?_⟩
  rw [C33_ge_bit_iff hfl hs]; decide

/-- Non-vacuity of `C33_greater_equal_ieee`: broadcasting a threshold per channel. -/
example : (broadcastG F32.zero F32.zero F32.ge ⟨[2, 2], [F32.one, F32.negOne, 0x7F800000#32, 0x7FC00000#32]⟩ ⟨[2], [F32.zero, F32.one]⟩) =
    some ⟨[2, 2], [true, false, true, false]⟩ := by decide +kernel

/-! ### C32, exact -/

/-- **C32, exact.** For a constant `c` of finite floats that broadcasts into the shape of `x`, `Sign(Sign(x) + c)` with the machine's
addition is `LceDequantize(LceQuantize(x))` for every tensor of finite floats `x` of that shape if and only if every element of the
(broadcast) constant is strictly between 0 and 1. -/
theorem C32_sign_exact {fl : Rat → Rat} (hfl : RoundsToNearest fl) {shape : List Nat} {cols : Nat} {c : Tens}
    (hs : shape.getLast? = some cols) (hc : c.Wf) (hcb : ∀ v ∈ c.data, Binary32 v)
    (hb : bshapeR shape.reverse c.shape.reverse = some shape.reverse)
    {out0 : List Word} {y0 : List F32} {junk : Word}
    (h0 : out0.length = shape.dropLast.prod * ((cols + 31) / 32)) (hy : y0.length = shape.dropLast.prod * cols) :
    (∀ xs : List F32, xs.length = shape.prod → (∀ v ∈ xs, v.Finite) →
      ∃ q y, quantizeEval shape (.f32 xs) out0 junk = some q ∧ dequantizeEvalF32 shape q y0 = some y ∧
        signGraph fl ⟨shape, xs.map F32.val⟩ c = some ⟨shape, y.map F32.val⟩) ↔
    ∀ v ∈ (broadcastTo 0 c shape).data, 0 < v ∧ v < 1 := by
  have hsz : shape.dropLast.prod * cols = shape.prod := prod_dropLast hs
  obtain ⟨_, hcomp⟩ := bshapeR_compat hb
  have hmem : ∀ i, i < shape.prod → c.data.getD (bidxR shape.reverse c.shape.reverse i) 0 ∈ c.data := by
    intro i hi
    have hb := bidxR_lt hcomp (n := i) (by rw [prod_reverse']; exact hi)
    rw [prod_reverse', ← hc] at hb
    generalize bidxR shape.reverse c.shape.reverse i = k at hb
    have hk : c.data.getD k 0 = c.data[k] := by simp [hb]
    rw [hk]; exact List.getElem_mem hb
  have hgraph : ∀ xs : List F32, signGraph fl ⟨shape, xs.map F32.val⟩ c =
      some ⟨shape, ((List.range shape.prod).map fun n => tfSign (fl (((xs.map F32.val).map tfSign).getD n 0 +
        c.data.getD (bidxR shape.reverse c.shape.reverse n) 0)))⟩ := by
    intro xs
    unfold signGraph broadcastOp broadcastG
    simp only [TensOf.map, hb, Option.map_some, List.reverse_reverse, prod_reverse', List.map_map]
    refine congrArg some (congrArg (TensOf.mk shape) ?_)
    refine List.map_congr_left ?_
    intro n hn
    rw [List.mem_range] at hn
    simp only [Function.comp]
    rw [bidxR_full _ _ (by rw [prod_reverse']; exact hn)]
  have hneg : ∀ (xs : List F32) (i : Nat) (hi : i < xs.length), (∀ v ∈ xs, v.Finite) →
      ((TData.f32 xs).neg i ↔ xs[i].val < 0) := by
    intro xs i hi hf
    rw [← F32.negative_iff (hf xs[i] (List.getElem_mem hi))]
    simp [TData.neg, hi]
  constructor
  · intro h v hv
    simp only [broadcastTo, List.mem_map, List.mem_range] at hv
    obtain ⟨i, hi, rfl⟩ := hv
    have hvb := hcb _ (hmem i hi)
    generalize hve : c.data.getD (bidxR shape.reverse c.shape.reverse i) 0 = v at hvb
    have use : ∀ w : F32, w.Finite → tfSign (fl (tfSign w.val + v)) = if w.val < 0 then -1 else 1 := by
      intro w hw
      have hfin : ∀ u ∈ List.replicate shape.prod w, u.Finite := fun u hu => by rw [(List.mem_replicate.1 hu).2]; exact hw
      obtain ⟨q, y, e1, e2, e3⟩ := h (List.replicate shape.prod w) (by simp) hfin
      obtain ⟨q', y', d1, d2, d3⟩ := dequantize_quantize_val (x := .f32 (List.replicate shape.prod w)) (junk := junk) hs
        (by rw [hsz]; simp [TData.size]) trivial h0 hy (r := List.replicate shape.prod (if w.val < 0 then -1 else 1))
        (by simp [hsz]) (by
          intro k u hu
          obtain ⟨hk, hu⟩ := List.getElem?_eq_some_iff.1 hu
          rw [List.length_replicate] at hk
          rw [List.getElem_replicate] at hu
          rw [hneg _ k (by simpa using hk) hfin, List.getElem_replicate, ← hu]
          by_cases hl : w.val < 0
          · exact Or.inl ⟨hl, if_pos hl⟩
          · exact Or.inr ⟨hl, if_neg hl⟩)
      rw [e1] at d1; cases d1
      rw [e2] at d2; cases d2
      rw [hgraph, d3] at e3
      have e4 := congrArg (fun o : Option Tens => (o.map fun t => t.data[i]?)) e3
      simp only [Option.map_some, Option.some.injEq, List.getElem?_map, List.getElem?_range hi, List.getElem?_replicate, hi, if_true] at e4
      rw [hve] at e4
      have e5 : (List.map tfSign (List.map F32.val (List.replicate shape.prod w))).getD i 0 = tfSign w.val := by simp [hi]
      rw [e5] at e4
      exact e4
    have u0 := use F32.zero (by decide)
    have u1 := use F32.negOne (by decide)
    have z : F32.val F32.zero = 0 := by decide +kernel
    have n1 : F32.val F32.negOne = -1 := F32.val_negOne
    have s0 : tfSign 0 = 0 := by decide +kernel
    have s1 : tfSign (-1) = -1 := by decide +kernel
    rw [z, s0, if_neg (by norm_num), zero_add, hfl.fix hvb] at u0
    rw [n1, s1, if_pos (by norm_num)] at u1
    have pos : 0 < v := by
      rcases tfSign_cases v with h | h | h
      · rw [h.2] at u0; norm_num at u0
      · rw [h.2] at u0; norm_num at u0
      · exact h.1
    refine ⟨pos, ?_⟩
    have one : Binary32 1 := by
      have := Binary32.int (n := 1) (by norm_num)
      simpa using this
    have hr : |(-1 : Rat) + v| ≤ maxBinary32 := by
      have := hvb.le_max
      have h1 := one.le_max
      rw [abs_of_pos pos] at this
      rw [abs_le]
      constructor
      · rw [abs_one] at h1; linarith
      · linarith
    rcases tfSign_cases (fl (-1 + v)) with h | h | h
    · have := (hfl.sum_neg one.neg hvb hr).1 h.1
      linarith
    · rw [h.2] at u1; norm_num at u1
    · rw [h.2] at u1; norm_num at u1
  · intro h xs hx hfin
    obtain ⟨q, y, h1, h2, h3⟩ := dequantize_quantize_val (x := .f32 xs) (junk := junk) hs (by rw [hsz]; exact hx) trivial h0 hy
      (r := (List.range shape.prod).map fun n => tfSign (fl (((xs.map F32.val).map tfSign).getD n 0 +
        c.data.getD (bidxR shape.reverse c.shape.reverse n) 0))) (by simp [hsz]) (by
      intro i v hv
      obtain ⟨hi, rfl⟩ := getElem?_range_map hv
      have hi' : i < xs.length := by omega
      obtain ⟨b2, b3⟩ := h _ (List.mem_map.2 ⟨i, List.mem_range.2 hi, rfl⟩)
      have hxi : ((xs.map F32.val).map tfSign).getD i 0 = tfSign (xs[i].val) := by simp [hi']
      rw [hxi, sign_add_rounded hfl (hcb _ (hmem i hi)) b2 b3, hneg xs i hi' hfin]
      by_cases h : xs[i].val < 0
      · exact Or.inl ⟨h, if_pos h⟩
      · exact Or.inr ⟨h, if_neg h⟩)
    exact ⟨q, y, h1, h2, by rw [hgraph, h3]⟩

/-- Non-vacuity of `C32_sign_exact`. -/
example : bshapeR ([2, 3] : List Nat).reverse ([3] : List Nat).reverse = some ([2, 3] : List Nat).reverse := by decide

/-! ### C33, Select by rows, exact -/

/-- **C33, Select by rows.** With a vector condition of length `d` for operands of shape `d :: ds` with at least one element, the
replacement has the value of the select for every condition if and only if `d = 1`. (`d` at least 2 is not a corner case: it is
every batch.) -/
theorem C33_select_rows_iff {d : Nat} {ds : List Nat} (hds : ds ≠ []) (hd : 0 < (d :: ds).prod)
    (hlast : (d :: ds).getLast? = some d ∨ d = 1)
    {x y : Tens} (hx : x.shape = d :: ds) (hy : y.shape = d :: ds) (hw : x.Wf ∧ y.Wf)
    (hc : isConstantValue x.data 1 = true ∧ isConstantValue y.data (-1) = true) :
    (∀ cond : List Bool, cond.length = d → ∃ r b, selectV1 ⟨[d], cond⟩ x y = some r ∧ wherePattern ⟨[d], cond⟩ x y r.shape = some b ∧
      r.data = b.data.map fun v => if v then 1 else -1) ↔ d = 1 := by
  have hrow : ∀ cond : List Bool, selectV1 ⟨[d], cond⟩ x y = some ⟨d :: ds, (List.range (d :: ds).prod).map fun n =>
      if cond.getD (n / ds.prod) false then x.data.getD n 0 else y.data.getD n 0⟩ := by
    intro cond
    unfold selectV1
    have h1 : ¬ ([d] : List Nat) = d :: ds := by
      intro h
      rw [List.cons.injEq] at h
      exact hds h.2.symm
    simp only [hx, hy, ne_eq, not_true, if_false, h1, reduceCtorEq, if_true]
  have hpat : ∀ cond : List Bool, wherePattern ⟨[d], cond⟩ x y (d :: ds) = some (broadcastTo false ⟨[d], cond⟩ (d :: ds)) := by
    intro cond
    unfold wherePattern
    rw [if_pos hc]
  have hdata : ∀ n, n < (d :: ds).prod → x.data.getD n 0 = 1 ∧ y.data.getD n 0 = -1 := by
    intro n hn
    exact ⟨isConstantValue_getD' hc.1 (by rw [hw.1, hx]; exact hn), isConstantValue_getD' hc.2 (by rw [hw.2, hy]; exact hn)⟩
  rw [List.prod_cons] at hd
  have hdsp : 0 < ds.prod := Nat.pos_of_mul_pos_left hd
  have hdp : 0 < d := Nat.pos_of_mul_pos_right hd
  constructor
  · intro h
    by_contra hne
    have hl : (d :: ds).getLast? = some d := hlast.resolve_right hne
    have hlast' : ds.getLast? = some d := by
      cases ds with
      | nil => exact absurd rfl hds
      | cons a as => simpa using hl
    have hge : 2 ≤ ds.prod := by
      have := prod_dropLast hlast'
      have : d ∣ ds.prod := ⟨_, (Nat.mul_comm _ _ ▸ this).symm⟩
      have := Nat.le_of_dvd hdsp this
      omega
    obtain ⟨r, b, e1, e2, e3⟩ := h (true :: List.replicate (d - 1) false) (by simp; omega)
    rw [hrow] at e1; cases e1
    rw [hpat] at e2; cases e2
    have h1 : 1 < (d :: ds).prod := by
      rw [List.prod_cons]
      have := Nat.mul_le_mul hdp hge
      omega
    have e4 := congrArg (fun l => l[1]?) e3
    simp only [broadcastTo, List.getElem?_map, List.getElem?_range h1, Option.map_some, Option.some.injEq] at e4
    obtain ⟨x1, y1⟩ := hdata 1 h1
    rw [x1, y1, show 1 / ds.prod = 0 from Nat.div_eq_of_lt hge] at e4
    have hrev : ∃ rs, (d :: ds).reverse = d :: rs := by
      have : (d :: ds).reverse.head? = some d := by rw [List.head?_reverse]; exact hl
      cases hr : (d :: ds).reverse with
      | nil => rw [hr] at this; cases this
      | cons a as => rw [hr] at this; simp at this; exact ⟨as, by rw [this]⟩
    obtain ⟨rs, hrs⟩ := hrev
    have hbi : bidxR (d :: ds).reverse ([d] : List Nat).reverse 1 = 1 := by
      rw [hrs]
      simp only [List.reverse_cons, List.reverse_nil, List.nil_append, bidxR]
      rw [if_neg hne, Nat.mod_eq_of_lt (by omega)]
      cases rs <;> simp [bidxR]
    rw [hbi] at e4
    have g0 : (true :: List.replicate (d - 1) false).getD 0 false = true := rfl
    have g1 : (true :: List.replicate (d - 1) false).getD 1 false = false := by
      rw [List.getD_cons_succ]
      cases d - 1 <;> rfl
    rw [g0, g1] at e4
    norm_num at e4
  · rintro rfl cond hcond
    refine ⟨_, _, hrow cond, hpat cond, ?_⟩
    simp only [broadcastTo, List.map_map]
    refine List.map_congr_left ?_
    intro n hn
    rw [List.mem_range] at hn
    obtain ⟨x1, y1⟩ := hdata n hn
    simp only [Function.comp]
    rw [x1, y1]
    have h0 : n / ds.prod = 0 := Nat.div_eq_of_lt (by rw [List.prod_cons] at hn; omega)
    have hbi : ∀ rs, bidxR rs ([1] : List Nat).reverse n = 0 := by
      intro rs
      cases rs with
      | nil => rfl
      | cons a as =>
        simp [bidxR]
    simp only [h0, hbi]

/-- Non-vacuity: two images of two channels; the condition `[true, false]` breaks it. -/
example : (([2, 2] : List Nat).getLast? = some 2) ∧ 0 < ([2, 2] : List Nat).prod ∧
    isConstantValue [1, 1, 1, 1] 1 = true ∧ isConstantValue [-1, -1, -1, -1] (-1) = true := by decide +kernel

end Verif
