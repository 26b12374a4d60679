import Verif.Model.BinaryFilter
import Verif.Spec.FloatConv
import Verif.Spec.BConvOp
import Verif.Props.Thresholds
import Mathlib.Algebra.Order.BigOperators.Group.Finset
import Mathlib.Tactic.Linarith
import Mathlib.Tactic.Ring
import Mathlib.Tactic.FieldSimp

/-! C31: a Conv2D with a binary filter becomes a BConv2D. -/

namespace Verif

open Finset

theorem getElem?_flatMap_range {α : Type} {g : Nat → List α} {c : Nat} (hc : ∀ i, (g i).length = c) : ∀ {n i j : Nat}, i < n →
    j < c → ((List.range n).flatMap g)[i * c + j]? = (g i)[j]?
  | n + 1, i, j, hi, hj => by
    have hlen : ∀ m, ((List.range m).flatMap g).length = m * c := by
      intro m
      induction m with
      | zero => simp
      | succ m ih => rw [List.range_succ, List.flatMap_append, List.length_append, ih]; simp [hc, Nat.add_mul]
    rw [List.range_succ, List.flatMap_append]
    by_cases h : i < n
    · have hle : (i + 1) * c ≤ n * c := Nat.mul_le_mul_right _ h
      rw [Nat.add_mul, Nat.one_mul] at hle
      rw [List.getElem?_append_left (by rw [hlen]; omega)]
      exact getElem?_flatMap_range hc h hj
    · have hin : i = n := by omega
      subst hin
      rw [List.getElem?_append_right (by rw [hlen]; omega), hlen, Nat.add_sub_cancel_left]
      simp

/-- **C31, layout.** `hwio` is the position of an element in a filter that lists its rows, in each row its columns, in each
column its input channels and for each of them its output channels. -/
theorem C31_layout (F : Nat → Nat → Nat → Nat → Rat) {kh kw ci co h w i o : Nat} (hh : h < kh) (hw : w < kw) (hi : i < ci)
    (ho : o < co) :
    ((List.range kh).flatMap fun h => (List.range kw).flatMap fun w => (List.range ci).flatMap fun i =>
      (List.range co).map fun o => F h w i o).getD (hwio kw ci co h w i o) 0 = F h w i o := by
  have l1 : ∀ h w i, ((List.range co).map fun o => F h w i o).length = co := by intros; simp
  have l2 : ∀ h w, ((List.range ci).flatMap fun i => (List.range co).map fun o => F h w i o).length = ci * co := by
    intros; simp
  have l3 : ∀ h, ((List.range kw).flatMap fun w => (List.range ci).flatMap fun i => (List.range co).map fun o => F h w i o).length =
      kw * (ci * co) := by intros; simp
  have b1 : i * co + o < ci * co := by
    have : (i + 1) * co ≤ ci * co := Nat.mul_le_mul_right _ hi
    rw [Nat.add_mul, Nat.one_mul] at this
    omega
  have b2 : w * (ci * co) + (i * co + o) < kw * (ci * co) := by
    have : (w + 1) * (ci * co) ≤ kw * (ci * co) := Nat.mul_le_mul_right _ hw
    rw [Nat.add_mul, Nat.one_mul] at this
    omega
  have e : hwio kw ci co h w i o = h * (kw * (ci * co)) + (w * (ci * co) + (i * co + o)) := by unfold hwio; ring
  rw [List.getD_eq_getElem?_getD, e, getElem?_flatMap_range l3 hh b2, getElem?_flatMap_range (l2 h) hw b1,
    getElem?_flatMap_range (l1 h w) hi ho, List.getElem?_map, List.getElem?_range ho]
  rfl


/-- What `IsBinaryFilter` establishes. -/
theorem isBinaryFilter_iff {kh kw ci co : Nat} {f : List Rat} :
    isBinaryFilter kh kw ci co f = true ↔ ∀ h w i o, h < kh → w < kw → i < ci → o < co →
      floatEpsilon < |f.getD (hwio kw ci co 0 0 0 o) 0| ∧
      |(|f.getD (hwio kw ci co h w i o) 0 / f.getD (hwio kw ci co 0 0 0 o) 0|) - 1| ≤ tolerance := by
  unfold isBinaryFilter
  simp only [List.all_eq_true, List.mem_range]
  constructor
  · intro hh h w i o h1 h2 h3 h4
    have := hh h h1 w h2 i h3 o h4
    split at this
    · simp at this
    · split at this
      · simp at this
      · exact ⟨lt_of_not_ge ‹_›, le_of_not_gt ‹_›⟩
  · intro hh h h1 w h2 i h3 o h4
    obtain ⟨a, b⟩ := hh h w i o h1 h2 h3 h4
    rw [if_neg (not_le.2 a), if_neg (not_lt.2 b)]

/-- An accepted value: non-zero, and its magnitude is close to that of the scale. -/
theorem accepted_value {v s : Rat} (hs : floatEpsilon < |s|) (h : |(|v / s|) - 1| ≤ tolerance) :
    v ≠ 0 ∧ abs (|v| - |s|) ≤ tolerance * |s| := by
  have hp : 0 < |s| := lt_trans (by norm_num [floatEpsilon]) hs
  have e : |v / s| * |s| = |v| := by
    rw [abs_div, div_mul_cancel₀ _ hp.ne']
  constructor
  · rintro rfl
    simp only [zero_div, abs_zero, zero_sub, abs_neg, abs_one] at h
    exact absurd h (by norm_num [tolerance])
  · have : |v| - |s| = (|v / s| - 1) * |s| := by rw [sub_mul, e, one_mul]
    rw [this, abs_mul, abs_abs]
    exact mul_le_mul_of_nonneg_right h hp.le

theorem scaleVector_getD {kw ci co : Nat} {f : List Rat} {o : Nat} (h : o < co) :
    (scaleVector kw ci co f).getD o 0 = |f.getD (hwio kw ci co 0 0 0 o) 0| := by
  simp [scaleVector, h]

theorem preparedFilter_getD {p : BConv} {f : List Rat} {oc fy fx c : Nat} (h1 : oc < p.cout) (h2 : fy < p.filtH)
    (h3 : fx < p.filtW) (h4 : c < p.cinG) :
    (preparedFilter p.filtH p.filtW p.cinG p.cout f).getD (p.wIdx oc fy fx c) 0 =
      f.getD (hwio p.filtW p.cinG p.cout fy fx c oc) 0 / |f.getD (hwio p.filtW p.cinG p.cout 0 0 0 oc) 0| := by
  have hlt := BConv.wIdx_lt h1 h2 h3 h4
  unfold preparedFilter
  rw [List.getD_eq_getElem?_getD, getElem?_map_range' hlt, Option.getD_some]
  unfold BConv.wIdx
  simp only [(div_mod_row h4).1, (div_mod_row h4).2, (div_mod_row h3).1, (div_mod_row h3).2,
    (div_mod_row h2).1, (div_mod_row h2).2]
  rw [scaleVector_getD h1]
where
  getElem?_map_range' {g : Nat → Rat} {n i : Nat} (h : i < n) : ((List.range n).map g)[i]? = some (g i) := by
    simp [h]

theorem abs_pm (packed : List Word) (cols r c : Nat) : |(pm packed cols r c : Rat)| = 1 := by
  unfold pm signVal
  split <;> simp

theorem abs_inputAt_le (p : BConv) (inp : List Word) (b : Nat) (y x : Int) (c : Nat) :
    |(p.inputAt p.padVal inp b y x c : Rat)| ≤ 1 := by
  unfold BConv.inputAt
  split
  · rw [abs_pm]
  · unfold BConv.padVal
    split <;> simp

/-- The rational sign. -/
theorem sign_div {v s : Rat} (hs : 0 < s) : (v / s < 0) ↔ v < 0 := by
  constructor
  · intro h
    by_contra hv
    have := div_nonneg (not_lt.1 hv) hs.le
    linarith
  · intro h; exact div_neg_of_neg_of_pos h hs

/-- **C31.** Take a Conv2D of a ±1 tensor with an HWIO filter `f` that `IsBinaryFilter` accepts. The BConv2D
built from it (sign filter, bitpacked; multiplier the per-channel scale; bias 0; no activation) computes in every
output element the value of the Conv2D up to `tolerance` (just below 0.5%) times the scale times the number of
filter elements, and exactly that value for every output channel whose filter elements all have the same
magnitude. This holds for VALID padding, one-padding and zero-padding. -/
theorem C31_binary_filter {p : BConv} {inp : List Word} {f out0 : List Rat} {junk : Word}
    (hacc : isBinaryFilter p.filtH p.filtW p.cinG p.cout f = true)
    (hpos : 0 < p.filtH ∧ 0 < p.filtW ∧ 0 < p.cinG)
    (hin : ∀ filt, IsPacked (p.cout * p.filtH * p.filtW) p.cinG filt → p.Ok inp filt)
    (heven : p.padding = .same → p.padValue = 0 → p.cin % 2 = 0)
    (hK : 2 * (p.filtH * p.filtW * (p.cin / p.groups)) < 2147483648)
    (hout : out0.length = p.batches * p.outH * p.outW * p.cout) :
    ∃ filt out, bitpackConst p.cout p.filtH p.filtW p.cinG
        (preparedFilter p.filtH p.filtW p.cinG p.cout f) junk = some filt ∧
      evalRefFloat p .none (scaleVector p.filtW p.cinG p.cout f) (List.replicate p.cout 0) inp filt out0 = some out ∧
      out.length = out0.length ∧
      ∀ b y x o, b < p.batches → y < p.outH → x < p.outW → o < p.cout → ∃ v,
        out[((b * p.outH + y) * p.outW + x) * p.cout + o]? = some v ∧
        |v - p.floatConv p.padVal inp (fun fy fx c oc => f.getD (hwio p.filtW p.cinG p.cout fy fx c oc) 0) b y x o|
          ≤ tolerance * |f.getD (hwio p.filtW p.cinG p.cout 0 0 0 o) 0| * (p.filtH * p.filtW * p.cinG : Nat) ∧
        ((∀ fy fx c, fy < p.filtH → fx < p.filtW → c < p.cinG →
            |f.getD (hwio p.filtW p.cinG p.cout fy fx c o) 0| = |f.getD (hwio p.filtW p.cinG p.cout 0 0 0 o) 0|) →
          v = p.floatConv p.padVal inp (fun fy fx c oc => f.getD (hwio p.filtW p.cinG p.cout fy fx c oc) 0) b y x o) := by
  obtain ⟨filt, hf1, hf2, hf3⟩ := bitpackConst_weight (p := p) (junk := junk)
    (w := preparedFilter p.filtH p.filtW p.cinG p.cout f) (by simp [preparedFilter])
  have hok := hin filt hf2
  have heven' : p.zeroPadding = true → p.cinG % 2 = 0 := by
    intro hz
    unfold BConv.zeroPadding at hz
    simp only [Bool.and_eq_true, decide_eq_true_eq] at hz
    exact cinG_even hok (heven hz.1 hz.2)
  obtain ⟨out, ho1, ho2, ho3⟩ := evalRefFloat_eq (act := .none) (mult := scaleVector p.filtW p.cinG p.cout f)
    (bias := List.replicate p.cout 0) hok heven' (by simp [scaleVector]) (by simp) hK hout
  refine ⟨filt, out, hf1, ho1, ho2, fun b y x o hb hy hx ho => ⟨_, ho3 b y x o hb hy hx ho, ?_⟩⟩
  rw [isBinaryFilter_iff] at hacc
  have hs := (hacc 0 0 0 o hpos.1 hpos.2.1 hpos.2.2 ho).1
  have hsp : 0 < |f.getD (hwio p.filtW p.cinG p.cout 0 0 0 o) 0| := lt_trans (by norm_num [floatEpsilon]) hs
  have hbz : (List.replicate p.cout (0 : Rat)).getD o 0 = 0 := by simp [ho]
  rw [hbz, scaleVector_getD ho, add_zero]
  simp only [Act.apply]
  generalize hS : |f.getD (hwio p.filtW p.cinG p.cout 0 0 0 o) 0| = S at *
  -- the weights
  have hw : ∀ fy fx c, fy < p.filtH → fx < p.filtW → c < p.cinG →
      |(p.weight filt o fy fx c : Rat) * S - f.getD (hwio p.filtW p.cinG p.cout fy fx c o) 0| =
        |(|f.getD (hwio p.filtW p.cinG p.cout fy fx c o) 0|) - S| := by
    intro fy fx c h1 h2 h3
    rw [hf3 o fy fx c ho h1 h2 h3, preparedFilter_getD ho h1 h2 h3, hS]
    generalize f.getD (hwio p.filtW p.cinG p.cout fy fx c o) 0 = v
    by_cases hv : v < 0
    · rw [if_pos ((sign_div hsp).2 hv), abs_of_neg hv]
      push_cast
      rw [show (-1 : Rat) * S - v = -v - S by ring]
    · rw [if_neg (fun h => hv ((sign_div hsp).1 h)), abs_of_nonneg (not_lt.1 hv)]
      push_cast
      rw [one_mul, abs_sub_comm]
  have hconv : ((p.conv p.padVal inp filt b y x o : Int) : Rat) * S -
      p.floatConv p.padVal inp (fun fy fx c oc => f.getD (hwio p.filtW p.cinG p.cout fy fx c oc) 0) b y x o =
      ∑ fy ∈ range p.filtH, ∑ fx ∈ range p.filtW, ∑ c ∈ range p.cinG,
        (p.inputAt p.padVal inp b ((y : Int) * p.strideH - p.padH + p.dilH * fy)
          ((x : Int) * p.strideW - p.padW + p.dilW * fx) (o / (p.cout / p.groups) * p.cinG + c) : Rat) *
        ((p.weight filt o fy fx c : Rat) * S - f.getD (hwio p.filtW p.cinG p.cout fy fx c o) 0) := by
    unfold BConv.conv BConv.floatConv
    push_cast
    simp only [sum_mul, ← sum_sub_distrib]
    apply sum_congr rfl; intro fy _
    apply sum_congr rfl; intro fx _
    apply sum_congr rfl; intro c _
    ring
  constructor
  · rw [hconv]
    have term : ∀ fy ∈ range p.filtH, ∀ fx ∈ range p.filtW, ∀ c ∈ range p.cinG,
        |(p.inputAt p.padVal inp b ((y : Int) * p.strideH - p.padH + p.dilH * fy)
          ((x : Int) * p.strideW - p.padW + p.dilW * fx) (o / (p.cout / p.groups) * p.cinG + c) : Rat) *
        ((p.weight filt o fy fx c : Rat) * S - f.getD (hwio p.filtW p.cinG p.cout fy fx c o) 0)| ≤ tolerance * S := by
      intro fy h1 fx h2 c h3
      have k1 := mem_range.1 h1
      have k2 := mem_range.1 h2
      have k3 := mem_range.1 h3
      rw [abs_mul, hw fy fx c k1 k2 k3]
      have ha := abs_inputAt_le p inp b ((y : Int) * p.strideH - p.padH + p.dilH * fy)
        ((x : Int) * p.strideW - p.padW + p.dilW * fx) (o / (p.cout / p.groups) * p.cinG + c)
      have hb := (hacc fy fx c o k1 k2 k3 ho)
      have hc := (accepted_value (by rw [hS]; exact hs) hb.2).2
      rw [hS] at hc
      calc _ ≤ 1 * (tolerance * S) := mul_le_mul ha hc (abs_nonneg _) (by norm_num)
        _ = _ := one_mul _
    calc _ ≤ ∑ fy ∈ range p.filtH, ∑ fx ∈ range p.filtW, ∑ c ∈ range p.cinG, tolerance * S := by
            refine (abs_sum_le_sum_abs _ _).trans (sum_le_sum fun fy h1 => ?_)
            refine (abs_sum_le_sum_abs _ _).trans (sum_le_sum fun fx h2 => ?_)
            refine (abs_sum_le_sum_abs _ _).trans (sum_le_sum fun c h3 => ?_)
            exact term fy h1 fx h2 c h3
      _ = _ := by
        simp only [sum_const, card_range, nsmul_eq_mul]
        push_cast
        ring
  · intro hmag
    have : ((p.conv p.padVal inp filt b y x o : Int) : Rat) * S -
      p.floatConv p.padVal inp (fun fy fx c oc => f.getD (hwio p.filtW p.cinG p.cout fy fx c oc) 0) b y x o = 0 := by
      rw [hconv]
      apply sum_eq_zero; intro fy h1
      apply sum_eq_zero; intro fx h2
      apply sum_eq_zero; intro c h3
      have hh := hw fy fx c (mem_range.1 h1) (mem_range.1 h2) (mem_range.1 h3)
      rw [hmag fy fx c (mem_range.1 h1) (mem_range.1 h2) (mem_range.1 h3), sub_self, abs_zero, abs_eq_zero] at hh
      rw [hh, mul_zero]
    linarith

/-- **C31, groups.** A filter shape accepted by the converter gives a group structure that the runtime accepts
(reference and indirect kernels), if the groups divide the output channels: with `filterIn` channels per filter
there are `totalIn / filterIn` groups, and the packed filter has `ceil(filterIn / 32)` words per pixel. -/
theorem C31_groups {totalIn filterIn cout : Nat} {kt : KernelType} (hkt : kt ≠ .bgemm ∨ filterIn = totalIn)
    (h0 : 0 < filterIn) (ht : 0 < totalIn) (h : hasValidFilterShape totalIn filterIn = true)
    (hc : cout % (totalIn / filterIn) = 0) :
    GroupsOk kt totalIn cout ((filterIn + 31) / 32) (totalIn / filterIn) := by
  unfold hasValidFilterShape at h
  simp only [] at h
  split at h
  · simp at h
  · rename_i hm
    simp only [not_not] at hm
    have hd : totalIn = filterIn * (totalIn / filterIn) := (Nat.mul_div_cancel' (Nat.dvd_of_mod_eq_zero hm)).symm
    split at h
    · simp at h
    · rename_i hg
      unfold GroupsOk
      generalize hG : totalIn / filterIn = G at *
      have hG0 : G ≠ 0 := by rintro rfl; omega
      by_cases h1 : G = 1
      · left; subst h1; refine ⟨rfl, ?_⟩; rw [hd]; simp
      · right
        have h32 : filterIn % 32 = 0 := by
          by_contra hne; exact hg ⟨by omega, hne⟩
        have hkt' : kt ≠ .bgemm := by
          rcases hkt with h | h
          · exact h
          · exfalso
            rw [h, Nat.div_self ht] at hG
            exact h1 hG.symm
        refine ⟨by omega, hkt', by omega, ?_, hc⟩
        have : 32 * ((filterIn + 31) / 32) = filterIn := by omega
        rw [this, hd, Nat.mul_comm]

/-- Non-vacuity: a 1x2x1x2 filter with magnitudes near 2 and equal to 1/2 is accepted; 1.991 is within 0.5% of 2. -/
example : isBinaryFilter 1 2 1 2 [2, -1/2, -1991/1000, 1/2] = true ∧
    scaleVector 2 1 2 [2, -1/2, -1991/1000, 1/2] = [2, 1/2] ∧
    preparedFilter 1 2 1 2 [2, -1/2, -1991/1000, 1/2] = [1, -1991/2000, -1, 1] := by
  decide +kernel

/-- Non-vacuity of the hypothesis on the tensors of `C31_binary_filter` (the example of C25). -/
example : ∀ filt, IsPacked (thrP.cout * thrP.filtH * thrP.filtW) thrP.cinG filt → thrP.Ok thrInp filt :=
  fun _ h => thrP_ok.setFilter h

/-- The filter of one channel decides about zero: a filter with a zero, or with magnitudes 1 and 0.99, is not
accepted. -/
example : isBinaryFilter 1 2 1 1 [1, 0] = false ∧ isBinaryFilter 1 2 1 1 [0, 1] = false ∧
    isBinaryFilter 1 2 1 1 [1, 99/100] = false := by
  decide +kernel

/-- The bound is not vacuous: accepted filters that are not exactly binary change the result. For a 1x1 image with
two channels (both +1) and filter `[1, 0.996]`, Conv2D gives 1.996 and the BConv2D gives 2. -/
theorem C31_inexact_witness :
    let p : BConv := ⟨1, 1, 1, 1, 2, 1, 1, 1, 1, 1, 1, 1, 1, 1, .valid, 0, 0, 0, 1, 1⟩
    isBinaryFilter 1 1 2 1 [1, 996/1000] = true ∧
    bitpackConst 1 1 1 2 (preparedFilter 1 1 2 1 [1, 996/1000]) 0#32 = some [0#32] ∧
    evalRefFloat p .none (scaleVector 1 2 1 [1, 996/1000]) [0] [0#32] [0#32] [0] = some [2] ∧
    p.floatConv 1 [0#32] (fun fy fx c oc => ([1, 996/1000] : List Rat).getD (hwio 1 2 1 fy fx c oc) 0) 0 0 0 0
      = 1996/1000 := by
  decide +kernel

end Verif
