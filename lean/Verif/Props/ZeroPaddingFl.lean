import Verif.Model.ZeroPaddingFl
import Verif.Props.ZeroPadding
import Verif.Props.FloatOutput

/-!
C73: zero padding in the optimized kernels, with the rounding of float and double arithmetic.
-/

namespace Verif

open Finset

section
variable {p : BConv} {inp filt : List Word} {R : FlEnv}

theorem abs_sum_range_le {n : Nat} {f : Nat → Int} {B : Int} (h : ∀ i, i < n → |f i| ≤ B) :
    |∑ i ∈ range n, f i| ≤ n * B := by
  refine le_trans (abs_sum_le_sum_abs _ _) ?_
  have := sum_le_card_nsmul (range n) (fun i => |f i|) B (fun i hi => h i (by simpa using hi))
  simpa using this

/-- The weights of a filter pixel sum up to at most the number of channels. -/
theorem zpW_abs (h : p.Ok inp filt) {oc fy fx : Nat} (hoc : oc < p.cout) (hfy : fy < p.filtH) (hfx : fx < p.filtW) :
    |zpW p filt oc fy fx| ≤ p.cinG := by
  rw [zpW_eq h hoc hfy hfx]
  have := abs_sum_range_le (n := p.cinG) (f := fun c => p.weight filt oc fy fx c) (B := 1) (by
    intro c _
    unfold BConv.weight pm
    unfold signVal; split <;> simp)
  simpa using this

/-- A partial sum of one row. -/
theorem zpRow_abs (h : p.Ok inp filt) {dir y x oc fy n : Nat} (hoc : oc < p.cout) (hfy : fy < p.filtH) (hn : n ≤ p.filtW) :
    |∑ fx ∈ range n, if zpCond p dir y x fy fx then zpW p filt oc fy fx else 0| ≤ n * p.cinG := by
  refine abs_sum_range_le ?_
  intro fx hfx
  split
  · exact zpW_abs h hoc hfy (by omega)
  · simp

theorem zpRows_abs (h : p.Ok inp filt) {dir y x oc n : Nat} (hoc : oc < p.cout) (hn : n ≤ p.filtH) :
    |∑ fy ∈ range n, ∑ fx ∈ range p.filtW, if zpCond p dir y x fy fx then zpW p filt oc fy fx else 0|
      ≤ n * (p.filtW * p.cinG) := by
  refine abs_sum_range_le ?_
  intro fy hfy
  exact zpRow_abs h hoc (by omega) (le_refl _)

theorem zpS_abs (h : p.Ok inp filt) {dir y x oc : Nat} (hoc : oc < p.cout) : |zpS p filt dir y x oc| ≤ p.K := by
  refine le_trans (zpRows_abs h hoc (le_refl _)) ?_
  unfold BConv.K BConv.cinG
  push_cast
  rw [mul_assoc]

/-- `rep i a`: the float `a` is exactly the integer `i`. The operations are exact on integers of at most 24 bits. -/
structure ZpExact {α : Type} (O : ZpOps α) (rep : Int → α → Prop) : Prop where
  zero : rep 0 O.zero
  cvt : ∀ i, |i| ≤ 2 ^ 24 → rep i (O.cvt i)
  add : ∀ i j a b, rep i a → rep j b → |i + j| ≤ 2 ^ 24 → rep (i + j) (O.add a b)

/-- The float sums are exact. -/
theorem zpCorrectionsWith_eq {α : Type} {O : ZpOps α} {rep : Int → α → Prop} (hO : ZpExact O rep) (h : p.Ok inp filt)
    (hK : 2 * p.K ≤ 2 ^ 24) {y x oc : Nat} (hoc : oc < p.cout) :
    ∃ a b c d, zpCorrectionsWith O p filt y x oc = some (a, b, c, d) ∧ rep (zpS p filt 0 y x oc) a ∧
      rep (zpS p filt 1 y x oc) b ∧ rep (zpS p filt 2 y x oc) c ∧ rep (zpS p filt 3 y x oc) d := by
  unfold zpCorrectionsWith
  have hKe : (p.K : Int) = p.filtH * (p.filtW * p.cinG) := by unfold BConv.K BConv.cinG; push_cast; ring
  let T : Nat → Nat → Int := fun dir n => ∑ fy ∈ range n, ∑ fx ∈ range p.filtW,
    if zpCond p dir y x fy fx then zpW p filt oc fy fx else 0
  obtain ⟨s', h1, h2⟩ := forN_inv (n := p.filtH) (s := ((O.zero, O.zero, O.zero, O.zero) : α × α × α × α))
    (body := fun fy c =>
    forN p.filtW (fun fx (c : α × α × α × α) => do
      let i ← zpPixel p filt oc fy fx
      let cur := O.cvt i
      some (if zpCond p 0 y x fy fx then O.add c.1 cur else c.1,
        if zpCond p 1 y x fy fx then O.add c.2.1 cur else c.2.1,
        if zpCond p 2 y x fy fx then O.add c.2.2.1 cur else c.2.2.1,
        if zpCond p 3 y x fy fx then O.add c.2.2.2 cur else c.2.2.2)) c)
    (fun n c => rep (T 0 n) c.1 ∧ rep (T 1 n) c.2.1 ∧ rep (T 2 n) c.2.2.1 ∧ rep (T 3 n) c.2.2.2)
    (by simp only [T, range_zero, sum_empty]; exact ⟨hO.zero, hO.zero, hO.zero, hO.zero⟩)
    (by
      rintro fy s hfy ⟨r0, r1, r2, r3⟩
      let U : Nat → Nat → Int := fun dir n => T dir fy + ∑ fx ∈ range n,
        if zpCond p dir y x fy fx then zpW p filt oc fy fx else 0
      have hU : ∀ dir n, n ≤ p.filtW → |U dir n| ≤ 2 ^ 24 := by
        intro dir n hn
        have a1 := zpRows_abs (dir := dir) (y := y) (x := x) (n := fy) h hoc (by omega)
        have a2 := zpRow_abs (dir := dir) (y := y) (x := x) h hoc hfy hn
        have a3 : |U dir n| ≤ fy * (p.filtW * p.cinG) + n * p.cinG := le_trans (abs_add_le _ _) (add_le_add a1 a2)
        have a4 : (n : Int) * p.cinG ≤ p.filtW * p.cinG := by
          exact mul_le_mul_of_nonneg_right (by omega) (by positivity)
        have a5 : (fy : Int) * (p.filtW * p.cinG) + p.filtW * p.cinG ≤ p.filtH * (p.filtW * p.cinG) := by
          have : ((fy : Int) + 1) * (p.filtW * p.cinG) ≤ p.filtH * (p.filtW * p.cinG) :=
            mul_le_mul_of_nonneg_right (by omega) (by positivity)
          rw [add_mul, one_mul] at this
          exact this
        rw [← hKe] at a5
        have : (2 * p.K : Int) ≤ 2 ^ 24 := by exact_mod_cast hK
        have k0 : (0 : Int) ≤ p.K := by positivity
        linarith
      obtain ⟨s', h1, h2⟩ := forN_inv (n := p.filtW) (s := s)
        (body := fun fx (c : α × α × α × α) => do
          let i ← zpPixel p filt oc fy fx
          let cur := O.cvt i
          some (if zpCond p 0 y x fy fx then O.add c.1 cur else c.1,
            if zpCond p 1 y x fy fx then O.add c.2.1 cur else c.2.1,
            if zpCond p 2 y x fy fx then O.add c.2.2.1 cur else c.2.2.1,
            if zpCond p 3 y x fy fx then O.add c.2.2.2 cur else c.2.2.2))
        (fun n c => rep (U 0 n) c.1 ∧ rep (U 1 n) c.2.1 ∧ rep (U 2 n) c.2.2.1 ∧ rep (U 3 n) c.2.2.2)
        (by simp only [U, range_zero, sum_empty, add_zero]; exact ⟨r0, r1, r2, r3⟩)
        (by
          rintro fx s hfx ⟨r0, r1, r2, r3⟩
          rw [zpPixel_eq h hoc hfy hfx]
          refine ⟨_, rfl, ?_⟩
          have hw : rep (zpW p filt oc fy fx) (O.cvt (zpW p filt oc fy fx)) := by
            refine hO.cvt _ (le_trans (zpW_abs h hoc hfy hfx) ?_)
            have a1 : (1 : Int) * p.cinG ≤ p.filtW * p.cinG := mul_le_mul_of_nonneg_right (by omega) (by positivity)
            have a2 : (1 : Int) * (p.filtW * p.cinG) ≤ p.filtH * (p.filtW * p.cinG) :=
              mul_le_mul_of_nonneg_right (by omega) (by positivity)
            rw [← hKe] at a2
            have : (2 * p.K : Int) ≤ 2 ^ 24 := by exact_mod_cast hK
            have k0 : (0 : Int) ≤ p.K := by positivity
            linarith
          have hite : ∀ dir a, rep (U dir fx) a → rep (U dir (fx + 1))
              (if zpCond p dir y x fy fx then O.add a (O.cvt (zpW p filt oc fy fx)) else a) := by
            intro dir a ha
            have hu := hU dir (fx + 1) (by omega)
            by_cases hc : zpCond p dir y x fy fx = true
            · have e : U dir (fx + 1) = U dir fx + zpW p filt oc fy fx := by
                simp only [U, sum_range_succ, if_pos hc]; ring
              rw [if_pos hc, e]
              exact hO.add _ _ _ _ ha hw (by rw [← e]; exact hu)
            · have e : U dir (fx + 1) = U dir fx := by
                simp only [U, sum_range_succ, if_neg hc]; ring
              rw [if_neg hc, e]
              exact ha
          exact ⟨hite 0 _ r0, hite 1 _ r1, hite 2 _ r2, hite 3 _ r3⟩)
      refine ⟨s', h1, ?_⟩
      simp only [T, sum_range_succ]
      exact h2)
  obtain ⟨a, b, c, d⟩ := s'
  exact ⟨a, b, c, d, h1, h2⟩

/-- The contents of the cache. -/
theorem zpCacheWith_eq {α : Type} {O : ZpOps α} {rep : Int → α → Prop} (hO : ZpExact O rep) (h : p.Ok inp filt)
    (hK : 2 * p.K ≤ 2 ^ 24) {mult : List α}
    (hm : mult.length = p.cout) {cache0 : List α} (hc : cache0.length = zpCacheSize p) :
    ∃ (cache : List α) (A : Nat → Nat → Nat → Nat → α), zpCacheWith O p filt mult cache0 = some cache ∧
      cache.length = zpCacheSize p ∧
      (∀ dir y x oc, dir < 4 → oc < p.cout → rep (zpS p filt dir y x oc) (A dir y x oc)) ∧
      ∀ dir y x oc, dir < 4 → y < p.effH → x < p.effW → oc < p.cout →
        cache[offset4 p.effH p.effW p.cout dir y x oc]?
          = some (O.mul (O.mul O.negOne (mult.getD oc O.zero)) (A dir y x oc)) := by
  let A : Nat → Nat → Nat → Nat → α := fun dir y x oc =>
    zpSelect ((zpCorrectionsWith O p filt y x oc).getD (O.zero, O.zero, O.zero, O.zero)) dir
  have hA : ∀ y x oc, oc < p.cout → zpCorrectionsWith O p filt y x oc
      = some (A 0 y x oc, A 1 y x oc, A 2 y x oc, A 3 y x oc) := by
    intro y x oc hoc
    obtain ⟨a, b, c, d, e, -⟩ := zpCorrectionsWith_eq (y := y) (x := x) hO h hK hoc
    simp only [A, e, Option.getD_some, zpSelect]
  have hrep : ∀ dir y x oc, dir < 4 → oc < p.cout → rep (zpS p filt dir y x oc) (A dir y x oc) := by
    intro dir y x oc hd hoc
    obtain ⟨a, b, c, d, e, r0, r1, r2, r3⟩ := zpCorrectionsWith_eq (y := y) (x := x) hO h hK hoc
    simp only [A, e, Option.getD_some, zpSelect]
    have : dir = 0 ∨ dir = 1 ∨ dir = 2 ∨ dir = 3 := by omega
    rcases this with rfl | rfl | rfl | rfl
    · exact r0
    · exact r1
    · exact r2
    · exact r3
  unfold zpCacheWith
  set f : Nat → α := fun i => O.mul (O.mul O.negOne (mult.getD (i % p.cout) O.zero))
    (A (i / p.cout / p.effW / p.effH) (i / p.cout / p.effW % p.effH) (i / p.cout % p.effW) (i % p.cout))
    with hf
  have hfv : ∀ {dir y x oc}, y < p.effH → x < p.effW → oc < p.cout →
      f (offset4 p.effH p.effW p.cout dir y x oc) = O.mul (O.mul O.negOne (mult.getD oc O.zero)) (A dir y x oc) := by
    intro dir y x oc hy hx hoc
    obtain ⟨e1, e2, e3, e4⟩ := offset4_decode (b := dir) hy hx hoc
    unfold dB at e1; unfold dY at e2; unfold dX at e3; unfold dC at e4
    rw [hf]; simp only []
    rw [e1, e2, e3, e4]
  obtain ⟨s', h1, h2⟩ := Fills.loop (s0 := cache0) (s := cache0) (n := p.effH) (f := f) (W0 := fun _ => False)
    (body := fun y cache =>
      forN p.effW (fun x cache =>
        forN p.cout (fun oc cache => do
          let c ← zpCorrectionsWith O p filt y x oc
          forN 4 (fun dir cache => do
            let m ← rd mult oc
            let mul := O.mul O.negOne m
            wr cache (dir * (p.effH * p.effW * p.cout) + y * (p.effW * p.cout) + x * p.cout + oc)
              (O.mul mul (zpSelect c dir))) cache) cache) cache)
    (fun y i => ∃ x, x < p.effW ∧ ∃ oc, oc < p.cout ∧ ∃ dir, dir < 4 ∧ i = offset4 p.effH p.effW p.cout dir y x oc)
    (Fills.init cache0 f (fun _ _ h => h))
    (by
      intro y W s hy hs
      refine Fills.loop (n := p.effW) _ hs ?_
      intro x W s hx hs
      refine Fills.loop (n := p.cout) _ hs ?_
      intro oc W s hoc hs
      rw [hA y x oc hoc]
      simp only [Option.bind_eq_bind, Option.bind_some]
      refine Fills.loop (n := 4) _ hs ?_
      intro dir W s hdir hs
      have e1 : rd mult oc = some (mult.getD oc O.zero) := by simp [rd, hm, hoc]
      have e2 : dir * (p.effH * p.effW * p.cout) + y * (p.effW * p.cout) + x * p.cout + oc
          = offset4 p.effH p.effW p.cout dir y x oc := by unfold offset4; ring
      rw [e1, e2, zpSelect_eq (fun dir => A dir y x oc) hdir]
      simp only [Option.bind_some]
      refine hs.write ?_ (hfv hy hx hoc).symm
      rw [hc]
      exact offset4_lt hdir hy hx hoc)
  refine ⟨s', A, h1, by rw [h2.len, hc], hrep, ?_⟩
  intro dir y x oc hdir hy hx hoc
  rw [h2.hit _ (by rw [hc]; exact offset4_lt hdir hy hx hoc)
    (Or.inr ⟨y, hy, x, hx, oc, hoc, dir, hdir, rfl⟩), hfv hy hx hoc]

/-- The sum of the weights of the filter pixels outside the image. -/
def outsideSum (p : BConv) (filt : List Word) (oy ox oc : Nat) : Int :=
  ∑ fy ∈ range p.filtH, ∑ fx ∈ range p.filtW, if p.inside (p.inY oy fy) (p.inX ox fx) then 0 else zpW p filt oc fy fx

theorem outsideSum_abs (h : p.Ok inp filt) {oy ox oc : Nat} (hoc : oc < p.cout) : |outsideSum p filt oy ox oc| ≤ p.K := by
  have := abs_sum_range_le (n := p.filtH) (f := fun fy => ∑ fx ∈ range p.filtW,
    if p.inside (p.inY oy fy) (p.inX ox fx) then 0 else zpW p filt oc fy fx) (B := p.filtW * p.cinG) (by
    intro fy hfy
    refine abs_sum_range_le ?_
    intro fx hfx
    split
    · simp
    · exact zpW_abs h hoc hfy hfx)
  refine le_trans this ?_
  unfold BConv.K BConv.cinG
  push_cast
  rw [mul_assoc]

/-- Which correction a pixel gets. -/
theorem zpValO_correct {α : Type} (hgeo : p.Geom) (hsh : 1 ≤ p.strideH) (hsw : 1 ≤ p.strideW) {oy ox oc : Nat}
    (hoy : oy < p.outH) (hox : ox < p.outW) {Q : Int → α → Prop} {C : Nat → Nat → Nat → Nat → α}
    (hC : ∀ dir y x, dir < 4 → Q (zpS p filt dir y x oc) (C dir y x oc)) :
    (zpValO p C oy ox oc = none ∧ (p.Corrected oy ox → outsideSum p filt oy ox oc = 0)) ∨
    (∃ v, zpValO p C oy ox oc = some v ∧ Q (outsideSum p filt oy ox oc) v ∧ p.Corrected oy ox) := by
  have hv := zpVal_correct (filt := filt) (m := -1) hgeo hsh hsw hoy hox (oc := oc)
    (C := fun dir y x oc => -1 * -1 * (zpS p filt dir y x oc : Rat)) (fun _ _ _ => rfl)
  have hiff := corrected_iff hgeo hsh hsw hoy hox rfl rfl
  have hdir : ∀ (left top : Int) dir cy cx,
      zpCase left (-left - p.inW + p.effW) top (-top - p.inH + p.effH) = some (dir, cy, cx) → dir < 4 := by
    intro left top dir cy cx h
    unfold zpCase at h
    split at h
    · cases h; omega
    · split at h
      · cases h; omega
      · split at h
        · cases h; omega
        · split at h
          · cases h; omega
          · cases h
  unfold zpVal at hv
  unfold zpValO
  dsimp only at hv ⊢
  revert hv hiff
  generalize zpOffset p.outW p.strideW p.effW p.inW - (ox : Int) * p.strideW = left
  generalize zpOffset p.outH p.strideH p.effH p.inH - (oy : Int) * p.strideH = top
  cases hz : zpCase left (-left - p.inW + p.effW) top (-top - p.inH + p.effH) with
  | none =>
    intro hv hiff
    left
    refine ⟨rfl, fun hc => ?_⟩
    rw [if_pos hc] at hv
    have : ((outsideSum p filt oy ox oc : Int) : Rat) = 0 := by
      have e : (-1 * -1 : Rat) = 1 := by norm_num
      rw [e, one_mul] at hv
      exact hv.symm
    exact_mod_cast this
  | some v =>
    obtain ⟨dir, cy, cx⟩ := v
    intro hv hiff
    right
    have hc : p.Corrected oy ox := hiff.2 (Or.inl (by simp))
    refine ⟨_, rfl, ?_, hc⟩
    rw [if_pos hc] at hv
    simp only at hv ⊢
    have e : (-1 * -1 : Rat) = 1 := by norm_num
    rw [e, one_mul, one_mul] at hv
    have : zpS p filt dir cy.toNat cx.toNat oc = outsideSum p filt oy ox oc := by exact_mod_cast hv
    rw [← this]
    exact hC _ _ _ (hdir _ _ _ _ _ hz)

/-- The end of the two optimized kernels, for any float arithmetic that is exact on small integers: if the elements of `mid` are
acceptable (`Rel1`) for the one-padded convolution, and adding a correction to such an element gives one acceptable (`Rel`) for the
corrected convolution, the elements of the result are acceptable. -/
theorem zp_finish_with {α : Type} {O : ZpOps α} {rep : Int → α → Prop} (hO : ZpExact O rep) (hok : p.Ok inp filt) (hgeo : p.Geom)
    (hsame : p.padding = .same) (hsh : 1 ≤ p.strideH) (hsw : 1 ≤ p.strideW) (hK : 2 * p.K ≤ 2 ^ 24) {mult : List α}
    (hm : mult.length = p.cout) {Rel1 Rel : Nat → Int → α → Prop} (h1 : ∀ c z o, c < p.cout → Rel1 c z o → Rel c z o)
    (hadd : ∀ c z s o a m, c < p.cout → |s| ≤ (p.K : Int) → |z - s| ≤ (p.K : Int) → mult[c]? = some m → rep s a → Rel1 c z o →
      Rel c (z - s) (O.add o (O.mul (O.mul O.negOne m) a)))
    {mid : List α} (hlen : mid.length = p.batches * p.outH * p.outW * p.cout)
    (hmid : ∀ b y x c, b < p.batches → y < p.outH → x < p.outW → c < p.cout →
        ∃ v, mid[((b * p.outH + y) * p.outW + x) * p.cout + c]? = some v ∧ Rel1 c (p.conv 1 inp filt b y x c) v)
    {cache0 : List α} (hc0 : cache0.length = zpCacheSize p) :
    ∃ cache out, zpCacheWith O p filt mult cache0 = some cache ∧
      zpApplyWith O.add p cache mid = some out ∧ out.length = mid.length ∧
      ∀ b y x c, b < p.batches → y < p.outH → x < p.outW → c < p.cout →
        ∃ v, out[((b * p.outH + y) * p.outW + x) * p.cout + c]? = some v ∧
          Rel c (p.conv (if p.Corrected y x then 0 else 1) inp filt b y x c) v := by
  obtain ⟨cache, A, c1, c2, hrep, c3⟩ := zpCacheWith_eq hO hok hK hm hc0
  obtain ⟨out, o1, o2, o3⟩ := zpApplyWith_eq O.add hsame hgeo hsh hsw
    (C := fun dir y x oc => O.mul (O.mul O.negOne (mult.getD oc O.zero)) (A dir y x oc)) c3 hlen
  refine ⟨cache, out, c1, o1, o2, ?_⟩
  intro b y x c hb hy hx hc
  obtain ⟨v, hv, hr1⟩ := hmid b y x c hb hy hx hc
  have h := o3 b y x c hb hy hx hc
  unfold offset4 at h
  rw [hv, Option.map_some] at h
  refine ⟨_, h, ?_⟩
  have hz0 : p.conv 0 inp filt b y x c = p.conv 1 inp filt b y x c - outsideSum p filt y x c := conv_zero_eq hok hc
  rcases zpValO_correct (filt := filt) (oc := c) hgeo hsh hsw hy hx
    (Q := fun s v => ∃ a, rep s a ∧ v = O.mul (O.mul O.negOne (mult.getD c O.zero)) a)
    (C := fun dir y x oc => O.mul (O.mul O.negOne (mult.getD oc O.zero)) (A dir y x oc))
    (fun dir y x hd => ⟨_, hrep dir y x c hd hc, rfl⟩) with
    ⟨hn, hs⟩ | ⟨w, hs, ⟨a, ha, rfl⟩, hcd⟩
  · rw [hn]
    have := h1 _ _ _ hc hr1
    by_cases hcd : p.Corrected y x
    · rw [if_pos hcd, hz0, hs hcd, sub_zero]; exact this
    · rw [if_neg hcd]; exact this
  · rw [hs, if_pos hcd, hz0]
    have hb0 : |p.conv 0 inp filt b y x c| ≤ (p.K : Int) := by
      have := BConv.abs_conv_le (p := p) (inp := inp) (filt := filt) (pad := 0) (by simp) b y x c
      exact_mod_cast this
    exact hadd c _ _ _ a _ hc (outsideSum_abs hok hc) (by rw [← hz0]; exact hb0)
      (by rw [List.getD_eq_getElem?_getD, List.getElem?_eq_getElem (by omega)]; rfl) ha hr1

/-- Rounded arithmetic is exact on small integers. -/
theorem zpExact_fl (h32 : RoundsToNearest R.fl) : ZpExact (ZpOps.fl R) (fun i a => a = (i : Rat)) := by
  refine ⟨by simp [ZpOps.fl], fun i hi => fl_int h32 hi, ?_⟩
  rintro i j a b rfl rfl hij
  show R.fl ((i : Rat) + j) = _
  rw [← Int.cast_add]
  exact fl_int h32 hij

/-- Adding the correction: the error. -/
theorem fl_correct_err (h32 : RoundsToNearest R.fl) {K : Nat} {m b o : Rat} (hm : Binary32 m) {z s : Int} (hs : |s| ≤ (K : Int))
    (hz : |z - s| ≤ (K : Int)) (hr : |b| + 4 * ((K : Rat) * |m|) ≤ bigF)
    (ho : |o - ((z : Rat) * m + b)| ≤ (|b| + K * |m|) * (5 / 16777216) + 8 * etaF) :
    |R.fl (o + R.fl (R.fl (-1 * m) * (s : Rat))) - (((z - s : Int) : Rat) * m + b)|
      ≤ (|b| + K * |m|) * (8 / 16777216) + 16 * etaF := by
  have k0 : (0 : Rat) ≤ K := Nat.cast_nonneg K
  have m0 := abs_nonneg m
  have b0 := abs_nonneg b
  have q0 : 0 ≤ (K : Rat) * |m| := by positivity
  have u0 := etaF_pos
  have u2 := etaF_le_one
  have g := bigF_ge
  have e1 : -1 * m = -m := by ring
  rw [e1, h32.fix hm.neg]
  have hsr : |(s : Rat)| ≤ K := by rw [← Int.cast_abs]; exact_mod_cast hs
  have hzr : |((z - s : Int) : Rat)| ≤ K := by rw [← Int.cast_abs]; exact_mod_cast hz
  have hv : |-m * (s : Rat)| ≤ K * |m| := by
    rw [abs_mul, abs_neg]; nlinarith
  have hy : |((z - s : Int) : Rat) * m + b| ≤ |b| + K * |m| := by
    refine le_trans (abs_add2 _ _) ?_
    rw [abs_mul]; nlinarith
  have v1 := fl_err h32 (x := -m * (s : Rat)) (by linarith)
  have v2 : |R.fl (-m * (s : Rat)) - -m * (s : Rat)| ≤ K * |m| / 16777216 + etaF := by
    refine le_trans v1 ?_
    have := div_le_div_of_nonneg_right hv (by norm_num : (0 : Rat) ≤ 16777216)
    linarith
  have w := abs_add_sub ho v2
  have e2 : (z : Rat) * m + b + -m * (s : Rat) = ((z - s : Int) : Rat) * m + b := by push_cast; ring
  rw [e2] at w
  have w2 := abs_of_sub w
  have w3 := fl_err h32 (x := o + R.fl (-m * (s : Rat))) (by linarith)
  refine le_trans (abs_trans3 w3 w) ?_
  linarith

/-- Adding the correction is exact for small multiples of a power of two. -/
theorem fl_correct_exact (h32 : RoundsToNearest R.fl) {K : Nat} {M B q : Int} (h1 : -149 ≤ q) (h2 : q ≤ 103) {z s : Int}
    (hs : |s| ≤ (K : Int)) (hz : |z - s| ≤ (K : Int)) (hr : |B| + 2 * ((K : Int) * |M|) ≤ 2 ^ 24) :
    R.fl ((z : Rat) * ((M : Rat) * 2 ^ q) + (B : Rat) * 2 ^ q + R.fl (R.fl (-1 * ((M : Rat) * 2 ^ q)) * (s : Rat)))
      = ((z - s : Int) : Rat) * ((M : Rat) * 2 ^ q) + (B : Rat) * 2 ^ q := by
  have k0 : (0 : Int) ≤ K := Int.natCast_nonneg K
  have m0 := abs_nonneg M
  have b0 := abs_nonneg B
  have hKM : 0 ≤ (K : Int) * |M| := by positivity
  have fin : R.fl (((z - s : Int) : Rat) * ((M : Rat) * 2 ^ q) + (B : Rat) * 2 ^ q)
      = ((z - s : Int) : Rat) * ((M : Rat) * 2 ^ q) + (B : Rat) * 2 ^ q := by
    have := Binary32.scaled (n := (z - s) * M + B) (q := q) (by
      refine le_trans (abs_add_le _ _) ?_
      rw [abs_mul]
      nlinarith) h1 h2
    refine h32.fix ?_
    have e : (((z - s) * M + B : Int) : Rat) * 2 ^ q = ((z - s : Int) : Rat) * ((M : Rat) * 2 ^ q) + (B : Rat) * 2 ^ q := by
      push_cast; ring
    rwa [e] at this
  by_cases hK0 : K = 0
  · subst hK0
    have : s = 0 := by
      have := abs_nonneg s
      exact abs_eq_zero.1 (by push_cast at hs; omega)
    subst this
    have z0 : R.fl 0 = 0 := by have := fl_int h32 (x := 0) (by norm_num); simpa using this
    rw [Int.cast_zero, mul_zero, z0, add_zero]
    rw [sub_zero] at fin ⊢
    exact fin
  have hM : |M| ≤ 2 ^ 24 := by
    have : (1 : Int) ≤ K := by omega
    nlinarith
  have e1 : -1 * ((M : Rat) * 2 ^ q) = -((M : Rat) * 2 ^ q) := by ring
  rw [e1, h32.fix (Binary32.scaled hM h1 h2).neg]
  have hv : R.fl (-((M : Rat) * 2 ^ q) * (s : Rat)) = -((M : Rat) * 2 ^ q) * (s : Rat) := by
    have := Binary32.scaled (n := -(M * s)) (q := q) (by
      rw [abs_neg, abs_mul]
      nlinarith) h1 h2
    refine h32.fix ?_
    have e : ((-(M * s) : Int) : Rat) * 2 ^ q = -((M : Rat) * 2 ^ q) * (s : Rat) := by push_cast; ring
    rwa [e] at this
  rw [hv]
  have e2 : (z : Rat) * ((M : Rat) * 2 ^ q) + (B : Rat) * 2 ^ q + -((M : Rat) * 2 ^ q) * (s : Rat)
      = ((z - s : Int) : Rat) * ((M : Rat) * 2 ^ q) + (B : Rat) * 2 ^ q := by push_cast; ring
  rw [e2]
  exact fin

/-- Both optimized kernels, any schedule and interleaving, and any property `Rel` of the outputs that the transform and the
correction establish. -/
theorem optimized_fl (h32 : RoundsToNearest R.fl) {mult bias out0 : List Rat}
    (hok : p.Ok inp filt) (hgeo : p.Geom) (hsame : p.padding = .same)
    (hz : p.padValue = 0) (hsh : 1 ≤ p.strideH) (hsw : 1 ≤ p.strideW)
    (hfh : 0 < p.filtH) (hfw : 0 < p.filtW) (hci : 0 < p.cin) (hco : 0 < p.cout)
    (hm : mult.length = p.cout) (hb : bias.length = p.cout) (hK : 2 * p.K ≤ 2 ^ 24)
    {Rel1 Rel : Nat → Int → Rat → Prop} (h1 : ∀ c z o, c < p.cout → Rel1 c z o → Rel c z o)
    (hf : ∀ a c, a ≤ p.K → c < p.cout → Rel1 c ((p.K : Int) - 2 * a)
      (flRun R.fl R.fused (((p.K : Int) - ((p.K : Int) - 2 * a) : Int) : Rat)
          (R.fl (R.dl (R.dl (-1 * mult.getD c 0) / 1)))
          (R.fl (R.dl (R.dl (R.dl (bias.getD c 0 + R.dl (((p.K : Int) : Rat) * mult.getD c 0)) / 1) + 0)))))
    (hadd : ∀ c z s o, c < p.cout → |s| ≤ (p.K : Int) → |z - s| ≤ (p.K : Int) → Rel1 c z o →
      Rel c (z - s) (R.fl (o + R.fl (R.fl (-1 * mult.getD c 0) * (s : Rat)))))
    (h0 : out0.length = p.batches * p.outH * p.outW * p.cout) :
    ∃ out, evalIndFloatFl R p .none mult bias inp filt out0 = some out ∧
      (p.groups = 1 → ∀ (fat : Bool) (blocks : List Blk) (order : List (Write Rat) → List (Write Rat)),
        Schedule p.cout (p.batches * p.outH * p.outW) 1 1 blocks → (∀ l, (order l).Perm l) →
        evalBGemmFloatFl R p fat blocks order .none mult bias inp filt out0 = some out) ∧
      out.length = out0.length ∧
      ∀ b y x c, b < p.batches → y < p.outH → x < p.outW → c < p.cout →
        ∃ v, out[((b * p.outH + y) * p.outW + x) * p.cout + c]? = some v ∧
          Rel c (p.conv (if p.Corrected y x then 0 else 1) inp filt b y x c) v := by
  have hzp : p.zeroPadding = true := by unfold BConv.zeroPadding; simp [hsame, hz]
  obtain ⟨t, ht, _, _, hrun⟩ := runFloatFl_eq (R := R) (p := p) (act := .none) (scale := 1) (zp := 0) hm hb
    (by omega)
  have e3 := bconvIndirect_eq hok.dims (Nat.mul_pos hfh hfw) (hok.filtDepth_pos hci) hco
    (run := t.runFloatFl R) (f := fun a c => flRun R.fl R.fused (((p.K : Int) - ((p.K : Int) - 2 * a) : Int) : Rat)
          (R.fl (R.dl (R.dl (-1 * mult.getD c 0) / 1)))
          (R.fl (R.dl (R.dl (R.dl (bias.getD c 0 + R.dl (((p.K : Int) : Rat) * mult.getD c 0)) / 1) + 0))))
    (fun oi c hoi hc => hrun _ _ (accPix_le hok hoi hc) hc) h0
  set f : Nat → Nat → Rat := fun a c => flRun R.fl R.fused (((p.K : Int) - ((p.K : Int) - 2 * a) : Int) : Rat)
          (R.fl (R.dl (R.dl (-1 * mult.getD c 0) / 1)))
          (R.fl (R.dl (R.dl (R.dl (bias.getD c 0 + R.dl (((p.K : Int) : Rat) * mult.getD c 0)) / 1) + 0))) with hfd
  obtain ⟨cache, out, f1, f2, f3, f4⟩ := zp_finish_with (O := ZpOps.fl R) (inp := inp) (zpExact_fl h32) hok hgeo hsame hsh hsw hK hm h1
    (by
      rintro c z s o a m hc hs hz hmc rfl hr
      have e : m = mult.getD c 0 := by rw [List.getD_eq_getElem?_getD, hmc]; rfl
      rw [e]
      exact hadd c z s o hc hs hz hr)
    (mid := (List.range out0.length).map (fun i => f (p.accPix inp filt (i / p.cout) (i % p.cout)) (i % p.cout)))
    (by simp [h0])
    (by
      intro b y x c hb hy hx hc
      have hlt : ((b * p.outH + y) * p.outW + x) * p.cout + c < out0.length := by
        rw [h0]; exact row_lt (row_lt (row_lt hb hy) hx) hc
      have hle : p.acc inp filt b y x c ≤ p.K := by
        have := accPix_le hok (oi := (b * p.outH + y) * p.outW + x) (oc := c) (row_lt (row_lt hb hy) hx) hc
        rwa [BConv.accPix_eq hy hx] at this
      have hconv : (p.K : Int) - 2 * (p.acc inp filt b y x c : Int) = p.conv 1 inp filt b y x c := BConv.acc_eq_conv hok hb hc
      refine ⟨f (p.acc inp filt b y x c) c, ?_, ?_⟩
      · rw [List.getElem?_map, List.getElem?_range hlt]
        simp only [Option.map_some]
        rw [(div_mod_row hc).1, (div_mod_row hc).2, BConv.accPix_eq hy hx]
      · have := hf _ c hle hc
        rw [← hconv]
        exact this)
    (cache0 := List.replicate (zpCacheSize p) 0) (by simp)
  have g1 : zpSetupFl R p filt mult = some cache := by unfold zpSetupFl; rw [if_pos hzp, f1]
  have g2 : zpFinishFl R p cache ((List.range out0.length).map
      (fun i => f (p.accPix inp filt (i / p.cout) (i % p.cout)) (i % p.cout))) = some out := by
    unfold zpFinishFl; rw [if_pos hzp, f2]
  refine ⟨out, ?_, ?_, by rw [f3]; simp, f4⟩
  · unfold evalIndFloatFl
    simp only [g1, ht, Option.bind_eq_bind, Option.bind_some]
    rw [e3]
    exact g2
  · intro hg fat blocks order hs hord
    obtain ⟨trs, k1, k2⟩ := bgemmTraces_eq hok hg hgeo hrun fat hs
    have k3 := applyWrites_perm hs k2 (out0 := out0)
      (by
        intro i j hi hj
        have := row_lt hj hi
        rw [h0]; omega)
      (by
        intro x hx
        rw [h0] at hx
        obtain ⟨a1, a2⟩ := mod_lt_of_lt_mul hx
        exact ⟨x % p.cout, x / p.cout, a2, a1, by rw [Nat.add_comm, div_mul_add_mod]⟩)
      (hord _)
    unfold evalBGemmFloatFl
    simp only [g1, ht, Option.bind_eq_bind, Option.bind_some, k1]
    rw [k3]
    exact g2

/-- **C73.** Zero padding in float arithmetic: the indirect kernel and the BGEMM kernel (any schedule, any interleaving of the
blocks' writes) write the same floats, and every element differs from `conv * multiplier + bias` by at most
`8 * 2^-24 * (|bias| + K * |multiplier|) + 2^-146`, for dot products of length `K` up to `2^23` and channels whose numbers stay
below `2^125`. `conv` pads with zeros where the kernels correct the padding (`Corrected`: C17), elsewhere with ones. -/
theorem C73_float_error (h32 : RoundsToNearest R.fl) (h64 : RoundsToNearest64 R.dl) {mult bias out0 : List Rat}
    (hok : p.Ok inp filt) (hgeo : p.Geom) (hsame : p.padding = .same)
    (hz : p.padValue = 0) (hsh : 1 ≤ p.strideH) (hsw : 1 ≤ p.strideW)
    (hfh : 0 < p.filtH) (hfw : 0 < p.filtW) (hci : 0 < p.cin) (hco : 0 < p.cout)
    (hm : mult.length = p.cout) (hb : bias.length = p.cout)
    (hK : 2 * (p.filtH * p.filtW * (p.cin / p.groups)) ≤ 2 ^ 24)
    (hmul : ∀ c, c < p.cout → Binary32 (mult.getD c 0))
    (hr : ∀ c, c < p.cout → |bias.getD c 0| + 4 * (((p.filtH * p.filtW * (p.cin / p.groups) : Nat) : Rat) * |mult.getD c 0|)
      ≤ 2 ^ (125 : Int))
    (h0 : out0.length = p.batches * p.outH * p.outW * p.cout) :
    ∃ out, evalIndFloatFl R p .none mult bias inp filt out0 = some out ∧
      (p.groups = 1 → ∀ (fat : Bool) (blocks : List Blk) (order : List (Write Rat) → List (Write Rat)),
        Schedule p.cout (p.batches * p.outH * p.outW) 1 1 blocks → (∀ l, (order l).Perm l) →
        evalBGemmFloatFl R p fat blocks order .none mult bias inp filt out0 = some out) ∧
      out.length = out0.length ∧
      ∀ b y x c, b < p.batches → y < p.outH → x < p.outW → c < p.cout →
        ∃ v, out[((b * p.outH + y) * p.outW + x) * p.cout + c]? = some v ∧
          |v - ((p.conv (if p.Corrected y x then 0 else 1) inp filt b y x c : Int) * mult.getD c 0 + bias.getD c 0)|
            ≤ (|bias.getD c 0| + ((p.filtH * p.filtW * (p.cin / p.groups) : Nat) : Rat) * |mult.getD c 0|) * (8 / 2 ^ 24)
              + 2 ^ (-146 : Int) := by
  have hKK : p.filtH * p.filtW * (p.cin / p.groups) = p.K := rfl
  rw [hKK] at hK hr ⊢
  have eη : 16 * etaF = (2 : Rat) ^ (-146 : Int) := by
    unfold etaF
    have : (16 : Rat) = 2 ^ (4 : Int) := by norm_num
    rw [this, ← zpow_add₀ (by norm_num)]
    rfl
  have e24 : (8 / 2 ^ 24 : Rat) = 8 / 16777216 := by norm_num
  rw [← eη, e24]
  have base : ∀ a c : Nat, a ≤ p.K → c < p.cout → |(flRun R.fl R.fused (((p.K : Int) - ((p.K : Int) - 2 * a) : Int) : Rat)
          (R.fl (R.dl (R.dl (-1 * mult.getD c 0) / 1)))
          (R.fl (R.dl (R.dl (R.dl (bias.getD c 0 + R.dl (((p.K : Int) : Rat) * mult.getD c 0)) / 1) + 0))))
        - ((((p.K : Int) - 2 * a : Int) : Rat) * mult.getD c 0 + bias.getD c 0)|
      ≤ (|bias.getD c 0| + (p.K : Rat) * |mult.getD c 0|) * (5 / 16777216) + 8 * etaF := by
    intro a c ha hc
    obtain ⟨r1, r2⟩ := apply_range .none ha
    have := (float_output_err h32 h64 R.fused hK r1 r2 (hmul c hc) (hr c hc)).1
    rw [sub_sub_cancel] at this
    exact this
  refine optimized_fl h32 hok hgeo hsame hz hsh hsw hfh hfw hci hco hm hb hK
    (Rel1 := fun c z v => |v - ((z : Int) * mult.getD c 0 + bias.getD c 0)|
      ≤ (|bias.getD c 0| + (p.K : Rat) * |mult.getD c 0|) * (5 / 16777216) + 8 * etaF)
    (Rel := fun c z v => |v - ((z : Int) * mult.getD c 0 + bias.getD c 0)|
      ≤ (|bias.getD c 0| + (p.K : Rat) * |mult.getD c 0|) * (8 / 16777216) + 16 * etaF)
    (fun c z o hc h => ?_) base (fun c z s o hc h1 h2 h => ?_) h0
  · refine le_trans h ?_
    have := etaF_pos
    have : 0 ≤ |bias.getD c 0| + (p.K : Rat) * |mult.getD c 0| := by positivity
    linarith
  · exact fl_correct_err h32 (hmul c hc) h1 h2 (hr c hc) h

/-- **C73**, exact results: with multipliers `M * 2^q` and biases `B * 2^q` for integers with `|B| + 2 K |M| ≤ 2^24` (in
particular without fused multiplier and bias) the float arithmetic of the optimized kernels, including the padding correction,
is exact. -/
theorem C73_float_exact (h32 : RoundsToNearest R.fl) (h64 : RoundsToNearest64 R.dl) {mult bias out0 : List Rat}
    (hok : p.Ok inp filt) (hgeo : p.Geom) (hsame : p.padding = .same)
    (hz : p.padValue = 0) (hsh : 1 ≤ p.strideH) (hsw : 1 ≤ p.strideW)
    (hfh : 0 < p.filtH) (hfw : 0 < p.filtW) (hci : 0 < p.cin) (hco : 0 < p.cout)
    (hm : mult.length = p.cout) (hb : bias.length = p.cout)
    (hK : 2 * (p.filtH * p.filtW * (p.cin / p.groups)) ≤ 2 ^ 24)
    (hint : ∀ c, c < p.cout → ∃ M B q : Int, -149 ≤ q ∧ q ≤ 103 ∧ mult.getD c 0 = (M : Rat) * 2 ^ q ∧
      bias.getD c 0 = (B : Rat) * 2 ^ q ∧ |B| + 2 * (((p.filtH * p.filtW * (p.cin / p.groups) : Nat) : Int) * |M|) ≤ 2 ^ 24)
    (h0 : out0.length = p.batches * p.outH * p.outW * p.cout) :
    ∃ out, evalIndFloatFl R p .none mult bias inp filt out0 = some out ∧
      (p.groups = 1 → ∀ (fat : Bool) (blocks : List Blk) (order : List (Write Rat) → List (Write Rat)),
        Schedule p.cout (p.batches * p.outH * p.outW) 1 1 blocks → (∀ l, (order l).Perm l) →
        evalBGemmFloatFl R p fat blocks order .none mult bias inp filt out0 = some out) ∧
      out.length = out0.length ∧
      ∀ b y x c, b < p.batches → y < p.outH → x < p.outW → c < p.cout →
        out[((b * p.outH + y) * p.outW + x) * p.cout + c]?
          = some ((p.conv (if p.Corrected y x then 0 else 1) inp filt b y x c : Int) * mult.getD c 0 + bias.getD c 0) := by
  have hKK : p.filtH * p.filtW * (p.cin / p.groups) = p.K := rfl
  rw [hKK] at hK hint
  obtain ⟨out, e1, e2, e3, e4⟩ := optimized_fl h32 hok hgeo hsame hz hsh hsw hfh hfw hci hco hm hb hK
    (Rel1 := fun c z v => v = (z : Int) * mult.getD c 0 + bias.getD c 0)
    (Rel := fun c z v => v = (z : Int) * mult.getD c 0 + bias.getD c 0) (fun _ _ _ _ h => h)
    (fun a c ha hc => by
      obtain ⟨M, B, q, q1, q2, q3, q4, q5⟩ := hint c hc
      obtain ⟨r1, r2⟩ := apply_range .none ha
      have := float_output_exact h32 h64 R.fused hK r1 r2 q1 q2 q5
      rw [sub_sub_cancel, ← q3, ← q4] at this
      exact this)
    (fun c z s o hc h1 h2 ho => by
      obtain ⟨M, B, q, q1, q2, q3, q4, q5⟩ := hint c hc
      have := fl_correct_exact (R := R) h32 q1 q2 h1 h2 q5
      rw [← q3, ← q4] at this
      rw [ho]
      exact this) h0
  refine ⟨out, e1, e2, e3, ?_⟩
  intro b y x c hb hy hx hc
  obtain ⟨v, v1, v2⟩ := e4 b y x c hb hy hx hc
  rw [v1, v2]

/-- **C73**, consequence: where the kernels correct the padding and the number of channels is even, the zero-padded float
outputs of an optimized kernel and of the reference kernel differ by at most
`13 * 2^-24 * (|bias| + K * |multiplier|) + 2^-145` (only the optimized ones add a rounded correction). -/
theorem C73_close_to_reference (h32 : RoundsToNearest R.fl) (h64 : RoundsToNearest64 R.dl) {mult bias out0 : List Rat}
    (hok : p.Ok inp filt) (hgeo : p.Geom) (hsame : p.padding = .same) (heven : p.cin % 2 = 0)
    (hz : p.padValue = 0) (hsh : 1 ≤ p.strideH) (hsw : 1 ≤ p.strideW)
    (hfh : 0 < p.filtH) (hfw : 0 < p.filtW) (hci : 0 < p.cin) (hco : 0 < p.cout)
    (hm : mult.length = p.cout) (hb : bias.length = p.cout)
    (hK : 2 * (p.filtH * p.filtW * (p.cin / p.groups)) ≤ 2 ^ 24)
    (hmul : ∀ c, c < p.cout → Binary32 (mult.getD c 0))
    (hr : ∀ c, c < p.cout → |bias.getD c 0| + 4 * (((p.filtH * p.filtW * (p.cin / p.groups) : Nat) : Rat) * |mult.getD c 0|)
      ≤ 2 ^ (125 : Int))
    (h0 : out0.length = p.batches * p.outH * p.outW * p.cout) :
    ∃ out ref, evalIndFloatFl R p .none mult bias inp filt out0 = some out ∧
      evalRefFloatFl R p .none mult bias inp filt out0 = some ref ∧
      ∀ b y x c, b < p.batches → y < p.outH → x < p.outW → c < p.cout → p.Corrected y x →
        ∃ v w, out[((b * p.outH + y) * p.outW + x) * p.cout + c]? = some v ∧
          ref[((b * p.outH + y) * p.outW + x) * p.cout + c]? = some w ∧
          |v - w| ≤ (|bias.getD c 0| + ((p.filtH * p.filtW * (p.cin / p.groups) : Nat) : Rat) * |mult.getD c 0|) * (13 / 2 ^ 24)
              + 2 ^ (-145 : Int) := by
  obtain ⟨out, e1, -, -, e4⟩ := C73_float_error (R := R) h32 h64 hok hgeo hsame hz hsh hsw hfh hfw hci hco hm hb hK hmul hr h0
  obtain ⟨ref, r1, -, r3⟩ := C58_float_error (R := R) (act := .none) h32 h64 hok (fun _ _ => heven) hm hb hK hmul hr h0
  refine ⟨out, ref, e1, r1, ?_⟩
  intro b y x c hb hy hx hc hcd
  obtain ⟨v, v1, v2⟩ := e4 b y x c hb hy hx hc
  obtain ⟨w, w1, w2⟩ := r3 b y x c hb hy hx hc
  refine ⟨v, w, v1, w1, ?_⟩
  have hp : p.padVal = 0 := by unfold BConv.padVal BConv.zeroPadding; simp [hsame, hz]
  rw [hp] at w2
  rw [if_pos hcd] at v2
  simp only [Act.apply] at w2
  rw [abs_sub_comm] at w2
  refine le_trans (abs_trans3 v2 w2) ?_
  have e : (2 : Rat) ^ (-146 : Int) + 2 ^ (-147 : Int) ≤ 2 ^ (-145 : Int) := by
    have h1 : (2 : Rat) ^ (-145 : Int) = 2 * 2 ^ (-146 : Int) := by
      rw [show (-145 : Int) = 1 + -146 by norm_num, zpow_add₀ (by norm_num)]; norm_num
    have h2 : (2 : Rat) ^ (-147 : Int) ≤ 2 ^ (-146 : Int) := zpow_le_zpow_right₀ (by norm_num) (by norm_num)
    rw [h1]; linarith
  have : 0 ≤ |bias.getD c 0| + ((p.filtH * p.filtW * (p.cin / p.groups) : Nat) : Rat) * |mult.getD c 0| := by positivity
  linarith

end

/-! ### Hypotheses are met -/

/-- A 3x3 convolution of ones on a 3x3 image, 32 channels. -/
def cornerConv : BConv := ⟨1, 3, 3, 1, 32, 3, 3, 1, 1, 1, 1, 1, 1, 1, .same, 1, 1, 0, 3, 3⟩

theorem cornerConv_ok : cornerConv.Ok (List.replicate 9 0#32) (List.replicate 9 0#32) := by
  refine ⟨by decide, by decide, by decide, by decide, by decide, by decide, by decide, by decide, ?_, ?_⟩
  · intro r k b _ _ _ _
    simp only [List.getD_eq_getElem?_getD, List.getElem?_replicate]
    split <;> simp
  · intro r k b _ _ _ _
    simp only [List.getD_eq_getElem?_getD, List.getElem?_replicate]
    split <;> simp

/-- C73_float_exact: multiplier 3/4, bias -5/2. The corner is 4 * 32 * 3/4 - 5/2, in every float arithmetic that rounds to
nearest. -/
example (R : FlEnv) (h32 : RoundsToNearest R.fl) (h64 : RoundsToNearest64 R.dl) :
    ∃ out, evalIndFloatFl R cornerConv .none [3 / 4] [-5 / 2] (List.replicate 9 0#32) (List.replicate 9 0#32)
      (List.replicate 9 7) = some out ∧ out[0]? = some ((187 : Rat) / 2) := by
  obtain ⟨out, e1, -, -, e4⟩ := C73_float_exact (R := R) (mult := [3 / 4]) (bias := [-5 / 2]) (out0 := List.replicate 9 7)
    h32 h64 cornerConv_ok ⟨by decide, by decide, by decide, by decide⟩ rfl rfl (by decide) (by decide) (by decide) (by decide)
    (by decide) (by decide) rfl rfl (by decide)
    (by
      intro c hc
      have : c = 0 := by
        have : c < 1 := hc
        omega
      subst this
      exact ⟨3, -10, -2, by norm_num, by norm_num, by norm_num, by norm_num, by decide⟩) rfl
  refine ⟨out, e1, ?_⟩
  have := e4 0 0 0 0 (by decide) (by decide) (by decide) (by decide)
  rw [show ((0 * cornerConv.outH + 0) * cornerConv.outW + 0) * cornerConv.cout + 0 = 0 from by decide] at this
  rw [this, if_pos (by decide), show cornerConv.conv 0 (List.replicate 9 0#32) (List.replicate 9 0#32) 0 0 0 0 = 128 from by
    decide +kernel]
  norm_num

/-- C73_float_error, C73_close_to_reference: multiplier 3/4, bias 1/3. -/
example (R : FlEnv) (h32 : RoundsToNearest R.fl) (h64 : RoundsToNearest64 R.dl) :
    ∃ out ref, evalIndFloatFl R cornerConv .none [3 / 4] [1 / 3] (List.replicate 9 0#32) (List.replicate 9 0#32)
      (List.replicate 9 7) = some out ∧
      evalRefFloatFl R cornerConv .none [3 / 4] [1 / 3] (List.replicate 9 0#32) (List.replicate 9 0#32)
      (List.replicate 9 7) = some ref ∧ ∃ v w, out[0]? = some v ∧ ref[0]? = some w ∧ |v - w| ≤ 1 := by
  obtain ⟨out, ref, e1, e2, e3⟩ := C73_close_to_reference (R := R) (mult := [3 / 4]) (bias := [1 / 3])
    (out0 := List.replicate 9 7) h32 h64 cornerConv_ok ⟨by decide, by decide, by decide, by decide⟩ rfl (by decide) rfl
    (by decide) (by decide) (by decide) (by decide)
    (by decide) (by decide) rfl rfl (by decide)
    (by
      intro c hc
      have : c = 0 := by
        have : c < 1 := hc
        omega
      subst this
      exact ⟨3, -2, by norm_num, by norm_num, by norm_num, by norm_num⟩)
    (by
      intro c hc
      have : c = 0 := by
        have : c < 1 := hc
        omega
      subst this
      rw [show cornerConv.filtH * cornerConv.filtW * (cornerConv.cin / cornerConv.groups) = 288 from by decide]
      simp only [List.getD_cons_zero]
      norm_num [abs_of_pos]) rfl
  refine ⟨out, ref, e1, e2, ?_⟩
  obtain ⟨v, w, h1, h2, h3⟩ := e3 0 0 0 0 (by decide) (by decide) (by decide) (by decide) (by decide)
  rw [show ((0 * cornerConv.outH + 0) * cornerConv.outW + 0) * cornerConv.cout + 0 = 0 from by decide] at h1 h2
  refine ⟨v, w, h1, h2, le_trans h3 ?_⟩
  rw [show cornerConv.filtH * cornerConv.filtW * (cornerConv.cin / cornerConv.groups) = 288 from by decide]
  simp only [List.getD_cons_zero]
  norm_num [abs_of_pos]

end Verif
