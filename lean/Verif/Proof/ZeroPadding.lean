import Verif.Model.ZeroPadding
import Verif.Proof.Canonical

/-! The zero-padding correction. -/

namespace Verif

open Finset

/-- Sum of the weights of one filter pixel, as the code computes it. -/
def zpW (p : BConv) (filt : List Word) (oc fy fx : Nat) : Int :=
  (p.cinG : Int) - 2 * ((∑ k ∈ range p.filtDepth, xorPopcount (p.filtWord filt oc fy fx k) 0#32 : Nat) : Int)

theorem zpPixel_eq {p : BConv} {inp filt : List Word} (h : p.Ok inp filt) {oc fy fx : Nat}
    (hoc : oc < p.cout) (hfy : fy < p.filtH) (hfx : fx < p.filtW) :
    zpPixel p filt oc fy fx = some (zpW p filt oc fy fx) := by
  unfold zpPixel zpW
  have hpc : packedSize (p.cin / p.groups) = p.filtDepth := by
    rw [packedSize_eq, h.filtDepth]; rfl
  simp only [hpc]
  rw [forN_sum _ (fun k => xorPopcount (p.filtWord filt oc fy fx k) 0#32) 0]
  · simp [BConv.cinG]
  · intro k acc hk
    have e : oc * (p.filtH * p.filtW * p.filtDepth) + fy * (p.filtW * p.filtDepth) + fx * p.filtDepth + k
        = offset4 p.filtH p.filtW p.filtDepth oc fy fx k := by unfold offset4; ring
    rw [e, rd_getD (by rw [h.filtLen]; exact offset4_lt hoc hfy hfx hk)]
    rfl

/-- The sum of the weights of a filter pixel. -/
theorem zpW_eq {p : BConv} {inp filt : List Word} (h : p.Ok inp filt) {oc fy fx : Nat}
    (hoc : oc < p.cout) (hfy : fy < p.filtH) (hfx : fx < p.filtW) :
    zpW p filt oc fy fx = ∑ c ∈ range p.cinG, p.weight filt oc fy fx c := by
  unfold zpW
  have hfrow : (oc * p.filtH + fy) * p.filtW + fx < p.cout * p.filtH * p.filtW :=
    row_lt (row_lt hoc hfy) hfx
  rw [h.filtDepth, dot_words (fun k => p.filtWord filt oc fy fx k) (fun _ => 0#32)]
  · apply sum_congr rfl
    intro c _
    unfold BConv.filtWord BConv.weight pm offset4
    rw [← h.filtDepth]
    simp [signVal]
  · intro k i hk hi hc
    unfold BConv.filtWord offset4
    exact h.filtUnused _ k i hfrow (by rw [h.filtDepth]; exact hk) hi hc
  · simp

/-- The correction in direction `dir`. -/
def zpS (p : BConv) (filt : List Word) (dir y x oc : Nat) : Int :=
  ∑ fy ∈ range p.filtH, ∑ fx ∈ range p.filtW, if zpCond p dir y x fy fx then zpW p filt oc fy fx else 0

theorem zpCorrections_eq {p : BConv} {inp filt : List Word} (h : p.Ok inp filt) {y x oc : Nat}
    (hoc : oc < p.cout) :
    zpCorrections p filt y x oc
      = some (zpS p filt 0 y x oc, zpS p filt 1 y x oc, zpS p filt 2 y x oc, zpS p filt 3 y x oc) := by
  unfold zpCorrections
  let T : Nat → Nat → Int := fun dir n => ∑ fy ∈ range n, ∑ fx ∈ range p.filtW,
    if zpCond p dir y x fy fx then zpW p filt oc fy fx else 0
  obtain ⟨s', h1, h2⟩ := forN_inv (n := p.filtH) (s := ((0, 0, 0, 0) : Int × Int × Int × Int))
    (body := fun fy c =>
    forN p.filtW (fun fx (c : Int × Int × Int × Int) => do
      let cur ← zpPixel p filt oc fy fx
      some (if zpCond p 0 y x fy fx then c.1 + cur else c.1,
        if zpCond p 1 y x fy fx then c.2.1 + cur else c.2.1,
        if zpCond p 2 y x fy fx then c.2.2.1 + cur else c.2.2.1,
        if zpCond p 3 y x fy fx then c.2.2.2 + cur else c.2.2.2)) c)
    (fun n c => c = (T 0 n, T 1 n, T 2 n, T 3 n))
    (by simp [T])
    (by
      rintro fy s hfy rfl
      let U : Nat → Nat → Int := fun dir n => T dir fy + ∑ fx ∈ range n,
        if zpCond p dir y x fy fx then zpW p filt oc fy fx else 0
      obtain ⟨s', h1, h2⟩ := forN_inv (n := p.filtW) (s := (T 0 fy, T 1 fy, T 2 fy, T 3 fy))
        (body := fun fx (c : Int × Int × Int × Int) => do
          let cur ← zpPixel p filt oc fy fx
          some (if zpCond p 0 y x fy fx then c.1 + cur else c.1,
            if zpCond p 1 y x fy fx then c.2.1 + cur else c.2.1,
            if zpCond p 2 y x fy fx then c.2.2.1 + cur else c.2.2.1,
            if zpCond p 3 y x fy fx then c.2.2.2 + cur else c.2.2.2))
        (fun n c => c = (U 0 n, U 1 n, U 2 n, U 3 n))
        (by simp [U])
        (by
          rintro fx s hfx rfl
          rw [zpPixel_eq h hoc hfy hfx]
          refine ⟨_, rfl, ?_⟩
          have hite : ∀ dir, (if zpCond p dir y x fy fx then U dir fx + zpW p filt oc fy fx else U dir fx)
              = U dir (fx + 1) := by
            intro dir
            simp only [U, sum_range_succ]
            split
            · ring
            · ring
          simp only [hite])
      refine ⟨s', h1, ?_⟩
      rw [h2]
      simp only [U, T, sum_range_succ])
  rw [h1, h2]
  rfl

theorem zpSelect_eq {α : Type} (f : Nat → α) {dir : Nat} (h : dir < 4) : zpSelect (f 0, f 1, f 2, f 3) dir = f dir := by
  have : dir = 0 ∨ dir = 1 ∨ dir = 2 ∨ dir = 3 := by omega
  rcases this with rfl | rfl | rfl | rfl <;> rfl

/-- The contents of the cache. -/
theorem zpCache_eq {p : BConv} {inp filt : List Word} (h : p.Ok inp filt) {mult : List Rat}
    (hm : mult.length = p.cout) {cache0 : List Rat} (hc : cache0.length = zpCacheSize p) :
    ∃ cache, zpCache p filt mult cache0 = some cache ∧ cache.length = zpCacheSize p ∧
      ∀ dir y x oc, dir < 4 → y < p.effH → x < p.effW → oc < p.cout →
        cache[offset4 p.effH p.effW p.cout dir y x oc]?
          = some (-1 * mult.getD oc 0 * (zpS p filt dir y x oc : Rat)) := by
  unfold zpCache
  set f : Nat → Rat := fun i => -1 * mult.getD (i % p.cout) 0 *
    (zpS p filt (i / p.cout / p.effW / p.effH) (i / p.cout / p.effW % p.effH) (i / p.cout % p.effW) (i % p.cout) : Rat)
    with hf
  have hfv : ∀ {dir y x oc}, y < p.effH → x < p.effW → oc < p.cout →
      f (offset4 p.effH p.effW p.cout dir y x oc) = -1 * mult.getD oc 0 * (zpS p filt dir y x oc : Rat) := by
    intro dir y x oc hy hx hoc
    obtain ⟨e1, e2, e3, e4⟩ := offset4_decode (b := dir) hy hx hoc
    unfold dB at e1; unfold dY at e2; unfold dX at e3; unfold dC at e4
    rw [hf]; simp only []
    rw [e1, e2, e3, e4]
  obtain ⟨s', h1, h2⟩ := Fills.loop (s0 := cache0) (s := cache0) (n := p.effH) (f := f) (W0 := fun _ => False)
    (body := fun y cache =>
      forN p.effW (fun x cache =>
        forN p.cout (fun oc cache => do
          let c ← zpCorrections p filt y x oc
          forN 4 (fun dir cache => do
            let m ← rd mult oc
            wr cache (dir * (p.effH * p.effW * p.cout) + y * (p.effW * p.cout) + x * p.cout + oc)
              (-1 * m * ((zpSelect c dir : Int) : Rat))) cache) cache) cache)
    (fun y i => ∃ x, x < p.effW ∧ ∃ oc, oc < p.cout ∧ ∃ dir, dir < 4 ∧ i = offset4 p.effH p.effW p.cout dir y x oc)
    (Fills.init cache0 f (fun _ _ h => h))
    (by
      intro y W s hy hs
      refine Fills.loop (n := p.effW) _ hs ?_
      intro x W s hx hs
      refine Fills.loop (n := p.cout) _ hs ?_
      intro oc W s hoc hs
      rw [zpCorrections_eq h hoc]
      simp only [Option.bind_eq_bind, Option.bind_some]
      refine Fills.loop (n := 4) _ hs ?_
      intro dir W s hdir hs
      have e1 : rd mult oc = some (mult.getD oc 0) := by simp [rd, hm, hoc]
      have e2 : dir * (p.effH * p.effW * p.cout) + y * (p.effW * p.cout) + x * p.cout + oc
          = offset4 p.effH p.effW p.cout dir y x oc := by unfold offset4; ring
      rw [e1, e2, zpSelect_eq (fun dir => zpS p filt dir y x oc) hdir]
      simp only [Option.bind_some]
      refine hs.write ?_ (hfv hy hx hoc).symm
      rw [hc]
      exact offset4_lt hdir hy hx hoc)
  refine ⟨s', h1, by rw [h2.len, hc], ?_⟩
  intro dir y x oc hdir hy hx hoc
  rw [h2.hit _ (by rw [hc]; exact offset4_lt hdir hy hx hoc)
    (Or.inr ⟨y, hy, x, hx, oc, hoc, dir, hdir, rfl⟩), hfv hy hx hoc]

/-- The first `N` cells of `s` are those of `out0` after the update `g`, the others are
unchanged. -/
def Prog {α : Type} (out0 : List α) (g : Nat → α → α) (N : Nat) (s : List α) : Prop :=
  s.length = out0.length ∧ ∀ i : Nat, s[i]? = (out0[i]?).map fun o => if i < N then g i o else o

theorem Prog.init {α : Type} (out0 : List α) (g : Nat → α → α) : Prog out0 g 0 out0 := by
  refine ⟨rfl, ?_⟩
  intro i
  simp

theorem Prog.skip {α : Type} {out0 : List α} {g : Nat → α → α} {N N' : Nat} {s : List α} (h : Prog out0 g N s)
    (hN : N ≤ N') (hz : ∀ i, N ≤ i → i < N' → i < out0.length → ∀ o, g i o = o) : Prog out0 g N' s := by
  refine ⟨h.1, ?_⟩
  intro i
  rw [h.2 i]
  cases ho : out0[i]? with
  | none => rfl
  | some o =>
    have hi := (List.getElem?_eq_some_iff.1 ho).1
    refine congrArg some ?_
    by_cases h1 : i < N
    · simp only [if_pos h1, if_pos (show i < N' by omega)]
    · by_cases h2 : i < N'
      · simp only [if_neg h1, if_pos h2, hz i (by omega) h2 hi]
      · simp only [if_neg h1, if_neg h2]

theorem Prog.step {α : Type} {out0 : List α} {g : Nat → α → α} {N : Nat} {s : List α} (h : Prog out0 g N s)
    (hN : N < out0.length) {add : α → α → α} {v : α} (hv : ∀ o, add o v = g N o) :
    ∃ s', (do
      let o ← rd s N
      wr s N (add o v)) = some s' ∧ Prog out0 g (N + 1) s' := by
  have e : rd s N = some out0[N] := by
    unfold rd; rw [h.2 N, List.getElem?_eq_getElem hN]; simp
  have hl : N < s.length := by rw [h.1]; exact hN
  refine ⟨s.set N (add out0[N] v), ?_, ?_, ?_⟩
  · rw [e]
    simp only [Option.bind_eq_bind, Option.bind_some, wr, if_pos hl]
  · simp [h.1]
  · intro i
    by_cases he : i = N
    · subst he
      rw [List.getElem?_set_self hl, List.getElem?_eq_getElem hN, Option.map_some, if_pos (by omega), hv]
    · rw [List.getElem?_set_ne (fun e => he e.symm), h.2 i]
      refine congrArg (fun f => Option.map f _) ?_
      funext o
      by_cases h1 : i < N
      · rw [if_pos h1, if_pos (by omega)]
      · rw [if_neg h1, if_neg (by omega)]

/-- The correction of an output element, read from the cache; `none` if the element is left alone. -/
def zpValO {α : Type} (p : BConv) (C : Nat → Nat → Nat → Nat → α) (oy ox oc : Nat) : Option α :=
  let top := zpOffset p.outH p.strideH p.effH p.inH - (oy : Int) * p.strideH
  let bot := -top - p.inH + p.effH
  let left := zpOffset p.outW p.strideW p.effW p.inW - (ox : Int) * p.strideW
  let right := -left - p.inW + p.effW
  match zpCase left right top bot with
  | none => none
  | some (dir, cy, cx) => some (C dir cy.toNat cx.toNat oc)

/-- An output element after the correction. -/
def zpUpd {α : Type} (add : α → α → α) (v : Option α) (o : α) : α :=
  match v with
  | none => o
  | some v => add o v

/-- The correction of an output element; 0 if it is left alone. -/
def zpVal (p : BConv) (C : Nat → Nat → Nat → Nat → Rat) (oy ox oc : Nat) : Rat :=
  let top := zpOffset p.outH p.strideH p.effH p.inH - (oy : Int) * p.strideH
  let bot := -top - p.inH + p.effH
  let left := zpOffset p.outW p.strideW p.effW p.inW - (ox : Int) * p.strideW
  let right := -left - p.inW + p.effW
  match zpCase left right top bot with
  | none => 0
  | some (dir, cy, cx) => C dir cy.toNat cx.toNat oc

theorem zpVal_eq_getD (p : BConv) (C : Nat → Nat → Nat → Nat → Rat) (oy ox oc : Nat) :
    zpVal p C oy ox oc = (zpValO p C oy ox oc).getD 0 := by
  unfold zpVal zpValO
  dsimp only
  cases zpCase _ _ _ _ with
  | none => rfl
  | some v => rfl

/-- In the interior there is no case. -/
theorem zpCase_interior {left right top bot : Int} (h1 : left ≤ 0) (h2 : right ≤ 0) (h3 : top ≤ 0)
    (h4 : bot ≤ 0) : zpCase left right top bot = none := by
  unfold zpCase
  rw [if_neg (by omega), if_neg (by omega), if_neg (by omega), if_neg (by omega)]

/-- SAME padding: the filter sticks out by less than its size, on each side. -/
theorem same_offset {o stride eff inS : Nat} (hs : 1 ≤ stride) (he : 1 ≤ eff)
    (ho : (o : Int) = ((inS : Int) + stride - 1).tdiv stride) {x : Nat} (hx : x < o) :
    zpOffset o stride eff inS - (x : Int) * stride < eff ∧
    -(zpOffset o stride eff inS - (x : Int) * stride) - inS + eff < eff := by
  have h1 : (o : Int) * stride ≤ inS + stride - 1 := by
    rw [ho, Int.tdiv_eq_ediv_of_nonneg (by omega)]
    exact Int.ediv_mul_le _ (by omega)
  have h2 : ((o : Int) - 1) * stride = o * stride - stride := by ring
  have h3 : (x : Int) * stride ≤ (o - 1) * stride :=
    mul_le_mul_of_nonneg_right (by omega) (by omega)
  have h4 : (0 : Int) ≤ (x : Int) * stride := by positivity
  unfold zpOffset
  generalize (o : Int) * stride = os at *
  generalize (x : Int) * stride = xs at *
  rw [h2]
  generalize htot : os - stride + eff - inS = t
  rw [h2] at h3
  rcases Int.le_total 0 t with ht | ht
  · rw [Int.tdiv_eq_ediv_of_nonneg ht]; omega
  · have h5 : t.tdiv 2 = -((-t).tdiv 2) := by rw [Int.neg_tdiv]; omega
    rw [h5, Int.tdiv_eq_ediv_of_nonneg (by omega)]
    omega

/-- The cache coordinates are in range. -/
theorem zpCase_range {left right top bot : Int} {H W : Int} (hl : left < W) (hr : right < W) (ht : top < H)
    (hb : bot < H) (hW : 0 < W) (hH : 0 < H) {dir : Nat} {cy cx : Int}
    (h : zpCase left right top bot = some (dir, cy, cx)) :
    dir < 4 ∧ 0 ≤ cy ∧ cy < H ∧ 0 ≤ cx ∧ cx < W := by
  unfold zpCase at h
  split at h
  · simp only [Option.some.injEq, Prod.mk.injEq] at h
    obtain ⟨rfl, rfl, rfl⟩ := h
    split <;> omega
  · split at h
    · simp only [Option.some.injEq, Prod.mk.injEq] at h
      obtain ⟨rfl, rfl, rfl⟩ := h
      split <;> omega
    · split at h
      · simp only [Option.some.injEq, Prod.mk.injEq] at h
        obtain ⟨rfl, rfl, rfl⟩ := h
        split <;> omega
      · split at h
        · simp only [Option.some.injEq, Prod.mk.injEq] at h
          obtain ⟨rfl, rfl, rfl⟩ := h
          split <;> omega
        · cases h

theorem effSize_pos (f d : Nat) : 1 ≤ effSize f d := by unfold effSize; omega

/-- `ApplyCorrection` updates every output element with its correction. -/
theorem zpApplyWith_eq {α : Type} (add : α → α → α) {p : BConv} (hsame : p.padding = .same) (hgeo : p.Geom) (hsh : 1 ≤ p.strideH)
    (hsw : 1 ≤ p.strideW) {cache : List α} {C : Nat → Nat → Nat → Nat → α}
    (hC : ∀ dir y x oc, dir < 4 → y < p.effH → x < p.effW → oc < p.cout →
      cache[offset4 p.effH p.effW p.cout dir y x oc]? = some (C dir y x oc))
    {out0 : List α} (hout : out0.length = p.batches * p.outH * p.outW * p.cout) :
    ∃ out, zpApplyWith add p cache out0 = some out ∧ out.length = out0.length ∧
      ∀ b y x c, b < p.batches → y < p.outH → x < p.outW → c < p.cout →
        out[offset4 p.outH p.outW p.cout b y x c]?
          = (out0[offset4 p.outH p.outW p.cout b y x c]?).map (zpUpd add (zpValO p C y x c)) := by
  have gH : (p.outH : Int) = ((p.inH : Int) + p.strideH - 1).tdiv p.strideH := by
    have := hgeo.outH; rw [hsame] at this; exact this
  have gW : (p.outW : Int) = ((p.inW : Int) + p.strideW - 1).tdiv p.strideW := by
    have := hgeo.outW; rw [hsame] at this; exact this
  let c : Nat → α → α := fun i => zpUpd add (zpValO p C (i / p.cout / p.outW % p.outH) (i / p.cout % p.outW) (i % p.cout))
  have hcv : ∀ {b y x oc}, y < p.outH → x < p.outW → oc < p.cout →
      c (((b * p.outH + y) * p.outW + x) * p.cout + oc) = zpUpd add (zpValO p C y x oc) := by
    intro b y x oc hy hx hoc
    obtain ⟨e1, e2, e3, e4⟩ := offset4_decode (b := b) hy hx hoc
    unfold offset4 at e1 e2 e3 e4
    unfold dY at e2; unfold dX at e3; unfold dC at e4
    simp only [c]
    rw [e2, e3, e4]
  have key : ∃ out, zpApplyWith add p cache out0 = some out ∧ Prog out0 c (p.batches * p.outH * p.outW * p.cout) out := by
    unfold zpApplyWith
    refine forN_inv (n := p.batches) (fun b s => Prog out0 c (b * p.outH * p.outW * p.cout) s)
      (by simpa using Prog.init out0 c) ?_
    intro b s hb hs
    have := forN_inv (n := p.outH) (s := s)
      (body := fun oy out =>
        if 0 < p.outW then
          (doWhile (fun (st : Int × List α) => decide (st.1 < (p.outW : Int))) (zpStepWith add p cache b oy)
            (p.outW + 1) (0, out)).map (·.2)
        else some out)
      (fun oy s => Prog out0 c ((b * p.outH + oy) * p.outW * p.cout) s)
      (by simpa using hs) ?_
    · obtain ⟨s', e1, e2⟩ := this
      refine ⟨s', e1, ?_⟩
      have e : (b * p.outH + p.outH) * p.outW * p.cout = (b + 1) * p.outH * p.outW * p.cout := by ring
      rwa [e] at e2
    · intro oy s hoy hs
      by_cases hW : 0 < p.outW
      · rw [if_pos hW]
        -- the out_x loop
        have hdw := doWhile_inv (cond := fun (st : Int × List α) => decide (st.1 < (p.outW : Int)))
          (body := zpStepWith add p cache b oy)
          (fun st => ∃ x : Nat, st.1 = x ∧ x < p.outW ∧ Prog out0 c (((b * p.outH + oy) * p.outW + x) * p.cout) st.2)
          (fun st => Prog out0 c (((b * p.outH + oy) * p.outW + p.outW) * p.cout) st.2)
          (fun st => p.outW - st.1.toNat)
          (by
            rintro ⟨xi, s⟩ ⟨x, hx1, hx, hP⟩
            simp only at hx1 hP
            subst hx1
            have bt := same_offset hsh (effSize_pos p.filtH p.dilH) gH hoy
            have bl := same_offset hsw (effSize_pos p.filtW p.dilW) gW hx
            have hpix : ∀ n, n ≤ p.outW → ((b * p.outH + oy) * p.outW + n) * p.cout ≤ out0.length := by
              intro n hn
              rw [hout]
              apply Nat.mul_le_mul_right
              have h1 : b * p.outH + oy + 1 ≤ p.batches * p.outH := row_lt hb hoy
              calc (b * p.outH + oy) * p.outW + n ≤ (b * p.outH + oy) * p.outW + p.outW := by omega
                _ = (b * p.outH + oy + 1) * p.outW := by ring
                _ ≤ p.batches * p.outH * p.outW := Nat.mul_le_mul_right _ h1
            -- skipping from `x` to `x'`
            have hskip : ∀ x' : Nat, x ≤ x' → x' ≤ p.outW →
                (∀ x'', x ≤ x'' → x'' < x' → ∀ oc, zpValO p C oy x'' oc = none) →
                Prog out0 c (((b * p.outH + oy) * p.outW + x') * p.cout) s := by
              intro x' hxx hx' hz
              apply hP.skip (Nat.mul_le_mul_right _ (by omega))
              intro i hi1 hi2 _
              have hco : 0 < p.cout := by
                rcases Nat.eq_zero_or_pos p.cout with h0 | h0
                · rw [h0, Nat.mul_zero] at hi2; omega
                · exact h0
              have q1 : (b * p.outH + oy) * p.outW + x ≤ i / p.cout := (Nat.le_div_iff_mul_le hco).2 hi1
              have q2 : i / p.cout < (b * p.outH + oy) * p.outW + x' := (Nat.div_lt_iff_lt_mul hco).2 hi2
              have q3 := hcv (b := b) (x := i / p.cout - (b * p.outH + oy) * p.outW) (oc := i % p.cout) hoy
                (by omega) (Nat.mod_lt _ hco)
              have q4 : (b * p.outH + oy) * p.outW + (i / p.cout - (b * p.outH + oy) * p.outW) = i / p.cout := by
                omega
              rw [q4, div_mul_add_mod] at q3
              rw [q3, hz _ (by omega) (by omega) _]
              exact fun o => rfl
            -- how to conclude
            have hfin : ∀ (x' : Nat) (s' : List α), x < x' →
                Prog out0 c (((b * p.outH + oy) * p.outW + min x' p.outW) * p.cout) s' →
                (decide (((x' : Int)) < (p.outW : Int)) = true →
                  (∃ n : Nat, (x' : Int) = n ∧ n < p.outW ∧
                    Prog out0 c (((b * p.outH + oy) * p.outW + n) * p.cout) s') ∧
                  p.outW - (x' : Int).toNat < p.outW - ((x : Int)).toNat) ∧
                (decide (((x' : Int)) < (p.outW : Int)) = false →
                  Prog out0 c (((b * p.outH + oy) * p.outW + p.outW) * p.cout) s') := by
              intro x' s' hxx hp'
              constructor
              · intro hd
                have hd : x' < p.outW := by simpa using hd
                rw [Nat.min_eq_left (by omega)] at hp'
                exact ⟨⟨x', rfl, hd, hp'⟩, by omega⟩
              · intro hd
                have hd : p.outW ≤ x' := by simpa using hd
                rwa [Nat.min_eq_right hd] at hp'
            unfold zpStepWith
            simp only []
            set topOff := zpOffset p.outH p.strideH p.effH p.inH with htopOff
            set leftOff := zpOffset p.outW p.strideW p.effW p.inW with hleftOff
            set top := topOff - (oy : Int) * p.strideH with htop
            set left := leftOff - (x : Int) * p.strideW with hleft
            by_cases hint : left ≤ 0 ∧ -left - p.inW + p.effW ≤ 0 ∧ top ≤ 0 ∧ -top - p.inH + p.effH ≤ 0
            · rw [if_pos hint]
              obtain ⟨i1, i2, i3, i4⟩ := hint
              refine ⟨_, rfl, ?_⟩
              simp only
              set num : Int := (p.inW : Int) + leftOff - p.effW + p.strideW - 1 with hnum
              have hxs : (0 : Int) ≤ (x : Int) * p.strideW := by positivity
              have hnn : 0 ≤ num := by omega
              -- pixels in between are interior
              have hz : ∀ x'' : Nat, x ≤ x'' → ((x'' : Int) = x ∨ (x'' : Int) ≤ num.tdiv p.strideW - 1) →
                  ∀ oc, zpValO p C oy x'' oc = none := by
                intro x'' hx1 hx2 oc
                have hle : (x : Int) * p.strideW ≤ (x'' : Int) * p.strideW :=
                  mul_le_mul_of_nonneg_right (by omega) (by omega)
                have hr : -(leftOff - (x'' : Int) * p.strideW) - p.inW + p.effW ≤ 0 := by
                  rcases hx2 with hx2 | hx2
                  · rw [hx2]; exact i2
                  · rw [Int.tdiv_eq_ediv_of_nonneg hnn] at hx2
                    have h1 := Int.ediv_mul_le num (b := (p.strideW : Int)) (by omega)
                    have h2 : ((x'' : Int) + 1) * p.strideW ≤ num / p.strideW * p.strideW :=
                      mul_le_mul_of_nonneg_right (by omega) (by omega)
                    have h3 : ((x'' : Int) + 1) * p.strideW = (x'' : Int) * p.strideW + p.strideW := by ring
                    omega
                unfold zpValO
                simp only []
                rw [zpCase_interior (by omega) hr (by omega) (by omega)]
              by_cases hnew : num.tdiv p.strideW - 1 > (x : Int)
              · rw [if_pos hnew]
                have e : num.tdiv p.strideW - 1 + 1 = (((num.tdiv p.strideW).toNat : Nat) : Int) := by omega
                rw [e]
                apply hfin _ _ (by omega)
                apply hskip _ (by omega) (by omega)
                intro x'' h1 h2 oc
                exact hz x'' h1 (Or.inr (by omega)) oc
              · rw [if_neg hnew]
                have e : (x : Int) + 1 = ((x + 1 : Nat) : Int) := by push_cast; rfl
                rw [e]
                apply hfin _ _ (by omega)
                apply hskip _ (by omega) (by omega)
                intro x'' h1 h2 oc
                exact hz x'' h1 (Or.inl (by omega)) oc
            · rw [if_neg hint]
              cases hcase : zpCase left (-left - p.inW + p.effW) top (-top - p.inH + p.effH) with
              | none =>
                refine ⟨_, rfl, ?_⟩
                simp only
                have e : (x : Int) + 1 = ((x + 1 : Nat) : Int) := by push_cast; rfl
                rw [e]
                apply hfin _ _ (by omega)
                rw [Nat.min_eq_left (by omega)]
                apply hskip _ (by omega) (by omega)
                intro x'' h1 h2 oc
                have : x'' = x := by omega
                subst this
                unfold zpValO
                simp only []
                rw [← htopOff, ← hleftOff, ← htop, ← hleft, hcase]
              | some v =>
                obtain ⟨dir, cy, cx⟩ := v
                obtain ⟨r1, r2, r3, r4, r5⟩ := zpCase_range (H := p.effH) (W := p.effW) bl.1 bl.2 bt.1 bt.2
                  (by have := effSize_pos p.filtW p.dilW; unfold BConv.effW; omega)
                  (by have := effSize_pos p.filtH p.dilH; unfold BConv.effH; omega) hcase
                obtain ⟨cy, rfl⟩ := Int.eq_ofNat_of_zero_le r2
                obtain ⟨cx, rfl⟩ := Int.eq_ofNat_of_zero_le r4
                have hcy : cy < p.effH := by omega
                have hcx : cx < p.effW := by omega
                simp only
                obtain ⟨s', e1, e2⟩ := forN_inv (n := p.cout) (s := s)
                  (body := fun oc out => do
                    let v ← rdI cache ((dir : Int) * (p.effH * p.effW * p.cout) + (cy : Int) * (p.effW * p.cout)
                      + (cx : Int) * p.cout + oc)
                    let o ← rdI out ((b : Int) * p.outH * p.outW * p.cout + oy * p.outW * p.cout + x * p.cout + oc)
                    wrI out ((b : Int) * p.outH * p.outW * p.cout + oy * p.outW * p.cout + x * p.cout + oc) (add o v))
                  (fun n s => Prog out0 c (((b * p.outH + oy) * p.outW + x) * p.cout + n) s)
                  (by simpa using hP)
                  (by
                    intro oc s hoc hs
                    have k1 : (dir : Int) * (p.effH * p.effW * p.cout) + (cy : Int) * (p.effW * p.cout)
                        + (cx : Int) * p.cout + oc = ((offset4 p.effH p.effW p.cout dir cy cx oc : Nat) : Int) := by
                      unfold offset4; push_cast; ring
                    have k2 : (b : Int) * p.outH * p.outW * p.cout + oy * p.outW * p.cout + x * p.cout + oc
                        = ((((b * p.outH + oy) * p.outW + x) * p.cout + oc : Nat) : Int) := by
                      push_cast; ring
                    rw [k1, k2]
                    simp only [rdI_natCast, wrI_natCast]
                    have k3 : rd cache (offset4 p.effH p.effW p.cout dir cy cx oc) = some (C dir cy cx oc) :=
                      hC dir cy cx oc r1 hcy hcx hoc
                    rw [k3]
                    have hlt : ((b * p.outH + oy) * p.outW + x) * p.cout + oc < out0.length := by
                      rw [hout]
                      exact row_lt (row_lt (row_lt hb hoy) hx) hoc
                    have k4 : ∀ o, add o (C dir cy cx oc) = c (((b * p.outH + oy) * p.outW + x) * p.cout + oc) o := by
                      intro o
                      rw [hcv hoy hx hoc]
                      unfold zpValO
                      simp only []
                      rw [← htopOff, ← hleftOff, ← htop, ← hleft, hcase]
                      simp [zpUpd]
                    have := hs.step hlt k4
                    simpa only [Option.bind_eq_bind, Option.bind_some, Nat.add_assoc] using this)
                refine ⟨((x : Int) + 1, s'), ?_, ?_⟩
                · rw [e1]; rfl
                · simp only
                  have e : (x : Int) + 1 = ((x + 1 : Nat) : Int) := by push_cast; rfl
                  rw [e]
                  apply hfin _ _ (by omega)
                  rw [Nat.min_eq_left (by omega)]
                  have e3 : ((b * p.outH + oy) * p.outW + x) * p.cout + p.cout
                      = ((b * p.outH + oy) * p.outW + (x + 1)) * p.cout := by ring
                  rwa [e3] at e2)
          (p.outW + 1) (0, s) ⟨0, rfl, hW, by simpa using hs⟩ (by simp)
        obtain ⟨st, e1, e2⟩ := hdw
        refine ⟨st.2, by rw [e1]; rfl, ?_⟩
        have e : ((b * p.outH + oy) * p.outW + p.outW) * p.cout = (b * p.outH + (oy + 1)) * p.outW * p.cout := by ring
        rwa [e] at e2
      · rw [if_neg hW]
        refine ⟨s, rfl, ?_⟩
        have h0 : p.outW = 0 := by omega
        rw [h0] at hs ⊢
        simpa using hs
  obtain ⟨out, e1, e2, e3⟩ := key
  refine ⟨out, e1, e2, ?_⟩
  intro b y x oc hb hy hx hoc
  have hlt : offset4 p.outH p.outW p.cout b y x oc < p.batches * p.outH * p.outW * p.cout := offset4_lt hb hy hx hoc
  rw [e3 _]
  simp only [if_pos hlt]
  refine congrArg (fun f => Option.map f _) ?_
  have := hcv (b := b) hy hx hoc
  funext o
  exact congrFun this o

/-- `ApplyCorrection` adds the correction to every output element. -/
theorem zpApply_eq {p : BConv} (hsame : p.padding = .same) (hgeo : p.Geom) (hsh : 1 ≤ p.strideH)
    (hsw : 1 ≤ p.strideW) {cache : List Rat} {C : Nat → Nat → Nat → Nat → Rat}
    (hC : ∀ dir y x oc, dir < 4 → y < p.effH → x < p.effW → oc < p.cout →
      cache[offset4 p.effH p.effW p.cout dir y x oc]? = some (C dir y x oc))
    {out0 : List Rat} (hout : out0.length = p.batches * p.outH * p.outW * p.cout) :
    ∃ out, zpApply p cache out0 = some out ∧ out.length = out0.length ∧
      ∀ b y x c, b < p.batches → y < p.outH → x < p.outW → c < p.cout →
        out[offset4 p.outH p.outW p.cout b y x c]?
          = some (out0.getD (offset4 p.outH p.outW p.cout b y x c) 0 + zpVal p C y x c) := by
  obtain ⟨out, h1, h2, h3⟩ := zpApplyWith_eq (· + ·) hsame hgeo hsh hsw hC hout
  refine ⟨out, h1, h2, ?_⟩
  intro b y x c hb hy hx hc
  have hlt : offset4 p.outH p.outW p.cout b y x c < out0.length := by rw [hout]; exact offset4_lt hb hy hx hc
  rw [h3 b y x c hb hy hx hc, zpVal_eq_getD, List.getD_eq_getElem?_getD, List.getElem?_eq_getElem hlt, Option.map_some,
    Option.getD_some]
  cases zpValO p C y x c with
  | none => simp [zpUpd]
  | some v => rfl

end Verif
