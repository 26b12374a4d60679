import Verif.Proof.OpState

/-! `OneTimeSetup` only depends on the node, and doing it again changes nothing. -/

namespace Verif

/-- Inversion rule for a loop that succeeded. -/
theorem forN_out {σ : Type _} {body : Nat → σ → Option σ} (P : Nat → σ → Prop) :
    ∀ {n : Nat} {s s' : σ}, forN n body s = some s' → P 0 s →
      (∀ i s s1, i < n → P i s → body i s = some s1 → P (i + 1) s1) → P n s'
  | 0, s, s', h, h0, _ => by rw [forN_zero] at h; cases h; exact h0
  | n + 1, s, s', h, h0, hs => by
    rw [forN_succ] at h
    cases hb : forN n body s with
    | none => rw [hb] at h; simp at h
    | some s1 =>
      rw [hb] at h
      have := forN_out P hb h0 (fun i s s1 hi => hs i s s1 (by omega))
      exact hs n s1 s' (by omega) this h

theorem wr_some {α : Type _} {xs ys : List α} {i : Nat} {v : α} :
    wr xs i v = some ys ↔ i < xs.length ∧ ys = xs.set i v := by
  unfold wr
  split
  · simp_all [eq_comm]
  · rename_i h
    simp [h]

/-- The values `OneTimeSetup` computes, given the old ones. -/
def setupVals (n : Node) (act : Act) (p : BConv) (padBuf0 : List Rat) (ot0 : OTParams) :
    Option (List Rat × OTParams) := do
  let padBuf ← (if p.zeroPadding then
      zpCache p n.filtData n.multData (vresize padBuf0 (zpCacheSize p))
    else some padBuf0)
  if n.outType = .float32 ∨ n.outType = .int8 then do
    let k ← chk32 ((p.filtH * p.filtW * (p.cin / p.groups) : Nat) : Int)
    let scale := if n.outType = .int8 then n.scale else 1
    let zp := if n.outType = .int8 then n.zp else 0
    let (m, b) ← otFuseFrom p k n.multData n.biasData scale zp
      (vresize ot0.multiplier (p.cout + 4)) (vresize ot0.bias (p.cout + 4))
    let (lo, hi) := activationRange act
    let lo := max lo (-1 * k)
    let hi := min hi k
    let cmin ← chk32 (-1 * hi + k)
    let cmax ← chk32 (-1 * lo + k)
    some (padBuf, ⟨cmin, cmax, m, b⟩)
  else some (padBuf, ot0)

theorem oneTimeSetup_eq (n : Node) (act : Act) (st : OpData) :
    oneTimeSetup n act st = (setupVals n act st.p st.padBuf st.ot).map
      (fun v => { st with padBuf := v.1, ot := v.2, setupDone := true }) := by
  unfold oneTimeSetup setupVals
  generalize (if st.p.zeroPadding then _ else _ : Option (List Rat)) = o
  cases o with
  | none => rfl
  | some pb =>
    simp only [Option.bind_eq_bind, Option.bind_some]
    split
    · generalize chk32 ((st.p.filtH * st.p.filtW * (st.p.cin / st.p.groups) : Nat) : Int) = ok
      cases ok with
      | none => rfl
      | some k =>
        simp only [Option.bind_some]
        generalize otFuseFrom _ _ _ _ _ _ _ _ = of
        cases of with
        | none => rfl
        | some mb =>
          simp only [Option.bind_some]
          generalize chk32 (_ : Int) = oc
          cases oc with
          | none => rfl
          | some cmin =>
            simp only [Option.bind_some]
            generalize chk32 (_ : Int) = oc2
            cases oc2 <;> rfl
    · rfl

/-- The parameters that do not depend on the input tensor. -/
structure SameFilter (p q : BConv) : Prop where
  cin : p.cin = q.cin
  filtH : p.filtH = q.filtH
  filtW : p.filtW = q.filtW
  filtDepth : p.filtDepth = q.filtDepth
  cout : p.cout = q.cout
  groups : p.groups = q.groups
  dilH : p.dilH = q.dilH
  dilW : p.dilW = q.dilW
  padding : p.padding = q.padding
  padValue : p.padValue = q.padValue

theorem setupVals_congr (n : Node) (act : Act) {p q : BConv} (h : SameFilter p q) (pb : List Rat) (ot : OTParams) :
    setupVals n act p pb ot = setupVals n act q pb ot := by
  obtain ⟨h1, h2, h3, h4, h5, h6, h7, h8, h9, h10⟩ := h
  cases p; cases q
  simp only at h1 h2 h3 h4 h5 h6 h7 h8 h9 h10
  subst h1 h2 h3 h4 h5 h6 h7 h8 h9 h10
  rfl

/-- Two successful `Prepare`s of the same node agree on everything but the input's shape. -/
theorem prepare_sameFilter {n : Node} {i j : InputDesc} {r s : Prepared} (hr : prepare n i = .ok r)
    (hs : prepare n j = .ok s) : SameFilter r.p s.p := by
  obtain ⟨a, g, ha, _, _, _, _, _, _, hg, _, _, _, _, _, rfl⟩ := prepare_eq_ok.1 hr
  obtain ⟨a', g', ha', _, _, _, _, _, _, hg', _, _, _, _, _, rfl⟩ := prepare_eq_ok.1 hs
  rw [ha] at ha'; cases ha'
  rw [hg] at hg'; cases hg'
  exact ⟨rfl, rfl, rfl, rfl, rfl, rfl, rfl, rfl, rfl, rfl⟩

theorem vresize_self {xs : List Rat} {n : Nat} (h : xs.length = n) : vresize xs n = xs := by
  subst h; simp [vresize]

theorem vresize_length (xs : List Rat) (n : Nat) : (vresize xs n).length = n := by
  simp [vresize]; omega

theorem vresize_nil (n : Nat) : vresize [] n = List.replicate n 0 := by simp [vresize]

theorem WriteOnly.length {α : Type} {f : List α → Option (List α)} (h : WriteOnly f) {s s' : List α}
    (e : f s = some s') : s'.length = s.length := by
  obtain ⟨t, ht⟩ := h
  rw [ht] at e
  cases t with
  | none => simp at e
  | some L => exact ((applyWrites_spec L s s').1 e).2.1

/-- What a successful run of the fusing loop leaves behind. -/
theorem otFuseFrom_out {p : BConv} {k : Int} {mult bias : List Rat} {scale zp : Rat} {m0 b0 m b : List Rat}
    (h : otFuseFrom p k mult bias scale zp m0 b0 = some (m, b)) :
    m.length = m0.length ∧ b.length = b0.length ∧
    ∀ i, i < p.cout → ∃ x y, rd mult i = some x ∧ rd bias i = some y ∧
      m[i]? = some (-1 * x / scale) ∧ b[i]? = some ((y + (k : Rat) * x) / scale + zp) := by
  unfold otFuseFrom at h
  have := forN_out (fun c (s : List Rat × List Rat) => s.1.length = m0.length ∧ s.2.length = b0.length ∧
    ∀ i, i < c → ∃ x y, rd mult i = some x ∧ rd bias i = some y ∧
      s.1[i]? = some (-1 * x / scale) ∧ s.2[i]? = some ((y + (k : Rat) * x) / scale + zp)) h
    ⟨rfl, rfl, fun i hi => by omega⟩ ?_
  · exact this
  · rintro i ⟨s1, s2⟩ ⟨t1, t2⟩ hi ⟨l1, l2, hv⟩ hb
    simp only [Option.bind_eq_bind, Option.bind_eq_some_iff, wr_some, Option.some.injEq, Prod.mk.injEq] at hb
    obtain ⟨x, hx, y, hy, m', ⟨hm, rfl⟩, b', ⟨hb', rfl⟩, rfl, rfl⟩ := hb
    refine ⟨by simpa using l1, by simpa using l2, fun j hj => ?_⟩
    by_cases hji : j = i
    · subst hji
      refine ⟨x, y, hx, hy, ?_, ?_⟩
      · rw [List.getElem?_set_self hm]
      · rw [List.getElem?_set_self hb']
    · obtain ⟨x', y', e1, e2, e3, e4⟩ := hv j (by omega)
      refine ⟨x', y', e1, e2, ?_, ?_⟩
      · rw [List.getElem?_set_ne (fun e => hji e.symm)]; exact e3
      · rw [List.getElem?_set_ne (fun e => hji e.symm)]; exact e4

theorem set_same {α : Type _} {xs : List α} {i : Nat} {v : α} (h : xs[i]? = some v) : xs.set i v = xs := by
  apply List.ext_getElem?
  intro j
  by_cases hij : i = j
  · subst hij
    have hi : i < xs.length := (List.getElem?_eq_some_iff.1 h).1
    rw [List.getElem?_set_self hi, h]
  · rw [List.getElem?_set_ne hij]

theorem otFuseFrom_idem {p : BConv} {k : Int} {mult bias : List Rat} {scale zp : Rat} {m0 b0 m b : List Rat}
    (h : otFuseFrom p k mult bias scale zp m0 b0 = some (m, b)) :
    otFuseFrom p k mult bias scale zp m b = some (m, b) := by
  obtain ⟨_, _, hv⟩ := otFuseFrom_out h
  unfold otFuseFrom
  obtain ⟨s', h1, h2⟩ := forN_inv (n := p.cout) (s := (m, b)) (body := fun i (s : List Rat × List Rat) => do
      let postMul ← rd mult i
      let postBias ← rd bias i
      let m ← wr s.1 i (-1 * postMul / scale)
      let b ← wr s.2 i ((postBias + (k : Rat) * postMul) / scale + zp)
      some (m, b)) (fun _ s => s = (m, b)) rfl (by
    rintro i s hi rfl
    obtain ⟨x, y, e1, e2, e3, e4⟩ := hv i hi
    have i1 : i < m.length := (List.getElem?_eq_some_iff.1 e3).1
    have i2 : i < b.length := (List.getElem?_eq_some_iff.1 e4).1
    refine ⟨_, ?_, rfl⟩
    simp only [e1, e2, Option.bind_eq_bind, Option.bind_some]
    have w1 : wr m i (-1 * x / scale) = some m := wr_some.2 ⟨i1, (set_same e3).symm⟩
    have w2 : wr b i ((y + (k : Rat) * x) / scale + zp) = some b := wr_some.2 ⟨i2, (set_same e4).symm⟩
    rw [w1, w2]; rfl)
  subst h2
  exact h1

/-- Repeating the setup on its own result changes nothing. -/
theorem setupVals_again {n : Node} {act : Act} {p : BConv} {pb0 pb : List Rat} {ot0 ot : OTParams}
    (h : setupVals n act p pb0 ot0 = some (pb, ot)) : setupVals n act p pb ot = some (pb, ot) := by
  unfold setupVals at h ⊢
  have hpad : ∀ {q : List Rat}, (if p.zeroPadding then
      zpCache p n.filtData n.multData (vresize pb0 (zpCacheSize p)) else some pb0) = some q →
      (if p.zeroPadding then zpCache p n.filtData n.multData (vresize q (zpCacheSize p)) else some q) = some q := by
    intro q hq
    split at hq
    · rename_i hz
      rw [if_pos hz]
      have hl := (zpCache_writeOnly p n.filtData n.multData).length hq
      rw [vresize_length] at hl
      rw [vresize_self hl]
      exact (zpCache_writeOnly p n.filtData n.multData).idem hq
    · rename_i hz
      rw [if_neg hz]
  simp only [Option.bind_eq_bind] at h ⊢
  obtain ⟨q, hq, h⟩ := Option.bind_eq_some_iff.1 h
  have hq' := hpad hq
  split at h
  · rename_i ht
    obtain ⟨k, hk, h⟩ := Option.bind_eq_some_iff.1 h
    obtain ⟨⟨m, b⟩, hmb, h⟩ := Option.bind_eq_some_iff.1 h
    simp only at h
    obtain ⟨cmin, hc1, h⟩ := Option.bind_eq_some_iff.1 h
    obtain ⟨cmax, hc2, h⟩ := Option.bind_eq_some_iff.1 h
    simp only [Option.some.injEq, Prod.mk.injEq] at h
    obtain ⟨rfl, rfl⟩ := h
    obtain ⟨l1, l2, _⟩ := otFuseFrom_out hmb
    rw [vresize_length] at l1 l2
    rw [hq', Option.bind_some, if_pos ht, hk, Option.bind_some, vresize_self l1, vresize_self l2,
      otFuseFrom_idem hmb, Option.bind_some]
    simp only
    rw [hc1, Option.bind_some, hc2, Option.bind_some]
  · rename_i ht
    simp only [Option.some.injEq, Prod.mk.injEq] at h
    obtain ⟨rfl, rfl⟩ := h
    rw [hq', Option.bind_some, if_neg ht]

end Verif
