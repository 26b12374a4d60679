/-!
Loops and buffers for modelling C++ code with undefined behaviour as a distinct
outcome.  `Option` is the monad of executions: `none` is undefined behaviour
(out-of-bounds access, failed assertion) or a loop that does not end.

These definitions are the vocabulary of the model; they do not model a specific
file of /repo.
-/

namespace Verif

/-- `for (int i = 0; i < n; ++i) s = body(i, s);` started at `i = k`. -/
def forFrom {σ : Type _} (body : Nat → σ → Option σ) : Nat → Nat → σ → Option σ
  | 0, _, s => some s
  | n + 1, k, s => (body k s).bind (forFrom body n (k + 1))

/-- `for (int i = 0; i < n; ++i) s = body(i, s);` -/
def forN {σ : Type _} (n : Nat) (body : Nat → σ → Option σ) (s : σ) : Option σ :=
  forFrom body n 0 s

theorem forFrom_inv {σ : Type _} {body : Nat → σ → Option σ} (P : Nat → σ → Prop) :
    ∀ (n k : Nat) (s : σ), P k s →
      (∀ i s, k ≤ i → i < k + n → P i s → ∃ s', body i s = some s' ∧ P (i + 1) s') →
      ∃ s', forFrom body n k s = some s' ∧ P (k + n) s'
  | 0, k, s, h0, _ => ⟨s, rfl, h0⟩
  | n + 1, k, s, h0, hstep => by
    obtain ⟨s1, hb, h1⟩ := hstep k s (Nat.le_refl _) (by omega) h0
    obtain ⟨s2, hr, h2⟩ := forFrom_inv P n (k + 1) s1 h1
      (fun i s hi hi' hp => hstep i s (by omega) (by omega) hp)
    refine ⟨s2, ?_, ?_⟩
    · simp [forFrom, hb, hr]
    · have : k + (n + 1) = k + 1 + n := by omega
      rw [this]; exact h2

/-- The loop rule: an invariant that holds initially and is kept by each
iteration (which therefore has no undefined behaviour) holds at the end. -/
theorem forN_inv {σ : Type _} {n : Nat} {body : Nat → σ → Option σ} {s : σ}
    (P : Nat → σ → Prop) (h0 : P 0 s)
    (hstep : ∀ i s, i < n → P i s → ∃ s', body i s = some s' ∧ P (i + 1) s') :
    ∃ s', forN n body s = some s' ∧ P n s' := by
  have := forFrom_inv (body := body) P n 0 s h0
    (fun i s _ hi hp => hstep i s (by omega) hp)
  simpa [forN] using this

@[simp] theorem forN_zero {σ : Type _} (body : Nat → σ → Option σ) (s : σ) :
    forN 0 body s = some s := rfl

theorem forFrom_succ_last {σ : Type _} (body : Nat → σ → Option σ) :
    ∀ (n k : Nat) (s : σ),
      forFrom body (n + 1) k s = (forFrom body n k s).bind (body (k + n))
  | 0, k, s => by simp [forFrom]
  | n + 1, k, s => by
    rw [forFrom]
    cases h : body k s with
    | none => simp [forFrom, h]
    | some s1 =>
      simp only [Option.bind_some]
      rw [forFrom_succ_last body n (k + 1) s1]
      simp only [forFrom, h, Option.bind_some]
      congr 1
      congr 1
      omega

theorem forN_succ {σ : Type _} (n : Nat) (body : Nat → σ → Option σ) (s : σ) :
    forN (n + 1) body s = (forN n body s).bind (body n) := by
  unfold forN; rw [forFrom_succ_last]; simp

theorem forN_congr {σ : Type _} {n : Nat} {body body' : Nat → σ → Option σ} {s : σ}
    (h : ∀ i s, i < n → body i s = body' i s) : forN n body s = forN n body' s := by
  induction n with
  | zero => rfl
  | succ n ih =>
    rw [forN_succ, forN_succ, ih (fun i s hi => h i s (by omega))]
    cases forN n body' s with
    | none => rfl
    | some s => exact h n s (by omega)

/-- A pure loop body never fails. -/
theorem forN_pure {σ : Type _} (n : Nat) (f : Nat → σ → σ) (s : σ) :
    forN n (fun i s => some (f i s)) s
      = some ((List.range n).foldl (fun s i => f i s) s) := by
  induction n with
  | zero => rfl
  | succ n ih => rw [forN_succ, ih]; simp [List.range_succ]

/-- Checked read `xs[i]`; `none` when out of bounds. -/
def rd {α : Type _} (xs : List α) (i : Nat) : Option α := xs[i]?

/-- Checked read through a signed index. -/
def rdI {α : Type _} (xs : List α) (i : Int) : Option α :=
  if i < 0 then none else xs[i.toNat]?

/-- Checked write `xs[i] = v`; `none` when out of bounds. -/
def wr {α : Type _} (xs : List α) (i : Nat) (v : α) : Option (List α) :=
  if i < xs.length then some (xs.set i v) else none

/-- Checked write through a signed index. -/
def wrI {α : Type _} (xs : List α) (i : Int) (v : α) : Option (List α) :=
  if i < 0 then none else wr xs i.toNat v

theorem rdI_natCast {α : Type _} (xs : List α) (i : Nat) : rdI xs (i : Int) = rd xs i := by
  have : ¬ ((i : Int) < 0) := by omega
  simp [rdI, rd, this]

theorem wrI_natCast {α : Type _} (xs : List α) (i : Nat) (v : α) :
    wrI xs (i : Int) v = wr xs i v := by
  have : ¬ ((i : Int) < 0) := by omega
  simp [wrI, this]

theorem rd_isSome {α : Type _} {xs : List α} {i : Nat} (h : i < xs.length) :
    rd xs i = some xs[i] := by simp [rd, h]

theorem rd_eq_some_iff {α : Type _} {xs : List α} {i : Nat} {a : α} :
    rd xs i = some a ↔ xs[i]? = some a := Iff.rfl

/-- `s` is `s0` with the cells satisfying `W` overwritten according to `f`, and
nothing else changed. -/
structure Fills {α : Type _} (s0 s : List α) (W : Nat → Prop) (f : Nat → α) : Prop where
  len : s.length = s0.length
  hit : ∀ i, i < s0.length → W i → s[i]? = some (f i)
  miss : ∀ i, ¬ W i → s[i]? = s0[i]?

theorem Fills.init {α : Type _} (s0 : List α) {W : Nat → Prop} (f : Nat → α)
    (h : ∀ i, i < s0.length → ¬ W i) : Fills s0 s0 W f :=
  ⟨rfl, fun i hi hw => absurd hw (h i hi), fun _ _ => rfl⟩

theorem Fills.congr {α : Type _} {s0 s : List α} {W W' : Nat → Prop} {f f' : Nat → α}
    (h : Fills s0 s W f) (hw : ∀ i, i < s0.length → (W' i ↔ W i))
    (hf : ∀ i, i < s0.length → W i → f' i = f i) : Fills s0 s W' f' := by
  refine ⟨h.len, ?_, ?_⟩
  · intro i hi hw'
    rw [h.hit i hi ((hw i hi).1 hw'), hf i hi ((hw i hi).1 hw')]
  · intro i hw'
    by_cases hi : i < s0.length
    · exact h.miss i (fun hc => hw' ((hw i hi).2 hc))
    · have h1 : s[i]? = none := by rw [List.getElem?_eq_none_iff, h.len]; omega
      have h2 : s0[i]? = none := by rw [List.getElem?_eq_none_iff]; omega
      rw [h1, h2]

theorem Fills.write {α : Type _} {s0 s : List α} {W : Nat → Prop} {f : Nat → α} {i : Nat}
    {v : α} (h : Fills s0 s W f) (hi : i < s0.length) (hv : v = f i) :
    ∃ s', wr s i v = some s' ∧ Fills s0 s' (fun j => W j ∨ j = i) f := by
  refine ⟨s.set i v, ?_, ?_, ?_, ?_⟩
  · simp [wr, h.len, hi]
  · simp [h.len]
  · intro j hj hw
    by_cases hij : j = i
    · subst hij
      have : j < s.length := by rw [h.len]; exact hj
      rw [List.getElem?_set_self this, hv]
    · rw [List.getElem?_set_ne (fun e => hij e.symm)]
      exact h.hit j hj (hw.resolve_right hij)
  · intro j hw
    have hij : i ≠ j := fun e => hw (Or.inr e.symm)
    rw [List.getElem?_set_ne hij]
    exact h.miss j (fun hc => hw (Or.inl hc))

/-- Chaining two partial fills of the same buffer. -/
theorem Fills.trans {α : Type _} {s0 s1 s2 : List α} {W1 W2 : Nat → Prop} {f : Nat → α}
    (h1 : Fills s0 s1 W1 f) (h2 : Fills s1 s2 W2 f) :
    Fills s0 s2 (fun i => W1 i ∨ W2 i) f := by
  refine ⟨h2.len.trans h1.len, ?_, ?_⟩
  · intro i hi hw
    by_cases hw2 : W2 i
    · exact h2.hit i (by rw [h1.len]; exact hi) hw2
    · rw [h2.miss i hw2]; exact h1.hit i hi (hw.resolve_right hw2)
  · intro i hw
    rw [h2.miss i (fun hc => hw (Or.inr hc)), h1.miss i (fun hc => hw (Or.inl hc))]

/-- A buffer that was filled everywhere is determined by `f`. -/
theorem Fills.all {α : Type _} {s0 s : List α} {W : Nat → Prop} {f : Nat → α}
    (h : Fills s0 s W f) (hw : ∀ i, i < s0.length → W i) :
    s = (List.range s0.length).map f := by
  apply List.ext_getElem?
  intro i
  by_cases hi : i < s0.length
  · rw [h.hit i hi (hw i hi)]; simp [hi]
  · have h1 : s[i]? = none := by rw [List.getElem?_eq_none_iff, h.len]; omega
    rw [h1, eq_comm, List.getElem?_eq_none_iff]; simp; omega

/-- The loop rule for a loop whose iteration `k` fills the cells in `R k`. -/
theorem Fills.loop {α : Type _} {s0 s : List α} {n : Nat} {W0 : Nat → Prop} {f : Nat → α}
    {body : Nat → List α → Option (List α)} (R : Nat → Nat → Prop)
    (h0 : Fills s0 s W0 f)
    (hstep : ∀ k W s, k < n → Fills s0 s W f →
      ∃ s', body k s = some s' ∧ Fills s0 s' (fun i => W i ∨ R k i) f) :
    ∃ s', forN n body s = some s' ∧
      Fills s0 s' (fun i => W0 i ∨ ∃ k, k < n ∧ R k i) f := by
  have := forN_inv (n := n) (body := body) (s := s)
    (fun m s => Fills s0 s (fun i => W0 i ∨ ∃ k, k < m ∧ R k i) f)
    (h0.congr (fun i _ => by simp) (fun _ _ _ => rfl))
    (fun i s hi hp => by
      obtain ⟨s', hb, hs'⟩ := hstep i _ s hi hp
      refine ⟨s', hb, hs'.congr (fun j _ => ?_) (fun _ _ _ => rfl)⟩
      constructor
      · rintro (h | ⟨k, hk, hr⟩)
        · exact Or.inl (Or.inl h)
        · rcases Nat.lt_succ_iff_lt_or_eq.1 hk with h | h
          · exact Or.inl (Or.inr ⟨k, h, hr⟩)
          · subst h; exact Or.inr hr
      · rintro ((h | ⟨k, hk, hr⟩) | hr)
        · exact Or.inl h
        · exact Or.inr ⟨k, by omega, hr⟩
        · exact Or.inr ⟨i, by omega, hr⟩)
  exact this

/-- Accumulation loop: `for i in 0..n: acc += g(i)`. -/
theorem forN_add {M : Type _} [Add M] {n : Nat} (g : Nat → Option M) (v : Nat → M)
    (a : M) (hg : ∀ i, i < n → g i = some (v i)) :
    forN n (fun i acc => (g i).map (fun x => acc + x)) a
      = some ((List.range n).foldl (fun acc i => acc + v i) a) := by
  rw [← forN_pure]
  apply forN_congr
  intro i s hi
  simp [hg i hi]

end Verif
