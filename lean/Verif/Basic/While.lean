import Verif.Basic.Loop

/-! `do { ... } while (cond)` loops with a data-dependent end, and loops that carry a
running index. -/

namespace Verif

/-- `do { s = body(s); } while (cond(s));` with fuel; `none` also when the fuel runs
out, so that `some` includes termination. -/
def doWhile {σ : Type _} (cond : σ → Bool) (body : σ → Option σ) : Nat → σ → Option σ
  | 0, _ => none
  | n + 1, s => (body s).bind fun s' => if cond s' then doWhile cond body n s' else some s'

theorem doWhile_inv {σ : Type _} {cond : σ → Bool} {body : σ → Option σ} (I Q : σ → Prop)
    (v : σ → Nat)
    (hstep : ∀ s, I s → ∃ s', body s = some s' ∧ (cond s' = true → I s' ∧ v s' < v s) ∧
      (cond s' = false → Q s')) :
    ∀ (fuel : Nat) (s : σ), I s → v s < fuel → ∃ s', doWhile cond body fuel s = some s' ∧ Q s'
  | 0, s, _, hf => absurd hf (by omega)
  | n + 1, s, hi, hf => by
    obtain ⟨s', hb, h1, h2⟩ := hstep s hi
    cases hc : cond s' with
    | false => exact ⟨s', by simp [doWhile, hb, hc], h2 hc⟩
    | true =>
      obtain ⟨hi', hv⟩ := h1 hc
      obtain ⟨s2, hr, hq⟩ := doWhile_inv I Q v hstep n s' hi' (by omega)
      exact ⟨s2, by simp [doWhile, hb, hc, hr], hq⟩

/-- A loop that carries an index advancing by `c` per iteration. -/
theorem forN_counter {σ : Type _} (n c : Nat) (g : Nat → Nat → σ → Option σ)
    {body : Nat → Nat × σ → Option (Nat × σ)}
    (hb : ∀ i k s, i < n → body i (k, s) = (g i k s).map (fun s' => (k + c, s')))
    (k : Nat) (s : σ) :
    forN n body (k, s) = (forN n (fun i s => g i (k + i * c) s) s).map (fun s' => (k + n * c, s')) := by
  induction n with
  | zero => simp
  | succ n ih =>
    rw [forN_succ, forN_succ, ih (fun i k s hi => hb i k s (by omega))]
    cases forN n (fun i s => g i (k + i * c) s) s with
    | none => rfl
    | some s' =>
      simp only [Option.map_some, Option.bind_some]
      rw [hb n _ _ (by omega)]
      congr 1
      funext s''
      rw [Nat.succ_mul]
      simp [Nat.add_assoc]

end Verif
