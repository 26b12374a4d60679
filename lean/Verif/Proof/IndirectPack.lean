import Verif.Model.Indirect
import Verif.Proof.Reference
import Mathlib.Tactic.Ring

/-! `PackWeights` and `FillIndirectionBuffer`. -/

namespace Verif

open Finset

/-- Composite index of a packed weight. -/
def pwIndex (NB F DB bc bd g blk fi cb o co : Nat) : Nat :=
  (((g * NB + blk) * F + fi) * DB + cb) * (bc * bd) + (o * bd + co)

theorem pwIndex_decode {NB F DB bc bd g blk fi cb o co : Nat} (h1 : blk < NB) (h2 : fi < F)
    (h3 : cb < DB) (h4 : o < bc) (h5 : co < bd) :
    let i := pwIndex NB F DB bc bd g blk fi cb o co
    i % (bc * bd) % bd = co ∧ i % (bc * bd) / bd = o ∧ i / (bc * bd) % DB = cb ∧
      i / (bc * bd) / DB % F = fi ∧ i / (bc * bd) / DB / F % NB = blk ∧
      i / (bc * bd) / DB / F / NB = g := by
  intro i
  have ho : o * bd + co < bc * bd := row_lt h4 h5
  have e1 : i / (bc * bd) = ((g * NB + blk) * F + fi) * DB + cb := (div_mod_row ho).1
  have e2 : i % (bc * bd) = o * bd + co := (div_mod_row ho).2
  rw [e1, e2, (div_mod_row h5).1, (div_mod_row h5).2, (div_mod_row h3).1, (div_mod_row h3).2,
    (div_mod_row h2).1, (div_mod_row h2).2, (div_mod_row h1).1, (div_mod_row h1).2]
  exact ⟨rfl, rfl, rfl, rfl, rfl, rfl⟩

theorem ceilDiv_mul_ge (a b : Nat) (hb : 0 < b) : a ≤ ceilDiv a b * b := by
  unfold ceilDiv
  have := Nat.div_add_mod (a + b - 1) b
  have h2 := Nat.mod_lt (a + b - 1) hb
  rw [Nat.mul_comm] at this
  omega

theorem ceilDiv_le {a b q : Nat} (hb : 0 < b) (h : a ≤ q * b) : ceilDiv a b ≤ q := by
  unfold ceilDiv
  rw [← Nat.lt_succ_iff, Nat.div_lt_iff_lt_mul hb, Nat.succ_mul]
  omega

theorem lt_of_lt_ceilDiv {a b k : Nat} (hb : 0 < b) (h : k < ceilDiv a b) : k * b < a := by
  unfold ceilDiv at h
  have h1 : (k + 1) * b ≤ a + b - 1 := (Nat.le_div_iff_mul_le hb).1 h
  rw [Nat.succ_mul] at h1
  omega

theorem ceilDiv_of_dvd {a b : Nat} (hb : 0 < b) (h : a % b = 0) : ceilDiv a b = a / b := by
  obtain ⟨k, rfl⟩ := Nat.dvd_of_mod_eq_zero h
  unfold ceilDiv
  rw [Nat.mul_div_cancel_left k hb]
  have : b * k + b - 1 = b * k + (b - 1) := by omega
  rw [this, Nat.mul_add_div hb, Nat.div_eq_of_lt (by omega)]
  simp

/-- The version of `packWeights` with explicit destination indices. -/
theorem packWeights_flat (F inputDepth outputChannels groups bc bd : Nat) (weights : List Word) :
    let D := inputDepth / groups
    let opg := outputChannels / groups
    let NB := ceilDiv opg bc
    let DB := ceilDiv D bd
    packWeights F inputDepth outputChannels groups bc bd weights =
      forN groups (fun g s => forN NB (fun blk s => forN F (fun fi s => forN DB (fun cb s =>
        forN (min (opg - blk * bc) bc) (fun o s => forN bd (fun co s =>
          (rd weights (g * opg * F * D + (blk * bc + o) * F * D + fi * D + cb * bd + co)).bind fun v =>
            wr s (pwIndex NB F DB bc bd g blk fi cb o co) v) s) s) s) s) s)
        (List.replicate (groups * ceilMul opg bc * F * D + bc * bd) 0#32) := by
  intro D opg NB DB
  unfold packWeights
  simp only []
  -- innermost: one block of `bs * bd` weights, then the padding
  have inner : ∀ g blk fi cb k (s : List Word),
      (do let st ← packInner weights F D opg bd g (blk * bc) (min (opg - blk * bc) bc) fi (cb * bd) (k, s)
          some (st.1 + (bc - min (opg - blk * bc) bc) * bd, st.2))
        = (forN (min (opg - blk * bc) bc) (fun o s => forN bd (fun co s =>
            (rd weights (g * opg * F * D + (blk * bc + o) * F * D + fi * D + cb * bd + co)).bind fun v =>
              wr s (k + o * bd + co * 1) v) s) s).map (fun s' => (k + bc * bd, s')) := by
    intro g blk fi cb k s
    have h1 : packInner weights F D opg bd g (blk * bc) (min (opg - blk * bc) bc) fi (cb * bd) (k, s)
        = (forN (min (opg - blk * bc) bc) (fun o s => forN bd (fun co s =>
            (rd weights (g * opg * F * D + (blk * bc + o) * F * D + fi * D + cb * bd + co)).bind fun v =>
              wr s (k + o * bd + co * 1) v) s) s).map
            (fun s' => (k + min (opg - blk * bc) bc * bd, s')) := by
      unfold packInner
      rw [forN_counter (c := bd) (g := fun o k s => forN bd (fun co s =>
            (rd weights (g * opg * F * D + (blk * bc + o) * F * D + fi * D + cb * bd + co)).bind fun v =>
              wr s (k + co * 1) v) s)]
      intro o k s _
      rw [forN_counter (c := 1) (g := fun co k s =>
            (rd weights (g * opg * F * D + (blk * bc + o) * F * D + fi * D + cb * bd + co)).bind fun v =>
              wr s k v)]
      · simp
      · intro co k s _
        simp only [Option.bind_eq_bind]
        cases rd weights (g * opg * F * D + (blk * bc + o) * F * D + fi * D + cb * bd + co) with
        | none => rfl
        | some v =>
          simp only [Option.bind_some]
          cases wr s k v <;> rfl
    rw [h1]
    generalize forN (min (opg - blk * bc) bc) _ s = r
    cases r with
    | none => rfl
    | some s' =>
      simp only [Option.map_some, Option.bind_eq_bind, Option.bind_some, Option.some.injEq,
        Prod.mk.injEq, and_true]
      have : min (opg - blk * bc) bc + (bc - min (opg - blk * bc) bc) = bc := by omega
      rw [Nat.add_assoc, ← Nat.add_mul, this]
  rw [forN_counter (c := NB * (F * (DB * (bc * bd)))) (g := fun g k s =>
    forN NB (fun blk s => forN F (fun fi s => forN DB (fun cb s =>
        forN (min (opg - blk * bc) bc) (fun o s => forN bd (fun co s =>
          (rd weights (g * opg * F * D + (blk * bc + o) * F * D + fi * D + cb * bd + co)).bind fun v =>
            wr s (k + blk * (F * (DB * (bc * bd))) + fi * (DB * (bc * bd)) + cb * (bc * bd)
              + o * bd + co * 1) v) s) s) s) s) s)]
  · rw [Option.map_map]
    have : ((fun x : Nat × List Word => x.2) ∘ fun s' : List Word =>
        (0 + groups * (NB * (F * (DB * (bc * bd)))), s')) = id := rfl
    rw [this, Option.map_id, id]
    apply forN_congr; intro g s _
    apply forN_congr; intro blk s _
    apply forN_congr; intro fi s _
    apply forN_congr; intro cb s _
    apply forN_congr; intro o s _
    apply forN_congr; intro co s _
    have : 0 + g * (NB * (F * (DB * (bc * bd)))) + blk * (F * (DB * (bc * bd))) + fi * (DB * (bc * bd))
        + cb * (bc * bd) + o * bd + co * 1 = pwIndex NB F DB bc bd g blk fi cb o co := by
      unfold pwIndex; ring
    rw [this]
  · intro g k s _
    rw [forN_counter (c := F * (DB * (bc * bd))) (g := fun blk k s => forN F (fun fi s => forN DB (fun cb s =>
        forN (min (opg - blk * bc) bc) (fun o s => forN bd (fun co s =>
          (rd weights (g * opg * F * D + (blk * bc + o) * F * D + fi * D + cb * bd + co)).bind fun v =>
            wr s (k + fi * (DB * (bc * bd)) + cb * (bc * bd)
              + o * bd + co * 1) v) s) s) s) s)]
    intro blk k s _
    rw [forN_counter (c := DB * (bc * bd)) (g := fun fi k s => forN DB (fun cb s =>
        forN (min (opg - blk * bc) bc) (fun o s => forN bd (fun co s =>
          (rd weights (g * opg * F * D + (blk * bc + o) * F * D + fi * D + cb * bd + co)).bind fun v =>
            wr s (k + cb * (bc * bd) + o * bd + co * 1) v) s) s) s)]
    intro fi k s _
    rw [forN_counter (c := bc * bd) (g := fun cb k s =>
        forN (min (opg - blk * bc) bc) (fun o s => forN bd (fun co s =>
          (rd weights (g * opg * F * D + (blk * bc + o) * F * D + fi * D + cb * bd + co)).bind fun v =>
            wr s (k + o * bd + co * 1) v) s) s)]
    intro cb k s _
    exact inner g blk fi cb k s

/-- Every weight of the filter is found at its place in the packed weights. -/
theorem packWeights_eq {F inputDepth outputChannels groups bc bd : Nat} {weights : List Word}
    (hbd : 0 < bd) (hD : inputDepth / groups % bd = 0)
    (hlen : weights.length
      = groups * (outputChannels / groups) * F * (inputDepth / groups)) :
    let D := inputDepth / groups
    let opg := outputChannels / groups
    let NB := ceilDiv opg bc
    let DB := D / bd
    ∃ pw, packWeights F inputDepth outputChannels groups bc bd weights = some pw ∧
      pw.length = groups * NB * F * DB * (bc * bd) + bc * bd ∧
      ∀ g blk fi cb o co, g < groups → blk < NB → fi < F → cb < DB → o < bc → co < bd →
        blk * bc + o < opg →
        pw[pwIndex NB F DB bc bd g blk fi cb o co]?
          = some (weights.getD (((g * opg + (blk * bc + o)) * F + fi) * D + (cb * bd + co)) 0#32) := by
  intro D opg NB DB
  have hDB : ceilDiv D bd = DB := ceilDiv_of_dvd hbd hD
  have hDe : DB * bd = D := Nat.div_mul_cancel (Nat.dvd_of_mod_eq_zero hD)
  rw [packWeights_flat]
  change ∃ pw, forN groups (fun g s => forN NB (fun blk s => forN F (fun fi s =>
      forN (ceilDiv D bd) (fun cb s =>
        forN (min (opg - blk * bc) bc) (fun o s => forN bd (fun co s =>
          (rd weights (g * opg * F * D + (blk * bc + o) * F * D + fi * D + cb * bd + co)).bind fun v =>
            wr s (pwIndex NB F (ceilDiv D bd) bc bd g blk fi cb o co) v) s) s) s) s) s)
        (List.replicate (groups * (NB * bc) * F * D + bc * bd) 0#32) = some pw ∧ _
  rw [hDB]
  have hsize : groups * (NB * bc) * F * D = groups * NB * F * DB * (bc * bd) := by
    rw [← hDe]; ring
  rw [hsize]
  generalize hL : groups * NB * F * DB * (bc * bd) = L
  let val : Nat → Word := fun i =>
    let o := i % (bc * bd) / bd
    let co := i % (bc * bd) % bd
    let cb := i / (bc * bd) % DB
    let fi := i / (bc * bd) / DB % F
    let blk := i / (bc * bd) / DB / F % NB
    let g := i / (bc * bd) / DB / F / NB
    weights.getD (((g * opg + (blk * bc + o)) * F + fi) * D + (cb * bd + co)) 0#32
  have hlt : ∀ {g blk fi cb o co}, g < groups → blk < NB → fi < F → cb < DB → o < bc → co < bd →
      pwIndex NB F DB bc bd g blk fi cb o co < L + bc * bd := by
    intro g blk fi cb o co h1 h2 h3 h4 h5 h6
    have : pwIndex NB F DB bc bd g blk fi cb o co < L := by
      rw [← hL]
      exact row_lt (row_lt (row_lt (row_lt h1 h2) h3) h4) (row_lt h5 h6)
    omega
  have hval : ∀ {g blk fi cb o co}, blk < NB → fi < F → cb < DB → o < bc → co < bd →
      val (pwIndex NB F DB bc bd g blk fi cb o co)
        = weights.getD (((g * opg + (blk * bc + o)) * F + fi) * D + (cb * bd + co)) 0#32 := by
    intro g blk fi cb o co h2 h3 h4 h5 h6
    obtain ⟨e1, e2, e3, e4, e5, e6⟩ := pwIndex_decode (g := g) h2 h3 h4 h5 h6
    simp only [val, e1, e2, e3, e4, e5, e6]
  have hmain : ∃ pw, forN groups (fun g s => forN NB (fun blk s => forN F (fun fi s =>
      forN DB (fun cb s =>
        forN (min (opg - blk * bc) bc) (fun o s => forN bd (fun co s =>
          (rd weights (g * opg * F * D + (blk * bc + o) * F * D + fi * D + cb * bd + co)).bind fun v =>
            wr s (pwIndex NB F DB bc bd g blk fi cb o co) v) s) s) s) s) s)
        (List.replicate (L + bc * bd) 0#32) = some pw ∧
      Fills (List.replicate (L + bc * bd) 0#32) pw (fun i => False ∨ ∃ g, g < groups ∧ ∃ blk, blk < NB ∧
        ∃ fi, fi < F ∧ ∃ cb, cb < DB ∧ ∃ o, o < min (opg - blk * bc) bc ∧ ∃ co, co < bd ∧
          i = pwIndex NB F DB bc bd g blk fi cb o co) val := by
    apply Fills.loop _ (Fills.init _ _ (by simp))
    intro g W s hg hs
    apply Fills.loop _ hs
    intro blk W s hblk hs
    apply Fills.loop _ hs
    intro fi W s hfi hs
    apply Fills.loop _ hs
    intro cb W s hcb hs
    apply Fills.loop _ hs
    intro o W s ho hs
    apply Fills.loop _ hs
    intro co W s hco hs
    have ho' : o < bc := by omega
    have hch : blk * bc + o < opg := by omega
    have hidx : g * opg * F * D + (blk * bc + o) * F * D + fi * D + cb * bd + co
        = ((g * opg + (blk * bc + o)) * F + fi) * D + (cb * bd + co) := by ring
    have hcbco : cb * bd + co < D := by rw [← hDe]; exact row_lt hcb hco
    have hrd : rd weights (g * opg * F * D + (blk * bc + o) * F * D + fi * D + cb * bd + co)
        = some (weights.getD (((g * opg + (blk * bc + o)) * F + fi) * D + (cb * bd + co)) 0#32) := by
      rw [hidx]
      apply rd_getD
      rw [hlen]
      exact row_lt (row_lt (row_lt hg hch) hfi) hcbco
    rw [hrd, Option.bind_some]
    apply hs.write
    · rw [List.length_replicate]; exact hlt hg hblk hfi hcb ho' hco
    · exact (hval hblk hfi hcb ho' hco).symm
  obtain ⟨pw, h1, h2⟩ := hmain
  refine ⟨pw, h1, by rw [h2.len, List.length_replicate], ?_⟩
  intro g blk fi cb o co hg hblk hfi hcb ho hco hch
  rw [h2.hit _ (by rw [List.length_replicate]; exact hlt hg hblk hfi hcb ho hco)
    (Or.inr ⟨g, hg, blk, hblk, fi, hfi, cb, hcb, o, by omega, co, hco, rfl⟩)]
  rw [hval hblk hfi hcb ho hco]

/-- Every pointer of the indirection buffer. -/
theorem fillIndirection_eq (p : BConv) {bp : Nat} (hbp : 0 < bp) :
    let F := p.filtH * p.filtW
    let n := p.batches * p.outH * p.outW
    ∃ ind, fillIndirection p bp = some ind ∧
      ind.length = ceilDiv n bp * bp * F + bp ∧
      (∀ t off fy fx, t < ceilDiv n bp → off < bp → fy < p.filtH → fx < p.filtW →
        ind[(t * F + (fy * p.filtW + fx)) * bp + off]?
          = some (indirectPtr p (min (t * bp + off) (n - 1)) fy fx)) ∧
      ∀ i, ceilDiv n bp * bp * F ≤ i → i < ind.length → ind[i]? = some (.inp 0) := by
  intro F n
  unfold fillIndirection
  simp only []
  let val : Nat → Ptr := fun i =>
    let off := i % bp
    let ki := i / bp % F
    let t := i / bp / F
    indirectPtr p (min (t * bp + off) (n - 1)) (ki / p.filtW) (ki % p.filtW)
  have hval : ∀ {t off fy fx}, off < bp → fy < p.filtH → fx < p.filtW →
      val ((t * F + (fy * p.filtW + fx)) * bp + off)
        = indirectPtr p (min (t * bp + off) (n - 1)) fy fx := by
    intro t off fy fx h1 h2 h3
    have hk : fy * p.filtW + fx < F := row_lt h2 h3
    simp only [val]
    rw [(div_mod_row h1).1, (div_mod_row h1).2, (div_mod_row hk).1, (div_mod_row hk).2,
      (div_mod_row h3).1, (div_mod_row h3).2]
  have hlt : ∀ {t off fy fx}, t < ceilDiv n bp → off < bp → fy < p.filtH → fx < p.filtW →
      (t * F + (fy * p.filtW + fx)) * bp + off < ceilDiv n bp * bp * F + bp := by
    intro t off fy fx h0 h1 h2 h3
    have h := row_lt (row_lt h0 (row_lt h2 h3)) h1
    have e : ceilDiv n bp * (p.filtH * p.filtW) * bp = ceilDiv n bp * bp * F := by
      simp only [F]; ring
    rw [e] at h
    change (t * (p.filtH * p.filtW) + (fy * p.filtW + fx)) * bp + off < _
    omega
  have hmain : ∃ ind, forN (ceilDiv n bp) (fun tile buf => forN bp (fun off buf =>
      forN p.filtH (fun fy buf => forN p.filtW (fun fx buf =>
          wr buf (tile * bp * F + (fy * p.filtW + fx) * bp + off)
            (indirectPtr p (min (tile * bp + off) (n - 1)) fy fx)) buf) buf) buf)
      (List.replicate (ceilDiv n bp * bp * F + bp) (.inp 0)) = some ind ∧
      Fills (List.replicate (ceilDiv n bp * bp * F + bp) (.inp 0)) ind (fun i => False ∨
        ∃ t, t < ceilDiv n bp ∧ ∃ off, off < bp ∧ ∃ fy, fy < p.filtH ∧ ∃ fx, fx < p.filtW ∧
          i = (t * F + (fy * p.filtW + fx)) * bp + off) val := by
    apply Fills.loop _ (Fills.init _ _ (by simp))
    intro t W s ht hs
    apply Fills.loop _ hs
    intro off W s hoff hs
    apply Fills.loop _ hs
    intro fy W s hfy hs
    apply Fills.loop _ hs
    intro fx W s hfx hs
    have e : t * bp * F + (fy * p.filtW + fx) * bp + off
        = (t * F + (fy * p.filtW + fx)) * bp + off := by ring
    rw [e]
    apply hs.write
    · rw [List.length_replicate]; exact hlt ht hoff hfy hfx
    · exact (hval hoff hfy hfx).symm
  obtain ⟨ind, h1, h2⟩ := hmain
  refine ⟨ind, h1, by rw [h2.len, List.length_replicate], ?_, ?_⟩
  · intro t off fy fx ht hoff hfy hfx
    rw [h2.hit _ (by rw [List.length_replicate]; exact hlt ht hoff hfy hfx)
      (Or.inr ⟨t, ht, off, hoff, fy, hfy, fx, hfx, rfl⟩), hval hoff hfy hfx]
  · intro i hi hl
    rw [h2.len, List.length_replicate] at hl
    rw [h2.miss i, List.getElem?_replicate, if_pos hl]
    rintro (h | ⟨t, ht, off, hoff, fy, hfy, fx, hfx, rfl⟩)
    · exact h
    · have h := row_lt (row_lt ht (row_lt hfy hfx)) hoff
      have e : ceilDiv n bp * (p.filtH * p.filtW) * bp = ceilDiv n bp * bp * F := by
        simp only [F]; ring
      rw [e] at h
      exact absurd hi (Nat.not_le.2 h)

end Verif
