import Verif.Proof.Bitpack

/-! `bitpack_matrix` and `unpack_matrix`. -/

namespace Verif

variable {α : Type} [PackElem α] [LawfulPackElem α]

open LawfulPackElem

/-- Specification: word `k` of row `r` of the packed `rows × cols` matrix. -/
def packedWord (inp : List α) (cols : Nat) (zp : Int) (r k : Nat) : Word :=
  wordOf fun b =>
    if 32 * k + b < cols then
      match inp[r * cols + (32 * k + b)]? with
      | some x => below x zp
      | none => false
    else false

theorem packBit_ofZp {zp : Int} (hz : okZp α zp) (h1 : PackElem.leLowest α zp = false)
    (h2 : PackElem.gtMax α zp = false) (x : α) :
    packBit (PackElem.ofZp zp) x = below x zp := by
  unfold packBit
  cases hq : PackElem.quantized α with
  | true => simp [lt_quantized zp hz h1 h2 hq]
  | false =>
    have := okZp_float zp hz hq
    subst this
    simp [lt_float hq]

theorem div_mod_row {nw r k : Nat} (hk : k < nw) :
    (r * nw + k) / nw = r ∧ (r * nw + k) % nw = k := by
  have : 0 < nw := by omega
  constructor
  · rw [Nat.mul_comm, Nat.mul_add_div this, Nat.div_eq_of_lt hk, Nat.add_zero]
  · rw [Nat.mul_comm, Nat.mul_add_mod, Nat.mod_eq_of_lt hk]

theorem row_lt {rows cols r c : Nat} (hr : r < rows) (hc : c < cols) :
    r * cols + c < rows * cols := by
  have : (r + 1) * cols ≤ rows * cols := Nat.mul_le_mul_right _ hr
  have := Nat.succ_mul r cols
  simp only [Nat.succ_eq_add_one] at this
  omega

theorem row_le {rows cols r : Nat} (hr : r < rows) :
    r * cols + cols ≤ rows * cols := by
  have : (r + 1) * cols ≤ rows * cols := Nat.mul_le_mul_right _ hr
  have := Nat.succ_mul r cols
  simp only [Nat.succ_eq_add_one] at this
  omega

/-- Union of the row ranges is the whole prefix. -/
theorem exists_row_iff {rows nw i : Nat} :
    (∃ r, r < rows ∧ r * nw ≤ i ∧ i < r * nw + nw) ↔ i < rows * nw := by
  constructor
  · rintro ⟨r, hr, _, h⟩
    have := row_le (cols := nw) hr
    omega
  · intro h
    have hn : 0 < nw := Nat.pos_of_ne_zero (by rintro rfl; simp at h)
    refine ⟨i / nw, (Nat.div_lt_iff_lt_mul hn).2 h, Nat.div_mul_le_self _ _, ?_⟩
    have := Nat.div_add_mod i nw
    have := Nat.mod_lt i hn
    rw [Nat.mul_comm]; omega

theorem bitpackMatrix_fills {inp : List α} {rows cols : Nat} {out0 : List Word} {zp : Int}
    {junk : Word} (hin : inp.length = rows * cols)
    (hout : rows * packedSize cols ≤ out0.length) (hz : okZp α zp)
    (hub : PackElem.gtMax α zp = true → cols % 32 ≠ 31) :
    ∃ out, bitpackMatrix inp rows cols out0 zp junk = some out ∧
      Fills out0 out (fun i => i < rows * packedSize cols)
        (fun i => packedWord inp cols zp (i / packedSize cols) (i % packedSize cols)) := by
  have hget : ∀ i, i < rows * cols → ∃ x, inp[i]? = some x := by
    intro i hi
    exact ⟨inp[i], by simp [hin, hi]⟩
  have hnw : packedSize cols = (cols + 31) / 32 := by simp [packedSize, ceilDiv, W]
  -- row index and word index of an output cell
  have hcell : ∀ i, i < rows * packedSize cols →
      i / packedSize cols < rows ∧ i % packedSize cols < packedSize cols := by
    intro i hi
    have hn : 0 < packedSize cols := Nat.pos_of_ne_zero (by intro h; simp [h] at hi)
    exact ⟨(Nat.div_lt_iff_lt_mul hn).2 hi, Nat.mod_lt _ hn⟩
  have hin' : ∀ {r k b : Nat}, r < rows → 32 * k + b < cols →
      ∃ x, inp[r * cols + (32 * k + b)]? = some x := fun hr hc => hget _ (row_lt hr hc)
  unfold bitpackMatrix
  by_cases h1 : PackElem.leLowest α zp
  · -- all zero
    simp only [h1, if_true, fillRange]
    obtain ⟨s, hs, hf⟩ := forN_fill (rows * packedSize cols) 0 (fun _ => 0#32)
      (fun i => packedWord inp cols zp (i / packedSize cols) (i % packedSize cols))
      out0 out0 (fun _ => False) (Fills.init _ _ (by simp)) (by omega)
      (by
        intro i hi
        rw [Nat.zero_add]
        apply BitVec.eq_of_getLsbD_eq
        intro b hb
        rw [packedWord, wordOf_getLsbD]
        simp only [BitVec.getLsbD_zero]
        split
        · split
          · rw [below_lowest zp h1]; simp
          · simp
        · simp)
    refine ⟨s, hs, hf.congr (fun i _ => by simp) (fun _ _ _ => rfl)⟩
  · simp only [h1]
    have h1' : PackElem.leLowest α zp = false := by simpa using h1
    by_cases h2 : PackElem.gtMax α zp
    · simp only [h2]
      have h31 := hub h2
      by_cases h3 : cols % 32 = 0
      · simp only [W, h3, if_true, fillRange]
        obtain ⟨s, hs, hf⟩ := forN_fill (rows * packedSize cols) 0 (fun _ => ~~~ 0#32)
          (fun i => packedWord inp cols zp (i / packedSize cols) (i % packedSize cols))
          out0 out0 (fun _ => False) (Fills.init _ _ (by simp)) (by omega)
          (by
            intro i hi
            rw [Nat.zero_add]
            obtain ⟨hr, hk⟩ := hcell i hi
            apply BitVec.eq_of_getLsbD_eq
            intro b hb
            rw [packedWord, wordOf_getLsbD]
            have hc : 32 * (i % packedSize cols) + b < cols := by omega
            obtain ⟨x, hx⟩ := hin' hr hc
            rw [BitVec.getLsbD_not]
            simp only [hc, if_true, hx, below_max zp h2]
            simp [hb])
        refine ⟨s, by simpa using hs, hf.congr (fun i _ => by simp) (fun _ _ _ => rfl)⟩
      · simp only [W, h3, if_false, h31, if_true]
        have := Fills.loop (n := rows) (s0 := out0) (s := out0) (W0 := fun _ => False)
          (f := fun i => packedWord inp cols zp (i / packedSize cols) (i % packedSize cols))
          (body := fun r out => do
            let out ← fillRange out (r * packedSize cols) (packedSize cols - 1) (~~~ 0#32)
            wr out ((r + 1) * packedSize cols - 1) ((1#32 <<< (cols % 32)) - 1#32))
          (fun r i => r * packedSize cols ≤ i ∧ i < r * packedSize cols + packedSize cols)
          (Fills.init _ _ (by simp))
          (by
            intro r W s hr hs
            have hrow := row_le (cols := packedSize cols) hr
            have hsucc : (r + 1) * packedSize cols = r * packedSize cols + packedSize cols :=
              Nat.succ_mul _ _
            obtain ⟨s1, hs1, hf1⟩ := forN_fill (packedSize cols - 1) (r * packedSize cols)
              (fun _ => ~~~ 0#32) _ _ _ _ hs (by omega)
              (by
                intro i hi
                have hi' : i < packedSize cols := by omega
                rw [(div_mod_row hi').1, (div_mod_row hi').2]
                apply BitVec.eq_of_getLsbD_eq
                intro b hb
                rw [packedWord, wordOf_getLsbD]
                have hc : 32 * i + b < cols := by omega
                obtain ⟨x, hx⟩ := hin' hr hc
                rw [BitVec.getLsbD_not]
                simp only [hc, if_true, hx, below_max zp h2]
                simp [hb])
            simp only [fillRange, hs1, Option.bind_eq_bind, Option.bind_some]
            obtain ⟨s2, hs2, hf2⟩ := hf1.write (i := (r + 1) * packedSize cols - 1)
              (v := (1#32 <<< (cols % 32)) - 1#32) (by omega)
              (by
                have hi' : packedSize cols - 1 < packedSize cols := by omega
                have e : (r + 1) * packedSize cols - 1 = r * packedSize cols + (packedSize cols - 1) := by
                  omega
                rw [e, (div_mod_row hi').1, (div_mod_row hi').2]
                have hmask : ∀ n, n < 31 → ∀ b, b < 32 →
                    ((1#32 <<< n) - 1#32).getLsbD b = decide (b < n) := by decide
                apply BitVec.eq_of_getLsbD_eq
                intro b hb
                rw [packedWord, wordOf_getLsbD, hmask _ (by omega) b hb]
                by_cases hc : 32 * (packedSize cols - 1) + b < cols
                · obtain ⟨x, hx⟩ := hin' hr hc
                  have : b < cols % 32 := by omega
                  simp only [hc, if_true, hx, below_max zp h2]
                  simp [this, hb]
                · have : ¬ b < cols % 32 := by omega
                  simp [this, hc])
            refine ⟨s2, hs2, hf2.congr (fun i _ => ?_) (fun _ _ _ => rfl)⟩
            constructor
            · rintro (h | ⟨ha, hb⟩)
              · exact Or.inl (Or.inl h)
              · by_cases hc : i = (r + 1) * packedSize cols - 1
                · exact Or.inr hc
                · exact Or.inl (Or.inr (by omega))
            · rintro ((h | ⟨ha, hb⟩) | rfl)
              · exact Or.inl h
              · exact Or.inr (by omega)
              · exact Or.inr (by omega))
        obtain ⟨s, hs, hf⟩ := this
        refine ⟨s, by simpa using hs, hf.congr (fun i _ => ?_) (fun _ _ _ => rfl)⟩
        rw [false_or]; exact exists_row_iff.symm
    · have h2' : PackElem.gtMax α zp = false := by simpa using h2
      have hDC : ¬ ((!(PackElem.quantized α)) = true ∧ zp ≠ 0) := by
        rintro ⟨hq, hne⟩
        exact hne (okZp_float zp hz (by simpa using hq))
      simp only [h2, if_neg hDC]
      have hpad : packBit (PackElem.ofZp zp) (PackElem.ofZp zp : α) = false := by
        rw [packBit_ofZp hz h1' h2', below_zp zp h1' h2' hz]
      by_cases h3 : cols % 32 = 0
      · simp only [W, h3, if_true]
        have hsize : packedSize (cols * rows) = rows * packedSize cols := by
          have e : cols = 32 * packedSize cols := by omega
          have e2 : cols * rows = 32 * (rows * packedSize cols) := by
            rw [Nat.mul_comm rows, ← Nat.mul_assoc, ← e]
          generalize hg : rows * packedSize cols = m at *
          simp only [packedSize, ceilDiv, W]
          omega
        by_cases hne : rows * cols = 0
        · -- empty matrix
          have hz' : rows * packedSize cols = 0 := by
            rcases Nat.mul_eq_zero.1 hne with h | h
            · simp [h]
            · simp [h, packedSize, ceilDiv, W]
          have hz2 : cols * rows = 0 := by rw [Nat.mul_comm]; exact hne
          refine ⟨out0, ?_, ?_⟩
          · rw [hz2]; simp [bitpackArray]
          · exact Fills.init _ _ (fun i _ => by omega)
        · obtain ⟨x0, hx0⟩ := hget 0 (by omega)
          have := bitpackArray_fills (α := α) (inp := inp) (ip := 0) (n := cols * rows) (op := 0)
            (zp := PackElem.ofZp zp) (junk := junk) (s0 := out0) (s := out0)
            (W0 := fun _ => False)
            (f := fun i => packedWord inp cols zp (i / packedSize cols) (i % packedSize cols))
            (x := fun i => (inp[i]?).getD x0)
            (by
              intro i hi
              obtain ⟨x, hx⟩ := hget i (by rw [Nat.mul_comm]; exact hi)
              simp [hx])
            (Fills.init _ _ (by simp)) (by omega)
            (by
              intro k hk
              rw [hsize] at hk
              obtain ⟨hr, hkk⟩ := hcell k hk
              rw [Nat.zero_add, packedWord]
              apply wordOf_congr
              intro b hb
              have hc : 32 * (k % packedSize cols) + b < cols := by omega
              have hidx : k / packedSize cols * cols + (32 * (k % packedSize cols) + b) = 32 * k + b := by
                have e : cols = 32 * packedSize cols := by omega
                have := Nat.div_add_mod k (packedSize cols)
                have e3 : k / packedSize cols * cols = 32 * (packedSize cols * (k / packedSize cols)) := by
                  rw [← Nat.mul_assoc, ← e, Nat.mul_comm]
                omega
              obtain ⟨x, hx⟩ := hin' hr hc
              have hlt : 32 * k + b < cols * rows := by
                rw [← hidx, Nat.mul_comm cols]; exact row_lt hr hc
              rw [hidx] at hx ⊢
              simp only [hc, hlt, if_true, hx, Option.getD_some]
              exact (packBit_ofZp hz h1' h2' x).symm)
          obtain ⟨s, hs, hf⟩ := this
          refine ⟨s, by simpa using hs, hf.congr (fun i _ => ?_) (fun _ _ _ => rfl)⟩
          rw [hsize]; simp
      · simp only [W, h3, if_false]
        have := Fills.loop (n := rows) (s0 := out0) (s := out0) (W0 := fun _ => False)
          (f := fun i => packedWord inp cols zp (i / packedSize cols) (i % packedSize cols))
          (body := fun r out => bitpackArray inp (r * cols) cols out (r * packedSize cols)
            (PackElem.ofZp zp) junk)
          (fun r i => r * packedSize cols ≤ i ∧ i < r * packedSize cols + packedSize cols)
          (Fills.init _ _ (by simp))
          (by
            intro r W s hr hs
            have hrow := row_le (cols := packedSize cols) hr
            obtain ⟨x0, hx0⟩ := hin' (k := 0) (b := 0) hr (by omega)
            apply bitpackArray_fills (x := fun i => (inp[r * cols + i]?).getD x0) _ hs (by omega)
            · intro k hk
              rw [(div_mod_row hk).1, (div_mod_row hk).2, packedWord]
              apply wordOf_congr
              intro b hb
              split
              · rename_i hc
                obtain ⟨x, hx⟩ := hin' hr hc
                simp only [hx, Option.getD_some]
                exact (packBit_ofZp hz h1' h2' x).symm
              · exact hpad.symm
            · intro i hi
              obtain ⟨x, hx⟩ := hget _ (row_lt hr hi)
              simp [hx])
        obtain ⟨s, hs, hf⟩ := this
        refine ⟨s, by simpa using hs, hf.congr (fun i _ => ?_) (fun _ _ _ => rfl)⟩
        rw [false_or]; exact exists_row_iff.symm

/-! ### unpack -/

theorem and_one_shl_ne_zero (w : Word) (i : Nat) (hi : i < 32) :
    (w &&& (1#32 <<< i) ≠ 0#32) ↔ w.getLsbD i = true := by
  constructor
  · intro h
    cases hb : w.getLsbD i with
    | true => rfl
    | false =>
      exfalso; apply h
      apply BitVec.eq_of_getLsbD_eq
      intro j hj
      rw [BitVec.getLsbD_and, getLsbD_one_shl]
      by_cases hji : j = i
      · rw [hji, hb]; simp
      · simp [hji]
  · intro h h0
    have : (w &&& (1#32 <<< i)).getLsbD i = true := by
      rw [BitVec.getLsbD_and, getLsbD_one_shl, h]; simp [hi]
    rw [h0] at this
    simp at this

theorem unpackBitfield_fills {β : Type} {w : Word} {op n : Nat} {zb ob : β}
    {s0 s : List β} {W0 : Nat → Prop} {f : Nat → β}
    (hs : Fills s0 s W0 f) (hn : n ≤ 32) (hlen : op + n ≤ s0.length)
    (hf : ∀ i, i < n → f (op + i) = if w.getLsbD i then ob else zb) :
    ∃ s', unpackBitfield w s op n zb ob = some s' ∧
      Fills s0 s' (fun i => W0 i ∨ (op ≤ i ∧ i < op + n)) f := by
  unfold unpackBitfield
  apply forN_fill _ _ _ _ _ _ _ hs hlen
  intro i hi
  rw [hf i hi]
  have := and_one_shl_ne_zero w i (by omega)
  by_cases hb : w.getLsbD i = true
  · rw [if_pos (this.2 hb), if_pos hb]
  · rw [if_neg (fun h => hb (this.1 h)), if_neg hb]

/-- Specification: element `(r,c)` of the unpacked matrix. -/
def unpackedElem {β : Type} (inp : List Word) (cols : Nat) (zb ob : β) (r c : Nat) : β :=
  match inp[r * packedSize cols + c / 32]? with
  | some w => if w.getLsbD (c % 32) then ob else zb
  | none => zb

theorem unpackMatrix_fills {β : Type} {inp : List Word} {rows cols : Nat} {out0 : List β}
    {zb ob : β} (hin : rows * packedSize cols ≤ inp.length)
    (hout : rows * cols ≤ out0.length) :
    ∃ out, unpackMatrix inp rows cols out0 zb ob = some out ∧
      Fills out0 out (fun i => i < rows * cols)
        (fun i => unpackedElem inp cols zb ob (i / cols) (i % cols)) := by
  have hnw : packedSize cols = (cols + 31) / 32 := by simp [packedSize, ceilDiv, W]
  let f : Nat → β := fun i => unpackedElem inp cols zb ob (i / cols) (i % cols)
  have hword : ∀ r k, r < rows → k < packedSize cols →
      ∃ w, inp[r * packedSize cols + k]? = some w ∧
        ∀ b, b < 32 → 32 * k + b < cols →
          f (r * cols + (32 * k + b)) = if w.getLsbD b then ob else zb := by
    intro r k hr hk
    have := row_lt hr hk
    refine ⟨inp[r * packedSize cols + k], by simp, ?_⟩
    intro b hb hc
    simp only [f]
    rw [(div_mod_row hc).1, (div_mod_row hc).2, unpackedElem]
    have e1 : (32 * k + b) / 32 = k := by omega
    have e2 : (32 * k + b) % 32 = b := by omega
    rw [e1, e2]
    have : r * packedSize cols + k < inp.length := by omega
    simp [this]
  unfold unpackMatrix
  have := forN_inv (n := rows)
    (body := fun _ (st : Nat × Nat × List β) => do
      let numFull := cols / W
      let left := cols - W * numFull
      let (ip, op, out) ← forN numFull (fun _ (st : Nat × Nat × List β) => do
        let (ip, op, out) := st
        let w ← rd inp ip
        let out ← unpackBitfield w out op W zb ob
        some (ip + 1, op + W, out)) st
      if left ≠ 0 then do
        let w ← rd inp ip
        let out ← unpackBitfield w out op left zb ob
        some (ip + 1, op + left, out)
      else some (ip, op, out))
    (s := (0, 0, out0))
    (fun r st => st.1 = r * packedSize cols ∧ st.2.1 = r * cols ∧
      Fills out0 st.2.2 (fun i => i < r * cols) f)
    ⟨by simp, by simp, Fills.init _ _ (by simp)⟩
    (by
      rintro r ⟨ip, op, out⟩ hr ⟨hip, hop, hf⟩
      simp only at hip hop hf
      have hrow := row_le (cols := cols) hr
      have hsucc : (r + 1) * packedSize cols = r * packedSize cols + packedSize cols :=
        Nat.succ_mul _ _
      have hsucc' : (r + 1) * cols = r * cols + cols := Nat.succ_mul _ _
      have hfull := forN_inv (n := cols / 32)
        (body := fun _ (st : Nat × Nat × List β) => (rd inp st.1).bind fun w =>
          (unpackBitfield w st.2.2 st.2.1 W zb ob).bind fun out => some (st.1 + 1, st.2.1 + W, out))
        (s := (ip, op, out))
        (fun k st => st.1 = r * packedSize cols + k ∧ st.2.1 = r * cols + 32 * k ∧
          Fills out0 st.2.2 (fun i => i < r * cols + 32 * k) f)
        ⟨by simpa using hip, by simpa using hop, by simpa using hf⟩
        (by
          rintro k ⟨ip, op, out⟩ hk ⟨hip, hop, hf⟩
          simp only at hip hop hf
          obtain ⟨w, hw, hb⟩ := hword r k hr (by omega)
          subst hip hop
          obtain ⟨s', hs', hf'⟩ := unpackBitfield_fills (w := w) (op := r * cols + 32 * k) (n := 32)
            (zb := zb) (ob := ob) hf (by omega) (by omega)
            (by intro i hi
                rw [Nat.add_assoc]
                exact hb i hi (by omega))
          refine ⟨(r * packedSize cols + k + 1, r * cols + 32 * k + 32, s'), ?_, ?_, ?_, ?_⟩
          · simp [rd, hw, hs', W]
          · simp only; omega
          · simp only; omega
          · exact hf'.congr (fun i _ => by omega) (fun _ _ _ => rfl))
      obtain ⟨⟨ip1, op1, out1⟩, h1, hip1, hop1, hf1⟩ := hfull
      simp only at hip1 hop1 hf1
      simp only [Option.bind_eq_bind]
      rw [show (forN (cols / W) _ (ip, op, out)) = some (ip1, op1, out1) from h1]
      simp only [Option.bind_some]
      by_cases hleft : cols - W * (cols / W) ≠ 0
      · rw [if_pos hleft]
        simp only [W] at hleft
        obtain ⟨w, hw, hb⟩ := hword r (cols / 32) hr (by omega)
        subst hip1 hop1
        obtain ⟨s', hs', hf'⟩ := unpackBitfield_fills (w := w) (op := r * cols + 32 * (cols / 32))
          (n := cols - 32 * (cols / 32)) (zb := zb) (ob := ob) hf1 (by omega) (by omega)
          (by intro i hi
              rw [Nat.add_assoc]
              exact hb i (by omega) (by omega))
        refine ⟨(r * packedSize cols + cols / 32 + 1, r * cols + 32 * (cols / 32) + (cols - 32 * (cols / 32)), s'), ?_, ?_, ?_, ?_⟩
        · simp [rd, hw, hs', W]
        · simp only; omega
        · simp only; omega
        · exact hf'.congr (fun i _ => by omega) (fun _ _ _ => rfl)
      · rw [if_neg hleft]
        simp only [W, ne_eq, Decidable.not_not] at hleft
        refine ⟨(ip1, op1, out1), rfl, ?_, ?_, ?_⟩
        · simp only; omega
        · simp only; omega
        · exact hf1.congr (fun i _ => by omega) (fun _ _ _ => rfl))
  obtain ⟨⟨ip, op, out⟩, h, _, _, hf⟩ := this
  refine ⟨out, ?_, hf⟩
  show (forN rows _ (0, 0, out0)).bind _ = _
  rw [h]; rfl

end Verif
