import Verif.Model.Bitpack
import Verif.Spec.Bits

/-! Lemmas about the portable bitpacking model. -/

namespace Verif

/-- What the element types satisfy. `below x zp` is the meaning of "element `x` is
below the zero point `zp`"; `okZp zp` says the zero point is usable with the type
(for float: it is 0). -/
class LawfulPackElem (α : Type) [PackElem α] where
  below : α → Int → Bool
  okZp : Int → Prop
  below_lowest : ∀ zp, PackElem.leLowest α zp = true → ∀ x : α, below x zp = false
  below_max : ∀ zp, PackElem.gtMax α zp = true → ∀ x : α, below x zp = true
  okZp_float : ∀ zp, okZp zp → PackElem.quantized α = false → zp = 0
  /-- in range: the comparison the code makes is `below` -/
  lt_quantized : ∀ zp, okZp zp → PackElem.leLowest α zp = false → PackElem.gtMax α zp = false →
    PackElem.quantized α = true → ∀ x : α, PackElem.lt x (PackElem.ofZp zp) = below x zp
  lt_float : PackElem.quantized α = false → ∀ x : α, PackElem.lt x PackElem.zero = below x 0
  /-- the value used for padding is not below the zero point -/
  below_zp : ∀ zp, PackElem.leLowest α zp = false → PackElem.gtMax α zp = false →
    okZp zp → below (PackElem.ofZp zp : α) zp = false

variable {α : Type} [PackElem α]

theorem setBit_getLsbD (w : Word) (i : Nat) (b : Bool) (j : Nat) (hi : i < 32) :
    (setBit w i b).getLsbD j = if j = i then b else w.getLsbD j := by
  unfold setBit
  by_cases hj : j < 32
  · split
    · rename_i hb
      rw [BitVec.getLsbD_or, getLsbD_one_shl]
      by_cases h : j = i <;> simp [h, hb, hi]
    · rename_i hb
      rw [BitVec.getLsbD_and, BitVec.getLsbD_not, getLsbD_one_shl]
      by_cases h : j = i <;> simp [h, hb, hi, hj]
  · have h : j ≠ i := by omega
    have h2 : ∀ v : Word, v.getLsbD j = false := fun v => BitVec.getLsbD_of_ge v j (by omega)
    rw [if_neg h, h2 w]
    split <;> exact h2 _

/-- The bit comparison made by `bitpack_bitfield`. -/
def packBit (zp x : α) : Bool :=
  if PackElem.quantized α then PackElem.lt x zp else PackElem.lt x PackElem.zero

theorem bitpackBitfield_eq {inp : List α} {p : Nat} {zp : α} {junk : Word} {x : Nat → α}
    (hx : ∀ i, i < 32 → inp[p + i]? = some (x i)) :
    bitpackBitfield inp p zp junk = some (wordOf fun i => packBit zp (x i)) := by
  have key : ∀ (g : α → Bool), ∃ w, forN 32 (fun i w => (rd inp (p + i)).map
      fun x => setBit w i (g x)) junk = some w ∧ ∀ j, j < 32 → w.getLsbD j = g (x j) := by
    intro g
    apply forN_inv (fun n (w : Word) => ∀ j, j < n → w.getLsbD j = g (x j))
    · intro j hj; omega
    · intro i w hi hw
      refine ⟨setBit w i (g (x i)), by simp [rd, hx i hi], ?_⟩
      intro j hj
      rw [setBit_getLsbD _ _ _ _ hi]
      split
      · rename_i h; rw [h]
      · exact hw j (by omega)
  unfold bitpackBitfield packBit
  split
  · obtain ⟨w, hw, hb⟩ := key (fun x => PackElem.lt x zp)
    unfold bitpackBitfieldQ; rw [hw]; congr 1; exact eq_wordOf hb
  · obtain ⟨w, hw, hb⟩ := key (fun x => PackElem.lt x PackElem.zero)
    unfold bitpackBitfieldF; rw [hw]; congr 1; exact eq_wordOf hb

theorem forN_fill {β : Type} (n a : Nat) (v : Nat → β) (f : Nat → β)
    (s0 s : List β) (W0 : Nat → Prop) (h : Fills s0 s W0 f) (hlen : a + n ≤ s0.length)
    (hv : ∀ i, i < n → v i = f (a + i)) :
    ∃ s', forN n (fun i out => wr out (a + i) (v i)) s = some s' ∧
      Fills s0 s' (fun i => W0 i ∨ (a ≤ i ∧ i < a + n)) f := by
  obtain ⟨s', h1, h2⟩ := Fills.loop (n := n) (body := fun i out => wr out (a + i) (v i))
    (fun k i => i = a + k) h (fun k W s hk hs => hs.write (by omega) (hv k hk))
  refine ⟨s', h1, h2.congr (fun i _ => ?_) (fun _ _ _ => rfl)⟩
  constructor
  · rintro (h | ⟨h1, h2⟩)
    · exact Or.inl h
    · exact Or.inr ⟨i - a, by omega, by omega⟩
  · rintro (h | ⟨k, hk, rfl⟩)
    · exact Or.inl h
    · exact Or.inr (by omega)

/-- Bit `c` of a packed row of `n` elements: the comparison for real elements,
`false` (after padding with `zp`) beyond. -/
theorem bitpackArray_fills {inp : List α} {ip n op : Nat} {zp : α} {junk : Word}
    {s0 s : List Word} {W0 : Nat → Prop} {f : Nat → Word} {x : Nat → α}
    (hx : ∀ i, i < n → inp[ip + i]? = some (x i))
    (hs : Fills s0 s W0 f) (hlen : op + packedSize n ≤ s0.length)
    (hf : ∀ k, k < packedSize n → f (op + k) =
      wordOf fun b => if 32 * k + b < n then packBit zp (x (32 * k + b)) else packBit zp zp) :
    ∃ s', bitpackArray inp ip n s op zp junk = some s' ∧
      Fills s0 s' (fun i => W0 i ∨ (op ≤ i ∧ i < op + packedSize n)) f := by
  unfold bitpackArray
  simp only [packedSize, ceilDiv, W] at hlen hf ⊢
  -- the full words
  have hfull : ∃ s1, forN (n / 32) (fun i out => do
      let w ← bitpackBitfield inp (ip + 32 * i) zp junk
      wr out (op + i) w) s = some s1 ∧
      Fills s0 s1 (fun i => W0 i ∨ ∃ k, k < n / 32 ∧ i = op + k) f := by
    apply Fills.loop _ hs
    intro k W s hk hs
    have : bitpackBitfield inp (ip + 32 * k) zp junk
        = some (wordOf fun i => packBit zp (x (32 * k + i))) := by
      apply bitpackBitfield_eq
      intro i hi
      rw [Nat.add_assoc]
      exact hx _ (by omega)
    simp only [this]
    apply hs.write (by omega)
    rw [hf k (by omega)]
    apply wordOf_congr
    intro i hi
    have : 32 * k + i < n := by omega
    simp [this]
  obtain ⟨s1, h1, hs1⟩ := hfull
  simp only [h1]
  simp only [Option.bind_eq_bind, Option.bind_some]
  split
  · rename_i hleft
    -- the padding buffer
    have hbuf1 := Fills.loop (n := n - 32 * (n / 32))
      (s0 := List.replicate 32 (PackElem.zero : α)) (s := List.replicate 32 (PackElem.zero : α))
      (W0 := fun _ => False)
      (f := fun i => if 32 * (n / 32) + i < n then x (32 * (n / 32) + i) else zp)
      (body := fun i buf => (rd inp (ip + 32 * (n / 32) + i)).bind fun x => wr buf i x)
      (fun k i => i = k) (Fills.init _ _ (by simp))
      (by
        intro k W s hk hs
        have : rd inp (ip + 32 * (n / 32) + k) = some (x (32 * (n / 32) + k)) := by
          have := hx (32 * (n / 32) + k) (by omega)
          rw [rd, Nat.add_assoc]; exact this
        simp only [this, Option.bind_some]
        refine hs.write (by simp; omega) ?_
        have : 32 * (n / 32) + k < n := by omega
        simp [this])
    obtain ⟨b1, hb1, hf1⟩ := hbuf1
    simp only [hb1, Option.bind_some]
    obtain ⟨b2, hb2, hf2⟩ := forN_fill (32 - (n - 32 * (n / 32))) (n - 32 * (n / 32))
      (fun _ => zp) _ _ _ _ hf1 (by simp; omega)
      (by intro i hi
          have : ¬ (32 * (n / 32) + (n - 32 * (n / 32) + i) < n) := by omega
          simp [this])
    simp only [hb2, Option.bind_some]
    have hw : bitpackBitfield b2 0 zp junk = some (wordOf fun b =>
        packBit zp (if 32 * (n / 32) + b < n then x (32 * (n / 32) + b) else zp)) := by
      apply bitpackBitfield_eq
      intro i hi
      rw [Nat.zero_add]
      refine hf2.hit i (by simp; omega) ?_
      by_cases h : i < n - 32 * (n / 32)
      · exact Or.inl (Or.inr ⟨i, h, rfl⟩)
      · exact Or.inr ⟨by omega, by omega⟩
    simp only [hw, Option.bind_some]
    obtain ⟨s2, h2, hs2⟩ := hs1.write (i := op + n / 32)
      (v := wordOf fun b =>
        packBit zp (if 32 * (n / 32) + b < n then x (32 * (n / 32) + b) else zp)) (by omega)
      (by
        rw [hf (n / 32) (by omega)]
        apply wordOf_congr
        intro i _
        split <;> rfl)
    refine ⟨s2, h2, hs2.congr (fun i _ => ?_) (fun _ _ _ => rfl)⟩
    constructor
    · rintro (h | ⟨ha, hb⟩)
      · exact Or.inl (Or.inl h)
      · by_cases hc : i = op + n / 32
        · exact Or.inr hc
        · exact Or.inl (Or.inr ⟨i - op, by omega, by omega⟩)
    · rintro ((h | ⟨k, hk, rfl⟩) | rfl)
      · exact Or.inl h
      · exact Or.inr (by omega)
      · exact Or.inr (by omega)
  · rename_i hleft
    refine ⟨s1, rfl, hs1.congr (fun i _ => ?_) (fun _ _ _ => rfl)⟩
    constructor
    · rintro (h | ⟨ha, hb⟩)
      · exact Or.inl h
      · exact Or.inr ⟨i - op, by omega, by omega⟩
    · rintro (h | ⟨k, hk, rfl⟩)
      · exact Or.inl h
      · exact Or.inr (by omega)

end Verif
