import Verif.Model.BitpackA64
import Verif.Proof.BitpackMatrix

namespace Verif

set_option maxRecDepth 100000

/-- The byte assembled from the top bits of eight bytes. -/
def tree8 (x : Nat → BitVec 8) : BitVec 8 :=
  byteSri 4 (byteSri 2 (byteSri 1 (x 7) (x 6)) (byteSri 1 (x 5) (x 4)))
    (byteSri 2 (byteSri 1 (x 3) (x 2)) (byteSri 1 (x 1) (x 0)))

/-- Four words stored at `o`. -/
def put4 (buf : List Word) (o : Nat) (w : Nat → Word) : List Word :=
  (((buf.set o (w 0)).set (o + 1) (w 1)).set (o + 2) (w 2)).set (o + 3) (w 3)

/-- The byte whose top bit is packed for element `e`, in the registers of the float routine. -/
def f32Src (r : Nat → Nat → BitVec 8) (e : Nat) : BitVec 8 := r (2 * (e / 8) + 1) (2 * (e % 8) + 1)

/-- The words the float routine stores. -/
def f32Words (r : Nat → Nat → BitVec 8) : Nat → Word :=
  laneWord fun j => tree8 fun q => f32Src r (8 * j + q)

theorem f32_tail_buf (mem : A64Mem) (zb : BitVec 8) (s : A64State) :
    (a64Execs mem zb a64F32Tail s).buf = put4 s.buf s.out (f32Words s.regs) := rfl

theorem f32_tail_ok (mem : A64Mem) (zb : BitVec 8) (s : A64State) :
    (a64Execs mem zb a64F32Tail s).ok = (s.ok && decide (s.out + 4 ≤ s.buf.length)) := rfl

theorem f32_loop_buf (mem : A64Mem) (zb : BitVec 8) (s : A64State) :
    (a64Execs mem zb a64F32Loop s).buf = put4 s.buf s.out (f32Words s.regs) := rfl

theorem f32_loop_n (mem : A64Mem) (zb : BitVec 8) (s : A64State) :
    (a64Execs mem zb a64F32Loop s).n = s.n - 1 ∧ (a64Execs mem zb a64F32Loop s).cmpA = s.n - 1 ∧
    (a64Execs mem zb a64F32Loop s).cmpB = 2 ∧ (a64Execs mem zb a64F32Loop s).out = s.out + 4 ∧
    (a64Execs mem zb a64F32Loop s).inp = s.inp + 512 := ⟨rfl, rfl, rfl, rfl, rfl⟩

theorem f32_loop_ok (mem : A64Mem) (zb : BitVec 8) (s : A64State) (h : s.ok = true) (h1 : s.inp + 512 ≤ mem.size)
    (h2 : s.out + 4 ≤ s.buf.length) : (a64Execs mem zb a64F32Loop s).ok = true := by
  have e : (a64Execs mem zb a64F32Loop s).ok =
      ((((((((((((((((s.ok && decide (s.inp + 0 + 32 ≤ mem.size)) && decide (s.inp + 32 + 32 ≤ mem.size)) && decide (s.inp + 64 + 32 ≤ mem.size)) && decide (s.inp + 96 + 32 ≤ mem.size)) && decide (s.inp + 128 + 32 ≤ mem.size)) && decide (s.inp + 160 + 32 ≤ mem.size)) && decide (s.inp + 192 + 32 ≤ mem.size)) && decide (s.inp + 224 + 32 ≤ mem.size)) && decide (s.inp + 256 + 32 ≤ mem.size)) && decide (s.inp + 288 + 32 ≤ mem.size)) && decide (s.inp + 320 + 32 ≤ mem.size)) && decide (s.inp + 352 + 32 ≤ mem.size)) && decide (s.inp + 384 + 32 ≤ mem.size)) && decide (s.inp + 416 + 32 ≤ mem.size)) && decide (s.inp + 448 + 32 ≤ mem.size)) && decide (s.out + 4 ≤ s.buf.length) && decide (s.inp + 480 + 32 ≤ mem.size)) := rfl
  rw [e, h]
  simp only [Bool.and_eq_true, decide_eq_true_eq, true_and]
  omega

theorem f32_loop_regs (mem : A64Mem) (zb : BitVec 8) (s : A64State) (i : Nat) (hi : i < 16) :
    (a64Execs mem zb a64F32Loop s).regs (2 * i + 1) = fun j => mem.byte (s.inp + 32 * i + 4 * (j / 2) + 2 + j % 2) := by
  have : i = 0 ∨ i = 1 ∨ i = 2 ∨ i = 3 ∨ i = 4 ∨ i = 5 ∨ i = 6 ∨ i = 7 ∨ i = 8 ∨ i = 9 ∨ i = 10 ∨ i = 11 ∨ i = 12 ∨
    i = 13 ∨ i = 14 ∨ i = 15 := by omega
  rcases this with h | h | h | h | h | h | h | h | h | h | h | h | h | h | h | h <;> subst h <;> rfl

theorem f32_pro_ok (mem : A64Mem) (zb : BitVec 8) (s : A64State) (h : s.ok = true) (h1 : s.inp + 512 ≤ mem.size) :
    (a64Execs mem zb a64F32Pro s).ok = true := by
  have e : (a64Execs mem zb a64F32Pro s).ok =
      ((((((((((((((((s.ok && decide (s.inp + 0 + 32 ≤ mem.size)) && decide (s.inp + 32 + 32 ≤ mem.size)) && decide (s.inp + 64 + 32 ≤ mem.size)) && decide (s.inp + 96 + 32 ≤ mem.size)) && decide (s.inp + 128 + 32 ≤ mem.size)) && decide (s.inp + 160 + 32 ≤ mem.size)) && decide (s.inp + 192 + 32 ≤ mem.size)) && decide (s.inp + 224 + 32 ≤ mem.size)) && decide (s.inp + 256 + 32 ≤ mem.size)) && decide (s.inp + 288 + 32 ≤ mem.size)) && decide (s.inp + 320 + 32 ≤ mem.size)) && decide (s.inp + 352 + 32 ≤ mem.size)) && decide (s.inp + 384 + 32 ≤ mem.size)) && decide (s.inp + 416 + 32 ≤ mem.size)) && decide (s.inp + 448 + 32 ≤ mem.size)) && decide (s.inp + 480 + 32 ≤ mem.size)) := rfl
  rw [e, h]
  simp only [Bool.and_eq_true, decide_eq_true_eq, true_and]
  omega

theorem f32_pro_n (mem : A64Mem) (zb : BitVec 8) (s : A64State) :
    (a64Execs mem zb a64F32Pro s).n = s.n ∧ (a64Execs mem zb a64F32Pro s).cmpA = s.n ∧
    (a64Execs mem zb a64F32Pro s).cmpB = 1 ∧ (a64Execs mem zb a64F32Pro s).out = s.out ∧
    (a64Execs mem zb a64F32Pro s).inp = s.inp + 512 ∧ (a64Execs mem zb a64F32Pro s).buf = s.buf :=
  ⟨rfl, rfl, rfl, rfl, rfl, rfl⟩

theorem f32_pro_regs (mem : A64Mem) (zb : BitVec 8) (s : A64State) (i : Nat) (hi : i < 16) :
    (a64Execs mem zb a64F32Pro s).regs (2 * i + 1) = fun j => mem.byte (s.inp + 32 * i + 4 * (j / 2) + 2 + j % 2) := by
  have : i = 0 ∨ i = 1 ∨ i = 2 ∨ i = 3 ∨ i = 4 ∨ i = 5 ∨ i = 6 ∨ i = 7 ∨ i = 8 ∨ i = 9 ∨ i = 10 ∨ i = 11 ∨ i = 12 ∨
    i = 13 ∨ i = 14 ∨ i = 15 := by omega
  rcases this with h | h | h | h | h | h | h | h | h | h | h | h | h | h | h | h <;> subst h <;> rfl

/-! ### The int8 routine -/

/-- The byte whose top bit is packed for element `e`, in the registers of the int8 routine. -/
def i8Src (r : Nat → Nat → BitVec 8) (e : Nat) : BitVec 8 :=
  byteSqsub (r (2 * (e / 32) + e % 2) (e % 32 / 2)) (r 31 (e % 32 / 2))

/-- The words the int8 routine stores. -/
def i8Words (r : Nat → Nat → BitVec 8) : Nat → Word :=
  laneWord fun j => tree8 fun q => i8Src r (8 * j + q)

theorem i8_tail_buf (mem : A64Mem) (zb : BitVec 8) (s : A64State) :
    (a64Execs mem zb a64I8Tail s).buf = put4 s.buf s.out (i8Words s.regs) := rfl

theorem i8_tail_ok (mem : A64Mem) (zb : BitVec 8) (s : A64State) :
    (a64Execs mem zb a64I8Tail s).ok = (s.ok && decide (s.out + 4 ≤ s.buf.length)) := rfl

theorem i8_loop_buf (mem : A64Mem) (zb : BitVec 8) (s : A64State) :
    (a64Execs mem zb a64I8Loop s).buf = put4 s.buf s.out (i8Words s.regs) := rfl

theorem i8_loop_n (mem : A64Mem) (zb : BitVec 8) (s : A64State) :
    (a64Execs mem zb a64I8Loop s).n = s.n - 1 ∧ (a64Execs mem zb a64I8Loop s).cmpA = s.n - 1 ∧
    (a64Execs mem zb a64I8Loop s).cmpB = 2 ∧ (a64Execs mem zb a64I8Loop s).out = s.out + 4 ∧
    (a64Execs mem zb a64I8Loop s).inp = s.inp + 128 := ⟨rfl, rfl, rfl, rfl, rfl⟩

theorem i8_loop_ok (mem : A64Mem) (zb : BitVec 8) (s : A64State) (h : s.ok = true) (h1 : s.inp + 128 ≤ mem.size)
    (h2 : s.out + 4 ≤ s.buf.length) : (a64Execs mem zb a64I8Loop s).ok = true := by
  have e : (a64Execs mem zb a64I8Loop s).ok =
      (s.ok && decide (s.inp + 0 + 32 ≤ mem.size) && decide (s.inp + 32 + 32 ≤ mem.size) &&
        decide (s.inp + 64 + 32 ≤ mem.size) && decide (s.inp + 96 + 32 ≤ mem.size) &&
        decide (s.out + 4 ≤ s.buf.length)) := rfl
  rw [e, h]
  simp only [Bool.and_eq_true, decide_eq_true_eq, true_and]
  omega

theorem i8_loop_regs (mem : A64Mem) (zb : BitVec 8) (s : A64State) (i k : Nat) (hi : i < 4) (hk : k < 2) :
    (a64Execs mem zb a64I8Loop s).regs (2 * i + k) = fun j => mem.byte (s.inp + 32 * i + 2 * j + k) := by
  have h1 : i = 0 ∨ i = 1 ∨ i = 2 ∨ i = 3 := by omega
  have h2 : k = 0 ∨ k = 1 := by omega
  rcases h1 with h | h | h | h <;> subst h <;> rcases h2 with h | h <;> subst h <;> rfl

theorem i8_loop_v31 (mem : A64Mem) (zb : BitVec 8) (s : A64State) :
    (a64Execs mem zb a64I8Loop s).regs 31 = s.regs 31 := rfl

theorem i8_pro_ok (mem : A64Mem) (zb : BitVec 8) (s : A64State) (h : s.ok = true) (h1 : s.inp + 128 ≤ mem.size) :
    (a64Execs mem zb a64I8Pro s).ok = true := by
  have e : (a64Execs mem zb a64I8Pro s).ok =
      (s.ok && decide (s.inp + 0 + 32 ≤ mem.size) && decide (s.inp + 32 + 32 ≤ mem.size) &&
        decide (s.inp + 64 + 32 ≤ mem.size) && decide (s.inp + 96 + 32 ≤ mem.size)) := rfl
  rw [e, h]
  simp only [Bool.and_eq_true, decide_eq_true_eq, true_and]
  omega

theorem i8_pro_n (mem : A64Mem) (zb : BitVec 8) (s : A64State) :
    (a64Execs mem zb a64I8Pro s).n = s.n ∧ (a64Execs mem zb a64I8Pro s).cmpA = s.n ∧
    (a64Execs mem zb a64I8Pro s).cmpB = 1 ∧ (a64Execs mem zb a64I8Pro s).out = s.out ∧
    (a64Execs mem zb a64I8Pro s).inp = s.inp + 128 ∧ (a64Execs mem zb a64I8Pro s).buf = s.buf :=
  ⟨rfl, rfl, rfl, rfl, rfl, rfl⟩

theorem i8_pro_regs (mem : A64Mem) (zb : BitVec 8) (s : A64State) (i k : Nat) (hi : i < 4) (hk : k < 2) :
    (a64Execs mem zb a64I8Pro s).regs (2 * i + k) = fun j => mem.byte (s.inp + 32 * i + 2 * j + k) := by
  have h1 : i = 0 ∨ i = 1 ∨ i = 2 ∨ i = 3 := by omega
  have h2 : k = 0 ∨ k = 1 := by omega
  rcases h1 with h | h | h | h <;> subst h <;> rcases h2 with h | h <;> subst h <;> rfl

theorem i8_pro_v31 (mem : A64Mem) (zb : BitVec 8) (s : A64State) :
    (a64Execs mem zb a64I8Pro s).regs 31 = fun _ => zb := rfl

/-! ### Bits -/

theorem byteSri_getLsbD (k : Nat) (d s : BitVec 8) (b : Nat) (hb : b < 8) (hk : k ≤ 8) :
    (byteSri k d s).getLsbD b = if 8 - k ≤ b then d.getLsbD b else s.getLsbD (k + b) := by
  unfold byteSri
  rw [BitVec.getLsbD_or, BitVec.getLsbD_and, BitVec.getLsbD_not, BitVec.getLsbD_ushiftRight, BitVec.getLsbD_ushiftRight,
    BitVec.getLsbD_allOnes]
  by_cases h : 8 - k ≤ b
  · rw [if_pos h, BitVec.getLsbD_of_ge s (k + b) (by omega), decide_eq_false (show ¬ (k + b < 8) by omega),
      decide_eq_true hb]
    simp
  · rw [if_neg h, decide_eq_true (show k + b < 8 by omega)]
    simp

theorem tree8_getLsbD (x : Nat → BitVec 8) (b : Nat) (hb : b < 8) : (tree8 x).getLsbD b = (x b).getLsbD 7 := by
  have : b = 0 ∨ b = 1 ∨ b = 2 ∨ b = 3 ∨ b = 4 ∨ b = 5 ∨ b = 6 ∨ b = 7 := by omega
  unfold tree8
  rcases this with h | h | h | h | h | h | h | h <;> subst h <;>
    simp (disch := omega) only [byteSri_getLsbD, Nat.reduceLeDiff, Nat.reduceSub, Nat.reduceAdd, if_true,
      if_false]

theorem laneWord_getLsbD (v : Nat → BitVec 8) (w b : Nat) (hb : b < 32) :
    (laneWord v w).getLsbD b = (v (4 * w + b / 8)).getLsbD (b % 8) := by
  unfold laneWord
  rw [BitVec.getLsbD_append, BitVec.getLsbD_append, BitVec.getLsbD_append]
  by_cases h0 : b < 8
  · rw [if_pos h0, show b / 8 = 0 by omega, show b % 8 = b by omega]; rfl
  rw [if_neg h0]
  by_cases h1 : b - 8 < 8
  · rw [if_pos h1, show b / 8 = 1 by omega, show b % 8 = b - 8 by omega]
  rw [if_neg h1]
  by_cases h2 : b - 8 - 8 < 8
  · rw [if_pos h2, show b / 8 = 2 by omega, show b % 8 = b - 8 - 8 by omega]
  rw [if_neg h2, show b / 8 = 3 by omega, show b % 8 = b - 8 - 8 - 8 by omega]

theorem words_eq {src : Nat → BitVec 8} {w : Nat} {f : Nat → Bool}
    (h : ∀ b, b < 32 → (src (32 * w + b)).getLsbD 7 = f b) :
    laneWord (fun j => tree8 fun q => src (8 * j + q)) w = wordOf f := by
  apply eq_wordOf
  intro b hb
  rw [laneWord_getLsbD _ _ _ hb, tree8_getLsbD _ _ (by omega), ← h b hb]
  congr 2
  omega

theorem fills_put4 {s0 s : List Word} {W : Nat → Prop} {f : Nat → Word} {o : Nat} {w : Nat → Word} (h : Fills s0 s W f)
    (ho : o + 4 ≤ s0.length) (hw : ∀ i, i < 4 → w i = f (o + i)) :
    Fills s0 (put4 s o w) (fun i => W i ∨ (o ≤ i ∧ i < o + 4)) f := by
  have one : ∀ {s : List Word} {W : Nat → Prop} {i : Nat} {v : Word}, Fills s0 s W f → i < s0.length → v = f i →
      Fills s0 (s.set i v) (fun j => W j ∨ j = i) f := by
    intro s W i v h hi hv
    obtain ⟨s', h1, h2⟩ := h.write hi hv
    unfold wr at h1
    rw [if_pos (by rw [h.len]; exact hi)] at h1
    rw [Option.some.inj h1]; exact h2
  have h4 := one (one (one (one h (i := o) (v := w 0) (by omega) (hw 0 (by omega))) (i := o + 1) (v := w 1) (by omega)
    (hw 1 (by omega))) (i := o + 2) (v := w 2) (by omega) (hw 2 (by omega))) (i := o + 3) (v := w 3) (by omega)
    (hw 3 (by omega))
  refine h4.congr (fun i _ => ?_) fun _ _ _ => rfl
  constructor
  · rintro (h | h)
    · exact .inl (.inl (.inl (.inl h)))
    · have : i = o ∨ i = o + 1 ∨ i = o + 2 ∨ i = o + 3 := by omega
      rcases this with h | h | h | h
      · exact .inl (.inl (.inl (.inr h)))
      · exact .inl (.inl (.inr h))
      · exact .inl (.inr h)
      · exact .inr h
  · rintro ((((h | h) | h) | h) | h)
    · exact .inl h
    all_goals exact .inr (by omega)

/-! ### Any number of blocks -/

/-- What is needed of the three parts of a routine. -/
structure A64Ok (pro loop tail : List A64Instr) (mem : A64Mem) (zb : BitVec 8) (blk : Nat)
    (src : (Nat → Nat → BitVec 8) → Nat → BitVec 8) (K : (Nat → Nat → BitVec 8) → Prop) (val : Nat → Nat → BitVec 8) : Prop where
  pro_ok : ∀ s, s.ok = true → s.inp + blk ≤ mem.size → (a64Execs mem zb pro s).ok = true
  pro_n : ∀ s, (a64Execs mem zb pro s).n = s.n ∧ (a64Execs mem zb pro s).cmpA = s.n ∧ (a64Execs mem zb pro s).cmpB = 1 ∧
    (a64Execs mem zb pro s).out = s.out ∧ (a64Execs mem zb pro s).inp = s.inp + blk ∧ (a64Execs mem zb pro s).buf = s.buf
  pro_regs : ∀ s, K (a64Execs mem zb pro s).regs ∧ ∀ e, e < 128 → src (a64Execs mem zb pro s).regs e = val s.inp e
  loop_ok : ∀ s, s.ok = true → s.inp + blk ≤ mem.size → s.out + 4 ≤ s.buf.length → (a64Execs mem zb loop s).ok = true
  loop_n : ∀ s, (a64Execs mem zb loop s).n = s.n - 1 ∧ (a64Execs mem zb loop s).cmpA = s.n - 1 ∧
    (a64Execs mem zb loop s).cmpB = 2 ∧ (a64Execs mem zb loop s).out = s.out + 4 ∧ (a64Execs mem zb loop s).inp = s.inp + blk
  loop_buf : ∀ s, (a64Execs mem zb loop s).buf =
    put4 s.buf s.out (laneWord fun j => tree8 fun q => src s.regs (8 * j + q))
  loop_regs : ∀ s, K s.regs → K (a64Execs mem zb loop s).regs ∧
    ∀ e, e < 128 → src (a64Execs mem zb loop s).regs e = val s.inp e
  tail_ok : ∀ s, (a64Execs mem zb tail s).ok = (s.ok && decide (s.out + 4 ≤ s.buf.length))
  tail_buf : ∀ s, (a64Execs mem zb tail s).buf =
    put4 s.buf s.out (laneWord fun j => tree8 fun q => src s.regs (8 * j + q))

theorem bitpackA64_fills {pro loop tail : List A64Instr} {mem : A64Mem} {zb : BitVec 8} {blk : Nat}
    {src : (Nat → Nat → BitVec 8) → Nat → BitVec 8} {K : (Nat → Nat → BitVec 8) → Prop} {val : Nat → Nat → BitVec 8}
    (hr : A64Ok pro loop tail mem zb blk src K val) {ip nb op : Nat} {s0 s : List Word} {W : Nat → Prop} {f : Nat → Word}
    {regs : Nat → Nat → BitVec 8} (hs : Fills s0 s W f) (hin : ip + blk * nb ≤ mem.size) (hout : op + 4 * nb ≤ s0.length)
    (hf : ∀ k w, k < nb → w < 4 →
      f (op + 4 * k + w) = wordOf fun b => (val (ip + blk * k) (32 * w + b)).getLsbD 7) :
    ∃ s', bitpackA64 pro loop tail mem ip nb s op zb regs = some s' ∧
      Fills s0 s' (fun i => W i ∨ (op ≤ i ∧ i < op + 4 * nb)) f := by
  unfold bitpackA64
  by_cases h0 : nb < 1
  · rw [if_pos h0]
    refine ⟨s, rfl, hs.congr (fun i _ => ?_) fun _ _ _ => rfl⟩
    constructor
    · rintro (h | h)
      · exact h
      · omega
    · exact .inl
  rw [if_neg h0]
  let I : Nat → A64State → Prop := fun k st => st.ok = true ∧ st.inp = ip + blk * (k + 1) ∧ st.n = nb - k ∧
    st.out = op + 4 * k ∧ K st.regs ∧ (∀ e, e < 128 → src st.regs e = val (ip + blk * k) e) ∧
    Fills s0 st.buf (fun i => W i ∨ (op ≤ i ∧ i < op + 4 * k)) f
  have hword : ∀ k st, k < nb → I k st → ∀ w, w < 4 →
      laneWord (fun j => tree8 fun q => src st.regs (8 * j + q)) w = f (op + 4 * k + w) := by
    rintro k st hk ⟨_, _, _, _, _, h6, _⟩ w hw
    rw [hf k w hk hw]
    refine words_eq fun b hb => ?_
    rw [h6 _ (by omega)]
  have hput : ∀ k st, k < nb → I k st →
      Fills s0 (put4 st.buf st.out (laneWord fun j => tree8 fun q => src st.regs (8 * j + q)))
        (fun i => W i ∨ (op ≤ i ∧ i < op + 4 * (k + 1))) f := by
    intro k st hk hI
    have hw := hword k st hk hI
    obtain ⟨_, _, _, h4, _, _, h7⟩ := hI
    rw [h4]
    refine (fills_put4 h7 (by omega) hw).congr (fun i _ => ?_) fun _ _ _ => rfl
    constructor
    · rintro (h | h)
      · exact .inl (.inl h)
      · by_cases g : i < op + 4 * k
        · exact .inl (.inr ⟨h.1, g⟩)
        · exact .inr (by omega)
    · rintro ((h | h) | h)
      · exact .inl h
      all_goals exact .inr (by omega)
  have hblk : ∀ k, k + 1 < nb → ip + blk * (k + 1) + blk ≤ mem.size := by
    intro k hk
    have : blk * (k + 1 + 1) ≤ blk * nb := Nat.mul_le_mul_left _ hk
    rw [Nat.mul_add blk (k + 1)] at this
    omega
  -- the prologue
  unfold a64Routine
  simp only []
  generalize hst : a64Execs mem zb pro _ = st
  have hI0 : I 0 st := by
    subst hst
    have hn := hr.pro_n { regs := regs, inp := ip, n := nb, out := op, cmpA := 0, cmpB := 0, buf := s, ok := true }
    have hreg := hr.pro_regs { regs := regs, inp := ip, n := nb, out := op, cmpA := 0, cmpB := 0, buf := s, ok := true }
    have : blk * 1 ≤ blk * nb := Nat.mul_le_mul_left _ (by omega)
    refine ⟨hr.pro_ok _ rfl (by simp only []; omega), ?_, hn.1, hn.2.2.2.1, hreg.1, hreg.2, ?_⟩
    · rw [hn.2.2.2.2.1]; simp
    · rw [hn.2.2.2.2.2]
      refine hs.congr (fun i _ => ?_) fun _ _ _ => rfl
      constructor
      · rintro (h | h)
        · exact h
        · omega
      · exact .inl
  have hcmp : st.cmpA = nb ∧ st.cmpB = 1 := by
    subst hst
    exact ⟨(hr.pro_n _).2.1, (hr.pro_n _).2.2.1⟩
  have hmid : ∃ st', (if st.cmpA = st.cmpB then some st
      else doWhile (fun s => decide (s.cmpB ≤ s.cmpA)) (fun s => some (a64Execs mem zb loop s)) (st.n + 1) st) = some st' ∧
      I (nb - 1) st' := by
    by_cases h1 : nb = 1
    · rw [if_pos (by omega)]
      exact ⟨st, rfl, by rw [h1]; exact hI0⟩
    · rw [if_neg (by omega)]
      refine doWhile_inv (fun st => ∃ k, k + 1 < nb ∧ I k st) (I (nb - 1)) (fun st => st.n) ?_ _ _ ⟨0, by omega, hI0⟩ (by omega)
      rintro st ⟨k, hk, hI⟩
      have hp := hput k st (by omega) hI
      obtain ⟨h1, h2, h3, h4, h5, h6, h7⟩ := hI
      have hn := hr.loop_n st
      have hreg := hr.loop_regs st h5
      have hlen := h7.len
      have hI' : I (k + 1) (a64Execs mem zb loop st) := by
        refine ⟨hr.loop_ok st h1 (by rw [h2]; exact hblk k hk) (by omega), ?_, by omega, by omega, hreg.1, ?_, ?_⟩
        · rw [hn.2.2.2.2, h2, Nat.mul_add blk (k + 1)]; omega
        · rw [← h2]; exact hreg.2
        · rw [hr.loop_buf]; exact hp
      refine ⟨_, rfl, fun hc => ?_, fun hc => ?_⟩
      · have := of_decide_eq_true hc
        exact ⟨⟨k + 1, by omega, hI'⟩, by omega⟩
      · have := of_decide_eq_false hc
        have e : k + 1 = nb - 1 := by omega
        rw [← e]; exact hI'
  obtain ⟨st', hm, hI⟩ := hmid
  rw [hm]
  simp only [Option.bind_some]
  have hp := hput _ _ (by omega) hI
  obtain ⟨h1, h2, h3, h4, h5, h6, h7⟩ := hI
  have hlen := h7.len
  rw [hr.tail_ok, h1, decide_eq_true (by omega)]
  refine ⟨_, rfl, ?_⟩
  simp only []
  rw [hr.tail_buf]
  rw [show nb - 1 + 1 = nb by omega] at hp
  exact hp

theorem a64F32_ok (mem : A64Mem) (zb : BitVec 8) : A64Ok a64F32Pro a64F32Loop a64F32Tail mem zb 512 f32Src (fun _ => True)
    (fun a e => mem.byte (a + 4 * e + 3)) where
  pro_ok := f32_pro_ok mem zb
  pro_n := f32_pro_n mem zb
  pro_regs s := by
    refine ⟨trivial, fun e he => ?_⟩
    unfold f32Src
    rw [f32_pro_regs mem zb s _ (by omega)]
    simp only []
    congr 1
    omega
  loop_ok := f32_loop_ok mem zb
  loop_n := f32_loop_n mem zb
  loop_buf := f32_loop_buf mem zb
  loop_regs s _ := by
    refine ⟨trivial, fun e he => ?_⟩
    unfold f32Src
    rw [f32_loop_regs mem zb s _ (by omega)]
    simp only []
    congr 1
    omega
  tail_ok := f32_tail_ok mem zb
  tail_buf := f32_tail_buf mem zb

theorem a64I8_ok (mem : A64Mem) (zb : BitVec 8) : A64Ok a64I8Pro a64I8Loop a64I8Tail mem zb 128 i8Src
    (fun r => r 31 = fun _ => zb) (fun a e => byteSqsub (mem.byte (a + e)) zb) where
  pro_ok := i8_pro_ok mem zb
  pro_n := i8_pro_n mem zb
  pro_regs s := by
    refine ⟨i8_pro_v31 mem zb s, fun e he => ?_⟩
    unfold i8Src
    rw [i8_pro_regs mem zb s _ _ (by omega) (by omega), i8_pro_v31]
    simp only []
    congr 2
    omega
  loop_ok := i8_loop_ok mem zb
  loop_n := i8_loop_n mem zb
  loop_buf := i8_loop_buf mem zb
  loop_regs s h := by
    refine ⟨by rw [i8_loop_v31]; exact h, fun e he => ?_⟩
    unfold i8Src
    rw [i8_loop_regs mem zb s _ _ (by omega) (by omega), i8_loop_v31, h]
    simp only []
    congr 2
    omega
  tail_ok := i8_tail_ok mem zb
  tail_buf := i8_tail_buf mem zb

theorem byteSqsub_msb (a b : BitVec 8) : (byteSqsub a b).getLsbD 7 = a.slt b := by
  have h1 := a.toInt_lt
  have h2 := a.le_toInt
  have h3 := b.toInt_lt
  have h4 := b.le_toInt
  have e : (byteSqsub a b).toInt = max (-128) (min 127 (a.toInt - b.toInt)) := by
    unfold byteSqsub
    rw [BitVec.toInt_ofInt]
    simp only [Int.bmod]
    omega
  have e2 : (byteSqsub a b).getLsbD 7 = (byteSqsub a b).msb := rfl
  rw [e2, BitVec.msb_eq_toInt, e]
  rw [Bool.eq_iff_iff, BitVec.slt_iff_toInt_lt]
  simp only [decide_eq_true_eq]
  omega

end Verif
