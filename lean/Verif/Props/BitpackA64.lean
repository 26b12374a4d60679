import Verif.Proof.BitpackA64

/-!
C45: the aarch64 bitpacking of float and int8 compared with the portable code.
-/

namespace Verif

theorem Fills.unique {α : Type _} {s0 s s' : List α} {W : Nat → Prop} {f : Nat → α} (h : Fills s0 s W f)
    (h' : Fills s0 s' W f) : s = s' := by
  apply List.ext_getElem?
  intro i
  by_cases hw : W i
  · by_cases hi : i < s0.length
    · rw [h.hit i hi hw, h'.hit i hi hw]
    · rw [List.getElem?_eq_none (by rw [h.len]; omega), List.getElem?_eq_none (by rw [h'.len]; omega)]
  · rw [h.miss i hw, h'.miss i hw]

theorem forN_congr_inv {σ : Type _} {n : Nat} {body body' : Nat → σ → Option σ} {s : σ} (P : σ → Prop) (h0 : P s)
    (h : ∀ i s, i < n → P s → body i s = body' i s ∧ ∀ s', body' i s = some s' → P s') :
    forN n body s = forN n body' s ∧ ∀ s', forN n body' s = some s' → P s' := by
  induction n with
  | zero => exact ⟨rfl, fun s' hs => by rw [forN_zero] at hs; rw [← Option.some.inj hs]; exact h0⟩
  | succ n ih =>
    obtain ⟨h1, h2⟩ := ih fun i s hi => h i s (by omega)
    rw [forN_succ, forN_succ, h1]
    cases hb : forN n body' s with
    | none => exact ⟨rfl, fun s' hs => by simp at hs⟩
    | some t => exact h n t (by omega) (h2 t hb)

/-- After the blocks, the rest of `bitpack_array` is the portable code on the remaining elements. -/
theorem bitpackArrayA64_eq {α : Type} [PackElem α] [A64Pack α] {inp : List α} {ip n : Nat} {out : List Word} {op : Nat} {zp : α}
    {junk : Word} {regs : Nat → Nat → BitVec 8}
    {f : List α → Nat → Nat → List Word → Nat → (Nat → Nat → BitVec 8) → Option (List Word)} (hf : A64Pack.fast zp = some f) :
    bitpackArrayA64 inp ip n out op zp junk regs = (f inp ip (n / 128) out op regs).bind fun out =>
      bitpackArray inp (ip + 128 * (n / 128)) (n - 128 * (n / 128)) out (op + 4 * (n / 128)) zp junk := by
  unfold bitpackArrayA64 bitpackArray
  rw [hf]
  simp only [Option.bind_eq_bind]
  have e0 : n / W / 4 = n / 128 := by simp only [W]; omega
  have e1 : n / W % 4 = (n - 128 * (n / 128)) / W := by simp only [W]; omega
  have e2 : n - W * (n / W) = n - 128 * (n / 128) - W * ((n - 128 * (n / 128)) / W) := by simp only [W]; omega
  rw [e0, e1, e2, show W * 4 = 128 from rfl]
  cases f inp ip (n / 128) out op regs <;> rfl

/-- A negative zero or a NaN with the sign bit set: the floats whose sign bit is 1 although they are not below zero. -/
def SignedNonNeg (x : F32) : Prop := x = 0x80000000#32 ∨ (x.isNaN = true ∧ x.msb = true)

theorem msb_eq_lt_iff (x : F32) : x.msb = F32.lt x F32.zero ↔ ¬ SignedNonNeg x := by
  unfold SignedNonNeg
  have hz : F32.isNaN F32.zero = false := by decide
  have hk : F32.key F32.zero = 0 := by decide
  have hx := x.isLt
  have hm : (x.extractLsb' 0 31).toNat = x.toNat % 2 ^ 31 := by
    rw [BitVec.extractLsb'_toNat, Nat.shiftRight_zero]
  unfold F32.lt
  rw [hz, hk]
  unfold F32.key
  rw [hm]
  cases hmsb : x.msb with
  | false =>
    rw [if_neg (by decide)]
    have hc : x ≠ 0x80000000#32 := by rintro rfl; exact absurd hmsb (by decide)
    have : decide (((x.toNat % 2 ^ 31 : Nat) : Int) < 0) = false := decide_eq_false (by omega)
    rw [this]
    simp [hc]
  | true =>
    rw [if_pos rfl]
    have hge : 2 ^ 31 ≤ x.toNat := by
      rw [BitVec.msb_eq_decide] at hmsb; exact of_decide_eq_true hmsb
    have hiff : x = 0x80000000#32 ↔ x.toNat = 2 ^ 31 := by
      rw [← BitVec.toNat_inj]; rfl
    cases hn : x.isNaN with
    | true => simp
    | false =>
      rw [hiff]
      simp only [Bool.not_false, Bool.true_and, eq_comm (a := true), decide_eq_true_eq, or_false, Bool.false_eq_true, false_and]
      omega

theorem memF32_top {inp : List F32} {i : Nat} {x : F32} (h : inp[i]? = some x) :
    ((memF32 inp).byte (4 * i + 3)).getLsbD 7 = x.msb := by
  unfold memF32
  simp only []
  rw [show (4 * i + 3) / 4 = i by omega, show (4 * i + 3) % 4 = 3 by omega, h, Option.getD_some,
    BitVec.getLsbD_extractLsb']
  rfl

/-- The result of the aarch64 code on floats, for all inputs: in the full blocks of 128 the sign bits, in the remaining
elements the comparisons with zero. -/
theorem a64_float_fills {inp : List F32} {ip n op : Nat} {junk : Word} {regs : Nat → Nat → BitVec 8} {out : List Word}
    {x : Nat → F32} (hx : ∀ i, i < n → inp[ip + i]? = some (x i)) (hout : op + packedSize n ≤ out.length) :
    ∃ s', bitpackArrayA64 inp ip n out op F32.zero junk regs = some s' ∧
      Fills out s' (fun i => op ≤ i ∧ i < op + packedSize n) (fun i => wordOf fun b =>
        if 32 * (i - op) + b < n then
          (if 32 * (i - op) + b < 128 * (n / 128) then (x (32 * (i - op) + b)).msb
            else F32.lt (x (32 * (i - op) + b)) F32.zero) else false) := by
  rw [bitpackArrayA64_eq (f := fun inp ip nb out op regs =>
    bitpackA64 a64F32Pro a64F32Loop a64F32Tail (memF32 inp) (4 * ip) nb out op 0#8 regs) rfl]
  have hps : packedSize n = 4 * (n / 128) + packedSize (n - 128 * (n / 128)) := by
    unfold packedSize ceilDiv W; omega
  have hlen : 128 * (n / 128) = 0 ∨ ip + 128 * (n / 128) ≤ inp.length := by
    by_cases h0 : n / 128 = 0
    · left; omega
    · right
      have := hx (128 * (n / 128) - 1) (by omega)
      obtain ⟨h, _⟩ := List.getElem?_eq_some_iff.1 this
      omega
  have hmem : 4 * ip + 512 * (n / 128) ≤ (memF32 inp).size ∨ n / 128 = 0 := by
    unfold memF32; simp only []; omega
  obtain ⟨s1, h1, f1⟩ : ∃ s', bitpackA64 a64F32Pro a64F32Loop a64F32Tail (memF32 inp) (4 * ip) (n / 128) out op 0#8 regs
      = some s' ∧ Fills out s' (fun i => False ∨ (op ≤ i ∧ i < op + 4 * (n / 128))) (fun i => wordOf fun b =>
        if 32 * (i - op) + b < n then
          (if 32 * (i - op) + b < 128 * (n / 128) then (x (32 * (i - op) + b)).msb
            else F32.lt (x (32 * (i - op) + b)) F32.zero) else false) := by
    rcases hmem with hmem | h0
    · refine bitpackA64_fills (a64F32_ok (memF32 inp) 0#8) (Fills.init out _ (by simp)) hmem (by omega) ?_
      intro k w hk hw
      apply wordOf_congr
      intro b hb
      rw [show op + 4 * k + w - op = 4 * k + w by omega, if_pos (by omega), if_pos (by omega)]
      rw [show 4 * ip + 512 * k + 4 * (32 * w + b) + 3 = 4 * (ip + (32 * (4 * k + w) + b)) + 3 by omega]
      exact (memF32_top (hx _ (by omega))).symm
    · rw [h0]
      refine ⟨out, rfl, Fills.init out _ ?_⟩
      rintro i _ (h | h)
      · exact h
      · omega
  rw [h1, Option.bind_some]
  obtain ⟨s2, h2, f2⟩ := bitpackArray_fills (inp := inp) (ip := ip + 128 * (n / 128)) (n := n - 128 * (n / 128))
    (op := op + 4 * (n / 128)) (zp := F32.zero) (junk := junk) (x := fun i => x (128 * (n / 128) + i))
    (fun i hi => by rw [Nat.add_assoc]; exact hx _ (by omega)) f1 (by omega) (by
      intro k hk
      apply wordOf_congr
      intro b hb
      rw [show op + 4 * (n / 128) + k - op = 4 * (n / 128) + k by omega]
      have e : 32 * (4 * (n / 128) + k) + b = 128 * (n / 128) + (32 * k + b) := by omega
      rw [e]
      by_cases hc : 32 * k + b < n - 128 * (n / 128)
      · rw [if_pos hc, if_pos (by omega), if_neg (by omega)]
        rfl
      · rw [if_neg hc, if_neg (by omega)]
        rfl)
  refine ⟨s2, h2, f2.congr (fun i _ => ?_) fun _ _ _ => rfl⟩
  simp only [false_or]; omega

/-- The portable code, in the same form. -/
theorem portable_float_fills {inp : List F32} {ip n op : Nat} {junk : Word} {out : List Word}
    {x : Nat → F32} (hx : ∀ i, i < n → inp[ip + i]? = some (x i)) (hout : op + packedSize n ≤ out.length) :
    ∃ s', bitpackArray inp ip n out op F32.zero junk = some s' ∧
      Fills out s' (fun i => op ≤ i ∧ i < op + packedSize n) (fun i => wordOf fun b =>
        if 32 * (i - op) + b < n then F32.lt (x (32 * (i - op) + b)) F32.zero else false) := by
  obtain ⟨s2, h2, f2⟩ := bitpackArray_fills (inp := inp) (ip := ip) (n := n) (op := op) (zp := F32.zero) (junk := junk) (x := x)
    (s0 := out) (s := out) (W0 := fun _ => False)
    (f := fun i => wordOf fun b => if 32 * (i - op) + b < n then F32.lt (x (32 * (i - op) + b)) F32.zero else false)
    hx (Fills.init out _ (by simp)) hout (by
      intro k hk
      apply wordOf_congr
      intro b hb
      rw [show op + k - op = k by omega]
      rfl)
  exact ⟨s2, h2, f2.congr (fun i _ => by simp) fun _ _ _ => rfl⟩

/-- **C45, float (what holds).** On aarch64, packing `n` floats stays inside the buffers and leaves exactly the words of the
portable code, if and only if none of the elements handled by the assembly (the first `128 * (n / 128)`) is a negative zero
or a NaN with the sign bit set; everything outside the packed words is unchanged in both cases. The initial content of the
vector registers and of the uninitialised bit-field plays no role. -/
theorem C45_float_partial {inp : List F32} {ip n op : Nat} {junk junk' : Word} {regs : Nat → Nat → BitVec 8} {out : List Word}
    (hin : ip + n ≤ inp.length) (hout : op + (n + 31) / 32 ≤ out.length) :
    ∃ a p, bitpackArrayA64 inp ip n out op F32.zero junk regs = some a ∧ bitpackArray inp ip n out op F32.zero junk' = some p ∧
      (a = p ↔ ∀ i x, i < 128 * (n / 128) → inp[ip + i]? = some x → ¬ SignedNonNeg x) := by
  have hps : packedSize n = (n + 31) / 32 := by unfold packedSize ceilDiv W; omega
  rw [← hps] at hout
  let x : Nat → F32 := fun i => inp[ip + i]?.getD 0#32
  have hx : ∀ i, i < n → inp[ip + i]? = some (x i) := by
    intro i hi
    simp only [x]
    rw [List.getElem?_eq_getElem (by omega), Option.getD_some]
  obtain ⟨a, h1, f1⟩ := a64_float_fills (junk := junk) (regs := regs) hx hout
  obtain ⟨p, h2, f2⟩ := portable_float_fills (junk := junk') hx hout
  refine ⟨a, p, h1, h2, ?_⟩
  constructor
  · rintro rfl i y hi hy
    have hin' : i < n := by omega
    have hw : op + i / 32 < op + packedSize n := by rw [hps]; omega
    have e := f1.hit (op + i / 32) (by omega) ⟨by omega, hw⟩
    rw [f2.hit (op + i / 32) (by omega) ⟨by omega, hw⟩] at e
    have e' := congrArg (fun w => w.getLsbD (i % 32)) (Option.some.inj e)
    simp only [wordOf_getLsbD] at e'
    have e2 : 32 * (op + i / 32 - op) + i % 32 = i := by omega
    rw [e2, if_pos hin', if_pos hin', if_pos hi, decide_eq_true (show i % 32 < 32 by omega)] at e'
    simp only [Bool.true_and] at e'
    rw [hx i hin'] at hy
    rw [← Option.some.inj hy, ← msb_eq_lt_iff]
    exact e'.symm
  · intro h
    refine f1.unique (f2.congr (fun _ _ => Iff.rfl) fun i hi hW => ?_)
    apply wordOf_congr
    intro b hb
    split
    · rename_i hn
      split
      · rename_i hblk
        exact (msb_eq_lt_iff _).2 (h _ _ hblk (hx _ hn))
      · rfl
    · rfl

/-- **C45, float.** With fewer than 128 elements the two always agree. -/
theorem C45_float_small {inp : List F32} {ip n op : Nat} {junk junk' : Word} {regs : Nat → Nat → BitVec 8} {out : List Word}
    (hin : ip + n ≤ inp.length) (hout : op + (n + 31) / 32 ≤ out.length) (hn : n < 128) :
    bitpackArrayA64 inp ip n out op F32.zero junk regs = bitpackArray inp ip n out op F32.zero junk' := by
  obtain ⟨a, p, h1, h2, h3⟩ := C45_float_partial (junk := junk) (junk' := junk') (regs := regs) hin hout
  rw [h1, h2, h3.2 fun i x hi => by omega]

/-- **C45 does not hold for negative zeros** (nor for NaNs with the sign bit): 128 of them are packed to ones by the aarch64
code and to zeros by the portable code. -/
theorem C45_negative_zero_witness (regs : Nat → Nat → BitVec 8) (junk : Word) :
    bitpackArrayA64 (List.replicate 128 (0x80000000#32 : F32)) 0 128 [0#32, 0#32, 0#32, 0#32] 0 F32.zero junk regs ≠
      bitpackArray (List.replicate 128 (0x80000000#32 : F32)) 0 128 [0#32, 0#32, 0#32, 0#32] 0 F32.zero junk := by
  obtain ⟨a, p, h1, h2, h3⟩ := C45_float_partial (inp := List.replicate 128 (0x80000000#32 : F32)) (ip := 0) (n := 128) (op := 0)
    (out := [0#32, 0#32, 0#32, 0#32]) (junk := junk) (junk' := junk) (regs := regs) (by simp) (by simp)
  rw [h1, h2]
  intro he
  exact h3.1 (Option.some.inj he) 0 0x80000000#32 (by omega) (by rfl) (.inl rfl)

/-- **C45, int8.** On aarch64, packing `n` int8 values with any zero point stays inside the buffers and gives exactly the
result of the portable code. -/
theorem C45_int8 {inp : List (BitVec 8)} {ip n op : Nat} {zp : BitVec 8} {junk junk' : Word} {regs : Nat → Nat → BitVec 8}
    {out : List Word} (hin : ip + n ≤ inp.length) (hout : op + (n + 31) / 32 ≤ out.length) :
    ∃ a, bitpackArrayA64 inp ip n out op zp junk regs = some a ∧ bitpackArray inp ip n out op zp junk' = some a := by
  have hps : packedSize n = (n + 31) / 32 := by unfold packedSize ceilDiv W; omega
  rw [← hps] at hout
  have hps' : packedSize n = 4 * (n / 128) + packedSize (n - 128 * (n / 128)) := by
    unfold packedSize ceilDiv W; omega
  let x : Nat → BitVec 8 := fun i => inp[ip + i]?.getD 0#8
  have hx : ∀ i, i < n → inp[ip + i]? = some (x i) := by
    intro i hi
    simp only [x]
    rw [List.getElem?_eq_getElem (by omega), Option.getD_some]
  let f : Nat → Word := fun i => wordOf fun b => if 32 * (i - op) + b < n then packBit zp (x (32 * (i - op) + b)) else packBit zp zp
  obtain ⟨p, h2, f2⟩ := bitpackArray_fills (inp := inp) (ip := ip) (n := n) (op := op) (zp := zp) (junk := junk') (x := x)
    (s0 := out) (s := out) (W0 := fun _ => False) (f := f)
    hx (Fills.init out _ (by simp)) hout (by
      intro k hk
      simp only [f]
      rw [show op + k - op = k by omega])
  obtain ⟨s1, h1, f1⟩ := bitpackA64_fills (a64I8_ok (memI8 inp) zp) (ip := ip) (nb := n / 128) (op := op) (s0 := out) (s := out)
    (W := fun _ => False) (f := f) (regs := regs) (Fills.init out _ (by simp))
    (by unfold memI8; simp only []; omega) (by omega) (by
      intro k w hk hw
      simp only [f]
      apply wordOf_congr
      intro b hb
      rw [show op + 4 * k + w - op = 4 * k + w by omega, if_pos (by omega), byteSqsub_msb]
      have e : (memI8 inp).byte (ip + 128 * k + (32 * w + b)) = x (32 * (4 * k + w) + b) := by
        unfold memI8
        simp only [x]
        congr 2
        omega
      rw [e]
      rfl)
  obtain ⟨a, h3, f3⟩ := bitpackArray_fills (inp := inp) (ip := ip + 128 * (n / 128)) (n := n - 128 * (n / 128))
    (op := op + 4 * (n / 128)) (zp := zp) (junk := junk) (x := fun i => x (128 * (n / 128) + i))
    (fun i hi => by rw [Nat.add_assoc]; exact hx _ (by omega)) f1 (by omega) (by
      intro k hk
      simp only [f]
      apply wordOf_congr
      intro b hb
      rw [show op + 4 * (n / 128) + k - op = 4 * (n / 128) + k by omega]
      have e : 32 * (4 * (n / 128) + k) + b = 128 * (n / 128) + (32 * k + b) := by omega
      rw [e]
      by_cases hc : 32 * k + b < n - 128 * (n / 128)
      · rw [if_pos hc, if_pos (by omega)]
      · rw [if_neg hc, if_neg (by omega)])
  refine ⟨a, ?_, ?_⟩
  · rw [bitpackArrayA64_eq (f := fun inp ip nb out op regs =>
      bitpackA64 a64I8Pro a64I8Loop a64I8Tail (memI8 inp) ip nb out op zp regs) rfl]
    rw [h1, Option.bind_some, h3]
  · rw [h2, f2.unique (f3.congr (fun i _ => by simp only [false_or]; omega) fun _ _ _ => rfl)]

theorem bitpackArray_length {α : Type} [PackElem α] {inp : List α} {ip n op : Nat} {zp : α} {junk : Word} {out s' : List Word}
    (hin : ip + n ≤ inp.length) (hout : op + packedSize n ≤ out.length) (h : bitpackArray inp ip n out op zp junk = some s') :
    s'.length = out.length := by
  by_cases h0 : n = 0
  · subst h0
    have : bitpackArray inp ip 0 out op zp junk = some out := rfl
    rw [this] at h
    rw [Option.some.inj h]
  · let x : Nat → α := fun i => (inp[ip + i]?).getD (inp[ip]'(by omega))
    obtain ⟨p, h2, f2⟩ := bitpackArray_fills (inp := inp) (ip := ip) (n := n) (op := op) (zp := zp) (junk := junk) (x := x)
      (s0 := out) (s := out) (W0 := fun _ => False)
      (f := fun i => wordOf fun b => if 32 * (i - op) + b < n then packBit zp (x (32 * (i - op) + b)) else packBit zp zp)
      (by
        intro i hi
        simp only [x]
        rw [List.getElem?_eq_getElem (by omega), Option.getD_some])
      (Fills.init out _ (by simp)) hout (by
        intro k hk
        rw [show op + k - op = k by omega])
    rw [h2] at h
    rw [← Option.some.inj h, f2.len]

/-- Matrices: if the two array routines agree on every row range, so do the matrix routines. -/
theorem bitpackMatrixA64_eq {α : Type} [PackElem α] [A64Pack α] {inp : List α} {rows cols : Nat} {out : List Word} {zp : Int}
    {junk : Word} {regs : Nat → Nat → BitVec 8} (hin : rows * cols ≤ inp.length)
    (hout : rows * ((cols + 31) / 32) ≤ out.length)
    (h : ∀ ip n op (o : List Word), ip + n ≤ rows * cols → o.length = out.length → op + (n + 31) / 32 ≤ o.length →
      bitpackArrayA64 inp ip n o op (PackElem.ofZp zp) junk regs = bitpackArray inp ip n o op (PackElem.ofZp zp) junk) :
    bitpackMatrixA64 inp rows cols out zp junk regs = bitpackMatrix inp rows cols out zp junk := by
  have hps : ∀ n, packedSize n = (n + 31) / 32 := by intro n; unfold packedSize ceilDiv W; omega
  unfold bitpackMatrixA64 bitpackMatrix
  simp only []
  split
  · rfl
  split
  · rfl
  split
  · rfl
  split
  · rename_i hm
    refine h 0 (cols * rows) 0 out (by rw [Nat.mul_comm]; omega) rfl ?_
    have : (cols * rows + 31) / 32 = rows * ((cols + 31) / 32) := by
      simp only [W] at hm
      obtain ⟨c, rfl⟩ : ∃ c, cols = 32 * c := ⟨cols / 32, by omega⟩
      rw [Nat.mul_assoc, Nat.mul_comm c rows]
      rw [show (32 * c + 31) / 32 = c by omega]
      omega
    rw [this]; omega
  · refine (forN_congr_inv (fun o => o.length = out.length) rfl ?_).1
    intro r o hr ho
    have hb : (r + 1) * cols ≤ rows * cols := Nat.mul_le_mul_right _ hr
    have hb' : (r + 1) * ((cols + 31) / 32) ≤ rows * ((cols + 31) / 32) := Nat.mul_le_mul_right _ hr
    rw [Nat.add_mul, Nat.one_mul] at hb hb'
    refine ⟨h (r * cols) cols _ o (by omega) ho (by rw [hps]; omega), fun s' hs' => ?_⟩
    rw [bitpackArray_length (by omega) (by rw [hps]; omega) hs', ho]

/-- **C45, int8 matrices.** `bitpack_matrix` of int8 values gives the same words on aarch64 as in the portable code, for every
number of rows and columns and every 32-bit zero point. -/
theorem C45_int8_matrix {inp : List (BitVec 8)} {rows cols : Nat} {out : List Word} {zp : Int} {junk : Word}
    {regs : Nat → Nat → BitVec 8} (hin : rows * cols ≤ inp.length) (hout : rows * ((cols + 31) / 32) ≤ out.length) :
    bitpackMatrixA64 inp rows cols out zp junk regs = bitpackMatrix inp rows cols out zp junk := by
  refine bitpackMatrixA64_eq hin hout fun ip n op o h1 h2 h3 => ?_
  obtain ⟨a, ha, hb⟩ := C45_int8 (inp := inp) (ip := ip) (n := n) (op := op) (zp := PackElem.ofZp zp) (junk := junk)
    (junk' := junk) (regs := regs) (out := o) (by omega) h3
  rw [ha, hb]

/-- **C45, float matrices (what holds).** The same for floats when no element is a negative zero or a NaN with the sign bit. -/
theorem C45_float_matrix_partial {inp : List F32} {rows cols : Nat} {out : List Word} {zp : Int} {junk : Word}
    {regs : Nat → Nat → BitVec 8} (hin : rows * cols ≤ inp.length) (hout : rows * ((cols + 31) / 32) ≤ out.length)
    (hx : ∀ x ∈ inp, ¬ SignedNonNeg x) :
    bitpackMatrixA64 inp rows cols out zp junk regs = bitpackMatrix inp rows cols out zp junk := by
  refine bitpackMatrixA64_eq hin hout fun ip n op o h1 h2 h3 => ?_
  obtain ⟨a, p, ha, hb, hc⟩ := C45_float_partial (inp := inp) (ip := ip) (n := n) (op := op) (junk := junk)
    (junk' := junk) (regs := regs) (out := o) (by omega) h3
  have : (PackElem.ofZp zp : F32) = F32.zero := rfl
  rw [this, ha, hb, hc.2 fun i x _ hi => hx x (List.mem_of_getElem? hi)]

/-- **C45, other zero points.** For floats with a zero point other than `0` and `-0` the aarch64 code is the portable code, for
all inputs. -/
theorem C45_float_other_zp {inp : List F32} {ip n op : Nat} {zp : F32} {junk : Word} {regs : Nat → Nat → BitVec 8}
    {out : List Word} (h : zp ≠ 0#32) (h' : zp ≠ 0x80000000#32) :
    bitpackArrayA64 inp ip n out op zp junk regs = bitpackArray inp ip n out op zp junk := by
  have hf : A64Pack.fast zp = none := if_neg (by simp [h, h'])
  unfold bitpackArrayA64 bitpackArray
  rw [hf]
  rfl

/-- **C45, uint8.** The same for uint8 with every zero point. -/
theorem C45_uint8 {inp : List U8} {ip n op : Nat} {zp : U8} {junk : Word} {regs : Nat → Nat → BitVec 8}
    {out : List Word} : bitpackArrayA64 inp ip n out op zp junk regs = bitpackArray inp ip n out op zp junk := rfl

/-- Concrete: with zero point 2 (pattern 0x40000000), 128 negative zeros pack to zeros (the release code compares floats with 0
and only uses the zero point as padding). -/
example (regs : Nat → Nat → BitVec 8) :
    bitpackArrayA64 (List.replicate 128 (0x80000000#32 : F32)) 0 128 [1#32, 0#32, 0#32, 0#32] 0 0x40000000#32 0#32 regs =
      some [0#32, 0#32, 0#32, 0#32] := by
  rw [C45_float_other_zp (by decide) (by decide)]
  decide +kernel

/-- Concrete: three blocks and a half of int8, so the main loop runs. -/
example : let inp : List (BitVec 8) := (List.range 460).map fun i => BitVec.ofNat 8 (i * 37)
    bitpackArrayA64 inp 3 450 (List.replicate 20 7#32) 2 5#8 0#32 (fun _ _ => 0#8) =
      bitpackArray inp 3 450 (List.replicate 20 7#32) 2 5#8 0#32 := by
  intro inp
  obtain ⟨a, h1, h2⟩ := C45_int8 (inp := inp) (ip := 3) (n := 450) (op := 2) (zp := 5#8) (junk := 0#32) (junk' := 0#32)
    (regs := fun _ _ => 0#8) (out := List.replicate 20 7#32) (by simp [inp]) (by simp)
  rw [h1, h2]

/-- One block of int8 evaluated. -/
example : bitpackA64 a64I8Pro a64I8Loop a64I8Tail (memI8 ((List.range 128).map fun i => BitVec.ofNat 8 i)) 0 1
    [0#32, 0#32, 0#32, 0#32] 0 100#8 (fun _ _ => 0#8) = some [0xFFFFFFFF#32, 0xFFFFFFFF#32, 0xFFFFFFFF#32, 0xF#32] := by
  decide +kernel

end Verif
