import Verif.Spec.Pool
import Verif.Proof.Index
import Verif.Proof.Quantize
import Mathlib.Tactic.Ring
import Mathlib.Tactic.Linarith

/-! Binary max pooling. -/

namespace Verif

theorem effSize_one {f : Nat} (hf : 1 ≤ f) : effSize f 1 = f := by unfold effSize; omega

/-- One dimension of the window: clamped to the image, never empty, and it covers exactly the
positions of the specification. -/
theorem poolWindow_spec {t : Padding} {inS f s o pad x : Nat} (hs : 1 ≤ s) (hf : 1 ≤ f)
    (ho : (o : Int) = computeOutSize t inS f s 1) (hp : pad = computePadding s 1 inS f (o : Int))
    (hx : x < o) :
    ∃ a n : Nat, poolWindow x s pad f inS = ((a : Int), (n : Int)) ∧ 1 ≤ n ∧ a + n ≤ inS ∧
      ∀ i, (i < inS ∧ Pool.covers x s pad f i) ↔ (a ≤ i ∧ i < a + n) := by
  have hxs : (x + 1) * s ≤ o * s := Nat.mul_le_mul_right _ hx
  have hxs' : (x + 1) * s = x * s + s := by ring
  unfold computePadding at hp
  rw [effSize_one hf] at hp
  simp only at hp
  have hos : (o : Int) * s - s < inS ∧ (pad : Int) < f ∧ ((x : Int) * s - pad < inS) := by
    cases t with
    | same =>
      unfold computeOutSize at ho
      simp only at ho
      have e : ((inS : Int) + s - 1).tdiv s = (((inS + s - 1) / s : Nat) : Int) := by
        have : ((inS : Int) + s - 1) = ((inS + s - 1 : Nat) : Int) := by omega
        rw [this, Int.tdiv_eq_ediv_of_nonneg (by omega)]
        rfl
      rw [e] at ho
      have ho' : o = (inS + s - 1) / s := by exact_mod_cast ho
      have h1 : o * s ≤ inS + s - 1 := by rw [ho']; exact Nat.div_mul_le_self _ _
      have h1' : (o : Int) * s ≤ inS + s - 1 := by
        have : ((o * s : Nat) : Int) ≤ ((inS + s - 1 : Nat) : Int) := by exact_mod_cast h1
        push_cast at this
        omega
      have h2 : ((o : Int) - 1) * s = (o : Int) * s - s := by ring
      have hxs2 : (x : Int) * s + s ≤ o * s := by
        have : (((x + 1) * s : Nat) : Int) ≤ ((o * s : Nat) : Int) := by exact_mod_cast hxs
        push_cast at this
        linarith
      rw [h2, Int.tdiv_eq_ediv_of_nonneg (by omega)] at hp
      refine ⟨by omega, ?_, by omega⟩
      omega
    | valid =>
      unfold computeOutSize at ho
      simp only at ho
      rw [effSize_one hf] at ho
      have hpos : (0 : Int) < o := by omega
      have hnn : 0 ≤ (inS : Int) + s - f := by
        by_contra hneg
        have : ((inS : Int) + s - f).tdiv s ≤ 0 := by
          
          have e : ((inS : Int) + s - f).tdiv s = -((-((inS : Int) + s - f)).tdiv s) := by
            rw [Int.neg_tdiv, Int.neg_neg]
          have e2 : 0 ≤ (-((inS : Int) + s - f)).tdiv s := Int.tdiv_nonneg (by omega) (by omega)
          omega
        omega
      rw [Int.tdiv_eq_ediv_of_nonneg hnn] at ho
      have h1 : (o : Int) * s ≤ inS + s - f := by
        rw [ho]; exact Int.ediv_mul_le _ (by omega)
      have h2 : ((o : Int) - 1) * s = (o : Int) * s - s := by ring
      have hxs2 : (x : Int) * s + s ≤ o * s := by
        have : (((x + 1) * s : Nat) : Int) ≤ ((o * s : Nat) : Int) := by exact_mod_cast hxs
        push_cast at this
        linarith
      rw [h2, Int.tdiv_eq_ediv_of_nonneg (by omega)] at hp
      refine ⟨by omega, ?_, by omega⟩
      omega
  obtain ⟨h1, h2, h3⟩ := hos
  unfold poolWindow Pool.covers
  have hxn : 0 ≤ (x : Int) * s := by positivity
  generalize (x : Int) * s = q at *
  simp only
  refine ⟨(max 0 (q - pad)).toNat, (min ((f : Int) - max 0 (-(q - pad))) (inS - max 0 (q - pad))).toNat, ?_, ?_, ?_, ?_⟩
  · rw [Prod.mk.injEq]; constructor <;> omega
  · omega
  · omega
  · intro i; omega

/-- The AND over a window, bit by bit. -/
theorem poolWord_eq {p : Pool} {inp : List Word} {ay ny ax nx b c : Nat} (hy : ay + ny ≤ p.inH)
    (hx : ax + nx ≤ p.inW) (hb : b < p.batches) (hc : c < p.ch)
    (hlen : inp.length = p.batches * p.inH * p.inW * p.ch) :
    ∃ w, poolWord p inp nx ny ((((b : Int) * p.inH + ay) * p.inW + ax) * p.ch + c) = some w ∧
      ∀ i, i < 32 → (w.getLsbD i = true ↔ ∀ y x, y < ny → x < nx →
        (inp.getD (((b * p.inH + (ay + y)) * p.inW + (ax + x)) * p.ch + c) 0#32).getLsbD i = true) := by
  unfold poolWord
  set base : Int := (((b : Int) * p.inH + ay) * p.inW + ax) * p.ch + c with hbase
  have hptr : ∀ y x : Nat, base + (y : Int) * (p.ch * p.inW) + (x : Int) * p.ch
      = ((((b * p.inH + (ay + y)) * p.inW + (ax + x)) * p.ch + c : Nat) : Int) := by
    intro y x; rw [hbase]; push_cast; ring
  have hidx : ∀ y x, y < ny → x < nx → ((b * p.inH + (ay + y)) * p.inW + (ax + x)) * p.ch + c < inp.length := by
    intro y x hy' hx'
    rw [hlen]
    exact row_lt (row_lt (row_lt hb (by omega)) (by omega)) hc
  obtain ⟨st, h1, h2, h3⟩ := forN_inv (n := ny) (s := (~~~0#32, base)) (body := fun _ (st : Word × Int) => do
      let st ← forN nx (fun _ (st : Word × Int) => do
        let v ← rdI inp st.2
        some (st.1 &&& v, st.2 + (p.ch : Int))) st
      some (st.1, st.2 + (p.ch : Int) * ((p.inW : Int) - nx)))
    (fun k st => st.2 = base + (k : Int) * (p.ch * p.inW) ∧
      ∀ i, i < 32 → (st.1.getLsbD i = true ↔ ∀ y x, y < k → x < nx →
        (inp.getD (((b * p.inH + (ay + y)) * p.inW + (ax + x)) * p.ch + c) 0#32).getLsbD i = true))
    ⟨by simp, fun i hi => by
      constructor
      · intro _ y x hy; omega
      · intro _
        change (~~~0#32).getLsbD i = true
        rw [BitVec.getLsbD_not, BitVec.getLsbD_zero]
        rw [decide_eq_true hi]; rfl⟩ (by
    rintro k ⟨m, ptr⟩ hk ⟨hp, hm⟩
    simp only at hp hm
    obtain ⟨⟨m', ptr'⟩, g1, g2, g3⟩ := forN_inv (n := nx) (s := (m, ptr)) (body := fun _ (st : Word × Int) => do
        let v ← rdI inp st.2
        some (st.1 &&& v, st.2 + (p.ch : Int)))
      (fun j st => st.2 = base + (k : Int) * (p.ch * p.inW) + (j : Int) * p.ch ∧
        ∀ i, i < 32 → (st.1.getLsbD i = true ↔ m.getLsbD i = true ∧ ∀ x, x < j →
          (inp.getD (((b * p.inH + (ay + k)) * p.inW + (ax + x)) * p.ch + c) 0#32).getLsbD i = true))
      ⟨by simp [hp], fun i hi => by simp⟩ (by
      rintro j ⟨m1, ptr1⟩ hj ⟨hp1, hm1⟩
      simp only at hp1 hm1
      have hi := hidx k j hk hj
      have hrd : rdI inp ptr1 = some (inp.getD (((b * p.inH + (ay + k)) * p.inW + (ax + j)) * p.ch + c) 0#32) := by
        rw [hp1, hptr k j, rdI_natCast]
        rw [rd, List.getElem?_eq_getElem hi, List.getD_eq_getElem?_getD, List.getElem?_eq_getElem hi]; rfl
      refine ⟨(_, _), by rw [hrd]; rfl, ?_, ?_⟩
      · simp only [hp1]; push_cast; ring
      · intro i hi
        simp only
        rw [BitVec.getLsbD_and, Bool.and_eq_true, hm1 i hi]
        constructor
        · rintro ⟨⟨a1, a2⟩, a3⟩
          refine ⟨a1, fun x hx => ?_⟩
          rcases Nat.lt_succ_iff_lt_or_eq.1 hx with h | h
          · exact a2 x h
          · subst h; exact a3
        · rintro ⟨a1, a2⟩
          exact ⟨⟨a1, fun x hx => a2 x (by omega)⟩, a2 j (by omega)⟩)
    simp only at g2 g3
    refine ⟨(m', ptr' + p.ch * ((p.inW : Int) - nx)), by rw [Option.bind_eq_bind, g1]; rfl, ?_, ?_⟩
    · simp only [g2]; push_cast; ring
    · intro i hi
      rw [g3 i hi, hm i hi]
      constructor
      · rintro ⟨a1, a2⟩ y x hy hx
        rcases Nat.lt_succ_iff_lt_or_eq.1 hy with h | h
        · exact a1 y x h hx
        · subst h; exact a2 x hx
      · intro a
        exact ⟨fun y x hy hx => a y x (by omega) hx, fun x hx => a k x (by omega) hx⟩)
  refine ⟨st.1, ?_, h3⟩
  simp only [Int.toNat_natCast]
  rw [h1]; rfl

/-- The bit of the specification: all window pixels have the bit set. -/
def poolBit (p : Pool) (inp : List Word) (b oy ox c i : Nat) : Prop :=
  ∀ iy ix, p.window oy ox iy ix →
    (inp.getD (((b * p.inH + iy) * p.inW + ix) * p.ch + c) 0#32).getLsbD i = true

open Classical in
/-- `BMaxPool` is defined and every output word is the AND over its window. -/
theorem bmaxpool_eq {p : Pool} (g : p.Geom) {inp out0 : List Word}
    (hlen : inp.length = p.batches * p.inH * p.inW * p.ch)
    (hout : out0.length = p.batches * p.outH * p.outW * p.ch) :
    ∃ out, bmaxpool p inp out0 = some out ∧ out.length = out0.length ∧
      ∀ b oy ox c, b < p.batches → oy < p.outH → ox < p.outW → c < p.ch →
        out[((b * p.outH + oy) * p.outW + ox) * p.ch + c]?
          = some (wordOf fun i => decide (poolBit p inp b oy ox c i)) := by
  set F : Nat → Word := fun j => wordOf fun i => decide (poolBit p inp (j / p.ch / p.outW / p.outH)
    (j / p.ch / p.outW % p.outH) (j / p.ch % p.outW) (j % p.ch) i) with hF
  have hFv : ∀ {b oy ox c}, oy < p.outH → ox < p.outW → c < p.ch →
      F (((b * p.outH + oy) * p.outW + ox) * p.ch + c) = wordOf fun i => decide (poolBit p inp b oy ox c i) := by
    intro b oy ox c hoy hox hc
    simp only [hF, (div_mod_row hc).1, (div_mod_row hc).2, (div_mod_row hox).1, (div_mod_row hox).2,
      (div_mod_row hoy).1, (div_mod_row hoy).2]
  unfold bmaxpool
  obtain ⟨out, e1, e2⟩ := Fills.loop (s0 := out0) (s := out0) (n := p.batches) (f := F)
    (W0 := fun _ => False)
    (R := fun b j => ∃ oy ox c, oy < p.outH ∧ ox < p.outW ∧ c < p.ch ∧
      j = ((b * p.outH + oy) * p.outW + ox) * p.ch + c)
    (body := fun b out =>
      forN p.outH (fun oy out =>
        forN p.outW (fun ox out =>
          forN p.ch (fun c out => do
            let v ← poolWord p inp (poolWindow ox p.strideW p.padW p.filtW p.inW).2
              (poolWindow oy p.strideH p.padH p.filtH p.inH).2
              ((((b : Int) * p.inH + (poolWindow oy p.strideH p.padH p.filtH p.inH).1) * p.inW +
                (poolWindow ox p.strideW p.padW p.filtW p.inW).1) * p.ch + c)
            wr out (offset4 p.outH p.outW p.ch b oy ox c) v) out) out) out)
    (Fills.init out0 F (fun _ _ h => h)) (by
    intro b W s hb hW
    obtain ⟨s', f1, f2⟩ := Fills.loop (s0 := out0) (s := s) (n := p.outH) (f := F) (W0 := W)
      (R := fun oy j => ∃ ox c, ox < p.outW ∧ c < p.ch ∧ j = ((b * p.outH + oy) * p.outW + ox) * p.ch + c)
      (body := fun oy out =>
        forN p.outW (fun ox out =>
          forN p.ch (fun c out => do
            let v ← poolWord p inp (poolWindow ox p.strideW p.padW p.filtW p.inW).2
              (poolWindow oy p.strideH p.padH p.filtH p.inH).2
              ((((b : Int) * p.inH + (poolWindow oy p.strideH p.padH p.filtH p.inH).1) * p.inW +
                (poolWindow ox p.strideW p.padW p.filtW p.inW).1) * p.ch + c)
            wr out (offset4 p.outH p.outW p.ch b oy ox c) v) out) out) hW (by
      intro oy W s hoy hW
      obtain ⟨s', f1, f2⟩ := Fills.loop (s0 := out0) (s := s) (n := p.outW) (f := F) (W0 := W)
        (R := fun ox j => ∃ c, c < p.ch ∧ j = ((b * p.outH + oy) * p.outW + ox) * p.ch + c)
        (body := fun ox out =>
          forN p.ch (fun c out => do
            let v ← poolWord p inp (poolWindow ox p.strideW p.padW p.filtW p.inW).2
              (poolWindow oy p.strideH p.padH p.filtH p.inH).2
              ((((b : Int) * p.inH + (poolWindow oy p.strideH p.padH p.filtH p.inH).1) * p.inW +
                (poolWindow ox p.strideW p.padW p.filtW p.inW).1) * p.ch + c)
            wr out (offset4 p.outH p.outW p.ch b oy ox c) v) out) hW (by
        intro ox W s hox hW
        obtain ⟨ax, nx, hwx, _, hax, hcx⟩ := poolWindow_spec g.strides.2 g.filt.2 g.outW g.padW hox
        obtain ⟨ay, ny, hwy, _, hay, hcy⟩ := poolWindow_spec g.strides.1 g.filt.1 g.outH g.padH hoy
        simp only [hwx, hwy]
        exact Fills.loop (s0 := out0) (s := s) (n := p.ch) (f := F) (W0 := W)
          (R := fun c j => j = ((b * p.outH + oy) * p.outW + ox) * p.ch + c) hW (by
          intro c W s hc hW
          obtain ⟨w, w1, w2⟩ := poolWord_eq (inp := inp) hay hax hb hc hlen
          have hi : offset4 p.outH p.outW p.ch b oy ox c < out0.length := by
            rw [hout]; exact row_lt (row_lt (row_lt hb hoy) hox) hc
          have hw : w = F (offset4 p.outH p.outW p.ch b oy ox c) := by
            unfold offset4
            rw [hFv hoy hox hc]
            apply eq_wordOf
            intro i hi
            rw [Bool.eq_iff_iff, w2 i hi, decide_eq_true_eq]
            unfold poolBit Pool.window
            constructor
            · intro h iy ix ⟨k1, k2, k3, k4⟩
              have c1 := (hcy iy).1 ⟨k1, k3⟩
              have c2 := (hcx ix).1 ⟨k2, k4⟩
              have := h (iy - ay) (ix - ax) (by omega) (by omega)
              rwa [Nat.add_sub_cancel' c1.1, Nat.add_sub_cancel' c2.1] at this
            · intro h y x hy hx
              obtain ⟨k1, k3⟩ := (hcy (ay + y)).2 ⟨by omega, by omega⟩
              obtain ⟨k2, k4⟩ := (hcx (ax + x)).2 ⟨by omega, by omega⟩
              exact h _ _ ⟨k1, k2, k3, k4⟩
          obtain ⟨s', q1, q2⟩ := hW.write hi hw
          refine ⟨s', ?_, q2⟩
          rw [Option.bind_eq_bind, w1]; exact q1))
      refine ⟨s', f1, f2.congr (fun j _ => ?_) (fun _ _ _ => rfl)⟩
      constructor
      · rintro (h | ⟨ox, c, h1, h2, h3⟩)
        · exact Or.inl h
        · exact Or.inr ⟨ox, h1, c, h2, h3⟩
      · rintro (h | ⟨ox, h1, c, h2, h3⟩)
        · exact Or.inl h
        · exact Or.inr ⟨ox, c, h1, h2, h3⟩)
    refine ⟨s', f1, f2.congr (fun j _ => ?_) (fun _ _ _ => rfl)⟩
    constructor
    · rintro (h | ⟨oy, ox, c, h0, h1, h2, h3⟩)
      · exact Or.inl h
      · exact Or.inr ⟨oy, h0, ox, c, h1, h2, h3⟩
    · rintro (h | ⟨oy, h0, ox, c, h1, h2, h3⟩)
      · exact Or.inl h
      · exact Or.inr ⟨oy, ox, c, h0, h1, h2, h3⟩)
  refine ⟨out, e1, e2.len, ?_⟩
  intro b oy ox c hb hoy hox hc
  have hi : ((b * p.outH + oy) * p.outW + ox) * p.ch + c < out0.length := by
    rw [hout]; exact row_lt (row_lt (row_lt hb hoy) hox) hc
  rw [e2.hit _ hi (Or.inr ⟨b, hb, oy, ox, c, hoy, hox, hc, rfl⟩), hFv hoy hox hc]

end Verif
