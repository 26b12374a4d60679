import Verif.Proof.BMaxPool
import Verif.Props.Bitpacking

/-! C22, C23, C24: binary max pooling. -/

namespace Verif

theorem poolPrepare_some {nIn nOut : Nat} {ti tt : Bool} {a : PoolAttrs} {dims od : List Nat} {p : Pool}
    (h : poolPrepare nIn nOut ti tt a dims = some (p, od)) :
    p.Geom ∧ dims = [p.batches, p.inH, p.inW, p.ch] ∧ od = [p.batches, p.outH, p.outW, p.ch] ∧
      p.filtH = a.filtH ∧ p.filtW = a.filtW ∧ p.strideH = a.strideH ∧ p.strideW = a.strideW ∧
      p.padding = a.padding := by
  unfold poolPrepare at h
  split at h
  · rename_i hc
    obtain ⟨_, _, hl, _, _, h1, h2, h3, h4⟩ := hc
    simp only at h
    split at h
    · rename_i ho
      simp only [Option.some.injEq, Prod.mk.injEq] at h
      obtain ⟨rfl, rfl⟩ := h
      refine ⟨⟨⟨by simp only; omega, by simp only; omega⟩, ⟨by simp only; omega, by simp only; omega⟩,
        ?_, ?_, ?_, ?_⟩, ?_, rfl, rfl, rfl, rfl, rfl, rfl⟩
      · exact Int.toNat_of_nonneg ho.1
      · exact Int.toNat_of_nonneg ho.2
      · simp only; rw [Int.toNat_of_nonneg ho.1]
      · simp only; rw [Int.toNat_of_nonneg ho.2]
      · match dims, hl with
        | [a, b, c, d], _ => rfl
    · cases h
  · cases h

/-- Every window contains an image position. -/
theorem window_nonempty {p : Pool} (g : p.Geom) {oy ox : Nat} (hy : oy < p.outH) (hx : ox < p.outW) :
    ∃ iy ix, p.window oy ox iy ix := by
  obtain ⟨ax, nx, _, hnx, hax, hcx⟩ := poolWindow_spec g.strides.2 g.filt.2 g.outW g.padW hx
  obtain ⟨ay, ny, _, hny, hay, hcy⟩ := poolWindow_spec g.strides.1 g.filt.1 g.outH g.padH hy
  obtain ⟨h1, h2⟩ := (hcy ay).2 ⟨by omega, by omega⟩
  obtain ⟨h3, h4⟩ := (hcx ax).2 ⟨by omega, by omega⟩
  exact ⟨ay, ax, h1, h3, h2, h4⟩

/-- **C23.** For everything `Prepare` accepts and tensors of the sizes of their shapes, the
kernel makes no out-of-bounds access; every window is non-empty; every output word is the AND of
exactly the words of its window (so it is written, it depends on no other input word and not on
the previous content of the output). -/
theorem C23_bmaxpool_in_bounds {nIn nOut : Nat} {ti tt : Bool} {a : PoolAttrs} {dims od : List Nat} {p : Pool}
    (h : poolPrepare nIn nOut ti tt a dims = some (p, od)) {inp out0 : List Word}
    (hin : inp.length = dims.prod) (hout : out0.length = od.prod) :
    ∃ out, bmaxpool p inp out0 = some out ∧ out.length = od.prod ∧
      ∀ b oy ox c, b < p.batches → oy < p.outH → ox < p.outW → c < p.ch →
        (∃ iy ix, p.window oy ox iy ix) ∧
        ∃ w, out[((b * p.outH + oy) * p.outW + ox) * p.ch + c]? = some w ∧
          ∀ i, i < 32 → (w.getLsbD i = true ↔ ∀ iy ix, p.window oy ox iy ix →
            ∃ v, inp[((b * p.inH + iy) * p.inW + ix) * p.ch + c]? = some v ∧ v.getLsbD i = true) := by
  obtain ⟨g, rfl, rfl, _⟩ := poolPrepare_some h
  simp only [List.prod_cons, List.prod_nil, mul_one, ← mul_assoc] at hin hout ⊢
  obtain ⟨out, h1, h2, h3⟩ := bmaxpool_eq g hin hout
  refine ⟨out, h1, by rw [h2, hout], ?_⟩
  intro b oy ox c hb hy hx hc
  refine ⟨window_nonempty g hy hx, _, h3 b oy ox c hb hy hx hc, ?_⟩
  intro i hi
  rw [wordOf_getLsbD]
  simp only [hi, decide_true, Bool.true_and, decide_eq_true_eq]
  unfold poolBit
  have key : ∀ iy ix, p.window oy ox iy ix →
      ((inp.getD (((b * p.inH + iy) * p.inW + ix) * p.ch + c) 0#32).getLsbD i = true ↔
        ∃ v, inp[((b * p.inH + iy) * p.inW + ix) * p.ch + c]? = some v ∧ v.getLsbD i = true) := by
    intro iy ix hw
    have hlt : ((b * p.inH + iy) * p.inW + ix) * p.ch + c < inp.length := by
      rw [hin]; exact row_lt (row_lt (row_lt hb hw.1) hw.2.1) hc
    rw [List.getD_eq_getElem?_getD, List.getElem?_eq_getElem hlt]
    simp
  constructor
  · intro hh iy ix hw; exact (key iy ix hw).1 (hh iy ix hw)
  · intro hh iy ix hw; exact (key iy ix hw).2 (hh iy ix hw)

theorem F32.negative_iff_key {v : F32} (h : v.isNaN = false) : F32.negative v ↔ v.key < 0 := by
  unfold F32.negative F32.key
  cases hm : v.msb
  · simp only [Bool.false_eq_true, false_and, and_false, if_false, false_iff]
    omega
  · simp only [h, true_and, if_true]
    constructor
    · intro hne
      have : (v.extractLsb' 0 31).toNat ≠ 0 := by
        intro h0
        exact hne (BitVec.eq_of_toNat_eq (by simpa using h0))
      omega
    · intro hlt h0
      rw [h0] at hlt
      simp at hlt

/-- The bound below which a value counts as negative. -/
def TData.zero : TData → Int
  | .f32 _ => 0
  | .i8 _ _ z => z
  | .bool _ => 0

theorem neg_iff_key {x : TData} {i : Nat} {m : Int} (h : x.keyAt i = some m) : x.neg i ↔ m < x.zero := by
  cases x with
  | f32 xs =>
    simp only [TData.keyAt] at h
    obtain ⟨v, hv, h⟩ := Option.bind_eq_some_iff.1 h
    split at h
    · cases h
    · rename_i hn
      simp only [Option.some.injEq] at h
      subst h
      simp only [TData.neg, TData.zero, hv, Option.some.injEq, exists_eq_left']
      exact F32.negative_iff_key (by simpa using hn)
  | i8 xs s z =>
    simp only [TData.keyAt] at h
    obtain ⟨v, hv, rfl⟩ := Option.map_eq_some_iff.1 h
    simp only [TData.neg, TData.zero, hv, Option.some.injEq, exists_eq_left']
  | bool xs => simp [TData.keyAt] at h

/-- Two packed tensors with the same bits are equal. -/
theorem packed_ext {rows cols : Nat} {u v : List Word} (hu : IsPacked rows cols u) (hv : IsPacked rows cols v)
    (h : ∀ r c, r < rows → c < cols → ∃ a b, u[r * ((cols + 31) / 32) + c / 32]? = some a ∧
      v[r * ((cols + 31) / 32) + c / 32]? = some b ∧ a.getLsbD (c % 32) = b.getLsbD (c % 32)) : u = v := by
  apply List.ext_getElem?
  intro j
  by_cases hj : j < rows * ((cols + 31) / 32)
  · have hK : 0 < (cols + 31) / 32 := Nat.pos_of_ne_zero (by intro h0; rw [h0] at hj; simp at hj)
    obtain ⟨h1, h2⟩ := mod_lt_of_lt_mul hj
    have hju : j < u.length := by rw [hu.len]; exact hj
    have hjv : j < v.length := by rw [hv.len]; exact hj
    rw [List.getElem?_eq_getElem hju, List.getElem?_eq_getElem hjv]
    congr 1
    apply BitVec.eq_of_getLsbD_eq
    intro i hi
    have hdec : j / ((cols + 31) / 32) * ((cols + 31) / 32) + j % ((cols + 31) / 32) = j := div_mul_add_mod _ _
    by_cases hc : 32 * (j % ((cols + 31) / 32)) + i < cols
    · obtain ⟨a, b, ha, hb, hab⟩ := h (j / ((cols + 31) / 32)) (32 * (j % ((cols + 31) / 32)) + i) h1 hc
      have e1 : (32 * (j % ((cols + 31) / 32)) + i) / 32 = j % ((cols + 31) / 32) := by omega
      have e2 : (32 * (j % ((cols + 31) / 32)) + i) % 32 = i := by omega
      rw [e1, hdec] at ha hb
      rw [e2] at hab
      rw [List.getElem?_eq_getElem hju] at ha
      rw [List.getElem?_eq_getElem hjv] at hb
      cases ha; cases hb
      exact hab
    · have a1 := hu.unused (j / ((cols + 31) / 32)) (j % ((cols + 31) / 32)) i _ h1 h2 hi (by omega)
        (by rw [hdec]; exact List.getElem?_eq_getElem hju)
      have a2 := hv.unused (j / ((cols + 31) / 32)) (j % ((cols + 31) / 32)) i _ h1 h2 hi (by omega)
        (by rw [hdec]; exact List.getElem?_eq_getElem hjv)
      rw [a1, a2]
  · rw [List.getElem?_eq_none_iff.2 (by rw [hu.len]; omega), List.getElem?_eq_none_iff.2 (by rw [hv.len]; omega)]

/-- Binary max pooling of packed data: the bits. -/
theorem bmaxpool_packed {p : Pool} (g : p.Geom) {C : Nat} (hch : p.ch = (C + 31) / 32) {q out0 : List Word}
    (hq : IsPacked (p.batches * p.inH * p.inW) C q)
    (hout : out0.length = p.batches * p.outH * p.outW * ((C + 31) / 32)) :
    ∃ z, bmaxpool p q out0 = some z ∧ IsPacked (p.batches * p.outH * p.outW) C z ∧
      ∀ b oy ox c, b < p.batches → oy < p.outH → ox < p.outW → c < C →
        ∃ w, z[((b * p.outH + oy) * p.outW + ox) * ((C + 31) / 32) + c / 32]? = some w ∧
          (w.getLsbD (c % 32) = true ↔ ∀ iy ix, p.window oy ox iy ix →
            (q.getD (((b * p.inH + iy) * p.inW + ix) * ((C + 31) / 32) + c / 32) 0#32).getLsbD (c % 32) = true) := by
  obtain ⟨z, h1, h2, h3⟩ := bmaxpool_eq g (inp := q) (out0 := out0) (by rw [hch]; exact hq.len) (by rw [hch]; exact hout)
  rw [hch] at h3
  refine ⟨z, h1, ⟨by rw [h2, hout], ?_⟩, ?_⟩
  · intro r k i v hr hk hi hc hv
    obtain ⟨r1, r2⟩ := mod_lt_of_lt_mul hr
    obtain ⟨r3, r4⟩ := mod_lt_of_lt_mul r1
    have hdec : (r / p.outW / p.outH * p.outH + r / p.outW % p.outH) * p.outW + r % p.outW = r := by
      rw [div_mul_add_mod, div_mul_add_mod]
    have := h3 (r / p.outW / p.outH) (r / p.outW % p.outH) (r % p.outW) k r3 r4 r2 hk
    rw [hdec, hv] at this
    simp only [Option.some.injEq] at this
    rw [this, wordOf_getLsbD]
    simp only [hi, decide_true, Bool.true_and, decide_eq_false_iff_not]
    unfold poolBit
    rw [hch]
    intro hall
    obtain ⟨iy, ix, hw⟩ := window_nonempty g r4 r2
    have hb := hall iy ix hw
    have hlt : ((r / p.outW / p.outH * p.inH + iy) * p.inW + ix) < p.batches * p.inH * p.inW :=
      row_lt (row_lt r3 hw.1) hw.2.1
    have hlt' := row_lt hlt hk
    rw [List.getD_eq_getElem?_getD] at hb
    have hget : q[((r / p.outW / p.outH * p.inH + iy) * p.inW + ix) * ((C + 31) / 32) + k]? =
        some (q[((r / p.outW / p.outH * p.inH + iy) * p.inW + ix) * ((C + 31) / 32) + k]'(by rw [hq.len]; exact hlt')) :=
      List.getElem?_eq_getElem _
    have := hq.unused _ k i _ hlt hk hi hc hget
    rw [hget] at hb
    simp only [Option.getD_some] at hb
    rw [this] at hb
    cases hb
  · intro b oy ox c hb hoy hox hc
    have hk : c / 32 < (C + 31) / 32 := by omega
    refine ⟨_, h3 b oy ox (c / 32) hb hoy hox hk, ?_⟩
    rw [wordOf_getLsbD]
    have : c % 32 < 32 := by omega
    simp only [this, decide_true, Bool.true_and, decide_eq_true_eq]
    unfold poolBit
    rw [hch]

/-- **C22.** Binary max pooling of the quantized tensor equals quantizing the max pool, for every
attribute set, shape and input (float without NaN, or int8). -/
theorem C22_bmaxpool_quantize {p : Pool} (g : p.Geom) {C : Nat} (hch : p.ch = (C + 31) / 32) {x y : TData}
    (hx : x.size = p.batches * p.inH * p.inW * C) (hy : y.size = p.batches * p.outH * p.outW * C)
    (hty : x.sameType y) (hzx : x.zpOk) (hmax : IsMaxPool p C x y) {o1 o2 o3 : List Word} {j1 j2 : Word}
    (h1 : o1.length = p.batches * p.inH * p.inW * ((C + 31) / 32))
    (h2 : o2.length = p.batches * p.outH * p.outW * ((C + 31) / 32))
    (h3 : o3.length = p.batches * p.outH * p.outW * ((C + 31) / 32)) :
    ∃ q z, quantizeEval [p.batches, p.inH, p.inW, C] x o1 j1 = some q ∧
      bmaxpool p q o2 = some z ∧
      quantizeEval [p.batches, p.outH, p.outW, C] y o3 j2 = some z := by
  have hzy : y.zpOk := by
    cases x <;> cases y <;> simp_all [TData.sameType, TData.zpOk]
  have hzero : x.zero = y.zero := by
    cases x <;> cases y <;> simp_all [TData.sameType, TData.zero]
  have pin : ([p.batches, p.inH, p.inW, C] : List Nat).dropLast.prod = p.batches * p.inH * p.inW := by
    simp [mul_assoc]
  have pout : ([p.batches, p.outH, p.outW, C] : List Nat).dropLast.prod = p.batches * p.outH * p.outW := by
    simp [mul_assoc]
  obtain ⟨q, q1, q2⟩ := C01_quantize_bits (cols := C) (shape := [p.batches, p.inH, p.inW, C]) (junk := j1) (out0 := o1) rfl
    (by rw [pin]; exact hx) (by rw [pin]; exact h1) hzx
  obtain ⟨q', q1', q3⟩ := C02_unused_bits_zero (cols := C) (shape := [p.batches, p.inH, p.inW, C]) (junk := j1) (out0 := o1) rfl
    (by rw [pin]; exact hx) (by rw [pin]; exact h1) hzx
  rw [q1] at q1'; cases q1'
  obtain ⟨z', z1, z2⟩ := C01_quantize_bits (cols := C) (shape := [p.batches, p.outH, p.outW, C]) (junk := j2) (out0 := o3) rfl
    (by rw [pout]; exact hy) (by rw [pout]; exact h3) hzy
  obtain ⟨z'', z1', z3⟩ := C02_unused_bits_zero (cols := C) (shape := [p.batches, p.outH, p.outW, C]) (junk := j2) (out0 := o3) rfl
    (by rw [pout]; exact hy) (by rw [pout]; exact h3) hzy
  rw [z1] at z1'; cases z1'
  rw [pin] at q2 q3
  rw [pout] at z2 z3
  obtain ⟨z, w1, w2, w3⟩ := bmaxpool_packed g hch q3 h2
  refine ⟨q, z, q1, w1, ?_⟩
  rw [z1]
  congr 1
  refine packed_ext z3 w2 ?_
  intro r c hr hc
  obtain ⟨r1, r2⟩ := mod_lt_of_lt_mul hr
  obtain ⟨r3, r4⟩ := mod_lt_of_lt_mul r1
  have hdec : (r / p.outW / p.outH * p.outH + r / p.outW % p.outH) * p.outW + r % p.outW = r := by
    rw [div_mul_add_mod, div_mul_add_mod]
  obtain ⟨u, hu, hub⟩ := z2 r c hr hc
  obtain ⟨v, hv, hvb⟩ := w3 _ _ _ c r3 r4 r2 hc
  rw [hdec] at hv
  refine ⟨u, v, hu, hv, ?_⟩
  rw [Bool.eq_iff_iff, hub, hvb]
  obtain ⟨m, m1, ⟨iy0, ix0, hw0, m2⟩, m3⟩ := hmax _ _ _ c r3 r4 r2 hc
  rw [hdec] at m1
  rw [neg_iff_key m1]
  have hbit : ∀ iy ix, p.window (r / p.outW % p.outH) (r % p.outW) iy ix →
      ((q.getD (((r / p.outW / p.outH * p.inH + iy) * p.inW + ix) * ((C + 31) / 32) + c / 32) 0#32).getLsbD (c % 32) = true ↔
        x.neg (((r / p.outW / p.outH * p.inH + iy) * p.inW + ix) * C + c)) := by
    intro iy ix hw
    obtain ⟨w, hw1, hw2⟩ := q2 ((r / p.outW / p.outH * p.inH + iy) * p.inW + ix) c
      (row_lt (row_lt r3 hw.1) hw.2.1) hc
    rw [List.getD_eq_getElem?_getD, hw1]
    exact hw2
  constructor
  · intro hm iy ix hw
    rw [hbit iy ix hw]
    obtain ⟨v, hv, hle⟩ := m3 iy ix hw
    rw [neg_iff_key hv, hzero]
    omega
  · intro hall
    have := (hbit iy0 ix0 hw0).1 (hall iy0 ix0 hw0)
    rw [neg_iff_key m2, hzero] at this
    exact this

/-- **C24** (partial: activation NONE or RELU_N1_TO_1; false for RELU and RELU6, which the pattern
also matches, see `C24_relu_witness`). `LceQuantize(MaxPool2D(x))` equals
`LceBMaxPool2d(LceQuantize(x))`. -/
theorem C24_move_quantize_partial {p : Pool} (g : p.Geom) {C : Nat} (hch : p.ch = (C + 31) / 32) {x y : List F32}
    {act : Act} (hact : act = .none ∨ act = .reluN1To1)
    (hx : x.length = p.batches * p.inH * p.inW * C) (hy : y.length = p.batches * p.outH * p.outW * C)
    (hmax : IsMaxPoolAct p C act x y) {o1 o2 o3 : List Word} {j1 j2 : Word}
    (h1 : o1.length = p.batches * p.inH * p.inW * ((C + 31) / 32))
    (h2 : o2.length = p.batches * p.outH * p.outW * ((C + 31) / 32))
    (h3 : o3.length = p.batches * p.outH * p.outW * ((C + 31) / 32)) :
    ∃ q z, quantizeEval [p.batches, p.inH, p.inW, C] (.f32 x) o1 j1 = some q ∧
      bmaxpool p q o2 = some z ∧
      quantizeEval [p.batches, p.outH, p.outW, C] (.f32 y) o3 j2 = some z := by
  obtain ⟨y0, hm, hlen, hval⟩ := hmax
  obtain ⟨q, z, e1, e2, e3⟩ := C22_bmaxpool_quantize g hch (x := .f32 x) (y := .f32 y0) hx (by
    simp only [TData.size]; omega) trivial trivial hm h1 h2 h3 (j1 := j1) (j2 := j2)
  refine ⟨q, z, e1, e2, ?_⟩
  have pout : ([p.batches, p.outH, p.outW, C] : List Nat).dropLast.prod = p.batches * p.outH * p.outW := by
    simp [mul_assoc]
  obtain ⟨z', z1, z2⟩ := C01_quantize_bits (cols := C) (shape := [p.batches, p.outH, p.outW, C]) (x := .f32 y) (junk := j2)
    (out0 := o3) rfl (by rw [pout]; exact hy) (by rw [pout]; exact h3) trivial
  obtain ⟨z'', z1', z3⟩ := C02_unused_bits_zero (cols := C) (shape := [p.batches, p.outH, p.outW, C]) (x := .f32 y) (junk := j2)
    (out0 := o3) rfl (by rw [pout]; exact hy) (by rw [pout]; exact h3) trivial
  rw [z1] at z1'; cases z1'
  obtain ⟨v', v1, v2⟩ := C01_quantize_bits (cols := C) (shape := [p.batches, p.outH, p.outW, C]) (x := .f32 y0) (junk := j2)
    (out0 := o3) rfl (by rw [pout]; simp only [TData.size]; omega) (by rw [pout]; exact h3) trivial
  obtain ⟨v'', v1', v3⟩ := C02_unused_bits_zero (cols := C) (shape := [p.batches, p.outH, p.outW, C]) (x := .f32 y0) (junk := j2)
    (out0 := o3) rfl (by rw [pout]; simp only [TData.size]; omega) (by rw [pout]; exact h3) trivial
  rw [v1] at v1' e3; cases v1'; cases e3
  rw [z1]
  congr 1
  rw [pout] at z2 z3 v2 v3
  refine packed_ext z3 v3 ?_
  intro r c hr hc
  obtain ⟨a, ha, hab⟩ := z2 r c hr hc
  obtain ⟨b, hb, hbb⟩ := v2 r c hr hc
  refine ⟨a, b, ha, hb, ?_⟩
  rw [Bool.eq_iff_iff, hab, hbb]
  obtain ⟨r1, r2⟩ := mod_lt_of_lt_mul hr
  obtain ⟨r3, r4⟩ := mod_lt_of_lt_mul r1
  have hdec : (r / p.outW / p.outH * p.outH + r / p.outW % p.outH) * p.outW + r % p.outW = r := by
    rw [div_mul_add_mod, div_mul_add_mod]
  obtain ⟨m, m1, _⟩ := hm _ _ _ c r3 r4 r2 hc
  rw [hdec] at m1
  rw [neg_iff_key m1, neg_iff_key (hval _ _ m1)]
  rcases hact with rfl | rfl
  · rfl
  · have k1 : F32.key F32.negOne = -1065353216 := by decide
    have k2 : F32.key F32.one = 1065353216 := by decide
    simp only [Act.onKey, TData.zero, k1, k2]
    omega

/-- **C24, exact condition.** For every pool with a non-empty output, the rewriting is right for all inputs if and only if
the fused activation is NONE or RELU_N1_TO_1 (of the four that TFLite's MaxPool2D knows). -/
theorem C24_exact {p : Pool} (g : p.Geom) {C : Nat} (hch : p.ch = (C + 31) / 32) {act : Act} (hact : act ≠ .other)
    (hpos : 0 < p.batches ∧ 0 < p.outH ∧ 0 < p.outW ∧ 0 < C) :
    (∀ (x y : List F32) (o1 o2 o3 : List Word) (j1 j2 : Word), x.length = p.batches * p.inH * p.inW * C →
      y.length = p.batches * p.outH * p.outW * C → IsMaxPoolAct p C act x y →
      o1.length = p.batches * p.inH * p.inW * ((C + 31) / 32) →
      o2.length = p.batches * p.outH * p.outW * ((C + 31) / 32) →
      o3.length = p.batches * p.outH * p.outW * ((C + 31) / 32) →
      ∃ q z, quantizeEval [p.batches, p.inH, p.inW, C] (.f32 x) o1 j1 = some q ∧ bmaxpool p q o2 = some z ∧
        quantizeEval [p.batches, p.outH, p.outW, C] (.f32 y) o3 j2 = some z) ↔ (act = .none ∨ act = .reluN1To1) := by
  constructor
  · intro hall
    by_contra hno
    have hr : act = .relu ∨ act = .relu6 := by
      cases act <;> simp_all
    have key : ∀ (v : F32) (n i : Nat), i < n → v.isNaN = false →
        (TData.f32 (List.replicate n v)).keyAt i = some v.key := by
      intro v n i hi hv
      simp [TData.keyAt, List.getElem?_replicate, hi, hv]
    have hnan : F32.isNaN F32.negOne = false := by decide
    have hnan0 : F32.isNaN F32.zero = false := by decide
    have hmax : IsMaxPool p C (.f32 (List.replicate (p.batches * p.inH * p.inW * C) F32.negOne))
        (.f32 (List.replicate (p.batches * p.outH * p.outW * C) F32.negOne)) := by
      intro b oy ox c hb hoy hox hc
      refine ⟨F32.key F32.negOne, key _ _ _ (row_lt (row_lt (row_lt hb hoy) hox) hc) hnan, ?_, ?_⟩
      · obtain ⟨iy, ix, hw⟩ := window_nonempty g hoy hox
        exact ⟨iy, ix, hw, key _ _ _ (row_lt (row_lt (row_lt hb hw.1) hw.2.1) hc) hnan⟩
      · intro iy ix hw
        exact ⟨_, key _ _ _ (row_lt (row_lt (row_lt hb hw.1) hw.2.1) hc) hnan, le_refl _⟩
    have hmax' : IsMaxPoolAct p C act (List.replicate (p.batches * p.inH * p.inW * C) F32.negOne)
        (List.replicate (p.batches * p.outH * p.outW * C) F32.zero) := by
      refine ⟨_, hmax, by simp, ?_⟩
      intro i m hm
      have hi : i < p.batches * p.outH * p.outW * C := by
        by_contra hi
        simp [TData.keyAt, List.getElem?_replicate, hi] at hm
      rw [key _ _ _ hi hnan] at hm
      cases hm
      rw [key _ _ _ hi hnan0]
      rcases hr with rfl | rfl <;> decide
    obtain ⟨q, z, e1, e2, e3⟩ := hall _ _ (List.replicate (p.batches * p.inH * p.inW * ((C + 31) / 32)) 0#32)
      (List.replicate (p.batches * p.outH * p.outW * ((C + 31) / 32)) 0#32)
      (List.replicate (p.batches * p.outH * p.outW * ((C + 31) / 32)) 0#32) 0#32 0#32
      (by simp) (by simp) hmax' (by simp) (by simp) (by simp)
    obtain ⟨q', z', f1, f2, f3⟩ := C22_bmaxpool_quantize g hch
      (x := .f32 (List.replicate (p.batches * p.inH * p.inW * C) F32.negOne))
      (y := .f32 (List.replicate (p.batches * p.outH * p.outW * C) F32.negOne))
      (o1 := List.replicate (p.batches * p.inH * p.inW * ((C + 31) / 32)) 0#32)
      (o2 := List.replicate (p.batches * p.outH * p.outW * ((C + 31) / 32)) 0#32)
      (o3 := List.replicate (p.batches * p.outH * p.outW * ((C + 31) / 32)) 0#32) (j1 := 0#32) (j2 := 0#32)
      (by simp [TData.size]) (by simp [TData.size]) trivial trivial hmax (by simp) (by simp) (by simp)
    rw [e1] at f1; cases f1
    rw [e2] at f2; cases f2
    have pout : ([p.batches, p.outH, p.outW, C] : List Nat).dropLast.prod = p.batches * p.outH * p.outW := by
      simp [mul_assoc]
    have hrow : 0 < p.batches * p.outH * p.outW := Nat.mul_pos (Nat.mul_pos hpos.1 hpos.2.1) hpos.2.2.1
    have hlen : 0 < p.batches * p.outH * p.outW * C := Nat.mul_pos hrow hpos.2.2.2
    have bits : ∀ v : F32, quantizeEval [p.batches, p.outH, p.outW, C]
        (.f32 (List.replicate (p.batches * p.outH * p.outW * C) v))
        (List.replicate (p.batches * p.outH * p.outW * ((C + 31) / 32)) 0#32) 0#32 = some z →
        ∃ w, z[0]? = some w ∧ (w.getLsbD 0 = true ↔ F32.negative v) := by
      intro v hv
      obtain ⟨z', z1, z2⟩ := C01_quantize_bits (cols := C) (shape := [p.batches, p.outH, p.outW, C])
        (x := .f32 (List.replicate (p.batches * p.outH * p.outW * C) v)) (junk := 0#32)
        (out0 := List.replicate (p.batches * p.outH * p.outW * ((C + 31) / 32)) 0#32) rfl
        (by rw [pout]; simp [TData.size]) (by rw [pout]; simp) trivial
      rw [hv] at z1; cases z1
      obtain ⟨w, hw, hb⟩ := z2 0 0 (by rw [pout]; exact hrow) hpos.2.2.2
      simp only [Nat.zero_mul, Nat.zero_div, Nat.add_zero] at hw
      refine ⟨w, hw, ?_⟩
      rw [show (0 : Nat) = 0 % 32 from rfl, hb]
      simp [TData.neg, List.getElem?_replicate, hlen]
    obtain ⟨w, hw, hb⟩ := bits _ e3
    obtain ⟨w', hw', hb'⟩ := bits _ f3
    rw [hw] at hw'; cases hw'
    rw [hb] at hb'
    exact absurd (hb'.2 (by decide)) (by decide)
  · intro h x y o1 o2 o3 j1 j2 hx hy hmax h1 h2 h3
    exact C24_move_quantize_partial g hch h hx hy hmax h1 h2 h3

/-- C24 fails for RELU: a 1 x 1 pool of the single value `-1.0`. The model's result is `+1`
(RELU gives `0.0`), the rewritten one's is `-1`. -/
theorem C24_relu_witness :
    let p : Pool := ⟨1, 1, 1, 1, .valid, 0, 0, 1, 1, 1, 1, 1, 1⟩
    p.Geom ∧ IsMaxPoolAct p 1 .relu [F32.negOne] [F32.zero] ∧
    quantizeEval [1, 1, 1, 1] (.f32 [F32.negOne]) [0#32] 0#32 = some [1#32] ∧
    bmaxpool p [1#32] [0#32] = some [1#32] ∧
    quantizeEval [1, 1, 1, 1] (.f32 [F32.zero]) [0#32] 0#32 = some [0#32] := by
  refine ⟨⟨by decide, by decide, by decide, by decide, by decide, by decide⟩, ?_, by decide +kernel, by decide +kernel,
    by decide +kernel⟩
  refine ⟨[F32.negOne], ?_, rfl, ?_⟩
  · intro b oy ox c hb hoy hox hc
    simp only [Nat.lt_one_iff] at hb hoy hox hc
    subst hb hoy hox hc
    refine ⟨F32.key F32.negOne, by decide, ⟨0, 0, by unfold Pool.window; decide, by decide⟩, ?_⟩
    rintro iy ix ⟨h1, h2, _⟩
    simp only [Nat.lt_one_iff] at h1 h2
    subst h1 h2
    exact ⟨F32.key F32.negOne, by decide, le_refl _⟩
  · intro i m h
    match i, h with
    | 0, h =>
      have : m = F32.key F32.negOne := by
        have e : (TData.f32 [F32.negOne]).keyAt 0 = some (F32.key F32.negOne) := by decide
        rw [e] at h; exact (Option.some.inj h).symm
      subst this
      decide
    | i + 1, h => simp [TData.keyAt] at h

/-- Non-vacuity of C22 and C23: a 3 x 2 pool with stride 2 and SAME padding of a 5 x 4 image with
33 channels (two words). -/
example : poolPrepare 1 1 true true ⟨3, 2, 2, 2, .same⟩ [1, 5, 4, 2] =
    some (⟨3, 2, 2, 2, .same, 1, 0, 1, 5, 4, 2, 3, 2⟩, [1, 3, 2, 2]) := by decide

/-- A max pool in the sense of C22: two floats, `-1` and `1`, pooled to `1`. -/
example : IsMaxPool ⟨1, 2, 1, 1, .valid, 0, 0, 1, 1, 2, 1, 1, 1⟩ 1 (.f32 [F32.negOne, F32.one]) (.f32 [F32.one]) := by
  intro b oy ox c hb hoy hox hc
  simp only [Nat.lt_one_iff] at hb hoy hox hc
  subst hb hoy hox hc
  refine ⟨F32.key F32.one, by decide, ⟨0, 1, by unfold Pool.window; decide, by decide⟩, ?_⟩
  rintro iy ix ⟨h1, h2, _⟩
  simp only [Nat.lt_one_iff] at h1
  subst h1
  have : ix = 0 ∨ ix = 1 := by simp only at h2; omega
  rcases this with rfl | rfl
  · exact ⟨F32.key F32.negOne, by decide, by decide⟩
  · exact ⟨F32.key F32.one, by decide, by decide⟩

end Verif
