import Verif.Proof.IndirectA64Run
import Verif.Proof.Canonical

/-! The channel loop and the pixel loop of the Aarch64 indirect kernels. -/

namespace Verif

open Finset

/-- Where the pointers of the indirection buffer point. -/
theorem indirectPtr_cases {p : BConv} {oi fy fx : Nat} (hoi : oi < p.batches * p.outH * p.outW) :
    indirectPtr p oi fy fx = .zero 0 ∨
      ∃ pix, pix < p.batches * p.inH * p.inW ∧ indirectPtr p oi fy fx = .inp (pix * p.inDepth) := by
  have hb : oi / (p.outH * p.outW) < p.batches := by
    rw [Nat.mul_assoc] at hoi
    exact (mod_lt_of_lt_mul hoi).1
  unfold indirectPtr
  simp only []
  generalize oi / (p.outH * p.outW) = b at hb
  generalize ((oi % (p.outH * p.outW) / p.outW * p.strideH + fy * p.dilH : Nat) : Int) - p.padH = iy
  generalize ((oi % p.outW * p.strideW + fx * p.dilW : Nat) : Int) - p.padW = ix
  by_cases h1 : 0 ≤ iy ∧ iy < p.inH
  · by_cases h2 : 0 ≤ ix ∧ ix < p.inW
    · rw [if_pos h1, if_pos h2]
      refine Or.inr ⟨_, ?_, rfl⟩
      have hy : iy.toNat < p.inH := by omega
      have hx : ix.toNat < p.inW := by omega
      have e : b * p.inH * p.inW + iy.toNat * p.inW + ix.toNat = (b * p.inH + iy.toNat) * p.inW + ix.toNat := by ring
      rw [e]
      exact row_lt (row_lt hb hy) hx
    · rw [if_pos h1, if_neg h2]; exact Or.inl rfl
  · rw [if_neg h1]; exact Or.inl rfl

/-- The words of the next group behind what pointer `q` points to: after the last group the kernel loads `bd` of them. -/
def A64Room (p : BConv) (bd : Nat) (inp xi xz : List Word) : Ptr → Prop
  | .inp n => n + p.inDepth + bd ≤ inp.length + xi.length
  | .zero n => n + p.inDepth + bd ≤ p.filtH * p.filtW * p.inDepth + xz.length

/-- The assumptions on the buffers of a run. -/
structure A64Ctx (K : IKernel) (p : BConv) (bd : Nat) (inp xi xz filt mult bias : List Word) : Prop where
  dims : p.Dims inp filt
  made : K.MadeA p bd filt
  hF : 1 ≤ p.filtH * p.filtW
  hD : 1 ≤ p.filtDepth
  hbd : bd = 1 ∨ bd = 2 ∨ bd = 4
  hdiv : p.filtDepth % bd = 0
  hC : 1 ≤ p.cout
  hin : p.inDepth ≤ inp.length
  slack : p.groups = 1 ∨ ∀ oi, oi < p.batches * p.outH * p.outW → A64Room p bd inp xi xz (indirectPtr p oi 0 0)
  mult : p.cout - p.outPerGroup + ceilMul p.outPerGroup 8 ≤ mult.length
  bias : p.cout - p.outPerGroup + ceilMul p.outPerGroup 8 ≤ bias.length

section
variable {K : IKernel} {p : BConv} {bd : Nat} {inp xi xz filt mult bias : List Word} {cmin cmax : Int}
  (C : A64Ctx K p bd inp xi xz filt mult bias)
include C

/-- `P k f`: the pointers of tile `t`. -/
def nTilePtr (K : IKernel) (F t k f : Nat) : NAddr := nPtr K 3 (8 * (4 * t * F) + 32 * f + 8 * k)

theorem A64Ctx.ptr_cases {t k f : Nat} (ht : t < ceilDiv (p.batches * p.outH * p.outW) 4) (hk : k < 4)
    (hf : f ≤ p.filtH * p.filtW) :
    ∃ q, nTilePtr K (p.filtH * p.filtW) t k f = Ptr.addr q ∧
      (f < p.filtH * p.filtW → q = indirectPtr p (min (t * 4 + k) (p.batches * p.outH * p.outW - 1)) (f / p.filtW) (f % p.filtW)) ∧
      (q = .zero 0 ∨ ∃ n, q = .inp n ∧ n + p.inDepth ≤ inp.length) := by
  have hF := C.hF
  have htn := lt_of_lt_ceilDiv (by omega) ht
  generalize hFe : p.filtH * p.filtW = F at *
  have hidx : (8 * (4 * t * F) + 32 * f + 8 * k) / 8 = (t * F + f) * 4 + k := by
    have e : 8 * (4 * t * F) + 32 * f + 8 * k = 8 * ((t * F + f) * 4 + k) := by ring
    rw [e]; omega
  have hcase : ∀ oi fy fx, oi < p.batches * p.outH * p.outW →
      (indirectPtr p oi fy fx = .zero 0 ∨ ∃ n, indirectPtr p oi fy fx = .inp n ∧ n + p.inDepth ≤ inp.length) := by
    intro oi fy fx hoi
    rcases indirectPtr_cases (fy := fy) (fx := fx) hoi with h | ⟨pix, hp, h⟩
    · exact Or.inl h
    · refine Or.inr ⟨_, h, ?_⟩
      rw [C.dims.inLen, ← Nat.succ_mul]
      exact Nat.mul_le_mul_right _ hp
  have key : ∃ q, K.indirection[(t * F + f) * 4 + k]? = some q ∧
      (f < F → q = indirectPtr p (min (t * 4 + k) (p.batches * p.outH * p.outW - 1)) (f / p.filtW) (f % p.filtW)) ∧
      (q = .zero 0 ∨ ∃ n, q = .inp n ∧ n + p.inDepth ≤ inp.length) := by
    have hind := C.made.ind
    rw [hFe] at hind
    by_cases hfF : f < F
    · exact ⟨_, hind t k f ht hk hfF, fun _ => rfl, hcase _ _ _ (by omega)⟩
    · have : f = F := by omega
      subst this
      by_cases hlast : t + 1 < ceilDiv (p.batches * p.outH * p.outW) 4
      · have htn' := lt_of_lt_ceilDiv (by omega) hlast
        have := hind (t + 1) k 0 hlast hk (by omega)
        rw [Nat.add_zero, Nat.succ_mul] at this
        exact ⟨_, this, fun h => absurd h hfF, hcase _ _ _ (by omega)⟩
      · have htl : t + 1 = ceilDiv (p.batches * p.outH * p.outW) 4 := by omega
        have hend := C.made.indEnd
        have hlen := C.made.indLen
        rw [hFe, ← htl] at hend hlen
        have e : (t * f + f) * 4 + k = (t + 1) * 4 * f + k := by ring
        rw [e]
        refine ⟨_, hend _ (by omega) (by omega), fun h => absurd h hfF, Or.inr ⟨0, rfl, ?_⟩⟩
        rw [Nat.zero_add]; exact C.hin
  obtain ⟨q, h1, h2, h3⟩ := key
  refine ⟨q, ?_, h2, h3⟩
  unfold nTilePtr nPtr
  rw [if_pos rfl, hidx, h1]
  rfl

/-- Pointers can be followed as far as the words of a pixel go. -/
theorem A64Ctx.ptr_size {t k f e : Nat} (ht : t < ceilDiv (p.batches * p.outH * p.outW) 4) (hk : k < 4)
    (hf : f ≤ p.filtH * p.filtW) (he : e ≤ p.inDepth) :
    (nTilePtr K (p.filtH * p.filtW) t k f).off + 4 * e
      ≤ (nMem K inp xi xz mult bias cmin cmax).size (nTilePtr K (p.filtH * p.filtW) t k f).obj := by
  obtain ⟨q, h1, _, h3⟩ := C.ptr_cases ht hk hf
  rw [h1]
  have hFi : p.inDepth ≤ p.filtH * p.filtW * p.inDepth := Nat.le_mul_of_pos_left _ C.hF
  rcases h3 with rfl | ⟨n, rfl, hn⟩
  · change 4 * 0 + 4 * e ≤ 4 * (K.zeroBuffer ++ xz).length
    rw [List.length_append, C.made.zero, List.length_replicate]
    generalize p.filtH * p.filtW * p.inDepth = Z at *
    omega
  · change 4 * n + 4 * e ≤ 4 * (inp ++ xi).length
    rw [List.length_append]
    omega

/-- With groups, those of the first filter position also a little further. -/
theorem A64Ctx.ptr_size0 {t k : Nat} (ht : t < ceilDiv (p.batches * p.outH * p.outW) 4) (hk : k < 4)
    (hg : 1 < p.groups) :
    (nTilePtr K (p.filtH * p.filtW) t k 0).off + 4 * (p.inDepth + bd)
      ≤ (nMem K inp xi xz mult bias cmin cmax).size (nTilePtr K (p.filtH * p.filtW) t k 0).obj := by
  obtain ⟨q, h1, h2, _⟩ := C.ptr_cases ht hk (Nat.zero_le _)
  have htn := lt_of_lt_ceilDiv (by omega) ht
  have hq := h2 C.hF
  rw [Nat.zero_div, Nat.zero_mod] at hq
  have hs : A64Room p bd inp xi xz q := by
    rw [hq]
    rcases C.slack with h | h
    · omega
    · exact h _ (by omega)
  rw [h1]
  cases q with
  | inp n =>
    change n + p.inDepth + bd ≤ inp.length + xi.length at hs
    change 4 * n + 4 * (p.inDepth + bd) ≤ 4 * (inp ++ xi).length
    rw [List.length_append]
    omega
  | zero n =>
    change n + p.inDepth + bd ≤ p.filtH * p.filtW * p.inDepth + xz.length at hs
    change 4 * n + 4 * (p.inDepth + bd) ≤ 4 * (K.zeroBuffer ++ xz).length
    rw [List.length_append, C.made.zero, List.length_replicate]
    generalize p.filtH * p.filtW * p.inDepth = Z at *
    omega

/-- The accumulators after the accumulation loop. -/
theorem A64Ctx.acc {A : NKernel} (hAbd : A.bd = bd) {t g blk : Nat}
    (ht : t < ceilDiv (p.batches * p.outH * p.outW) 4) (hg : g < p.groups)
    (hblk : blk < ceilDiv p.outPerGroup 8) {s : NState}
    (hs : A.At (nMem K inp xi xz mult bias cmin cmax) (g * p.filtDepth) (nTilePtr K (p.filtH * p.filtW) t)
      ⟨2, 4 * ((g * ceilDiv p.outPerGroup 8 + blk) * (p.filtH * p.filtW * (p.filtDepth / bd) * (8 * bd)))⟩
      (p.filtDepth / bd) (p.filtH * p.filtW * (p.filtDepth / bd)) s)
    {k j : Nat} (hk : k < 4) (hj : j < 8) (hch : blk * 8 + j < p.outPerGroup) :
    laneHalf (s.v (28 + k)) j = BitVec.ofNat 16 (p.accPix inp filt
      (min (t * 4 + k) (p.batches * p.outH * p.outW - 1)) (g * p.outPerGroup + (blk * 8 + j))) := by
  subst hAbd
  have htn := lt_of_lt_ceilDiv (by omega) ht
  rw [hs.acc k j hk hj]
  have hDe : p.filtDepth / A.bd * A.bd = p.filtDepth := Nat.div_mul_cancel (Nat.dvd_of_mod_eq_zero C.hdiv)
  set n := p.batches * p.outH * p.outW with hn
  set oi := min (t * 4 + k) (n - 1) with hoi
  have hoin : oi < n := by omega
  set oc := g * p.outPerGroup + (blk * 8 + j) with hoc
  have hgr : oc / p.outPerGroup = g ∧ oc < p.cout := by
    refine ⟨(div_mod_row hch).1, ?_⟩
    have := row_lt hg hch
    have hopg : p.groups * p.outPerGroup = p.cout :=
      Nat.mul_div_cancel' (Nat.dvd_of_mod_eq_zero C.dims.cout_div)
    rw [hopg] at this
    exact this
  rw [BConv.accPix_flat]
  congr 1
  rw [blocks_sum C.hbd _ _ _ _ k j _
    (X := fun f d => p.inWord inp (oi / (p.outH * p.outW)) (oi % (p.outH * p.outW) / p.outW) (oi % p.outW) oc
          (f / p.filtW) (f % p.filtW) d)
    (V := fun f d => p.filtWord filt oc (f / p.filtW) (f % p.filtW) d)]
  · rw [hDe]
  · intro f d hf hd
    rw [hDe] at hd
    obtain ⟨q, h1, h2, _⟩ := C.ptr_cases ht hk (Nat.le_of_lt hf)
    rw [h1]
    apply nMem_deref
    rw [h2 hf, C.made.zero]
    have hf' := mod_lt_of_lt_mul hf
    have := indirect_deref C.dims hoin hgr.2 hf'.1 hf'.2 hd
    rw [hgr.1] at this
    have e : ∀ (q : Ptr) (a b : Nat), q.add (a + b) = (q.add a).add b := by
      intro q a b; cases q <;> simp [Ptr.add, Nat.add_assoc]
    rw [e]
    exact this
  · intro f cb co hf hcb hco
    have := C.made.pw g blk f cb j co hg hblk hf hcb hj hco hch
    have e : 4 * ((g * ceilDiv p.outPerGroup 8 + blk) * (p.filtH * p.filtW * (p.filtDepth / A.bd) * (8 * A.bd)))
        + 4 * ((f * (p.filtDepth / A.bd) + cb) * (8 * A.bd) + (j * A.bd + co))
        = 4 * pwIndex (ceilDiv p.outPerGroup 8) (p.filtH * p.filtW) (p.filtDepth / A.bd) 8 A.bd g blk f cb j co := by
      unfold pwIndex; ring
    rw [e, nMem_word]
    change (K.packedWeights[_]?).getD 0#32 = _
    rw [this]
    rfl

end

/-- One iteration of the pixel loop. -/
theorem nTile_eq {α : Type} {A : NKernel} (hA : A.Facts) {F : FOps} {K : IKernel} {p : BConv}
    {inp xi xz filt mult bias : List Word} {cmin cmax : Int} (C : A64Ctx K p A.bd inp xi xz filt mult bias)
    {ot : Bool → List NInstr} {res : (Nat → Nat → BitVec 8) → Nat → Nat → α}
    {fr : Word → Word → BitVec 16 → Word → Word → α}
    (hot : ∀ m g o (s : NState) x, (g = false → o.off = 0) → m.ptr 6 8 = ⟨4, 0⟩ → m.ptr 6 16 = ⟨5, 0⟩ →
      A.OtFacts m g o { s with x := nOtRegs o.cIdx x } (nExecs F m o (ot g) { s with x := nOtRegs o.cIdx x }))
    (hres : ∀ m g o (s : NState) x, m.ptr 6 8 = ⟨4, 0⟩ → m.ptr 6 16 = ⟨5, 0⟩ → ∀ p j, p < 4 → j < 8 →
      res (nExecs F m o (ot g) { s with x := nOtRegs o.cIdx x }).v p j
        = fr (m.word ⟨6, 0⟩) (m.word ⟨6, 4⟩) (laneHalf (s.v (28 + p)) j)
            (m.word ⟨4, 4 * o.cIdx + 4 * j⟩) (m.word ⟨5, 4 * o.cIdx + 4 * j⟩))
    {d2 g : Bool} (hd2 : d2 = decide (2 ≤ p.filtDepth / A.bd)) (hgr : g = decide (1 < p.groups))
    {v : Nat → Nat → BitVec 8} {x : Nat → NAddr}
    {s0 s : List α} (hlen : s0.length = p.batches * p.outH * p.outW * p.cout)
    {Wr : Nat → Prop} {t : Nat} (ht : t < ceilDiv (p.batches * p.outH * p.outW) 4)
    {G : Nat → α} (hG : ∀ i, G i = fr (BitVec.ofInt 32 cmin) (BitVec.ofInt 32 cmax)
      (BitVec.ofNat 16 (p.accPix inp filt (i / p.cout) (i % p.cout))) (mult.getD (i % p.cout) 0#32) (bias.getD (i % p.cout) 0#32))
    (hs : Fills s0 s Wr G) :
    ∃ s', nTile A ot res F (nMem K inp xi xz mult bias cmin cmax) d2 g K v x K.numOutputPixels (4 * t) s = some s' ∧
      Fills s0 s' (fun i => Wr i ∨ ∃ k j, k < 4 ∧ j < p.cout ∧
        i = (if 4 * t + k < p.batches * p.outH * p.outW then 4 * t + k else 4 * t) * p.cout + j) G := by
  set n := p.batches * p.outH * p.outW with hn
  have htn : t * 4 < n := lt_of_lt_ceilDiv (by omega) ht
  set Q : Nat → Nat := fun k => if 4 * t + k < n then 4 * t + k else 4 * t with hQ
  have hQn : ∀ k, Q k < n := by intro k; simp only [hQ]; split <;> omega
  set m := nMem K inp xi xz mult bias cmin cmax with hm
  have hopg : p.groups * p.outPerGroup = p.cout :=
    Nat.mul_div_cancel' (Nat.dvd_of_mod_eq_zero C.dims.cout_div)
  have hopg1 : 1 ≤ p.outPerGroup := by
    rcases Nat.eq_zero_or_pos p.outPerGroup with h0 | h0
    · rw [h0] at hopg; have := C.hC; omega
    · exact h0
  have hDe : K.inputDepth / K.groups = p.filtDepth := by
    rw [C.made.inputDepth, C.made.groups, C.dims.depth, Nat.mul_div_cancel_left _ C.dims.groups_pos]
  have hCe : K.outputChannels / K.groups = p.outPerGroup := by
    rw [C.made.outputChannels, C.made.groups]; rfl
  have hbd1 : 1 ≤ A.bd := by rcases C.hbd with h | h | h <;> omega
  set DB := p.filtDepth / A.bd with hDB
  have hDBe : DB * A.bd = p.filtDepth := Nat.div_mul_cancel (Nat.dvd_of_mod_eq_zero C.hdiv)
  have hDB1 : 1 ≤ DB := by
    rcases Nat.eq_zero_or_pos DB with h0 | h0
    · rw [h0] at hDBe; have := C.hD; omega
    · exact h0
  set FF := p.filtH * p.filtW with hFF
  have hF := C.hF
  set NB := ceilDiv p.outPerGroup 8 with hNB
  have hNB8 : p.outPerGroup ≤ NB * 8 := ceilDiv_mul_ge _ _ (by omega)
  have hNB0 : 0 < NB := by omega
  have hcm : ceilMul p.outPerGroup 8 = NB * 8 := rfl
  let P := nTilePtr K FF t
  let I : NAddr := ⟨3, 8 * (4 * t * FF)⟩
  let W : Nat → NAddr := fun gb => ⟨2, 4 * (gb * (FF * DB * (8 * A.bd)))⟩
  have hWsucc : ∀ gb, (W gb).add (32 * A.bd * (FF * DB)) = W (gb + 1) := by
    intro gb
    simp only [W, NAddr.add, NAddr.mk.injEq, true_and]
    ring
  have hp8 : m.ptr 6 8 = ⟨4, 0⟩ := rfl
  have hp16 : m.ptr 6 16 = ⟨5, 0⟩ := rfl
  have hsz2 : m.size 2 = 4 * (p.groups * NB * (FF * DB * (8 * A.bd)) + 8 * A.bd) := by
    change 4 * K.packedWeights.length = _
    rw [C.made.pwLen]; ring
  have hWs : ∀ gb, gb < p.groups * NB → (W gb).off + 32 * A.bd * (FF * DB + 1) ≤ m.size (W gb).obj := by
    intro gb hgb
    change 4 * (gb * (FF * DB * (8 * A.bd))) + 32 * A.bd * (FF * DB + 1) ≤ m.size 2
    rw [hsz2]
    have h1 := Nat.mul_le_mul_right (FF * DB * (8 * A.bd)) hgb
    have e : 4 * (gb * (FF * DB * (8 * A.bd))) + 32 * A.bd * (FF * DB + 1)
        = 4 * ((gb + 1) * (FF * DB * (8 * A.bd)) + 8 * A.bd) := by ring
    rw [e]
    exact Nat.mul_le_mul_left 4 (Nat.add_le_add_right h1 _)
  have hIs : I.off + 32 * (FF + 1) ≤ m.size I.obj := by
    change 8 * (4 * t * FF) + 32 * (FF + 1) ≤ 8 * K.indirection.length
    rw [C.made.indLen]
    have h1 := Nat.mul_le_mul_right FF ht
    have e : ceilDiv (p.batches * p.outH * p.outW) 4 * 4 * (p.filtH * p.filtW) = 4 * (ceilDiv n 4 * FF) := by
      simp only [hn, hFF]; ring
    have e2 : 8 * (4 * t * FF) + 32 * (FF + 1) = 8 * (4 * ((t + 1) * FF) + 4) := by ring
    rw [e, e2]
    have : (t + 1) * FF ≤ ceilDiv n 4 * FF := h1
    omega
  have hind : ∀ k f, k < 4 → f ≤ FF → m.ptr I.obj (I.off + 32 * f + 8 * k) = P k f := fun _ _ _ _ => rfl
  have hnind : ∀ (x : Nat → NAddr) k, x 21 = I → nInd m x k = P k 0 := by
    intro x k hx
    unfold nInd
    rw [hx]
    rfl
  have hPs : ∀ off k f, off + p.filtDepth ≤ p.inDepth → k < 4 → f ≤ FF →
      (P k f).off + 4 * off + 4 * A.bd * DB ≤ m.size (P k f).obj := by
    intro off k f ho hk hf
    have := C.ptr_size (cmin := cmin) (cmax := cmax) ht hk hf (e := off + p.filtDepth) ho
    have e : 4 * A.bd * DB = 4 * p.filtDepth := by rw [← hDBe]; ring
    rw [e]
    change (P k f).off + 4 * (off + p.filtDepth) ≤ m.size (P k f).obj at this
    omega
  -- invariant of the channel loop
  let Regs : Nat → Nat → NState → Prop := fun off gb s =>
    (∀ k j, k < 4 → j < 16 → s.v (16 + k) j = abk A.bd DB m off P k 0 j) ∧
    (∀ q j, q < 2 * A.bd → j < 16 → s.v (20 + q) j = wbk A.bd m (W gb) 0 q j) ∧
    s.x 20 = (W gb).add (32 * A.bd) ∧ s.x 21 = I ∧ s.ok = true
  let Inv : NChan α → Prop := fun u => ∃ gi blk, gi < p.groups ∧ blk < NB ∧ u.c = gi * p.outPerGroup + blk * 8 ∧
    u.off = gi * p.filtDepth ∧ u.groupEnd = gi * p.outPerGroup + p.outPerGroup ∧ Regs u.off (gi * NB + blk) u.s ∧
    u.o0 = Q 0 * p.cout + u.c ∧ u.o1 = Q 1 * p.cout + u.c ∧ u.o2 = Q 2 * p.cout + u.c ∧ u.o3 = Q 3 * p.cout + u.c ∧
    Fills s0 u.out (fun i => Wr i ∨ ∃ k j, k < 4 ∧ j < u.c ∧ i = Q k * p.cout + j) G
  let Post : NChan α → Prop := fun u =>
    Fills s0 u.out (fun i => Wr i ∨ ∃ k j, k < 4 ∧ j < p.cout ∧ i = Q k * p.cout + j) G
  have hstep : ∀ u, Inv u → ∃ u', nChanStep A ot res F m d2 g K u = some u' ∧
      (decide (u'.c < K.outputChannels) = true → Inv u' ∧ p.cout - u'.c < p.cout - u.c) ∧
      (decide (u'.c < K.outputChannels) = false → Post u') := by
    rintro u ⟨gi, blk, hgi, hblk, huc, huoff, huge, ⟨ra, rwt, rx, ri, rok⟩, h0, h1, h2, h3, hFi⟩
    have hblk8 : blk * 8 < p.outPerGroup := lt_of_lt_ceilDiv (by omega) hblk
    have hgl : gi * p.outPerGroup + p.outPerGroup ≤ p.cout := by
      rw [← hopg, ← Nat.succ_mul]
      exact Nat.mul_le_mul_right _ hgi
    have hgb : gi * NB + blk < p.groups * NB := row_lt hgi hblk
    have hoffle : u.off + p.filtDepth ≤ p.inDepth := by
      rw [huoff, C.dims.depth, ← Nat.succ_mul]
      exact Nat.mul_le_mul_right _ hgi
    have hgfalse : g = false → gi = 0 ∧ p.groups = 1 := by
      intro hf
      rw [hgr, decide_eq_false_iff_not] at hf
      have := C.dims.groups_pos
      omega
    have hg0 : g = false → u.off = 0 := by
      intro hf
      rw [huoff, (hgfalse hf).1, Nat.zero_mul]
    obtain ⟨s1, e1, hat, hx21⟩ := nAccum_eq hA F (m := m) (o := ⟨DB, u.off, 0⟩) (P := P) (W := W (gi * NB + blk)) (DB := DB)
      (d2 := d2) (g := g) hg0 ri hF hDB1 hd2 rfl hind hIs (fun k f hk hf => hPs u.off k f hoffle hk hf) (hWs _ hgb) ra rwt rx rok
    let last : Bool := g && decide (u.groupEnd ≤ u.c + 8)
    let off' := if last then u.off + p.filtDepth else u.off
    let next := if last then u.groupEnd + p.outPerGroup else u.groupEnd
    have hg0' : g = false → off' = 0 := by
      intro hf
      have : last = false := by simp [last, hf]
      simp only [off', this]
      exact hg0 hf
    let o' : NOps := ⟨DB, off', u.c⟩
    have O := hot m g o' s1 s1.x hg0' hp8 hp16
    have R := hres m g o' s1 s1.x hp8 hp16
    set s2 := nExecs F m o' (ot g) { s1 with x := nOtRegs o'.cIdx s1.x } with hs2
    have hx20' : nOtRegs o'.cIdx s1.x 20 = (W (gi * NB + blk + 1)).add (32 * A.bd) := by
      change s1.x 20 = _
      rw [hat.xw, ← hWsucc]
      unfold NAddr.add
      simp only [NAddr.mk.injEq, true_and]
      ring
    have hx21' : nOtRegs o'.cIdx s1.x 21 = I := hx21
    have hc8 : u.c + 8 ≤ p.cout - p.outPerGroup + NB * 8 := by
      have hle : gi * p.outPerGroup ≤ p.cout - p.outPerGroup := by omega
      have : blk * 8 + 8 ≤ NB * 8 := by
        have := Nat.mul_le_mul_right 8 hblk
        rw [Nat.succ_mul] at this; exact this
      rw [huc]; omega
    have hok2 : s2.ok = true := by
      apply O.ok hat.ok
      · unfold nIndOk
        change (nOtRegs o'.cIdx s1.x 21).off + 32 ≤ m.size (nOtRegs o'.cIdx s1.x 21).obj
        rw [hx21']; omega
      · intro k hk
        rw [hnind _ k hx21']
        change (P k 0).off + 4 * off' + 4 * A.bd ≤ m.size (P k 0).obj
        have hbdD : A.bd ≤ p.filtDepth := by rw [← hDBe]; exact Nat.le_mul_of_pos_left _ hDB1
        by_cases hl : last = true
        · have hgt : 1 < p.groups := by
            have : g = true := by simp only [last, Bool.and_eq_true] at hl; exact hl.1
            rw [hgr] at this
            simpa using this
          have := C.ptr_size0 (cmin := cmin) (cmax := cmax) ht hk hgt
          simp only [off', hl, if_true]
          change (P k 0).off + 4 * (p.inDepth + A.bd) ≤ m.size (P k 0).obj at this
          omega
        · have := C.ptr_size (cmin := cmin) (cmax := cmax) ht hk (f := 0) (by omega) (e := u.off + A.bd) (by omega)
          simp only [off', hl, if_false]
          change (P k 0).off + 4 * (u.off + A.bd) ≤ m.size (P k 0).obj at this
          change (P k 0).off + 4 * u.off + 4 * A.bd ≤ m.size (P k 0).obj
          omega
      · change 32 * A.bd ≤ (nOtRegs o'.cIdx s1.x 20).off
        rw [hx20']
        unfold NAddr.add
        simp only []
        omega
      · change (nOtRegs o'.cIdx s1.x 20).off ≤ m.size (nOtRegs o'.cIdx s1.x 20).obj
        have := hWs _ hgb
        change (s1.x 20).off ≤ m.size (s1.x 20).obj
        rw [hat.xw]
        exact this
      · change 4 * u.c + 32 ≤ 4 * mult.length
        have := C.mult
        rw [hcm] at this
        omega
      · change 4 * u.c + 32 ≤ 4 * bias.length
        have := C.bias
        rw [hcm] at this
        omega
      · exact Nat.le_refl 24
    -- the stores
    let mm := min 8 (u.groupEnd - u.c)
    have hmm : mm = min 8 (u.groupEnd - u.c) := rfl
    have hlt : ∀ k j, j < mm → Q k * p.cout + u.c + j < s0.length := by
      intro k j hj
      rw [hlen, Nat.add_assoc]
      exact row_lt (hQn k) (by omega)
    have hval : ∀ k j, k < 4 → j < mm → 4 * t + k < n → res s2.v k j = G (Q k * p.cout + u.c + j) := by
      intro k j hk hj hkn
      have hcl : u.c + j < p.cout := by omega
      rw [Nat.add_assoc, R k j hk (by omega), hG, (div_mod_row hcl).1, (div_mod_row hcl).2]
      have hQk : Q k = 4 * t + k := by simp only [hQ]; rw [if_pos hkn]
      have hmin : min (t * 4 + k) (n - 1) = 4 * t + k := by omega
      have hacc := C.acc (A := A) rfl ht hgi hblk (s := s1) (by rw [huoff] at hat; exact hat) hk (show j < 8 by omega)
        (show blk * 8 + j < p.outPerGroup by omega)
      change laneHalf (s1.v (28 + k)) j = BitVec.ofNat 16 (p.accPix inp filt (min (t * 4 + k) (n - 1)) _) at hacc
      rw [hmin] at hacc
      have e : gi * p.outPerGroup + (blk * 8 + j) = u.c + j := by omega
      rw [e] at hacc
      rw [hacc, hQk]
      have em : m.word ⟨4, 4 * o'.cIdx + 4 * j⟩ = mult.getD (u.c + j) 0#32 := by
        have : (4 * o'.cIdx + 4 * j) = 4 * (u.c + j) := by change 4 * u.c + 4 * j = _; omega
        rw [this, hm, nMem_word, List.getD_eq_getElem?_getD]
        rfl
      have eb : m.word ⟨5, 4 * o'.cIdx + 4 * j⟩ = bias.getD (u.c + j) 0#32 := by
        have : (4 * o'.cIdx + 4 * j) = 4 * (u.c + j) := by change 4 * u.c + 4 * j = _; omega
        rw [this, hm, nMem_word, List.getD_eq_getElem?_getD]
        rfl
      have e0 : m.word ⟨6, 0⟩ = BitVec.ofInt 32 cmin := by
        rw [hm]
        exact nMem_word 6 0
      have e4 : m.word ⟨6, 4⟩ = BitVec.ofInt 32 cmax := by
        rw [hm]
        exact nMem_word 6 1
      rw [em, eb, e0, e4]
    have hv : ∀ k (o : Nat), k < 4 → o = Q k * p.cout + u.c → (o = u.o0 ∨ ∀ j, j < mm → res s2.v k j = G (o + j)) := by
      intro k o hk ho
      by_cases hkn : 4 * t + k < n
      · right
        intro j hj
        rw [ho]
        exact hval k j hk hj hkn
      · left
        have : Q k = Q 0 := by
          simp only [hQ]
          rw [if_neg hkn]
          split <;> rfl
        rw [ho, h0, this]
    obtain ⟨out, he, hf⟩ := nStore_eq (res := res s2.v) (t := { u with s := s2, off := off' }) (s0 := s0) (f := G) (m := mm) hFi hmm
      (by simp only [mm]; omega)
      (by intro j hj; change u.o0 + j < _; rw [h0]; exact hlt 0 j hj)
      (by intro j hj; change u.o1 + j < _; rw [h1]; exact hlt 1 j hj)
      (by intro j hj; change u.o2 + j < _; rw [h2]; exact hlt 2 j hj)
      (by intro j hj; change u.o3 + j < _; rw [h3]; exact hlt 3 j hj)
      (by intro j hj; change _ = G (u.o0 + j); rw [h0]; exact hval 0 j (by omega) hj (by omega))
      (hv 1 u.o1 (by omega) h1) (hv 2 u.o2 (by omega) h2) (hv 3 u.o3 (by omega) h3)
    have hFnew : Fills s0 out (fun i => Wr i ∨ ∃ k j, k < 4 ∧ j < u.c + mm ∧ i = Q k * p.cout + j) G := by
      refine hf.congr ?_ (fun _ _ _ => rfl)
      intro i _
      simp only []
      rw [h0, h1, h2, h3]
      constructor
      · rintro (hw | ⟨k, j, hk, hj, hh⟩)
        · exact Or.inl (Or.inl hw)
        · by_cases hjc : j < u.c
          · exact Or.inl (Or.inr ⟨k, j, hk, hjc, hh⟩)
          · refine Or.inr ⟨j - u.c, by omega, ?_⟩
            have e : ∀ a : Nat, a + u.c + (j - u.c) = a + j := by omega
            rw [e, e, e, e]
            have : k = 0 ∨ k = 1 ∨ k = 2 ∨ k = 3 := by omega
            rcases this with rfl | rfl | rfl | rfl <;> simp [hh]
      · rintro ((hw | ⟨k, j, hk, hj, hh⟩) | ⟨j, hj, hh⟩)
        · exact Or.inl hw
        · exact Or.inr ⟨k, j, hk, by omega, hh⟩
        · rcases hh with hh | hh | hh | hh
          · exact Or.inr ⟨0, u.c + j, by omega, by omega, by omega⟩
          · exact Or.inr ⟨1, u.c + j, by omega, by omega, by omega⟩
          · exact Or.inr ⟨2, u.c + j, by omega, by omega, by omega⟩
          · exact Or.inr ⟨3, u.c + j, by omega, by omega, by omega⟩
    let ge' := if g then next else u.groupEnd
    refine ⟨⟨s2, u.o0 + mm, u.o1 + mm, u.o2 + mm, u.o3 + mm, off', ge', u.c + mm, out⟩, ?_, ?_, ?_⟩
    · unfold nChanStep
      simp only []
      rw [hDe, hCe]
      have e1' : nAccum A F m d2 g ⟨p.filtDepth / A.bd, u.off, 0⟩ K.filterSize u.s = some s1 := by
        rw [C.made.filterSize]; exact e1
      rw [e1']
      have e2' : nCheck (nExecs F m ⟨p.filtDepth / A.bd, off', u.c⟩ (ot g) { s1 with x := nOtRegs u.c s1.x }) = some s2 := by
        unfold nCheck
        rw [if_pos (by exact hok2)]
      simp only [Option.bind_eq_bind, Option.bind_some]
      change (nCheck (nExecs F m ⟨p.filtDepth / A.bd, off', u.c⟩ (ot g) { s1 with x := nOtRegs u.c s1.x })).bind _ = _
      rw [e2', Option.bind_some, he, Option.bind_some]
    · intro hcond
      simp only [C.made.outputChannels, decide_eq_true_eq] at hcond
      have hRegs : Regs off' (gi * NB + blk + 1) s2 := by
        refine ⟨?_, ?_, ?_, ?_, hok2⟩
        · intro k j hk hj
          rw [O.a k j hk hj, hnind _ k hx21']
          unfold abk
          rw [Nat.zero_div, Nat.zero_mod, Nat.mul_zero, Nat.add_zero]
        · intro q j hq hj
          have hle : 32 * A.bd ≤ (nOtRegs o'.cIdx s1.x 20).off := by
            rw [hx20']
            unfold NAddr.add
            simp only []
            omega
          rw [O.w q j hq hj hle]
          change m.byte (nOtRegs o'.cIdx s1.x 20).obj ((nOtRegs o'.cIdx s1.x 20).off - 32 * A.bd + 16 * q + j) = _
          rw [hx20']
          unfold NAddr.add wbk
          simp only [Nat.add_sub_cancel, Nat.mul_zero, Nat.add_zero]
        · rw [O.xw]; exact hx20'
        · rw [O.xi]; exact hx21'
      by_cases hend : u.c + mm = u.groupEnd
      · have hg1 : gi + 1 < p.groups := by
          by_contra hcon
          have : gi + 1 = p.groups := by omega
          have e : (gi + 1) * p.outPerGroup = p.cout := by rw [this, hopg]
          rw [Nat.succ_mul] at e
          omega
        have hgt : g = true := by rw [hgr]; simp; omega
        have hlast : last = true := by
          simp only [last, hgt, Bool.true_and, decide_eq_true_eq]
          omega
        have hblkl : blk + 1 = NB := by
          have : p.outPerGroup ≤ (blk + 1) * 8 := by omega
          have := ceilDiv_le (b := 8) (by omega) this
          omega
        refine ⟨⟨gi + 1, 0, hg1, hNB0, ?_, ?_, ?_, ?_, ?_, ?_, ?_, ?_, hFnew⟩, ?_⟩
        · change u.c + mm = _
          rw [hend, huge]; ring
        · change off' = _
          simp only [off', hlast, if_true, huoff]; ring
        · change ge' = _
          simp only [ge', hgt, next, hlast, if_true, huge]; ring
        · have e : gi * NB + blk + 1 = (gi + 1) * NB + 0 := by rw [← hblkl]; ring
          rw [e] at hRegs
          exact hRegs
        · change u.o0 + mm = _ + (u.c + mm); rw [h0]; omega
        · change u.o1 + mm = _ + (u.c + mm); rw [h1]; omega
        · change u.o2 + mm = _ + (u.c + mm); rw [h2]; omega
        · change u.o3 + mm = _ + (u.c + mm); rw [h3]; omega
        · change p.cout - (u.c + mm) < p.cout - u.c
          omega
      · have hm8 : mm = 8 := by omega
        have hlast : last = false := by
          simp only [last]
          rw [Bool.and_eq_false_iff]
          right
          rw [decide_eq_false_iff_not]
          omega
        have hb1 : blk + 1 < NB := by omega
        refine ⟨⟨gi, blk + 1, hgi, hb1, ?_, ?_, ?_, ?_, ?_, ?_, ?_, ?_, hFnew⟩, ?_⟩
        · change u.c + mm = _
          omega
        · change off' = _
          simp only [off', hlast]
          exact huoff
        · change ge' = _
          simp only [ge', next, hlast]
          cases g <;> exact huge
        · have e : gi * NB + blk + 1 = gi * NB + (blk + 1) := by ring
          rw [e] at hRegs
          exact hRegs
        · change u.o0 + mm = _ + (u.c + mm); rw [h0]; omega
        · change u.o1 + mm = _ + (u.c + mm); rw [h1]; omega
        · change u.o2 + mm = _ + (u.c + mm); rw [h2]; omega
        · change u.o3 + mm = _ + (u.c + mm); rw [h3]; omega
        · change p.cout - (u.c + mm) < p.cout - u.c
          omega
    · intro hcond
      have hcc : ¬ (u.c + mm < p.cout) := by
        rw [C.made.outputChannels] at hcond
        simpa using hcond
      have : u.c + mm = p.cout := by omega
      rw [this] at hFnew
      exact hFnew
  -- the whole tile
  unfold nTile
  simp only []
  have B := hA.pre F m ⟨0, 0, 0⟩
    { v := v, x := setX (setX x 20 ⟨2, 0⟩) 21 ⟨3, 8 * (4 * t * K.filterSize)⟩, w1 := 0, fs := 0, gt := false, ok := true }
  set s1 := nExecs F m ⟨0, 0, 0⟩ A.preload
    { v := v, x := setX (setX x 20 ⟨2, 0⟩) 21 ⟨3, 8 * (4 * t * K.filterSize)⟩, w1 := 0, fs := 0, gt := false, ok := true } with hs1
  have hx21 : setX (setX x 20 ⟨2, 0⟩) 21 ⟨3, 8 * (4 * t * K.filterSize)⟩ 21 = I := by
    rw [C.made.filterSize]; rfl
  have hx20 : setX (setX x 20 ⟨2, 0⟩) 21 ⟨3, 8 * (4 * t * K.filterSize)⟩ 20 = W 0 := by
    simp only [W, Nat.zero_mul, Nat.mul_zero]
    rfl
  have hgb0 : 0 < p.groups * NB := Nat.mul_pos C.dims.groups_pos hNB0
  have hok1 : s1.ok = true := by
    apply B.ok rfl
    · unfold nIndOk
      change (setX (setX x 20 ⟨2, 0⟩) 21 ⟨3, 8 * (4 * t * K.filterSize)⟩ 21).off + 32
        ≤ m.size (setX (setX x 20 ⟨2, 0⟩) 21 ⟨3, 8 * (4 * t * K.filterSize)⟩ 21).obj
      rw [hx21]; omega
    · intro k hk
      rw [hnind _ k hx21]
      have hbdD : A.bd ≤ p.filtDepth := by rw [← hDBe]; exact Nat.le_mul_of_pos_left _ hDB1
      have hDin : p.filtDepth ≤ p.inDepth := by rw [C.dims.depth]; exact Nat.le_mul_of_pos_left _ C.dims.groups_pos
      have := C.ptr_size (cmin := cmin) (cmax := cmax) ht hk (f := 0) (by omega) (e := A.bd) (by omega)
      exact this
    · change (setX (setX x 20 ⟨2, 0⟩) 21 ⟨3, 8 * (4 * t * K.filterSize)⟩ 20).off + 32 * A.bd
        ≤ m.size (setX (setX x 20 ⟨2, 0⟩) 21 ⟨3, 8 * (4 * t * K.filterSize)⟩ 20).obj
      rw [hx20]
      have := hWs 0 hgb0
      have h2 : 32 * A.bd ≤ 32 * A.bd * (FF * DB + 1) := Nat.le_mul_of_pos_right _ (by omega)
      omega
  have hchk : nCheck s1 = some s1 := by unfold nCheck; rw [if_pos hok1]
  rw [hchk]
  simp only [Option.bind_eq_bind, Option.bind_some]
  rw [C.made.pixels, hCe]
  have hinit : Inv ⟨s1, 4 * t * K.outputChannels,
      if n - 4 * t < 2 then 4 * t * K.outputChannels else 4 * t * K.outputChannels + K.outputChannels,
      if n - 4 * t < 3 then 4 * t * K.outputChannels else 4 * t * K.outputChannels + K.outputChannels + K.outputChannels,
      if n - 4 * t < 4 then 4 * t * K.outputChannels
        else 4 * t * K.outputChannels + K.outputChannels + K.outputChannels + K.outputChannels,
      0, p.outPerGroup, 0, s⟩ := by
    refine ⟨0, 0, C.dims.groups_pos, hNB0, by simp, by simp, by simp, ⟨?_, ?_, ?_, ?_, hok1⟩, ?_, ?_, ?_, ?_, ?_⟩
    · intro k j hk hj
      rw [B.a k j hk hj, hnind _ k hx21]
      unfold abk
      rw [Nat.zero_div, Nat.zero_mod, Nat.mul_zero, Nat.mul_zero, Nat.add_zero]
    · intro q j hq hj
      rw [B.w q j hq hj]
      change m.byte (setX (setX x 20 ⟨2, 0⟩) 21 ⟨3, 8 * (4 * t * K.filterSize)⟩ 20).obj
        ((setX (setX x 20 ⟨2, 0⟩) 21 ⟨3, 8 * (4 * t * K.filterSize)⟩ 20).off + 16 * q + j) = _
      rw [hx20]
      unfold wbk
      simp only [Nat.zero_mul, Nat.mul_zero, Nat.add_zero]
    · rw [B.xw]
      change (setX (setX x 20 ⟨2, 0⟩) 21 ⟨3, 8 * (4 * t * K.filterSize)⟩ 20).add _ = _
      rw [hx20, Nat.zero_mul, Nat.add_zero]
    · rw [B.xi]; exact hx21
    · change 4 * t * K.outputChannels = Q 0 * p.cout + 0
      rw [C.made.outputChannels]
      simp only [hQ]
      rw [if_pos (by omega)]
      rfl
    · change (if n - 4 * t < 2 then _ else _) = Q 1 * p.cout + 0
      rw [C.made.outputChannels]
      simp only [hQ]
      by_cases h : 4 * t + 1 < n
      · rw [if_neg (by omega), if_pos h]; ring
      · rw [if_pos (by omega), if_neg h]; rfl
    · change (if n - 4 * t < 3 then _ else _) = Q 2 * p.cout + 0
      rw [C.made.outputChannels]
      simp only [hQ]
      by_cases h : 4 * t + 2 < n
      · rw [if_neg (by omega), if_pos h]; ring
      · rw [if_pos (by omega), if_neg h]; rfl
    · change (if n - 4 * t < 4 then _ else _) = Q 3 * p.cout + 0
      rw [C.made.outputChannels]
      simp only [hQ]
      by_cases h : 4 * t + 3 < n
      · rw [if_neg (by omega), if_pos h]; ring
      · rw [if_pos (by omega), if_neg h]; rfl
    · exact hs.congr (by simp) (fun _ _ _ => rfl)
  obtain ⟨u', hu, hpost⟩ := doWhile_inv (cond := fun u : NChan α => decide (u.c < K.outputChannels))
    (body := nChanStep A ot res F m d2 g K) Inv Post (fun u => p.cout - u.c) hstep (K.outputChannels + 1) _ hinit
    (by rw [C.made.outputChannels]; simp only []; omega)
  refine ⟨u'.out, ?_, hpost⟩
  change (doWhile _ _ _ _).bind _ = _
  rw [hu]
  rfl

end Verif
