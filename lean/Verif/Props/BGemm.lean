import Verif.Proof.Im2col

/-!
C14, C15, C16: the im2col + BGEMM kernel.

`Schedule rows cols kr kc blocks` says that `blocks` are aligned to the kernel layout and
cover the destination. The blocks of a schedule may run in any order and on any number of
threads: the writes of the blocks then reach memory in some order, which is a permutation
of the concatenated write lists. The theorems hold for every permutation.
-/

namespace Verif

theorem runTyped_schedule {α : Type} {fat : Bool} {rows cols kr : Nat} {G : Nat → α} {pos : Nat → Nat → Nat}
    (hkr : 0 < kr) {kernel : Blk → List (Write α) → Option (List (Write α))}
    (hk : ∀ (b : Blk) (tr : List (Write α)) (W : Nat → Prop), b.r0 % kr = 0 → b.r1 % kr = 0 → Emits tr W G →
      ∃ tr', kernel b tr = some tr' ∧ Emits tr' (fun x => W x ∨ ∃ i j, b.Cell rows cols i j ∧ x = pos i j) G)
    {blocks : List Blk} (hs : Schedule rows cols kr 1 blocks) :
    ∃ trs, scheduleTraces (runTyped fat kr 1 kernel) blocks = some trs ∧
      List.Forall₂ (fun b tr => Emits tr (fun x => ∃ i j, Blk.Cell b rows cols i j ∧ x = pos i j) G) blocks trs := by
  apply scheduleTraces_eq
  intro b hb
  obtain ⟨h1, _, h3, _, h5, _⟩ := hs.aligned b hb
  have hr1 : b.r1 % kr = 0 := by
    have e : b.r1 = b.r0 + (b.r1 - b.r0) := by omega
    rw [e, Nat.add_mod, h1, h5]; simp
  obtain ⟨tr, e1, e2⟩ := runTyped_emits (fat := fat) hkr (kc := 1) (by omega) hk h1 hr1
    (Emits.nil (W := fun _ => False) (fun _ h => h) : Emits [] _ G)
  exact ⟨tr, e1, e2.congr (fun x => by simp)⟩

/-- Any order of the writes of a schedule that covers the whole output gives the output
determined by `G`. -/
theorem applyWrites_perm {α : Type} {rows cols kr kc : Nat} {G : Nat → α} {pos : Nat → Nat → Nat}
    {blocks : List Blk} (hs : Schedule rows cols kr kc blocks) {trs : List (List (Write α))}
    (h : List.Forall₂ (fun b tr => Emits tr (fun x => ∃ i j, Blk.Cell b rows cols i j ∧ x = pos i j) G)
      blocks trs) {out0 : List α}
    (hpos : ∀ i j, i < rows → j < cols → pos i j < out0.length)
    (hsurj : ∀ x, x < out0.length → ∃ i j, i < rows ∧ j < cols ∧ x = pos i j)
    {L : List (Write α)} (hL : L.Perm trs.flatten) :
    applyWrites L out0 = some ((List.range out0.length).map G) := by
  have he := flatten_emits h
  obtain ⟨s', h1, h2⟩ := applyWrites_fills L out0 (fun _ => False) (Fills.init out0 G (fun _ _ h => h))
    (fun w hw => by
      obtain ⟨⟨b, hb, i, j, ⟨_, c2, _, c4⟩, hx⟩, hv⟩ := (he w).1 (hL.mem_iff.1 hw)
      exact ⟨by rw [hx]; exact hpos i j (by omega) (by omega), hv⟩)
  rw [h1]
  congr 1
  apply h2.all
  intro x hx
  right
  obtain ⟨i, j, hi, hj, rfl⟩ := hsurj x hx
  obtain ⟨b, hb, c1, c2, c3, c4⟩ := hs.cover i j hi hj
  refine ⟨(pos i j, G (pos i j)), hL.mem_iff.2 ((he _).2 ⟨⟨b, hb, i, j, ⟨c1, ?_, c3, ?_⟩, rfl⟩, rfl⟩), rfl⟩
  · omega
  · omega

section
variable {p : BConv} {inp filt : List Word}

/-- The traces of the float / int8 kernel. -/
theorem bgemmTraces_eq {α : Type} (hok : p.Ok inp filt) (hg : p.groups = 1) (hgeo : p.Geom)
    {run : Nat → Nat → Option α} {f : Nat → Nat → α}
    (hrun : ∀ a c, a ≤ p.K → c < p.cout → run a c = some (f a c))
    (fat : Bool) {blocks : List Blk} (hs : Schedule p.cout (p.batches * p.outH * p.outW) 1 1 blocks) :
    ∃ trs, bgemmTraces p fat blocks inp filt run = some trs ∧
      List.Forall₂ (fun b tr => Emits tr
        (fun x => ∃ i j, Blk.Cell b p.cout (p.batches * p.outH * p.outW) i j ∧ x = i + j * p.cout)
        (fun x => f (p.accPix inp filt (x / p.cout) (x % p.cout)) (x % p.cout))) blocks trs := by
  obtain ⟨rhs, hr, hrd⟩ := im2colRhs_eq hok hg hgeo
  unfold bgemmTraces
  rw [hr]
  simp only [Option.bind_eq_bind, Option.bind_some]
  refine runTyped_schedule (by omega) ?_ hs
  intro b tr W _ _ h
  refine gemmTrace_emits (A := fun i j => p.accPix inp filt j i)
    (fun i j hi hj => gemmAcc_accPix hok hg hrd hi hj) ?_ b h
  intro i j hi hj
  have e : i + j * p.cout = j * p.cout + i := by omega
  simp only [e, (div_mod_row hi).1, (div_mod_row hi).2]
  exact hrun _ _ (accPix_le hok hj hi) hi

/-- The traces of the bitpacked kernel. -/
theorem bgemmTracesBits_eq (hok : p.Ok inp filt) (hg : p.groups = 1) (hgeo : p.Geom)
    {run : Nat → Nat → Option Bool} {f : Nat → Nat → Bool}
    (hrun : ∀ a c, a ≤ p.K → c < p.cout → run a c = some (f a c))
    (fat : Bool) {blocks : List Blk} (hs : Schedule p.cout (p.batches * p.outH * p.outW) 32 1 blocks) :
    ∃ trs, bgemmTracesBits p fat blocks inp filt run = some trs ∧
      List.Forall₂ (fun b tr => Emits tr
        (fun x => ∃ i j, Blk.Cell b p.cout (p.batches * p.outH * p.outW) i j ∧ x = i / 32 + j * packedSize p.cout)
        (fun k => wordOf fun i => if 32 * (k % packedSize p.cout) + i < p.cout then
          f (p.accPix inp filt (k / packedSize p.cout) (32 * (k % packedSize p.cout) + i))
            (32 * (k % packedSize p.cout) + i) else false)) blocks trs := by
  obtain ⟨rhs, hr, hrd⟩ := im2colRhs_eq hok hg hgeo
  unfold bgemmTracesBits
  rw [hr]
  simp only [Option.bind_eq_bind, Option.bind_some]
  refine runTyped_schedule (by omega) ?_ hs
  intro b tr W h0 h1 h
  refine gemmTraceBits_emits (A := fun i j => p.accPix inp filt j i)
    (B := fun i j => f (p.accPix inp filt j i) i)
    (fun i j hi hj => gemmAcc_accPix hok hg hrd hi hj)
    (fun i j hi hj => hrun _ _ (accPix_le hok hj hi) hi) ?_ h0 h1 h
  intro k j hk hj
  have hk' : k < packedSize p.cout := by rw [packedSize_eq]; omega
  have e : k + j * packedSize p.cout = j * packedSize p.cout + k := by omega
  simp only [e, (div_mod_row hk').1, (div_mod_row hk').2]

/-- **C14.** For every schedule of the BGEMM (any block decomposition, any thread
interleaving `L` of the blocks' writes) and every output transform that is defined on the
possible accumulators, the kernel leaves the reference kernel's output. -/
theorem C14_bgemm_eq_reference {α : Type} (hok : p.Ok inp filt) (hg : p.groups = 1) (hgeo : p.Geom)
    (hpad : p.padding = .valid ∨ p.padValue = 1) (hco : 0 < p.cout) {run : Nat → Nat → Option α}
    (hrun : ∀ a c, a ≤ p.filtH * p.filtW * (p.cin / p.groups) → c < p.cout → (run a c).isSome)
    (fat : Bool) {blocks : List Blk} (hs : Schedule p.cout (p.batches * p.outH * p.outW) 1 1 blocks)
    {out0 out1 : List α} (h0 : out0.length = p.batches * p.outH * p.outW * p.cout)
    (h1 : out1.length = p.batches * p.outH * p.outW * p.cout) :
    ∃ trs out, bgemmTraces p fat blocks inp filt run = some trs ∧
      bconvReference p inp filt run out1 = some out ∧
      ∀ L, L.Perm trs.flatten → applyWrites L out0 = some out := by
  have hz := zeroPadding_false hpad
  rcases isEmpty_or_nonempty α with he | ⟨⟨dflt⟩⟩
  · obtain ⟨v, _⟩ := Option.isSome_iff_exists.1 (hrun 0 0 (by omega) hco)
    exact (he.false v).elim
  have hrun' : ∀ a c, a ≤ p.K → c < p.cout → run a c = some ((run a c).getD dflt) := by
    intro a c ha hc
    obtain ⟨v, hv⟩ := Option.isSome_iff_exists.1 (hrun a c ha hc)
    rw [hv]; rfl
  obtain ⟨trs, e1, e2⟩ := bgemmTraces_eq hok hg hgeo hrun' fat hs
  refine ⟨trs, _, e1, bconvReference_list hok hz hrun' h1, ?_⟩
  intro L hL
  rw [applyWrites_perm hs e2 _ _ hL, h0, h1]
  · intro i j hi hj
    have := row_lt hj hi
    rw [h0]; omega
  · intro x hx
    rw [h0] at hx
    obtain ⟨a1, a2⟩ := mod_lt_of_lt_mul hx
    exact ⟨x % p.cout, x / p.cout, a2, a1, by rw [Nat.add_comm, div_mul_add_mod]⟩

/-- **C14**, float output: setup plus evaluation. -/
theorem C14_float {act : Act} {mult bias out0 out1 : List Rat}
    (hok : p.Ok inp filt) (hg : p.groups = 1) (hgeo : p.Geom)
    (hpad : p.padding = .valid ∨ p.padValue = 1) (hco : 0 < p.cout)
    (hm : mult.length = p.cout) (hb : bias.length = p.cout)
    (hK : 2 * (p.filtH * p.filtW * p.cin) < 2147483648)
    (fat : Bool) {blocks : List Blk} (hs : Schedule p.cout (p.batches * p.outH * p.outW) 1 1 blocks)
    (h0 : out0.length = p.batches * p.outH * p.outW * p.cout)
    (h1 : out1.length = p.batches * p.outH * p.outW * p.cout) :
    ∃ out, evalBGemmFloat p fat blocks act mult bias inp filt out0 = some out ∧
      evalRefFloat p act mult bias inp filt out1 = some out := by
  obtain ⟨t, ht, hrun⟩ := runFloat_eq (p := p) (act := act) hm hb (by rw [BConv.K, BConv.cinG, hg, Nat.div_one]; exact hK)
  obtain ⟨trs, out, e1, e2, e3⟩ := C14_bgemm_eq_reference hok hg hgeo hpad hco (run := t.runFloat)
    (fun a c ha hc => by rw [hrun a c ha hc]; rfl) fat hs h0 h1
  refine ⟨out, ?_, ?_⟩
  · unfold evalBGemmFloat bconvBGemm zpSetup zpFinish; rw [ht, zeroPadding_false hpad]
    simp only [Bool.false_eq_true, if_false, Option.bind_eq_bind, Option.bind_some, e1,
      e3 _ (List.Perm.refl _)]
  · unfold evalRefFloat; rw [ht]; exact e2

/-- **C14**, int8 output, when no rounded value leaves the int32 range (C10). -/
theorem C14_int8 (rnd : Rat → Int) {act : Act} {mult bias : List Rat} {scale zp : Rat}
    {out0 out1 : List Int} {t : OTParams}
    (hok : p.Ok inp filt) (hg : p.groups = 1) (hgeo : p.Geom)
    (hpad : p.padding = .valid ∨ p.padValue = 1) (hco : 0 < p.cout)
    (ht : otSetup p act mult bias scale zp = some t)
    (hfit : ∀ a c, a ≤ p.filtH * p.filtW * (p.cin / p.groups) → c < p.cout → (t.runInt8 rnd a c).isSome)
    (fat : Bool) {blocks : List Blk} (hs : Schedule p.cout (p.batches * p.outH * p.outW) 1 1 blocks)
    (h0 : out0.length = p.batches * p.outH * p.outW * p.cout)
    (h1 : out1.length = p.batches * p.outH * p.outW * p.cout) :
    ∃ out, evalBGemmInt8 rnd p fat blocks act mult bias scale zp inp filt out0 = some out ∧
      evalRefInt8 rnd p act mult bias scale zp inp filt out1 = some out := by
  obtain ⟨trs, out, e1, e2, e3⟩ := C14_bgemm_eq_reference hok hg hgeo hpad hco (run := t.runInt8 rnd)
    hfit fat hs h0 h1
  refine ⟨out, ?_, ?_⟩
  · unfold evalBGemmInt8 bconvBGemm; rw [ht]
    simp only [Option.bind_eq_bind, Option.bind_some, e1]
    exact e3 _ (List.Perm.refl _)
  · unfold evalRefInt8; rw [ht]; exact e2

theorem bgemmClear_eq {out0 : List Word}
    (h0 : out0.length = p.batches * p.outH * p.outW * packedSize p.cout) :
    ∃ out, bgemmClear p out0 = some out ∧ out.length = out0.length := by
  unfold bgemmClear
  by_cases hc : p.cout % 32 ≠ 0
  · rw [if_pos hc]
    obtain ⟨s', e1, e2⟩ := forN_inv (n := p.batches * p.outH * p.outW * packedSize p.cout)
      (s := out0) (body := fun i out => wr out i 0#32) (fun _ s => s.length = out0.length) rfl
      (by
        intro i s hi hs
        refine ⟨s.set i 0#32, ?_, by simp [hs]⟩
        simp [wr, hs, h0, hi])
    exact ⟨s', e1, e2⟩
  · rw [if_neg hc]; exact ⟨out0, rfl, rfl⟩

/-- **C15.** The same for bitpacked output: for every schedule aligned to 32 rows and every
interleaving, the kernel leaves the reference kernel's bitpacked output, whatever the
output buffer held before. -/
theorem C15_bgemm_bitpacked (hok : p.Ok inp filt) (hg : p.groups = 1) (hgeo : p.Geom)
    (hpad : p.padding = .valid ∨ p.padValue = 1) {run : Nat → Nat → Option Bool}
    (hrun : ∀ a c, a ≤ p.filtH * p.filtW * (p.cin / p.groups) → c < p.cout → (run a c).isSome)
    (fat : Bool) {blocks : List Blk} (hs : Schedule p.cout (p.batches * p.outH * p.outW) 32 1 blocks)
    {out0 out1 : List Word} (h0 : out0.length = p.batches * p.outH * p.outW * ((p.cout + 31) / 32))
    (h1 : out1.length = p.batches * p.outH * p.outW * ((p.cout + 31) / 32)) :
    ∃ trs out out', bgemmTracesBits p fat blocks inp filt run = some trs ∧
      bconvReferenceBits p inp filt run out1 = some out ∧
      bgemmClear p out0 = some out' ∧
      ∀ L, L.Perm trs.flatten → applyWrites L out' = some out := by
  have hz := zeroPadding_false hpad
  rw [← packedSize_eq] at h0 h1
  have hrun' : ∀ a c, a ≤ p.K → c < p.cout → run a c = some ((run a c).getD false) := by
    intro a c ha hc
    obtain ⟨v, hv⟩ := Option.isSome_iff_exists.1 (hrun a c ha hc)
    rw [hv]; rfl
  obtain ⟨trs, e1, e2⟩ := bgemmTracesBits_eq hok hg hgeo hrun' fat hs
  obtain ⟨out', c1, c2⟩ := bgemmClear_eq h0
  refine ⟨trs, _, out', e1, bconvReferenceBits_list hok hz hrun' h1, c1, ?_⟩
  intro L hL
  rw [applyWrites_perm hs e2 _ _ hL, c2, h0, h1]
  · intro i j hi hj
    have hw : i / 32 < packedSize p.cout := by rw [packedSize_eq]; omega
    have := row_lt hj hw
    rw [c2, h0]; omega
  · intro x hx
    rw [c2, h0] at hx
    obtain ⟨a1, a2⟩ := mod_lt_of_lt_mul hx
    refine ⟨32 * (x % packedSize p.cout), x / packedSize p.cout, ?_, a1, ?_⟩
    · have := packedSize_eq p.cout; omega
    · have e : 32 * (x % packedSize p.cout) / 32 = x % packedSize p.cout := by omega
      rw [e, Nat.add_comm, div_mul_add_mod]

/-- **C15** with the real threshold transform. -/
theorem C15_thresholds {thr : List Int} (hok : p.Ok inp filt) (hg : p.groups = 1) (hgeo : p.Geom)
    (hpad : p.padding = .valid ∨ p.padValue = 1) (ht : thr.length = p.cout)
    (hK : p.filtH * p.filtW * p.cin < 2147483648)
    (fat : Bool) {blocks : List Blk} (hs : Schedule p.cout (p.batches * p.outH * p.outW) 32 1 blocks)
    {out0 out1 : List Word} (h0 : out0.length = p.batches * p.outH * p.outW * ((p.cout + 31) / 32))
    (h1 : out1.length = p.batches * p.outH * p.outW * ((p.cout + 31) / 32)) :
    ∃ out, evalBGemmBits p fat blocks thr inp filt out0 = some out ∧
      evalRefBits p thr inp filt out1 = some out := by
  obtain ⟨trs, out, out', e1, e2, e3, e4⟩ := C15_bgemm_bitpacked hok hg hgeo hpad (run := runThreshold thr)
    (by
      intro a c ha hc
      rw [hg, Nat.div_one] at ha
      have hcl : c < thr.length := by omega
      have c1 : chk32 (a : Int) = some (a : Int) := chk32_eq (by omega) (by omega)
      unfold runThreshold
      simp only [c1, rd, Option.bind_eq_bind, Option.bind_some, List.getElem?_eq_getElem hcl, Option.isSome_some])
    fat hs h0 h1
  refine ⟨out, ?_, e2⟩
  unfold evalBGemmBits bconvBGemmBits
  simp only [e1, e3, Option.bind_eq_bind, Option.bind_some]
  exact e4 _ (List.Perm.refl _)

/-- **C16.** The result does not depend on the schedule: two block decompositions, two
kernel modes and two interleavings give the same output. -/
theorem C16_schedule_independent {α : Type} (hok : p.Ok inp filt) (hg : p.groups = 1) (hgeo : p.Geom)
    (hco : 0 < p.cout) {run : Nat → Nat → Option α}
    (hrun : ∀ a c, a ≤ p.filtH * p.filtW * (p.cin / p.groups) → c < p.cout → (run a c).isSome)
    (fat fat' : Bool) {blocks blocks' : List Blk}
    (hs : Schedule p.cout (p.batches * p.outH * p.outW) 1 1 blocks)
    (hs' : Schedule p.cout (p.batches * p.outH * p.outW) 1 1 blocks')
    {out0 : List α} (h0 : out0.length = p.batches * p.outH * p.outW * p.cout) :
    ∃ trs trs' out, bgemmTraces p fat blocks inp filt run = some trs ∧
      bgemmTraces p fat' blocks' inp filt run = some trs' ∧
      (∀ L, L.Perm trs.flatten → applyWrites L out0 = some out) ∧
      (∀ L, L.Perm trs'.flatten → applyWrites L out0 = some out) := by
  rcases isEmpty_or_nonempty α with he | ⟨⟨dflt⟩⟩
  · obtain ⟨v, _⟩ := Option.isSome_iff_exists.1 (hrun 0 0 (by omega) hco)
    exact (he.false v).elim
  have hrun' : ∀ a c, a ≤ p.K → c < p.cout → run a c = some ((run a c).getD dflt) := by
    intro a c ha hc
    obtain ⟨v, hv⟩ := Option.isSome_iff_exists.1 (hrun a c ha hc)
    rw [hv]; rfl
  obtain ⟨trs, e1, e2⟩ := bgemmTraces_eq hok hg hgeo hrun' fat hs
  obtain ⟨trs', e1', e2'⟩ := bgemmTraces_eq hok hg hgeo hrun' fat' hs'
  have hpos : ∀ i j, i < p.cout → j < p.batches * p.outH * p.outW → i + j * p.cout < out0.length := by
    intro i j hi hj
    have := row_lt hj hi
    rw [h0]; omega
  have hsurj : ∀ x, x < out0.length → ∃ i j, i < p.cout ∧ j < p.batches * p.outH * p.outW ∧ x = i + j * p.cout := by
    intro x hx
    rw [h0] at hx
    obtain ⟨a1, a2⟩ := mod_lt_of_lt_mul hx
    exact ⟨x % p.cout, x / p.cout, a2, a1, by rw [Nat.add_comm, div_mul_add_mod]⟩
  exact ⟨trs, trs', _, e1, e1', fun L hL => applyWrites_perm hs e2 hpos hsurj hL,
    fun L hL => applyWrites_perm hs' e2' hpos hsurj hL⟩

/-- **C16** for bitpacked output. -/
theorem C16_schedule_independent_bitpacked (hok : p.Ok inp filt) (hg : p.groups = 1) (hgeo : p.Geom)
    {run : Nat → Nat → Option Bool}
    (hrun : ∀ a c, a ≤ p.filtH * p.filtW * (p.cin / p.groups) → c < p.cout → (run a c).isSome)
    (fat fat' : Bool) {blocks blocks' : List Blk}
    (hs : Schedule p.cout (p.batches * p.outH * p.outW) 32 1 blocks)
    (hs' : Schedule p.cout (p.batches * p.outH * p.outW) 32 1 blocks')
    {out0 : List Word} (h0 : out0.length = p.batches * p.outH * p.outW * ((p.cout + 31) / 32)) :
    ∃ trs trs' out, bgemmTracesBits p fat blocks inp filt run = some trs ∧
      bgemmTracesBits p fat' blocks' inp filt run = some trs' ∧
      (∀ L, L.Perm trs.flatten → applyWrites L out0 = some out) ∧
      (∀ L, L.Perm trs'.flatten → applyWrites L out0 = some out) := by
  rw [← packedSize_eq] at h0
  have hrun' : ∀ a c, a ≤ p.K → c < p.cout → run a c = some ((run a c).getD false) := by
    intro a c ha hc
    obtain ⟨v, hv⟩ := Option.isSome_iff_exists.1 (hrun a c ha hc)
    rw [hv]; rfl
  obtain ⟨trs, e1, e2⟩ := bgemmTracesBits_eq hok hg hgeo hrun' fat hs
  obtain ⟨trs', e1', e2'⟩ := bgemmTracesBits_eq hok hg hgeo hrun' fat' hs'
  have hpos : ∀ i j, i < p.cout → j < p.batches * p.outH * p.outW →
      i / 32 + j * packedSize p.cout < out0.length := by
    intro i j hi hj
    have hw : i / 32 < packedSize p.cout := by rw [packedSize_eq]; omega
    have := row_lt hj hw
    rw [h0]; omega
  have hsurj : ∀ x, x < out0.length → ∃ i j, i < p.cout ∧ j < p.batches * p.outH * p.outW ∧
      x = i / 32 + j * packedSize p.cout := by
    intro x hx
    rw [h0] at hx
    obtain ⟨a1, a2⟩ := mod_lt_of_lt_mul hx
    refine ⟨32 * (x % packedSize p.cout), x / packedSize p.cout, ?_, a1, ?_⟩
    · have := packedSize_eq p.cout; omega
    · have e : 32 * (x % packedSize p.cout) / 32 = x % packedSize p.cout := by omega
      rw [e, Nat.add_comm, div_mul_add_mod]
  exact ⟨trs, trs', _, e1, e1', fun L hL => applyWrites_perm hs e2 hpos hsurj hL,
    fun L hL => applyWrites_perm hs' e2' hpos hsurj hL⟩

/-- Blocks share no cell of the destination. -/
def Blk.Disjoint (a b : Blk) : Prop :=
  ∀ i j, ¬ (a.r0 ≤ i ∧ i < a.r1 ∧ a.c0 ≤ j ∧ j < a.c1 ∧ b.r0 ≤ i ∧ i < b.r1 ∧ b.c0 ≤ j ∧ j < b.c1)

/-- Write lists that touch no common position. -/
def NoRace {α : Type} (t u : List (Write α)) : Prop := ∀ w ∈ t, ∀ w' ∈ u, w.1 ≠ w'.1

theorem forall₂_mem {β γ : Type} {R : β → γ → Prop} {l : List β} {m : List γ} (h : List.Forall₂ R l m)
    {c : γ} (hc : c ∈ m) : ∃ b ∈ l, R b c := by
  induction h with
  | nil => simp at hc
  | cons h1 _ ih =>
    rcases List.mem_cons.1 hc with rfl | h
    · exact ⟨_, by simp, h1⟩
    · obtain ⟨b', hb', hr⟩ := ih h
      exact ⟨b', by simp [hb'], hr⟩

theorem forall₂_pairwise {β γ : Type} {R : β → γ → Prop} {P : β → β → Prop} {Q : γ → γ → Prop}
    (hPQ : ∀ b b' c c', R b c → R b' c' → P b b' → Q c c') :
    ∀ {l : List β} {m : List γ}, List.Forall₂ R l m → l.Pairwise P → m.Pairwise Q
  | _, _, .nil, _ => List.Pairwise.nil
  | _, _, .cons (a := b) (b := c) hbc hl, hp => by
    rw [List.pairwise_cons] at hp ⊢
    refine ⟨?_, forall₂_pairwise hPQ hl hp.2⟩
    intro c' hc'
    obtain ⟨b', hb', hr⟩ := forall₂_mem hl hc'
    exact hPQ _ _ _ _ hbc hr (hp.1 b' hb')

/-- **C16**, no data race, float / int8 output: blocks that share no cell write disjoint
positions. -/
theorem C16_no_race {α : Type} (hok : p.Ok inp filt) (hg : p.groups = 1) (hgeo : p.Geom)
    (hco : 0 < p.cout) {run : Nat → Nat → Option α}
    (hrun : ∀ a c, a ≤ p.filtH * p.filtW * (p.cin / p.groups) → c < p.cout → (run a c).isSome)
    (fat : Bool) {blocks : List Blk}
    (hs : Schedule p.cout (p.batches * p.outH * p.outW) 1 1 blocks) (hd : blocks.Pairwise Blk.Disjoint) :
    ∃ trs, bgemmTraces p fat blocks inp filt run = some trs ∧ trs.Pairwise NoRace := by
  rcases isEmpty_or_nonempty α with he | ⟨⟨dflt⟩⟩
  · obtain ⟨v, _⟩ := Option.isSome_iff_exists.1 (hrun 0 0 (by omega) hco)
    exact (he.false v).elim
  have hrun' : ∀ a c, a ≤ p.K → c < p.cout → run a c = some ((run a c).getD dflt) := by
    intro a c ha hc
    obtain ⟨v, hv⟩ := Option.isSome_iff_exists.1 (hrun a c ha hc)
    rw [hv]; rfl
  obtain ⟨trs, e1, e2⟩ := bgemmTraces_eq hok hg hgeo hrun' fat hs
  refine ⟨trs, e1, forall₂_pairwise ?_ e2 hd⟩
  intro b b' t t' ht ht' hdis w hw w' hw' heq
  obtain ⟨⟨i, j, ⟨a1, a2, a3, a4⟩, hx⟩, _⟩ := (ht w).1 hw
  obtain ⟨⟨i', j', ⟨b1, b2, b3, b4⟩, hx'⟩, _⟩ := (ht' w').1 hw'
  have hi : i < p.cout := by omega
  have hi' : i' < p.cout := by omega
  have e : j * p.cout + i = j' * p.cout + i' := by omega
  have ej : j = j' := by
    have := congrArg (· / p.cout) e
    simpa only [(div_mod_row hi).1, (div_mod_row hi').1] using this
  have ei : i = i' := by
    have := congrArg (· % p.cout) e
    simpa only [(div_mod_row hi).2, (div_mod_row hi').2] using this
  subst ej ei
  exact hdis i j (by omega)

/-- **C16**, no data race, bitpacked output: although a word holds 32 channels, blocks
that share no cell write disjoint words, because blocks are aligned to 32 rows. -/
theorem C16_no_race_bitpacked (hok : p.Ok inp filt) (hg : p.groups = 1) (hgeo : p.Geom)
    {run : Nat → Nat → Option Bool}
    (hrun : ∀ a c, a ≤ p.filtH * p.filtW * (p.cin / p.groups) → c < p.cout → (run a c).isSome)
    (fat : Bool) {blocks : List Blk}
    (hs : Schedule p.cout (p.batches * p.outH * p.outW) 32 1 blocks) (hd : blocks.Pairwise Blk.Disjoint) :
    ∃ trs, bgemmTracesBits p fat blocks inp filt run = some trs ∧ trs.Pairwise NoRace := by
  have hrun' : ∀ a c, a ≤ p.K → c < p.cout → run a c = some ((run a c).getD false) := by
    intro a c ha hc
    obtain ⟨v, hv⟩ := Option.isSome_iff_exists.1 (hrun a c ha hc)
    rw [hv]; rfl
  obtain ⟨trs, e1, e2⟩ := bgemmTracesBits_eq hok hg hgeo hrun' fat hs
  have hd' : blocks.Pairwise (fun a b => (a ∈ blocks ∧ b ∈ blocks) ∧ Blk.Disjoint a b) := by
    rw [List.pairwise_iff_forall_sublist] at hd ⊢
    intro a b hab
    exact ⟨⟨hab.subset (by simp), hab.subset (by simp)⟩, hd hab⟩
  refine ⟨trs, e1, forall₂_pairwise ?_ e2 hd'⟩
  intro b b' t t' ht ht' hdis w hw w' hw' heq
  obtain ⟨⟨hb, hb'⟩, hdis⟩ := hdis
  obtain ⟨⟨i, j, ⟨a1, a2, a3, a4⟩, hx⟩, _⟩ := (ht w).1 hw
  obtain ⟨⟨i', j', ⟨b1, b2, b3, b4⟩, hx'⟩, _⟩ := (ht' w').1 hw'
  have hps := packedSize_eq p.cout
  have hi : i / 32 < packedSize p.cout := by omega
  have hi' : i' / 32 < packedSize p.cout := by omega
  have e : j * packedSize p.cout + i / 32 = j' * packedSize p.cout + i' / 32 := by omega
  have ej : j = j' := by
    have := congrArg (· / packedSize p.cout) e
    simpa only [(div_mod_row hi).1, (div_mod_row hi').1] using this
  have ei : i / 32 = i' / 32 := by
    have := congrArg (· % packedSize p.cout) e
    simpa only [(div_mod_row hi).2, (div_mod_row hi').2] using this
  subst ej
  have A := hs.aligned b hb
  have B := hs.aligned b' hb'
  exact hdis i j (by omega)

end

/-- Non-vacuity: a 3x3 convolution with stride 2, SAME padding with ones, 40 output
channels, and a schedule of two 32-row blocks per pair of columns. -/
example :
    let p : BConv := ⟨1, 4, 4, 2, 40, 3, 3, 2, 40, 1, 2, 2, 1, 1, .same, 0, 0, 1, 2, 2⟩
    p.Geom ∧ p.groups = 1 ∧ p.Ok (List.replicate 32 0#32) (List.replicate 720 0#32) ∧
      Schedule p.cout (p.batches * p.outH * p.outW) 32 1
        [⟨0, 32, 0, 2⟩, ⟨32, 64, 0, 2⟩, ⟨0, 32, 2, 4⟩, ⟨32, 64, 2, 4⟩] ∧
      [(⟨0, 32, 0, 2⟩ : Blk), ⟨32, 64, 0, 2⟩, ⟨0, 32, 2, 4⟩, ⟨32, 64, 2, 4⟩].Pairwise Blk.Disjoint := by
  refine ⟨⟨by decide, by decide, by decide, by decide⟩, rfl, ?_, ?_, ?_⟩
  · refine ⟨by decide, by decide, by decide, by decide, by decide, by decide, by rw [List.length_replicate]; rfl, by rw [List.length_replicate]; rfl, ?_, ?_⟩
    · intro r k b _ _ _ _
      simp only [List.getD_eq_getElem?_getD, List.getElem?_replicate]
      split <;> simp
    · intro r k b _ _ _ _
      simp only [List.getD_eq_getElem?_getD, List.getElem?_replicate]
      split <;> simp
  · refine ⟨by decide, ?_⟩
    intro i j hi hj
    simp only [] at hi hj
    by_cases h1 : i < 32 <;> by_cases h2 : j < 2
    · exact ⟨⟨0, 32, 0, 2⟩, by decide, by simp only []; omega⟩
    · exact ⟨⟨0, 32, 2, 4⟩, by decide, by simp only []; omega⟩
    · exact ⟨⟨32, 64, 0, 2⟩, by decide, by simp only []; omega⟩
    · exact ⟨⟨32, 64, 2, 4⟩, by decide, by simp only []; omega⟩
  · simp only [List.pairwise_cons, List.mem_cons, List.not_mem_nil, or_false, forall_eq_or_imp, forall_eq,
      Blk.Disjoint]
    refine ⟨⟨?_, ?_, ?_⟩, ⟨?_, ?_⟩, ?_, ?_⟩ <;> first | (intro i j; omega) | simp

end Verif
