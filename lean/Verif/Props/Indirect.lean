import Verif.Model.IndirectEval
import Verif.Proof.Canonical

/-!
C12 and C13: the portable indirect BGEMM kernel (weights packing, indirection buffer,
4x2 kernel) writes the same output tensor as the reference kernel.

`run` is an arbitrary output transform (a function of accumulator and channel), so the
statements hold bit for bit for the real floating-point transform as well.
`... = some out` includes that every access is in bounds and every loop ends.
-/

namespace Verif

/-- **C12.** For every output transform `run` that is defined on the possible accumulators
(`0..K`), the indirect kernel and the reference kernel leave the same output tensor,
whatever the buffers held before. -/
theorem C12_indirect_eq_reference {α : Type} {p : BConv} {inp filt : List Word} (hok : p.Ok inp filt)
    (hpad : p.padding = .valid ∨ p.padValue = 1) (hfh : 0 < p.filtH) (hfw : 0 < p.filtW)
    (hci : 0 < p.cin) (hco : 0 < p.cout) {run : Nat → Nat → Option α}
    (hrun : ∀ a c, a ≤ p.filtH * p.filtW * (p.cin / p.groups) → c < p.cout → (run a c).isSome)
    {out0 out1 : List α} (h0 : out0.length = p.batches * p.outH * p.outW * p.cout)
    (h1 : out1.length = p.batches * p.outH * p.outW * p.cout) :
    ∃ out, bconvIndirect p inp filt run out0 = some out ∧ bconvReference p inp filt run out1 = some out := by
  have hz := zeroPadding_false hpad
  rcases isEmpty_or_nonempty α with he | ⟨⟨dflt⟩⟩
  · have : ∀ (l : List α), l = [] := fun l => by cases l with
      | nil => rfl
      | cons a _ => exact (he.false a).elim
    have hK := hrun 0 0 (by omega) hco
    obtain ⟨v, _⟩ := Option.isSome_iff_exists.1 hK
    exact (he.false v).elim
  have hrun' : ∀ a c, a ≤ p.K → c < p.cout → run a c = some ((run a c).getD dflt) := by
    intro a c ha hc
    obtain ⟨v, hv⟩ := Option.isSome_iff_exists.1 (hrun a c ha hc)
    rw [hv]; rfl
  refine ⟨_, bconvIndirect_eq hok.dims (Nat.mul_pos hfh hfw) (hok.filtDepth_pos hci) hco
    (f := fun a c => (run a c).getD dflt)
    (fun oi c hoi hc => hrun' _ _ (accPix_le hok hoi hc) hc) h0, ?_⟩
  rw [bconvReference_list hok hz hrun' h1, h0, h1]

/-- **C12**, float output: setup plus evaluation. -/
theorem C12_float {p : BConv} {inp filt : List Word} {act : Act} {mult bias out0 out1 : List Rat}
    (hok : p.Ok inp filt) (hpad : p.padding = .valid ∨ p.padValue = 1) (hfh : 0 < p.filtH)
    (hfw : 0 < p.filtW) (hci : 0 < p.cin) (hco : 0 < p.cout)
    (hm : mult.length = p.cout) (hb : bias.length = p.cout)
    (hK : 2 * (p.filtH * p.filtW * (p.cin / p.groups)) < 2147483648)
    (h0 : out0.length = p.batches * p.outH * p.outW * p.cout)
    (h1 : out1.length = p.batches * p.outH * p.outW * p.cout) :
    ∃ out, evalIndFloat p act mult bias inp filt out0 = some out ∧
      evalRefFloat p act mult bias inp filt out1 = some out := by
  obtain ⟨t, ht, hrun⟩ := runFloat_eq (p := p) (act := act) hm hb hK
  obtain ⟨out, e1, e2⟩ := C12_indirect_eq_reference hok hpad hfh hfw hci hco (run := t.runFloat)
    (fun a c ha hc => by rw [hrun a c ha hc]; rfl) h0 h1
  refine ⟨out, ?_, ?_⟩
  · unfold evalIndFloat zpSetup zpFinish; rw [ht, zeroPadding_false hpad]
    simp only [Bool.false_eq_true, if_false, Option.bind_eq_bind, Option.bind_some, e1]
  · unfold evalRefFloat; rw [ht]; exact e2

/-- **C12**, int8 output, when no rounded value leaves the int32 range (C10). -/
theorem C12_int8 (rnd : Rat → Int) {p : BConv} {inp filt : List Word} {act : Act} {mult bias : List Rat}
    {scale zp : Rat} {out0 out1 : List Int} {t : OTParams}
    (hok : p.Ok inp filt) (hpad : p.padding = .valid ∨ p.padValue = 1) (hfh : 0 < p.filtH)
    (hfw : 0 < p.filtW) (hci : 0 < p.cin) (hco : 0 < p.cout)
    (ht : otSetup p act mult bias scale zp = some t)
    (hfit : ∀ a c, a ≤ p.filtH * p.filtW * (p.cin / p.groups) → c < p.cout → (t.runInt8 rnd a c).isSome)
    (h0 : out0.length = p.batches * p.outH * p.outW * p.cout)
    (h1 : out1.length = p.batches * p.outH * p.outW * p.cout) :
    ∃ out, evalIndInt8 rnd p act mult bias scale zp inp filt out0 = some out ∧
      evalRefInt8 rnd p act mult bias scale zp inp filt out1 = some out := by
  obtain ⟨out, e1, e2⟩ := C12_indirect_eq_reference hok hpad hfh hfw hci hco (run := t.runInt8 rnd)
    hfit h0 h1
  refine ⟨out, ?_, ?_⟩
  · unfold evalIndInt8; rw [ht]; exact e1
  · unfold evalRefInt8; rw [ht]; exact e2

/-- **C13** (partial: the transform must also be defined on the up to three channel
numbers beyond the last group that the kernel evaluates before masking them out; what is
missing is the case of a threshold buffer of exactly `channels_out` elements with
`channels_out/groups` not a multiple of 4, where the code reads out of bounds, see
`C13_threshold_overread_witness`). Whatever value those reads give, the output equals the
reference kernel's. -/
theorem C13_indirect_bitpacked_partial {p : BConv} {inp filt : List Word} (hok : p.Ok inp filt)
    (hpad : p.padding = .valid ∨ p.padValue = 1) (hfh : 0 < p.filtH) (hfw : 0 < p.filtW)
    (hci : 0 < p.cin) (hco : 0 < p.cout) {run run' : Nat → Nat → Option Bool}
    (hrun : ∀ a c, a ≤ 32 * (p.filtH * p.filtW * p.filtDepth) →
      c < p.cout - p.cout / p.groups + ceilMul (p.cout / p.groups) 4 → (run a c).isSome)
    (hsame : ∀ a c, a ≤ 32 * (p.filtH * p.filtW * p.filtDepth) → c < p.cout → run' a c = run a c)
    {out0 out1 : List Word} (h0 : out0.length = p.batches * p.outH * p.outW * ((p.cout + 31) / 32))
    (h1 : out1.length = p.batches * p.outH * p.outW * ((p.cout + 31) / 32)) :
    ∃ out, bconvIndirectBits p inp filt run out0 = some out ∧
      bconvReferenceBits p inp filt run' out1 = some out := by
  have hz := zeroPadding_false hpad
  have hps : packedSize p.cout = (p.cout + 31) / 32 := packedSize_eq _
  have hrun' : ∀ a c, a ≤ 32 * (p.filtH * p.filtW * p.filtDepth) →
      c < p.cout - p.cout / p.groups + ceilMul (p.cout / p.groups) 4 →
      run a c = some ((run a c).getD false) := by
    intro a c ha hc
    obtain ⟨v, hv⟩ := Option.isSome_iff_exists.1 (hrun a c ha hc)
    rw [hv]; rfl
  have hle : p.cout ≤ p.cout - p.cout / p.groups + ceilMul (p.cout / p.groups) 4 := by
    have := ceilDiv_mul_ge (p.cout / p.groups) 4 (by omega)
    have e : ceilMul (p.cout / p.groups) 4 = ceilDiv (p.cout / p.groups) 4 * 4 := rfl
    omega
  have hK : p.K ≤ 32 * (p.filtH * p.filtW * p.filtDepth) := by
    unfold BConv.K
    have h1 : p.cinG ≤ 32 * p.filtDepth := by have := hok.filtDepth; omega
    calc p.filtH * p.filtW * p.cinG ≤ p.filtH * p.filtW * (32 * p.filtDepth) := Nat.mul_le_mul_left _ h1
      _ = 32 * (p.filtH * p.filtW * p.filtDepth) := by ring
  refine ⟨_, bconvIndirectBits_eq hok.dims (Nat.mul_pos hfh hfw) (hok.filtDepth_pos hci) hco
    (f := fun a c => (run a c).getD false) hrun' (by rw [h0, hps]), ?_⟩
  rw [bconvReferenceBits_list (f := fun a c => (run a c).getD false) hok hz
    (fun a c ha hc => by rw [hsame a c (ha.trans hK) hc]; exact hrun' a c (ha.trans hK) (by omega))
    (by rw [h1, hps]), h0, h1]

/-- **C13** with the real threshold transform and a threshold tensor of exactly
`channels_out` elements, when the channels per group are a multiple of 4. -/
theorem C13_thresholds_partial {p : BConv} {inp filt : List Word} {thr : List Int} (hok : p.Ok inp filt)
    (hpad : p.padding = .valid ∨ p.padValue = 1) (hfh : 0 < p.filtH) (hfw : 0 < p.filtW)
    (hci : 0 < p.cin) (hco : 0 < p.cout) (ht : thr.length = p.cout)
    (h4 : p.cout / p.groups % 4 = 0)
    (hK : 2 * (32 * (p.filtH * p.filtW * p.filtDepth)) < 2147483648)
    {out0 out1 : List Word} (h0 : out0.length = p.batches * p.outH * p.outW * ((p.cout + 31) / 32))
    (h1 : out1.length = p.batches * p.outH * p.outW * ((p.cout + 31) / 32)) :
    ∃ out, evalIndBits p thr inp filt out0 = some out ∧ evalRefBits p thr inp filt out1 = some out := by
  refine C13_indirect_bitpacked_partial hok hpad hfh hfw hci hco (run := runThreshold thr)
    (run' := runThreshold thr) ?_ (fun _ _ _ _ => rfl) h0 h1
  intro a c ha hc
  have e : ceilMul (p.cout / p.groups) 4 = p.cout / p.groups := by
    unfold ceilMul; rw [ceilDiv_of_dvd (by omega) h4]; omega
  have hle : p.cout / p.groups ≤ p.cout := Nat.div_le_self _ _
  have hcl : c < thr.length := by omega
  have c1 : chk32 (a : Int) = some (a : Int) := chk32_eq (by omega) (by omega)
  unfold runThreshold
  simp only [c1, rd, Option.bind_eq_bind, Option.bind_some, List.getElem?_eq_getElem hcl, Option.isSome_some]

/-- The code reads the threshold tensor out of bounds when `channels_out / groups` is not a
multiple of 4: with one output channel and a threshold buffer of one element, evaluation is
undefined behaviour, while the reference kernel is fine. -/
theorem C13_threshold_overread_witness :
    let p : BConv := ⟨1, 1, 1, 1, 32, 1, 1, 1, 1, 1, 1, 1, 1, 1, .valid, 0, 0, 1, 1, 1⟩
    evalIndBits p [3] [7#32] [0#32] [0#32] = none ∧
      evalRefBits p [3] [7#32] [0#32] [0#32] = some [0#32] ∧
      evalIndBits p [3, 0, 0, 0] [7#32] [0#32] [0#32] = some [0#32] := by
  decide +kernel

/-! ### Exactly when the threshold reads stay in bounds -/

theorem doWhile_post {σ : Type _} {cond : σ → Bool} {body : σ → Option σ} (I Q : σ → Prop)
    (hstep : ∀ s s', I s → body s = some s' → (cond s' = true → I s') ∧ (cond s' = false → Q s')) :
    ∀ (fuel : Nat) (s s' : σ), I s → doWhile cond body fuel s = some s' → Q s'
  | 0, s, s', _, h => by cases h
  | n + 1, s, s', hi, h => by
    unfold doWhile at h
    rw [Option.bind_eq_some_iff] at h
    obtain ⟨s1, hb, h⟩ := h
    cases hc : cond s1 with
    | false =>
      rw [hc] at h
      cases h
      exact (hstep s s' hi hb).2 hc
    | true =>
      rw [hc, if_pos rfl] at h
      exact doWhile_post I Q hstep n s1 s' ((hstep s s1 hi hb).1 hc) h

/-- A block needs the transform of its four channels. -/
theorem iColumn_some {run : Nat → Nat → Option Bool} {A : Acc4} {c : Nat} {col w : Word} (h : iColumn run A c col = some w) :
    (run A.a3 (c + 3)).isSome := by
  unfold iColumn at h
  simp only [Option.bind_eq_bind, Option.bind_eq_some_iff] at h
  obtain ⟨_, _, _, _, _, _, b3, h3, _⟩ := h
  rw [h3]; rfl

/-- When a pixel is evaluated and the transform is not defined from channel `outputChannels` on, the channels of a group are a
multiple of 4. -/
theorem iBitTile_some {K : IKernel} {inp : List Word} {run : Nat → Nat → Option Bool} {pe p : Nat} {out out' : List (BitVec 16)}
    (hrun : ∀ a c, K.outputChannels ≤ c → run a c = none) (hg : 0 < K.groups) (hd : K.outputChannels % K.groups = 0)
    (hco : 0 < K.outputChannels) (h : iBitTile K inp run pe p out = some out') : K.outputChannels / K.groups % 4 = 0 := by
  unfold iBitTile at h
  simp only [Option.bind_eq_bind, Option.bind_eq_some_iff] at h
  obtain ⟨s, hs, _⟩ := h
  have hmul : K.groups * (K.outputChannels / K.groups) = K.outputChannels := Nat.mul_div_cancel' (Nat.dvd_of_mod_eq_zero hd)
  have hopg : 0 < K.outputChannels / K.groups := by
    rcases Nat.eq_zero_or_pos (K.outputChannels / K.groups) with h0 | h0
    · rw [h0] at hmul; omega
    · exact h0
  generalize hq : K.outputChannels / K.groups = opg at *
  refine doWhile_post (fun s : BitSt => ∃ g j, g < K.groups ∧ 4 * j < opg ∧ s.c = g * opg + 4 * j ∧ s.groupEnd = g * opg + opg)
    (fun _ => opg % 4 = 0) ?_ _ _ _ ⟨0, 0, hg, by omega, by simp, by simp⟩ hs
  rintro s s' ⟨g, j, g1, j1, c1, e1⟩ hb
  unfold iBitStep at hb
  simp only [Option.bind_eq_bind, Option.bind_eq_some_iff] at hb
  obtain ⟨A, _, w0, hw0, w1, _, hb⟩ := hb
  have hc3 : s.c + 3 < K.outputChannels := by
    by_contra hc
    have := iColumn_some hw0
    rw [hrun _ _ (by omega)] at this
    cases this
  have hlast : (g + 1) * opg ≤ K.outputChannels := by
    rw [← hmul]; exact Nat.mul_le_mul_right _ g1
  rw [Nat.add_mul, Nat.one_mul] at hlast
  have hs' : s'.c = (iAdvance K { s with w := A.w } w0 w1).c ∧ s'.groupEnd = (iAdvance K { s with w := A.w } w0 w1).groupEnd := by
    split at hb
    · simp only [Option.bind_eq_some_iff] at hb
      obtain ⟨_, _, _, _, hb⟩ := hb
      cases hb
      exact ⟨rfl, rfl⟩
    · cases hb
      exact ⟨rfl, rfl⟩
  unfold iAdvance at hs'
  rw [hq] at hs'
  by_cases hlt : s.groupEnd > s.c + 4
  · simp only [if_pos hlt] at hs'
    refine ⟨fun _ => ⟨g, j + 1, g1, by omega, by omega, by omega⟩, fun hc => ?_⟩
    have : ¬ s'.c < K.outputChannels := by simpa using hc
    omega
  · simp only [if_neg hlt] at hs'
    have hge : (g + 1) * opg = g * opg + opg := by rw [Nat.add_mul, Nat.one_mul]
    refine ⟨fun hc => ?_, fun hc => ?_⟩
    · have hc : s'.c < K.outputChannels := by simpa using hc
      refine ⟨g + 1, 0, ?_, by omega, by omega, by omega⟩
      by_contra hn
      have : g + 1 = K.groups := by omega
      rw [this, hmul] at hge
      omega
    · have : ¬ s'.c < K.outputChannels := by simpa using hc
      omega

/-- **C13**, exactly: with a threshold tensor of exactly `channels_out` elements the indirect kernel is free of undefined behaviour
(and then writes what the reference kernel writes) when `channels_out / groups` is a multiple of 4, and reads out of bounds
whenever it is not, for every input, filter and threshold. -/
theorem C13_exact {p : BConv} {inp filt : List Word} {thr : List Int} (hok : p.Ok inp filt)
    (hpad : p.padding = .valid ∨ p.padValue = 1) (hfh : 0 < p.filtH) (hfw : 0 < p.filtW)
    (hci : 0 < p.cin) (hco : 0 < p.cout) (hpix : 0 < p.batches * p.outH * p.outW) (ht : thr.length = p.cout)
    (hK : 2 * (32 * (p.filtH * p.filtW * p.filtDepth)) < 2147483648)
    {out0 out1 : List Word} (h0 : out0.length = p.batches * p.outH * p.outW * ((p.cout + 31) / 32))
    (h1 : out1.length = p.batches * p.outH * p.outW * ((p.cout + 31) / 32)) :
    (p.cout / p.groups % 4 = 0 →
      ∃ out, evalIndBits p thr inp filt out0 = some out ∧ evalRefBits p thr inp filt out1 = some out) ∧
    (p.cout / p.groups % 4 ≠ 0 → evalIndBits p thr inp filt out0 = none) := by
  refine ⟨fun h4 => C13_thresholds_partial hok hpad hfh hfw hci hco ht h4 hK h0 h1, fun h4 => ?_⟩
  by_contra hne
  obtain ⟨out, hout⟩ := Option.ne_none_iff_exists'.1 hne
  apply h4
  unfold evalIndBits bconvIndirectBits at hout
  simp only [Option.bind_eq_bind, Option.bind_eq_some_iff] at hout
  obtain ⟨K, hKm, hout⟩ := hout
  unfold mkKernel at hKm
  simp only [Option.bind_eq_bind, Option.bind_eq_some_iff] at hKm
  obtain ⟨pw, _, ind, _, hKm⟩ := hKm
  cases hKm
  unfold iDispatchBits at hout
  simp only [Option.bind_eq_bind, Option.bind_eq_some_iff, Option.map_eq_some_iff] at hout
  obtain ⟨o1, _, o2, hrun, _⟩ := hout
  unfold iBitRun forN at hrun
  obtain ⟨n, hn⟩ : ∃ n, ceilDiv (p.batches * p.outH * p.outW) 2 = n + 1 := by
    have : 0 < ceilDiv (p.batches * p.outH * p.outW) 2 := by unfold ceilDiv; omega
    exact ⟨_, (Nat.succ_pred_eq_of_pos this).symm⟩
  simp only [hn, forFrom, Option.bind_eq_some_iff] at hrun
  obtain ⟨o3, htile, _⟩ := hrun
  refine iBitTile_some ?_ hok.groups_pos hok.cout_div hco htile
  intro a c hc
  have hc : p.cout ≤ c := hc
  unfold runThreshold
  have : rd thr c = none := by
    unfold rd
    rw [List.getElem?_eq_none (by omega)]
  simp only [this]
  cases chk32 (a : Int) <;> rfl

/-- Non-vacuity of C12 and C13: 2 groups of 3 output channels (not aligned to 4), 64 input
channels, strides and dilations, SAME padding with ones. -/
example :
    let p : BConv := ⟨1, 4, 5, 2, 64, 2, 3, 1, 6, 2, 2, 1, 1, 2, .same, 0, 1, 1, 2, 5⟩
    p.Ok (List.replicate 40 0xDEADBEEF#32) (List.replicate 36 0x12345678#32) ∧
      (p.padding = .valid ∨ p.padValue = 1) := by
  refine ⟨⟨by decide, by decide, by decide, by decide, by decide, by decide, by decide, by decide, ?_, ?_⟩,
    by decide⟩
  · intro r k b hr hk hb hc; simp at hk hc; omega
  · intro r k b hr hk hb hc; simp [BConv.cinG] at hk hc; omega

end Verif
