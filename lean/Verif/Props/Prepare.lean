import Verif.Proof.OpState
import Verif.Spec.BConvOp
import Verif.Spec.Conv
import Verif.Proof.BGemm
import Mathlib.Tactic.Ring

/-! C21: which nodes `Prepare` accepts, and what it establishes. -/

namespace Verif

theorem prepGroups_iff {kt : KernelType} {cin cout fd g : Nat} :
    prepGroups kt cin cout fd = .ok g ↔ GroupsOk kt cin cout fd g := by
  rw [prepGroups_eq_ok]
  unfold GroupsOk
  rw [packedSize_eq]
  constructor
  · rintro (⟨h1, h2⟩ | ⟨h1, h2, h3, h4, h5, h6, h7, rfl⟩)
    · exact Or.inl ⟨h2, h1⟩
    · right
      have hfd : 0 < fd := by omega
      have hn : (cin + 31) / 32 = (cin + 31) / 32 / fd * fd := by
        rw [Nat.div_mul_cancel (Nat.dvd_of_mod_eq_zero h4)]
      generalize hN : (cin + 31) / 32 = N at *
      generalize hG : N / fd = G at *
      have hG2 : 2 ≤ G := by
        rcases Nat.lt_or_ge G 2 with h | h
        · have : G = 1 := by omega
          rw [this] at hn; omega
        · exact h
      have hcin : cin = G * (32 * fd) := by
        have e1 : cin = G * (cin / G) + cin % G := (Nat.div_add_mod cin G).symm
        have e2 : cin % G < G := Nat.mod_lt _ (by omega)
        have e3 : 32 * (cin / G / 32) = cin / G := by omega
        generalize cin / G / 32 = q at *
        rw [← e3] at e1
        have e4 : cin ≤ 32 * N ∧ 32 * N < cin + 32 := by omega
        rw [hn] at e4
        -- G * 32 * q + (cin % G) = cin, with 32 * G * fd - 32 < cin ≤ 32 * G * fd
        have a1 : q ≤ fd := by
          by_contra hq
          have : G * (fd + 1) ≤ G * q := Nat.mul_le_mul_left _ (by omega)
          have e5 : G * (fd + 1) = G * fd + G := by ring
          have e6 : G * (32 * q) = 32 * (G * q) := by ring
          omega
        have a2 : fd ≤ q := by
          by_contra hq
          have : G * (q + 1) ≤ G * fd := Nat.mul_le_mul_left _ (by omega)
          have e5 : G * (q + 1) = G * q + G := by ring
          have e6 : G * (32 * q) = 32 * (G * q) := by ring
          omega
        have : q = fd := by omega
        subst this
        have e6 : G * (32 * q) = 32 * (G * q) := by ring
        omega
      exact ⟨hG2, h2, hfd, hcin, h7⟩
  · rintro (⟨h1, h2⟩ | ⟨h1, h2, h3, h4, h5⟩)
    · exact Or.inl ⟨h2, h1⟩
    · right
      have e1 : (cin + 31) / 32 = g * fd := by
        have : g * (32 * fd) = 32 * (g * fd) := by ring
        omega
      have e2 : g * fd / fd = g := Nat.mul_div_cancel _ h3
      have e3 : cin / g = 32 * fd := by rw [h4]; exact Nat.mul_div_cancel_left _ (by omega)
      refine ⟨?_, h2, by omega, ?_, ?_, ?_, ?_, ?_⟩
      · rw [e1]
        have : 2 * fd ≤ g * fd := Nat.mul_le_mul_right _ h1
        omega
      · rw [e1]; exact Nat.mul_mod_left _ _
      · rw [e1, e2]; omega
      · rw [e1, e2, e3]; omega
      · rw [e1, e2]; exact h5
      · rw [e1, e2]

theorem list_len4 {l : List Nat} (h : l.length = 4) :
    l = [l.getD 0 0, l.getD 1 0, l.getD 2 0, l.getD 3 0] := by
  match l, h with
  | [a, b, c, d], _ => rfl

theorem paramOk_iff {t : Option Tensor} {ty : TType} {cout : Nat} :
    (∃ m, t = some m ∧ m.type = ty ∧ m.dims.length = 1 ∧ m.dims.getD 0 0 = cout) ↔ ParamOk t ty cout := by
  unfold ParamOk
  constructor
  · rintro ⟨⟨mt, md⟩, h1, h2, h3, h4⟩
    simp only at h2 h3 h4
    match md, h3 with
    | [x], _ => rw [h1, h2, ← h4]; rfl
  · intro h; exact ⟨_, h, rfl, rfl, rfl⟩

/-- **C21.** `Prepare` succeeds exactly on the supported nodes. -/
theorem C21_prepare_accepts_iff (n : Node) (i : InputDesc) :
    (∃ r, prepare n i = .ok r) ↔ ∃ a g, n.attrs = some a ∧ Supported n i a g := by
  constructor
  · rintro ⟨r, hr⟩
    obtain ⟨a, g, ha, h1, h2, h3, h4, h5, h6, h7, h8, h9, h10, h11, h12, _⟩ := prepare_eq_ok.1 hr
    refine ⟨a, g, ha, ?_⟩
    constructor
    · exact h1
    · exact ⟨h4, h5⟩
    · refine ⟨_, _, _, _, _, _, _, _, list_len4 h2, list_len4 h3, prepGroups_iff.1 h7, h12.1, h12.2, ?_⟩
      rcases prepParams_eq_ok.1 h9 with ⟨e1, t, e2, e3, e4, e5⟩ | ⟨e1, m, b, e2, e3, e4, e5, e6, e7, e8, e9⟩
      · exact Or.inl ⟨e1, paramOk_iff.1 ⟨t, e2, e4, e3, e5⟩⟩
      · right
        have k1 := paramOk_iff.1 ⟨m, e2, e4, e6, e8⟩
        have k2 := paramOk_iff.1 ⟨b, e3, e5, e7, e9⟩
        rcases h6 with h | h | h
        · exact absurd h e1
        · exact Or.inl ⟨h, h10.resolve_left (fun hh => hh h), k1, k2⟩
        · exact Or.inr ⟨h, k1, k2⟩
    · intro s1 s2
      unfold prepZeroPad at h8
      rw [if_pos ⟨s1, s2⟩] at h8
      simp only [Bool.or_eq_true, Bool.and_eq_true, decide_eq_true_eq] at h8
      rcases h8 with ⟨k1, k2⟩ | ⟨⟨k1, k2⟩, k3⟩
      · exact Or.inl ⟨k1, Nat.dvd_of_mod_eq_zero k2⟩
      · exact Or.inr ⟨k1, k2, k3⟩
    · intro hi
      exact h11.resolve_left (fun hh => hh hi)
  · rintro ⟨a, g, ha, hs⟩
    obtain ⟨b, h, w, d, cout, fh, fw, fd, d1, d2, hg, z1, z2, hp⟩ := hs.shapes
    refine ⟨_, prepare_eq_ok.2 ⟨a, g, ha, hs.inputs, by rw [d1]; rfl, by rw [d2]; rfl, hs.types.1, hs.types.2,
      ?_, ?_, ?_, ?_, ?_, ?_, ?_, rfl⟩⟩
    · rcases hp with ⟨h, _⟩ | ⟨h, _⟩ | ⟨h, _⟩ <;> simp [h]
    · rw [d2]; exact prepGroups_iff.2 hg
    · unfold prepZeroPad
      split
      · rename_i hh
        simp only [Bool.or_eq_true, Bool.and_eq_true, decide_eq_true_eq]
        rcases hs.zeroPad hh.1 hh.2 with ⟨k1, k2⟩ | ⟨k1, k2, k3⟩
        · exact Or.inl ⟨k1, Nat.mod_eq_zero_of_dvd k2⟩
        · exact Or.inr ⟨⟨k1, k2⟩, k3⟩
      · rfl
    · rw [d2, prepParams_eq_ok]
      simp only [List.getD_cons_zero]
      rcases hp with ⟨h, k⟩ | ⟨h, _, k1, k2⟩ | ⟨h, k1, k2⟩
      · obtain ⟨t, e1, e2, e3, e4⟩ := paramOk_iff.2 k
        exact Or.inl ⟨h, t, e1, e3, e2, e4⟩
      · obtain ⟨t, e1, e2, e3, e4⟩ := paramOk_iff.2 k1
        obtain ⟨t', e1', e2', e3', e4'⟩ := paramOk_iff.2 k2
        exact Or.inr ⟨by rw [h]; decide, t, t', e1, e1', e2, e2', e3, e3', e4, e4'⟩
      · obtain ⟨t, e1, e2, e3, e4⟩ := paramOk_iff.2 k1
        obtain ⟨t', e1', e2', e3', e4'⟩ := paramOk_iff.2 k2
        exact Or.inr ⟨by rw [h]; decide, t, t', e1, e1', e2, e2', e3, e3', e4, e4'⟩
    · rcases hp with ⟨h, k⟩ | ⟨h, h', k1, k2⟩ | ⟨h, k1, k2⟩
      · left; rw [h]; decide
      · right; exact h'
      · left; rw [h]; decide
    · by_cases hk : n.kt = .indirect
      · exact Or.inr (hs.static hk)
      · exact Or.inl hk
    · rw [d1, d2]; exact ⟨z1, z2⟩

/-- **C21**, the result. On success the parameters are those of the attributes and shapes, the
output size and padding are TFLite's, the output has `ceil(cout / 32)` channels for bitpacked
output and `cout` otherwise, all divisions by the number of groups are exact. -/
theorem C21_prepare_result {n : Node} {i : InputDesc} {r : Prepared} {b h w d cout fh fw fd : Nat}
    {a : Attrs} (ha : n.attrs = some a) (hi : i.dims = [b, h, w, d])
    (hf : n.filter.dims = [cout, fh, fw, fd]) (hr : prepare n i = .ok r) :
    r.p.Geom ∧
    r.outDims = [b, r.p.outH, r.p.outW, if n.outType = .int32 then (cout + 31) / 32 else cout] ∧
    (r.p.batches = b ∧ r.p.inH = h ∧ r.p.inW = w ∧ r.p.inDepth = d) ∧
    (r.p.cout = cout ∧ r.p.filtH = fh ∧ r.p.filtW = fw ∧ r.p.filtDepth = fd) ∧
    (r.p.strideH = a.strideH ∧ r.p.strideW = a.strideW ∧ r.p.dilH = a.dilH ∧ r.p.dilW = a.dilW ∧
      r.p.padding = a.padding ∧ r.p.padValue = a.padValue ∧ r.p.cin = a.cin) ∧
    0 < r.p.groups ∧ r.p.groups * fd = (a.cin + 31) / 32 ∧ r.p.groups ∣ cout ∧ r.p.groups ∣ a.cin ∧
    (r.p.groups ≠ 1 → n.kt ≠ .bgemm ∧ a.cin / r.p.groups = 32 * fd) ∧
    (r.im2col = if n.kt = .bgemm ∧ ¬ (a.strideH = 1 ∧ a.strideW = 1 ∧ a.dilH = 1 ∧ a.dilW = 1 ∧ fh = 1 ∧ fw = 1)
      then some [b, r.p.outH, r.p.outW, (a.cin + 31) / 32 * fh * fw] else none) := by
  obtain ⟨a', g, ha', h1, h2, h3, h4, h5, h6, h7, h8, h9, h10, h11, h12, rfl⟩ := prepare_eq_ok.1 hr
  rw [ha] at ha'
  cases ha'
  rw [hf] at h7 h12
  rw [hi] at h12
  have hg := prepGroups_iff.1 h7
  simp only [List.getD_cons_zero, List.getD_cons_succ] at hg h12
  refine ⟨⟨?_, ?_, ?_, ?_⟩, ?_, ⟨?_, ?_, ?_, ?_⟩, ⟨?_, ?_, ?_, ?_⟩, ⟨rfl, rfl, rfl, rfl, rfl, rfl, rfl⟩, ?_, ?_, ?_, ?_, ?_, ?_⟩
  · simp only [prepConv, hi, hf, List.getD_cons_zero, List.getD_cons_succ]
    exact Int.toNat_of_nonneg h12.1
  · simp only [prepConv, hi, hf, List.getD_cons_zero, List.getD_cons_succ]
    exact Int.toNat_of_nonneg h12.2
  · simp only [prepConv, hi, hf, List.getD_cons_zero, List.getD_cons_succ]
    rw [Int.toNat_of_nonneg h12.1]
  · simp only [prepConv, hi, hf, List.getD_cons_zero, List.getD_cons_succ]
    rw [Int.toNat_of_nonneg h12.2]
  · simp only [hi, hf, List.getD_cons_zero, packedSize_eq]
  · simp [prepConv, hi]
  · simp [prepConv, hi]
  · simp [prepConv, hi]
  · simp [prepConv, hi]
  · simp [prepConv, hf]
  · simp [prepConv, hf]
  · simp [prepConv, hf]
  · simp [prepConv, hf]
  · change 0 < g
    rcases hg with ⟨e, _⟩ | ⟨e, _⟩ <;> omega
  · change g * fd = _
    rcases hg with ⟨e, e'⟩ | ⟨e, _, _, e', _⟩
    · rw [e, e']; omega
    · rw [e']
      have : g * (32 * fd) = 32 * (g * fd) := by ring
      omega
  · change g ∣ cout
    rcases hg with ⟨e, e'⟩ | ⟨e, _, _, e', e''⟩
    · rw [e]; exact Nat.one_dvd _
    · exact Nat.dvd_of_mod_eq_zero e''
  · change g ∣ a.cin
    rcases hg with ⟨e, e'⟩ | ⟨e, _, _, e', e''⟩
    · rw [e]; exact Nat.one_dvd _
    · rw [e']; exact Nat.dvd_mul_right _ _
  · intro hne
    have hne : g ≠ 1 := hne
    change n.kt ≠ .bgemm ∧ a.cin / g = 32 * fd
    rcases hg with ⟨e, e'⟩ | ⟨e, ek, _, e', e''⟩
    · exact absurd e hne
    · refine ⟨ek, ?_⟩
      rw [e']; exact Nat.mul_div_cancel_left _ (by omega)
  · simp only [hi, hf, List.getD_cons_zero, List.getD_cons_succ, packedSize_eq, prepIm2col]
    by_cases hk : n.kt = .bgemm
    · have : ((decide (n.kt = .bgemm) &&
          (a.strideW != 1 || a.strideH != 1 || a.dilW != 1 || a.dilH != 1 || fw != 1 || fh != 1)) = true) ↔
          (n.kt = .bgemm ∧ ¬ (a.strideH = 1 ∧ a.strideW = 1 ∧ a.dilH = 1 ∧ a.dilW = 1 ∧ fh = 1 ∧ fw = 1)) := by
        simp only [hk, Bool.and_eq_true, Bool.or_eq_true, bne_iff_ne, ne_eq, decide_true, true_and]
        omega
      simp only [this]
    · simp [hk]

/-- The packed tensors of an accepted node meet the assumptions `Ok` of the kernel theorems,
when the tensors have the sizes of their shapes, the unused bits are 0 (C02), and the last input
dimension is `ceil(channels_in / 32)`. `Prepare` does not check the latter
(`C21_input_depth_unchecked`). -/
theorem C21_accepted_ok {n : Node} {i : InputDesc} {r : Prepared} {b h w cout fh fw fd : Nat}
    {a : Attrs} {inp : List Word} (ha : n.attrs = some a)
    (hi : i.dims = [b, h, w, (a.cin + 31) / 32])
    (hf : n.filter.dims = [cout, fh, fw, fd]) (hr : prepare n i = .ok r)
    (h1 : inp.length = b * h * w * ((a.cin + 31) / 32)) (h2 : n.filtData.length = cout * fh * fw * fd)
    (h3 : ∀ q k c, q < b * h * w → k < (a.cin + 31) / 32 → c < 32 → a.cin ≤ 32 * k + c →
      (inp.getD (q * ((a.cin + 31) / 32) + k) 0#32).getLsbD c = false)
    (h4 : ∀ q k c, q < cout * fh * fw → k < fd → c < 32 → a.cin / r.p.groups ≤ 32 * k + c →
      (n.filtData.getD (q * fd + k) 0#32).getLsbD c = false) :
    r.p.Ok inp n.filtData := by
  obtain ⟨_, _, ⟨e1, e2, e3, e4⟩, ⟨e5, e6, e7, e8⟩, ⟨_, _, _, _, _, _, e9⟩, g1, g2, g3, g4, g5, _⟩ :=
    C21_prepare_result ha hi hf hr
  have hcg : r.p.cinG = a.cin / r.p.groups := by unfold BConv.cinG; rw [e9]
  refine ⟨g1, ?_, ?_, ?_, ?_, ?_, ?_, ?_, ?_, ?_⟩
  · rw [e5]; exact Nat.mod_eq_zero_of_dvd g3
  · rw [e4, e9]
  · rw [e8, hcg]
    by_cases hg1 : r.p.groups = 1
    · rw [hg1, Nat.one_mul] at g2; rw [hg1, Nat.div_one, g2]
    · rw [(g5 hg1).2]; omega
  · rw [e4, e8, g2]
  · by_cases hg1 : r.p.groups = 1
    · exact Or.inl hg1
    · right
      rw [hcg, e9]
      refine ⟨(Nat.mul_div_cancel' g4).symm, ?_⟩
      rw [(g5 hg1).2]; omega
  · rw [e1, e2, e3, e4]; exact h1
  · rw [e5, e6, e7, e8]; exact h2
  · rw [e1, e2, e3, e4, e9]; exact h3
  · rw [e5, e6, e7, e8, hcg]; exact h4

/-- A node with a 3 x 3 filter, 64 input channels in two groups, 4 output channels. -/
def sampleNode : Node :=
  { kt := .reference, attrs := some ⟨1, 1, 1, 1, .same, 1, 64, .relu⟩, nInputs := 5, inType := .int32,
    filter := ⟨.int32, [4, 3, 3, 1]⟩, filtData := List.replicate 36 0#32,
    mult := some ⟨.float32, [4]⟩, multData := [1, 2, 3, 4], bias := some ⟨.float32, [4]⟩,
    biasData := [0, 0, 0, 0], thr := none, thrData := [], outType := .float32, outAffine := false,
    scale := 1, zp := 0 }

/-- `Prepare` accepts it for a 5 x 5 input, with two groups and a `1 x 5 x 5 x 4` output. -/
example : ∃ r, prepare sampleNode ⟨[1, 5, 5, 2], false, 0⟩ = .ok r ∧ r.p.groups = 2 ∧
    r.outDims = [1, 5, 5, 4] := ⟨_, rfl, rfl, rfl⟩

/-- `Prepare` also accepts an input whose last dimension does not match `channels_in`: the
number of words per pixel is not checked. The reference kernel then reads out of bounds. -/
theorem C21_input_depth_unchecked :
    ∃ r, prepare sampleNode ⟨[1, 1, 1, 1], false, 0⟩ = .ok r ∧ r.p.inDepth ≠ (r.p.cin + 31) / 32 ∧
      refAccum r.p [0#32] sampleNode.filtData 0 0 0 3 = none := ⟨_, rfl, by decide, rfl⟩

end Verif
