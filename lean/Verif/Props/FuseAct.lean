import Verif.Model.FuseAct
import Verif.Props.OpResult

/-! C30: fusing an activation into BConv2D. -/

namespace Verif

theorem Act.real_cast (ac : Act) (z : Int) : ac.real (z : Rat) = ((ac.apply z : Int) : Rat) := by
  cases ac <;> simp [Act.real, Act.apply]

theorem isConstantValue_getD {l : List Rat} {x : Rat} (h : isConstantValue l x = true) {i : Nat} (hi : i < l.length) :
    l.getD i 0 = x := by
  unfold isConstantValue at h
  rw [List.all_eq_true] at h
  have := h l[i] (List.getElem_mem hi)
  simp only [beq_iff_eq] at this
  simp [hi, this]

section
variable {n n' : Node} {a : Attrs} {e : InputDesc} {inp : List Word} {b h w cout fh fw fd g : Nat} {ac : Act}

theorem fuseAct_eq (ha : n.attrs = some a) (hn : fuseAct ac n = some n') :
    n' = { n with attrs := some { a with act := ac } } ∧ a.act = .none ∧ isConstantValue n.multData 1 = true ∧
      isConstantValue n.biasData 0 = true ∧ (a.padding = .valid ∨ (a.padding = .same ∧ a.padValue = 1)) := by
  unfold fuseAct at hn
  rw [ha] at hn
  simp only at hn
  split at hn
  · rename_i hc
    simp only [Option.some.injEq] at hn
    exact ⟨hn.symm, hc⟩
  · simp at hn

/-- The fused node is accepted exactly when the original node is, with the same preparation. -/
theorem fuseAct_prepare (ha : n.attrs = some a) (hn : fuseAct ac n = some n') (i : InputDesc) (r : Prepared) :
    prepare n' i = .ok r ↔ prepare n i = .ok r := by
  obtain ⟨rfl, h1, h2, h3, h4⟩ := fuseAct_eq ha hn
  have hz : ¬ (a.padding = .same ∧ a.padValue = 0) := by
    rcases h4 with h | ⟨_, h⟩
    · rw [h]; simp
    · rw [h]; simp
  rw [prepare_eq_ok, prepare_eq_ok]
  constructor
  · rintro ⟨a', g, ha', k1, k2, k3, k4, k5, k6, k7, k8, k9, k10, k11, k12, k13⟩
    cases ha'
    refine ⟨a, g, ha, k1, k2, k3, k4, k5, k6, k7, ?_, ?_, k10, k11, k12, ?_⟩
    · unfold prepZeroPad; rw [if_neg hz]
    · rw [← k9]; rfl
    · rw [k13]; rfl
  · rintro ⟨a', g, ha', k1, k2, k3, k4, k5, k6, k7, k8, k9, k10, k11, k12, k13⟩
    rw [ha] at ha'; cases ha'
    refine ⟨_, g, rfl, k1, k2, k3, k4, k5, k6, k7, ?_, ?_, k10, k11, k12, ?_⟩
    · unfold prepZeroPad; rw [if_neg hz]
    · rw [← k9]; rfl
    · rw [k13]; rfl

theorem fresh_exists {r : Prepared} (hr : prepare n e = .ok r) : ∃ f, freshMachine n e = some f :=
  ⟨_, resize_eq_some.2 ⟨r, hr, rfl⟩⟩

/-- Every kernel, when no zero padding is involved. -/
theorem fresh_float_any (ha : n.attrs = some a) (hty : n.outType = .float32)
    (hz : ¬ (a.padding = .same ∧ a.padValue = 0))
    (ht : TensorsOk n a e inp b h w cout fh fw fd g)
    (hml : n.multData.length = cout) (hbl : n.biasData.length = cout)
    {r : Prepared} {f : Machine} (hr : prepare n e = .ok r) (hf : freshMachine n e = some f)
    (c : RunCfg) (hs : n.kt = .bgemm → Schedule cout (b * r.p.outH * r.p.outW) 1 1 c.blocks)
    {out0 : List Rat} (hout : out0.length = b * r.p.outH * r.p.outW * cout) :
    ∃ out, output n c f inp (.f out0) = some (.f out) ∧ out.length = out0.length ∧
      FloatResult n a r.p inp out := by
  have hfit : a.padding = .same → a.padValue = 0 → (fh - 1) * a.dilH + 1 ≤ h ∧ (fw - 1) * a.dilW + 1 ≤ w :=
    fun h1 h2 => absurd ⟨h1, h2⟩ hz
  cases hk : n.kt with
  | reference => exact fresh_reference_float ha hk hty ht hml hbl hr hf c hout
  | bgemm => exact fresh_bgemm_float ha hk hty ht hml hbl hfit hr hf c (hs hk) hout
  | indirect => exact fresh_indirect_float ha hk hty ht hml hbl hfit hr hf c hout

/-- **C30.** When the converter fuses the activation `ac` into a BConv2D node with float output, the fused node is
accepted by the runtime whenever the original is (for each of the three kernels), and its output is the activation
applied to every element of the original output, for every input, weights and (for the BGEMM kernel) schedule. -/
theorem C30_fuse_activation (ha : n.attrs = some a) (hn : fuseAct ac n = some n') (hty : n.outType = .float32)
    (ht : TensorsOk n a e inp b h w cout fh fw fd g)
    (hml : n.multData.length = cout) (hbl : n.biasData.length = cout)
    {r : Prepared} (hr : prepare n e = .ok r)
    (c : RunCfg) (hs : n.kt = .bgemm → Schedule cout (b * r.p.outH * r.p.outW) 1 1 c.blocks)
    {out0 : List Rat} (hout : out0.length = b * r.p.outH * r.p.outW * cout) :
    prepare n' e = .ok r ∧ ∃ f f' out, freshMachine n e = some f ∧ freshMachine n' e = some f' ∧
      output n c f inp (.f out0) = some (.f out) ∧ output n' c f' inp (.f out0) = some (.f (out.map ac.real)) := by
  have hr' := (fuseAct_prepare ha hn e r).2 hr
  refine ⟨hr', ?_⟩
  obtain ⟨rfl, h1, h2, h3, h4⟩ := fuseAct_eq ha hn
  have hz : ¬ (a.padding = .same ∧ a.padValue = 0) := by
    rcases h4 with h | ⟨_, h⟩
    · rw [h]; simp
    · rw [h]; simp
  obtain ⟨f, hf⟩ := fresh_exists hr
  obtain ⟨f', hf'⟩ := fresh_exists hr'
  obtain ⟨out, e1, e2, e3⟩ := fresh_float_any ha hty hz ht hml hbl hr hf c hs hout
  obtain ⟨out', e1', e2', e3'⟩ := fresh_float_any (n := { n with attrs := some { a with act := ac } })
    (a := { a with act := ac }) rfl hty hz { ht with } hml hbl hr' hf' c hs hout
  refine ⟨f, f', out, hf, hf', e1, ?_⟩
  rw [e1']
  congr 2
  obtain ⟨_, _, ⟨g1, g2, g3, g4⟩, ⟨g5, _⟩, _⟩ := C21_prepare_result ha ht.dims ht.fdims hr
  apply List.ext_getElem?
  intro i
  by_cases hi : i < r.p.batches * r.p.outH * r.p.outW * r.p.cout
  · obtain ⟨d1, d2, d3, d4⟩ := decode_lt hi
    have enc := offset4_encode r.p.outH r.p.outW r.p.cout i
    unfold offset4 at enc
    have k := e3 _ _ _ _ d1 d2 d3 d4
    have k' := e3' _ _ _ _ d1 d2 d3 d4
    rw [enc] at k k'
    rw [k', List.getElem?_map, k]
    have hm1 := isConstantValue_getD h2 (i := dC r.p.cout i) (by rw [hml, ← g5]; exact d4)
    have hb1 := isConstantValue_getD h3 (i := dC r.p.cout i) (by rw [hbl, ← g5]; exact d4)
    simp only [hm1, hb1, h1, mul_one, add_zero, Option.map_some, Act.apply, Act.real_cast]
    rfl
  · have hl : out.length ≤ i := by rw [e2, hout, ← g1, ← g5]; omega
    have hl' : out'.length ≤ i := by rw [e2', hout, ← g1, ← g5]; omega
    rw [List.getElem?_eq_none hl', List.getElem?_eq_none (by simpa using hl)]

end

/-- Non-vacuity: the node of C20 matches when its multiplier is 1 and its bias 0. -/
example : (fuseAct .relu6 { indirectNode with multData := [1, 1, 1, 1], biasData := [0, 0, 0, 0] }).isSome = true := by
  decide +kernel

/-- The multiplier and bias must be neutral: otherwise the activation does not commute with them. -/
theorem C30_neutral_needed : ∃ m z : Rat, ((Act.relu.real z) * m ≠ Act.relu.real (z * m)) :=
  ⟨-1, 1, by decide +kernel⟩

end Verif
