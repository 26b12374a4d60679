import Verif.Proof.DetectionStep

/-!
C70: making the detection operator read int8 tensors
(`/repo/larq_compute_engine/mlir/transforms/detection_postprocess.cc`).
-/

namespace Verif.Det

/-- **C70.** After any number of steps of the pass the function computes the same values, for every detector, every meaning
of the other operators and all arguments, when the scores that are absorbed are int8. -/
theorem C70_values {g g' : DGraph} (h : DSteps g g') (hg : g.Ssa) (hi : g.Int8Scores) (M : Meaning) (ins vs : List DVal)
    (hv : g.eval M ins = some vs) : g'.eval M ins = some vs := by
  have key : g'.Ssa ∧ g'.Int8Scores ∧ g'.eval M ins = some vs := by
    induction h with
    | refl => exact ⟨hg, hi, hv⟩
    | step _ s ih =>
      obtain ⟨i1, i2, i3⟩ := ih
      refine ⟨(step_ssa s i1).1, step_int8 s i1 i2, ?_⟩
      cases s with
      | rewrite he h => exact rewrite_holds i1 i2 he h i3
      | erase he ho hu => exact erase_holds i1 he hu i3
  exact key.2.2

/-- **C70.** The function stays well-formed, and its arguments, its results and their types do not change. -/
theorem C70_interface {g g' : DGraph} (h : DSteps g g') (hg : g.Ssa) : g'.Ssa ∧ g'.params = g.params ∧ g'.outs = g.outs ∧
    ∀ x ∈ g.outs, g'.typeOf x = g.typeOf x := by
  induction h with
  | refl => exact ⟨hg, rfl, rfl, fun _ _ => rfl⟩
  | step _ s ih =>
    obtain ⟨i1, i2, i3, i4⟩ := ih
    obtain ⟨j1, j2, j3, j4⟩ := step_ssa s i1
    exact ⟨j1, j2.trans i2, j3.trans i3, fun x hx => (j4 x (i3 ▸ hx)).trans (i4 x hx)⟩

theorem step_detections {g g' : DGraph} (h : DStep g g') : g'.detections = g.detections := by
  cases h with
  | @rewrite _ pre post n he h =>
    obtain ⟨option, boxes, scores, anchors, b, s, a, r0, r1, r2, r3, t0, t1, t2, t3, q, sh, sh2, m, hq, hsh, rfl⟩ := rewrite_inv h
    obtain ⟨rfl, _⟩ := m
    unfold DGraph.detections
    rw [he]
    simp [List.filterMap_append, List.filterMap_cons, List.eraseIdx]
  | @erase pre post n he ho hu =>
    unfold DGraph.detections
    rw [he]
    simp [List.filterMap_append, List.filterMap_cons, ho]

/-- **C70.** The detection operators keep their number, their order, their options and their results other than the scores,
with names and types. -/
theorem C70_detections {g g' : DGraph} (h : DSteps g g') : g'.detections = g.detections := by
  induction h with
  | refl => rfl
  | step _ s ih => rw [step_detections s, ih]

/-! ### Termination -/

/-- A detection operator whose scores are float. -/
def floatDet (n : DNode) : Bool := match n.op, n.results[2]? with
  | .custom _ _, some r => decide (r.2.elem = .f32)
  | _, _ => false

/-- The number of steps that are left, at most. -/
def measure (g : DGraph) : Nat := 2 * (g.nodes.countP floatDet) + g.nodes.length

theorem step_measure {g g' : DGraph} (h : DStep g g') : measure g' + 1 ≤ measure g := by
  cases h with
  | @rewrite _ pre post n he h =>
    obtain ⟨option, boxes, scores, anchors, b, s, a, r0, r1, r2, r3, t0, t1, t2, t3, q, sh, sh2, m, hq, hsh, rfl⟩ := rewrite_inv h
    obtain ⟨rfl, _, _, _, _, _, x2, _⟩ := m
    unfold measure
    rw [he]
    simp only [List.countP_append, List.countP_cons, floatDet, List.length_append, List.length_cons, List.getElem?_cons_succ,
      List.getElem?_cons_zero, x2, reduceCtorEq, decide_true, decide_false, if_true, if_false, Bool.false_eq_true]
    omega
  | @erase pre post n he ho hu =>
    unfold measure
    rw [he]
    simp only [List.countP_append, List.countP_cons, List.length_append, List.length_cons]
    omega

/-- **C70.** The pass ends: no run has more steps than operations plus twice the custom operators with a float third result. -/
theorem C70_terminates {k : Nat} {g g' : DGraph} (h : DRun k g g') :
    k ≤ g.nodes.length + 2 * (g.nodes.filter fun n => match n.op, n.results[2]? with
      | .custom _ _, some r => decide (r.2.elem = .f32)
      | _, _ => false).length := by
  have key : measure g' + k ≤ measure g := by
    induction h with
    | refl => omega
    | step _ s ih => have := step_measure s; omega
  have : measure g = 2 * (g.nodes.filter floatDet).length + g.nodes.length := by
    unfold measure
    rw [List.countP_eq_length_filter]
  show k ≤ g.nodes.length + 2 * (g.nodes.filter floatDet).length
  omega

/-! ### What is absorbed, and when the pass is defined -/

theorem unique_definer (l : List DNode) : (names l).Nodup → ∀ m ∈ l, ∀ k ∈ l, ∀ x, x ∈ m.results.map (·.1) →
    x ∈ k.results.map (·.1) → m = k := by
  induction l with
  | nil => intro _ m hm; simp at hm
  | cons n l ih =>
    intro hn m hm k hk x hx hx'
    rw [names_cons] at hn
    obtain ⟨_, h2, h3⟩ := List.nodup_append.1 hn
    have hin : ∀ j ∈ l, x ∈ j.results.map (·.1) → x ∈ names l := by
      intro j hj hxj
      obtain ⟨r, hr, rfl⟩ := List.mem_map.1 hxj
      exact List.mem_map_of_mem (List.mem_flatMap.2 ⟨j, hj, hr⟩)
    rcases List.mem_cons.1 hm with em | hm2 <;> rcases List.mem_cons.1 hk with ek | hk2
    · rw [em, ek]
    · rw [em] at hx
      exact absurd rfl (h3 x hx x (hin k hk2 hx'))
    · rw [ek] at hx'
      exact absurd rfl (h3 x hx' x (hin m hm2 hx))
    · exact ih h2 m hm2 k hk2 x hx hx'

theorem dequantized_of {l : List DNode} (hn : (names l).Nodup) {rs : List (Nat × TTy)} {x y : Nat}
    (hm : ⟨rs, .dequantize, [y]⟩ ∈ l) (hx : x ∈ rs.map (·.1)) : dequantized l x = some y := by
  unfold dequantized
  cases hd : definer l x with
  | none =>
    have := List.find?_eq_none.1 hd _ hm
    simp only [List.any_eq_true, beq_iff_eq, not_exists, not_and] at this
    obtain ⟨r, hr, rfl⟩ := List.mem_map.1 hx
    exact absurd rfl (this r hr)
  | some m =>
    obtain ⟨h1, h2⟩ := definer_spec hd
    rw [unique_definer l hn m h1 _ hm x h2 hx]

theorem pre_nodup {g : DGraph} (hg : g.Ssa) {pre post : List DNode} {n : DNode} (he : g.nodes = pre ++ n :: post) :
    (names pre).Nodup := by
  have h1 := ((ssa_iff g).1 hg).1
  rw [he, names_append] at h1
  exact (List.nodup_append.1 (List.nodup_append.1 h1).2.1).1

/-- A detection operator with the types the pass looks for whose three operands are dequantized. -/
structure Candidate (g : DGraph) (pre : List DNode) (n : DNode) (post : List DNode) (s : Nat) : Prop where
  nodes : g.nodes = pre ++ n :: post
  shape : ∃ option boxes scores anchors r0 r1 r2 r3 t0 t1 t2 t3 rb b rs ra a,
    n = ⟨[(r0, t0), (r1, t1), (r2, t2), (r3, t3)], .custom "TFLite_Detection_PostProcess" option, [boxes, scores, anchors]⟩ ∧
    (t0.elem = .int 32 ∧ t1.elem = .int 32 ∧ t2.elem = .f32 ∧ t3.elem = .int 32) ∧
    (⟨rb, .dequantize, [b]⟩ ∈ pre ∧ boxes ∈ rb.map (·.1)) ∧ (⟨rs, .dequantize, [s]⟩ ∈ pre ∧ scores ∈ rs.map (·.1)) ∧
    (⟨ra, .dequantize, [a]⟩ ∈ pre ∧ anchors ∈ ra.map (·.1))

/-- **C70.** The pattern is undefined exactly on a candidate whose scores are not per-tensor quantized, or one of whose results
is unranked. -/
theorem C70_undefined {g : DGraph} (hg : g.Ssa) {pre post : List DNode} {n : DNode} (he : g.nodes = pre ++ n :: post) :
    g.rewrite pre n post = .ub ↔ ∃ s, Candidate g pre n post s ∧
      ((∀ q sh, g.typeOf s ≠ some ⟨.quant q, sh⟩) ∨ ∃ r ∈ n.results, r.2.shape = none) := by
  have hn := pre_nodup hg he
  constructor
  · intro h
    obtain ⟨option, boxes, scores, anchors, b, s, a, r0, r1, r2, r3, t0, t1, t2, t3, m⟩ := matched_of (g := g) (pre := pre)
      (n := n) (post := post) (by rw [h]; simp)
    obtain ⟨rb, b1, b2⟩ := dequantized_spec m.boxes
    obtain ⟨rs, s1, s2⟩ := dequantized_spec m.scores
    obtain ⟨ra, a1, a2⟩ := dequantized_spec m.anchors
    refine ⟨s, ⟨he, option, boxes, scores, anchors, r0, r1, r2, r3, t0, t1, t2, t3, rb, b, rs, ra, a, m.node, m.elems,
      ⟨b1, b2⟩, ⟨s1, s2⟩, a1, a2⟩, ?_⟩
    rw [rewrite_matched m] at h
    split at h
    · right
      rename_i q sh ht
      rw [m.node]
      by_contra hcon
      push Not at hcon
      have c : ∀ t, (∃ r, (r, t) ∈ [(r0, t0), (r1, t1), (r2, t2), (r3, t3)]) → ∃ sh, t.shape = some sh := by
        rintro t ⟨r, hr⟩
        exact Option.ne_none_iff_exists'.1 (hcon (r, t) hr)
      obtain ⟨w0, y0⟩ := c t0 ⟨r0, by simp⟩
      obtain ⟨w1, y1⟩ := c t1 ⟨r1, by simp⟩
      obtain ⟨w2, y2⟩ := c t2 ⟨r2, by simp⟩
      obtain ⟨w3, y3⟩ := c t3 ⟨r3, by simp⟩
      simp [retyped, y0, y1, y2, y3] at h
    · left
      rename_i hno
      exact fun q sh e => hno q sh e
  · rintro ⟨s, ⟨_, option, boxes, scores, anchors, r0, r1, r2, r3, t0, t1, t2, t3, rb, b, rs, ra, a, rfl, he', hb, hs, ha⟩, h⟩
    have m : Matched pre _ option boxes scores anchors b s a r0 r1 r2 r3 t0 t1 t2 t3 :=
      ⟨rfl, dequantized_of hn hb.1 hb.2, dequantized_of hn hs.1 hs.2, dequantized_of hn ha.1 ha.2, he'⟩
    rw [show detectionCode = "TFLite_Detection_PostProcess" from rfl] at m
    rw [rewrite_matched m]
    split
    · rename_i q sh ht
      rcases h with h | ⟨r, hr, hsh⟩
      · exact absurd ht (h q sh)
      · simp only [List.mem_cons, List.not_mem_nil, or_false] at hr
        rcases hr with rfl | rfl | rfl | rfl
        all_goals
          dsimp only at hsh
          split
          · simp_all [retyped]
          · rfl
    · rfl

/-- **C70.** When the pass is done, no candidate with per-tensor quantized scores and ranked results is left. -/
theorem C70_absorbed {g : DGraph} (hg : g.Ssa) (hd : g.Done) {pre post : List DNode} {n : DNode} {s : Nat}
    (hc : Candidate g pre n post s) (hr : ∀ r ∈ n.results, r.2.shape ≠ none) (q : QType) (sh : Option (List Nat)) :
    g.typeOf s ≠ some ⟨.quant q, sh⟩ := by
  intro hq
  have hn := pre_nodup hg hc.nodes
  obtain ⟨he, option, boxes, scores, anchors, r0, r1, r2, r3, t0, t1, t2, t3, rb, b, rs, ra, a, rfl, he', hb, hs, ha⟩ := hc
  have m : Matched pre _ option boxes scores anchors b s a r0 r1 r2 r3 t0 t1 t2 t3 :=
    ⟨rfl, dequantized_of hn hb.1 hb.2, dequantized_of hn hs.1 hs.2, dequantized_of hn ha.1 ha.2, he'⟩
  have c : ∀ t, (∃ r, (r, t) ∈ [(r0, t0), (r1, t1), (r2, t2), (r3, t3)]) → ∃ sh, t.shape = some sh := by
    rintro t ⟨r, hr'⟩
    exact Option.ne_none_iff_exists'.1 (hr (r, t) hr')
  obtain ⟨w0, y0⟩ := c t0 ⟨r0, by simp⟩
  obtain ⟨w1, y1⟩ := c t1 ⟨r1, by simp⟩
  obtain ⟨w2, y2⟩ := c t2 ⟨r2, by simp⟩
  obtain ⟨w3, y3⟩ := c t3 ⟨r3, by simp⟩
  have := rewrite_matched m g post
  rw [hq] at this
  simp only [retyped, y0, y1, y2, y3, Option.map_some] at this
  exact hd _ (.rewrite he this)

theorem step_perTensor {g g' : DGraph} (h : DStep g g') (hg : g.Ssa) (hp : g.PerTensor) : g'.PerTensor := by
  cases h with
  | @rewrite _ pre post n he h =>
    obtain ⟨option, boxes, scores, anchors, b, s, a, r0, r1, r2, r3, t0, t1, t2, t3, q, sh, sh2, m, hq, hsh, rfl⟩ := rewrite_inv h
    obtain ⟨rfl, hb, hs, ha, x0, x1, x2, x3⟩ := m
    obtain ⟨hg', ty1, ty2⟩ := rewrite_ssa (u := ⟨.quant (scoresType q), some sh2⟩) hg he hb hs ha
    constructor
    · intro rs y hd
      have hold : ⟨rs, .dequantize, [y]⟩ ∈ g.nodes → ∃ q' sh', g.typeOf y = some ⟨.quant q', sh'⟩ ∧ y ≠ g.fresh := by
        intro hd'
        obtain ⟨q', sh', e⟩ := hp.1 rs y hd'
        exact ⟨q', sh', e, fun e => fresh_not_mem g (e ▸ args_mem hg hd' (by simp))⟩
      simp only [List.mem_append, List.mem_cons, DNode.mk.injEq, reduceCtorEq, false_and, and_false, false_or] at hd
      rcases hd with hd | ⟨rfl, _, hy⟩ | hd
      · obtain ⟨q', sh', e, hne⟩ := hold (by rw [he]; simp [hd])
        exact ⟨q', sh', (ty1 y hne).trans e⟩
      · simp only [List.cons.injEq, and_true] at hy
        exact ⟨scoresType q, some sh2, by rw [hy]; exact ty2⟩
      · obtain ⟨q', sh', e, hne⟩ := hold (by rw [he]; simp [hd])
        exact ⟨q', sh', (ty1 y hne).trans e⟩
    · intro r hr
      have hold : r ∈ g.values → r.2.shape.isSome = true := hp.2 r
      simp only [DGraph.values, he, List.flatMap_append, List.flatMap_cons, List.mem_append, List.mem_cons, List.not_mem_nil,
        or_false] at hr hold
      by_cases hf : r = (g.fresh, ⟨.quant (scoresType q), some sh2⟩)
      · rw [hf]; rfl
      · exact hold (by tauto)
  | @erase pre post n he ho hu =>
    obtain ⟨hg', ty⟩ := erase_ssa hg he hu
    have sub : ∀ k ∈ pre ++ post, k ∈ g.nodes := by
      intro k hk
      rw [he]
      simp only [List.mem_append, List.mem_cons] at hk ⊢
      tauto
    constructor
    · intro rs y hd
      obtain ⟨q', sh', e⟩ := hp.1 rs y (sub _ hd)
      refine ⟨q', sh', (ty y fun hr => ?_).trans e⟩
      obtain ⟨r, hr2, rfl⟩ := List.mem_map.1 hr
      have := hu r hr2
      simp only [DGraph.used, Bool.or_eq_false_iff, List.contains_eq_mem, decide_eq_false_iff_not, List.any_eq_false,
        decide_eq_true_eq] at this
      exact this.2 _ (sub _ hd) (by simp)
    · intro r hr
      refine hp.2 r ?_
      simp only [DGraph.values, he, List.flatMap_append, List.flatMap_cons, List.mem_append] at hr ⊢
      tauto

/-- **C70.** If dequantizations read per-tensor quantized tensors and values are ranked, the pass is never undefined, at
whatever state it has reached. -/
theorem C70_defined {g g' : DGraph} (h : DSteps g g') (hg : g.Ssa) (hp : g.PerTensor) {pre post : List DNode} {n : DNode}
    (he : g'.nodes = pre ++ n :: post) : g'.rewrite pre n post ≠ .ub := by
  have key : g'.Ssa ∧ g'.PerTensor := by
    clear he
    induction h with
    | refl => exact ⟨hg, hp⟩
    | step _ s ih => exact ⟨(step_ssa s ih.1).1, step_perTensor s ih.1 ih.2⟩
  intro hub
  obtain ⟨s, hc, h⟩ := (C70_undefined key.1 he).1 hub
  rcases h with h | ⟨r, hr, hsh⟩
  · obtain ⟨_, option, boxes, scores, anchors, r0, r1, r2, r3, t0, t1, t2, t3, rb, b, rs, ra, a, rfl, he', hb, hs, ha⟩ := hc
    obtain ⟨q, sh, e⟩ := key.2.1 rs s (by rw [he]; simp [hs.1])
    exact h q sh e
  · have := key.2.2 r (results_mem (by rw [he]; simp) hr)
    simp [hsh] at this

/-- **C70.** A finished pass has no unused dequantization. -/
theorem C70_cleaned {g : DGraph} (hd : g.Done) {n : DNode} (hn : n ∈ g.nodes) (ho : n.op = .dequantize) :
    ∃ r ∈ n.results, r.1 ∈ g.outs ∨ ∃ m ∈ g.nodes, r.1 ∈ m.args := by
  by_contra hcon
  push Not at hcon
  obtain ⟨pre, post, e⟩ := List.append_of_mem hn
  refine hd _ (.erase e ho fun r hr => ?_)
  obtain ⟨h1, h2⟩ := hcon r hr
  simp only [DGraph.used, Bool.or_eq_false_iff, List.contains_eq_mem, decide_eq_false_iff_not, List.any_eq_false,
    decide_eq_true_eq]
  exact ⟨h1, h2⟩

/-- **C70.** A value of a later function is a value of the first one with the same type, or int8 with the full range and the
scale and zero point of a value of the first one. -/
theorem C70_new_types {g g' : DGraph} (h : DSteps g g') (hg : g.Ssa) : ∀ r ∈ g'.values, r ∈ g.values ∨
    ∃ q q', r.2.elem = .quant q ∧ (∃ r' ∈ g.values, r'.2.elem = .quant q') ∧ q.signed = true ∧ q.bits = 8 ∧ q.lo = -128 ∧
      q.hi = 127 ∧ q.scale = q'.scale ∧ q.zp = q'.zp := by
  induction h with
  | refl => exact fun r hr => Or.inl hr
  | @step g1 g2 h s ih =>
    have hg1 := (C70_interface h hg).1
    cases s with
    | @rewrite _ pre post n he h =>
      obtain ⟨option, boxes, scores, anchors, b, s, a, r0, r1, r2, r3, t0, t1, t2, t3, q, sh, sh2, m, hq, hsh, rfl⟩ :=
        rewrite_inv h
      obtain ⟨rfl, _⟩ := m
      intro r hr
      have hold : r ∈ g1.values → _ := ih r
      by_cases hf : r = (g1.fresh, ⟨.quant (scoresType q), some sh2⟩)
      · right
        rcases ih _ ((typeOf_some hg1 _ _).1 hq) with h1 | ⟨q1, q2, e, e1, _, _, _, _, e2, e3⟩
        · exact ⟨scoresType q, q, by rw [hf], ⟨_, h1, rfl⟩, rfl, rfl, rfl, rfl, rfl, rfl⟩
        · simp only [ETy.quant.injEq] at e
          subst e
          exact ⟨scoresType q, q2, by rw [hf], e1, rfl, rfl, rfl, rfl, e2, e3⟩
      · refine hold ?_
        simp only [DGraph.values, he, List.flatMap_append, List.flatMap_cons, List.mem_append, List.mem_cons,
          List.not_mem_nil, or_false] at hr ⊢
        tauto
    | @erase pre post n he ho hu =>
      intro r hr
      refine ih r ?_
      simp only [DGraph.values, he, List.flatMap_append, List.flatMap_cons, List.mem_append] at hr ⊢
      tauto

/-! ### Examples -/

/-- Per-tensor int8. -/
def exQ : QType := { signed := true, bits := 8, scale := 1 / 2, zp := -3, lo := -128, hi := 127 }

/-- Per-tensor uint8. -/
def exU : QType := { signed := false, bits := 8, scale := 1 / 2, zp := 0, lo := 0, hi := 255 }

/-- Dequantized boxes, scores and anchors are given to a detection operator. -/
def exDet (scores : ETy) : DGraph where
  params := [(0, ⟨.quant exQ, some [1, 2, 4]⟩), (1, ⟨scores, some [1, 2, 1]⟩), (2, ⟨.quant exQ, some [2, 4]⟩)]
  nodes := [⟨[(3, ⟨.f32, some [1, 2, 4]⟩)], .dequantize, [0]⟩, ⟨[(4, ⟨.f32, some [1, 2, 1]⟩)], .dequantize, [1]⟩,
    ⟨[(5, ⟨.f32, some [2, 4]⟩)], .dequantize, [2]⟩,
    ⟨[(6, ⟨.int 32, some [1, 1, 4]⟩), (7, ⟨.int 32, some [1, 1]⟩), (8, ⟨.f32, some [1, 1]⟩), (9, ⟨.int 32, some [1]⟩)],
      .custom "TFLite_Detection_PostProcess" [7], [3, 4, 5]⟩]
  outs := [6, 7, 8, 9]

/-- After the rewriting. -/
def exDet' (scores : ETy) (q : QType) : DGraph where
  params := (exDet scores).params
  nodes := [⟨[(3, ⟨.f32, some [1, 2, 4]⟩)], .dequantize, [0]⟩, ⟨[(4, ⟨.f32, some [1, 2, 1]⟩)], .dequantize, [1]⟩,
    ⟨[(5, ⟨.f32, some [2, 4]⟩)], .dequantize, [2]⟩,
    ⟨[(6, ⟨.int 32, some [1, 1, 4]⟩), (7, ⟨.int 32, some [1, 1]⟩), (10, ⟨.quant (scoresType q), some [1, 1]⟩),
      (9, ⟨.int 32, some [1]⟩)], .custom "TFLite_Detection_PostProcess" [7], [0, 1, 2]⟩,
    ⟨[(8, ⟨.f32, some [1, 1]⟩)], .dequantize, [10]⟩]
  outs := [6, 7, 8, 9]

theorem exDet_rewrite (q : QType) : DStep (exDet (.quant q)) (exDet' (.quant q) q) :=
  .rewrite (pre := (exDet (.quant q)).nodes.take 3) (post := []) rfl rfl

theorem exDet_ssa (e : ETy) : (exDet e).Ssa := by
  refine (ssa_iff _).2 ⟨?_, ?_, ?_⟩
  · show [0, 1, 2, 3, 4, 5, 6, 7, 8, 9].Nodup
    decide
  · simp [exDet, Scoped]
  · show ∀ x ∈ [6, 7, 8, 9], x ∈ [0, 1, 2, 3, 4, 5, 6, 7, 8, 9]
    decide

/-- A detector that picks the second score. -/
def exM : Meaning where
  detector := ⟨fun _ b s _ => some (b.map fun r => r.num, [s.length], [1], [1])⟩
  other := fun _ _ _ _ => none

theorem exDet_int8 : (exDet (.quant exQ)).Int8Scores := by
  intro rs o b s a r hn hr hf rs' y q sh hd hs ht
  have hm := (typeOf_some (exDet_ssa _) y _).1 ht
  simp only [exDet, DGraph.values, List.flatMap_cons, List.flatMap_nil, List.mem_append, List.mem_cons, Prod.mk.injEq,
    TTy.mk.injEq, ETy.quant.injEq, List.not_mem_nil, or_false, reduceCtorEq, false_and, and_false] at hm
  rcases hm with ⟨_, e, _⟩ | ⟨_, e, _⟩ | ⟨_, e, _⟩ <;> rw [e] <;> exact ⟨rfl, rfl⟩

theorem exDet_perTensor : (exDet (.quant exQ)).PerTensor := by
  constructor
  · intro rs y hd
    simp only [exDet, List.mem_cons, DNode.mk.injEq, List.cons.injEq, reduceCtorEq, false_and, and_false, List.not_mem_nil,
      or_false, and_true, true_and] at hd
    rcases hd with ⟨_, rfl⟩ | ⟨_, rfl⟩ | ⟨_, rfl⟩
    · exact ⟨exQ, some [1, 2, 4], rfl⟩
    · exact ⟨exQ, some [1, 2, 1], rfl⟩
    · exact ⟨exQ, some [2, 4], rfl⟩
  · show ∀ r ∈ (exDet (.quant exQ)).params ++ (exDet (.quant exQ)).nodes.flatMap (·.results), r.2.shape.isSome = true
    decide

/-- The hypotheses of `C70_values` are met, the function computes something, and the pass changes the function. -/
example : (exDet (.quant exQ)).Ssa ∧ (exDet (.quant exQ)).Int8Scores ∧ (exDet (.quant exQ)).PerTensor ∧
    DSteps (exDet (.quant exQ)) (exDet' (.quant exQ) exQ) ∧
    (exDet (.quant exQ)).eval exM [.q [1, 3], .q [5, 7], .q [0]] = some [.i [2, 3], .i [2], .f [5], .i [1]] ∧
    (exDet' (.quant exQ) exQ).eval exM [.q [1, 3], .q [5, 7], .q [0]] = some [.i [2, 3], .i [2], .f [5], .i [1]] :=
  ⟨exDet_ssa _, exDet_int8, exDet_perTensor, .step (.refl _) (exDet_rewrite _), by decide +kernel, by decide +kernel⟩

/-- **C70**, the condition: int8 is necessary. With uint8 scores the pattern still matches, and the score 100 becomes -28. -/
theorem C70_uint8_witness : DSteps (exDet (.quant exU)) (exDet' (.quant exU) exU) ∧ (exDet (.quant exU)).Ssa ∧
    (exDet (.quant exU)).eval exM [.q [1, 3], .q [5, 200], .q [0]] = some [.i [2, 3], .i [2], .f [100], .i [1]] ∧
    (exDet' (.quant exU) exU).eval exM [.q [1, 3], .q [5, 200], .q [0]] = some [.i [2, 3], .i [2], .f [-28], .i [1]] :=
  ⟨.step (.refl _) (exDet_rewrite _), exDet_ssa _, by decide +kernel, by decide +kernel⟩

/-- **C70**, the condition: half-precision or per-channel scores that are dequantized make the pass undefined. -/
theorem C70_undefined_witness : ∀ e ∈ [ETy.f16, ETy.perAxis 8],
    (exDet e).rewrite ((exDet e).nodes.take 3) ⟨[(6, ⟨.int 32, some [1, 1, 4]⟩), (7, ⟨.int 32, some [1, 1]⟩),
      (8, ⟨.f32, some [1, 1]⟩), (9, ⟨.int 32, some [1]⟩)], .custom "TFLite_Detection_PostProcess" [7], [3, 4, 5]⟩ [] = .ub := by
  intro e he
  simp only [List.mem_cons, List.not_mem_nil, or_false] at he
  rcases he with rfl | rfl <;> rfl

/-- A finished pass exists. -/
def exDone : DGraph where
  params := (exDet (.quant exQ)).params
  nodes := (exDet' (.quant exQ) exQ).nodes.drop 3
  outs := [6, 7, 8, 9]

theorem exDone_reached : DSteps (exDet (.quant exQ)) exDone := by
  refine .step (.step (.step (.step (.refl _) (exDet_rewrite _)) (.erase (pre := []) rfl rfl (by decide)))
    (.erase (pre := []) rfl rfl (by decide))) (.erase (pre := []) rfl rfl (by decide))

/-- Nothing is left to do there: the hypotheses of `C70_absorbed` and `C70_cleaned` are met. -/
theorem exDone_done : exDone.Done := by
  intro g' h
  cases h with
  | @rewrite _ pre post n he h =>
    obtain ⟨option, boxes, scores, anchors, b, s, a, r0, r1, r2, r3, t0, t1, t2, t3, q, sh, sh2, m, hq, hsh, rfl⟩ := rewrite_inv h
    obtain ⟨rfl, hb, _, _, _, _, x2, _⟩ := m
    match pre, he with
    | [], he => simp [dequantized, definer] at hb
    | [_], he => simp [exDone, exDet', detectionCode] at he
    | _ :: _ :: _, he => simp [exDone, exDet', detectionCode] at he
  | @erase pre post n he ho hu =>
    match pre, he with
    | [], he =>
      simp only [exDone, exDet', List.drop_succ_cons, List.drop_zero, List.nil_append, List.cons.injEq] at he
      rw [← he.1] at ho
      exact absurd ho (by simp)
    | [_], he =>
      simp only [exDone, exDet', List.drop_succ_cons, List.drop_zero, List.cons_append, List.nil_append, List.cons.injEq] at he
      have := hu (8, ⟨.f32, some [1, 1]⟩) (by rw [← he.2.1]; simp)
      exact absurd this (by decide)
    | _ :: _ :: _, he => simp [exDone, exDet'] at he

end Verif.Det
