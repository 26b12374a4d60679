import Verif.Proof.IrPrep

/-! Soundness of the patterns of the padding pass. -/

namespace Verif.Ir

open Finset

theorem ruleFusePad_inv {v2 dw : Bool} {c : Ctx} {n : Node} {t : Rhs} (h : (ruleFusePad v2 dw).apply c n = some t) :
    ∃ nm a act z f b oshape zn y pd rest zty pt pads ishape,
      n = ⟨nm, .tflConv a act dw, [z, f, b], some oshape⟩ ∧ c.look z = some ⟨zn, .pad, y :: pd :: rest, zty⟩ ∧
      c.constOf pd = some (.i pt) ∧ padsOf pt = some pads ∧ c.shapeOf y = some ishape ∧
      a.padding = .valid ∧ zeroPad v2 (rest.map c.constOf) = true ∧ c.uses z = 1 ∧
      isSamePadding pads (ishape.map fun d => (d : Int)) (oshape.map fun d => (d : Int)) a.strideH a.strideW = true ∧
      t = .op (.tflConv { a with padding := .same } act dw) (some oshape) [.var y, .var f, .var b] := by
  unfold ruleFusePad at h
  simp only at h
  split at h
  · split at h
    · split at h
      · split at h
        · rename_i h1 _ _ h2 _ _ _ _ h3 h4
          simp only [Option.ite_none_right_eq_some, Option.some.injEq] at h
          obtain ⟨⟨rfl, c1, c2, c3, c4⟩, rfl⟩ := h
          exact ⟨_, _, _, _, _, _, _, _, _, _, _, _, _, _, _, rfl, h1, h2, h3, h4, c1, c2, c3, c4, rfl⟩
        · cases h
      · cases h
    · cases h
  · cases h

theorem ruleFusePad_local (v2 dw : Bool) : (ruleFusePad v2 dw).Local := by
  intro c n t h x hx
  obtain ⟨nm, a, act, z, f, b, oshape, zn, y, pd, rest, zty, pt, pads, ishape, rfl, h1, _, _, _, _, _, _, _, rfl⟩ :=
    ruleFusePad_inv h
  simp only [Rhs.vars, Rhs.varsL, List.append_nil, List.mem_append, List.mem_singleton, List.mem_cons,
    List.not_mem_nil, or_false] at hx
  rcases hx with rfl | rfl | rfl
  · exact Or.inr ⟨z, _, h1, by simp⟩
  · exact Or.inl (by simp)
  · exact Or.inl (by simp)

/-- Padding with zeros. -/
theorem zeroPad_some {ins : List Val} {env : Env} {c : Ctx} (hd : Defs ins env c) {v2 : Bool} {rest : List Nat}
    (hz : zeroPad v2 (rest.map c.constOf) = true) {zn y pd : Nat} {zty : Option (List Nat)} {v : Val}
    (hv : Node.eval ins env ⟨zn, .pad, y :: pd :: rest, zty⟩ = some v) {pt : TensOf Int} (hpd : c.constOf pd = some (.i pt)) :
    ∃ x, env y = some (.f x) ∧ padCore x pt 0 = some v := by
  match v2, rest with
  | false, [] =>
    obtain ⟨a, b, h1, h2, h3, _, _⟩ := eval2 hv
    have := hd.const hpd h2
    subst this
    obtain ⟨x, p, rfl, e, h⟩ := pad0_some h3
    cases e
    exact ⟨x, h1, h⟩
  | false, _ :: _ => simp [zeroPad] at hz
  | true, [] => simp [zeroPad] at hz
  | true, _ :: _ :: _ => simp [zeroPad] at hz
  | true, [pv] =>
    obtain ⟨a, b, w, h1, h2, h3, h4, _, _⟩ := eval3 hv
    have := hd.const hpd h2
    subst this
    simp only [Op.eval] at h4
    obtain ⟨x, p, pv', e, rfl, e1, rfl, hpv, h⟩ := pad_some h4
    cases e1
    simp only [List.map_cons, List.map_nil] at hz
    unfold zeroPad at hz
    split at hz
    · rename_i heq; cases heq
    · rename_i t _ heq
      simp only [List.cons.injEq, and_true] at heq
      have := hd.const heq h3
      cases this
      simp only [beq_iff_eq] at hz
      rw [hz] at hpv
      cases hpv
      exact ⟨x, h1, h⟩
    · cases hz

theorem tflConv_some {a : ConvAttrs} {act : Act} {dw : Bool} {u v w r : Val} (h : tflConvEval a act dw [u, v, w] = some r) :
    ∃ x f bi n hh wd cin co' fh fw ci' co ci p, u = .f x ∧ v = .f f ∧ w = .f bi ∧ x.shape = [n, hh, wd, cin] ∧
      f.shape = [co', fh, fw, ci'] ∧ co = (if dw then ci' else co') ∧ ci = (if dw then 1 else ci') ∧
      ((dw = true → co' = 1) ∧ bi.shape = [co]) ∧ geom a 0 n hh wd cin co fh fw ci = some p ∧
      r = .f (mk4 n p.outH p.outW co fun b y z oc =>
          act.real (convAt p 0 (fun k => x.data.getD k 0) (fun fy fx c oc =>
            f.data.getD (if dw then (fy * fw + fx) * co + oc else ((oc * fh + fy) * fw + fx) * ci + c) 0) b y z oc
            + bi.data.getD oc 0)) := by
  cases u <;> cases v <;> cases w <;> simp only [tflConvEval, reduceCtorEq] at h
  rename_i x f bi
  split at h
  · rename_i n hh wd cin co' fh fw ci' h1 h2
    simp only [Option.ite_none_right_eq_some, Option.map_eq_some_iff] at h
    obtain ⟨hc, p, h3, h4⟩ := h
    exact ⟨x, f, bi, n, hh, wd, cin, co', fh, fw, ci', _, _, p, rfl, rfl, rfl, h1, h2, rfl, rfl, hc, h3, h4.symm⟩
  · cases h

theorem tflConv_intro {a : ConvAttrs} {act : Act} {dw : Bool} {x f bi : Tens} {n hh wd cin co' fh fw ci' co ci : Nat} {p : BConv}
    (h1 : x.shape = [n, hh, wd, cin]) (h2 : f.shape = [co', fh, fw, ci']) (h3 : co = (if dw then ci' else co'))
    (h4 : ci = (if dw then 1 else ci')) (h5 : (dw = true → co' = 1) ∧ bi.shape = [co])
    (h6 : geom a 0 n hh wd cin co fh fw ci = some p) :
    tflConvEval a act dw [.f x, .f f, .f bi] = some (.f (mk4 n p.outH p.outW co fun b y z oc =>
          act.real (convAt p 0 (fun k => x.data.getD k 0) (fun fy fx c oc =>
            f.data.getD (if dw then (fy * fw + fx) * co + oc else ((oc * fh + fy) * fw + fx) * ci + c) 0) b y z oc
            + bi.data.getD oc 0))) := by
  subst h3; subst h4
  simp only [tflConvEval]
  rw [h1, h2]
  simp only
  rw [if_pos h5, h6]
  rfl

theorem ruleFusePad_sound (v2 dw : Bool) : (ruleFusePad v2 dw).Sound := by
  intro ins env c n t hd h hex _ v hv
  obtain ⟨nm, a, act, z, f, bn, oshape, zn, y, pd, rest, zty, pt, pads, ishape, rfl, hlz, hpd, hpads, hish, hpad, hzp, _, hsame,
    rfl⟩ := ruleFusePad_inv h
  obtain ⟨vz, vf, vb, h1, h2, h3, h4, h5, h6⟩ := eval3 hv
  obtain ⟨xt, k1, k2⟩ := zeroPad_some hd hzp (hd.val hlz h1) hpd
  simp only [Op.eval] at h4
  obtain ⟨N, H, W, C, n0, n1, ph0, ph1, pw0, pw1, c0, c1, hxs, hpdat, hnn, rfl⟩ := padCore_some k2
  obtain ⟨xx, ff, bi, N', H', W', cin', co', fh, fw, ci', co, ci, p, e1, rfl, rfl, hzs, hfs, hco, hci, hcb, hp, rfl⟩ :=
    tflConv_some h4
  cases e1
  have hpads' : pads = ⟨(n0.toNat, n1.toNat), (ph0.toNat, ph1.toNat), (pw0.toNat, pw1.toNat), (c0.toNat, c1.toNat)⟩ := by
    unfold padsOf at hpads
    rw [hnn.2.2.2.2.2.2.2.2, hpdat] at hpads
    simp only [Option.ite_none_right_eq_some, Option.some.injEq] at hpads
    exact hpads.2.symm
  have hish' := hd.shape hish k1
  simp only [Val.shape] at hish'
  rw [hxs] at hish'
  subst hish'
  simp only [reduceCtorEq, Option.some.injEq, Val.shape, false_or] at h6
  have h6' : oshape = [N', p.outH, p.outW, co] := h6
  subst h6'
  subst hpads'
  -- the shape of the filter
  unfold ruleFusePad at hex
  simp only [hlz, hpd] at hex
  split at hex
  · rename_i f0 fh' fw' f3 e1 e2
    cases e1
    have hf' := hd.shape e2 h2
    simp only [Val.shape] at hf'
    rw [hfs] at hf'
    simp only [List.cons.injEq, and_true] at hf'
    obtain ⟨_, rfl, rfl, _⟩ := hf'
    simp only [hpads, hish, Bool.not_eq_false', decide_eq_true_eq] at hex
    obtain ⟨hsH, hsW, hb1, hb2, hb3, hb4⟩ := hex
    replace hsame : (isNoPadding (n0.toNat, n1.toNat) &&
        isSamePadding1D (ph0.toNat, ph1.toNat) (H : Int) (p.outH : Int) (a.strideH : Int) &&
        isSamePadding1D (pw0.toNat, pw1.toNat) (W : Int) (p.outW : Int) (a.strideW : Int) &&
        isNoPadding (c0.toNat, c1.toNat)) = true := hsame
    simp only [Bool.and_eq_true] at hsame
    obtain ⟨⟨⟨hn0, hsame1⟩, hsame2⟩, hc0⟩ := hsame
    unfold isNoPadding at hn0 hc0
    simp only [Bool.and_eq_true, decide_eq_true_eq] at hn0 hc0
    obtain ⟨z1, z2⟩ := hn0
    obtain ⟨z3, z4⟩ := hc0
    have hzs' : [n0.toNat + N + n1.toNat, ph0.toNat + H + ph1.toNat, pw0.toNat + W + pw1.toNat, c0.toNat + C + c1.toNat] =
        [N', H', W', cin'] := hzs
    simp only [List.cons.injEq, and_true] at hzs'
    obtain ⟨q1, q2, q3, q4⟩ := hzs'
    rw [z1, z2, Nat.zero_add, Nat.add_zero] at q1
    rw [z3, z4, Nat.zero_add, Nat.add_zero] at q4
    subst q1; subst q2; subst q3; subst q4
    have g := geom_some hp
    obtain ⟨s1, s2⟩ := pad_dim (pad := (ph0.toNat, ph1.toNat)) (n := H) (out := p.outH) (f := fh) (s := a.strideH)
      (d := a.dilH) g.pos.1 hb1 hb3 (by have := g.outH; rw [hpad] at this; exact this) hsame1 hsH
    obtain ⟨s3, s4⟩ := pad_dim (pad := (pw0.toNat, pw1.toNat)) (n := W) (out := p.outW) (f := fw) (s := a.strideW)
      (d := a.dilW) g.pos.2.1 hb2 hb4 (by have := g.outW; rw [hpad] at this; exact this) hsame2 hsW
    obtain ⟨q, hq⟩ : ∃ q, geom { a with padding := .same } 0 N H W C co fh fw ci = some q := by
      unfold geom
      simp only
      rw [← s1, ← s3, if_pos ⟨g.pos.1, g.pos.2.1, g.pos.2.2.1, g.pos.2.2.2.1, g.pos.2.2.2.2.1, g.pos.2.2.2.2.2.1,
        g.pos.2.2.2.2.2.2.1, g.pos.2.2.2.2.2.2.2, g.coPos, g.div.1, g.div.2, by omega, by omega⟩]
      exact ⟨_, rfl⟩
    have gq := geom_some hq
    have oH : q.outH = p.outH := by
      have := gq.outH
      simp only at this
      rw [← s1] at this
      exact_mod_cast this
    have oW : q.outW = p.outW := by
      have := gq.outW
      simp only at this
      rw [← s3] at this
      exact_mod_cast this
    refine rhs_op (evalL_cons (rhs_var k1) (evalL_cons (rhs_var h2) (evalL_cons (rhs_var h3) evalL_nil))) ?_ h5 (Or.inr rfl)
    simp only [Op.eval]
    rw [tflConv_intro hxs hfs hco hci hcb hq, oH, oW]
    refine congrArg (fun w => some (Val.f w)) (mk4_congr fun b oy ox oc hbb hoy hox hoc => ?_)
    refine congrArg (fun r => act.real (r + bi.data.getD oc 0)) ?_
    rw [← padded_conv (ph := (ph0.toNat, ph1.toNat)) (pw := (pw0.toNat, pw1.toNat)) (p := p) (q := q)
      (xd := xt.data) (e := 0) g gq ?_ ?_ (fun _ _ => rfl) hbb hoy hox hoc]
    · exact (congrArg (fun (w : Tens) => convAt p 0 (fun k => w.data.getD k 0)
        (fun fy fx c oc => ff.data.getD (if dw then (fy * fw + fx) * co + oc else ((oc * fh + fy) * fw + fx) * ci + c) 0)
        b oy ox oc) (padded_mk4 z1 z2 z3 z4)).symm
    · intro o fy ho hfy
      have e1 := g.padH
      have e2 := gq.padH
      rw [oH] at e2
      rw [e1, e2]
      exact s2 o fy ho hfy
    · intro o fy ho hfy
      have e1 := g.padW
      have e2 := gq.padW
      rw [oW] at e2
      rw [e1, e2]
      exact s4 o fy ho hfy
  · cases hex

end Verif.Ir
