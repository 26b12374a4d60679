import Verif.Proof.ExecFl

/-! One inference in floating-point arithmetic: the tolerances are kept. -/

namespace Verif.Ir

theorem near_refl {ε : Rat} (he : 0 ≤ ε) {v : Val} (hw : v.wf = true) : v.Near ε v := by
  cases v with
  | f t => exact ⟨t.data, rfl, List.forall₂_same.2 fun x _ => by rw [sub_self, abs_zero]; exact he⟩
  | q t s z =>
    exact ⟨t.data, rfl, List.forall₂_same.2 fun x hx => ⟨by rw [sub_self]; simpa using he, (wfQ.1 hw).2.2.1 x hx⟩⟩
  | _ => exact rfl

theorem near_zero {v v' : Val} (h : v.Near 0 v') : v' = v := by
  cases v with
  | f t =>
    obtain ⟨d, rfl, hd⟩ := h
    have : t.data = d := by
      apply List.forall₂_eq_eq_eq ▸ hd.imp fun x y hxy => ?_
      have := abs_nonpos_iff.1 hxy
      linarith
    subst this; rfl
  | q t s z =>
    obtain ⟨d, rfl, hd⟩ := h
    have : t.data = d := by
      apply List.forall₂_eq_eq_eq ▸ hd.imp fun x y hxy => ?_
      have := abs_nonpos_iff.1 hxy.1
      have : y - x = 0 := by exact_mod_cast this
      omega
    subst this; rfl
  | _ => exact h

theorem near_mono {ε ε' : Rat} (he : ε ≤ ε') {v v' : Val} (h : v.Near ε v') : v.Near ε' v' := by
  cases v with
  | f t => obtain ⟨d, h1, h2⟩ := h; exact ⟨d, h1, h2.imp fun _ _ h => le_trans h he⟩
  | q t s z => obtain ⟨d, h1, h2⟩ := h; exact ⟨d, h1, h2.imp fun _ _ h => ⟨le_trans h.1 he, h.2⟩⟩
  | _ => exact h

theorem near_wf {ε : Rat} {v v' : Val} (hw : v.wf = true) (h : v.Near ε v') : v'.wf = true := by
  cases v with
  | f t =>
    obtain ⟨d, rfl, h2⟩ := h
    rw [wfF] at hw ⊢
    rw [← hw]
    exact h2.length_eq.symm
  | q t s z =>
    obtain ⟨d, rfl, h2⟩ := h
    rw [wfQ] at hw ⊢
    refine ⟨?_, hw.2.1, ?_, hw.2.2.2⟩
    · rw [← hw.1]; exact h2.length_eq.symm
    · intro y hy
      obtain ⟨hl, hh⟩ := List.forall₂_iff_get.1 h2
      obtain ⟨i, hi, rfl⟩ := List.mem_iff_getElem.1 hy
      exact (hh i (by rw [hl]; exact hi) hi).2
  | _ => cases h; exact hw

theorem near_s {ε : Rat} {v v' : Val} (h : v.Near ε v') (t : TensOf Bool) : v' = .s t ↔ v = .s t := by
  cases v with
  | f t => obtain ⟨d, rfl, _⟩ := h; simp
  | q t s z => obtain ⟨d, rfl, _⟩ := h; simp
  | _ => cases h; rfl

/-- `l'` is within the tolerances `es` of `l`. -/
def Nears (es : List Rat) (l l' : List Val) : Prop := List.Forall₂ (fun p v' => Val.Near p.2 p.1 v') (l.zip es) l'

theorem nears_one {es : List Rat} {x : Val} {l' : List Val} (hlen : es.length = 1) (h : Nears es [x] l') :
    ∃ e x', es = [e] ∧ l' = [x'] ∧ x.Near e x' := by
  match es, hlen with
  | [e], _ =>
    obtain ⟨x', rfl, h1⟩ := forall₂_one (show List.Forall₂ (fun (p : Val × Rat) v' => Val.Near p.2 p.1 v') [(x, e)] l' from h)
    exact ⟨e, x', rfl, rfl, h1⟩

theorem nears_exact : ∀ {es : List Rat} {l l' : List Val}, es.length = l.length → (∀ e ∈ es, e = 0) → Nears es l l' → l' = l
  | [], [], l', _, _, h => by
    have h : List.Forall₂ (fun (p : Val × Rat) v' => Val.Near p.2 p.1 v') [] l' := h
    cases h; rfl
  | e :: es, x :: l, l', hlen, h0, h => by
    have h : List.Forall₂ (fun (p : Val × Rat) v' => Val.Near p.2 p.1 v') ((x, e) :: l.zip es) l' := h
    cases h with
    | cons h1 h2 =>
      have e0 := h0 e (by simp)
      subst e0
      rw [near_zero h1, nears_exact (by simpa using hlen) (fun e he => h0 e (by simp [he])) h2]

theorem nears_s {es : List Rat} {l l' : List Val} (hlen : es.length = l.length) (h : Nears es l l') (t : TensOf Bool) :
    Val.s t ∈ l' ↔ Val.s t ∈ l := by
  induction l generalizing es l' with
  | nil =>
    have h : List.Forall₂ (fun (p : Val × Rat) v' => Val.Near p.2 p.1 v') [] l' := by simpa [Nears] using h
    cases h; simp
  | cons x l ih =>
    cases es with
    | nil => simp at hlen
    | cons e es =>
      have h : List.Forall₂ (fun (p : Val × Rat) v' => Val.Near p.2 p.1 v') ((x, e) :: l.zip es) l' := h
      cases h with
      | cons h1 h2 =>
        rw [List.mem_cons, List.mem_cons, ih (by simpa using hlen) h2]
        have := near_s h1 t
        constructor
        · rintro (h | h)
          · exact Or.inl (this.1 h.symm).symm
          · exact Or.inr h
        · rintro (h | h)
          · exact Or.inl (this.2 h.symm).symm
          · exact Or.inr h

/-- Signs do not change within the tolerance. -/
theorem lquant_near {x x' : Val} {e : Rat} {F : FlCfg} {ty : Option (List Nat)} {ε : Rat} (h : x.Near e x')
    (hfl : flOp F ty ε [e] .lquant [x]) : lquantEval [x'] = lquantEval [x] := by
  cases x with
  | f t =>
    obtain ⟨d, rfl, hd⟩ := h
    replace hfl : ∀ e' ∈ [e], ∀ v ∈ t.data, (v < 0 → v + e' < 0) ∧ (0 ≤ v → 0 ≤ v - e') := hfl
    replace hfl := hfl e (by simp)
    have : d.map (fun v => decide (v < 0)) = t.data.map fun v => decide (v < 0) := by
      obtain ⟨sh, td⟩ := t
      simp only at hd hfl ⊢
      induction hd with
      | nil => rfl
      | @cons a b l1 l2 h1 _ ih =>
        rw [List.map_cons, List.map_cons, ih fun v hv => hfl v (by simp [hv])]
        obtain ⟨f1, f2⟩ := hfl a (by simp)
        have h1 := abs_le.1 h1
        refine congrArg (· :: _) ?_
        rw [decide_eq_decide]
        constructor
        · intro hb
          by_contra ha
          have := f2 (by linarith)
          linarith [h1.1]
        · intro ha
          have := f1 ha
          linarith [h1.2]
    simp only [lquantEval, TensOf.map, this]
  | q t s z =>
    obtain ⟨d, rfl, hd⟩ := h
    replace hfl : ∀ e' ∈ [e], ∀ v ∈ t.data, (v < z → (v : Rat) + e' < z) ∧ (z ≤ v → (z : Rat) ≤ v - e') := hfl
    replace hfl := hfl e (by simp)
    have : d.map (fun v => decide (v < z)) = t.data.map fun v => decide (v < z) := by
      obtain ⟨sh, td⟩ := t
      simp only at hd hfl ⊢
      induction hd with
      | nil => rfl
      | @cons a b l1 l2 h1 _ ih =>
        rw [List.map_cons, List.map_cons, ih fun v hv => hfl v (by simp [hv])]
        obtain ⟨f1, f2⟩ := hfl a (by simp)
        have h1 := abs_le.1 h1.1
        push_cast at h1
        refine congrArg (· :: _) ?_
        rw [decide_eq_decide]
        constructor
        · intro hb
          by_contra ha
          have := f2 (by omega)
          have hb' : (b : Rat) < z := by exact_mod_cast hb
          linarith [h1.1]
        · intro ha
          have := f1 ha
          have : (b : Rat) < z := by linarith [h1.2]
          exact_mod_cast this
    simp only [lquantEval, TensOf.map, this]
  | _ => cases h; rfl

theorem clamp_near {x y : Int} (h : |x - y| ≤ 1) : |clampInt8 x - clampInt8 y| ≤ 1 := by
  rw [abs_le] at h ⊢
  unfold clampInt8
  constructor <;> split_ifs <;> omega

theorem clamp_range (x : Int) : -128 ≤ clampInt8 x ∧ clampInt8 x ≤ 127 := by
  unfold clampInt8
  split_ifs <;> omega

/-- LceDequantize to int8. -/
theorem exec_dequantizeI8Fl {F : FlCfg} (hF : F.Proper) {cfg : Cfg} {nm : Nat} {t : TensOf Bool} {m : MVal} {s : Rat} {z : Int}
    {ε : Rat} (he : 0 ≤ ε) (h : Rep (.s t) m) (hw : (Val.s t).wf = true) (hs0 : 0 < s) (hz : -128 ≤ z ∧ z ≤ 127)
    (ht : 1 / s ≤ 1073741824)
    (hfl : 1 ≤ ε ∨ ∀ n : Int, 1 / s / 2 ^ 24 + 2 ^ (-150 : Int) < |1 / s - ((n : Rat) + 1 / 2)|) :
    execDequantizeI8Fl F cfg nm none s z m = .error ∧
    ∃ m', execDequantizeI8Fl F cfg nm (some t.shape) s z m = .ok m' ∧
      RepNear ε (.q (t.map fun v => clampInt8 (z + roundHalfAway (bitVal v / s))) s z) m' := by
  cases m with
  | plain v => exact h.elim
  | words dims d =>
    refine ⟨rfl, ?_⟩
    have s0 : 0 < 1 / s := by positivity
    have hb : (1000 : Rat) ≤ bigF := bigF_ge
    have hbig : |1 / s| ≤ 4 * bigF := by
      rw [abs_of_pos s0]
      refine le_trans ht ?_
      unfold bigF
      norm_num
    have herr := fl_err hF.f32 hbig
    rw [abs_of_pos s0] at herr
    have he0 : etaF ≤ 1 / 1000 := by unfold etaF; norm_num
    have r1 := abs_le.1 (halfAway_err (1 / s))
    have r2 := abs_le.1 (halfAway_err (F.R.fl (1 / s)))
    have r3 := abs_le.1 herr
    have on : roundHalfAway (-1 / s) = -roundHalfAway (1 / s) := by
      rw [show (-1 : ℚ) / s = -(1 / s) by ring]; exact roundHalfAway_neg_eq _
    generalize hoff : roundHalfAway (1 / s) = off at r1 on
    generalize hoff' : roundHalfAway (F.R.fl (1 / s)) = off' at r2
    have n1 : 0 ≤ off ∧ 0 ≤ off' ∧ off' ≤ 1073741924 := by
      have k1 : ((-1 : Int) : Rat) < (off : Rat) := by push_cast; linarith [r1.1]
      have k2 : ((-1 : Int) : Rat) < (off' : Rat) := by push_cast; linarith [r2.1, r3.1]
      have k3 : (off' : Rat) ≤ ((1073741924 : Int) : Rat) := by push_cast; linarith [r2.2, r3.2]
      have k1 : -1 < off := by exact_mod_cast k1
      have k2 : -1 < off' := by exact_mod_cast k2
      have k3 : off' ≤ 1073741924 := by exact_mod_cast k3
      omega
    have n2 : (900 ≤ off ∧ 900 ≤ off') ∨ |off' - off| ≤ 1 := by
      rcases le_total (1 / s) 1000 with hc | hc
      · right
        have k1 : ((off' - off : Int) : Rat) < ((2 : Int) : Rat) := by push_cast; linarith [r1.1, r2.2, r3.2]
        have k2 : ((-2 : Int) : Rat) < ((off' - off : Int) : Rat) := by push_cast; linarith [r1.2, r2.1, r3.1]
        have k1 : off' - off < 2 := by exact_mod_cast k1
        have k2 : -2 < off' - off := by exact_mod_cast k2
        rw [abs_le]; omega
      · left
        have k1 : ((900 : Int) : Rat) ≤ (off : Rat) := by push_cast; linarith [r1.1]
        have k2 : ((900 : Int) : Rat) ≤ (off' : Rat) := by push_cast; linarith [r2.1, r3.1]
        exact ⟨by exact_mod_cast k1, by exact_mod_cast k2⟩
    have n3 : (∀ n : Int, 1 / s / 2 ^ 24 + 2 ^ (-150 : Int) < |1 / s - ((n : Rat) + 1 / 2)|) → |off' - off| ≤ 1 → off' = off := by
      intro hn h1
      by_contra hne
      have e24 : (1 / s / 2 ^ 24 : Rat) = 1 / s / 16777216 := by norm_num
      rcases lt_or_gt_of_ne hne with hlt | hgt
      · have e : off = off' + 1 := by rw [abs_le] at h1; omega
        have er : (off : Rat) = off' + 1 := by rw [e]; push_cast; ring
        have := hn off'
        rw [e24] at this
        refine absurd this (not_lt.2 ?_)
        rw [abs_le]
        have h7 : etaF = 2 ^ (-150 : Int) := rfl
        rw [← h7]
        constructor <;> linarith [r1.1, r1.2, r2.1, r2.2, r3.1, r3.2]
      · have e : off' = off + 1 := by rw [abs_le] at h1; omega
        have er : (off' : Rat) = off + 1 := by rw [e]; push_cast; ring
        have := hn off
        rw [e24] at this
        refine absurd this (not_lt.2 ?_)
        rw [abs_le]
        have h7 : etaF = 2 ^ (-150 : Int) := rfl
        rw [← h7]
        constructor <;> linarith [r1.1, r1.2, r2.1, r2.2, r3.1, r3.2]
    have n4 : |((clampInt8 (z + off') - clampInt8 (z + off) : Int) : Rat)| ≤ ε ∧
        |((clampInt8 (z - off') - clampInt8 (z - off) : Int) : Rat)| ≤ ε := by
      rcases n2 with ⟨k1, k2⟩ | k1
      · have c1 : clampInt8 (z + off') = clampInt8 (z + off) := by unfold clampInt8; split_ifs <;> omega
        have c2 : clampInt8 (z - off') = clampInt8 (z - off) := by unfold clampInt8; split_ifs <;> omega
        rw [c1, c2, sub_self, sub_self]
        simpa using he
      · rcases hfl with h1 | h1
        · have k3 := abs_le.1 k1
          have c1 := clamp_near (x := z + off') (y := z + off) (by rw [abs_le]; omega)
          have c2 := clamp_near (x := z - off') (y := z - off) (by rw [abs_le]; omega)
          constructor
          · rw [← Int.cast_abs]; refine le_trans ?_ h1; exact_mod_cast c1
          · rw [← Int.cast_abs]; refine le_trans ?_ h1; exact_mod_cast c2
        · rw [n3 h1 k1, sub_self, sub_self]
          simpa using he
    have hv : dequantInt8Values F.R.fl s z
        = some (BitVec.ofInt 8 (min 127 (z + off')), BitVec.ofInt 8 (max (-128) (z - off'))) := by
      unfold dequantInt8Values
      simp only [hoff']
      have e1 : toInt32 off' = some off' := by rw [toInt32, if_pos (by omega)]
      have e2 : toInt32 (z + off') = some (z + off') := by rw [toInt32, if_pos (by omega)]
      have e3 : toInt32 (z - off') = some (z - off') := by rw [toInt32, if_pos (by omega)]
      simp [e1, e2, e3]
    obtain ⟨h1, lead, c, hs, h2⟩ := unpack_rep h hw (y0 := buf (cfg.bufB nm) t.shape.prod)
      (BitVec.ofInt 8 (min 127 (z + off'))) (BitVec.ofInt 8 (max (-128) (z - off'))) (by simp [buf_length])
    simp only [execDequantizeI8Fl, h1, if_true]
    have e : dequantizeEvalI8 F.R.fl t.shape s z d (buf (cfg.bufB nm) t.shape.prod) = some (t.data.map fun v =>
        if v then BitVec.ofInt 8 (max (-128) (z - off')) else BitVec.ofInt 8 (min 127 (z + off'))) := by
      unfold dequantizeEvalI8
      rw [hs] at h2 ⊢
      simp only [List.getLast?_append, List.getLast?_singleton, Option.some_or, Option.bind_some, List.dropLast_concat,
        Option.bind_eq_bind, hv]
      exact h2
    rw [e]
    refine ⟨_, rfl, _, ⟨_, rfl, ?_⟩, rfl⟩
    show List.Forall₂ _ (t.data.map _) ((t.data.map _).map _)
    rw [List.map_map, List.forall₂_map_left_iff, List.forall₂_map_right_iff]
    refine List.forall₂_same.2 fun v _ => ?_
    simp only [Function.comp_apply]
    cases v
    · simp only [Bool.false_eq_true, if_false, bitVal, hoff]
      rw [toInt_ofInt8 (by omega) (by omega)]
      have ec : min 127 (z + off') = clampInt8 (z + off') := by unfold clampInt8; split_ifs <;> omega
      rw [ec]
      exact ⟨n4.1, clamp_range _⟩
    · simp only [if_true, bitVal, on]
      rw [toInt_ofInt8 (by omega) (by omega)]
      have ec : max (-128) (z - off') = clampInt8 (z - off') := by unfold clampInt8; split_ifs <;> omega
      rw [ec]
      exact ⟨n4.2, clamp_range _⟩

theorem bind_error {α β : Type} {x : Outcome α} {f : α → Outcome β} (hf : ∀ a, f a ≠ .error) (h : x.bind f = .error) : x = .error := by
  cases x with
  | ub => cases h
  | error => rfl
  | ok a => exact absurd h (hf a)

/-- A BConv2D node. -/
theorem exec_bconvFl {F : FlCfg} {cfg : Cfg} {nm : Nat} {a : BConvAttrs} {q : Option (Rat × Int)} {x : TensOf Bool}
    {vf vm vb vt v : Val} {ε : Rat}
    {mx mf mm mb mt : MVal} (hF : F.Proper) (hsch : cfg.Scheduled) (e : bconvEval a [.s x, vf, vm, vb, vt] = some v)
    (hv : v.wf = true) (hwf : ∀ u ∈ [Val.s x, vf, vm, vb, vt], u.wf = true)
    (hx : Rep (.s x) mx) (hf : Rep vf mf) (hm : Rep vm mm) (hb : Rep vb mb) (ht : Rep vt mt)
    (htame : q = Option.none → tameOp cfg.kt (.bconv a) [.s x, vf, vm, vb, vt])
    (hq : ∀ s z, q = some (s, z) → 0 < s ∧ a.outBits = false ∧ tameOp cfg.kt (.bconvI8 a s z) [.s x, vf, vm, vb, vt])
    (he : 0 ≤ ε)
    (hflok : a.outBits = false → q = Option.none → ∀ m b, vm = .f m → vb = .f b → bconvFlOk ε vf m b)
    (hfli8 : ∀ s z, q = some (s, z) → ∀ m b, vm = .f m → vb = .f b → bconvI8FlOk ε a s z vf m b) :
    (bconvRejected cfg nm a q.isSome vf ∧ execBConvFl F cfg nm q a mx mf mm mb mt = .error) ∨
    (¬ bconvRejected cfg nm a q.isSome vf ∧ ∃ m, execBConvFl F cfg nm q a mx mf mm mb mt = .ok m ∧ RepNear ε (v.toInt8 q) m) := by
  rcases exec_bconv_core (nm := nm) hsch e hwf hx hf hm hb ht htame hq with ⟨h1, h2⟩ | ⟨h1, m, h2, h3⟩
  · left
    refine ⟨h1, ?_⟩
    cases ho : a.outBits with
    | true => unfold execBConvFl; rw [ho, if_pos rfl]; exact h2
    | false =>
      unfold execBConv at h2
      have h4 := bind_error (by
        intro r
        dsimp only
        generalize Option.bind (freshMachine _ _) _ = y
        cases y with
        | none => exact fun h => by cases h
        | some o => cases o <;> exact fun h => by cases h) h2
      unfold execBConvFl
      rw [ho]
      simp only [Bool.false_eq_true, if_false]
      rw [h4]
      rfl
  · right
    refine ⟨h1, ?_⟩
    cases ho : a.outBits with
    | true =>
      have hqn : q = Option.none := by
        cases q with
        | none => rfl
        | some q => obtain ⟨_, h3, _⟩ := hq q.1 q.2 rfl; rw [ho] at h3; cases h3
      subst hqn
      refine ⟨m, ?_, _, near_refl he ?_, h3⟩
      · unfold execBConvFl; rw [ho, if_pos rfl]; exact h2
      · have : v.toInt8 Option.none = v := by cases v <;> rfl
        rw [this]; exact hv
    | false => exact exec_bconvFl_ok hF hsch e hwf hx hf hm hb ht ho htame he (hflok ho) hfli8 h1

theorem repNear_of_rep {ε : Rat} (he : 0 ≤ ε) {v : Val} {m : MVal} (hw : v.wf = true) (h : Rep v m) : RepNear ε v m :=
  ⟨v, near_refl he hw, h⟩

theorem exec_tflFl {F : FlCfg} {cfg : Cfg} {mins ml : List MVal} {nm : Nat} {ty : Option (List Nat)} {o : Op} (ho : o.tfl = true) :
    execOpFl F cfg mins nm ty o ml = execPlainFl F o ty ml := by
  cases o <;> first
    | (cases ho; done)
    | rfl

theorem flOp_tfl {F : FlCfg} {ty : Option (List Nat)} {ε : Rat} {es : List Rat} {o : Op} {l : List Val} (ho : o.tfl = true)
    (h : flOp F ty ε es o l) : ∀ l', Nears es l l' →
      ∃ v', F.pf o ty l' = some v' ∧ ∀ v, o.run [] ty l = some v → v.Near ε v' := by
  cases o <;> first
    | (cases ho; done)
    | exact h

theorem flOp_bconv_zero {F : FlCfg} {ty : Option (List Nat)} {ε : Rat} {es : List Rat} {a : BConvAttrs} {x f m b t : Val}
    (h : flOp F ty ε es (.bconv a) [x, f, m, b, t]) : ∀ e ∈ es, e = 0 := by
  cases m <;> cases b <;> first
    | exact h.1
    | exact h

theorem flOp_bconvI8_zero {F : FlCfg} {ty : Option (List Nat)} {ε : Rat} {es : List Rat} {a : BConvAttrs} {s : Rat} {z : Int}
    {x f m b t : Val} (h : flOp F ty ε es (.bconvI8 a s z) [x, f, m, b, t]) : ∀ e ∈ es, e = 0 := by
  cases m <;> cases b <;> first
    | exact h.1
    | exact h

/-- **A node** in floating-point arithmetic. -/
theorem exec_opFl {F : FlCfg} {cfg : Cfg} {ins : List Val} {mins : List MVal} {nm : Nat} {ty : Option (List Nat)} {o : Op}
    {l l' : List Val} {es : List Rat} {ε : Rat}
    {ml : List MVal} {v : Val} (hF : F.Proper) (hsch : cfg.Scheduled) (hins : List.Forall₂ Rep ins mins)
    (hlen : es.length = l.length) (hnear : Nears es l l') (hl : List.Forall₂ Rep l' ml)
    (hwf : ∀ u ∈ l, u.wf = true) (hv : o.run ins ty l = some v) (htame : tameOp cfg.kt o l) (he : 0 ≤ ε)
    (hfl : flOp F ty ε es o l) :
    (rejected cfg nm ty o l ∧ execOpFl F cfg mins nm ty o ml = .error) ∨
    (¬ rejected cfg nm ty o l ∧ ∃ m, execOpFl F cfg mins nm ty o ml = .ok m ∧ RepNear ε v m) := by
  obtain ⟨hev, hvw, hty⟩ := run_some_iff.1 hv
  have hplain : ∀ v', F.pf o ty l' = some v' → v.Near ε v' → (∀ t, Val.s t ∉ l) → (∀ t, v ≠ .s t) →
      ∃ m, execPlainFl F o ty ml = .ok m ∧ RepNear ε v m := by
    intro v' h1 h2 h3 h4
    have h5 : ∀ t, v' ≠ .s t := fun t ht => h4 t ((near_s h2 t).1 ht)
    refine ⟨.plain v', ?_, v', h2, rep_self h5⟩
    unfold execPlainFl
    rw [plain_all hl fun t ht => h3 t ((nears_s hlen hnear t).1 ht)]
    simp only [h1]
  by_cases hot : o.tfl = true
  · obtain ⟨h1, h2, h3⟩ := tfl_plain hot hev
    right
    refine ⟨?_, ?_⟩
    · cases o <;> first
        | (cases hot; done)
        | exact fun h => h
    · rw [exec_tflFl hot]
      obtain ⟨v', q1, q2⟩ := flOp_tfl hot hfl l' hnear
      exact hplain v' q1 (q2 v (run_some_iff.2 ⟨h3, hvw, hty⟩)) h1 h2
  · have hsame : ∀ (_ : l' = l) (_ : execOpFl F cfg mins nm ty o ml = execOp cfg mins nm ty o ml),
        (rejected cfg nm ty o l ∧ execOpFl F cfg mins nm ty o ml = .error) ∨
        (¬ rejected cfg nm ty o l ∧ ∃ m, execOpFl F cfg mins nm ty o ml = .ok m ∧ RepNear ε v m) := by
      intro h1 h2
      subst h1
      rw [h2]
      rcases exec_op (nm := nm) hsch hins hl hwf hv htame with hh | ⟨hh, m, h3, h4⟩
      · exact Or.inl hh
      · exact Or.inr ⟨hh, m, h3, repNear_of_rep he hvw h4⟩
    cases o <;> first
      | exact absurd rfl hot
      | skip
    case arg k =>
      cases l with
      | cons _ _ => cases hev
      | nil =>
        have hnear : List.Forall₂ (fun (p : Val × Rat) v' => Val.Near p.2 p.1 v') [] l' := hnear
        cases hnear
        cases hl
        exact hsame rfl rfl
    case const u =>
      cases l with
      | cons _ _ => cases hev
      | nil =>
        have hnear : List.Forall₂ (fun (p : Val × Rat) v' => Val.Near p.2 p.1 v') [] l' := hnear
        cases hnear
        cases hl
        exact hsame rfl rfl
    case lquant =>
      right
      refine ⟨fun h => h, ?_⟩
      simp only [Op.eval] at hev
      have hone : ∃ x, l = [x] := by
        unfold lquantEval at hev
        split at hev
        · exact ⟨_, rfl⟩
        · exact ⟨_, rfl⟩
        · exact ⟨_, rfl⟩
        · cases hev
      obtain ⟨x, rfl⟩ := hone
      obtain ⟨e, x', rfl, rfl, hx⟩ := nears_one hlen hnear
      obtain ⟨m, rfl, hm⟩ := forall₂_one hl
      have h2 := lquant_near hx hfl
      rcases exec_op (cfg := cfg) (nm := nm) (o := .lquant) (ty := ty) (v := v) hsch hins (.cons hm .nil)
        (by intro u hu; rw [List.mem_singleton.1 hu]; exact near_wf (hwf x (by simp)) hx)
        (run_some_iff.2 ⟨by simp only [Op.eval]; rw [h2]; exact hev, hvw, hty⟩) trivial with ⟨hh, _⟩ | ⟨_, m', h3, h4⟩
      · exact hh.elim
      · exact ⟨m', h3, repNear_of_rep he hvw h4⟩
    case ldequant =>
      simp only [Op.eval] at hev
      have hone : ∃ x, l = [.s x] := by
        unfold ldequantEval at hev
        split at hev
        · exact ⟨_, rfl⟩
        · cases hev
      obtain ⟨x, rfl⟩ := hone
      obtain ⟨e, x', rfl, rfl, hx⟩ := nears_one hlen hnear
      cases hx
      obtain ⟨m, rfl, hm⟩ := forall₂_one hl
      exact hsame rfl rfl
    case ldequantI8 s z =>
      simp only [Op.eval] at hev
      unfold ldequantI8Eval at hev
      split at hev
      · rename_i x
        cases hev
        obtain ⟨e, x', rfl, rfl, hx⟩ := nears_one hlen hnear
        cases hx
        obtain ⟨m, rfl, hm⟩ := forall₂_one hl
        obtain ⟨_, w1, _, w2⟩ := wfQ.1 hvw
        obtain ⟨h1, h2⟩ := exec_dequantizeI8Fl (cfg := cfg) (nm := nm) hF he hm (hwf _ (by simp)) w1 w2 htame hfl
        rcases hty with rfl | rfl
        · exact Or.inl ⟨rfl, h1⟩
        · exact Or.inr ⟨(by rintro ⟨⟩), h2⟩
      · cases hev
    case bmaxPool a =>
      simp only [Op.eval] at hev
      have hone : ∃ x, l = [.s x] := by
        unfold bmaxPoolEval at hev
        split at hev
        · exact ⟨_, rfl⟩
        · cases hev
      obtain ⟨x, rfl⟩ := hone
      obtain ⟨e, x', rfl, rfl, hx⟩ := nears_one hlen hnear
      cases hx
      obtain ⟨m, rfl, hm⟩ := forall₂_one hl
      exact hsame rfl rfl
    case bconv a =>
      simp only [Op.eval] at hev
      have he' := hev
      unfold bconvEval at he'
      split at he'
      · rename_i x vf vm vb vt
        have hz : ∀ e ∈ es, e = 0 := by
          exact flOp_bconv_zero hfl
        have hll := nears_exact hlen hz hnear
        subst hll
        have hfo : a.outBits = false → ∀ m b, vm = .f m → vb = .f b → bconvFlOk ε vf m b := by
          rintro h1 m b rfl rfl
          exact hfl.2 h1
        cases hl with | cons h1 hl => cases hl with | cons h2 hl => cases hl with | cons h3 hl =>
          cases hl with | cons h4 hl => cases hl with | cons h5 hl => cases hl with
          | nil =>
            have := exec_bconvFl (nm := nm) (q := Option.none) hF hsch hev hvw hwf h1 h2 h3 h4 h5 (fun _ => htame)
              (by intro s z h; cases h) he (fun h _ => hfo h) (by intro s z h; cases h)
            have hvi : v.toInt8 Option.none = v := by cases v <;> rfl
            rw [hvi] at this
            exact this
      · cases he'
    case bconvI8 a sc zp =>
      simp only [Op.eval] at hev
      have he' := hev
      unfold bconvI8Eval at he'
      split at he'
      · rename_i t hb
        cases he'
        have hb' := hb
        unfold bconvEval at hb'
        split at hb'
        · rename_i x vf vm vb vt
          have hz : ∀ e ∈ es, e = 0 := by
            exact flOp_bconvI8_zero hfl
          have hll := nears_exact hlen hz hnear
          subst hll
          have ho : a.outBits = false := by
            obtain ⟨_, _, _, _, _, _, _, _, _, _, _, _, _, _, _, hv⟩ := bconvEval_cases hb
            rcases hv with ⟨ho, _⟩ | ⟨_, _, _, _, hc⟩
            · exact ho
            · cases hc
          have hs := (wfQ.1 hvw).2.1
          have hfo : ∀ m b, vm = .f m → vb = .f b → bconvI8FlOk ε a sc zp vf m b := by
            rintro m b rfl rfl
            exact hfl.2
          have htw : (Val.f t).wf = true := by
            have := (wfQ.1 hvw).1
            rw [wfF]
            simpa [TensOf.map] using this
          cases hl with | cons h1 hl => cases hl with | cons h2 hl => cases hl with | cons h3 hl =>
            cases hl with | cons h4 hl => cases hl with | cons h5 hl => cases hl with
            | nil =>
              exact exec_bconvFl (nm := nm) (q := some (sc, zp)) hF hsch hb htw hwf h1 h2 h3 h4 h5 (by intro h; cases h)
                (by intro s' z' h; cases h; exact ⟨hs, ho, htame⟩) he (by intro _ h; cases h)
                (by intro s' z' h; cases h; exact hfo)
        · cases hb'
      · cases he'
    case ident =>
      right
      refine ⟨fun h => h, ?_⟩
      match l, hev, hlen, hnear, hfl with
      | [x], hev, hlen, hnear, hfl =>
        obtain ⟨e, x', rfl, rfl, hx⟩ := nears_one hlen hnear
        obtain ⟨m, rfl, hm⟩ := forall₂_one hl
        cases hev
        exact ⟨m, rfl, x', near_mono (hfl e (by simp)) hx, hm⟩
    case pass =>
      right
      refine ⟨fun h => h, ?_⟩
      match l, hev, hlen, hnear, hfl with
      | [x], hev, hlen, hnear, hfl =>
        obtain ⟨e, x', rfl, rfl, hx⟩ := nears_one hlen hnear
        obtain ⟨m, rfl, hm⟩ := forall₂_one hl
        cases hev
        exact ⟨m, rfl, x', near_mono (hfl e (by simp)) hx, hm⟩
    case other fn =>
      replace hev : fn l = some v := hev
      have hr : (Op.other fn).run [] ty l = some v := run_some_iff.2 ⟨hev, hvw, hty⟩
      obtain ⟨v', q1, q2⟩ := hfl l' hnear
      have q2 := q2 v hr
      by_cases hs : (∃ t, Val.s t ∈ l) ∨ ∃ t, v = .s t
      · left
        constructor
        · rcases hs with hs | ⟨t, rfl⟩
          · exact Or.inl hs
          · exact Or.inr ⟨t, hev⟩
        · show execPlainFl F _ ty ml = _
          unfold execPlainFl
          by_cases hh : ∃ t, Val.s t ∈ l
          · obtain ⟨t, ht⟩ := hh
            rw [plain_none hl ((nears_s hlen hnear t).2 ht)]
          · obtain ⟨t, rfl⟩ := hs.resolve_left hh
            rw [plain_all hl fun t ht => hh ⟨t, (nears_s hlen hnear t).1 ht⟩]
            rw [(near_s q2 t).2 rfl] at q1
            simp only [q1]
      · right
        obtain ⟨h1, h2⟩ := not_or.1 hs
        refine ⟨?_, hplain v' q1 q2 (fun t ht => h1 ⟨t, ht⟩) (fun t ht => h2 ⟨t, ht⟩)⟩
        rintro (h | ⟨t, h⟩)
        · exact h1 h
        · rw [hev] at h; cases h; exact h2 ⟨t, rfl⟩

/-- Names whose values are represented within their tolerances. -/
def NearOn (T : Nat → Rat) (S : List Nat) (V : Env) (env : Nat → Option MVal) : Prop :=
  ∀ x ∈ S, ∃ v m, V x = some v ∧ env x = some m ∧ RepNear (T x) v m

theorem NearOn.mapM {T : Nat → Rat} {S : List Nat} {V : Env} {env : Nat → Option MVal} (h : NearOn T S V env) :
    ∀ {l : List Nat}, (∀ x ∈ l, x ∈ S) → ∃ vs ms, l.mapM V = some vs ∧ l.mapM env = some ms ∧
      List.Forall₂ (fun p m => RepNear p.2 p.1 m) (vs.zip (l.map T)) ms ∧ vs.length = l.length
  | [], _ => ⟨[], [], rfl, rfl, .nil, rfl⟩
  | a :: l, hl => by
    obtain ⟨v, m, h1, h2, h3⟩ := h a (hl a (by simp))
    obtain ⟨vs, ms, e1, e2, e3, e4⟩ := NearOn.mapM h (l := l) fun x hx => hl x (by simp [hx])
    exact ⟨v :: vs, m :: ms, by rw [mapM_cons', h1, e1]; rfl, by rw [mapM_cons', h2, e2]; rfl, .cons h3 e3, by simp [e4]⟩

theorem near_split {es : List Rat} {vs : List Val} {ms : List MVal} (h : List.Forall₂ (fun p m => RepNear p.2 p.1 m) (vs.zip es) ms) :
    ∃ l', Nears es vs l' ∧ List.Forall₂ Rep l' ms := by
  unfold Nears
  generalize vs.zip es = ps at h
  induction h with
  | nil => exact ⟨[], .nil, .nil⟩
  | cons h1 _ ih =>
    obtain ⟨v', a1, a2⟩ := h1
    obtain ⟨l', b1, b2⟩ := ih
    exact ⟨v' :: l', .cons a1 b1, .cons a2 b2⟩

/-- All nodes of a graph in which every node has a value. -/
theorem exec_nodesFl {F : FlCfg} {T : Nat → Rat} {cfg : Cfg} {g : Graph} {ins : List Val} {mins : List MVal} (hF : F.Proper)
    (hg : g.Ssa) (hsch : cfg.Scheduled)
    (hins : List.Forall₂ Rep ins mins) (htame : g.Tame cfg.kt ins) (htol : g.Tolerances F T ins)
    (hdef : ∀ n ∈ g.nodes, ∃ v, runNodes ins g.nodes (fun _ => none) n.name = some v) :
    ∀ post pre env, g.nodes = pre ++ post → NearOn T (pre.map (·.name)) (runNodes ins g.nodes fun _ => none) env →
      ((∃ n ∈ post, ∃ l, n.args.mapM (runNodes ins g.nodes fun _ => none) = some l ∧ rejected cfg n.name n.ty n.op l) ∧
        execNodesFl F cfg mins post env = .error) ∨
      ((¬ ∃ n ∈ post, ∃ l, n.args.mapM (runNodes ins g.nodes fun _ => none) = some l ∧ rejected cfg n.name n.ty n.op l) ∧
        ∃ env', execNodesFl F cfg mins post env = .ok env' ∧
          NearOn T (g.nodes.map (·.name)) (runNodes ins g.nodes fun _ => none) env') := by
  intro post
  induction post with
  | nil =>
    intro pre env he hr
    right
    refine ⟨by simp, env, rfl, ?_⟩
    have he' : g.nodes.map (·.name) = pre.map (·.name) := by rw [he]; simp
    rw [he']; exact hr
  | cons n post ih =>
    intro pre env he hr
    have hn : n ∈ g.nodes := by rw [he]; simp
    obtain ⟨vs, ms, e1, e2, e3, e4⟩ := hr.mapM (hg.scoped.args pre n post he)
    obtain ⟨l', n1, n2⟩ := near_split e3
    obtain ⟨v, hv⟩ := hdef n hn
    have hv' := hv
    rw [hg.scoped.defs ins hn] at hv'
    unfold Node.eval at hv'
    rw [e1, Option.bind_some] at hv'
    have hwf : ∀ u ∈ vs, u.wf = true := by
      intro u hu
      have : ∀ (l : List Nat) (us : List Val), l.mapM (runNodes ins g.nodes fun _ => none) = some us → ∀ u ∈ us, u.wf = true := by
        intro l
        induction l with
        | nil => intro us h; cases h; simp
        | cons a l ihl =>
          intro us h
          rw [mapM_cons', Option.bind_eq_some_iff] at h
          obtain ⟨w, w1, w2⟩ := h
          rw [Option.map_eq_some_iff] at w2
          obtain ⟨us', w2, rfl⟩ := w2
          intro u hu
          rcases List.mem_cons.1 hu with rfl | hu
          · exact runNodes_wf ins g.nodes (fun _ => none) (by simp) _ _ w1
          · exact ihl _ w2 u hu
      exact this _ _ e1 u hu
    have hop := exec_opFl (cfg := cfg) (nm := n.name) hF hsch hins (by rw [List.length_map, e4]) n1 n2 hwf hv'
      (htame n hn vs e1) (htol.1 n.name) (htol.2 n hn vs e1)
    rcases hop with ⟨h1, h2⟩ | ⟨h1, m, h2, h3⟩
    · left
      refine ⟨⟨n, by simp, vs, e1, h1⟩, ?_⟩
      simp only [execNodesFl, e2, h2]
      rfl
    · have hnd := hg.scoped.nodup
      rw [he] at hnd
      simp only [List.map_append, List.map_cons] at hnd
      have hr' : NearOn T ((pre ++ [n]).map (·.name)) (runNodes ins g.nodes fun _ => none)
          (fun x => if x = n.name then some m else env x) := by
        intro x hx
        rw [List.map_append, List.mem_append] at hx
        rcases hx with hx | hx
        · have : x ≠ n.name := by
            rintro rfl
            exact (List.nodup_append.1 hnd).2.2 _ hx _ (by simp) rfl
          obtain ⟨u, w, q1, q2, q3⟩ := hr x hx
          exact ⟨u, w, q1, by simp only [if_neg this]; exact q2, q3⟩
        · simp only [List.map_cons, List.map_nil, List.mem_singleton] at hx
          subst hx
          exact ⟨v, m, hv, by simp, h3⟩
      have hrun : execNodesFl F cfg mins (n :: post) env
          = execNodesFl F cfg mins post (fun x => if x = n.name then some m else env x) := by
        simp only [execNodesFl, e2, h2]
        rfl
      rcases ih (pre ++ [n]) _ (by rw [he]; simp) hr' with ⟨⟨n', hn', l, k1, k2⟩, k3⟩ | ⟨k1, env', k2, k3⟩
      · left
        exact ⟨⟨n', by simp [hn'], l, k1, k2⟩, by rw [hrun]; exact k3⟩
      · right
        refine ⟨?_, env', by rw [hrun]; exact k2, k3⟩
        rintro ⟨n', hn', l, q1, q2⟩
        rcases List.mem_cons.1 hn' with rfl | hn'
        · rw [e1] at q1; cases q1; exact h1 q2
        · exact k1 ⟨n', hn', l, q1, q2⟩

/-- **One inference in floating-point arithmetic**. -/
theorem exec_graphFl {F : FlCfg} {T : Nat → Rat} {cfg : Cfg} {g : Graph} {ins vs : List Val} {mins : List MVal} (hF : F.Proper)
    (hg : g.Ssa) (hsch : cfg.Scheduled)
    (hins : List.Forall₂ Rep ins mins) (htame : g.Tame cfg.kt ins) (htol : g.Tolerances F T ins)
    (hdef : ∀ n ∈ g.nodes, ∃ v, runNodes ins g.nodes (fun _ => none) n.name = some v) (hv : g.eval ins = some vs) :
    (g.Rejected cfg ins ∧ g.execFl F cfg mins = .error) ∨
    (¬ g.Rejected cfg ins ∧ ∃ ms, g.execFl F cfg mins = .ok ms ∧
      List.Forall₂ (fun p m => RepNear p.2 p.1 m) (vs.zip (g.outs.map T)) ms) := by
  rcases exec_nodesFl hF hg hsch hins htame htol hdef g.nodes [] (fun _ => none) rfl (by intro x hx; cases hx) with
    ⟨h1, h2⟩ | ⟨h1, env, h2, h3⟩
  · left
    refine ⟨h1, ?_⟩
    unfold Graph.execFl
    rw [h2]; rfl
  · right
    refine ⟨h1, ?_⟩
    obtain ⟨us, ms, e1, e2, e3, _⟩ := h3.mapM (l := g.outs) fun x hx => hg.2.2 x hx
    replace hv : g.outs.mapM (runNodes ins g.nodes fun _ => none) = some vs := hv
    rw [e1] at hv
    cases hv
    refine ⟨ms, ?_, e3⟩
    unfold Graph.execFl
    rw [h2]
    simp only [Outcome.bind, e2]

end Verif.Ir
