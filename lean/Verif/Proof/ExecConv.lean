import Verif.Proof.Exec
import Verif.Proof.IrConv
import Verif.Props.EndToEnd
import Mathlib.Tactic.Ring

/-! Executing a BConv2D node by its kernel computes what the graph says. -/

namespace Verif.Ir

open Finset

/-! ### `Prepare` has no undefined behaviour -/

theorem ensure_ne_ub {c : Bool} {β : Type} {f : Unit → Outcome β} (h : f () ≠ .ub) :
    (Outcome.ensure c).bind f ≠ .ub := by
  cases c
  · exact fun h => by cases h
  · exact h

theorem bind_ne_ub {α β : Type} {x : Outcome α} {f : α → Outcome β} (h : x ≠ .ub) (h' : ∀ a, x = .ok a → f a ≠ .ub) :
    x.bind f ≠ .ub := by
  cases x with
  | ub => exact absurd rfl h
  | error => exact fun h => by cases h
  | ok a => exact h' a rfl

theorem prepGroups_ne_ub {kt : KernelType} {cin cout fd : Nat} (hc : 0 < cin) (hf : 0 < fd) :
    prepGroups kt cin cout fd ≠ .ub := by
  unfold prepGroups
  split
  · exact fun h => by cases h
  · refine ensure_ne_ub ?_
    rw [if_neg (by omega)]
    have hp : 0 < packedSize cin := by rw [packedSize_eq]; omega
    by_cases hm : packedSize cin % fd = 0
    · refine ensure_ne_ub ?_
      have : packedSize cin / fd ≠ 0 := by
        intro h0
        have := Nat.div_add_mod (packedSize cin) fd
        rw [h0, hm] at this
        omega
      simp only [if_neg this]
      exact ensure_ne_ub (ensure_ne_ub (by exact fun h => by cases h))
    · simp only [hm, decide_false]
      exact fun h => by cases h

theorem prepParams_ne_ub {n : Verif.Node} {cout : Nat} (h1 : n.outType = .int32 → n.thr.isSome)
    (h2 : n.outType ≠ .int32 → n.mult.isSome ∧ n.bias.isSome) : prepParams n cout ≠ .ub := by
  unfold prepParams
  split
  · rename_i h
    obtain ⟨t, ht⟩ := Option.isSome_iff_exists.1 (h1 h)
    rw [ht]
    refine bind_ne_ub (x := Outcome.deref (some t)) (fun h => by cases h) fun t' _ => ?_
    refine ensure_ne_ub (ensure_ne_ub ?_)
    unfold Outcome.ensure
    split <;> exact fun h => by cases h
  · rename_i h
    obtain ⟨ha, hb⟩ := h2 h
    obtain ⟨t, ht⟩ := Option.isSome_iff_exists.1 ha
    obtain ⟨t2, ht2⟩ := Option.isSome_iff_exists.1 hb
    rw [ht, ht2]
    refine bind_ne_ub (x := Outcome.deref (some t)) (fun h => by cases h) fun t' _ => ?_
    refine ensure_ne_ub ?_
    refine bind_ne_ub (x := Outcome.deref (some t2)) (fun h => by cases h) fun t' _ => ?_
    refine ensure_ne_ub (ensure_ne_ub (ensure_ne_ub (ensure_ne_ub ?_)))
    unfold Outcome.ensure
    split <;> exact fun h => by cases h

theorem prepare_ne_ub {n : Verif.Node} {i : InputDesc} (hc : ∀ a, n.attrs = some a → 0 < a.cin)
    (hf : 0 < n.filter.dims.getD 3 0 ∨ n.filter.type ≠ .int32) (h1 : n.outType = .int32 → n.thr.isSome)
    (h2 : n.outType ≠ .int32 → n.mult.isSome ∧ n.bias.isSome) : prepare n i ≠ .ub := by
  unfold prepare
  cases ha : n.attrs with
  | none => exact fun h => by cases h
  | some a =>
    refine ensure_ne_ub (ensure_ne_ub (ensure_ne_ub (ensure_ne_ub ?_)))
    rcases hf with hf | hf
    · refine ensure_ne_ub (ensure_ne_ub ?_)
      refine bind_ne_ub (prepGroups_ne_ub (hc a ha) hf) fun g _ => ?_
      refine ensure_ne_ub ?_
      refine bind_ne_ub (prepParams_ne_ub h1 h2) fun _ _ => ?_
      refine ensure_ne_ub (ensure_ne_ub (ensure_ne_ub ?_))
      exact fun h => by cases h
    · simp only [hf, decide_false]
      exact fun h => by cases h

/-! ### The convolution of the packed words -/

theorem pm_rep {t : List Bool} {d : List Word} {rows c : Nat}
    (hb : ∀ r k, r < rows → k < c → (d.getD (r * ((c + 31) / 32) + k / 32) 0#32).getLsbD (k % 32) = t.getD (r * c + k) false)
    {r k : Nat} (hr : r < rows) (hk : k < c) : ((pm d c r k : Int) : Rat) = bitVal (t.getD (r * c + k) false) := by
  unfold pm signVal bitVal
  rw [hb r k hr hk]
  cases t.getD (r * c + k) false <;> simp

theorem conv_rep {p : BConv} {xt ft : List Bool} {xd fd : List Word} {pad : Int} (hp : p.ShapesOk)
    (hx : ∀ r k, r < p.batches * p.inH * p.inW → k < p.cin →
      (xd.getD (r * ((p.cin + 31) / 32) + k / 32) 0#32).getLsbD (k % 32) = xt.getD (r * p.cin + k) false)
    (hf : ∀ r k, r < p.cout * p.filtH * p.filtW → k < p.cinG →
      (fd.getD (r * ((p.cinG + 31) / 32) + k / 32) 0#32).getLsbD (k % 32) = ft.getD (r * p.cinG + k) false)
    (hfl : ft.length = p.cout * p.filtH * p.filtW * p.cinG)
    {b oy ox oc : Nat} (hb : b < p.batches) (ho : oc < p.cout) :
    ((p.conv pad xd fd b oy ox oc : Int) : Rat) = convAt p pad (fun k => bitVal (xt.getD k false))
      (fun fy fx c oc => (ft.map bitVal).getD (((oc * p.filtH + fy) * p.filtW + fx) * p.cinG + c) 0) b oy ox oc := by
  unfold BConv.conv convAt
  push_cast
  refine sum_congr rfl fun fy hfy => sum_congr rfl fun fx hfx => sum_congr rfl fun c hc => ?_
  have hfy := mem_range.1 hfy
  have hfx := mem_range.1 hfx
  have hc := mem_range.1 hc
  have e1 : ((p.weight fd oc fy fx c : Int) : Rat)
      = (ft.map bitVal).getD (((oc * p.filtH + fy) * p.filtW + fx) * p.cinG + c) 0 := by
    have hr := row_lt (row_lt ho hfy) hfx
    have hi := row_lt hr hc
    unfold BConv.weight
    rw [pm_rep hf hr hc, List.getD_eq_getElem?_getD, List.getD_eq_getElem?_getD, List.getElem?_map,
      List.getElem?_eq_getElem (by omega)]
    rfl
  rw [e1]
  refine congrArg (· * _) ?_
  unfold BConv.inputAt
  split
  · rename_i h
    obtain ⟨q1, q2, q3, q4⟩ := h
    exact pm_rep hx (row_lt (row_lt hb (by omega)) (by omega)) (hp.chan ho hc)
  · rfl

/-! ### The node -/

/-- What it means that a BConv2D has a value. -/
theorem bconvEval_cases {a : BConvAttrs} {x : TensOf Bool} {filt m bi thr v : Val}
    (e : bconvEval a [.s x, filt, m, bi, thr] = some v) :
    ∃ n h w co fh fw ci ws p, x.shape = [n, h, w, a.cin] ∧ filt.shape = [co, fh, fw, ci] ∧ filt.signs = some ws ∧
      (ci = a.cin ∨ ci % 32 = 0) ∧ 2 * (fh * fw * ci) < 2147483648 ∧
      geom a.toConvAttrs a.padValue n h w a.cin co fh fw ci = some p ∧
      ((a.outBits = false ∧ ∃ mt bt, m = .f mt ∧ bi = .f bt ∧ thr = .none ∧ mt.shape = [co] ∧ bt.shape = [co] ∧
        v = .f (mk4 n p.outH p.outW co fun b y z c =>
          a.act.real (convAt p (if a.padding = .same ∧ a.padValue = 0 then 0 else 1)
            (fun k => bitVal (x.data.getD k false)) (fun fy fx c oc => ws.getD (((oc * fh + fy) * fw + fx) * ci + c) 0)
            b y z c) * mt.data.getD c 0 + bt.data.getD c 0)) ∨
       (a.outBits = true ∧ ∃ t, thr = .i t ∧ t.shape = [co] ∧
        v = .s (mk4 n p.outH p.outW co fun b y z c =>
          decide (((fh * fw * ci : Nat) - convAt p (if a.padding = .same ∧ a.padValue = 0 then 0 else 1)
            (fun k => bitVal (x.data.getD k false)) (fun fy fx c oc => ws.getD (((oc * fh + fy) * fw + fx) * ci + c) 0)
            b y z c) / 2 > (t.data.getD c 0 : Rat))))) := by
  simp only [bconvEval] at e
  split at e
  · rename_i n h w cin co fh fw ci ws h1 h2 h3
    split at e
    · rename_i hc
      obtain ⟨rfl, hc2, hc3⟩ := hc
      rw [Option.bind_eq_some_iff] at e
      obtain ⟨p, hp, e⟩ := e
      refine ⟨n, h, w, co, fh, fw, ci, ws, p, h1, h2, h3, hc2, hc3, hp, ?_⟩
      split at e
      · rename_i mt bt ho
        split at e
        · rename_i hm
          cases e
          exact Or.inl ⟨ho, mt, bt, rfl, rfl, rfl, hm.1, hm.2, rfl⟩
        · cases e
      · rename_i t ho
        split at e
        · rename_i ht
          cases e
          exact Or.inr ⟨ho, t, rfl, ht, rfl⟩
        · cases e
      · cases e
    · cases e
  · cases e

/-- The words of a pixel: all groups, one group. -/
theorem group_words {cin ci : Nat} (hc : 0 < ci) (hd : cin % ci = 0) (hw : ci = cin ∨ ci % 32 = 0) :
    cin / ci * ((ci + 31) / 32) = (cin + 31) / 32 := by
  rcases hw with rfl | hw
  · rw [Nat.div_self hc, Nat.one_mul]
  · obtain ⟨s, rfl⟩ := Nat.dvd_of_mod_eq_zero hw
    obtain ⟨q, rfl⟩ := Nat.dvd_of_mod_eq_zero hd
    rw [Nat.mul_div_cancel_left q hc]
    have e1 : (32 * s + 31) / 32 = s := by omega
    have e2 : (32 * s * q + 31) / 32 = s * q := by
      rw [Nat.mul_assoc]; omega
    rw [e1, e2, Nat.mul_comm]

theorem geom_shapes {a : ConvAttrs} {pv n h w cin co fh fw ci : Nat} {p : BConv}
    (e : geom a pv n h w cin co fh fw ci = some p) (hw : ci = cin ∨ ci % 32 = 0) : p.ShapesOk := by
  have g := geom_some e
  obtain ⟨_, _, _, _, _, _, hci, hcin⟩ := g.pos
  have hgw := group_words hci g.div.1 hw
  have hcg := g.cinG
  have hp : p.inDepth = (cin + 31) / 32 ∧ p.filtDepth = (ci + 31) / 32 := by
    unfold geom at e
    simp only [Option.ite_none_right_eq_some, Option.some.injEq] at e
    obtain ⟨_, rfl⟩ := e
    exact ⟨rfl, rfl⟩
  have hpos : 0 < cin / ci := Nat.div_pos (Nat.le_of_dvd hcin (Nat.dvd_of_mod_eq_zero g.div.1)) hci
  constructor
  · rw [g.groups]; exact hpos
  · rw [g.groups, g.cout]; exact g.div.2
  · rw [hp.1, g.cinE]
  · rw [hp.2, hcg]
  · rw [hp.1, hp.2, g.groups, hgw]
  · rcases hw with rfl | hw
    · left; rw [g.groups, Nat.div_self hci]
    · right
      rw [g.groups, hcg, g.cinE]
      exact ⟨(Nat.div_mul_cancel (Nat.dvd_of_mod_eq_zero g.div.1)).symm, hw⟩

/-- Unused bits of packed words. -/
theorem unused_getD {rows c : Nat} {d : List Word} (hp : IsPacked rows c d) {q k b : Nat} (hq : q < rows)
    (hk : k < (c + 31) / 32) (hb : b < 32) (hc : c ≤ 32 * k + b) :
    (d.getD (q * ((c + 31) / 32) + k) 0#32).getLsbD b = false := by
  have hl : q * ((c + 31) / 32) + k < d.length := by rw [hp.len]; exact row_lt hq hk
  have := hp.unused q k b _ hq hk hb hc (List.getElem?_eq_getElem hl)
  simpa [hl] using this

section
variable {cfg : Cfg} {nm : Nat} {a : BConvAttrs} {n h w co fh fw ci : Nat} {p : BConv} {xd fd : List Word} {mm mb mt : MVal}
  {q : Option (Rat × Int)}

/-- The parameter tensors are as the result type needs them. -/
def ParamsOk (a : BConvAttrs) (co : Nat) (mm mb mt : MVal) : Prop :=
  (a.outBits = true ∧ ∃ t : TensOf Int, mt = .plain (.i t) ∧ t.shape = [co] ∧ t.data.length = co) ∨
  (a.outBits = false ∧ ∃ m b : Tens, mm = .plain (.f m) ∧ mb = .plain (.f b) ∧ m.shape = [co] ∧ b.shape = [co] ∧
    m.data.length = co ∧ b.data.length = co)

/-- The attributes the kernel reads. -/
def kattrs (a : BConvAttrs) : Attrs := ⟨a.strideH, a.strideW, a.dilH, a.dilW, a.padding, a.padValue, a.cin, a.act⟩

theorem bconv_prepare (hg : geom a.toConvAttrs a.padValue n h w a.cin co fh fw ci = some p)
    (hw : ci = a.cin ∨ ci % 32 = 0) (hpar : ParamsOk a co mm mb mt) :
    (¬ (1 < a.padValue ∨ (cfg.kt = .bgemm ∧ ci ≠ a.cin) ∨ (a.padding = .same ∧ a.padValue = 0 ∧
        ¬ ((cfg.kt = .reference ∧ 2 ∣ a.cin) ∨ (cfg.kt ≠ .reference ∧ a.outBits = false ∧ q.isSome = false ∧ a.act = .none))) ∨
      (cfg.kt = .indirect ∧ cfg.dyn nm = true)) →
      Supported (bconvNode cfg.kt q a (.words [n, h, w, (a.cin + 31) / 32] xd) (.words [co, fh, fw, (ci + 31) / 32] fd) mm mb mt)
        ⟨[n, h, w, (a.cin + 31) / 32], cfg.dyn nm, cfg.loc nm⟩ (kattrs a) (a.cin / ci)) ∧
    ((1 < a.padValue ∨ (cfg.kt = .bgemm ∧ ci ≠ a.cin) ∨ (a.padding = .same ∧ a.padValue = 0 ∧
        ¬ ((cfg.kt = .reference ∧ 2 ∣ a.cin) ∨ (cfg.kt ≠ .reference ∧ a.outBits = false ∧ q.isSome = false ∧ a.act = .none))) ∨
      (cfg.kt = .indirect ∧ cfg.dyn nm = true)) →
      prepare (bconvNode cfg.kt q a (.words [n, h, w, (a.cin + 31) / 32] xd) (.words [co, fh, fw, (ci + 31) / 32] fd) mm mb mt)
        ⟨[n, h, w, (a.cin + 31) / 32], cfg.dyn nm, cfg.loc nm⟩ = .error) := by
  have g := geom_some hg
  obtain ⟨_, _, _, _, _, _, hci, hcin⟩ := g.pos
  have hgw := group_words hci g.div.1 hw
  have hpos : 0 < a.cin / ci := Nat.div_pos (Nat.le_of_dvd hcin (Nat.dvd_of_mod_eq_zero g.div.1)) hci
  have hmul : a.cin / ci * ci = a.cin := Nat.div_mul_cancel (Nat.dvd_of_mod_eq_zero g.div.1)
  have hgroups : ci ≠ a.cin → 2 ≤ a.cin / ci ∧ ci = 32 * ((ci + 31) / 32) := by
    intro hne
    have h32 := hw.resolve_left hne
    refine ⟨?_, by omega⟩
    by_contra hlt
    have : a.cin / ci = 1 := by omega
    rw [this] at hmul
    omega
  constructor
  · intro hn
    obtain ⟨h1, hn⟩ := not_or.1 hn
    obtain ⟨h2, hn⟩ := not_or.1 hn
    obtain ⟨h3, h4⟩ := not_or.1 hn
    refine ⟨rfl, ⟨rfl, rfl⟩, ?_, ?_, ?_⟩
    · refine ⟨n, h, w, _, co, fh, fw, _, rfl, rfl, ?_, ?_, ?_, ?_⟩
      · by_cases hne : ci = a.cin
        · left
          refine ⟨by rw [← hne]; exact Nat.div_self hci, ?_⟩
          rw [hne]; rfl
        · right
          obtain ⟨q1, q2⟩ := hgroups hne
          refine ⟨q1, fun hk => h2 ⟨hk, hne⟩, by omega, ?_, g.div.2⟩
          rw [← q2]; exact hmul.symm
      · rw [show computeOutSize (kattrs a).padding h fh (kattrs a).strideH (kattrs a).dilH = (p.outH : Int) from g.outH.symm]
        omega
      · rw [show computeOutSize (kattrs a).padding w fw (kattrs a).strideW (kattrs a).dilW = (p.outW : Int) from g.outW.symm]
        omega
      · rcases hpar with ⟨ho, t, rfl, hs, _⟩ | ⟨ho, m, b, rfl, rfl, hs1, hs2, _⟩
        · left
          simp [bconvNode, ho, ParamOk, MVal.desc, hs]
        · cases q with
          | none =>
            right; right
            simp [bconvNode, ho, ParamOk, MVal.desc, hs1, hs2]
          | some q =>
            right; left
            simp [bconvNode, ho, ParamOk, MVal.desc, hs1, hs2]
    · intro e1 e2
      have e1 : a.padding = .same := e1
      have e2 : a.padValue = 0 := e2
      by_contra hcon
      apply h3
      refine ⟨e1, e2, fun hh => hcon ?_⟩
      rcases hh with hh | ⟨q1, q2, q4, q3⟩
      · exact Or.inl hh
      · refine Or.inr ⟨q1, ?_, q3⟩
        simp [bconvNode, q2, q4]
    · intro hk
      by_contra hd
      exact h4 ⟨hk, by simpa using hd⟩
  · intro hr
    have hub : prepare (bconvNode cfg.kt q a (.words [n, h, w, (a.cin + 31) / 32] xd)
        (.words [co, fh, fw, (ci + 31) / 32] fd) mm mb mt) ⟨[n, h, w, (a.cin + 31) / 32], cfg.dyn nm, cfg.loc nm⟩ ≠ .ub := by
      apply prepare_ne_ub
      · intro a' ha'
        simp only [bconvNode] at ha'
        split at ha'
        · cases ha'; exact hcin
        · cases ha'
      · left
        simp only [bconvNode, MVal.desc, Option.getD_some, List.getD_cons_succ, List.getD_cons_zero]
        omega
      · intro ht
        rcases hpar with ⟨ho, t, rfl, hs, _⟩ | ⟨ho, m, b, rfl, rfl, hs1, hs2, _⟩
        · simp [bconvNode, MVal.desc]
        · cases q <;> simp [bconvNode, ho] at ht
      · intro ht
        rcases hpar with ⟨ho, t, rfl, hs, _⟩ | ⟨ho, m, b, rfl, rfl, hs1, hs2, _⟩
        · simp [bconvNode, ho] at ht
        · simp [bconvNode, MVal.desc]
    cases hprep : prepare (bconvNode cfg.kt q a (.words [n, h, w, (a.cin + 31) / 32] xd)
        (.words [co, fh, fw, (ci + 31) / 32] fd) mm mb mt) ⟨[n, h, w, (a.cin + 31) / 32], cfg.dyn nm, cfg.loc nm⟩ with
    | ub => exact absurd hprep hub
    | error => rfl
    | ok r =>
      exfalso
      obtain ⟨a', g', ha', hs⟩ := (C21_prepare_accepts_iff _ _).1 ⟨r, hprep⟩
      simp only [bconvNode] at ha'
      split at ha'
      · rename_i hpv
        cases ha'
        obtain ⟨_, _, ⟨b', h', w', d', co', fh', fw', fd', e1, e2, e3, _⟩, e4, e5⟩ := hs
        simp only [bconvNode, MVal.desc, Option.getD_some, List.cons.injEq, and_true] at e2 e3
        obtain ⟨rfl, rfl, rfl, rfl⟩ := e2
        rcases hr with hr | ⟨q1, q2⟩ | ⟨q1, q2, q3⟩ | ⟨q1, q2⟩
        · omega
        · rcases e3 with ⟨_, e3⟩ | ⟨_, e3, _⟩
          · obtain ⟨k1, k2⟩ := hgroups q2
            have : 2 * ((ci + 31) / 32) ≤ a.cin / ci * ((ci + 31) / 32) := Nat.mul_le_mul_right _ k1
            rw [hgw] at this
            rw [e3] at this
            omega
          · exact e3 q1
        · apply q3
          rcases e4 q1 q2 with hh | ⟨k1, k2, k3⟩
          · exact Or.inl hh
          · refine Or.inr ⟨k1, ?_, ?_, k3⟩
            · by_contra ho
              have ho : a.outBits = true := by simpa using ho
              have k2' : (if a.outBits then TType.int32 else if q.isSome then .int8 else .float32) = .float32 := k2
              rw [ho] at k2'
              cases k2'
            · cases q with
              | none => rfl
              | some q =>
                simp only [bconvNode, Option.isSome_some, if_true] at k2
                split at k2 <;> cases k2
        · have := e5 q1
          simp only at this
          rw [this] at q2
          cases q2
      · cases ha'

/-- The data of the tensors is as the kernels need it. -/
theorem bconv_tensors (hg : geom a.toConvAttrs a.padValue n h w a.cin co fh fw ci = some p)
    (hw : ci = a.cin ∨ ci % 32 = 0) (hb : 2 * (fh * fw * ci) < 2147483648) (hpv : ¬ 1 < a.padValue)
    (hx : IsPacked (n * h * w) a.cin xd) (hf : IsPacked (co * fh * fw) ci fd) {kt : KernelType} {dyn : Bool} {loc : Nat} :
    TensorsOk (bconvNode kt q a (.words [n, h, w, (a.cin + 31) / 32] xd) (.words [co, fh, fw, (ci + 31) / 32] fd) mm mb mt)
      (kattrs a) ⟨[n, h, w, (a.cin + 31) / 32], dyn, loc⟩ xd n h w co fh fw ((ci + 31) / 32) (a.cin / ci) := by
  have g := geom_some hg
  obtain ⟨k1, k2, k3, k4, k5, k6, hci, hcin⟩ := g.pos
  have hgw := group_words hci g.div.1 hw
  have hpos : 0 < a.cin / ci := Nat.div_pos (Nat.le_of_dvd hcin (Nat.dvd_of_mod_eq_zero g.div.1)) hci
  have hmul : a.cin / ci * ci = a.cin := Nat.div_mul_cancel (Nat.dvd_of_mod_eq_zero g.div.1)
  have hdiv : a.cin / (a.cin / ci) = ci := by
    conv_lhs => rw [← hmul]
    rw [hmul]
    conv_lhs => arg 1; rw [← hmul]
    exact Nat.mul_div_cancel_left _ hpos
  refine ⟨rfl, rfl, hgw, ⟨hcin, g.coPos, k5, k6, k1, k2⟩, ?_, hx.len, hf.len, ?_, ?_, ?_⟩
  · show a.padValue = 0 ∨ a.padValue = 1
    omega
  · intro q k c hq hk hc hu
    exact unused_getD hx hq hk hc hu
  · intro q k c hq hk hc hu
    refine unused_getD hf hq hk hc ?_
    rw [show (kattrs a).cin = a.cin from rfl, hdiv] at hu
    exact hu
  · rw [show (kattrs a).cin = a.cin from rfl, hdiv]
    exact hb

theorem bconv_prepared (hg : geom a.toConvAttrs a.padValue n h w a.cin co fh fw ci = some p)
    (hw : ci = a.cin ∨ ci % 32 = 0) (hb : 2 * (fh * fw * ci) < 2147483648) (hpv : ¬ 1 < a.padValue)
    (hx : IsPacked (n * h * w) a.cin xd) (hf : IsPacked (co * fh * fw) ci fd) {kt : KernelType} {dyn : Bool} {loc : Nat}
    {r : Prepared}
    (hr : prepare (bconvNode kt q a (.words [n, h, w, (a.cin + 31) / 32] xd) (.words [co, fh, fw, (ci + 31) / 32] fd) mm mb mt)
      ⟨[n, h, w, (a.cin + 31) / 32], dyn, loc⟩ = .ok r) :
    r.p = p ∧ r.outDims = [n, p.outH, p.outW, if a.outBits then (co + 31) / 32 else co] := by
  have ha : (bconvNode kt q a (.words [n, h, w, (a.cin + 31) / 32] xd) (.words [co, fh, fw, (ci + 31) / 32] fd)
      mm mb mt).attrs = some (kattrs a) := by
    simp only [bconvNode]
    rw [if_pos (by omega)]
    rfl
  have ht := bconv_tensors (q := q) (kt := kt) (dyn := dyn) (loc := loc) (mm := mm) (mb := mb) (mt := mt) hg hw hb hpv hx hf
  obtain ⟨_, _, hgr, _⟩ := ht.facts ha hr
  obtain ⟨a', g', ha', _, _, _, _, _, _, _, _, _, _, _, _, rfl⟩ := prepare_eq_ok.1 hr
  rw [ha] at ha'
  cases ha'
  have hgr : g' = a.cin / ci := hgr
  subst hgr
  have key : p = prepConv (kattrs a) (bconvNode kt q a (.words [n, h, w, (a.cin + 31) / 32] xd)
      (.words [co, fh, fw, (ci + 31) / 32] fd) mm mb mt) ⟨[n, h, w, (a.cin + 31) / 32], dyn, loc⟩ (a.cin / ci) := by
    unfold geom at hg
    simp only [Option.ite_none_right_eq_some, Option.some.injEq] at hg
    obtain ⟨_, rfl⟩ := hg
    rfl
  refine ⟨key.symm, ?_⟩
  simp only
  rw [← key]
  cases ho : a.outBits
  · cases q <;> simp [bconvNode, ho, MVal.desc]
  · simp [bconvNode, ho, MVal.desc, packedSize_eq]

end

theorem convAt_weights {p : BConv} {pad pad' : Rat} {x : Nat → Rat} {wt wt' : Nat → Nat → Nat → Nat → Rat} {b oy ox oc : Nat}
    (hp : pad = pad') (hw : ∀ fy fx c, wt fy fx c oc = wt' fy fx c oc) :
    convAt p pad x wt b oy ox oc = convAt p pad' x wt' b oy ox oc := by
  subst hp
  unfold convAt
  refine sum_congr rfl fun fy _ => sum_congr rfl fun fx _ => sum_congr rfl fun c _ => ?_
  rw [hw]

/-- `list_of_elems` for any type of element. -/
theorem list_of_elems' {α : Type} {n h w c : Nat} {o : List α} {g : Nat → Nat → Nat → Nat → α}
    (hl : o.length = n * h * w * c)
    (he : ∀ b y x k, b < n → y < h → x < w → k < c → o[((b * h + y) * w + x) * c + k]? = some (g b y x k)) :
    o = (mk4 n h w c g).data := by
  apply List.ext_getElem?
  intro i
  unfold mk4
  by_cases hi : i < n * h * w * c
  · obtain ⟨d1, d2, d3, d4⟩ := decode_lt hi
    have := he _ _ _ _ d1 d2 d3 d4
    have enc := offset4_encode h w c i
    unfold offset4 at enc
    rw [enc] at this
    rw [this]
    simp [hi, dB, dY, dX, dC]
  · rw [List.getElem?_eq_none (by omega), List.getElem?_eq_none (by simp; omega)]

/-- The value of a node with the result type int8 (`q`: scale and zero point), given its float value. -/
def Val.toInt8 (q : Option (Rat × Int)) : Val → Val
  | .f t => match q with
    | Option.none => .f t
    | some sz => .q (t.map fun v => clampInt8 (roundHalfAway (v / sz.1 + sz.2))) sz.1 sz.2
  | v => v

/-- A number of absolute value at most 2^30 rounds to an int32. -/
theorem round_fits {t : Rat} (h : |t| ≤ 1073741824) : -2147483648 ≤ roundHalfAway t ∧ roundHalfAway t < 2147483648 := by
  obtain ⟨h1, h2⟩ := roundHalfAway_near t
  rw [abs_le] at h
  have e1 : ((roundHalfAway t : Int) : Rat) < ((2147483648 : Int) : Rat) := by push_cast; linarith
  have e2 : ((-2147483648 : Int) : Rat) ≤ ((roundHalfAway t : Int) : Rat) := by push_cast; linarith
  exact ⟨Int.cast_le.1 e2, Int.cast_lt.1 e1⟩

/-- **A BConv2D node**: it is refused exactly in the listed cases, and otherwise its kernel computes the value. -/
theorem exec_bconv_core {cfg : Cfg} {nm : Nat} {a : BConvAttrs} {q : Option (Rat × Int)} {x : TensOf Bool} {vf vm vb vt v : Val}
    {mx mf mm mb mt : MVal} (hsch : cfg.Scheduled) (e : bconvEval a [.s x, vf, vm, vb, vt] = some v)
    (hwf : ∀ u ∈ [Val.s x, vf, vm, vb, vt], u.wf = true)
    (hx : Rep (.s x) mx) (hf : Rep vf mf) (hm : Rep vm mm) (hb : Rep vb mb) (ht : Rep vt mt)
    (htame : q = Option.none → tameOp cfg.kt (.bconv a) [.s x, vf, vm, vb, vt])
    (hq : ∀ s z, q = some (s, z) → 0 < s ∧ a.outBits = false ∧ tameOp cfg.kt (.bconvI8 a s z) [.s x, vf, vm, vb, vt]) :
    (bconvRejected cfg nm a q.isSome vf ∧ execBConv cfg nm q a mx mf mm mb mt = .error) ∨
    (¬ bconvRejected cfg nm a q.isSome vf ∧ ∃ m, execBConv cfg nm q a mx mf mm mb mt = .ok m ∧ Rep (v.toInt8 q) m) := by
  obtain ⟨n, h, w, co, fh, fw, ci, ws, p, hxs, hfs, hsg, hwd, hbd, hg, hv⟩ := bconvEval_cases e
  have g := geom_some hg
  have hpar : ParamsOk a co mm mb mt := by
    rcases hv with ⟨ho, m, b, rfl, rfl, rfl, h1, h2, _⟩ | ⟨ho, t, rfl, h1, _⟩
    · right
      have w1 := wfF.1 (hwf (.f m) (by simp))
      have w2 := wfF.1 (hwf (.f b) (by simp))
      rw [h1] at w1
      rw [h2] at w2
      exact ⟨ho, m, b, rep_plain hm (by simp), rep_plain hb (by simp), h1, h2, by simpa using w1, by simpa using w2⟩
    · left
      have w1 : t.data.length = t.shape.prod := by simpa [Val.wf] using hwf (.i t) (by simp)
      rw [h1] at w1
      exact ⟨ho, t, rep_plain ht (by simp), h1, by simpa using w1⟩
  obtain ⟨xd, rfl, hxp, hxb⟩ := rep4 hx hxs
  cases vf with
  | f tf =>
    left
    refine ⟨Or.inl (by simp), ?_⟩
    have hmf := rep_plain hf (by simp)
    subst hmf
    unfold execBConv
    have hub : prepare (bconvNode cfg.kt q a (.words [n, h, w, (a.cin + 31) / 32] xd) (.plain (.f tf)) mm mb mt)
        ⟨[n, h, w, (a.cin + 31) / 32], cfg.dyn nm, cfg.loc nm⟩ = .error := by
      have hne : prepare (bconvNode cfg.kt q a (.words [n, h, w, (a.cin + 31) / 32] xd) (.plain (.f tf)) mm mb mt)
          ⟨[n, h, w, (a.cin + 31) / 32], cfg.dyn nm, cfg.loc nm⟩ ≠ .ub := by
        apply prepare_ne_ub
        · intro a' ha'
          simp only [bconvNode] at ha'
          split at ha'
          · cases ha'; exact g.pos.2.2.2.2.2.2.2
          · cases ha'
        · right; simp [bconvNode, MVal.desc]
        · intro hty
          rcases hpar with ⟨ho, t, rfl, _⟩ | ⟨ho, _⟩
          · simp [bconvNode, MVal.desc]
          · cases q <;> simp [bconvNode, ho] at hty
        · intro hty
          rcases hpar with ⟨ho, _⟩ | ⟨ho, m, b, rfl, rfl, _⟩
          · simp [bconvNode, ho] at hty
          · simp [bconvNode, MVal.desc]
      cases hprep : prepare (bconvNode cfg.kt q a (.words [n, h, w, (a.cin + 31) / 32] xd) (.plain (.f tf)) mm mb mt)
          ⟨[n, h, w, (a.cin + 31) / 32], cfg.dyn nm, cfg.loc nm⟩ with
      | ub => exact absurd hprep hne
      | error => rfl
      | ok r =>
        obtain ⟨a', g', _, hs⟩ := (C21_prepare_accepts_iff _ _).1 ⟨r, hprep⟩
        have := hs.types.2
        simp [bconvNode, MVal.desc] at this
    simp only [MVal.desc, Option.map_some, Option.getD_some]
    rw [hub]
    rfl
  | s tf =>
    obtain ⟨fd, rfl, hfp, hfb⟩ := rep4 hf hfs
    simp only [Val.signs, Option.some.injEq] at hsg
    subst hsg
    obtain ⟨hprep1, hprep2⟩ := bconv_prepare (q := q) (cfg := cfg) (nm := nm) (xd := xd) (fd := fd) hg hwd hpar
    have hrej : bconvRejected cfg nm a q.isSome (.s tf) ↔
        (1 < a.padValue ∨ (cfg.kt = .bgemm ∧ ci ≠ a.cin) ∨ (a.padding = .same ∧ a.padValue = 0 ∧
          ¬ ((cfg.kt = .reference ∧ 2 ∣ a.cin) ∨ (cfg.kt ≠ .reference ∧ a.outBits = false ∧ q.isSome = false ∧ a.act = .none))) ∨
        (cfg.kt = .indirect ∧ cfg.dyn nm = true)) := by
      have : (Val.s tf).shape.getD 3 0 = ci := by rw [hfs]; rfl
      show (_ ∨ 1 < a.padValue ∨ (cfg.kt = .bgemm ∧ (Val.s tf).shape.getD 3 0 ≠ a.cin) ∨ _) ↔ _
      rw [this]
      constructor
      · rintro (hh | hh)
        · exact absurd rfl (hh tf)
        · exact hh
      · exact Or.inr
    by_cases hrj : bconvRejected cfg nm a q.isSome (.s tf)
    · left
      refine ⟨hrj, ?_⟩
      unfold execBConv
      simp only [MVal.desc, Option.map_some, Option.getD_some]
      rw [hprep2 (hrej.1 hrj)]
      rfl
    · right
      refine ⟨hrj, ?_⟩
      have hnr := fun hh => hrj (hrej.2 hh)
      have hsup := hprep1 hnr
      have hpv : ¬ 1 < a.padValue := fun hh => hnr (Or.inl hh)
      have hat : (bconvNode cfg.kt q a (.words [n, h, w, (a.cin + 31) / 32] xd)
          (.words [co, fh, fw, (ci + 31) / 32] fd) mm mb mt).attrs = some (kattrs a) := by
        simp only [bconvNode]
        rw [if_pos (by omega)]
        rfl
      obtain ⟨r, hr⟩ := (C21_prepare_accepts_iff _ _).2 ⟨_, _, hat, hsup⟩
      obtain ⟨hrp, hro⟩ := bconv_prepared hg hwd hbd hpv hxp hfp hr
      have hto := bconv_tensors (q := q) (kt := cfg.kt) (dyn := cfg.dyn nm) (loc := cfg.loc nm) (mm := mm) (mb := mb) (mt := mt)
        hg hwd hbd hpv hxp hfp
      have hshape := geom_shapes hg hwd
      have hmach : ∃ f, freshMachine (bconvNode cfg.kt q a (.words [n, h, w, (a.cin + 31) / 32] xd)
          (.words [co, fh, fw, (ci + 31) / 32] fd) mm mb mt) ⟨[n, h, w, (a.cin + 31) / 32], cfg.dyn nm, cfg.loc nm⟩ = some f := by
        unfold freshMachine resize
        rw [hr]
        exact ⟨_, rfl⟩
      obtain ⟨f, hfm⟩ := hmach
      have hconv : ∀ b y z c, b < n → c < co →
          ((p.conv (kattrs a).padded xd fd b y z c : Int) : Rat)
            = convAt p (if a.padding = .same ∧ a.padValue = 0 then 0 else 1) (fun k => bitVal (x.data.getD k false))
              (fun fy fx c oc => (tf.data.map bitVal).getD (((oc * fh + fy) * fw + fx) * ci + c) 0) b y z c := by
        intro b y z c hbn hc
        have htl : tf.data.length = co * fh * fw * ci := by
          have := wfS.1 (hwf (.s tf) (by simp))
          rw [show tf.shape = [co, fh, fw, ci] from hfs] at this
          simpa [← mul_assoc] using this
        have := conv_rep (p := p) (xt := x.data) (ft := tf.data) (xd := xd) (fd := fd) (pad := (kattrs a).padded) hshape
          (by rw [g.batches, g.inH, g.inW, g.cinE]; exact hxb)
          (by rw [g.cout, g.filtH, g.filtW, g.cinG]; exact hfb)
          (by rw [g.cout, g.filtH, g.filtW, g.cinG]; exact htl)
          (b := b) (oy := y) (ox := z) (oc := c) (by rw [g.batches]; exact hbn) (by rw [g.cout]; exact hc)
        rw [this]
        refine convAt_weights ?_ ?_
        · unfold Attrs.padded
          show (((if a.padding = .same ∧ a.padValue = 0 then 0 else 1 : Int)) : Rat) = _
          split <;> simp
        · intro fy fx k
          rw [g.filtH, g.filtW, g.cinG]
      rcases hv with ⟨ho, m, b, rfl, rfl, rfl, h1, h2, rfl⟩ | ⟨ho, t, rfl, h1, rfl⟩
      · -- float result
        have hmm := rep_plain hm (by simp)
        have hmb := rep_plain hb (by simp)
        subst hmm hmb
        have hml : m.data.length = co := by
          have := wfF.1 (hwf (.f m) (by simp)); rw [h1] at this; simpa using this
        have hbl : b.data.length = co := by
          have := wfF.1 (hwf (.f b) (by simp)); rw [h2] at this; simpa using this
        cases q with
        | none =>
          obtain ⟨ht1, ht2, ht3⟩ := htame rfl n h w a.cin co fh fw ci hxs hfs
          have hty : (bconvNode cfg.kt Option.none a (.words [n, h, w, (a.cin + 31) / 32] xd) (.words [co, fh, fw, (ci + 31) / 32] fd)
              (.plain (.f m)) (.plain (.f b)) mt).outType = .float32 := by simp [bconvNode, ho]
          have hout : (buf (cfg.bufR nm) r.outDims.prod).length = n * r.p.outH * r.p.outW * co := by
            rw [buf_length, hro, hrp, ho]
            simp [← mul_assoc]
          have hres : ∃ out, output (bconvNode cfg.kt Option.none a (.words [n, h, w, (a.cin + 31) / 32] xd)
              (.words [co, fh, fw, (ci + 31) / 32] fd) (.plain (.f m)) (.plain (.f b)) mt) ⟨cfg.fat nm, cfg.blocks nm (if a.outBits then 32 else 1) r.p.cout
              (r.p.batches * r.p.outH * r.p.outW), roundHalfAway⟩ f xd (.f (buf (cfg.bufR nm) r.outDims.prod)) = some (.f out) ∧
              out.length = (buf (cfg.bufR nm) r.outDims.prod).length ∧ FloatResult (bconvNode cfg.kt Option.none a (.words [n, h, w, (a.cin + 31) / 32] xd)
              (.words [co, fh, fw, (ci + 31) / 32] fd) (.plain (.f m)) (.plain (.f b)) mt) (kattrs a) r.p xd out := by
            have hkt : cfg.kt = .reference ∨ cfg.kt = .bgemm ∨ cfg.kt = .indirect := by
              cases cfg.kt <;> simp
            rcases hkt with hk | hk | hk
            · exact fresh_reference_float hat hk hty hto hml hbl hr hfm _ hout
            · suffices hsc : Schedule co (n * r.p.outH * r.p.outW) 1 1 (cfg.blocks nm (if a.outBits then 32 else 1) r.p.cout
                  (r.p.batches * r.p.outH * r.p.outW)) by
                obtain ⟨out, o1, o2, o3⟩ := fresh_bgemm_exact hat hk hty hto hml hbl hr hfm ⟨cfg.fat nm, cfg.blocks nm (if a.outBits then 32 else 1) r.p.cout
                  (r.p.batches * r.p.outH * r.p.outW), roundHalfAway⟩ hsc hout
                exact ⟨out, o1, o2, o3.fits fun q1 q2 => hrp ▸ ht1 (by rw [hk]; decide) q1 q2 p hg⟩
              have := hsch nm 1 r.p.cout (r.p.batches * r.p.outH * r.p.outW) (by omega)
              rw [hrp, g.cout, g.batches] at this ⊢
              simpa [ho] using this
            · obtain ⟨out, o1, o2, o3⟩ := fresh_indirect_exact hat hk hty hto hml hbl hr hfm _ hout
              exact ⟨out, o1, o2, o3.fits fun q1 q2 => hrp ▸ ht1 (by rw [hk]; decide) q1 q2 p hg⟩
          obtain ⟨out, o1, o2, o3⟩ := hres
          refine ⟨.plain (.f ⟨r.outDims, out⟩), ?_, ?_⟩
          · unfold execBConv
            simp only [MVal.desc, Option.map_some, Option.getD_some]
            rw [hr]
            simp only [Outcome.bind]
            rw [hfm, Option.bind_some]
            simp only [ho, Bool.false_eq_true, if_false, Option.isSome_none] at o1 ⊢
            simp only [MVal.bits]
            rw [o1]
          · show Val.f _ = Val.f _
            refine congrArg Val.f ?_
            rw [hro, ho]
            refine congrArg (TensOf.mk [n, p.outH, p.outW, co]) ?_
            rw [hrp] at o3 hout
            refine list_of_elems (n := n) (h := p.outH) (w := p.outW) (c := co) (g := fun b' y z c => a.act.real (convAt p
              (if a.padding = .same ∧ a.padValue = 0 then 0 else 1) (fun k => bitVal (x.data.getD k false))
              (fun fy fx c oc => (tf.data.map bitVal).getD (((oc * fh + fy) * fw + fx) * ci + c) 0) b' y z c) * m.data.getD c 0
              + b.data.getD c 0) (o2.trans hout) fun b' y z c hb' hy hz hc => ?_
            have := o3 b' y z c (by rw [g.batches]; exact hb') hy hz (by rw [g.cout]; exact hc)
            rw [g.cout] at this
            rw [this, ← hconv b' y z c hb' hc, Act.real_cast]
            rfl
        | some q =>
          obtain ⟨s, z⟩ := q
          obtain ⟨hs0, _, hran⟩ := hq s z rfl
          have hty : (bconvNode cfg.kt (some (s, z)) a (.words [n, h, w, (a.cin + 31) / 32] xd) (.words [co, fh, fw, (ci + 31) / 32] fd)
              (.plain (.f m)) (.plain (.f b)) mt).outType = .int8 := by simp [bconvNode, ho]
          have hout : ((buf (cfg.bufB nm) r.outDims.prod).map BitVec.toInt).length = n * r.p.outH * r.p.outW * co := by
            rw [List.length_map, buf_length, hro, hrp, ho]
            simp [← mul_assoc]
          have hdv : a.cin / (a.cin / ci) = ci := by
            have := g.cinG
            unfold BConv.cinG at this
            rwa [g.cinE, g.groups] at this
          obtain ⟨out, o1, o2, o3⟩ := fresh_int8_any hat hty hs0 hto hml hbl
            ⟨cfg.fat nm, cfg.blocks nm (if a.outBits then 32 else 1) r.p.cout (r.p.batches * r.p.outH * r.p.outW), roundHalfAway⟩
            (by
              intro k c hk hc
              rw [show (kattrs a).cin = a.cin from rfl, hdv] at hk
              rw [abs_le] at hk
              have := hran co fh fw ci hfs k c hk.1 hk.2 hc
              rw [Act.real_cast] at this
              exact round_fits this)
            hr hfm (fun hk => by
              have := hsch nm 1 r.p.cout (r.p.batches * r.p.outH * r.p.outW) (by omega)
              rw [hrp, g.cout, g.batches] at this ⊢
              simpa [ho] using this) hout
          refine ⟨.plain (.q ⟨r.outDims, out⟩ s z), ?_, ?_⟩
          · unfold execBConv
            simp only [MVal.desc, Option.map_some, Option.getD_some]
            rw [hr]
            simp only [Outcome.bind]
            rw [hfm, Option.bind_some]
            simp only [ho, Bool.false_eq_true, if_false, Option.isSome_some, if_true] at o1 ⊢
            simp only [MVal.bits]
            rw [o1]
            simp only [bconvNode, Option.map_some, Option.getD_some]
          · show Val.q _ s z = Val.q _ s z
            refine congrArg (fun t => Val.q t s z) ?_
            rw [hro, ho]
            rw [mk4_map]
            refine congrArg (TensOf.mk [n, p.outH, p.outW, co]) ?_
            rw [hrp] at o3 hout
            refine list_of_elems' (n := n) (h := p.outH) (w := p.outW) (c := co) (g := fun b' y z' c => clampInt8 (roundHalfAway ((a.act.real
              (convAt p (if a.padding = .same ∧ a.padValue = 0 then 0 else 1) (fun k => bitVal (x.data.getD k false))
              (fun fy fx c oc => (tf.data.map bitVal).getD (((oc * fh + fy) * fw + fx) * ci + c) 0) b' y z' c) * m.data.getD c 0
              + b.data.getD c 0) / s + z))) (o2.trans hout) fun b' y z' c hb' hy hz hc => ?_
            have := o3 b' y z' c (by rw [g.batches]; exact hb') hy hz (by rw [g.cout]; exact hc)
            rw [g.cout] at this
            rw [this, ← hconv b' y z' c hb' hc, Act.real_cast]
            rfl
      · -- binary result
        have hqn : q = Option.none := by
          cases q with
          | none => rfl
          | some q => obtain ⟨_, h3, _⟩ := hq q.1 q.2 rfl; rw [ho] at h3; cases h3
        subst hqn
        obtain ⟨ht1, ht2, ht3⟩ := htame rfl n h w a.cin co fh fw ci hxs hfs
        have hmt := rep_plain ht (by simp)
        subst hmt
        have htl : t.data.length = co := by
          have : t.data.length = t.shape.prod := by simpa [Val.wf] using hwf (.i t) (by simp)
          rw [h1] at this; simpa using this
        have hty : (bconvNode cfg.kt Option.none a (.words [n, h, w, (a.cin + 31) / 32] xd) (.words [co, fh, fw, (ci + 31) / 32] fd)
            mm mb (.plain (.i t))).outType = .int32 := by simp [bconvNode, ho]
        have hout : (buf (cfg.bufW nm) r.outDims.prod).length = n * r.p.outH * r.p.outW * ((co + 31) / 32) := by
          rw [buf_length, hro, hrp, ho]
          simp [← mul_assoc]
        obtain ⟨out, o1, o2⟩ := fresh_bits_any hat hty hto htl (fun q1 q2 => absurd ⟨q1, q2⟩ (ht2 ho))
          (fun hk => ht3 hk ho) hr hfm ⟨cfg.fat nm, cfg.blocks nm (if a.outBits then 32 else 1) r.p.cout
            (r.p.batches * r.p.outH * r.p.outW), roundHalfAway⟩ (fun hk => by
            have := hsch nm 32 r.p.cout (r.p.batches * r.p.outH * r.p.outW) (by omega)
            rw [hrp, g.cout, g.batches] at this ⊢
            simpa [ho] using this) hout
        refine ⟨.words r.outDims out, ?_, ?_⟩
        · unfold execBConv
          simp only [MVal.desc, Option.map_some, Option.getD_some]
          rw [hr]
          simp only [Outcome.bind]
          rw [hfm, Option.bind_some]
          simp only [ho, if_true] at o1 ⊢
          simp only [MVal.bits]
          rw [o1]
        · rw [hrp] at o2
          obtain ⟨o2, o3⟩ := o2
          rw [hro, ho]
          rw [g.batches, g.cout] at o2 o3
          refine rep_mk4 o2 fun b' y z c hb' hy hz hc => ?_
          obtain ⟨wd, d, q1, q2, q3⟩ := o3 b' y z c hb' hy hz hc
          refine ⟨wd, q1, ?_⟩
          have hdv : a.cin / (a.cin / ci) = ci := by
            have := g.cinG
            unfold BConv.cinG at this
            rwa [g.cinE, g.groups] at this
          rw [Bool.eq_iff_iff, q3, decide_eq_true_eq, ← hconv b' y z c hb' hc]
          have q2 : ((fh * fw * (a.cin / (a.cin / ci)) : Nat) : Int) - 2 * d
            = p.conv (kattrs a).padded xd fd b' y z c := q2
          rw [hdv] at q2
          rw [← q2]
          push_cast
          rw [show ((fh : Rat) * fw * ci - (fh * fw * ci - 2 * d)) / 2 = d by ring]
          show d > t.data.getD c 0 ↔ _
          exact (Int.cast_lt (R := Rat)).symm
  | _ => simp [Val.signs] at hsg

theorem exec_bconv {cfg : Cfg} {nm : Nat} {ty : Option (List Nat)} {a : BConvAttrs} {x : TensOf Bool} {vf vm vb vt v : Val}
    {mx mf mm mb mt : MVal} (hsch : cfg.Scheduled) (e : bconvEval a [.s x, vf, vm, vb, vt] = some v)
    (hwf : ∀ u ∈ [Val.s x, vf, vm, vb, vt], u.wf = true)
    (hx : Rep (.s x) mx) (hf : Rep vf mf) (hm : Rep vm mm) (hb : Rep vb mb) (ht : Rep vt mt)
    (htame : tameOp cfg.kt (.bconv a) [.s x, vf, vm, vb, vt]) :
    (rejected cfg nm ty (.bconv a) [.s x, vf, vm, vb, vt] ∧ execBConv cfg nm Option.none a mx mf mm mb mt = .error) ∨
    (¬ rejected cfg nm ty (.bconv a) [.s x, vf, vm, vb, vt] ∧
      ∃ m, execBConv cfg nm Option.none a mx mf mm mb mt = .ok m ∧ Rep v m) := by
  have h := exec_bconv_core (nm := nm) (q := Option.none) hsch e hwf hx hf hm hb ht (fun _ => htame) (by intro s z h; cases h)
  have : v.toInt8 Option.none = v := by cases v <;> rfl
  rw [this] at h
  exact h

theorem exec_bconvI8 {cfg : Cfg} {nm : Nat} {ty : Option (List Nat)} {a : BConvAttrs} {s : Rat} {z : Int} {x : TensOf Bool}
    {vf vm vb vt v : Val}
    {mx mf mm mb mt : MVal} (hsch : cfg.Scheduled) (e : bconvI8Eval a s z [.s x, vf, vm, vb, vt] = some v) (hv : v.wf = true)
    (hwf : ∀ u ∈ [Val.s x, vf, vm, vb, vt], u.wf = true)
    (hx : Rep (.s x) mx) (hf : Rep vf mf) (hm : Rep vm mm) (hb : Rep vb mb) (ht : Rep vt mt)
    (htame : tameOp cfg.kt (.bconvI8 a s z) [.s x, vf, vm, vb, vt]) :
    (rejected cfg nm ty (.bconvI8 a s z) [.s x, vf, vm, vb, vt] ∧
      execBConv cfg nm (some (s, z)) a mx mf mm mb mt = .error) ∨
    (¬ rejected cfg nm ty (.bconvI8 a s z) [.s x, vf, vm, vb, vt] ∧
      ∃ m, execBConv cfg nm (some (s, z)) a mx mf mm mb mt = .ok m ∧ Rep v m) := by
  unfold bconvI8Eval at e
  split at e
  · rename_i t he
    cases e
    have ho : a.outBits = false := by
      obtain ⟨_, _, _, _, _, _, _, _, _, _, _, _, _, _, _, hv⟩ := bconvEval_cases he
      rcases hv with ⟨ho, _⟩ | ⟨_, _, _, _, hc⟩
      · exact ho
      · cases hc
    have hs := (wfQ.1 hv).2.1
    exact exec_bconv_core (nm := nm) (q := some (s, z)) hsch he hwf hx hf hm hb ht (by intro h; cases h)
      (by intro s' z' h; cases h; exact ⟨hs, ho, htame⟩)
  · cases e

end Verif.Ir
