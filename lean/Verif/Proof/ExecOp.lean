import Verif.Proof.ExecConv

/-! Executing any node by its kernel computes what the graph says. -/

namespace Verif.Ir

/-- Operators that TFLite itself implements and whose operands and results are never binary. -/
def Op.tfl : Op → Bool
  | .bin _ _ | .act _ | .ge | .le | .tquant _ _ | .tdequant | .maxPool _ _ | .conv2d _ | .sign | .select | .not
  | .broadcastTo _ | .transpose | .pad | .tflConv _ _ _ => true
  | _ => false

theorem padCore_f {x : Tens} {p : TensOf Int} {pv : Rat} {v : Val} (h : padCore x p pv = some v) : ∃ t, v = .f t := by
  unfold padCore at h
  repeat' split at h
  all_goals first
    | (cases h; done)
    | (cases h; exact ⟨_, rfl⟩)

theorem tfl_plain {o : Op} {ins : List Val} {l : List Val} {v : Val} (ho : o.tfl = true) (h : o.eval ins l = some v) :
    (∀ t, Val.s t ∉ l) ∧ (∀ t, v ≠ .s t) ∧ o.eval [] l = some v := by
  cases o <;> (first | (cases ho; done) | skip)
  case pad =>
    refine ⟨?_, ?_, h⟩ <;> simp only [Op.eval] at h <;> unfold padEval at h <;> split at h
    · split at h
      · simp
      · cases h
    · simp
    · cases h
    · split at h
      · obtain ⟨t, rfl⟩ := padCore_f h; simp
      · cases h
    · obtain ⟨t, rfl⟩ := padCore_f h; simp
    · cases h
  all_goals
    refine ⟨?_, ?_, h⟩ <;> simp only [Op.eval] at h <;>
    (first
      | unfold binEval at h
      | unfold actEval at h
      | unfold geEval at h
      | unfold leEval at h
      | unfold tquantEval at h
      | unfold tdequantEval at h
      | unfold maxPoolEval at h
      | unfold conv2dEval at h
      | unfold signEval at h
      | unfold selectEval at h
      | unfold notEval at h
      | unfold broadcastToEval at h
      | unfold transposeEval at h
      | unfold tflConvEval at h) <;>
    (repeat' split at h) <;>
    (first
      | (cases h; done)
      | (simp; done)
      | (cases h; simp; done)
      | (rw [Option.map_eq_some_iff] at h; obtain ⟨u, _, rfl⟩ := h; simp; done)
      | (simp only [Option.ite_none_right_eq_some, Option.map_eq_some_iff] at h; obtain ⟨_, u, _, rfl⟩ := h; simp; done))

theorem run_some_iff {o : Op} {ins : List Val} {ty : Option (List Nat)} {l : List Val} {v : Val} :
    o.run ins ty l = some v ↔ o.eval ins l = some v ∧ v.wf = true ∧ (ty = Option.none ∨ ty = some v.shape) := by
  unfold Op.run
  rw [Option.bind_eq_some_iff]
  constructor
  · rintro ⟨u, h1, h2⟩
    split at h2
    · cases h2; exact ⟨h1, by assumption⟩
    · cases h2
  · rintro ⟨h1, h2⟩
    exact ⟨v, h1, if_pos h2⟩

theorem exec_tfl {cfg : Cfg} {mins ml : List MVal} {nm : Nat} {ty : Option (List Nat)} {o : Op} (ho : o.tfl = true) :
    execOp cfg mins nm ty o ml = execPlain o ty ml := by
  cases o <;> first
    | (cases ho; done)
    | rfl

theorem forall₂_getElem? {α β : Type} {R : α → β → Prop} {l : List α} {l' : List β} (h : List.Forall₂ R l l') {k : Nat} {a : α}
    (e : l[k]? = some a) : ∃ b, l'[k]? = some b ∧ R a b := by
  induction h generalizing k with
  | nil => simp at e
  | cons h1 _ ih =>
    cases k with
    | zero => simp at e; subst e; exact ⟨_, rfl, h1⟩
    | succ k => simpa using ih (by simpa using e)

theorem forall₂_one {α β : Type} {R : α → β → Prop} {a : α} {l' : List β} (h : List.Forall₂ R [a] l') :
    ∃ b, l' = [b] ∧ R a b := by
  cases h with
  | cons h1 h => cases h; exact ⟨_, rfl, h1⟩

/-- **A node**: it is refused exactly in the listed cases, and otherwise its kernel computes its value. -/
theorem exec_op {cfg : Cfg} {ins : List Val} {mins : List MVal} {nm : Nat} {ty : Option (List Nat)} {o : Op} {l : List Val}
    {ml : List MVal} {v : Val} (hsch : cfg.Scheduled) (hins : List.Forall₂ Rep ins mins) (hl : List.Forall₂ Rep l ml)
    (hwf : ∀ u ∈ l, u.wf = true) (hv : o.run ins ty l = some v) (htame : tameOp cfg.kt o l) :
    (rejected cfg nm ty o l ∧ execOp cfg mins nm ty o ml = .error) ∨
    (¬ rejected cfg nm ty o l ∧ ∃ m, execOp cfg mins nm ty o ml = .ok m ∧ Rep v m) := by
  obtain ⟨he, hvw, hty⟩ := run_some_iff.1 hv
  by_cases hot : o.tfl = true
  · obtain ⟨h1, h2, h3⟩ := tfl_plain hot he
    right
    refine ⟨?_, ?_⟩
    · cases o <;> first
        | (cases hot; done)
        | exact fun h => h
    · rw [exec_tfl hot]
      exact exec_plain hl h1 h2 (run_some_iff.2 ⟨h3, hvw, hty⟩)
  · cases o <;> first
      | exact absurd rfl hot
      | skip
    case arg k =>
      cases hl with
      | cons _ _ => cases he
      | nil =>
        right
        refine ⟨fun h => h, ?_⟩
        replace he : ins[k]? = some v := he
        obtain ⟨m, h1, h2⟩ := forall₂_getElem? hins he
        refine ⟨m, ?_, h2⟩
        show (match mins[k]? with | none => _ | some m => _) = _
        rw [h1]
    case const u =>
      cases hl with
      | cons _ _ => cases he
      | nil =>
        cases he
        rcases exec_const (cfg := cfg) (nm := nm) hvw with ⟨t, rfl, h1, h2⟩ | ⟨h1, h2⟩
        · exact Or.inl ⟨h1, h2⟩
        · refine Or.inr ⟨?_, h2⟩
          cases v with
          | s t => exact h1 t rfl
          | _ => exact fun h => h
    case lquant =>
      right
      refine ⟨fun h => h, ?_⟩
      simp only [Op.eval] at he
      unfold lquantEval at he
      split at he
      · rename_i x
        split at he
        · cases he
        · rename_i hn
          cases he
          obtain ⟨m, rfl, hm⟩ := forall₂_one hl
          rw [rep_plain hm (by simp)]
          exact exec_quantize_f (hwf _ (by simp)) hn
      · rename_i x
        split at he
        · cases he
        · rename_i hn
          cases he
          obtain ⟨m, rfl, hm⟩ := forall₂_one hl
          rw [rep_plain hm (by simp)]
          exact exec_quantize_b (hwf _ (by simp)) hn
      · rename_i x s z
        split at he
        · cases he
        · rename_i hn
          cases he
          obtain ⟨m, rfl, hm⟩ := forall₂_one hl
          rw [rep_plain hm (by simp)]
          exact exec_quantize_q (hwf _ (by simp)) hn
      · cases he
    case ldequant =>
      simp only [Op.eval] at he
      unfold ldequantEval at he
      split at he
      · rename_i x
        cases he
        obtain ⟨m, rfl, hm⟩ := forall₂_one hl
        obtain ⟨h1, h2⟩ := exec_dequantize (cfg := cfg) (nm := nm) hm (hwf _ (by simp))
        rcases hty with rfl | rfl
        · exact Or.inl ⟨rfl, h1⟩
        · exact Or.inr ⟨(by rintro ⟨⟩), _, h2, rfl⟩
      · cases he
    case ldequantI8 s z =>
      simp only [Op.eval] at he
      unfold ldequantI8Eval at he
      split at he
      · rename_i x
        cases he
        obtain ⟨m, rfl, hm⟩ := forall₂_one hl
        obtain ⟨_, w1, _, w2⟩ := wfQ.1 hvw
        obtain ⟨h1, h2⟩ := exec_dequantizeI8 (cfg := cfg) (nm := nm) hm (hwf _ (by simp)) w1 w2 htame
        rcases hty with rfl | rfl
        · exact Or.inl ⟨rfl, h1⟩
        · exact Or.inr ⟨(by rintro ⟨⟩), _, h2, rfl⟩
      · cases he
    case bmaxPool a =>
      simp only [Op.eval] at he
      have he' := he
      unfold bmaxPoolEval at he'
      split at he'
      · obtain ⟨m, rfl, hm⟩ := forall₂_one hl
        exact Or.inr ⟨fun h => h, exec_bmaxPool hm he⟩
      · cases he'
    case bconv a =>
      simp only [Op.eval] at he
      have he' := he
      unfold bconvEval at he'
      split at he'
      · cases hl with | cons h1 hl => cases hl with | cons h2 hl => cases hl with | cons h3 hl =>
          cases hl with | cons h4 hl => cases hl with | cons h5 hl => cases hl with
          | nil => exact exec_bconv hsch he hwf h1 h2 h3 h4 h5 htame
      · cases he'
    case bconvI8 a sc zp =>
      simp only [Op.eval] at he
      have he' := he
      unfold bconvI8Eval at he'
      split at he'
      · rename_i hb
        unfold bconvEval at hb
        split at hb
        · cases hl with | cons h1 hl => cases hl with | cons h2 hl => cases hl with | cons h3 hl =>
            cases hl with | cons h4 hl => cases hl with | cons h5 hl => cases hl with
            | nil => exact exec_bconvI8 hsch he hvw hwf h1 h2 h3 h4 h5 htame
        · cases hb
      · cases he'
    case ident =>
      right
      refine ⟨fun h => h, ?_⟩
      cases hl with
      | nil => cases he
      | cons h1 hl => cases hl with
        | nil => cases he; exact ⟨_, rfl, h1⟩
        | cons _ _ => cases he
    case pass =>
      right
      refine ⟨fun h => h, ?_⟩
      cases hl with
      | nil => cases he
      | cons h1 hl => cases hl with
        | nil => cases he; exact ⟨_, rfl, h1⟩
        | cons _ _ => cases he
    case other fn =>
      replace he : fn l = some v := he
      have hr : (Op.other fn).run [] ty l = some v := run_some_iff.2 ⟨he, hvw, hty⟩
      by_cases hs : (∃ t, Val.s t ∈ l) ∨ ∃ t, v = .s t
      · left
        refine ⟨?_, exec_plain_error hl hr hs⟩
        rcases hs with hs | ⟨t, rfl⟩
        · exact Or.inl hs
        · exact Or.inr ⟨t, he⟩
      · right
        obtain ⟨h1, h2⟩ := not_or.1 hs
        refine ⟨?_, exec_plain hl (fun t ht => h1 ⟨t, ht⟩) (fun t ht => h2 ⟨t, ht⟩) hr⟩
        rintro (h | ⟨t, h⟩)
        · exact h1 h
        · rw [he] at h; cases h; exact h2 ⟨t, rfl⟩

end Verif.Ir
