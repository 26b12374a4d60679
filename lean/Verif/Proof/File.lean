import Verif.Spec.FileRel
import Verif.Props.Attributes
import Verif.Proof.Ir

/-! Lemmas for C72: one operator through serialization. -/

namespace Verif.Ir

theorem code_quantize : LceOp.quantize.customCode = "LceQuantize" := by decide
theorem code_dequantize : LceOp.dequantize.customCode = "LceDequantize" := by decide
theorem code_bconv : LceOp.bconv2d.customCode = "LceBconv2d" := by decide
theorem code_pool : LceOp.bmaxpool2d.customCode = "LceBMaxPool2d" := by decide

def rtPadding : Padding → RtPadding
  | .same => .same
  | .valid => .valid

theorem act_supported {a : Act} (h : a ≠ .other) : (Act.attr a, a) ∈ supportedActs := by
  cases a <;> simp [Act.attr, supportedActs] at h ⊢

theorem pad_supported (p : Padding) : (paddingAttr p, rtPadding p) ∈ supportedPads := by
  cases p <;> simp [paddingAttr, rtPadding, supportedPads]

theorem act_of_attr (a : Act) : Act.ofAttr (Act.attr a) = a := by cases a <;> rfl

theorem padding_of_attr (p : Padding) : paddingOfAttr (paddingAttr p) = p := by cases p <;> rfl

theorem ofNat_toNat32 {k : Nat} (h : k < 2 ^ 32) : (BitVec.ofNat 32 k).toNat = k := by
  rw [BitVec.toNat_ofNat]; exact Nat.mod_eq_of_lt h

theorem ofNat_msb {k : Nat} (h : k < 2 ^ 31) : (BitVec.ofNat 32 k).msb = false := by
  rw [BitVec.msb_eq_false_iff_two_mul_lt, ofNat_toNat32 (by omega)]
  omega

theorem conv_attrs_round {a : BConvAttrs} (h : a.Below (2 ^ 32)) :
    convAttrsOf a.opAttrs a.outBits = a := by
  obtain ⟨h1, h2, h3, h4, h5, h6⟩ := h
  unfold convAttrsOf BConvAttrs.opAttrs
  simp only [ofNat_toNat32 h1, ofNat_toNat32 h2, ofNat_toNat32 h3, ofNat_toNat32 h4, ofNat_toNat32 h5, ofNat_toNat32 h6,
    act_of_attr, padding_of_attr]

theorem pool_attrs_round {a : PoolAttrs} (h : a.filtH < 2 ^ 32 ∧ a.filtW < 2 ^ 32 ∧ a.strideH < 2 ^ 32 ∧ a.strideW < 2 ^ 32) :
    poolAttrsOf (poolOpAttrs a) = a := by
  obtain ⟨h1, h2, h3, h4⟩ := h
  unfold poolAttrsOf poolOpAttrs
  simp only [ofNat_toNat32 h1, ofNat_toNat32 h2, ofNat_toNat32 h3, ofNat_toNat32 h4, padding_of_attr]

/-- The options of a convolution are written, and read back by the importer. -/
theorem conv_options (a : BConvAttrs) (ha : a.act ≠ .other) :
    ∃ m, bconvOptions a.opAttrs = some m ∧ importBconv m = some a.opAttrs :=
  C35_bconv_import _ (act_supported ha) (pad_supported a.padding)

theorem pool_options (a : PoolAttrs) :
    ∃ m, poolOptions (poolOpAttrs a) = some m ∧ importPool m = some (poolOpAttrs a) ∧
      poolInit m = ⟨BitVec.ofNat 32 a.filtH, BitVec.ofNat 32 a.filtW, BitVec.ofNat 32 a.strideH, BitVec.ofNat 32 a.strideW,
        rtPadding a.padding⟩ := by
  obtain ⟨m, h1, h2, h3⟩ := C35_pool (poolOpAttrs a) (pad_supported a.padding)
  exact ⟨m, h1, h3, h2⟩

theorem options_none {a : BConvAttrs} (h : a.act = .other) : bconvOptions a.opAttrs = none := by
  refine C35_unsupported_activation_witness _ (Or.inl ?_)
  unfold BConvAttrs.opAttrs
  simp only [h, Act.attr]

/-- The attributes that `Init` reads from the options, as `Prepare` gets them. -/
theorem conv_init {a : BConvAttrs} (h : a.Below (2 ^ 31)) (ha : a.act ≠ .other) {m : FlexMap}
    (hm : bconvOptions a.opAttrs = some m) :
    (bconvInit m).bind RtConvAttrs.attrs = if a.padValue = 0 ∨ a.padValue = 1 then
      some ⟨a.strideH, a.strideW, a.dilH, a.dilW, a.padding, a.padValue, a.cin, a.act⟩ else none := by
  obtain ⟨h1, h2, h3, h4, h5, h6⟩ := h
  have hpv : ∀ k, k < 2 → (a.opAttrs.padValues = BitVec.ofNat 32 k ↔ a.padValue = k) := by
    intro k hk
    constructor
    · intro e
      have := congrArg BitVec.toNat e
      unfold BConvAttrs.opAttrs at this
      rw [ofNat_toNat32 (by omega), ofNat_toNat32 (by omega)] at this
      exact this
    · intro e
      unfold BConvAttrs.opAttrs
      rw [e]
  by_cases hp : a.padValue = 0 ∨ a.padValue = 1
  · obtain ⟨m', e, hi⟩ := C35_bconv_runtime a.opAttrs (act_supported ha) (pad_supported a.padding)
      (hp.imp (hpv 0 (by omega)).2 (hpv 1 (by omega)).2)
    rw [hm] at e
    cases e
    rw [hi, if_pos hp]
    unfold BConvAttrs.opAttrs
    simp only [Option.bind_some, RtConvAttrs.attrs, ofNat_msb h1, ofNat_msb h2, ofNat_msb h3, ofNat_msb h4, ofNat_msb h5,
      ofNat_msb h6, Bool.or_false, Bool.false_eq_true, if_false, ofNat_toNat32 (show a.strideH < 2 ^ 32 by omega),
      ofNat_toNat32 (show a.strideW < 2 ^ 32 by omega), ofNat_toNat32 (show a.dilH < 2 ^ 32 by omega),
      ofNat_toNat32 (show a.dilW < 2 ^ 32 by omega), ofNat_toNat32 (show a.padValue < 2 ^ 32 by omega),
      ofNat_toNat32 (show a.cin < 2 ^ 32 by omega)]
    cases a.padding <;> rfl
  · obtain ⟨m', e, hi, -⟩ := C35_bad_pad_value a.opAttrs (act_supported ha) (pad_supported a.padding)
      ⟨fun h => hp (Or.inl ((hpv 0 (by omega)).1 h)), fun h => hp (Or.inr ((hpv 1 (by omega)).1 h))⟩
    rw [hm] at e
    cases e
    rw [hi, if_neg hp]
    rfl

theorem pool_init {a : PoolAttrs} (h : a.filtH < 2 ^ 31 ∧ a.filtW < 2 ^ 31 ∧ a.strideH < 2 ^ 31 ∧ a.strideW < 2 ^ 31)
    {m : FlexMap} (hm : poolOptions (poolOpAttrs a) = some m) : rtPoolAttrs (poolInit m) = some a := by
  obtain ⟨h1, h2, h3, h4⟩ := h
  obtain ⟨m', e, -, hi⟩ := pool_options a
  rw [hm] at e
  cases e
  rw [hi]
  simp only [rtPoolAttrs, ofNat_msb h1, ofNat_msb h2, ofNat_msb h3, ofNat_msb h4, Bool.or_false, Bool.false_eq_true, if_false,
    ofNat_toNat32 (show a.filtH < 2 ^ 32 by omega), ofNat_toNat32 (show a.filtW < 2 ^ 32 by omega),
    ofNat_toNat32 (show a.strideH < 2 ^ 32 by omega), ofNat_toNat32 (show a.strideW < 2 ^ 32 by omega)]
  obtain ⟨a1, a2, a3, a4, p⟩ := a
  cases p <;> rfl

/-! ### Running one operator -/

theorem file_bconv_node (kt : KernelType) {a : BConvAttrs} (h : a.Below (2 ^ 31)) (ha : a.act ≠ .other) {m : FlexMap}
    (hm : bconvOptions a.opAttrs = some m) (x f mu b t : MVal) :
    fileBConvNode kt m (if a.outBits then .words else .float) x f mu b t = bconvNode kt none a x f mu b t := by
  unfold fileBConvNode bconvNode
  rw [conv_init h ha hm]
  cases a.outBits <;> rfl

theorem file_bconv_node_int8 (kt : KernelType) {a : BConvAttrs} (h : a.Below (2 ^ 31)) (ha : a.act ≠ .other)
    (ho : a.outBits = false) {m : FlexMap} (hm : bconvOptions a.opAttrs = some m) (s : Rat) (z : Int) (x f mu b t : MVal) :
    fileBConvNode kt m (.int8 s z) x f mu b t = bconvNode kt (some (s, z)) a x f mu b t := by
  unfold fileBConvNode bconvNode
  rw [conv_init h ha hm, ho]
  rfl

theorem file_bconv (cfg : Cfg) (kt : KernelType) (nm : Nat) {a : BConvAttrs} (h : a.Below (2 ^ 31)) (ha : a.act ≠ .other)
    {m : FlexMap} (hm : bconvOptions a.opAttrs = some m) (x f mu b t : MVal) :
    fileBConv cfg kt nm m (if a.outBits then .words else .float) x f mu b t
      = execBConv { cfg with kt := kt } nm none a x f mu b t := by
  unfold fileBConv execBConv
  rw [file_bconv_node kt h ha hm]
  cases a.outBits <;> rfl

theorem file_bconv_int8 (cfg : Cfg) (kt : KernelType) (nm : Nat) {a : BConvAttrs} (h : a.Below (2 ^ 31)) (ha : a.act ≠ .other)
    (ho : a.outBits = false) {m : FlexMap} (hm : bconvOptions a.opAttrs = some m) (s : Rat) (z : Int) (x f mu b t : MVal) :
    fileBConv cfg kt nm m (.int8 s z) x f mu b t = execBConv { cfg with kt := kt } nm (some (s, z)) a x f mu b t := by
  unfold fileBConv execBConv
  rw [file_bconv_node_int8 kt h ha ho hm, ho]
  rfl

theorem reg_bconv (r : Reg) : registered r.ruy r.useRef r.useIndirect LceOp.bconv2d.customCode = some (.bconv2d r.kernel) := by
  rw [code_bconv]; unfold registered Reg.kernel; simp

theorem reg_pool (r : Reg) : registered r.ruy r.useRef r.useIndirect LceOp.bmaxpool2d.customCode = some .bmaxpool2d := by
  rw [code_pool]; simp [registered]

theorem reg_quantize (r : Reg) : registered r.ruy r.useRef r.useIndirect LceOp.quantize.customCode = some .quantize := by
  rw [code_quantize]; simp [registered]

theorem reg_dequantize (r : Reg) : registered r.ruy r.useRef r.useIndirect LceOp.dequantize.customCode = some .dequantize := by
  rw [code_dequantize]; simp [registered]

/-- The kernel choice matters only to binary convolutions. -/
theorem execOp_kt (cfg : Cfg) (kt : KernelType) (ins : List MVal) (nm : Nat) (ty : Option (List Nat)) (o : Op) (l : List MVal)
    (h : o.isLq = false) : execOp { cfg with kt := kt } ins nm ty o l = execOp cfg ins nm ty o l := by
  unfold execOp
  split <;> first
    | rfl
    | (simp [Op.isLq] at h)

theorem mapM_length {α β : Type} {f : α → Option β} : ∀ {l : List α} {vs : List β}, l.mapM f = some vs → vs.length = l.length
  | [], vs, h => by
    rw [mapM_nil'] at h
    cases h
    rfl
  | x :: l, vs, h => by
    rw [mapM_cons'] at h
    cases e : f x with
    | none => rw [e] at h; simp at h
    | some y =>
      cases e' : l.mapM f with
      | none => rw [e, e'] at h; simp at h
      | some ys =>
        rw [e, e'] at h
        simp at h
        subst h
        simp [mapM_length e']

/-- With another number of operands no operator of the `lq` dialect runs. -/
theorem plain_error {o : Op} (ty : Option (List Nat)) {l : List MVal}
    (h : ∀ vs : List Val, vs.length = l.length → o.eval [] vs = none) : execPlain o ty l = .error := by
  unfold execPlain
  cases e : l.mapM MVal.plain? with
  | none => rfl
  | some vs =>
    have hl : vs.length = l.length := mapM_length e
    simp only [Op.run, h vs hl, Option.bind_none]

theorem exec_custom (reg : Reg) (cfg : Cfg) (ins : List MVal) (nm : Nat) (ty : Option (List Nat)) (c : String) (m : FlexMap)
    (rt : RType) (l : List MVal) :
    execFileOp reg cfg ins nm ty (.custom c m rt) l = execCustom reg cfg nm ty c m rt l := by
  simp only [execFileOp]

/-- One operator of a file runs like the operator it was made from. -/
theorem exec_op_file (reg : Reg) (cfg : Cfg) (ins : List MVal) (nm : Nat) (ty : Option (List Nat)) (o : Op) {fo : FileOp}
    (hb : o.Below (2 ^ 31)) (hf : legalizeOp (.builtin o) = some fo) (l : List MVal) :
    execFileOp reg cfg ins nm ty fo l = execOp { cfg with kt := reg.kernel } ins nm ty o l := by
  by_cases hq : o.isLq
  swap
  · have e : fo = .builtin o := by
      cases o <;> first
        | (simp [Op.isLq] at hq; done)
        | (simpa [legalizeOp] using hf.symm)
    subst e
    rw [execOp_kt _ _ _ _ _ _ _ (by simpa using hq)]
    cases o <;> first
      | rfl
      | (simp [Op.isLq] at hq)
  cases o <;> try (exact absurd hq Bool.false_ne_true)
  case lquant =>
    cases hf
    rw [exec_custom]
    unfold execCustom
    rw [reg_quantize]
    rcases l with _ | ⟨x, _ | ⟨y, l⟩⟩
    · exact (plain_error (o := .lquant) (l := []) ty fun vs hv => by cases vs <;> simp_all [Op.eval, lquantEval]).symm
    · rfl
    · refine (plain_error (o := .lquant) (l := x :: y :: l) ty fun vs hv => ?_).symm
      rcases vs with _ | ⟨a, _ | ⟨b, vs⟩⟩ <;> simp_all [Op.eval, lquantEval]
  case ldequant =>
    cases hf
    rw [exec_custom]
    unfold execCustom
    rw [reg_dequantize]
    rcases l with _ | ⟨x, _ | ⟨y, l⟩⟩
    · exact (plain_error (o := .ldequant) (l := []) ty fun vs hv => by cases vs <;> simp_all [Op.eval, ldequantEval]).symm
    · rfl
    · refine (plain_error (o := .ldequant) (l := x :: y :: l) ty fun vs hv => ?_).symm
      rcases vs with _ | ⟨a, _ | ⟨b, vs⟩⟩ <;> simp_all [Op.eval, ldequantEval]
  case ldequantI8 s z =>
    cases hf
    rw [exec_custom]
    unfold execCustom
    rw [reg_dequantize]
    rcases l with _ | ⟨x, _ | ⟨y, l⟩⟩
    · exact (plain_error (o := .ldequantI8 s z) (l := []) ty fun vs hv => by cases vs <;> simp_all [Op.eval, ldequantI8Eval]).symm
    · rfl
    · refine (plain_error (o := .ldequantI8 s z) (l := x :: y :: l) ty fun vs hv => ?_).symm
      rcases vs with _ | ⟨a, _ | ⟨b, vs⟩⟩ <;> simp_all [Op.eval, ldequantI8Eval]
  case bmaxPool a =>
    obtain ⟨m, hm, rfl⟩ := Option.map_eq_some_iff.1 hf
    rw [exec_custom]
    unfold execCustom
    rw [reg_pool]
    rcases l with _ | ⟨x, _ | ⟨y, l⟩⟩
    · exact (plain_error (o := .bmaxPool a) (l := []) ty fun vs hv => by cases vs <;> simp_all [Op.eval, bmaxPoolEval]).symm
    · simp only [if_true, pool_init hb hm]
      rfl
    · refine (plain_error (o := .bmaxPool a) (l := x :: y :: l) ty fun vs hv => ?_).symm
      rcases vs with _ | ⟨a, _ | ⟨b, vs⟩⟩ <;> simp_all [Op.eval, bmaxPoolEval]
  case bconv a =>
    obtain ⟨m, hm, rfl⟩ := Option.map_eq_some_iff.1 hf
    have ha : a.act ≠ .other := by
      intro h
      rw [options_none h] at hm
      exact absurd hm (by simp)
    rw [exec_custom]
    unfold execCustom
    rw [reg_bconv]
    by_cases hl : ∃ x f mu b t, l = [x, f, mu, b, t]
    · obtain ⟨x, f, mu, b, t, rfl⟩ := hl
      exact file_bconv cfg reg.kernel nm hb ha hm x f mu b t
    · have h5 : l.length ≠ 5 := by
        intro h
        apply hl
        rcases l with _ | ⟨x, _ | ⟨f, _ | ⟨mu, _ | ⟨b, _ | ⟨t, _ | ⟨u, l⟩⟩⟩⟩⟩⟩ <;> simp at h ⊢
      have hr : execOp { cfg with kt := reg.kernel } ins nm ty (.bconv a) l = execPlain (.bconv a) ty l := by
        rcases l with _ | ⟨x, _ | ⟨f, _ | ⟨mu, _ | ⟨b, _ | ⟨t, _ | ⟨u, l⟩⟩⟩⟩⟩⟩ <;> first
          | rfl
          | exact absurd rfl h5
      rw [hr, plain_error ty fun vs hv => ?_]
      · split <;> simp_all
      · rcases vs with _ | ⟨x, _ | ⟨f, _ | ⟨mu, _ | ⟨b, _ | ⟨t, _ | ⟨u, vs⟩⟩⟩⟩⟩⟩ <;> first
          | (exfalso; apply h5; rw [← hv]; rfl)
          | simp [Op.eval, bconvEval]
  case bconvI8 a s z =>
    obtain ⟨m, hm, rfl⟩ := Option.map_eq_some_iff.1 hf
    have ha : a.act ≠ .other := by
      intro h
      rw [options_none h] at hm
      exact absurd hm (by simp)
    rw [exec_custom]
    unfold execCustom
    rw [reg_bconv]
    by_cases hl : ∃ x f mu b t, l = [x, f, mu, b, t]
    · obtain ⟨x, f, mu, b, t, rfl⟩ := hl
      exact file_bconv_int8 cfg reg.kernel nm hb.1 ha hb.2 hm s z x f mu b t
    · have h5 : l.length ≠ 5 := by
        intro h
        apply hl
        rcases l with _ | ⟨x, _ | ⟨f, _ | ⟨mu, _ | ⟨b, _ | ⟨t, _ | ⟨u, l⟩⟩⟩⟩⟩⟩ <;> simp at h ⊢
      have hr : execOp { cfg with kt := reg.kernel } ins nm ty (.bconvI8 a s z) l = execPlain (.bconvI8 a s z) ty l := by
        rcases l with _ | ⟨x, _ | ⟨f, _ | ⟨mu, _ | ⟨b, _ | ⟨t, _ | ⟨u, l⟩⟩⟩⟩⟩⟩ <;> first
          | rfl
          | exact absurd rfl h5
      rw [hr, plain_error ty fun vs hv => ?_]
      · split <;> simp_all
      · rcases vs with _ | ⟨x, _ | ⟨f, _ | ⟨mu, _ | ⟨b, _ | ⟨t, _ | ⟨u, vs⟩⟩⟩⟩⟩⟩ <;> first
          | (exfalso; apply h5; rw [← hv]; rfl)
          | simp [Op.eval, bconvI8Eval, bconvEval]

end Verif.Ir
