import Verif.Model.Attributes
import Verif.Proof.OpState

/-! C35: operator attributes survive serialization. -/

namespace Verif

theorem setWidth_round (v : BitVec 32) : (flexInt v).setWidth 32 = v := by
  unfold flexInt
  apply BitVec.eq_of_toNat_eq
  simp only [BitVec.toNat_setWidth]
  have := v.isLt
  omega

/-- The activation functions the runtime implements, with their names in the converter. -/
def supportedActs : List (String × Act) :=
  [("NONE", .none), ("RELU", .relu), ("RELU_N1_TO_1", .reluN1To1), ("RELU6", .relu6)]

/-- The padding types, with their names. -/
def supportedPads : List (String × RtPadding) := [("SAME", .same), ("VALID", .valid)]

theorem bconvOptions_some {a : ConvOpAttrs} {ac : Act} {pd : RtPadding} (hact : (a.act, ac) ∈ supportedActs)
    (hpad : (a.padding, pd) ∈ supportedPads) :
    ∃ ca cp, activationCode a.act = some ca ∧ paddingCode a.padding = some cp ∧
      convertActivation ((BitVec.ofNat 64 ca).setWidth 32) = ac ∧ convertPadding ((BitVec.ofNat 64 cp).setWidth 32) = pd ∧
      activationName ((BitVec.ofNat 64 ca).setWidth 32) = some a.act ∧
      paddingName ((BitVec.ofNat 64 cp).setWidth 32) = some a.padding := by
  simp only [supportedActs, supportedPads, List.mem_cons, Prod.mk.injEq, List.not_mem_nil, or_false] at hact hpad
  rcases hact with ⟨h1, rfl⟩ | ⟨h1, rfl⟩ | ⟨h1, rfl⟩ | ⟨h1, rfl⟩ <;>
    rcases hpad with ⟨h2, rfl⟩ | ⟨h2, rfl⟩ <;> rw [h1, h2] <;> exact ⟨_, _, rfl, rfl, by decide, by decide, by decide, by decide⟩

/-- The map that `Bconv2dOp::buildCustomOptions` writes, with arbitrary entries. -/
theorem bconvInit_eval (v1 v2 v3 v4 v5 v6 v7 v8 : BitVec 64) :
    bconvInit [("channels_in", v1), ("dilation_height_factor", v2), ("dilation_width_factor", v3),
      ("fused_activation_function", v4), ("pad_values", v5), ("padding", v6), ("stride_height", v7), ("stride_width", v8)]
    = if v5.setWidth 32 ≠ 0#32 ∧ v5.setWidth 32 ≠ 1#32 then none else
      some ⟨v7.setWidth 32, v8.setWidth 32, v2.setWidth 32, v3.setWidth 32, convertPadding (v6.setWidth 32),
        v5.setWidth 32, v1.setWidth 32, convertActivation (v4.setWidth 32)⟩ := by
  simp [bconvInit, FlexMap.isNull, FlexMap.asInt32, List.lookup]

theorem importBconv_eval (v1 v2 v3 v4 v5 v6 v7 v8 : BitVec 64) :
    importBconv [("channels_in", v1), ("dilation_height_factor", v2), ("dilation_width_factor", v3),
      ("fused_activation_function", v4), ("pad_values", v5), ("padding", v6), ("stride_height", v7), ("stride_width", v8)]
    = (activationName (v4.setWidth 32)).bind fun act => (paddingName (v6.setWidth 32)).bind fun pad =>
      some ⟨v1.setWidth 32, v2.setWidth 32, v3.setWidth 32, act, v5.setWidth 32, pad, v7.setWidth 32, v8.setWidth 32⟩ := by
  simp [importBconv, FlexMap.asInt32, List.lookup]

theorem poolInit_eval (v1 v2 v3 v4 v5 : BitVec 64) :
    poolInit [("padding", v1), ("stride_width", v2), ("stride_height", v3), ("filter_width", v4), ("filter_height", v5)]
    = ⟨v5.setWidth 32, v4.setWidth 32, v3.setWidth 32, v2.setWidth 32, convertPadding (v1.setWidth 32)⟩ := by
  simp [poolInit, FlexMap.asInt32, List.lookup]

theorem importPool_eval (v1 v2 v3 v4 v5 : BitVec 64) :
    importPool [("padding", v1), ("stride_width", v2), ("stride_height", v3), ("filter_width", v4), ("filter_height", v5)]
    = (paddingName (v1.setWidth 32)).bind fun pad =>
      some ⟨pad, v2.setWidth 32, v3.setWidth 32, v4.setWidth 32, v5.setWidth 32⟩ := by
  simp [importPool, FlexMap.asInt32, List.lookup]

section
variable (a : ConvOpAttrs) {ac : Act} {pd : RtPadding}

/-- **C35 (BConv2D, runtime).** For every 32-bit value of the integer attributes, every supported activation and padding
and `pad_values` 0 or 1, the options written by the converter are read by the kernel's `Init` as exactly the same
attributes. -/
theorem C35_bconv_runtime (hact : (a.act, ac) ∈ supportedActs)
    (hpad : (a.padding, pd) ∈ supportedPads) (hpv : a.padValues = 0#32 ∨ a.padValues = 1#32) :
    ∃ m, bconvOptions a = some m ∧
      bconvInit m = some ⟨a.strideH, a.strideW, a.dilH, a.dilW, pd, a.padValues, a.channelsIn, ac⟩ := by
  obtain ⟨ca, cp, h1, h2, h3, h4, _⟩ := bconvOptions_some hact hpad
  refine ⟨_, by unfold bconvOptions; rw [h1, h2]; rfl, ?_⟩
  rw [bconvInit_eval, h3, h4]
  simp only [setWidth_round]
  rw [if_neg (by rcases hpv with h | h <;> rw [h] <;> decide)]

/-- **C35 (BConv2D, importer).** The importer recovers exactly the attributes that were exported, whatever the integer
attributes. -/
theorem C35_bconv_import (hact : (a.act, ac) ∈ supportedActs) (hpad : (a.padding, pd) ∈ supportedPads) :
    ∃ m, bconvOptions a = some m ∧ importBconv m = some a := by
  obtain ⟨ca, cp, h1, h2, _, _, h5, h6⟩ := bconvOptions_some hact hpad
  refine ⟨_, by unfold bconvOptions; rw [h1, h2]; rfl, ?_⟩
  rw [importBconv_eval, h5, h6]
  simp only [setWidth_round, Option.bind_some]

/-- **C35 (bad pad value).** Any other `pad_values` makes `Init` fail, and `Prepare` then reports an error whatever the
rest of the node. -/
theorem C35_bad_pad_value (hact : (a.act, ac) ∈ supportedActs)
    (hpad : (a.padding, pd) ∈ supportedPads) (hpv : a.padValues ≠ 0#32 ∧ a.padValues ≠ 1#32) :
    ∃ m, bconvOptions a = some m ∧ bconvInit m = none ∧
      ∀ (n : Node) (i : InputDesc), n.attrs = (bconvInit m).bind RtConvAttrs.attrs → prepare n i = .error := by
  obtain ⟨ca, cp, h1, h2, h3, h4, _⟩ := bconvOptions_some hact hpad
  have key : ∀ m, bconvOptions a = some m → bconvInit m = none := by
    intro m hm
    unfold bconvOptions at hm
    rw [h1, h2] at hm
    simp only [Option.bind_eq_bind, Option.bind_some, Option.some.injEq] at hm
    rw [← hm, bconvInit_eval]
    simp only [setWidth_round]
    rw [if_pos hpv]
  obtain ⟨m, hm⟩ : ∃ m, bconvOptions a = some m := ⟨_, by unfold bconvOptions; rw [h1, h2]; rfl⟩
  refine ⟨m, hm, key m hm, fun n i hn => ?_⟩
  rw [key m hm] at hn
  unfold prepare
  rw [hn]
  rfl

/-- **C35 (missing attribute).** Options written by anything else that lack one of the eight entries make `Init` fail. -/
theorem C35_missing_attribute (m : FlexMap) (k : String)
    (hk : k ∈ ["stride_height", "stride_width", "dilation_height_factor", "dilation_width_factor", "padding", "pad_values",
      "channels_in", "fused_activation_function"]) (hm : m.lookup k = none) : bconvInit m = none := by
  simp only [List.mem_cons, List.not_mem_nil, or_false] at hk
  unfold bconvInit FlexMap.isNull
  rcases hk with rfl | rfl | rfl | rfl | rfl | rfl | rfl | rfl <;> rw [hm] <;> simp

end

/-- **C35 (BMaxPool2D).** The kernel and the importer read exactly the exported attributes, for every 32-bit value. -/
theorem C35_pool (a : PoolOpAttrs) {pd : RtPadding} (hpad : (a.padding, pd) ∈ supportedPads) :
    ∃ m, poolOptions a = some m ∧ poolInit m = ⟨a.filtH, a.filtW, a.strideH, a.strideW, pd⟩ ∧ importPool m = some a := by
  obtain ⟨cp, h2, h4, h6⟩ : ∃ cp, paddingCode a.padding = some cp ∧ convertPadding ((BitVec.ofNat 64 cp).setWidth 32) = pd ∧
      paddingName ((BitVec.ofNat 64 cp).setWidth 32) = some a.padding := by
    simp only [supportedPads, List.mem_cons, Prod.mk.injEq, List.not_mem_nil, or_false] at hpad
    rcases hpad with ⟨h2, rfl⟩ | ⟨h2, rfl⟩ <;> rw [h2] <;> exact ⟨_, rfl, by decide, by decide⟩
  refine ⟨_, by unfold poolOptions; rw [h2]; rfl, ?_, ?_⟩
  · rw [poolInit_eval, h4]
    simp only [setWidth_round]
  · rw [importPool_eval, h6]
    simp only [setWidth_round, Option.bind_some]

/-- **C35 (names).** Every operator is exported under a name that the runtime registers for that operator, whatever the
registration flags, and the importer maps the name back to the operator. -/
theorem C35_names (o : LceOp) (ruy useRef useIndirect : Bool) :
    importCode o.customCode = some o ∧
    ∃ k, registered ruy useRef useIndirect o.customCode = some k ∧
      (match o with
       | .quantize => k = .quantize
       | .dequantize => k = .dequantize
       | .bconv2d => ∃ kt, k = .bconv2d kt ∧ (useRef = true → kt = .reference) ∧
          (useRef = false → useIndirect = true → kt = .indirect)
       | .bmaxpool2d => k = .bmaxpool2d) := by
  have e1 : LceOp.quantize.customCode = "LceQuantize" := by decide
  have e2 : LceOp.dequantize.customCode = "LceDequantize" := by decide
  have e3 : LceOp.bconv2d.customCode = "LceBconv2d" := by decide
  have e4 : LceOp.bmaxpool2d.customCode = "LceBMaxPool2d" := by decide
  cases o
  · rw [e1]; exact ⟨by simp [importCode], .quantize, by simp [registered], rfl⟩
  · rw [e2]; exact ⟨by simp [importCode], .dequantize, by simp [registered], rfl⟩
  · rw [e3]
    refine ⟨by simp [importCode], _, by simp [registered]; rfl, _, rfl, ?_, ?_⟩
    · intro h; simp [h]
    · intro h h'; simp [h, h']
  · rw [e4]; exact ⟨by simp [importCode], .bmaxpool2d, by simp [registered], rfl⟩

/-- The two activations that the operator definition allows and the runtime does not implement are not exported: the
conversion to the schema value is undefined. -/
theorem C35_unsupported_activation_witness (a : ConvOpAttrs) (h : a.act = "TANH" ∨ a.act = "SIGN_BIT") :
    bconvOptions a = none := by
  unfold bconvOptions
  have : activationCode a.act = none := by rcases h with h | h <;> rw [h] <;> simp [activationCode]
  rw [this]; rfl

/-- Non-vacuity: a stride above 2^31 (a negative int32) also survives. -/
example : ∃ m, bconvOptions ⟨64#32, 1#32, 2#32, "RELU6", 1#32, "SAME", 0xFFFFFFFF#32, 3#32⟩ = some m ∧
    bconvInit m = some ⟨0xFFFFFFFF#32, 3#32, 1#32, 2#32, .same, 1#32, 64#32, .relu6⟩ :=
  C35_bconv_runtime _ (by simp [supportedActs]) (by simp [supportedPads]) (Or.inr rfl)

end Verif
