import Verif.Model.Wrapper

/-! Specification of the Python interpreter wrapper (C67). -/

namespace Verif.Wrap

/-- The numpy type with the elements of a TFLite type. -/
inductive Matches : TfType → Dtype → Prop
  | float32 : Matches .float32 .float32
  | uint8 : Matches .uint8 .uint8
  | int8 : Matches .int8 .int8
  | int16 : Matches .int16 .int16
  | int32 : Matches .int32 .int32
  | int64 : Matches .int64 .int64
  | bool : Matches .bool .bool
  | string : Matches .string .charPtr

/-- The size of an element in TFLite (for strings, of the pointers that the wrapper copies). -/
def TfType.width : TfType → Nat
  | .int8 | .uint8 | .bool => 1
  | .int16 => 2
  | .int32 | .float32 => 4
  | .int64 | .string => 8
  | .noType | .other _ => 0

/-- A tensor as TFLite keeps it: a type the wrapper knows, and as many bytes as its type and shape say. -/
def Tensor.Consistent (t : Tensor) : Prop :=
  (∃ d, Matches t.type d) ∧ (∀ x ∈ t.dims, 0 ≤ x) ∧ t.bytes = t.type.width * (t.dims.map Int.toNat).prod ∧ t.data.length = t.bytes

/-- Everything about a tensor but its contents. -/
def Tensor.info (t : Tensor) : TfType × List Int × Nat × Rat × Int × Option (Option Affine) :=
  (t.type, t.dims, t.bytes, t.legacyScale, t.legacyZeroPoint, t.quantization)

/-- TFLite's contract for the legacy parameters (`GetLegacyQuantization`): those of the affine quantization when it has one
scale and one zero point, otherwise zero. -/
def Tensor.Legacy (t : Tensor) : Prop :=
  (∃ s z, t.quantization = some (some ⟨some [s], some [z]⟩) ∧ t.legacyScale = s ∧ t.legacyZeroPoint = z) ∨
  ((∀ s z, t.quantization ≠ some (some ⟨some [s], some [z]⟩)) ∧ t.legacyScale = 0 ∧ t.legacyZeroPoint = 0)

/-- An array with as many bytes as its type and shape say. -/
def ByteArr.WF (a : ByteArr) : Prop :=
  (∀ x ∈ a.shape, 0 ≤ x) ∧ a.data.length = a.dtype.itemsize * (a.shape.map Int.toNat).prod

variable {K : Type}

/-- The tensor `i`. -/
def St.tensor (s : St K) (i : Nat) : Tensor := s.heap (s.addr i)

/-- The state after the construction: nothing is cached, different tensors have different structs. -/
structure Fresh (rt : Runtime K) (I : K → Prop) (s : St K) : Prop where
  cache : s.cache = []
  inj : ∀ i j, s.addr i = s.addr j → i = j
  inv : I s.rest
  tensors : ∀ i ∈ rt.inputs ++ rt.outputs, (s.tensor i).Consistent

/-- A static model that computes `f` (`none`: an operator reports an error): in every state of the interpreter in which `I`
holds and the inputs and outputs have the types, shapes and sizes they had after the construction (`s0`), `Invoke` leaves the
tensor structs where they are, changes at most the contents of the input and output tensors, keeps `I`, and puts `f` of the
contents of the inputs into the outputs. No tensor is an input twice. -/
structure Computes (rt : Runtime K) (I : K → Prop) (s0 : St K) (f : List (List Byte) → Option (List (List Byte))) : Prop where
  nodup : rt.inputs.Nodup
  step : ∀ heap k, I k →
    (∀ i ∈ rt.inputs ++ rt.outputs, (heap (s0.addr i)).info = (s0.tensor i).info ∧
      (heap (s0.addr i)).data.length = (s0.tensor i).data.length) →
    ∃ ok heap' k', rt.invoke heap s0.addr k = (ok, heap', s0.addr, k') ∧ I k' ∧
      (∀ i ∈ rt.inputs ++ rt.outputs, (heap' (s0.addr i)).info = (s0.tensor i).info ∧
        (heap' (s0.addr i)).data.length = (s0.tensor i).data.length) ∧
      match f (rt.inputs.map fun i => (heap (s0.addr i)).data) with
      | none => ok = false
      | some outs => ok = true ∧ rt.outputs.map (fun i => (heap' (s0.addr i)).data) = outs

/-- What a Python program can do with an interpreter. -/
inductive Call where
  | inputTypes | inputShapes | inputZeroPoints | inputScales
  | outputTypes | outputShapes | outputZeroPoints | outputScales
  | predict (ins : List ByteArr)

/-- The arrays passed are arrays. -/
def Call.WF : Call → Prop
  | .predict ins => ∀ a ∈ ins, a.WF
  | _ => True

/-- The state after a call, whether it raises or not. -/
def Call.run (rt : Runtime K) : Call → St K → St K
  | .inputTypes, s => (getTypes rt.inputs s).2
  | .inputShapes, s => (getShapes rt.inputs s).2
  | .inputZeroPoints, s => (getZeroPoints rt.inputs s).2
  | .inputScales, s => (getScales rt.inputs s).2
  | .outputTypes, s => (getTypes rt.outputs s).2
  | .outputShapes, s => (getShapes rt.outputs s).2
  | .outputZeroPoints, s => (getZeroPoints rt.outputs s).2
  | .outputScales, s => (getScales rt.outputs s).2
  | .predict ins, s => (Wrap.predict rt ins s).2

/-- The state after some calls. -/
def after (rt : Runtime K) (calls : List Call) (s : St K) : St K := calls.foldl (fun s c => c.run rt s) s

end Verif.Wrap
