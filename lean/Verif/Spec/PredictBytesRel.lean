import Verif.Model.PredictBytes
import Verif.Spec.WrapperRel

/-! Specification of `InterpreterBase.predict` at the level of bytes (C79). -/

namespace Verif.Wrap

variable {K : Type}

/-- A numpy array: as many elements as its shape says, each with as many bytes as its dtype says. -/
def ArrOk (a : NpArray (List Byte)) : Prop :=
  a.data.length = a.shape.prod ∧ ∀ e ∈ a.data, e.length = (Dtype.ofCode a.dtype).itemsize

/-- All arrays in the argument of `predict` are arrays. -/
def InputOk : PyInput (List Byte) → Prop
  | .array a => ArrOk a
  | .list l => ∀ a ∈ l, ArrOk a
  | .iter items => ∀ it ∈ items, match it with | .inl a => ArrOk a | .inr l => ∀ a ∈ l, ArrOk a
  | .other => True

/-- What a Python program can do with the `Interpreter` object. -/
inductive PyCall where
  | inputTypes | inputShapes | inputZeroPoints | inputScales
  | outputTypes | outputShapes | outputZeroPoints | outputScales
  | predict (x : PyInput (List Byte))

/-- The arrays passed are arrays. -/
def PyCall.WF : PyCall → Prop
  | .predict x => InputOk x
  | _ => True

/-- The state after a call, whether it raises or not. -/
def PyCall.run (rt : Runtime K) : PyCall → St K → St K
  | .inputTypes, s => (getTypes rt.inputs s).2
  | .inputShapes, s => (getShapes rt.inputs s).2
  | .inputZeroPoints, s => (getZeroPoints rt.inputs s).2
  | .inputScales, s => (getScales rt.inputs s).2
  | .outputTypes, s => (getTypes rt.outputs s).2
  | .outputShapes, s => (getShapes rt.outputs s).2
  | .outputZeroPoints, s => (getZeroPoints rt.outputs s).2
  | .outputScales, s => (getScales rt.outputs s).2
  | .predict x, s => (pyPredict rt x s).2

/-- The state after some calls. -/
def afterPy (rt : Runtime K) (calls : List PyCall) (s : St K) : St K := calls.foldl (fun s c => c.run rt s) s

/-- The bytes of one sample: for each input of the model the bytes of its array. -/
def sampleBytes (ins : List (NpArray (List Byte))) : List (List Byte) := ins.map (·.data.flatten)

end Verif.Wrap
