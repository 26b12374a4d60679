import Verif.Model.File

/-!
Specification for writing a graph to a model file and reading it back (C72): which operators can be written.
-/

namespace Verif.Ir

/-- The operators of the `lq` dialect. -/
def Op.isLq : Op → Bool
  | .lquant => true
  | .ldequant => true
  | .ldequantI8 _ _ => true
  | .bmaxPool _ => true
  | .bconv _ => true
  | .bconvI8 _ _ _ => true
  | _ => false

/-- The integer attributes of a binary convolution are below `lim`. -/
def BConvAttrs.Below (lim : Nat) (a : BConvAttrs) : Prop :=
  a.strideH < lim ∧ a.strideW < lim ∧ a.dilH < lim ∧ a.dilW < lim ∧ a.padValue < lim ∧ a.cin < lim

/-- The integer attributes of an operator of the `lq` dialect are below `lim`; an int8 result is not also a binary one. -/
def Op.Below (lim : Nat) : Op → Prop
  | .bmaxPool a => a.filtH < lim ∧ a.filtW < lim ∧ a.strideH < lim ∧ a.strideW < lim
  | .bconv a => a.Below lim
  | .bconvI8 a _ _ => a.Below lim ∧ a.outBits = false
  | _ => True

/-- The activation of a binary convolution is one the runtime implements. -/
def Op.ActOk : Op → Prop
  | .bconv a => a.act ≠ .other
  | .bconvI8 a _ _ => a.act ≠ .other
  | _ => True

/-- BMaxPool2D has one operand and BConv2D five. -/
def Op.Arity : Op → Nat → Prop
  | .bmaxPool _, k => k = 1
  | .bconv _, k => k = 5
  | .bconvI8 _ _ _, k => k = 5
  | _, _ => True

/-- A custom operator that is not LCE's. -/
def ForeignCode (code : String) : Prop := code ∉ ["LceQuantize", "LceDequantize", "LceBMaxPool2d", "LceBconv2d"]

/-- A node that can be written and read back: integer attributes of 32 bits, a supported activation, the right number of
operands; a custom operator that is not LCE's. -/
def FileNode.Writable (n : FileNode) : Prop :=
  match n.op with
  | .builtin o => o.Below (2 ^ 32) ∧ o.ActOk ∧ o.Arity n.args.length
  | .custom c _ _ => ForeignCode c

/-- The kernel that is registered for BConv2D: the reference kernel on request, otherwise the indirect one on request,
otherwise BGEMM in builds with ruy. -/
def Reg.kernel (r : Reg) : KernelType :=
  if r.useRef then .reference else if r.useIndirect then .indirect else if r.ruy then .bgemm else .reference

end Verif.Ir
