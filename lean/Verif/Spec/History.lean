import Verif.Model.OpState

/-! Specification vocabulary for histories of calls. -/

namespace Verif

/-- The description of the input tensor after a history: that of the last resize. -/
def currentDesc (i0 : InputDesc) (h : List Call) : InputDesc :=
  h.foldl (fun i c => match c with
    | .resize j => j
    | .invoke _ _ _ => i) i0

/-- An interpreter that was just created, with the input resized to `e`. -/
def freshMachine (n : Node) (e : InputDesc) : Option Machine := resize n e Machine.new

/-- The output of an inference (`none`: undefined behaviour). -/
def output (n : Node) (c : RunCfg) (m : Machine) (inp : List Word) (out : OutBuf) : Option OutBuf :=
  (invoke n c m inp out).map (·.2)

/-- Is the call a resize? -/
def Call.isResize : Call → Prop
  | .resize _ => True
  | .invoke _ _ _ => False

/-- Is the call an inference, or a resize to the shape and buffer `e`? -/
def Call.keeps (e : InputDesc) : Call → Prop
  | .resize j => j = e
  | .invoke _ _ _ => True

end Verif
