import Verif.Model.Glue
import Verif.Spec.PipelineRel
import Verif.Spec.FileRel
import Verif.Spec.Convert

/-!
What is said about the path from a Python call to the model file (C71): the assumptions on TensorFlow, TFLite and MLIR, the
number of inputs of a module, what the quantization passes are told, and what it means that a function was converted.
-/

namespace Verif.Convert

open Verif.Ir

/-- A function as TensorFlow delivers it: well-formed, without BConv2D, and it computes something for some arguments for
which no rewriting step is exceptional. -/
structure Good (safe : List Val → Prop) (g : Graph) : Prop where
  ssa : g.Ssa
  noBConv : ∀ n ∈ g.nodes, n.op.isBConv = false
  value : ∃ ins vs, safe ins ∧ g.eval ins = some vs

/-- The assumptions: the pass manager runs the passes it is given for the given target, its foreign passes meet the
assumptions of C69 (`safe g`: arguments for which no rewriting step of `g`'s conversion is exceptional), and the functions that reach
them are as above. -/
structure CppOk (c : Cpp) (F : Foreign) (safe : Graph → List Val → Prop) : Prop where
  foreign : ForeignOk F
  runs : ∀ t q ps g g', c.passes t q ps g = some g' → PassRuns (decide (t = .arm)) F (safe g) ps g g'
  pre : ∀ m m', c.pre m = some m' → Good (safe m'.body) m'.body
  freeze : ∀ m m', c.freeze m = some m' → Good (safe m'.body) m'.body

/-- The module has one entry function, with a list of input names; `k` is one more than the number of commas in it. -/
def HasInputs (m : Module) (k : Nat) : Prop :=
  ∃ l1 names l2, m.entries = l1 ++ some (some names) :: l2 ∧ (∀ e ∈ l1 ++ l2, e = none) ∧ k = names.toList.count ',' + 1

/-- What the quantization passes are told: nothing unless `quant`; otherwise int8 inference with `k` inputs that stay float,
the default range if there is one, and then whether this is quantization after training. -/
structure QuantFor (range : Option (Rat × Rat)) (k : Nat) (quant post : Bool) (q : QuantSpecs) : Prop where
  float : quant = false → q.int8 = false ∧ q.inputRanges = [] ∧ q.postTraining = false ∧ q.defaultRanges = (none, none)
  int8 : quant = true → q.int8 = true ∧ q.inputRanges.length = k ∧ (∀ r ∈ q.inputRanges, r = (none, none)) ∧
    (q.postTraining = true ↔ post = true ∧ range ≠ none) ∧
    q.defaultRanges = (range.map (·.1), range.map (·.2))

/-- The module `m` with `k` inputs was converted to the file `r`: its variables are frozen if there is a session; the passes for the target,
with the quantization passes exactly if `quant`, turn the function `body` into `g`, and the file consists of the operators
of `g`, those of LCE as custom operators. -/
structure Written (c : Cpp) (F : Foreign) (safe : Graph → List Val → Prop) (arm quant session : Bool)
    (range : Option (Rat × Rat)) (k : Nat) (tags : List String) (m : Module) (body g : Graph) (file : FileGraph) (r : GModel) : Prop where
  noControlFlowV1 : m.controlFlowV1 = false
  frozen : ∃ m1, c.pre m = some m1 ∧
    (session = false → m1.body = body) ∧ (session = true → ∃ m2, c.freeze m1 = some m2 ∧ m2.body = body)
  good : Good (safe body) body
  told : ∃ t q, QuantFor range k quant session q ∧ c.passes t q (conversionPasses quant range.isSome) body = some g
  passes : PassRuns arm F (safe body) (conversionPasses quant range.isSome) body g
  packed : g.PackedFilters
  padding : g.PaddingOk arm
  activations : g.ActivationsOk
  written : g.toFile.legalize = some file
  noLq : ∀ n ∈ file.nodes, ∀ o, n.op = .builtin o → o.isLq = false
  exported : c.exportFile tags file = some r
  verified : c.verify file = true

end Verif.Convert
