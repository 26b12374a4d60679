import Verif.Model.Detection

/-!
What functions with a detection operator compute (C70). The operator itself is not in `/repo`: it is described by a
`Detector` that looks at real numbers and selects detections.
-/

namespace Verif.Det

/-- The elements of a tensor: reals, integers or stored integers of a quantized tensor. -/
inductive DVal where
  | f (l : List Rat)
  | i (l : List Int)
  | q (l : List Int)
deriving DecidableEq

/-- The smallest and largest number of a storage type. -/
def QType.range (q : QType) : Int × Int :=
  if q.signed then (-(2 ^ (q.bits - 1)), 2 ^ (q.bits - 1) - 1) else (0, 2 ^ q.bits - 1)

/-- The number that is stored when `v` is written to the storage type (two's complement). -/
def QType.store (q : QType) (v : Int) : Int := (v - q.range.1) % (2 ^ q.bits) + q.range.1

/-- The real number a stored number stands for. -/
def QType.real (q : QType) (v : Int) : Rat := q.scale * ((v - q.zp : Int) : Rat)

/-- A value has a type. -/
def TTy.has (t : TTy) : DVal → Bool
  | .f _ => t.elem == .f32
  | .i _ => match t.elem with
    | .int _ => true
    | _ => false
  | .q l => match t.elem with
    | .quant q => l.all fun v => decide (q.range.1 ≤ v ∧ v ≤ q.range.2)
    | _ => false

/-- The detection operator: from its options and the real numbers in boxes, scores and anchors it computes boxes and classes
of the detections, the positions of their scores, and the number of detections. -/
structure Detector where
  select : List Nat → List Rat → List Rat → List Rat → Option (List Int × List Int × List Nat × List Int)

/-- The real numbers of a tensor of a float or quantized type. -/
def realsOf (t : TTy) : DVal → Option (List Rat)
  | .f l => if t.elem = .f32 then some l else none
  | .q l => match t.elem with
    | .quant q => some (l.map q.real)
    | _ => none
  | .i _ => none

/-- The selected scores are the elements of the scores tensor, in its representation: reals for a float result; for a
quantized result the numbers stored in the input, written to the storage type of the result. -/
def scoresOf (tres : TTy) (idx : List Nat) : DVal → Option DVal
  | .f l => if tres.elem = .f32 then (idx.mapM fun k => l[k]?).map .f else none
  | .q l => match tres.elem with
    | .quant q => (idx.mapM fun k => (l[k]?).map q.store).map .q
    | _ => none
  | .i _ => none

/-- The detection operator on tensors. -/
def Detector.run (D : Detector) (option : List Nat) (targs tres : List TTy) (l : List DVal) : Option (List DVal) :=
  match targs, tres, l with
  | [tb, ts, ta], [_, _, t2, _], [b, s, a] => do
    let rb ← realsOf tb b
    let rs ← realsOf ts s
    let ra ← realsOf ta a
    let (boxes, classes, idx, num) ← D.select option rb rs ra
    let sc ← scoresOf t2 idx s
    some [.i boxes, .i classes, sc, .i num]
  | _, _, _ => none

/-- The meaning of operators: a detector, and anything for the other operators. -/
structure Meaning where
  detector : Detector
  other : DOp → List TTy → List TTy → List DVal → Option (List DVal)

/-- The results of an operator, from the types and values of its operands and the types of its results. -/
def Meaning.run (M : Meaning) (o : DOp) (targs tres : List TTy) (l : List DVal) : Option (List DVal) :=
  match o with
  | .dequantize =>
    match targs, l with
    | [t], [v] => (realsOf t v).map fun r => [.f r]
    | _, _ => none
  | .custom code option =>
    if code = detectionCode then M.detector.run option targs tres l else M.other o targs tres l
  | .other _ => M.other o targs tres l

/-- Values of names. -/
abbrev DEnv := Nat → Option DVal

/-- Results are bound to names. -/
def bindAll (env : DEnv) : List (Nat × TTy) → List DVal → DEnv
  | (x, _) :: rs, v :: vs => bindAll (fun y => if y = x then some v else env y) rs vs
  | _, _ => env

/-- An operation: every operand has a type and a value, every result has its type. -/
def DNode.run (M : Meaning) (ty : Nat → Option TTy) (n : DNode) (env : DEnv) : Option DEnv := do
  let targs ← n.args.mapM ty
  let vals ← n.args.mapM env
  let res ← M.run n.op targs (n.results.map (·.2)) vals
  if res.length = n.results.length ∧ (List.zipWith (fun r v => r.2.has v) n.results res).all id then
    some (bindAll env n.results res)
  else none

/-- Operations one after the other. -/
def runAll (M : Meaning) (ty : Nat → Option TTy) : List DNode → DEnv → Option DEnv
  | [], env => some env
  | n :: l, env => (n.run M ty env).bind (runAll M ty l)

/-- The results of a function for arguments of the right types. -/
def DGraph.eval (M : Meaning) (g : DGraph) (ins : List DVal) : Option (List DVal) :=
  if ins.length = g.params.length ∧ (List.zipWith (fun r v => r.2.has v) g.params ins).all id then
    (runAll M g.typeOf g.nodes (bindAll (fun _ => none) g.params ins)).bind fun env => g.outs.mapM env
  else none

/-- Well-formed: values have different names, operands and returned values are defined before they are used. -/
structure DGraph.Ssa (g : DGraph) : Prop where
  nodup : (g.values.map (·.1)).Nodup
  args : ∀ pre n post, g.nodes = pre ++ n :: post → ∀ x ∈ n.args,
    x ∈ (g.params ++ pre.flatMap (·.results)).map (·.1)
  outs : ∀ x ∈ g.outs, x ∈ g.values.map (·.1)

/-- The scores that a detection operator with float scores as result reads through a dequantization are int8. -/
def DGraph.Int8Scores (g : DGraph) : Prop :=
  ∀ rs option boxes scores anchors r, ⟨rs, .custom detectionCode option, [boxes, scores, anchors]⟩ ∈ g.nodes →
    rs[2]? = some r → r.2.elem = .f32 →
    ∀ rs' y q sh, ⟨rs', .dequantize, [y]⟩ ∈ g.nodes → scores ∈ rs'.map (·.1) → g.typeOf y = some ⟨.quant q, sh⟩ →
      q.signed = true ∧ q.bits = 8

/-- The detection operators of a function: their options and their results other than the scores. -/
def DGraph.detections (g : DGraph) : List (List Nat × List (Nat × TTy)) :=
  g.nodes.filterMap fun n => match n.op with
    | .custom code option => if code = detectionCode then some (option, n.results.eraseIdx 2) else none
    | _ => none

/-- Nothing is left to do. -/
def DGraph.Done (g : DGraph) : Prop := ∀ g', ¬ DStep g g'

/-- A sequence of `k` steps. -/
inductive DRun : Nat → DGraph → DGraph → Prop
  | refl (g : DGraph) : DRun 0 g g
  | step {k : Nat} {g g' g'' : DGraph} (h : DRun k g g') (s : DStep g' g'') : DRun (k + 1) g g''

/-- Dequantizations read per-tensor quantized tensors, and every value is ranked. -/
def DGraph.PerTensor (g : DGraph) : Prop :=
  (∀ rs y, ⟨rs, .dequantize, [y]⟩ ∈ g.nodes → ∃ q sh, g.typeOf y = some ⟨.quant q, sh⟩) ∧
    ∀ r ∈ g.values, r.2.shape.isSome = true

end Verif.Det
