import Mathlib.Data.Rat.Defs

/-!
Model of the pass that makes the detection post-processing operator read int8 tensors
(`/repo/larq_compute_engine/mlir/transforms/detection_postprocess.cc:24-176`).

Operations may have several results, so this is a second small representation beside `Model/Ir.lean`: only what the
pattern looks at is modelled.
-/

namespace Verif.Det

/-- `quant::UniformQuantizedType`: sign and width of the storage, scale, zero point, storage range. -/
structure QType where
  signed : Bool
  bits : Nat
  scale : Rat
  zp : Int
  lo : Int
  hi : Int
deriving DecidableEq

/-- Element types. -/
inductive ETy where
  | f32
  | f16
  | int (bits : Nat)
  | quant (q : QType)
  /-- `quant::UniformQuantizedPerAxisType` -/
  | perAxis (bits : Nat)
deriving DecidableEq

/-- Tensor types; `Option.none`: unranked. -/
structure TTy where
  elem : ETy
  shape : Option (List Nat)
deriving DecidableEq

/-- Operators: `TFL::DequantizeOp`, `TFL::CustomOp` with its code and its options, any other. -/
inductive DOp where
  | dequantize
  | custom (code : String) (option : List Nat)
  | other (id : Nat)
deriving DecidableEq

/-- An operation with its results. -/
structure DNode where
  results : List (Nat × TTy)
  op : DOp
  args : List Nat

/-- A function: its arguments, operations and returned values. -/
structure DGraph where
  params : List (Nat × TTy)
  nodes : List DNode
  outs : List Nat

/-- All values with their types. -/
def DGraph.values (g : DGraph) : List (Nat × TTy) := g.params ++ g.nodes.flatMap (·.results)

/-- The type of a value. -/
def DGraph.typeOf (g : DGraph) (x : Nat) : Option TTy := g.values.lookup x

/-- `getDefiningOp`, among some operations. -/
def definer (l : List DNode) (x : Nat) : Option DNode := l.find? fun n => n.results.any fun r => r.1 == x

/-- The operand of the `DequantizeOp` that defines a value (detection_postprocess.cc:55-78). -/
def dequantized (l : List DNode) (x : Nat) : Option Nat :=
  match definer l x with
  | some ⟨_, .dequantize, [y]⟩ => some y
  | _ => none

/-- A name that is not used. -/
def DGraph.fresh (g : DGraph) : Nat := (g.values.map (·.1)).foldl max 0 + 1

/-- What an attempt to rewrite does. -/
inductive Outcome where
  | noMatch
  /-- a failed cast -/
  | ub
  | ok (g : DGraph)

/-- The custom code the pattern looks for. -/
def detectionCode : String := "TFLite_Detection_PostProcess"

/-- `quant::UniformQuantizedType::get(true, i8, f32, scores_scale, scores_zp, -128, 127)`
(detection_postprocess.cc:126-128). -/
def scoresType (q : QType) : QType := { signed := true, bits := 8, scale := q.scale, zp := q.zp, lo := -128, hi := 127 }

/-- `RankedTensorType::get(shape, type)` (detection_postprocess.cc:131-137); `getShape` of an unranked type is undefined. -/
def retyped (e : ETy) (t : TTy) : Option TTy := t.shape.map fun s => ⟨e, some s⟩

/-- `RemoveDequantizeBeforePostProcess::matchAndRewrite` (detection_postprocess.cc:28-160) for the operation `n` with `pre`
before and `post` after it. Simplification: `replaceOp` substitutes new values for the old ones; here results 0, 1 and 3
of the new operation and the result of the new dequantization get the names of the old results, which is the same up to
names. -/
def DGraph.rewrite (g : DGraph) (pre : List DNode) (n : DNode) (post : List DNode) : Outcome :=
  match n with
  | ⟨results, .custom code option, args⟩ =>
    if code ≠ detectionCode then .noMatch
    else
      match args, results with
      | [boxes, scores, anchors], [(r0, t0), (r1, t1), (r2, t2), (r3, t3)] =>
        match dequantized pre boxes, dequantized pre scores, dequantized pre anchors with
        | some b, some s, some a =>
          -- the types of the results (detection_postprocess.cc:80-102)
          if t0.elem = .int 32 ∧ t1.elem = .int 32 ∧ t2.elem = .f32 ∧ t3.elem = .int 32 then
            match g.typeOf s with
            | some ⟨.quant q, _⟩ =>
              match retyped (.int 32) t0, retyped (.int 32) t1, retyped (.quant (scoresType q)) t2, retyped (.int 32) t3 with
              | some u0, some u1, some u2, some u3 =>
                .ok { g with nodes := pre ++ [
                  ⟨[(r0, u0), (r1, u1), (g.fresh, u2), (r3, u3)], .custom detectionCode option, [b, s, a]⟩,
                  ⟨[(r2, t2)], .dequantize, [g.fresh]⟩] ++ post }
              | _, _, _, _ => .ub
            | _ => .ub
          else .noMatch
        | _, _, _ => .noMatch
      | _, _ => .noMatch
  | _ => .noMatch

/-- A value is used. -/
def DGraph.used (g : DGraph) (x : Nat) : Bool := g.outs.contains x || g.nodes.any fun n => n.args.contains x

/-- One step of the greedy driver: a rewriting, or the removal of an unused dequantization (detection_postprocess.cc:163-170). -/
inductive DStep : DGraph → DGraph → Prop
  | rewrite {g g' : DGraph} {pre post : List DNode} {n : DNode} (he : g.nodes = pre ++ n :: post)
      (h : g.rewrite pre n post = .ok g') : DStep g g'
  | erase {g : DGraph} {pre post : List DNode} {n : DNode} (he : g.nodes = pre ++ n :: post) (ho : n.op = .dequantize)
      (hu : ∀ r ∈ n.results, g.used r.1 = false) : DStep g { g with nodes := pre ++ post }

/-- Any number of steps. -/
inductive DSteps : DGraph → DGraph → Prop
  | refl (g : DGraph) : DSteps g g
  | step {g g' g'' : DGraph} (h : DSteps g g') (s : DStep g' g'') : DSteps g g''

end Verif.Det
