import Verif.Basic.Loop
import Mathlib.Data.List.Sort

/-!
Model of `/repo/larq_compute_engine/mlir/python/util.py`: editing a parsed TFLite model.

A model object is a tree of mutable Python objects; the functions below return the new value of the parts they change.
`none` stands for an exception. Tensor names, shapes, buffers and quantization are an opaque payload; operator options
too. Index lists are numpy arrays, so `xs[xs == a] = b` replaces every occurrence of `a` by `b`. `list.remove` compares by
identity because the schema classes define no `__eq__`: operators carry the identity of their Python object. Parsing and
serialization (`_convert_model_*`) are not modelled, nor are the error messages.
-/

namespace Verif

/-- `TensorT`: its type (schema enum) and everything else. -/
structure GTensor where
  type : Nat
  payload : Nat
deriving DecidableEq, Repr

/-- `OperatorT`: identity of the Python object, `opcodeIndex`, options, tensor indices (-1: absent optional input). -/
structure GOp where
  id : Nat
  code : Nat
  opts : Nat
  ins : List Int
  outs : List Int
deriving DecidableEq, Repr

/-- `SubGraphT`. -/
structure SubGraph where
  tensors : List GTensor
  inputs : List Int
  outputs : List Int
  ops : List GOp
deriving DecidableEq, Repr

/-- `SignatureDefT`: the subgraph it describes and the `tensorIndex` of its inputs and outputs. -/
structure Sig where
  subgraph : Nat
  inputs : List Int
  outputs : List Int
deriving DecidableEq, Repr

/-- `OperatorCodeT`: is the custom code `LceDequantize`; the builtin code. -/
structure OpCode where
  lceDequantize : Bool
  builtin : Nat
deriving DecidableEq, Repr

/-- `ModelT`. -/
structure GModel where
  codes : List OpCode
  subgraphs : List SubGraph
  sigs : List Sig
deriving DecidableEq, Repr

/-- Python indexing `xs[i]`: negative indices count from the end; `none` is `IndexError`. -/
def pyGet {α : Type} (xs : List α) (i : Int) : Option α :=
  if 0 ≤ i then xs[i.toNat]? else if -(xs.length : Int) ≤ i then xs[(xs.length + i).toNat]? else none

/-- numpy `xs[xs == a] = b`. -/
def npReplace (xs : List Int) (a b : Int) : List Int := xs.map fun x => if x = a then b else x

/-- The dictionary `d_old_to_new_tensors` (util.py:81-87), entries in insertion order, and `left_shift_by`. -/
def oldToNew (n : Nat) (remove : List Nat) : Option (List (Nat × Nat) × Nat) :=
  forN n (fun idx (s : List (Nat × Nat) × Nat) =>
    if idx ∈ remove then some (s.1, s.2 + 1) else some (s.1 ++ [(idx, idx - s.2)], s.2)) ([], 0)

/-- `d.get(i)` for a tensor index that may be -1. -/
def dictGet (d : List (Nat × Nat)) (i : Int) : Option Nat := if 0 ≤ i then d.lookup i.toNat else none

/-- `update_tensors` (util.py:90-92). -/
def updateTensors (d : List (Nat × Nat)) (xs : List Int) : List Int :=
  xs.map fun i => match dictGet d i with
    | some j => (j : Int)
    | none => -1

/-- `_update_signature_def_tensors` (util.py:57-63). -/
def updateSigTensors (d : List (Nat × Nat)) (xs : List Int) : List Int :=
  xs.map fun i => match dictGet d i with
    | some j => (j : Int)
    | none => i

/-- The loop `for idx in sorted(remove, reverse=True): tensors.pop(idx)` (util.py:104-105) on the sorted indices. -/
def popAll {α : Type} : List α → List Nat → Option (List α)
  | ts, [] => some ts
  | ts, i :: is => if i < ts.length then popAll (ts.eraseIdx i) is else none

/-- `min` of a non-empty set. -/
def setMin (x : Nat) (xs : List Nat) : Nat := xs.foldl min x

/-- The renumbering of `signatureDefs[0]` (util.py:99-102). -/
def updateFirstSig (f : Sig → Sig) : List Sig → List Sig
  | [] => []
  | s :: ss => f s :: ss

/-- `_remove_tensors_from_model` (util.py:66-105). `remove` is a set: no duplicates, in any order. -/
def removeTensors (sigs : List Sig) (sg : SubGraph) (remove : List Nat) : Option (List Sig × SubGraph) :=
  match remove with
  | [] => some (sigs, sg)
  | r :: rs =>
    if (setMin r rs : Int) = (sg.tensors.length : Int) - (r :: rs).length then
      some (sigs, { sg with tensors := sg.tensors.take (setMin r rs) })
    else do
      let (d, _) ← oldToNew sg.tensors.length (r :: rs)
      let ts ← popAll sg.tensors ((r :: rs).insertionSort (· ≥ ·))
      some (updateFirstSig (fun s => { s with inputs := updateSigTensors d s.inputs,
                                              outputs := updateSigTensors d s.outputs }) sigs,
        { tensors := ts, inputs := updateTensors d sg.inputs, outputs := updateTensors d sg.outputs,
          ops := sg.ops.map fun o => { o with ins := updateTensors d o.ins, outs := updateTensors d o.outs } })

/-- The search of two operator codes with early exit (util.py:115-122 and 242-249). -/
def findCodes (isA isB : OpCode → Bool) : List OpCode → Nat → Option Nat → Option Nat → Option Nat × Option Nat
  | [], _, a, b => (a, b)
  | c :: cs, i, a, b =>
    let ab := if isA c then (some i, b) else if isB c then (a, some i) else (a, b)
    if ab.1.isSome && ab.2.isSome then ab else findCodes isA isB cs (i + 1) ab.1 ab.2

/-- `op.opcodeIndex == code and op.xs[0] in list`: `none` when `op.xs[0]` raises. -/
def opMatches (code : Option Nat) (o : GOp) (xs : List Int) (list : List Int) : Option Bool :=
  if code = some o.code then
    match xs with
    | [] => none
    | x :: _ => some (decide (x ∈ list))
  else some false

/-- The validation loop for output operators (util.py:262-294 and 316-351): the matching operators in order. -/
def findOutputOps (code : Option Nat) (okOut okIn : Nat → Bool) (sg : SubGraph) : List GOp → Option (List GOp)
  | [] => some []
  | o :: os => do
    let m ← opMatches code o o.outs sg.outputs
    if m then do
      let out ← o.outs[0]?
      let inp ← o.ins[0]?
      let tOut ← pyGet sg.tensors out
      let tIn ← pyGet sg.tensors inp
      if okOut tOut.type && okIn tIn.type then do
        let rest ← findOutputOps code okOut okIn sg os
        some (o :: rest)
      else none
    else findOutputOps code okOut okIn sg os

/-- The loop that removes output operators (util.py:208-216, 297-305, 354-362): the graph, the signatures and the set of
removed tensors. -/
def removeOutputOps : List GOp → List Sig × SubGraph × List Int → Option (List Sig × SubGraph × List Int)
  | [], s => some s
  | o :: os, (sigs, sg, rm) => do
    let out ← o.outs[0]?
    let inp ← o.ins[0]?
    removeOutputOps os
      (updateFirstSig (fun s => { s with outputs := npReplace s.outputs out inp }) sigs,
       { sg with outputs := npReplace sg.outputs out inp, ops := sg.ops.eraseP fun x => x.id == o.id },
       if out ∈ rm then rm else out :: rm)

/-- The loop that removes input operators (util.py:195-203). -/
def removeInputOps : List GOp → List Sig × SubGraph × List Int → Option (List Sig × SubGraph × List Int)
  | [], s => some s
  | o :: os, (sigs, sg, rm) => do
    let out ← o.outs[0]?
    let inp ← o.ins[0]?
    removeInputOps os
      (updateFirstSig (fun s => { s with inputs := npReplace s.inputs inp out }) sigs,
       { sg with inputs := npReplace sg.inputs inp out, ops := sg.ops.eraseP fun x => x.id == o.id },
       if inp ∈ rm then rm else inp :: rm)

/-- The indices as the non-negative numbers `_remove_tensors_from_model` works on (a negative one would make `pop` remove
from the end; not modelled: `none`). -/
def natIdxs : List Int → Option (List Nat)
  | [] => some []
  | i :: is => if 0 ≤ i then (natIdxs is).map (i.toNat :: ·) else none

/-- One of the two halves of `_strip_lcedequantize_ops_subgraph` (util.py:256-308 and 310-365). -/
def stripStage (code : Option Nat) (okOut okIn : Nat → Bool) (sigs : List Sig) (sg : SubGraph) :
    Option (List Sig × SubGraph) := do
  let found ← findOutputOps code okOut okIn sg sg.ops
  let (sigs, sg, rm) ← removeOutputOps found (sigs, sg, [])
  let rm ← natIdxs rm
  removeTensors sigs sg rm

/-- Schema enum values: `TensorType.FLOAT32`, `INT32`, `INT8`; `BuiltinOperator.DEQUANTIZE`, `QUANTIZE`. -/
def tyFloat32 : Nat := 0
/-- `TensorType.INT32` -/
def tyInt32 : Nat := 2
/-- `TensorType.INT8` -/
def tyInt8 : Nat := 9
/-- `BuiltinOperator.DEQUANTIZE` -/
def opDequantize : Nat := 6
/-- `BuiltinOperator.QUANTIZE` -/
def opQuantize : Nat := 114

/-- `_strip_lcedequantize_ops_subgraph` (util.py:238-365). -/
def stripSubgraph (codes : List OpCode) (sigs : List Sig) (sg : SubGraph) : Option (List Sig × SubGraph) :=
  let lc := findCodes (·.lceDequantize) (fun c => c.builtin == opDequantize) codes 0 none none
  if lc.1.isNone && lc.2.isNone then none
  else do
    let (sigs, sg) ← (if lc.2.isSome then
        stripStage lc.2 (· == tyFloat32) (· == tyInt8) sigs sg
      else some (sigs, sg))
    stripStage lc.1 (fun t => t == tyFloat32 || t == tyInt8) (· == tyInt32) sigs sg

/-- The loop over the subgraphs of `strip_lcedequantize_ops` (util.py:231-232). -/
def stripAll (codes : List OpCode) : List Sig → List SubGraph → Option (List Sig × List SubGraph)
  | sigs, [] => some (sigs, [])
  | sigs, sg :: sgs => do
    let (sigs, sg) ← stripSubgraph codes sigs sg
    let (sigs, sgs) ← stripAll codes sigs sgs
    some (sigs, sg :: sgs)

/-- `strip_lcedequantize_ops` (util.py:225-235). -/
def stripLceDequantizeOps (m : GModel) : Option GModel := do
  let (sigs, sgs) ← stripAll m.codes m.sigs m.subgraphs
  some { m with sigs := sigs, subgraphs := sgs }

/-- The loop of `_find_int8_quantized_inputs_outputs` (util.py:131-173): input quantize and output dequantize operators. -/
def findIoOps (qc dc : Option Nat) (sg : SubGraph) : List GOp → Option (List GOp × List GOp)
  | [] => some ([], [])
  | o :: os => do
    let mq ← opMatches qc o o.ins sg.inputs
    if mq then do
      let f ← o.ins[0]?
      let q ← o.outs[0]?
      let tf ← pyGet sg.tensors f
      let tq ← pyGet sg.tensors q
      if tf.type == tyFloat32 && tq.type == tyInt8 then do
        let (a, b) ← findIoOps qc dc sg os
        some (o :: a, b)
      else none
    else do
      let md ← opMatches dc o o.outs sg.outputs
      if md then do
        let f ← o.outs[0]?
        let q ← o.ins[0]?
        let tf ← pyGet sg.tensors f
        let tq ← pyGet sg.tensors q
        if tf.type == tyFloat32 && tq.type == tyInt8 then do
          let (a, b) ← findIoOps qc dc sg os
          some (a, o :: b)
        else none
      else findIoOps qc dc sg os

/-- `modify_integer_quantized_model_io_type` (util.py:176-222) on the main subgraph; `intIn`, `intOut`: is the requested
input/output type int8. -/
def modifyIo (codes : List OpCode) (intIn intOut : Bool) (sigs : List Sig) (sg : SubGraph) :
    Option (List Sig × SubGraph) :=
  let qd := findCodes (fun c => c.builtin == opQuantize) (fun c => c.builtin == opDequantize) codes 0 none none
  if qd.1.isNone && qd.2.isNone then none
  else do
    let (qs, ds) ← findIoOps qd.1 qd.2 sg sg.ops
    let (sigs, sg, rm) ← (if intIn then removeInputOps qs (sigs, sg, []) else some (sigs, sg, []))
    let (sigs, sg, rm) ← (if intOut then removeOutputOps ds (sigs, sg, rm) else some (sigs, sg, rm))
    let rm ← natIdxs rm
    removeTensors sigs sg rm

end Verif
