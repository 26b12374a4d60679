import Verif.Model.Ir

/-!
Model of the order of the converter's passes:
`AddPostVariableFreezingTFToLCETFLConversionPasses` and `AddQuantizationPasses`
(`/repo/larq_compute_engine/mlir/tf_tfl_passes.cc:26-76` and `121-291`).

The passes of `/repo` apply the patterns of `Model/Ir.lean`; `applyPatternsAndFoldGreedily` is assumed to run until no
pattern applies, nothing can be folded and no operation is unused (it stops earlier if it has not converged after ten
sweeps). The passes of TensorFlow, TFLite and MLIR are `foreign`: any number of applications of arbitrary patterns, about
which the theorems make assumptions. Passes that cannot change the operators of a function are left out (symbol DCE,
asset and variable passes, shape inference), and so are the passes after the last canonicalization
(`tf_tfl_passes.cc:277-290`), which do not touch the modelled operators except for `LegalizeLCE` (C35).
-/

namespace Verif.Ir

/-- The kinds of passes. -/
inductive PassKind where
  /-- passes of TensorFlow and TFLite before the quantization passes -/
  | foreign
  /-- `CreateOpRemovalPass` (transforms/op_removal.cc:26-32) -/
  | opRemoval
  /-- `createCanonicalizerPass` and `createCSEPass` -/
  | canonicalize
  /-- `CreatePrepareLCEPass` (transforms/prepare_tf.cc:164-181) -/
  | prepare
  /-- `CreateOptimizeLCEPass` (transforms/optimize.cc:258-270) -/
  | optimize
  /-- `CreateBitpackWeightsLCEPass` (transforms/bitpack_weights.cc:35-41) -/
  | bitpackWeights
  /-- `CreateFusePaddingPass` (transforms/fuse_padding.cc:48-57) -/
  | fusePadding
  /-- passes of TFLite that quantize: they may change results -/
  | quantForeign
  /-- `CreateLCEQuantizePass` (transforms/quantize.cc:29-34) -/
  | lceQuantize
deriving DecidableEq, Repr

/-- `AddQuantizationPasses` (tf_tfl_passes.cc:26-76); `ranges`: a default range is given. -/
def quantizationPasses (ranges : Bool) : List PassKind :=
  -- PrepareQuantize, LCEQuantize
  [.quantForeign, .lceQuantize] ++
  -- DefaultQuantParams, LCEQuantize
  (if ranges then [.quantForeign, .lceQuantize] else []) ++
  -- QuantizeDetectionPostProcess, Quantize and PostQuantize; LCEQuantize; PostQuantize, OptimizeOpOrder and Optimize
  [.quantForeign, .lceQuantize, .quantForeign]

/-- `AddPostVariableFreezingTFToLCETFLConversionPasses` (tf_tfl_passes.cc:121-291); `quant`: the quantization passes run
(tf_tfl_passes.cc:260-267). -/
def conversionPasses (quant ranges : Bool) : List PassKind :=
  -- composite functions, inlining, tensor lists, batch size, while loops (tf_tfl_passes.cc:129-158)
  [.foreign,
  -- tf_tfl_passes.cc:162-163, 191-193
  .opRemoval, .canonicalize,
  -- layout optimization (tf_tfl_passes.cc:199-205)
  .foreign,
  -- tf_tfl_passes.cc:207-208
  .prepare,
  -- PrepareTF, canonicalization (tf_tfl_passes.cc:211-214)
  .foreign, .canonicalize,
  -- inlining, text files, LegalizeTF, variables, hash tables (tf_tfl_passes.cc:223-233)
  .foreign,
  -- OptimizeLCE, TFLite's Optimize, OptimizeLCE, BitpackWeights (tf_tfl_passes.cc:234-241)
  .optimize, .foreign, .optimize, .bitpackWeights,
  -- OptimizeFunctionalOps, RaiseCustomOps, canonicalization and CSE (tf_tfl_passes.cc:246-253)
  .foreign, .canonicalize,
  -- tf_tfl_passes.cc:255-256
  .fusePadding] ++
  -- quantization and PostQuantizeRemoveQDQ (tf_tfl_passes.cc:260-267)
  (if quant then quantizationPasses ranges ++ [.quantForeign] else []) ++
  -- tf_tfl_passes.cc:268
  [.canonicalize]

/-- The patterns of TensorFlow's and TFLite's passes. -/
structure Foreign where
  /-- before quantization -/
  rules : List Rule
  /-- of the quantization passes -/
  quant : List Rule

/-- The patterns of a pass for a target. -/
def PassKind.rules (arm : Bool) (F : Foreign) : PassKind → List Rule
  | .foreign => F.rules
  | .opRemoval => [rulePass, ruleIdentity, ruleFold]
  | .canonicalize => [ruleBroadcast, ruleFold]
  | .prepare => [ruleSelect false, ruleSelect true, ruleSign false, ruleSign true, rulePrepare false, rulePadConv,
      ruleFold] ++ if arm then [rulePrepare true] else []
  | .optimize => optimizeRules arm ++ [ruleFold]
  | .bitpackWeights => [ruleBitpackWeights, ruleFold]
  | .fusePadding => fusePadRules ++ [ruleFold]
  | .quantForeign => F.quant
  | .lceQuantize => quantizeRules ++ [ruleFold]

/-- The pass is one of TensorFlow or TFLite. -/
def PassKind.isForeign : PassKind → Bool
  | .foreign => true
  | .quantForeign => true
  | _ => false

/-- No operation is unused and no pattern applies. -/
def Graph.Finished (rules : List Rule) (g : Graph) : Prop :=
  (∀ n ∈ g.nodes, 0 < g.uses n.name) ∧
  ∀ r ∈ rules, ∀ pre n post, g.nodes = pre ++ n :: post → r.apply ⟨lookIn pre, g.uses⟩ n = Option.none

/-- A run of a pass from `g` to `g'`: any number of steps; a pass of `/repo` and the canonicalizer stop when they are
finished. `safe`: arguments for which no match is exceptional; the passes that quantize may change every result. -/
def PassRun (arm : Bool) (F : Foreign) (safe : List Val → Prop) (p : PassKind) (g g' : Graph) : Prop :=
  Steps (p.rules arm F) (if p = .quantForeign then fun _ => False else safe) g g' ∧ (p.isForeign = false → g'.Finished (p.rules arm F))

/-- A run of passes one after the other (`PassManager::run`). -/
inductive PassRuns (arm : Bool) (F : Foreign) (safe : List Val → Prop) : List PassKind → Graph → Graph → Prop
  | nil (g : Graph) : PassRuns arm F safe [] g g
  | cons {p : PassKind} {ps : List PassKind} {g g' g'' : Graph} (h : PassRun arm F safe p g g')
      (hs : PassRuns arm F safe ps g' g'') : PassRuns arm F safe (p :: ps) g g''

end Verif.Ir
