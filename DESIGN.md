# DESIGN: a Lean 4 model of larq/compute-engine

Sections 1-2: how the code is modelled. Section 3: trusted base. Section 4: what is modelled, file by file, and what is not.
Section 5: the plan per property. Section 6: disagreements between the properties and the code found while proving.

## 1. How the code is modelled

* **Undefined behaviour is an outcome.**  Imperative code is written in the
  `Option` monad: `none` means undefined behaviour (an out-of-bounds read or
  write, a negative index, signed overflow where it matters, ...) or a loop that
  did not end.  A theorem of the form `run ... = some out` therefore contains
  memory safety and termination.
* **Loops.**  `for (i = 0; i < n; ++i)` is `forN n body s`, structural recursion
  which runs `body 0`, `body 1`, ... in order and stops at the first `none`.
  Loops are proved with one invariant rule (`forN_inv`); loops that fill a buffer
  with `Fills.loop` (every index is either written with the right value or
  untouched).  `do ... while` loops take fuel and give `none` when the fuel is
  exhausted (`doWhile`, `doWhile_inv`), so that termination is part of the theorem.
* **Memory.**  A buffer is a `List`; reads are `xs[i]?`, writes are a checked
  `set` (`none` when out of range).  Pointers are indices into such a list.
* **Words.**  `TBitpacked` (int32) is `BitVec 32`; `xor_popcount` is the number
  of set bits of `a ^^^ b`.
* **Index arithmetic** is `Nat`/`Int` without 32-bit overflow (tensors have fewer
  than 2^31 elements); accumulator overflow is the subject of C09 and C19 and is
  stated there explicitly.
* **Floating point.**  Kernel-equality theorems are generic in the output
  transform `run : accumulator -> channel -> value`, hence hold bit-for-bit for any
  float semantics (the same transform is applied to the same integer).  Properties
  about real arithmetic are proved in exact arithmetic; properties about rounding
  (C26, C27, C34, C36, C37) use a specification of binary32/binary64 rounding to
  nearest with an arbitrary tie rule (`Spec/Float32`, `Spec/Float64`,
  `Spec/F32Val`).  C01/C45 work on the bit patterns of floats; so does C33, with IEEE subtraction including infinities, NaN
  and overflow specified in `Spec/F32Sub` (`F32.IeeeSub`; `exists_ieeeSub` shows it can be met).
* **Assembly** (bitpack_aarch64.h, kernel_8x4x{1,2,4}_aarch64.h) is transcribed
  instruction by instruction by a generator script (`tools/gen_a64_*.py`, which
  parses the asm strings of /repo) into lists of instructions of a small NEON
  machine; every load is checked against its object.  The floating-point
  instructions are uninterpreted.
* **Machines.**  Interpreter state (Init / Prepare / resize / Eval) is a state
  machine; histories are lists of events, properties are invariants over all
  histories.  MLIR patterns are functions from a matched sub-graph to its
  replacement together with a semantics of both sides; the Python passes work on
  a model of the flatbuffer object API.

## 2. Layers

`Verif/Basic`  loops, buffers, sums, a tactic `kernel_rfl` (builds the term
               `Eq.refl _` and lets the kernel check it; nothing is trusted).
`Verif/Spec`   small independent specifications (binary convolution, max pool,
               rounding, graphs, block semantics, ...).
`Verif/Model`  the code, definition by definition, each citing /repo.
`Verif/Proof`  helper lemmas.
`Verif/Props`  the property theorems, one file per group, each with a concrete
               example meeting the hypotheses; counterexamples (`*_witness`, ...)
               where the full property is false of the code.

## 3. Trusted base

* Lean's kernel; the axioms `propext`, `Classical.choice`, `Quot.sound`, no other.
  `AXIOMS.txt` (generated by `tools/gen_axioms.sh`) lists them per theorem.
* The reading of /repo into `Verif/Model`, including the generators
  (`tools/gen_a*.py`) for the assembly and the semantics given to the NEON instructions in
  `Model/BitpackA64.lean` and `Model/NeonA64.lean`.
* Contracts assumed of functions that are not in /repo (stated at each definition):
  TFLite `ComputeOutSize`, `ComputePaddingWithOffset`, `CalculateActivationRange`,
  `TfLiteRound`, `Im2col`, `DilatedIm2col`, `RuntimeShape`; ruy's block map and
  its packing on the portable path; flexbuffers maps; MLIR's attribute and
  constant-folding helpers; the TFLite interpreter as seen by the Python wrapper.

## 4. What is modelled

| /repo (larq_compute_engine/...) | Lean model |
|---|---|
| core/types.h, core/bitpacking/utils.h | Model/Types |
| core/bitpacking/bitpack.h | Model/Bitpack |
| core/bitpacking/bitpack_aarch64.h | Model/BitpackA64 (assembly) |
| tflite/kernels/quantization.cc | Model/Quantization |
| core/bconv2d/params.h, reference.h, output_transform.h | Model/Params, Reference, OutputTransform, FloatOutput, Spec/OutputBits |
| core/bconv2d/zero_padding_correction.h | Model/ZeroPadding, ZeroPaddingFl, ZeroPaddingPlatform |
| core/indirect_bgemm/kernel.h, kernel_4x2_portable.h, prepare code | Model/Indirect, IndirectEval |
| core/indirect_bgemm/kernel_8x4x{1,2,4}_aarch64.h, select_kernel.h | Model/NeonA64, IndirectA64Code (generated), IndirectA64 |
| core/bconv2d/optimized_bgemm.h, core/bgemm/{bgemm,kernels_common}.h | Model/BGemm, Accum16 |
| core/bgemm/kernels_aarch64.h | Model/GemmA64Code (generated), GemmA64 |
| core/bgemm/kernels_arm32.h | Model/GemmA32Code (generated), GemmA32 |
| core/bgemm/ruy_pack.h | Model/RuyPack |
| core/bmaxpool.h, tflite/kernels/bmaxpool.cc | Model/BMaxPool |
| tflite/kernels/bconv2d.cc (Init, Prepare, OneTimeSetup, Eval*) | Model/OpState, OutputTransform, IndirectEval, BGemm |
| mlir/transforms/optimize.cc, optimize_patterns_*.td | Model/Thresholds, FuseAct, FuseAffine, QuantFuse, QuantPatterns, PackRat |
| mlir/transforms/prepare_tf.cc, prepare_patterns_*.td | Model/BinaryFilter, Padding |
| mlir/ir/lce_ops.cc (fold, build_custom_options) | Model/ConstFold, Attributes |
| mlir/transforms/set_batch_size.cc | Model/BatchSize |
| mlir/transforms/*.cc and *.td as rewrites of a whole graph | Model/Ir |
| the interpreter running a converted graph, sessions of Prepare / Invoke | Model/Exec, ExecFl (with rounding), Session, SessionFl (with rounding), PredictFl |
| mlir/tf_tfl_passes.cc | Model/Pipeline |
| mlir/transforms/detection_postprocess.cc | Model/Detection |
| mlir/transforms/{legalize_tflite,translate_tflite}.cc | Model/Attributes, File |
| mlir/python/{common,saved_model_tfl_flatbuffer,graphdef_tfl_flatbuffer}.cc, mlir/tf_to_tfl_flatbuffer.cc | Model/Glue (TensorFlow, TFLite and MLIR are parameters: `Cpp`) |
| mlir/python/util.py | Model/PyGraph |
| mlir/python/converter.py | Model/Convert (TensorFlow, Keras and the C++ converter are parameters: `World`) |
| core/bgemm/bgemm.h, ruy_trmul_params.h, tflite/kernels/bconv2d.cc (`EvalChooseKernelType`) | Model/Dispatch |
| tflite/python/interpreter*.py, interpreter_wrapper_* | Model/Predict (elements), Model/Wrapper (bytes, tensor structs, pointer cache, metadata getters), Model/PredictBytes (both together) |
| tflite/python/interpreter_wrapper_lite.cc, tflite/kernels/lce_ops_register.h on top of Model/Session | Model/PredictLce |

Not modelled: x86 code generation, ruy's thread pool and caches, TFLite's allocator, the order in which MLIR's
driver applies patterns (C61, C62, C69, C70 hold for every order), TensorFlow's
importer and TFLite's flatbuffer exporter (parameters of `Cpp`, C71), Android / benchmark / build files.

## 5. Plan per property

| id | model | proof |
|----|-------|-------|
| C01-C03 | `bitpack_matrix` and everything below it, for a generic element type with a decidable `<` | loop invariants; one theorem gives the bit of each (row, channel), padding bits, success of every access |
| C04, C05, C48 | `unpack_matrix`, `QuantizeEval`, `DequantizeEval`, their `Prepare` | composition of C01 with the unpack theorem; C05 is false for scale > 2 or zp = -128: negation + exact condition |
| C06 | `xor_popcount` over word lists | induction over words, bit counting |
| C07, C08, C11 | `BConv2DReference` | refinement to a sum-over-`Finset.range` convolution spec |
| C09, C10 | `OneTimeSetup` parameters + `OutputTransform::Run` | algebra in an ordered field, int32 bounds |
| C12, C13 | `PackWeights`, `FillIndirectionBuffer`, portable `Run` | refinement to the same accumulator spec as the reference kernel; C13 exactly (postcondition of the do-while loop shows the out-of-range read) |
| C14-C16 | im2col contract, portable BGEMM kernels, block loops | same; C16 by commutation of writes to disjoint blocks |
| C17, C18 | `CacheCorrectionValues`, `ApplyCorrection` | case analysis on the border regions; the result for every geometry (`Corrected` pixels are zero-padded, the others one-padded) and the exact condition for being right; false when the filter overhangs opposite sides |
| C19 | kernel selection conditions | arithmetic; negation for indirect selection; exact condition for the 16-bit lanes of the indirect kernels |
| C20, C47 | `Init/Prepare/OneTimeSetup/Eval` state machine | invariant over histories; negation for indirect BGEMM, with the exact stale result (Props/Stale: the next inference is what a fresh machine gives at the shape of the first inference; frame lemmas in Proof/Frame) |
| C21 | `Prepare` as a decision function | case analysis |
| C22-C24 | `BMaxPool`, the rewrite pattern | invariants; false for RELU/RELU6, exact condition |
| C25-C27 | threshold computation in optimize.cc | ordered-field reasoning; rounding spec for C26, C27 |
| C28 | `IsSamePadding1D` and friends | arithmetic; false for stride >= 2, exact condition |
| C29-C33, C36, C37 | each rewrite pattern as a function | algebra / case analysis |
| C34, C35 | constant folding, (de)serialisation of options | functional equality; for double scales (where equality is false) an error bound over the rationals: the bytes differ by at most one |
| C38-C40 | Python graph surgery over an abstract flatbuffer | list lemmas, induction, operational semantics of both graphs; C40 exactly: the values of a graph as the solution of its equations, and counting operators for the converse |
| C41 | `predict` loop over an abstract interpreter | induction over samples |
| C42 | batch-size pass | structural |
| C43 | `LceRuyPackImpl` | loop invariants |
| C44 | types.h helpers | omega / BitVec |
| C45 | aarch64 bitpacking assembly | symbolic execution by the kernel, then bit lemmas; false for -0.0 / NaN |
| C46 | composition of the above | corollary |
| C49-C51 | aarch64 indirect kernels | symbolic execution of each straight-line piece (`kernel_rfl`), facts per piece (`NKernel.Facts`), invariants for the depth, filter, channel and pixel loops, refinement to the reference accumulator |
| C52-C55 | aarch64 BGEMM kernels | as C49, plus the block loops: the writes of each block are characterised (`Emits`), blocks may run in any order; C55 by showing the last block always executes a load outside the buffer |
| C56, C57 | 32-bit Arm BGEMM kernel | as C52; C57 compares the fixed-point rounding with round-to-nearest over the rationals. Denormals (A32 NEON flushes them) are in the abstract float operations |
| C58, C59 | output transform and its setup with `fl`, `dl` for the roundings to float and double | error analysis over the rationals from round-to-nearest; independent of tie rule and of fused multiply-add |
| C60 | Spec/Ieee: what the abstract float instructions compute, stored parameters | every binary32 number has a bit pattern; composition of C49, C50, C52, C54 with the error analysis of C58, C59. The 32-bit Arm kernel: C77 |
| C61 | Model/Ir: graphs in SSA form, `replaceOp`, every pattern as a function of its root and of the definitions it looks at, a step relation with every choice of the driver open; Spec/IrSem: what each operator computes | each pattern is sound for every environment; replacing a node by a result of equal value preserves the graph's value; induction over steps. Partial: matches in a rule's `exc` set change the function (ten witnesses); the exceptions of the int8 fusion (ties) depend on the arguments (`excAt`), so the theorem speaks of the arguments `safe` for which no match made was exceptional |
| C62 | the same step relation | a weight per operation (constant operands make it smaller) that every pattern but one decreases, counting only used nodes; that one decreases the number of Dequantize operations before the multiplier; removal and merging decrease the number of nodes. The step counts follow from the same potential |
| C63 | Model/Exec: the interpreter runs the nodes in order, LCE operators by the kernel models of C01-C24 on packed words, all others by their meaning in Spec/IrSem; Spec/ExecRel: when a tensor stands for a value (`Rep`), which nodes are refused (`rejected`), which operand shapes are excluded because of C13, C17 (exactly: some pixel is not `Corrected`), C47 (`tameOp`) | per operator: the kernel theorems give a tensor that stands for the value; induction over the nodes; composed with C61 and C62. Partial: exceptional matches of C61, and the excluded shapes. Props/ExecTypes: a node which runs was given tensors of the types its kernel reads, and int32 tensors are read by their bits |
| C64 | Model/Session: the state of every BConv2D node (`OpData`, last `Prepare`) over a list of events: `Prepare` for any input description (a failing one leaves arbitrary parameters), inferences; `Prepare` may be called again at any time | an invariant of the node state (before setup: anything; after setup: the values a new interpreter would compute) kept by every event; an inference on such a state equals `Graph.exec` of C63. Partial: false for non-constant multipliers and for the indirect kernel when the input moves or is resized (two witnesses). That the parameters of convolutions are constants in every converted graph (`C64_params_constant`) is an invariant of the steps: the values they depend on form a set closed under operands without arguments of the graph; folding turns all of it into constants |
| C65 | Model/Convert: both entry points as functions of their options and of what TensorFlow, Keras and the C++ converter do (`World`, arbitrary) | case analysis; types of the result from C40. `C65_int8_iff`: exactly when the request is honoured. Partial: the fallback ignores a request that the first way refused (witness) |
| C66 | Model/PredictLce: the interpreter of Model/Predict instantiated with the session machine of C64 (kernel chosen by the options; after undefined behaviour the result is arbitrary); `Reachable` states, samples in scope (`SampleOk`) | the induction of C41 relative to an invariant (`StatelessOn`), whose step is C64 |
| C67 | Model/Wrapper: the wrapper's getters, `SetTensorFromNumpy`, the tensor-pointer cache and `predict` on bytes; `Invoke` is a contract (`Computes`: leaves structs in place and computes `f`), TFLite's legacy quantization parameters are a contract (`Legacy`) | an invariant kept by every call, successful or not (cache sound, tensor types, shapes and sizes unchanged), induction over the call history; exact result of `predict` for every list of arrays; quantization by cases. Finding: a tensor with equal but nonzero per-channel zero points makes `…_zero_points` raise, because the legacy zero point is 0 then |
| C68 | Model/Dispatch: accumulator width, path, kernel and layout per platform and output type, on top of Model/BGemm, GemmA64, GemmA32 | by cases on platform and accumulator width from C14, C15, C52-C57; the roundings are compared over the rationals. Simplification: same abstract float operations `F` on the platforms compared (32-bit Arm flushes denormals: then `F` differs); builds with `RUY_OPT(ASM)`; without zero padding |
| C69 | Model/Pipeline: the list of passes, each a set of patterns of Model/Ir run until it is finished; TensorFlow's and TFLite's passes are arbitrary patterns (`Foreign`) with the assumptions of Spec/PipelineRel | invariants per pass: before packing, filters are float constants (`Early`), after it bitpacked constants (`Late`); the packing pass ends only when no float filter is left; what a finished pass cannot have left (Spec/PipelineLeft) follows from its patterns. Simplification: greedy drivers converge (MLIR stops after ten sweeps); CSE may happen in every pass. Fusion cannot be claimed of the final graph (witness: CSE after optimization) |
| C70 | Model/Detection: a second, small SSA representation with several results per operation; the pattern with its undefined outcome; steps are rewritings and removals of unused dequantizations | evaluation of a well-formed function is equivalent to a solution of its equations (`eval_iff`), a step turns solutions into solutions; a measure decreases. The detection kernel is not in the repository: it is any selection by the real numbers of its inputs (Spec/DetectionRel) |
| C71 | Model/Glue: the C++ functions between converter.py and the passes, plugged into the `World` of C65; what TensorFlow, TFLite and MLIR do is a parameter (`Cpp`) | case analysis over the failure points; composition with C65 (options), C69 (passes), C72 (file), C63 (outputs of float models). Assumed of `Cpp`: the pass manager runs the passes it is given, foreign passes as in C69, functions that reach the passes are well formed and compute something (`CppOk`) |
| C72 | Model/File: functions with custom operators; `legalize` and `translate` operator by operator; `FileGraph.exec` looks kernels up by custom code and runs `Init` on the options | per operator from C35 (options survive), then induction over the nodes; `C72_inference` reduces a file to C63's graph, `C72_reexport` is about files written by anything. Missing entries: the converse of the re-export fails (`C72_missing_entry_witness`). |
| C73 | Model/ZeroPaddingFl: the correction generic in the float operations (rounded rationals; bit patterns), the two optimized kernels with it | the cached sums are integers below 2^24, so every addition in the cache is exact; the final product and sum add three rounding errors to C58's; `zp_finish_with` is generic in the relation between exact and stored values. `C73_platforms` (Model/ZeroPaddingPlatform) puts it behind the kernels of C49/C68, on bit patterns: one result for all platforms. |
| C74 | Model/ExecFl: `Model/Exec` with the rounded kernels of `Model/FloatOutput`, `ZeroPaddingFl`, arbitrary write orders and arbitrary TFLite kernels; Spec/ExecFlRel: `Near`, consistent tolerances | induction over the nodes in order: operands within their tolerances give a result within its tolerance, from C58, C59, C73 for BConv2D, sign margins for LceQuantize, an error bound for `1/scale` for LceDequantize; C63's refusals are unchanged because Prepare does no float arithmetic. `C74_margin_witness`: a cancellation makes 0 of -2^-30 in every arithmetic, so the next layer reads +1 for -1. The version for a converted model is partial as C63 is |
| C75 | Model/SessionFl: `Model/Session` with the arithmetic of `Model/ExecFl`: OneTimeSetup with rounding on the vectors of earlier setups, Eval on the state, histories; Spec/SessionFlRel | invariant of the node states over histories (Proof/SessionFl, SessionFlGraph): the cached floats, if any, are those of a fresh setup (setup only overwrites, is idempotent, and does not depend on the input's shape), the saved kernel is the one of the fixed input; hence `stepFl = execFl` with no assumption on the arithmetic, and C74 gives the tolerances. Partial as C64 is (excluded cases of C61, C63; the indirect kernel needs inputs that stay in place, with witnesses) |
| C76 | Model/PredictFl: the wrapper of `Model/Predict` whose `Invoke` is an inference of `Model/SessionFl`; Spec/PredictFlRel (reachable states, samples with tolerances, `NumbersNear`) | the result is not a function of the inputs (the write order may change it), so C41 is redone for a relation between inputs and outputs (Proof/PredictRel: by feeding the outputs to a model that returns its inputs, C41's splitting and concatenation carry over); C75 gives the relation. Partial as C66 and C75 are |
| C77 | Spec/Ftz: what the float instructions of 32-bit Arm Advanced SIMD compute (`FOps.Ftz`: round to nearest, subnormal operands and results replaced by zero); assumed, with `FOps.Fix8` for the conversion to fixed point | the error analysis of C58 redone with flushing (Proof/Ftz); composition with C56, C57 |
| C78 | as C25, C26 and C58; `NearZero` is the rounding error of the two computations | C26 bounds the fused side, C58 the unfused one; two values near 0 differ by less than one multiplier; witness by rounding on a grid (`fl_grid`) |
| C79 | Model/PredictBytes: the Python loop of C41 on the C++ wrapper of C67 (an element is the list of its bytes); spec `ArrOk`, `sampleBytes`, `SampleFits` | the byte-level loop refines the element-level one of C41 for the stateless interpreter that C67 gives (`pyPredict_abs`); its invariant is kept by every call, also by one that raises |

Notes on C61/C62: the `SelectV2` patterns (prepare_patterns_common.td:27-58) read the shape with a `tf.Shape` of the very
result that is replaced, which only works when it folds: the model requires a static shape. The MLIR driver's limit of ten
iterations and its worklist order are not modelled (every order is allowed); it erases trivially dead operations instead of
matching them, hence the premise that the root of a match is used. `ruleBroadcast` models TensorFlow's
`BroadcastToOp::fold`. Arithmetic is exact; the effect of float32 is the subject of C26, C58, C59.

## 6. Disagreements found between the properties and the code

Each is a theorem about the model (name in parentheses or in the MANIFEST entry).

* C05: int8 dequantize then quantize is not the identity for scale > 2 or zero point -128.
* C13: the bitpacked 4x2 indirect kernel reads up to 3 thresholds past the tensor.
* C17: zero-padding correction is skipped when the dilated filter exceeds the image although `Prepare` accepts it.
* C19: `fits_in_uint16_accumulators` bounds the accumulator by the input size, not the filter size; 16-bit lanes wrap (also `C49_overflow_witness` on the real kernels).
* C20: the indirect kernel object is never rebuilt after a resize.
* C21: `Prepare` does not compare the input depth with `channels_in`.
* C24: the max-pool pattern ignores a fused RELU/RELU6.
* C26: float32 threshold computation can be off by one near zero (C26, C78 bound where).
* C28: `IsSamePadding` accepts paddings that differ from SAME for stride >= 2.
* C29: fused rank-4 constants are rejected by `Prepare`.
* C32, C33: sign patterns do not check their constants; `Select` with vector conditions, broadcasting zeros and NaN.
* C34: int8 dequantize folding uses a double scale; rank < 4 and bool folding read out of bounds.
* C35: TANH / SIGN_BIT activations reach undefined behaviour.
* C36: ties, and zero-padded nodes that the optimized kernels reject after fusion.
* C38, C39: only the first signature is renumbered; C40: shared quantized inputs break; C41: zero samples raise IndexError.
* C45: aarch64 float bitpacking packs sign bits (-0.0, NaN).
* C47: bitpacked output with SAME zero padding in the reference kernel reads a null multiplier.
* C50: int8 rounding of the aarch64 kernels is ties-to-even, of the portable code ties-away.
* C51: the aarch64 indirect kernels read up to 12 bytes past multiplier and bias (channels of a group mod 8 in 1..3) and, with groups, up to 16 bytes past the input tensor, when the top left filter position of an output pixel is the last input pixel (1x1 filters, 2x2 filters with SAME). The condition `A64Fits` is exact (`C51_a64_fits_iff`).
* C54: the streaming loop of the 4x4 kernel accumulates 8 words too many for packed depth 8 or depth = 4 mod 8 (>= 12): wrong results (`C54_stream_wrong_witness`).
* C55: the 8x4 kernel reads up to 12 bytes past multiplier and bias, up to 28 bytes past the thresholds tensor.
* C57: the 32-bit Arm kernel rounds int8 results just below a negative tie up (`C57_rounding_witness`).
* C58: the rounding error is relative to `|bias| + K |multiplier|`, not to the result: a result of `2^-30` becomes 0 (`C58_cancellation_witness`).
* C61: ten patterns change the function of some graph (each `C61_*_witness`): among them constants of shape `[1, H, W, C]` fused into a bias, zero constants that enlarge the shape in `GreaterEqual(x, 0)`, `SelectV2` of rank 0.
* C64: a multiplier, bias or threshold tensor that is not a constant is read in the first inference after a `Prepare` only (`C64_variable_multiplier_witness`); C20's stale indirect kernel in a whole model: after a resize part of the output keeps what the buffer held (`C64_indirect_resize_witness`).
* C65: `convert_keras_model` swallows the error of `convert_saved_model` for a float model with int8 requested, falls back and returns a model with float inputs and outputs (`C65_float_model_witness`); an input that is used without Quantize keeps its type or raises (`C65_unquantized_input_witness`).
* Not expressible in the model: the accumulation loops' `asm` statements modify operands declared input-only.
