{"id": "C01", "title": "Quantize stores exactly the sign of every element", "statement": "Running LceQuantize on a tensor yields, for each row r and channel c, an output word (r, c/32) whose bit c%32 is 1 exactly when the element is below the zero point (float: below 0; int8: below zero_point; bool: false), and 0 otherwise.", "quantifier": "every row count, every channel count (also not a multiple of 32), every element value, every int32 zero point including ones outside the element type's range", "why_tests_cant": "the code has four different paths (zero point out of range low/high, no padding, padding) and the shape space is infinite; tests sample a few sizes", "anchors": ["larq_compute_engine/core/bitpacking/bitpack.h: bitpack_matrix, bitpack_array, bitpack_bitfield", "larq_compute_engine/tflite/kernels/quantization.cc: QuantizeEval", "larq_compute_engine/core/bitpacking/utils.h: bitpack_tensor"]}
{"id": "C02", "title": "Unused bits of a packed word are always zero", "statement": "In every bitpacked tensor written by LceQuantize, the bits of the last word of a row that do not correspond to a channel are 0, whatever the input and zero point.", "quantifier": "every shape, input and zero point", "why_tests_cant": "xor-popcount sums silently count stray bits; a wrong stray bit only shows for particular shape/zero point combinations", "anchors": ["larq_compute_engine/core/bitpacking/bitpack.h: bitpack_array (padding buffer), bitpack_matrix (value_with_padding)"]}
{"id": "C03", "title": "Bitpacking stays inside its buffers", "statement": "Bitpacking a rows x cols matrix reads only the rows*cols input elements and writes each of exactly rows*ceil(cols/32) output words, and nothing else.", "quantifier": "every rows, cols, zero point", "why_tests_cant": "out-of-bounds accesses are silent in tests", "anchors": ["larq_compute_engine/core/bitpacking/bitpack.h: bitpack_matrix, GetBitpackedMatrixSize", "larq_compute_engine/core/bitpacking/utils.h: GetBitpackedTensorSize, bitpacked_shape"]}
{"id": "C04", "title": "Dequantize after Quantize is the sign function", "statement": "LceDequantize(LceQuantize(x)) has the shape of x and is +1 (true) where x is >= 0 (>= zero point / true) and -1 (false) elsewhere, for float and bool outputs; LceQuantize(LceDequantize(w)) = w for every packed tensor whose unused bits are 0.", "quantifier": "every shape and every content", "why_tests_cant": "round trips over infinitely many shapes and 2^32 words per element", "anchors": ["larq_compute_engine/core/bitpacking/bitpack.h: unpack_matrix, unpack_bitfield, bitpack_matrix", "larq_compute_engine/tflite/kernels/quantization.cc: DequantizeEval, QuantizeEval"]}
{"id": "C05", "title": "Int8 Dequantize followed by int8 Quantize preserves every bit", "statement": "For an int8 tensor type with scale s and zero point z, LceQuantize(LceDequantize(w)) = w for every packed tensor w with zero unused bits.", "quantifier": "every scale, zero point, shape and content", "why_tests_cant": "depends on extreme scales and zero points that tests do not use", "anchors": ["larq_compute_engine/tflite/kernels/quantization.cc: DequantizeEval (int8 branch), QuantizeEval"]}
{"id": "C06", "title": "Binary dot product from xor-popcount", "statement": "For two packed vectors of n channels with zero unused bits, n - 2*popcount(xor) equals the sum over channels of the products of the +1/-1 values they encode.", "quantifier": "every n and every pair of packed vectors", "why_tests_cant": "2^(2n) pairs for each n", "anchors": ["larq_compute_engine/core/types.h: xor_popcount", "larq_compute_engine/core/bconv2d/output_transform.h"]}
{"id": "C07", "title": "Reference BConv2D with float output computes the binary convolution", "statement": "With the reference kernel and VALID or SAME padding with pad_values=1, every float output element is activation(conv)*multiplier[c]+bias[c], where conv is the integer convolution of the +1/-1 input (padded with +1) with the +1/-1 filter, including strides, dilations and groups.", "quantifier": "every batch, spatial size, channel count, group count, stride, dilation, filter, activation and input, in exact arithmetic", "why_tests_cant": "parameter space is a product of unbounded dimensions", "anchors": ["larq_compute_engine/core/bconv2d/reference.h: BConv2DReference", "larq_compute_engine/tflite/kernels/bconv2d.cc: OneTimeSetup, EvalRef", "larq_compute_engine/core/bconv2d/output_transform.h"]}
{"id": "C08", "title": "Reference BConv2D implements true zero padding", "statement": "With SAME padding, pad_values=0 and an even number of input channels, the reference kernel's result equals the convolution of the +1/-1 input padded with zeros.", "quantifier": "every shape, stride, dilation, group count, filter and input", "why_tests_cant": "edge pixels times all parameters", "anchors": ["larq_compute_engine/core/bconv2d/reference.h: BConv2DReference (binary_zero_point)", "larq_compute_engine/tflite/kernels/bconv2d.cc: Prepare (zero-padding check)"]}
{"id": "C09", "title": "The fused output transform equals the documented one", "statement": "The runtime computes float(clamp'(2*accum))*mul'+bias' with parameters precomputed at setup; for every accumulator value in {0..K} this equals clamp(K-2*accum, activation range)*multiplier+bias, and no intermediate int32 value overflows when 2K < 2^31.", "quantifier": "every K, accumulator, activation function, multiplier and bias, in exact arithmetic", "why_tests_cant": "the equivalence is claimed for all accumulators; tests check a handful through whole convolutions", "anchors": ["larq_compute_engine/core/bconv2d/output_transform.h: OutputTransform<float>::Run", "larq_compute_engine/tflite/kernels/bconv2d.cc: OneTimeSetup"]}
{"id": "C10", "title": "Int8 output is the rounded, saturated affine result", "statement": "For int8 output every element is round_half_away(y/scale + zero_point) clamped to [-128,127], where y is the float-mode value, in exact arithmetic; the result never wraps.", "quantifier": "every accumulator, K, activation, multiplier, bias, scale > 0, zero point", "why_tests_cant": "saturation boundaries and ties are measure-zero for random tests", "anchors": ["larq_compute_engine/core/bconv2d/output_transform.h: OutputTransform<int8_t>::Run, saturate, round", "larq_compute_engine/tflite/kernels/bconv2d.cc: OneTimeSetup"]}
{"id": "C11", "title": "Bitpacked output bits and layout", "statement": "With int32 (bitpacked) output, bit c%32 of output word (b,y,x,c/32) of the reference kernel is 1 exactly when the xor-popcount accumulator of channel c exceeds threshold[c]; the unused bits of the last word are 0 and every output word is written exactly once.", "quantifier": "every shape, channel count, group count, threshold and input", "why_tests_cant": "layout bugs only appear for particular channel counts modulo 32", "anchors": ["larq_compute_engine/core/bconv2d/reference.h: BConv2DReference (bitpacked_column)", "larq_compute_engine/core/bconv2d/output_transform.h: OutputTransform<TBitpacked>"]}
{"id": "C12", "title": "Indirect BGEMM agrees with the reference kernel (float/int8)", "statement": "Without zero padding, the portable indirect BGEMM kernel writes bit-for-bit the same float/int8 output tensor as the reference kernel, without out-of-bounds access.", "quantifier": "every batch, size, channel count (any residue mod 4), group count, odd and even pixel counts, stride, dilation, padding, filter, input, output transform", "why_tests_cant": "block remainders x groups x padding is an unbounded product; tests compare a grid", "anchors": ["larq_compute_engine/core/indirect_bgemm/kernel.h: PackWeights, FillIndirectionBuffer", "larq_compute_engine/core/indirect_bgemm/kernel_4x2_portable.h: Kernel4x2Portable::Run", "larq_compute_engine/core/bconv2d/optimized_indirect_bgemm.h"]}
{"id": "C13", "title": "Indirect BGEMM agrees with the reference kernel (bitpacked output)", "statement": "Without zero padding, the portable indirect BGEMM kernel writes bit-for-bit the same bitpacked output as the reference kernel, also when group boundaries are not aligned to 4, 16 or 32 channels.", "quantifier": "every batch, size, channel count, group count, stride, dilation, padding, filter, input, thresholds", "why_tests_cant": "the half-word flushing logic depends on channel counts modulo 4, 16 and 32 in each group", "anchors": ["larq_compute_engine/core/indirect_bgemm/kernel_4x2_portable.h: Kernel4x2Portable<TBitpacked>::Run"]}
{"id": "C14", "title": "im2col + BGEMM agrees with the reference kernel (float/int8)", "statement": "Without groups and without zero padding, the portable Ruy-based kernel writes bit-for-bit the same float/int8 output tensor as the reference kernel.", "quantifier": "every batch, size, channel count, stride, dilation, padding, filter, input, output transform", "why_tests_cant": "unbounded parameter product", "anchors": ["larq_compute_engine/core/bconv2d/optimized_bgemm.h: im2col, BConv2DOptimizedBGEMM", "larq_compute_engine/core/bgemm/kernels.h: BGemmKernel<kStandardCpp>, RunBGemmKernelTyped"]}
{"id": "C15", "title": "im2col + BGEMM agrees with the reference kernel (bitpacked output)", "statement": "Without groups and without zero padding, the portable Ruy-based kernel writes bit-for-bit the same bitpacked output tensor as the reference kernel.", "quantifier": "every batch, size, channel count, stride, dilation, padding, filter, input, thresholds", "why_tests_cant": "unbounded parameter product", "anchors": ["larq_compute_engine/core/bgemm/kernels.h: BGemmKernel<kStandardCpp, TBitpacked>", "larq_compute_engine/core/bconv2d/optimized_bgemm.h"]}
{"id": "C16", "title": "BGEMM results do not depend on the work schedule", "statement": "However the destination matrix is split into kernel-aligned blocks and in whatever order (on whatever threads) the blocks run, the final destination contents are the same.", "quantifier": "every set of aligned blocks covering the matrix and every execution order, for float/int8 and bitpacked output", "why_tests_cant": "schedules and thread counts cannot be enumerated", "anchors": ["larq_compute_engine/core/bgemm/kernels.h: RunBGemmKernelTyped, BGemmKernel::Run"]}
{"id": "C17", "title": "Zero-padding correction turns one-padding into zero-padding", "statement": "With SAME padding, pad_values=0, float output and no activation, the optimized kernels' result (one-padded convolution plus cached correction) equals the zero-padded convolution times multiplier plus bias, whenever setup accepts the configuration.", "quantifier": "every shape, stride, dilation, filter, input and multiplier, in exact arithmetic", "why_tests_cant": "the four-case edge table and the skip-ahead arithmetic depend on all geometry parameters", "anchors": ["larq_compute_engine/core/bconv2d/zero_padding_correction.h: CacheCorrectionValues, ApplyCorrection", "larq_compute_engine/tflite/kernels/bconv2d.cc: Prepare, OneTimeSetup"]}
{"id": "C18", "title": "Zero-padding cache accesses are in bounds", "statement": "The padding-correction cache is completely filled at setup and every later access to it and to the output tensor is in bounds.", "quantifier": "every geometry accepted by setup", "why_tests_cant": "out-of-bounds reads are silent", "anchors": ["larq_compute_engine/core/bconv2d/zero_padding_correction.h: GetCacheSize, CacheCorrectionValues, ApplyCorrection"]}
{"id": "C19", "title": "16-bit accumulators never overflow", "statement": "Whenever a kernel with 16-bit accumulators is selected (Arm64 BGEMM and Arm64 indirect BGEMM), the accumulated popcount of every output element fits in 16 bits.", "quantifier": "every shape, filter and input for which the selection logic picks the 16-bit kernel", "why_tests_cant": "needs worst-case bit patterns with thousands of channels for each geometry", "anchors": ["larq_compute_engine/tflite/kernels/bconv2d.cc: EvalChooseKernelType", "larq_compute_engine/core/indirect_bgemm/select_kernel.h: SelectRuntimeKernel"]}
{"id": "C20", "title": "Every inference after a resize uses the current shapes", "statement": "For any history of (re)preparing with new input sizes and running inference, each inference result depends only on the current shapes, weights and input, as if the interpreter had just been created, for each of the three kernel types.", "quantifier": "every finite history of prepare/resize and inference calls", "why_tests_cant": "histories are unbounded", "anchors": ["larq_compute_engine/tflite/kernels/bconv2d.cc: Prepare, OneTimeSetup, EvalOptBGEMM, EvalOptIndirectBGEMM, EvalRef"]}
{"id": "C21", "title": "Setup rejects exactly the unsupported BConv2D configurations", "statement": "Prepare succeeds only if group sizes are multiples of 32 channels, groups divide the output channels, zero padding is supported by the kernel/output type, and parameter tensors have the right sizes; on success all grouped index computations are exact divisions and the output shape is the TFLite SAME/VALID shape with ceil(C/32) channels for bitpacked output.", "quantifier": "every attribute combination and tensor shape", "why_tests_cant": "decision logic over an unbounded parameter space", "anchors": ["larq_compute_engine/tflite/kernels/bconv2d.cc: Init, Prepare"]}
{"id": "C22", "title": "Binary max pooling equals max pooling followed by Quantize", "statement": "LceBMaxPool2d applied to LceQuantize(x) equals LceQuantize applied to the max pool of x with the same attributes.", "quantifier": "every shape, filter size, stride, padding, and every input over a linearly ordered type", "why_tests_cant": "unbounded shapes and inputs", "anchors": ["larq_compute_engine/core/bmaxpool.h: BMaxPool", "larq_compute_engine/tflite/kernels/bmaxpool.cc: Prepare, Eval", "larq_compute_engine/mlir/transforms/optimize_patterns_target_arm.td"]}
{"id": "C23", "title": "Binary max pooling stays inside its buffers", "statement": "For every configuration accepted by Prepare (with a filter no larger than the image for VALID), BMaxPool reads only input elements inside the window/image intersection and writes each output word exactly once, and every window is non-empty.", "quantifier": "every shape, filter, stride, padding type", "why_tests_cant": "pointer walks with computed strides; silent out-of-bounds reads", "anchors": ["larq_compute_engine/core/bmaxpool.h: BMaxPool", "larq_compute_engine/tflite/kernels/bmaxpool.cc: Prepare"]}
{"id": "C24", "title": "Converter: moving Quantize before MaxPool2D preserves the model", "statement": "Rewriting LceQuantize(MaxPool2D(x)) to LceBMaxPool2d(LceQuantize(x)) does not change the result for any fused activation function the pattern accepts.", "quantifier": "every input, shape and attribute set matched by the pattern", "why_tests_cant": "the pattern matches any fused activation; tests only use NONE", "anchors": ["larq_compute_engine/mlir/transforms/optimize_patterns_target_arm.td"]}
{"id": "C25", "title": "Converter: bitpacked-output thresholds are exact", "statement": "Fusing LceQuantize into BConv2D (thresholds plus sign-flipped filters) writes a 1-bit exactly when the float-mode result clamp(a-2x)*multiplier+bias is negative, in exact arithmetic.", "quantifier": "every filter size, accumulator, activation, multiplier (positive, negative, zero) and bias", "why_tests_cant": "real-valued parameters and all accumulators", "anchors": ["larq_compute_engine/mlir/transforms/optimize.cc: ComputeWriteBitpackedOutputThresholds, GetSignsOfVectorAndBroadcast4D, GetBitpackedOutputThresholds", "larq_compute_engine/mlir/transforms/bitpack_activations_patterns.td"]}
{"id": "C26", "title": "Converter: thresholds computed in float32 give the same bits", "statement": "The thresholds as computed with float32 rounding decide the sign of the exact float-mode result for every accumulator.", "quantifier": "every multiplier, bias and accumulator under round-to-nearest float32", "why_tests_cant": "fails only for biases tiny relative to the multiplier", "anchors": ["larq_compute_engine/mlir/transforms/optimize.cc: ComputeWriteBitpackedOutputThresholds"]}
{"id": "C27", "title": "Converter: thresholds always fit in int32", "statement": "Every computed threshold is representable as a 32-bit integer, so the conversion from floating point is never out of range.", "quantifier": "every multiplier, bias, activation and filter size below 2^30", "why_tests_cant": "real-valued parameters", "anchors": ["larq_compute_engine/mlir/transforms/optimize.cc: ComputeWriteBitpackedOutputThresholds"]}
{"id": "C28", "title": "Converter: fusing explicit padding into SAME preserves the model", "statement": "Whenever the converter accepts a Pad followed by a VALID (binary or float) convolution as 'same' padding and replaces it by a SAME convolution without Pad, each output pixel reads the same input pixels and padding values as before.", "quantifier": "every input size, filter size, dilation, stride and padding amounts accepted by the check", "why_tests_cant": "needs strides > 1 with particular sizes; tests check a few", "anchors": ["larq_compute_engine/mlir/transforms/padding.h: IsSamePadding1D, IsNoPadding", "larq_compute_engine/mlir/transforms/prepare_tf.cc: IsSamePadding", "larq_compute_engine/mlir/transforms/fuse_padding.cc: IsSamePaddingPartial", "larq_compute_engine/mlir/transforms/fuse_padding.td"]}
{"id": "C29", "title": "Converter: fusing Add/Sub/Mul/Div into BConv2D preserves the model", "statement": "Replacing a per-channel Add, Sub, Mul or Div after BConv2D by updated multiplier and bias does not change the result, for any fused activation already present, in exact arithmetic; also for any sequence of such fusions.", "quantifier": "every multiplier, bias, constant (non-zero for Div) and accumulator, every sequence of fusions", "why_tests_cant": "real-valued parameters, unbounded sequences", "anchors": ["larq_compute_engine/mlir/transforms/optimize_patterns_common.td: FuseAddOrSubWithBConv2D, FuseMulOrDivWithBConv2D"]}
{"id": "C30", "title": "Converter: fusing an activation into BConv2D preserves the model", "statement": "Replacing Relu/Relu1/Relu6 after a BConv2D with multiplier 1 and bias 0 by the fused activation gives the same result, and the fused op is accepted by every kernel's setup.", "quantifier": "every accumulator and filter size", "why_tests_cant": "all accumulators", "anchors": ["larq_compute_engine/mlir/transforms/optimize_patterns_common.td: FuseActFnIntoConvOpPat", "larq_compute_engine/tflite/kernels/bconv2d.cc: Prepare"]}
{"id": "C31", "title": "Converter: Conv2D with a binary filter becomes an equivalent BConv2D", "statement": "When a Conv2D on a dequantized input has a filter accepted as binary, the BConv2D with sign filter and per-channel scale gives the same result if the filter magnitudes are exactly equal per channel, and otherwise differs by at most 0.5% of scale times the number of filter elements.", "quantifier": "every filter accepted by the check and every +1/-1 input", "why_tests_cant": "real-valued filters", "anchors": ["larq_compute_engine/mlir/transforms/prepare_tf.cc: IsBinaryFilter, GetScaleVector, HasValidFilterShape", "larq_compute_engine/mlir/transforms/prepare_patterns_common.td: PrepareBConvPadValue0Pat"]}
{"id": "C32", "title": "Converter: sign(sign(x)+c) is replaced only when it is a binary quantizer", "statement": "Whenever the converter replaces Sign(Sign(x)+c) by Dequantize(Quantize(x)), the two agree on every x.", "quantifier": "every c matched by the pattern and every x", "why_tests_cant": "the pattern does not constrain c", "anchors": ["larq_compute_engine/mlir/transforms/prepare_patterns_common.td: TF_SignOp patterns"]}
{"id": "C33", "title": "Converter: where-based quantizers are translated faithfully", "statement": "Select(cond,1,-1) and Select(cond,-1,1) become Dequantize(Quantize(cond')) with the same value for every condition tensor, and Quantize(x>=t), Quantize(t<=x), Quantize(x>=0) are rewritten to Quantize of a difference (or x) with the same bits.", "quantifier": "every tensor content and shape, in exact arithmetic", "why_tests_cant": "all conditions/inputs", "anchors": ["larq_compute_engine/mlir/transforms/prepare_patterns_common.td: QuantDequantPatterns", "larq_compute_engine/mlir/transforms/optimize_patterns_common.td: GreaterEqual/LessEqual patterns"]}
{"id": "C34", "title": "Converter: constant folding agrees with the runtime ops", "statement": "Folding LceQuantize/LceDequantize of a constant at conversion time produces the same tensor as running the op at inference time.", "quantifier": "every constant tensor of rank 4 and every supported output type", "why_tests_cant": "all constants", "anchors": ["larq_compute_engine/mlir/transforms/bitpack.cc: Bitpack, Unpack", "larq_compute_engine/mlir/ir/lce_ops.cc: QuantizeOp::fold, DequantizeOp::fold", "larq_compute_engine/tflite/kernels/quantization.cc"]}
{"id": "C35", "title": "Op attributes survive serialization", "statement": "The attributes of LceBconv2d and LceBMaxPool2d read by the runtime (and by the TFLite-to-LCE importer) are exactly those the converter wrote, for every attribute value with a supported activation and padding; an unsupported pad value is reported by Prepare.", "quantifier": "every attribute combination", "why_tests_cant": "all 32-bit attribute values", "anchors": ["larq_compute_engine/mlir/ir/lce_ops.cc: buildCustomOptions", "larq_compute_engine/tflite/kernels/bconv2d.cc: Init", "larq_compute_engine/tflite/kernels/bmaxpool.cc: Init", "larq_compute_engine/mlir/transforms/translate_tflite.cc", "larq_compute_engine/tflite/kernels/utils.h: ConvertActivation, ConvertPadding"]}
{"id": "C36", "title": "Converter: int8 output fusion equals quantizing the float output", "statement": "Replacing Quantize(BConv2D float) by an int8 BConv2D gives the same int8 value for every accumulator.", "quantifier": "every accumulator, multiplier, bias, scale and zero point, in exact arithmetic", "why_tests_cant": "differs only on rounding ties", "anchors": ["larq_compute_engine/mlir/transforms/quantize_patterns.td", "larq_compute_engine/core/bconv2d/output_transform.h"]}
{"id": "C37", "title": "Converter: dropping Dequantize before LceQuantize preserves the bits", "statement": "LceQuantize(Dequantize(x)) and LceQuantize(x) on the int8 tensor give the same bits, and Quantize(LceDequantize(w)) equals LceDequantize(w) with int8 output, for every scale > 0 and zero point.", "quantifier": "every int8 value, scale and zero point, in exact arithmetic", "why_tests_cant": "real-valued scales", "anchors": ["larq_compute_engine/mlir/transforms/quantize_patterns.td", "larq_compute_engine/tflite/kernels/quantization.cc"]}
{"id": "C38", "title": "Removing tensors renumbers references consistently", "statement": "After tensors are removed from a model, every operator, graph input, graph output and signature that referred to a kept tensor still refers to that same tensor.", "quantifier": "every model graph and every set of removed tensors", "why_tests_cant": "unbounded graphs; there is a fast path that skips renumbering", "anchors": ["larq_compute_engine/mlir/python/util.py: _remove_tensors_from_model, _update_signature_def_tensors"]}
{"id": "C39", "title": "strip_lcedequantize_ops exposes the packed tensors and changes nothing else", "statement": "The stripped model's outputs are the packed tensors that fed the removed LceDequantize ops (and the unchanged outputs otherwise), for every model whose removed output tensors are not consumed by other ops.", "quantifier": "every model graph, every operator semantics and every input", "why_tests_cant": "unbounded graphs", "anchors": ["larq_compute_engine/mlir/python/util.py: strip_lcedequantize_ops, _strip_lcedequantize_ops_subgraph, _remove_tensors_from_model"]}
{"id": "C40", "title": "int8 model input/output conversion preserves the model function", "statement": "modify_integer_quantized_model_io_type yields a model that on the int8 tensors computes what the original computed after its input Quantize and before its output Dequantize ops.", "quantifier": "every model graph and input", "why_tests_cant": "unbounded graphs", "anchors": ["larq_compute_engine/mlir/python/util.py: modify_integer_quantized_model_io_type"]}
{"id": "C41", "title": "Interpreter.predict maps the model over samples in order", "statement": "predict on n samples returns arrays with n entries per output, entry i being the model's output on sample i alone, for array, list and iterator inputs.", "quantifier": "every number of samples, inputs and outputs", "why_tests_cant": "unbounded batches", "anchors": ["larq_compute_engine/tflite/python/interpreter_base.py: data_generator, predict"]}
{"id": "C42", "title": "Batch size pass changes only dynamic batch dimensions", "statement": "Setting the batch size replaces exactly the dynamic leading dimensions of function inputs by 1, keeps everything else, is idempotent, and keeps signature and block argument types equal.", "quantifier": "every function signature", "why_tests_cant": "unbounded ranks/arities", "anchors": ["larq_compute_engine/mlir/transforms/set_batch_size.cc: SetBatchSize, SetBatchSizePass"]}
{"id": "C43", "title": "RHS packing for the 4x4 kernels is an exact zero-padded copy", "statement": "Packing a k x m column-major matrix for the optimized kernels places element (r,c) at its 4x4-block position and zeros everywhere else in the packed blocks, without reading outside the matrix.", "quantifier": "every k, m, stride and column range", "why_tests_cant": "remainders modulo 4 in both dimensions", "anchors": ["larq_compute_engine/core/bgemm/ruy_pack.h: LceRuyPackImpl::Run"]}
{"id": "C44", "title": "Integer helpers are exact", "statement": "saturate clamps to [-128,127]; shift_saturate is floor division by a power of two followed by clamping; the single-comparison bounds check equals 0 <= i < limit for every non-negative limit; ceiling division and rounding up give the least multiple.", "quantifier": "all 32-bit values", "why_tests_cant": "2^32..2^64 cases", "anchors": ["larq_compute_engine/core/types.h: saturate, shift_saturate, FastBoundsCheck, CeilDiv, Ceil"]}
{"id": "C45", "title": "Arm64 optimized bitpacking equals the portable one", "statement": "On Arm64 the vectorized float and int8 bitpacking produce the same words as the portable code.", "quantifier": "every block count and every input value including -0.0 and NaN", "why_tests_cant": "2^32 values per lane; requires special values", "anchors": ["larq_compute_engine/core/bitpacking/bitpack_aarch64.h: bitpack_aarch64_4x32", "larq_compute_engine/core/bitpacking/bitpack.h: bitpack_array"]}
{"id": "C46", "title": "A converted sign-conv-batchnorm-sign block computes the float model", "statement": "Composing the conversion steps (binary filter extraction, multiplier/bias fusion, threshold computation, weight bitpacking) with the runtime kernels gives exactly Quantize(batchnorm(conv(sign(x), w))) of the original float model, in exact arithmetic.", "quantifier": "every input, filter with per-channel magnitude, batchnorm constants, geometry", "why_tests_cant": "end-to-end composition over all parameters", "anchors": ["larq_compute_engine/mlir/transforms/prepare_patterns_common.td", "larq_compute_engine/mlir/transforms/bitpack_activations_patterns.td", "larq_compute_engine/mlir/transforms/bitpack_weights_patterns.td", "larq_compute_engine/core/bconv2d/reference.h"]}
{"id": "C47", "title": "Every accepted node computes the documented result after any history", "statement": "Once tensor allocation has accepted a BConv2D node and its input, every inference, after any number of resizes and inferences, runs without undefined behaviour and writes activation(conv(input, weights)) * multiplier + bias to every element of the output (with zero or one padding as the attributes say), for each kernel type.", "quantifier": "every accepted node, every history of resizes and inferences, every input, every schedule", "why_tests_cant": "nodes, inputs and histories are unbounded; the claim composes shape inference, one-time setup, cached state and kernel", "anchors": ["larq_compute_engine/tflite/kernels/bconv2d.cc: Prepare, OneTimeSetup, Eval"]}
{"id": "C48", "title": "LceQuantize/LceDequantize accept exactly matching shapes and then stay in bounds", "statement": "LceQuantize produces a tensor with the same leading dimensions and ceil(channels/32) words; LceDequantize accepts a pair of shapes iff the leading dimensions agree and the packed last dimension is ceil(channels/32) of the unpacked one, and on accepted shapes it reads and writes within the tensors and overwrites every output element according to its bit.", "quantifier": "every pair of shapes of any rank, every content of the tensors, every output type", "why_tests_cant": "ranges over all shapes, including partially filled last words and rank 0", "anchors": ["larq_compute_engine/tflite/kernels/quantization.cc: QuantizePrepare, DequantizePrepare, DequantizeEval", "larq_compute_engine/core/bitpacking/bitpack.h: unpack_matrix"]}
{"id": "C49", "title": "The Aarch64 indirect kernels compute the reference result (float output)", "statement": "For every convolution without zero padding whose accumulators fit in 16 bits, the assembly kernel selected for its shape (8x4x1, 8x4x2 or 8x4x4), started with any register contents, writes to every element of a float output exactly the bits the reference kernel writes (same floating-point operations), reads only inside its buffers (given the words it preloads exist) and terminates.", "quantifier": "every input, filter, geometry, group count, register contents, floating-point operations", "why_tests_cant": "software-pipelined assembly with preloading across blocks, groups and pixels: shapes, contents and leftover registers are unbounded; tests sample a few shapes", "anchors": ["larq_compute_engine/core/indirect_bgemm/kernel_8x4x1_aarch64.h", "larq_compute_engine/core/indirect_bgemm/kernel_8x4x2_aarch64.h", "larq_compute_engine/core/indirect_bgemm/kernel_8x4x4_aarch64.h", "larq_compute_engine/core/indirect_bgemm/select_kernel.h", "larq_compute_engine/core/indirect_bgemm/kernel.h"]}
{"id": "C50", "title": "The Aarch64 indirect kernels compute the reference result (int8 output)", "statement": "As C49 for int8 output: every element is the transformed accumulator rounded to nearest (ties to even) and saturated to -128..127.", "quantifier": "every input, filter, geometry, group count, register contents, floating-point operations", "why_tests_cant": "as C49", "anchors": ["larq_compute_engine/core/indirect_bgemm/kernel_8x4x1_aarch64.h", "larq_compute_engine/core/indirect_bgemm/kernel_8x4x2_aarch64.h", "larq_compute_engine/core/indirect_bgemm/kernel_8x4x4_aarch64.h"]}
{"id": "C51", "title": "The Aarch64 indirect kernels stay inside the buffers the op allocates", "statement": "With the multiplier and bias buffers the op allocates (channels_out + 16 bytes) and nothing readable after the input tensor and the kernel's zero buffer, every load and store of the selected kernel is inside its buffer.", "quantifier": "every geometry, channel count and group count", "why_tests_cant": "over-reads of a few words do not change results and go unnoticed in tests", "anchors": ["larq_compute_engine/tflite/kernels/bconv2d.cc: OneTimeSetup", "larq_compute_engine/core/types.h: LCE_EXTRA_BYTES", "larq_compute_engine/core/indirect_bgemm/kernel_8x4x1_aarch64.h"]}
{"id": "C52", "title": "The Aarch64 16-bit BGEMM kernel computes the reference result (float and int8 output)", "statement": "For every ungrouped convolution without zero padding for which the op selects 16-bit accumulation, every division of the destination into blocks and every interleaving of their writes, the 8x4 assembly kernel terminates, reads only inside its buffers (given 8-aligned many multipliers and biases) and the float output is bit for bit, the int8 output up to ties-to-even rounding, the reference result.", "quantifier": "every input, filter, geometry, block schedule, order of writes, packing stride, register contents", "why_tests_cant": "blocks are divided over threads; depth, strides and block shapes are unbounded", "anchors": ["larq_compute_engine/core/bgemm/kernels_aarch64.h", "larq_compute_engine/core/bgemm/kernels_common.h", "larq_compute_engine/core/bgemm/bgemm.h", "larq_compute_engine/core/bconv2d/optimized_bgemm.h"]}
{"id": "C53", "title": "The Aarch64 16-bit BGEMM kernel computes the reference result (bitpacked output)", "statement": "As C52 for bitpacked output: after the op's zero-fill and all byte writes of all blocks in any order, the output words are those of the reference kernel, including the padding bits.", "quantifier": "every input, filter, geometry, thresholds, block schedule, order of writes", "why_tests_cant": "bytes of one output word are written by different threads; leftover handling depends on channels_out modulo 8 and 32", "anchors": ["larq_compute_engine/core/bgemm/kernels_aarch64.h", "larq_compute_engine/core/bgemm/kernels_common.h", "larq_compute_engine/core/bgemm/bgemm.h", "larq_compute_engine/core/bconv2d/optimized_bgemm.h"]}
{"id": "C54", "title": "The Aarch64 32-bit BGEMM kernel computes the reference result", "statement": "For every ungrouped convolution without zero padding, every block schedule and every order of writes, the 4x4 assembly kernel (selected when 16-bit accumulation is not) gives the float output of the reference bit for bit and its int8 output up to ties-to-even rounding.", "quantifier": "every input, filter, geometry, block schedule, order of writes, with and without the streaming loop", "why_tests_cant": "the streaming loop is chosen by depth and wrong only for some depths; tests use few large depths", "anchors": ["larq_compute_engine/core/bgemm/kernels_aarch64.h", "larq_compute_engine/core/bgemm/kernels_common.h", "larq_compute_engine/core/bgemm/bgemm.h"]}
{"id": "C55", "title": "When the Aarch64 BGEMM kernels stay inside the buffers the op allocates", "statement": "With the multiplier, bias and threshold buffers the op provides (channels_out + 4, channels_out + 4, channels_out elements): the 8x4 kernel's loads are all inside its buffers exactly when channels_out mod 8 is not 1, 2 or 3 (float, int8), is 0 (bitpacked); the 4x4 kernel's exactly when the streaming loop is not compiled in, or the packed depth is 4 or a multiple of 8 other than 8.", "quantifier": "every geometry, channel count, block schedule", "why_tests_cant": "over-reads of a few words do not crash and rarely change results", "anchors": ["larq_compute_engine/core/bgemm/kernels_aarch64.h", "larq_compute_engine/core/bgemm/kernels_common.h", "larq_compute_engine/core/bgemm/bgemm.h", "larq_compute_engine/core/types.h: LCE_EXTRA_BYTES", "larq_compute_engine/tflite/kernels/bconv2d.cc: Prepare"]}
{"id": "C56", "title": "The 32-bit Arm BGEMM kernel computes the reference result (float output)", "statement": "For every ungrouped convolution without zero padding whose accumulators fit 32 bits, every division of the destination into blocks and every order of their writes, the 4x4 assembly kernel terminates, reads only inside the buffers the op allocates, and leaves the reference kernel's float output, bit for bit.", "quantifier": "every input, filter, geometry, depth, block schedule, order of writes, packing stride, register contents", "why_tests_cant": "blocks are divided over threads; depth and shapes are unbounded; over-reads do not show", "anchors": ["larq_compute_engine/core/bgemm/kernels_arm32.h", "larq_compute_engine/core/bgemm/kernels.h", "larq_compute_engine/core/bgemm/bgemm.h", "larq_compute_engine/core/bconv2d/output_transform.h"]}
{"id": "C57", "title": "int8 results of the 32-bit Arm BGEMM kernel", "statement": "As C56 for int8 output, with this rounding: each value is the float result rounded to nearest (ties away from zero) and saturated, as in the reference, plus one exactly when the float result is a negative tie -(n + 1/2), n < 128, or less than 1/256 below one.", "quantifier": "every input, filter, geometry, block schedule, order of writes, and every finite float result", "why_tests_cant": "the exceptional values are rare; rounding must hold for every float", "anchors": ["larq_compute_engine/core/bgemm/kernels_arm32.h", "larq_compute_engine/core/bgemm/kernels.h", "larq_compute_engine/core/bgemm/bgemm.h", "larq_compute_engine/core/bconv2d/output_transform.h"]}
{"id": "C58", "title": "Error of float output under float rounding", "statement": "Computed in IEEE float and double arithmetic rounding to nearest (any tie rule, with or without fused multiply-add), every element of the float output of a binary convolution differs from activation(conv)*multiplier + bias by at most 5*2^-24*(|bias| + K*|multiplier|) + 2^-147, where K is the dot-product length (up to 2^23); it is exact when multiplier and bias are small integer multiples of a common power of two. The portable kernels agree bit for bit.", "quantifier": "every input, filter, geometry, activation, multiplier and bias in range, every rounding-to-nearest arithmetic", "why_tests_cant": "a worst-case bound over all reals; the sum cancels catastrophically for rare values", "anchors": ["larq_compute_engine/core/bconv2d/output_transform.h", "larq_compute_engine/tflite/kernels/bconv2d.cc (OneTimeSetup)", "larq_compute_engine/core/bconv2d/reference.h"]}
{"id": "C59", "title": "Error of int8 output under float rounding", "statement": "Computed in IEEE float and double arithmetic, every element of the int8 output differs by at most 1 from the exact affine transform of the convolution, rounded and saturated, and differs only when the exact value is within 7*2^-24*T + 2^-123 of a half-integer, T = (|bias| + K*|multiplier|)/scale + |zero_point| (up to 2^20).", "quantifier": "every input, filter, geometry, activation, multiplier, bias, scale and zero point in range, every rounding-to-nearest arithmetic", "why_tests_cant": "off-by-one results appear only within a millionth of a tie", "anchors": ["larq_compute_engine/core/bconv2d/output_transform.h", "larq_compute_engine/tflite/kernels/bconv2d.cc (OneTimeSetup)", "larq_compute_engine/core/bconv2d/reference.h"]}
{"id": "C60", "title": "Accuracy of the aarch64 kernels", "statement": "With IEEE-754 float instructions and the parameters OneTimeSetup stores, the aarch64 assembly kernels write finite floats whose values differ from activation(conv)*multiplier + bias by at most 5*2^-24*(|bias| + K*|multiplier|) + 2^-147, and int8 values within 1 of the exact result rounded to nearest even and saturated, equal unless the exact result is next to a half-integer.", "quantifier": "every input, filter, geometry, parameter in range, block schedule, order of writes, initial register contents", "why_tests_cant": "worst-case numerical bounds over all inputs for hand-written vector code", "anchors": ["larq_compute_engine/core/indirect_bgemm/kernel_8x4x{1,2,4}_aarch64.h", "larq_compute_engine/core/bgemm/kernels_aarch64.h", "larq_compute_engine/tflite/kernels/bconv2d.cc (OneTimeSetup)", "larq_compute_engine/core/bconv2d/output_transform.h"]}
{"id": "C61", "title": "Converting a graph preserves what it computes", "statement": "Whatever the order in which the converter applies the patterns of its preparation, optimization, weight-packing, padding and quantization passes, folds constants, removes unused operations and merges equal ones, the converted graph is well formed and returns for every input for which the original is defined exactly what the original returned (in exact arithmetic).", "quantifier": "every graph, every number and order of rewriting steps, every choice of match, every input", "why_tests_cant": "end-to-end tests convert a few models with one fixed rewriting order; the interaction of patterns over arbitrary graphs and orders is unbounded", "anchors": ["larq_compute_engine/mlir/transforms/optimize_patterns_common.td", "larq_compute_engine/mlir/transforms/optimize_patterns_target_arm.td", "larq_compute_engine/mlir/transforms/bitpack_activations_patterns.td", "larq_compute_engine/mlir/transforms/bitpack_weights_patterns.td", "larq_compute_engine/mlir/transforms/prepare_patterns_common.td", "larq_compute_engine/mlir/transforms/fuse_padding.td", "larq_compute_engine/mlir/transforms/quantize_patterns.td", "larq_compute_engine/mlir/transforms/op_removal_patterns.td", "larq_compute_engine/mlir/transforms/optimize.cc", "larq_compute_engine/mlir/tf_tfl_passes.cc"]}
{"id": "C62", "title": "Conversion terminates", "statement": "The converter's rewriting cannot run forever: for every graph, whatever the order of patterns of all passes, constant folds, removals of unused operations and merges of equal ones, only finitely many steps are possible (at most 49*L before the quantization passes for L operations, at most (49*L+1)^3 with them), and a graph to which nothing more applies is always reached.", "quantifier": "every graph, every schedule of rewriting steps", "why_tests_cant": "a loop between patterns appears only for particular graphs and orders; a test cannot observe non-termination on all of them", "anchors": ["larq_compute_engine/mlir/transforms/optimize_patterns_common.td", "larq_compute_engine/mlir/transforms/prepare_patterns_common.td", "larq_compute_engine/mlir/transforms/quantize_patterns.td", "larq_compute_engine/mlir/transforms/optimize.cc", "larq_compute_engine/mlir/tf_tfl_passes.cc"]}
{"id": "C63", "title": "The converted model, run by the kernels, computes the original graph", "statement": "Take a graph and arguments for which it has results, convert it, and run one inference of the converted model with any of the three BConv2D kernels. The inference either is refused with an error, in cases determined by the graph, the kernel and the input's allocation alone, or it writes output tensors that stand for the original graph's results: floats are equal, binary tensors are the packed bits with unused bits zero. Schedules, addresses, and what the buffers held before make no difference, and two kernels that both accept the model agree in every word.", "quantifier": "every graph, every conversion schedule, every input, every kernel, every thread schedule and buffer content", "why_tests_cant": "end-to-end tests run a few networks on a few inputs; the claim is about all graphs, all patterns orders and all executions", "anchors": ["larq_compute_engine/mlir/tf_tfl_passes.cc", "larq_compute_engine/tflite/kernels/bconv2d.cc", "larq_compute_engine/tflite/kernels/quantization.cc", "larq_compute_engine/tflite/kernels/bmaxpool.cc", "larq_compute_engine/mlir/transforms/bitpack.cc"]}
{"id": "C64", "title": "An interpreter keeps giving the right results over its whole lifetime", "statement": "Load a converted model into an interpreter and let anything happen to it: inferences with any arguments and shapes, resizes of the input in any order, resizes that fail with an error, inferences that fail, additional AllocateTensors calls. The next inference has exactly the outcome it has in a new interpreter (same tensors or same error), which is what the original graph computes; no history reaches undefined behaviour.", "quantifier": "every converted graph, every finite history of inferences and (failed) resizes, every kernel, every schedule", "why_tests_cant": "state kept between calls goes wrong only after particular histories; tests run one or two inferences on a fresh interpreter", "anchors": ["larq_compute_engine/tflite/kernels/bconv2d.cc", "larq_compute_engine/core/bconv2d/params.h", "larq_compute_engine/core/indirect_bgemm/kernel.h", "larq_compute_engine/core/indirect_bgemm/prepare.h"]}
{"id": "C65", "title": "The converter entry points honour their options", "statement": "convert_saved_model and convert_keras_model reject invalid option combinations (an input or output type other than float32/int8, an unknown target, a non-Keras model, mixed precision, no eager mode) before converting anything. Otherwise the model they return is the C++ converter's output for the given target and default quantization range, with static input shapes (an unknown batch dimension becomes 1, any other unknown dimension is an error), and its inputs and outputs have exactly the requested types. convert_keras_model fails only if both ways of converting (saved model, frozen graph) fail.", "quantifier": "every combination of options, every model, every outcome of saving, freezing and of the C++ converter", "why_tests_cant": "tests convert a few models with a few option combinations; the fallback path is taken only when the first conversion raises", "anchors": ["larq_compute_engine/mlir/python/converter.py:convert_saved_model", "larq_compute_engine/mlir/python/converter.py:convert_keras_model", "larq_compute_engine/mlir/python/util.py:modify_integer_quantized_model_io_type"]}
{"id": "C66", "title": "Interpreter.predict on a converted model returns what the original model computes", "statement": "predict, given an array, a list of arrays or an iterator of samples, runs the converted model on every sample in order and returns, for every output, the array (or list) of the values the original graph computes on that sample, one row per sample. It raises if and only if some sample makes an operator refuse (error status); nothing a previous predict call, a failed call or a resize did changes the result. The options use_reference_bconv / use_indirect_bgemm choose the kernel, and every kernel gives the same result.", "quantifier": "every converted graph, every list of at least one sample, every form in which predict accepts them, every previous history of the interpreter, every kernel option and schedule", "why_tests_cant": "tests run a few models on a few samples with a fresh interpreter; the claim composes converter, kernels, kernel state and the sample loop", "anchors": ["larq_compute_engine/tflite/python/interpreter_base.py:predict", "larq_compute_engine/tflite/python/interpreter_wrapper_utils.h", "larq_compute_engine/tflite/python/interpreter_wrapper_lite.cc", "larq_compute_engine/tflite/kernels/lce_ops_register.h:RegisterLCECustomOps", "larq_compute_engine/tflite/kernels/bconv2d.cc"]}
{"id": "C67", "title": "The interpreter object's metadata is constant and says exactly what predict accepts and returns", "statement": "input_types, input_shapes, output_types, output_shapes list one entry per tensor in order and never change; predict on arrays of exactly these types and shapes returns what the model computes from their bytes, as arrays of the reported output types and shapes (or raises if an operator fails), and raises a RuntimeError on every other list of arrays, whatever calls were made before, including predictions that failed after setting some inputs. Scales and zero points are None exactly for tensors without affine quantization, the tensor's own values otherwise; reading the zero points of a per-channel tensor raises unless they are all 0.", "quantifier": "every model with supported element types, every number of inputs and outputs, every history of getter calls and successful or failing predictions, every list of arrays", "why_tests_cant": "tests call the getters once on a few models; the claim is about all call histories and all mismatching arrays", "anchors": ["larq_compute_engine/tflite/python/interpreter_wrapper_utils.h: get_types, get_shapes, get_zero_points, get_scales, get_tensor, SetTensorFromNumpy, predict, TfLiteTypeFromPyType, PyTypeFromTfLiteType"]}
{"id": "C68", "title": "An optimized BGEMM convolution gives the same result on every platform", "statement": "On a host without NEON, on 32-bit Arm and on 64-bit Arm, whatever kernel and accumulator width the op selects there, and for every schedule and interleaving of the blocks, the float or bitpacked result has exactly the bits of the reference kernel's, and the int8 result is the reference's float result rounded in the platform's way (the ways differ by at most one, only for values less than 1/256 from a half-integer). This holds provided the kernel's loads stay within the buffers, which is the case exactly if: not 64-bit Arm; or fewer than 65024 products per output and the number of output channels is 0 or 4..7 modulo 8 (bitpacked: a multiple of 8); or at least 65024 products and the output is bitpacked, the kernel is built without streaming, or the packed depth is 4 or a multiple of 8 from 16 on.", "quantifier": "every platform, convolution geometry, input, filter, multiplier, bias, clamp, threshold, block schedule and interleaving, every previous content of the output and of temporary buffers", "why_tests_cant": "tests run on one platform at a time, with a handful of shapes and one schedule; the same model is deployed on all platforms", "anchors": ["larq_compute_engine/tflite/kernels/bconv2d.cc:EvalChooseKernelType", "larq_compute_engine/core/bgemm/bgemm.h:BGemm", "larq_compute_engine/core/bgemm/ruy_trmul_params.h:PopulateBGemmTrMulParams", "larq_compute_engine/core/bgemm/kernels.h:BGemmKernel", "larq_compute_engine/core/bgemm/kernels_aarch64.h", "larq_compute_engine/core/bgemm/kernels_arm32.h"]}
{"id": "C69", "title": "The order of the passes leaves no work undone that the runtime depends on", "statement": "Every graph without BConv2D can be converted by the passes in the converter's order. Whatever the passes of TensorFlow and TFLite in between do (provided they do not touch or make BConv2Ds, and those before quantization keep what the graph computes), and whatever choices the rewriting drivers make: in the result every BConv2D has a constant, bitpacked filter with four dimensions, and VALID padding, SAME padding with ones or, only for the Arm target, SAME padding with zeros, and an activation function that the runtime implements; without quantization all its parameters are constants and no operation is unused. When the preparation pass is done no convolution is left that could be binary, directly or after padding with ones, and no sign is computed with float operators (Select between 1 and -1, Sign of a shifted Sign); after the padding pass no padding with zeros is left that a TFLite convolution could do; after the last int8 pass no Quantize or Dequantize is left that an LCE operator could do itself; when the weights are about to be packed, no LceQuantize, addition, subtraction, multiplication or division by a constant, or activation function is left that could be part of the BConv2D before it, and no comparison (for Arm: max pool) between an LceQuantize and its input.", "quantifier": "every graph with a value for at least one input, both targets, with and without quantization and default ranges, all patterns of foreign passes that meet the assumptions, every choice of the drivers", "why_tests_cant": "the file-check tests run single passes on small inputs; that no order of rewrites in ten passes leaves a float filter (which the kernel would read as bits) is a statement about all graphs", "anchors": ["larq_compute_engine/mlir/tf_tfl_passes.cc:AddPostVariableFreezingTFToLCETFLConversionPasses", "larq_compute_engine/mlir/tf_tfl_passes.cc:AddQuantizationPasses", "larq_compute_engine/mlir/transforms/bitpack_weights.cc", "larq_compute_engine/mlir/transforms/optimize.cc", "larq_compute_engine/mlir/transforms/prepare_tf.cc"]}
{"id": "C70", "title": "Quantizing the detection operator changes neither results nor interface", "statement": "The pass that removes the dequantizations before TFLite_Detection_PostProcess keeps what the function computes, for every detection operator that selects scores by the real numbers its inputs stand for, as long as the absorbed scores are int8. Names, types and order of the function's arguments and results are kept; so are the number, order and options of the detection operators and their results other than the scores. The pass ends, leaves no detection operator of the matched types behind three dequantizations (with per-tensor quantized scores and ranked results) and no unused dequantization, and it is undefined exactly if the scores of a matched operator are not per-tensor quantized or one of its results is unranked; that is never reached from a function whose dequantizations read per-tensor quantized tensors. For uint8 scores the results change.", "quantifier": "every well-formed function, every sequence of steps of the rewriting driver, every detector and meaning of other operators, all arguments", "why_tests_cant": "the one file-check test covers a single operator with one scale and int8 types", "anchors": ["larq_compute_engine/mlir/transforms/detection_postprocess.cc:RemoveDequantizeBeforePostProcess", "larq_compute_engine/mlir/transforms/detection_postprocess.cc:runOnOperation"]}
{"id": "C71", "title": "A Python call reaches the passes with the options it was given, and only finished files come back", "statement": "A model that convert_saved_model returns comes from the serving signature of the directory; its function went through all passes for the target that was asked for, with int8 quantization always on, as many float input ranges as the entry function names inputs, and exactly the default range that was given (then marked as quantization after training). A model that convert_keras_model returns comes either from that way or, when it failed, from the frozen function with the static shapes of its data inputs, with quantization exactly if there is a fake-quantization operator or a default range, never marked as after training. In the written file every binary convolution has a bitpacked constant filter, a padding that the target supports and an activation that the runtime implements, no operator of the lq dialect is left, and writing it is never undefined. Every failure of the C++ functions (unknown target, no or several entry functions, control flow v1, failed import, freezing, pass, export or verification) reaches Python as a RuntimeError, never as a broken file.", "quantifier": "every behaviour of TensorFlow, TFLite and MLIR that meets the assumptions of C69, all option values, all modules, both ways of converting", "why_tests_cant": "the end-to-end tests convert a few models with a few options; which options reach which pass, and that a file is only returned if all passes ended, has to hold for every model and every failure point", "anchors": ["larq_compute_engine/mlir/python/common.cc:ConvertMLIRModuleToTFLiteFlatBuffer", "larq_compute_engine/mlir/python/common.cc:GetNumInputs", "larq_compute_engine/mlir/python/common.cc:GetLCETarget", "larq_compute_engine/mlir/python/saved_model_tfl_flatbuffer.cc:ConvertSavedModelToTFLiteFlatBuffer", "larq_compute_engine/mlir/python/graphdef_tfl_flatbuffer.cc:ConvertGraphDefToTFLiteFlatBuffer", "larq_compute_engine/mlir/tf_to_tfl_flatbuffer.cc:ConvertTFExecutorToTFLOrFlatbuffer", "larq_compute_engine/mlir/python/converter.py:convert_saved_model", "larq_compute_engine/mlir/python/converter.py:convert_keras_model"]}
{"id": "C72", "title": "A model file means what the converted graph means, in both directions", "statement": "Writing a converted graph replaces every LCE operator by a custom operator whose code is registered by the runtime, keeps the order of operators, their operands, result names and static shapes and every other operator, and is undefined only for activations the runtime does not implement. An inference of the file, with any registration of LCE's kernels, gives exactly the error or the output tensors of the graph with the registered kernel. Reading the file back gives the same graph. A file written by anything else that runs in the interpreter still runs, with the same outputs, after it was imported and exported.", "quantifier": "all graphs (with foreign custom operators), all 32-bit attributes, all registrations, all inputs, all schedules of the kernels", "why_tests_cant": "a test serializes a few operators with a few attribute values; the claim is about every graph and every option map, also those written by other tools", "anchors": ["larq_compute_engine/mlir/transforms/legalize_tflite.cc:LegalizeToCustomOp", "larq_compute_engine/mlir/transforms/translate_tflite.cc:TranslateToLCEPattern", "larq_compute_engine/mlir/ir/lce_ops.cc:buildCustomOptions", "larq_compute_engine/tflite/kernels/lce_ops_register.h:RegisterLCECustomOps", "larq_compute_engine/tflite/kernels/bconv2d.cc:Init", "larq_compute_engine/tflite/kernels/bmaxpool.cc:Init"]}
{"id": "C73", "title": "Zero padding under float rounding: how far the optimized kernels are from the zero-padded convolution", "statement": "With SAME padding, pad_values=0, float output and no activation, computed in IEEE float and double arithmetic rounding to nearest, the indirect and the BGEMM kernel (any schedule and interleaving of its blocks) write the same floats, and each differs from zero-padded-conv*multiplier + bias by at most 8*2^-24*(|bias| + K*|multiplier|) + 2^-146 (K: dot-product length, up to 2^23) and from the reference kernel's by at most 13*2^-24*(|bias| + K*|multiplier|) + 2^-145; the results are exact when multiplier and bias are small integer multiples of a common power of two.", "quantifier": "every input, filter, geometry, multiplier and bias in range, every rounding-to-nearest arithmetic, every schedule", "why_tests_cant": "a worst-case bound over all reals for a sum of two rounded terms, for every geometry of the four-case edge table", "anchors": ["larq_compute_engine/core/bconv2d/zero_padding_correction.h: CacheCorrectionValues, ApplyCorrection", "larq_compute_engine/core/bconv2d/output_transform.h", "larq_compute_engine/tflite/kernels/bconv2d.cc (OneTimeSetup)"]}
{"id": "C74", "title": "A whole inference in floating-point arithmetic: tolerances per tensor, binary tensors exact", "statement": "Run a converted graph with float and double arithmetic that rounds to nearest, any of the three BConv2D kernels, any schedule and order of the threads' writes, and TFLite kernels that are accurate up to given tolerances. When each tensor is given a tolerance that is consistent node by node (LceQuantize: no number nearer to the sign boundary than its tolerance; BConv2D: exact operands and the bounds of C58/C59/C73 within the tolerance; LceDequantize to int8: 1/scale not next to a half-integer; others: the accuracy of TFLite's kernel), the inference is refused exactly in the documented cases and otherwise every output tensor is within its tolerance of the real-number value of the graph, every binary output is exact in every bit, and outputs of tolerance 0 are bit for bit those of exact arithmetic. Without the margin at LceQuantize it is false: a rounded convolution can change a sign.", "quantifier": "every well-formed graph, argument, kernel, schedule, write order, old buffer contents, rounding-to-nearest arithmetic and consistent assignment of tolerances", "why_tests_cant": "errors of all layers add up over arbitrary graphs and inputs; a sign that flips in one layer only for rare inputs cannot be excluded by examples", "anchors": ["larq_compute_engine/core/bconv2d/output_transform.h", "larq_compute_engine/core/bconv2d/zero_padding_correction.h", "larq_compute_engine/tflite/kernels/bconv2d.cc (OneTimeSetup, Eval*)", "larq_compute_engine/tflite/kernels/quantization.cc (QuantizeEval, DequantizeEval)"]}
{"id": "C75", "title": "An interpreter's whole lifetime in floating-point arithmetic", "statement": "Create one interpreter for a converted graph on a target with float and double arithmetic, and do anything with it: inferences with other inputs, resizes that succeed or fail (Prepare), repeated Prepare calls, inferences that return an error. The next inference then writes, bit for bit, the tensors a new interpreter would write on that target (also returns an error exactly when it would), whatever arithmetic the target has; no undefined behaviour is reached; and if the arithmetic rounds to nearest, every output is within its tolerance (C74) of the result of the original graph. In particular the floats OneTimeSetup fuses and caches (multipliers, biases, padding corrections), recomputed on the old vectors after a Prepare, are those of a fresh setup. It is false for a multiplier that is not a constant, and with the indirect kernel when the input tensor is resized or moved between inferences (C20).", "quantifier": "every well-formed converted graph, every finite history of inferences, successful and failed Prepare calls, every kernel, schedule, write order per inference, rounding functions, argument", "why_tests_cant": "the state that matters (cached floats, a kernel with a copy of them) depends on the whole history; a test covers a few histories on one machine", "anchors": ["larq_compute_engine/tflite/kernels/bconv2d.cc (OpData, Prepare, OneTimeSetup, EvalOptIndirectBGEMM, Eval)", "larq_compute_engine/core/bconv2d/zero_padding_correction.h (CacheCorrectionValues)", "larq_compute_engine/core/indirect_bgemm/kernel.h"]}
{"id": "C76", "title": "predict in floating-point arithmetic", "statement": "Convert a model, load it into an Interpreter with any of the three BConv2D kernels on a target whose float and double arithmetic rounds to nearest, do anything with the interpreter before, and call predict on an array, a list of arrays or an iterator of samples. If no sample is refused, predict succeeds and returns for each output an array with one entry per sample, of the output's type and shape, whose numbers are within the tolerance of that output (C74) of what the original graph computes for that sample alone: neither the other samples of the batch, nor earlier calls, nor the order in which threads write, which may differ per sample, matter beyond the tolerance. If some sample is refused, predict raises RuntimeError and returns no numbers.", "quantifier": "every well-formed converted graph, every reachable interpreter state, every non-empty batch of samples with consistent tolerances, every kernel, schedule and write order per inference, every rounding-to-nearest arithmetic", "why_tests_cant": "ranges over all graphs, histories, batches and rounding behaviours; tests run some samples on one machine and compare with a loose tolerance chosen by hand", "anchors": ["larq_compute_engine/tflite/python/interpreter_base.py (predict, data_generator)", "larq_compute_engine/tflite/python/interpreter_wrapper_lite.cc", "larq_compute_engine/tflite/python/interpreter_wrapper_utils.h", "larq_compute_engine/tflite/kernels/bconv2d.cc"]}
{"id": "C77", "title": "Accuracy of the 32-bit Arm kernel, with subnormals flushed to zero", "statement": "On 32-bit Arm, whose Advanced SIMD float instructions round to nearest but flush subnormal operands and results to zero, the BGEMM assembly kernel run on the parameters Prepare/OneTimeSetup stored gives, for float output, numbers within 5*2^-24*(|bias| + K*|multiplier|) + (K+2)*2^-124 of activation(conv)*multiplier + bias computed in real arithmetic; and, for int8 output, integers within 1 of (activation(conv)*multiplier + bias)/scale + zero_point rounded to nearest (ties away) and saturated, different from it only if that number is within 7*2^-24*T + 2^-100 + 1/256 of a half-integer, T = (|bias| + K*|multiplier|)/scale + |zero_point|. This holds for every depth, block schedule and order of the writes.", "quantifier": "every convolution with one group and without zero padding and K up to 2^23, every input, filter, activation, multiplier and bias in range, every block schedule and order of writes, every rounding to nearest", "why_tests_cant": "ranges over all inputs, shapes, parameters and schedules; tests run on one device and compare with a hand-picked tolerance", "anchors": ["larq_compute_engine/core/bgemm/kernels_arm32.h", "larq_compute_engine/core/bconv2d/output_transform.h", "larq_compute_engine/tflite/kernels/bconv2d.cc (OneTimeSetup)"]}
{"id": "C78", "title": "Fusing the sign into a binary convolution changes at most one value per channel", "statement": "Take a binary convolution with float output followed by LceQuantize, and the convolution with bitpacked output that the converter replaces them with (sign-flipped filter, thresholds). With both sides computed in floating point, every output bit is the same, except possibly where activation(conv)*multiplier + bias is within rounding error of 0; for filters below 2^18 elements this is at most one value of the convolution in each channel, the same for all inputs.", "quantifier": "every geometry without zero padding, input, filter, activation, multiplier and bias in range, and every arithmetic that rounds to nearest (with or without fused multiply-add)", "why_tests_cant": "the two roundings differ only for biases within a millionth of a multiple of the multiplier", "anchors": ["larq_compute_engine/mlir/transforms/optimize.cc: ComputeWriteBitpackedOutputThresholds", "larq_compute_engine/mlir/transforms/bitpack_activations_patterns.td", "larq_compute_engine/tflite/kernels/bconv2d.cc: OneTimeSetup", "larq_compute_engine/core/bconv2d/output_transform.h"]}
{"id": "C79", "title": "Interpreter.predict down to the bytes, after any history", "statement": "After any sequence of calls on the Python Interpreter object (metadata reads, predictions, predictions that raised halfway through a batch), predict on an array, list or iterator that yields at least one sample returns, when every sample has the types and shapes the interpreter reports for its inputs and no operator reports an error, one array per output (a bare array for a model with one output) of the reported output type and of the reported shape with the number of samples as first dimension, whose entry i consists of exactly the bytes the model computes from the bytes of sample i alone; otherwise it raises a RuntimeError.", "quantifier": "every static model with output batch size 1, history of calls, input and sample", "why_tests_cant": "a result may depend on the history (stale tensors, a half-set batch, cached tensor pointers) and on all element types and shapes", "anchors": ["larq_compute_engine/tflite/python/interpreter_base.py: data_generator, InterpreterBase.predict", "larq_compute_engine/tflite/python/interpreter_wrapper_utils.h: InterpreterWrapperBase, SetTensorFromNumpy, predict"]}
