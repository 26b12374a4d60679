{
"claims": [
{
"property": "C01",
"status": "proved",
"theorems": [
"Verif.C01_quantize_bits"
],
"note": ""
},
{
"property": "C02",
"status": "proved",
"theorems": [
"Verif.C02_unused_bits_zero"
],
"note": ""
},
{
"property": "C03",
"status": "proved",
"theorems": [
"Verif.C03_in_bounds",
"Verif.C03_packed_shape"
],
"note": "C03_overflow_witness: (1<<31)-1 in fillRange overflows int for zero points above the type's range with cols%32=31; not reachable through LceQuantize. C03_packed_shape: the announced packed shape and size are what is written."
},
{
"property": "C04",
"status": "proved",
"theorems": [
"Verif.C04_dequantize_quantize_float",
"Verif.C04_dequantize_quantize_bool",
"Verif.C04_quantize_dequantize_float",
"Verif.C04_quantize_dequantize_bool"
],
"note": ""
},
{
"property": "C05",
"status": "partial",
"theorems": [
"Verif.C05_exact",
"Verif.C05_int8_round_trip_partial",
"Verif.C05_scale_condition",
"Verif.C05_false_large_scale",
"Verif.C05_false_min_zero_point"
],
"note": "False in general: fails for scale > 2 and for zero point -128. C05_exact proves the exact condition (iff)."
},
{
"property": "C06",
"status": "proved",
"theorems": [
"Verif.C06_dot_product"
],
"note": ""
},
{
"property": "C07",
"status": "proved",
"theorems": [
"Verif.C07_reference_float"
],
"note": "needs 2K < 2^31 (int32 accumulator)"
},
{
"property": "C08",
"status": "proved",
"theorems": [
"Verif.C08_reference_zero_padding"
],
"note": ""
},
{
"property": "C09",
"status": "proved",
"theorems": [
"Verif.C09_output_transform",
"Verif.C09_overflow_witness"
],
"note": ""
},
{
"property": "C10",
"status": "proved",
"theorems": [
"Verif.C10_int8_transform",
"Verif.C10_rounding"
],
"note": "When the rounded value does not fit int32 the float-to-int conversion is undefined behaviour; the theorem says exactly when."
},
{
"property": "C11",
"status": "proved",
"theorems": [
"Verif.C11_reference_bitpacked"
],
"note": ""
},
{
"property": "C12",
"status": "proved",
"theorems": [
"Verif.C12_indirect_eq_reference",
"Verif.C12_float",
"Verif.C12_int8"
],
"note": "portable 4x2 kernel; generic in the output transform"
},
{
"property": "C13",
"status": "partial",
"theorems": [
"Verif.C13_exact",
"Verif.C13_indirect_bitpacked_partial",
"Verif.C13_thresholds_partial",
"Verif.C13_threshold_overread_witness"
],
"note": "False as stated: when channels_out/groups is not a multiple of 4 the kernel reads the threshold tensor up to 3 elements past its end (the bits are then masked off). C13_exact: equal to the reference when channels_out/groups % 4 = 0, and out of the tensor otherwise, for every non-empty output. Equality is also proved for every value the stray reads may return."
},
{
"property": "C14",
"status": "proved",
"theorems": [
"Verif.C14_bgemm_eq_reference",
"Verif.C14_float",
"Verif.C14_int8"
],
"note": "Portable kernels; TFLite im2col and ruy packing are contracts."
},
{
"property": "C15",
"status": "proved",
"theorems": [
"Verif.C15_bgemm_bitpacked",
"Verif.C15_thresholds"
],
"note": ""
},
{
"property": "C16",
"status": "proved",
"theorems": [
"Verif.C16_schedule_independent",
"Verif.C16_schedule_independent_bitpacked",
"Verif.C16_no_race",
"Verif.C16_no_race_bitpacked"
],
"note": "Block decompositions and thread interleavings as permutations of writes."
},
{
"property": "C17",
"status": "partial",
"theorems": [
"Verif.C17_bgemm_exact",
"Verif.C17_indirect_exact",
"Verif.C17_bgemm_iff",
"Verif.C17_indirect_iff",
"Verif.C17_bgemm_partial",
"Verif.C17_indirect_partial",
"Verif.C17_kernels_agree_partial",
"Verif.C17_large_filter_witness"
],
"note": "False as stated when the effective filter overhangs the image on two opposite sides of an output pixel (witness: 3x3 filter on 2x2 image is accepted by Prepare and left uncorrected). The exact theorems give the result for every geometry: pixels that satisfy Corrected get the zero-padded convolution, the others the one-padded one; the iff theorems say the operator is right for all inputs exactly when every pixel is Corrected. Exact arithmetic."
},
{
"property": "C18",
"status": "proved",
"theorems": [
"Verif.C18_cache_in_bounds"
],
"note": ""
},
{
"property": "C19",
"status": "partial",
"theorems": [
"Verif.C19_bgemm",
"Verif.C19_indirect_exact",
"Verif.C19_indirect_partial",
"Verif.C19_indirect_overflow_witness"
],
"note": "BGEMM proved in full. Indirect BGEMM: proved when the filter has at most as many positions as the input has pixels; the full statement is false of the code (witness theorem): the selection bounds the accumulator by the size of the input, not of the filter. C19_indirect_exact: 16-bit lanes give the right sums for all tensors iff the filter has fewer than 2^16 elements."
},
{
"property": "C20",
"status": "partial",
"theorems": [
"Verif.C20_history",
"Verif.C20_indirect_partial",
"Verif.C20_indirect_exact",
"Verif.C20_indirect_zero_exact",
"Verif.C20_indirect_enlarged",
"Verif.C20_indirect_float_exact",
"Verif.C20_indirect_stale_witness",
"Verif.C20_indirect_dangling_witness"
],
"note": "Full for the reference and BGEMM kernels. For the indirect kernel the claim is false when the input is resized or moves after the first inference: the kernel object is never rebuilt (witness theorems); proved when shape and buffer stay the same. What is computed instead is proved exactly for every later history: C20_indirect_exact (no zero padding: the result a fresh machine gives for the shape of the first inference, reading nothing when the buffer has moved; consequences _enlarged, _float_exact) and C20_indirect_zero_exact (zero padding: the one-padded result of the first shape plus the corrections of the current shape)."
},
{
"property": "C21",
"status": "proved",
"theorems": [
"Verif.C21_prepare_accepts_iff",
"Verif.C21_prepare_result",
"Verif.C21_accepted_ok",
"Verif.C21_input_depth_unchecked"
],
"note": "Acceptance characterised exactly; the model also exhibits that Prepare never checks the input's last dimension against channels_in (witness theorem)."
},
{
"property": "C22",
"status": "proved",
"theorems": [
"Verif.C22_bmaxpool_quantize"
],
"note": "Float (no NaN in a window) and int8 inputs; composes the models of QuantizeEval and BMaxPool."
},
{
"property": "C23",
"status": "proved",
"theorems": [
"Verif.C23_bmaxpool_in_bounds"
],
"note": "Every accepted configuration; non-empty windows follow from TFLite's output size formulas."
},
{
"property": "C24",
"status": "partial",
"theorems": [
"Verif.C24_exact",
"Verif.C24_move_quantize_partial",
"Verif.C24_relu_witness"
],
"note": "True for NONE and RELU_N1_TO_1, false for RELU/RELU6 (witness): the pattern does not constrain the fused activation. C24_exact proves that this is an iff."
},
{
"property": "C25",
"status": "proved",
"theorems": [
"Verif.C25_threshold_exact"
],
"note": "reference kernel; whole-tensor equality of fused op and Quantize of float op, exact arithmetic"
},
{
"property": "C26",
"status": "partial",
"theorems": [
"Verif.C26_float32_thresholds_partial",
"Verif.C26_one_value_partial",
"Verif.C26_fraction_exact_partial",
"Verif.C26_rounding_witness"
],
"note": "Full statement false (witness for every tie rule). Proved, for filters up to 2^23 elements: a 1-bit is always right; a 0-bit is right up to (K+6)*2^-21 relative error. Up to 2^21-6 elements at most one value of the activated convolution gets a wrong bit in each channel, and none when the bias is a fraction of the multiplier with denominator below 2^21/(K+6). Against the float result that the unfused op really computes: C78."
},
{
"property": "C27",
"status": "proved",
"theorems": [
"Verif.C27_thresholds_fit"
],
"note": "float32 rounding, |mult|<=2^90, |bias|<=2^120 (no overflow to infinity)"
},
{
"property": "C28",
"status": "partial",
"theorems": [
"Verif.C28_exact",
"Verif.C28_exact_undilated",
"Verif.C28_same_padding_partial",
"Verif.C28_stride2_witness",
"Verif.C28_resnet_witness",
"Verif.C28_dynamic_witness"
],
"note": "Proved when in each dimension the stride is 1 or SAME pads the same amount before; C28_exact says exactly when the fused convolution reads the same values. False otherwise: the witnesses show strides where the accepted padding differs from SAME, and dynamic sizes."
},
{
"property": "C29",
"status": "proved",
"theorems": [
"Verif.C29_fuse_affine",
"Verif.C29_rank4_witness"
],
"note": "For chains of any length. Fused constants of another shape are rejected by Prepare (witness: a [1,1,1,C] constant)."
},
{
"property": "C30",
"status": "proved",
"theorems": [
"Verif.C30_fuse_activation"
],
"note": "All three kernels, any schedule."
},
{
"property": "C31",
"status": "proved",
"theorems": [
"Verif.C31_binary_filter",
"Verif.C31_groups",
"Verif.C31_layout",
"Verif.C31_inexact_witness"
],
"note": "Replaced convolution equals the float convolution with the original filter; C31_layout states the HWIO-to-OHWI index independently; inexact-scale witness shows where the check is tight."
},
{
"property": "C32",
"status": "partial",
"theorems": [
"Verif.C32_sign_partial",
"Verif.C32_sign_exact",
"Verif.C32_constant_iff",
"Verif.C32_unconstrained_witness"
],
"note": "The pattern does not check the constant (witness). Exact: for every constant of finite floats that broadcasts into the shape of x, the replacement is right for all finite x, with the machine's rounding, if and only if every element of the constant is strictly between 0 and 1 (larq uses 0.1)."
},
{
"property": "C33",
"status": "partial",
"theorems": [
"Verif.C33_select_v2",
"Verif.C33_select_v1_partial",
"Verif.C33_select_rows_iff",
"Verif.C33_select_rows_witness",
"Verif.C33_greater_equal",
"Verif.C33_greater_equal_exact",
"Verif.C33_less_equal",
"Verif.C33_ge_bit_iff",
"Verif.C33_greater_equal_ieee",
"Verif.C33_ge_zero_bit_iff",
"Verif.C33_zero_shape_witness",
"Verif.C33_nan_witness"
],
"note": "SelectV2 and comparisons proved. On arbitrary float bit patterns (infinities, overflow, NaN) the comparison rewrites keep the bits if and only if no operand element is NaN. Select with a vector condition is right exactly when the vector has one element; zero thresholds that enlarge the shape and NaN are false (witnesses)."
},
{
"property": "C34",
"status": "partial",
"theorems": [
"Verif.C34_quantize",
"Verif.C34_quantize_folds",
"Verif.C34_dequantize_float",
"Verif.C34_dequantize_int8_partial",
"Verif.C34_dequantize_int8_bound",
"Verif.C34_double_scale_witness",
"Verif.C34_unsupported_witness"
],
"note": "Quantize and float dequantize folding agree with the runtime for every rank-4 constant; int8 dequantize folding agrees for every float scale. For double scales the full statement is false (witness), but C34_dequantize_int8_bound: the bytes differ by at most one, and agree unless 1/scale is within rounding error of a half-integer. bool output and rank < 4 constants are not handled by the folder (witness)."
},
{
"property": "C35",
"status": "proved",
"theorems": [
"Verif.C35_bconv_runtime",
"Verif.C35_bconv_import",
"Verif.C35_bad_pad_value",
"Verif.C35_missing_attribute",
"Verif.C35_pool",
"Verif.C35_names",
"Verif.C35_unsupported_activation_witness"
],
"note": "Over all 32-bit attribute values; flexbuffers is a contract (finite map)."
},
{
"property": "C36",
"status": "partial",
"theorems": [
"Verif.C36_fuse_output_quantize_partial",
"Verif.roundHalfAway_shift_ne",
"Verif.nearestInt_roundings",
"Verif.C36_tie_witness",
"Verif.C36_zero_padding_witness"
],
"note": "Proved for every kernel, schedule, input and tie rule: equal off ties, within 1 on ties; with half-away rounding on both sides the two results differ exactly when y/scale is a tie and it and y/scale+zero_point lie on different sides of zero (iff). False as stated: ties (witness) and zero-padded nodes on the optimized kernels, which the runtime rejects after fusion (witness)."
},
{
"property": "C37",
"status": "proved",
"theorems": [
"Verif.C37_drop_dequantize",
"Verif.C37_quantize_of_dequantize"
],
"note": "In float arithmetic with any nearest rounding, not only exact arithmetic. The second needs 1/scale to fit int32: otherwise the conversion is undefined in the runtime."
},
{
"property": "C38",
"status": "partial",
"theorems": [
"Verif.remove_tensors_keeps_references_partial",
"Verif.C38_removed_references",
"Verif.C38_signature_other_tensor",
"Verif.C38_other_signatures_exact",
"Verif.second_signature_wrong"
],
"note": "Operators, graph inputs and outputs, and the first signature. C38_removed_references: what a reference to a removed tensor becomes. Other signatures are left unrenumbered by the code: second_signature_wrong is a counterexample and C38_other_signatures_exact says exactly which still refer to the same tensors: those whose kept tensors all precede every removed tensor."
},
{
"property": "C39",
"status": "proved",
"theorems": [
"Verif.strip_lcedequantize_ops_exposes_packed",
"Verif.strip_lcedequantize_subgraph",
"Verif.strip_raises_without_codes",
"Verif.strip_breaks_consumers",
"Verif.strip_two_subgraphs_signature_wrong",
"Verif.strip_raises_on_dequantize_types",
"Verif.strip_raises_on_lcedequantize_types"
],
"note": "Every model, operator semantics and input; the no-consumer hypothesis of the property is shown necessary. Signatures follow the graph in one-subgraph models only (counterexample for two)."
},
{
"property": "C40",
"status": "partial",
"theorems": [
"Verif.modify_io_preserves_function_partial",
"Verif.C40_exact",
"Verif.convertible_not_lost",
"Verif.modify_io_breaks_shared_input",
"Verif.modify_io_breaks_input_as_output",
"Verif.modify_io_breaks_read_output",
"Verif.modify_io_raises_on_types",
"Verif.C40_python_indexing"
],
"note": "False as stated when something else reads the removed float tensors (witnesses). C40_exact: for every well-formed, ordered graph of the right types the call succeeds, and the model function is preserved if and only if no new output depends on a tensor that lost its value (Lost). convertible_not_lost: the simple sufficient conditions (a converted input has one reader, a removed output none) exclude that."
},
{
"property": "C41",
"status": "partial",
"theorems": [
"Verif.C41_predict_array_partial",
"Verif.C41_predict_list_partial",
"Verif.C41_predict_iter_partial",
"Verif.C41_empty_witness",
"Verif.C41_truncation_witness",
"Verif.C41_other",
"Verif.C41_rejects"
],
"note": "Proved for one or more samples, any number of inputs and outputs, from every interpreter state, for models that are a function of their inputs with batch size 1. Zero samples: the claim is false (IndexError / empty list, witness for every model); unequal list lengths are silently truncated (witness)."
},
{
"property": "C42",
"status": "proved",
"theorems": [
"Verif.C42_set_batch_size"
],
"note": ""
},
{
"property": "C43",
"status": "proved",
"theorems": [
"Verif.ruy_pack_exact",
"Verif.packedPos_inj",
"Verif.C43_kernel_matrix"
],
"note": "4x4 column-major packing of a column-major source (the only specialisation in ruy_pack.h). C43_kernel_matrix: any sequence of pack calls covering the columns gives exactly the packed matrix for which the assembly BGEMM kernels (C52-C57) are proved. int arithmetic assumed not to overflow; forming (not reading) a pointer past the source is not treated as undefined."
},
{
"property": "C44",
"status": "proved",
"theorems": [
"Verif.C44_saturate",
"Verif.C44_shift_saturate",
"Verif.C44_fast_bounds_check",
"Verif.C44_ceil"
],
"note": ""
},
{
"property": "C45",
"status": "partial",
"theorems": [
"Verif.C45_int8",
"Verif.C45_int8_matrix",
"Verif.C45_float_partial",
"Verif.C45_float_small",
"Verif.C45_float_matrix_partial",
"Verif.C45_negative_zero_witness",
"Verif.C45_float_other_zp",
"Verif.C45_uint8"
],
"note": "The NEON assembly is modelled instruction by instruction. int8: fully proved for every size, offset and zero point. float: the claim is false as stated; the assembly packs sign bits, so arrays of 128 or more elements containing -0.0 or a NaN with the sign bit differ from the portable code (witness). C45_float_partial proves equality holds exactly when no element of the assembled blocks is such a value."
},
{
"property": "C46",
"status": "proved",
"theorems": [
"Verif.C46_block_reference",
"Verif.C46_block_float",
"Verif.C46_block_kernels"
],
"note": "Exact arithmetic. Bitpacked output for VALID and one-padding (the converter writes bitpacked outputs only for these), float output for every padding; C46_block_kernels covers the three runtime kernels on a fresh interpreter (indirect kernel: output channels per group a multiple of 4, see C13). The magnitudes of the filter must be equal within each channel; C31 gives the error bound otherwise, and C26 the effect of float32 rounding of the thresholds."
},
{
"property": "C47",
"status": "partial",
"theorems": [
"Verif.C47_reference_float",
"Verif.C47_bgemm_float_partial",
"Verif.C47_indirect_float_partial",
"Verif.C47_int8",
"Verif.C47_indirect_int8_partial",
"Verif.C47_bitpacked_partial",
"Verif.C47_indirect_bitpacked_partial",
"Verif.C47_null_multiplier_witness",
"Verif.C47_bgemm_float_exact",
"Verif.C47_indirect_float_exact"
],
"note": "Float output: full for the reference kernel; for the optimized kernels limited by C17/C20. False for bitpacked output with SAME zero padding in the reference kernel (null multiplier read, witness). Int8 and bitpacked outputs likewise. The _exact theorems give the float result of both optimized kernels for every geometry, without the filter-fits condition: pixels whose window overhangs opposite sides (C17) get one-padding, all others zero-padding."
},
{
"property": "C48",
"status": "proved",
"theorems": [
"Verif.C48_quantize_shape",
"Verif.C48_dequantize_accepts",
"Verif.C48_dequantize_in_bounds"
],
"note": "Added after the mutation qz4 of seeded/LOG.jsonl (DequantizePrepare accepting too many words) survived. Ranks and sizes are unbounded; type checks are represented by the model's data types."
},
{
"property": "C49",
"status": "proved",
"theorems": [
"Verif.C49_a64_float",
"Verif.C49_overflow_witness",
"Verif.otSetup_clamp"
],
"note": "Assembly executed instruction by instruction; hypotheses: accumulators fit in 16 bits (C19), preloaded words exist (C51)."
},
{
"property": "C50",
"status": "proved",
"theorems": [
"Verif.C50_a64_int8"
],
"note": "As C49; the rounding is fcvtns (ties to even), the portable code rounds ties away."
},
{
"property": "C51",
"status": "partial",
"theorems": [
"Verif.C51_a64_allocated_partial",
"Verif.C51_a64_fits_iff",
"Verif.C51_multiplier_overread_witness",
"Verif.C51_input_overread_witness"
],
"note": "The property is false of the code in general; proved for exactly the geometries A64Fits (channels per group mod 8 in {0,4,5,6,7}; with groups, no output pixel starts its filter on the last input pixel, nor in the padding with a 1x1 filter), and C51_a64_fits_iff shows that a load is out of bounds in every other case, whatever the data."
},
{
"property": "C52",
"status": "proved",
"theorems": [
"Verif.C52_a64_bgemm_float",
"Verif.C52_a64_bgemm_int8"
],
"note": "Assembly executed instruction by instruction inside ruy's block loops. Hypotheses: one group, no zero padding (C17), 16-bit selection, enough multipliers (C55)."
},
{
"property": "C53",
"status": "proved",
"theorems": [
"Verif.C53_a64_bgemm_bits"
],
"note": "As C52; thresholds padded to a multiple of 8 (C55)."
},
{
"property": "C54",
"status": "partial",
"theorems": [
"Verif.C54_a64_bgemm4_float_partial",
"Verif.C54_a64_bgemm4_int8_partial",
"Verif.C54_stream_wrong",
"Verif.C54_stream_wrong_witness"
],
"note": "Proved for packed depths where the streaming loop is right (or not compiled in); false for the others (C54_stream_wrong gives the exact wrong value; witness)."
},
{
"property": "C55",
"status": "proved",
"theorems": [
"Verif.C55_reads_float",
"Verif.C55_reads_int8",
"Verif.C55_reads_bits",
"Verif.C55_reads_4x4_float",
"Verif.C55_reads_4x4_int8"
],
"note": "Exact conditions, both directions; outside them the kernel reads past the buffer on every run."
},
{
"property": "C56",
"status": "proved",
"theorems": [
"Verif.C56_a32_bgemm_float",
"Verif.C56_buffers_suffice"
],
"note": "Assembly executed instruction by instruction inside ruy's block loops. Hypotheses: one group, no zero padding (C17)."
},
{
"property": "C57",
"status": "proved",
"theorems": [
"Verif.C57_a32_bgemm_int8",
"Verif.C57_fix8Round_eq",
"Verif.C57_a32_int8_rounding",
"Verif.C57_rounding_witness"
],
"note": "The rounding theorem assumes vcvt.s32.f32 #8 converts finite floats as fix8 says (FOps.Fix8)."
},
{
"property": "C58",
"status": "proved",
"theorems": [
"Verif.C58_float_error",
"Verif.C58_float_exact",
"Verif.C58_kernels_agree",
"Verif.C58_cancellation_witness"
],
"note": "Floats as their values; no overflow, NaN or infinity (the theorem bounds the range). C58_cancellation_witness: no bound relative to the result."
},
{
"property": "C59",
"status": "proved",
"theorems": [
"Verif.C59_int8_error"
],
"note": "Floats as their values; scale between 2^-40 and 2^40, T at most 2^20."
},
{
"property": "C60",
"status": "proved",
"theorems": [
"Verif.C60_a64_indirect_float",
"Verif.C60_a64_indirect_int8",
"Verif.C60_a64_bgemm_float",
"Verif.C60_a64_bgemm_int8",
"Verif.C60_a64_bgemm4_float",
"Verif.C60_a64_bgemm4_int8"
],
"note": "Under the conditions of C49-C54 (no zero padding, 16-bit accumulators suffice, readable padding, streaming depths)."
},
{
"property": "C61",
"status": "partial",
"theorems": [
"Verif.Ir.C61_well_formed",
"Verif.Ir.C61_rewriting_preserves_partial",
"Verif.Ir.C61_static_exceptions",
"Verif.Ir.C61_maxpool_witness",
"Verif.Ir.C61_add_witness",
"Verif.Ir.C61_filter_witness",
"Verif.Ir.C61_pad_witness",
"Verif.Ir.C61_float_pad_witness",
"Verif.Ir.C61_sign_witness",
"Verif.Ir.C61_zero_witness",
"Verif.Ir.C61_scalar_witness",
"Verif.Ir.C61_strip_witness",
"Verif.Ir.C61_quantize_witness",
"Verif.Ir.C61_pipeline_partial",
"Verif.Convert.C71_float_outputs_partial"
],
"note": "Any number of steps in any order preserve well-formedness always, and the graph's results outside the listed exceptional matches, for every argument for which no match made is exceptional (only the int8 fusion has argument-dependent exceptions: C61_static_exceptions); for each kind of exception a witness theorem shows a graph whose function the pattern changes, so the full statement is false of the code. C61_pipeline_partial: the same for all passes in the converter's order, with arbitrary value-preserving passes of TensorFlow and TFLite between them, without quantization."
},
{
"property": "C62",
"status": "proved",
"theorems": [
"Verif.Ir.C62_terminates",
"Verif.Ir.C62_normal_form",
"Verif.Ir.C62_converts",
"Verif.Ir.C62_linear_bound",
"Verif.Ir.C62_bound"
],
"note": "No infinite sequence of steps over all patterns of all modelled passes, exceptional matches included; a normal form is always reached; explicit bounds on the number of steps. MLIR's own iteration limit is outside the model."
},
{
"property": "C63",
"status": "partial",
"theorems": [
"Verif.Ir.C63_converted_model_partial",
"Verif.Ir.C63_any_pass_order_partial",
"Verif.Ir.C63_float_model_partial",
"Verif.Ir.C63_inference",
"Verif.Ir.C63_kernels_agree",
"Verif.Ir.C72_converted_file_partial",
"Verif.Ir.C63_checked_types",
"Verif.Ir.C63_int32_by_bits"
],
"note": "Composes C61/C62 (conversion) with C01-C24, C36, C47 (kernels, float, binary and int8 results): exec of the converted graph is error exactly when Rejected, else outputs Rep the original results. Missing: exceptional matches (C61 witnesses), the shapes excluded by Tame (C13, C17, C47 witnesses show the kernels are wrong there), float rounding (exact arithmetic here; with rounding: C74), one inference per interpreter (histories: C64, C75)."
},
{
"property": "C64",
"status": "partial",
"theorems": [
"Verif.Ir.C64_history",
"Verif.Ir.C64_history_defined",
"Verif.Ir.C64_lifetime_partial",
"Verif.Ir.C64_params_constant",
"Verif.Ir.C64_converted_lifetime_partial",
"Verif.Ir.C64_variable_multiplier_witness",
"Verif.Ir.C64_indirect_resize_witness",
"Verif.Ir.C64_pipeline_partial"
],
"note": "Every history of inferences, resizes and failed resizes leaves the interpreter equivalent to a new one (C64_history, exact outcome) and never reaches undefined behaviour; with C61 and C63, the next inference computes the original graph. C64_params_constant: in every converted graph without unused operations and with nothing left to fold, the convolution parameters are constants, whatever the order of the steps. Partial because the full statement is false: in a hand-made graph a non-constant multiplier is read in the first inference only (witness), and the indirect kernel keeps the first inference's input description (hypothesis InputsAt, witness); exceptional matches of C61 and excluded shapes of C63 remain excluded. C64_pipeline_partial: the same for the result of all passes in the converter's order."
},
{
"property": "C65",
"status": "partial",
"theorems": [
"Verif.Convert.C65_invalid_options",
"Verif.Convert.C65_not_a_model",
"Verif.Convert.C65_saved_result",
"Verif.Convert.C65_keras_via_saved",
"Verif.Convert.C65_keras_total",
"Verif.Convert.C65_graph_result",
"Verif.Convert.C65_io_types_partial",
"Verif.Convert.C65_io_types_exact",
"Verif.Convert.C65_int8_iff",
"Verif.Convert.C65_float_model_witness",
"Verif.Convert.C65_unquantized_input_witness"
],
"note": "Everything but the last clause is proved for every option combination and every behaviour of TensorFlow and the C++ converter. The last clause (requested types honoured) is false: a float model with int8 requested is returned with float I/O by convert_keras_model, and an unquantized input stays float (witnesses). C65_io_types_exact gives the type of every input and output of the result, whoever else reads them, and C65_int8_iff the exact condition under which the request is honoured."
},
{
"property": "C66",
"status": "partial",
"theorems": [
"Verif.Ir.C66_predict_array_partial",
"Verif.Ir.C66_predict_list_partial",
"Verif.Ir.C66_predict_iter_partial",
"Verif.Ir.C66_predict_refused",
"Verif.Ir.C66_kernel_choice"
],
"note": "Composes C41 (sample loop), C61/C62 (conversion), C63 (kernels) and C64 (kernel state), for every reachable interpreter state. Missing: the exclusions of C63/C64 (exceptional matches, shapes where the kernels are wrong, indirect kernel after a resize), exact arithmetic instead of float rounding (with rounding: C76), and an empty batch (predict raises IndexError, C41)."
},
{
"property": "C67",
"status": "proved",
"theorems": [
"Verif.Wrap.C67_types_shapes",
"Verif.Wrap.C67_metadata_constant",
"Verif.Wrap.C67_predict",
"Verif.Wrap.C67_quantization",
"Verif.Wrap.C67_unknown_type"
],
"note": "Byte-level model of the wrapper. Contracts: Invoke of a static model leaves the tensor structs where they are (the wrapper caches pointers to them) and computes a function of the input bytes; TFLite's legacy quantization parameters. Finding: equal nonzero per-channel zero points make the zero-point getters raise."
},
{
"property": "C68",
"status": "proved",
"theorems": [
"Verif.C68_float",
"Verif.C68_float_reads",
"Verif.C68_float_platforms",
"Verif.C68_int8",
"Verif.C68_int8_reads",
"Verif.C68_rounding",
"Verif.C68_rounding_witness",
"Verif.C68_bits",
"Verif.C68_bits_reads",
"Verif.C68_path",
"Verif.C68_accum"
],
"note": "Float operations F are the same abstract operations on the platforms compared; without zero padding; int8 under the condition that no value leaves the int32 range (C10)."
},
{
"property": "C69",
"status": "proved",
"theorems": [
"Verif.Ir.C69_weights",
"Verif.Ir.C69_constants",
"Verif.Ir.C69_binarized",
"Verif.Ir.C69_binarized_all",
"Verif.Ir.C69_fused",
"Verif.Ir.C69_padding_fused",
"Verif.Ir.C69_int8_fused",
"Verif.Ir.C69_converts",
"Verif.Ir.C69_unfused_witness"
],
"note": "All graphs and all driver choices, with arbitrary foreign patterns that meet Neutral / Faithful (assumptions on code outside /repo). C69_unfused_witness shows why the fusion part speaks of the graph before packing: CSE after the optimization passes can make a fusion possible again. C69_binarized_all, _padding_fused and _int8_fused name the moments when nothing is left for the preparation, padding and int8 passes."
},
{
"property": "C70",
"status": "proved",
"theorems": [
"Verif.Det.C70_values",
"Verif.Det.C70_interface",
"Verif.Det.C70_new_types",
"Verif.Det.C70_detections",
"Verif.Det.C70_terminates",
"Verif.Det.C70_undefined",
"Verif.Det.C70_absorbed",
"Verif.Det.C70_defined",
"Verif.Det.C70_cleaned",
"Verif.Det.C70_uint8_witness",
"Verif.Det.C70_undefined_witness"
],
"note": "the detection kernel is any selection of scores by the real numbers of its inputs; for uint8 scores the statement is false (C70_uint8_witness)"
},
{
"property": "C71",
"status": "proved",
"theorems": [
"Verif.Convert.C71_inputs",
"Verif.Convert.C71_no_input_witness",
"Verif.Convert.C71_saved",
"Verif.Convert.C71_graph",
"Verif.Convert.C71_keras",
"Verif.Convert.C71_errors"
],
"note": "For every behaviour of TensorFlow, TFLite and MLIR that meets CppOk (Spec/GlueRel). C71_no_input_witness: a function without inputs counts as one with one input (the empty list of names has one piece). What the file computes, for float models: C71_float_outputs_partial, listed under C61."
},
{
"property": "C72",
"status": "proved",
"theorems": [
"Verif.Ir.C72_roundtrip",
"Verif.Ir.C72_written",
"Verif.Ir.C72_no_lq_left",
"Verif.Ir.C72_undefined",
"Verif.Ir.C72_inference",
"Verif.Ir.C72_reexport",
"Verif.Ir.C72_missing_entry_witness"
],
"note": "The flatbuffer and flexbuffer libraries are contracts (a map reads back as written). Inference: integer attributes below 2^31. C72_missing_entry_witness: an import/export cycle can make a file acceptable that the interpreter refuses, because the importer reads missing entries as 0; that is outside the claim."
},
{
"property": "C73",
"status": "proved",
"theorems": [
"Verif.C73_float_error",
"Verif.C73_float_exact",
"Verif.C73_close_to_reference",
"Verif.C73_platforms"
],
"note": "Rounded arithmetic without overflow (the range conditions exclude it). Which output pixels the kernels correct ('Corrected') is C17's subject; where they do not, conv pads with ones in the statement. C73_platforms: bit patterns, one result for the BGEMM kernel of every platform, the portable and the 64-bit Arm indirect kernels; the target's instructions must be IEEE (no flush-to-zero)."
},
{
"property": "C74",
"status": "proved",
"theorems": [
"Verif.Ir.C74_inference",
"Verif.Ir.C74_binary_exact",
"Verif.Ir.C74_exact",
"Verif.Ir.C74_same_as_exact_arithmetic",
"Verif.Ir.C74_margin_witness",
"Verif.Ir.C74_converted_model_partial"
],
"note": "For every graph (C74_inference); the version for a model produced by the converter inherits C63's limits (exceptional matches of C61, shapes excluded by Tame) and is named _partial. No overflow to infinity, NaN or flush-to-zero: the range conditions of the tolerances exclude them. TFLite's own kernels are parameters with an assumed accuracy."
},
{
"property": "C75",
"status": "partial",
"theorems": [
"Verif.Ir.C75_history",
"Verif.Ir.C75_history_defined",
"Verif.Ir.C75_lifetime_partial",
"Verif.Ir.C75_converted_lifetime_partial",
"Verif.Ir.C75_histories_agree",
"Verif.Ir.C75_variable_multiplier_witness",
"Verif.Ir.C75_indirect_resize_witness"
],
"note": "C75_history (bit-for-bit equality with a new interpreter after any history) and C75_history_defined hold for every arithmetic, with the two conditions the witnesses show to be needed (constant parameters; for the indirect kernel inputs that stay in place). The tolerance statement for a converted graph is partial only as C61/C63/C74 are: exceptional rewriting matches and the cases excluded by Tame."
},
{
"property": "C76",
"status": "partial",
"theorems": [
"Verif.Ir.C76_predict_array_partial",
"Verif.Ir.C76_predict_list_partial",
"Verif.Ir.C76_predict_iter_partial",
"Verif.Ir.C76_predict_refused"
],
"note": "C41's sample loop for a model that satisfies a relation, composed with C75: every reachable state, every arithmetic that rounds to nearest, every write order. Partial as C66 and C75 are: exceptional rewriting matches (C61), cases excluded by Tame (the kernels are wrong there, witnesses in C13, C17, C47), inputs that move with the indirect kernel, and an empty batch (IndexError, C41). C76_predict_refused is complete."
},
{
"property": "C77",
"status": "proved",
"theorems": [
"Verif.C77_a32_bgemm_float",
"Verif.C77_a32_bgemm_int8",
"Verif.C77_flush_witness"
],
"note": "Under the conditions of C56, C57 (one group, no zero padding) and the assumptions FOps.Ftz, FOps.Fix8 on the float instructions."
},
{
"property": "C78",
"status": "proved",
"theorems": [
"Verif.C78_fused_sign",
"Verif.C78_fused_sign_channel",
"Verif.C78_one_value",
"Verif.C78_differ_witness"
],
"note": "Reference kernel on both sides (the portable optimized kernels write the same, C12, C14, C58_kernels_agree). C78_differ_witness: the exception is real, in every arithmetic that rounds to nearest."
},
{
"property": "C79",
"status": "proved",
"theorems": [
"Verif.Wrap.C79_predict",
"Verif.Wrap.C79_array",
"Verif.Wrap.C79_list",
"Verif.Wrap.C79_iter",
"Verif.Wrap.C79_array_rejects",
"Verif.Wrap.C79_metadata_constant",
"Verif.Wrap.C79_empty"
],
"note": "C41 and C67 composed: bytes of each sample in, bytes of each entry out, after any history of the Python object. C79_empty says what happens without samples (IndexError or an empty list), which the property excludes."
}
]
}