'Verif.C01_quantize_bits' depends on axioms: [propext, Classical.choice, Quot.sound]
'Verif.C02_unused_bits_zero' depends on axioms: [propext, Classical.choice, Quot.sound]
'Verif.C03_in_bounds' depends on axioms: [propext, Classical.choice, Quot.sound]
'Verif.C03_packed_shape' depends on axioms: [propext, Classical.choice, Quot.sound]
'Verif.C04_dequantize_quantize_bool' depends on axioms: [propext, Classical.choice, Quot.sound]
'Verif.C04_dequantize_quantize_float' depends on axioms: [propext, Classical.choice, Quot.sound]
'Verif.C04_quantize_dequantize_bool' depends on axioms: [propext, Classical.choice, Quot.sound]
'Verif.C04_quantize_dequantize_float' depends on axioms: [propext, Classical.choice, Quot.sound]
'Verif.C05_exact' depends on axioms: [propext, Classical.choice, Quot.sound]
'Verif.C05_false_large_scale' depends on axioms: [propext, Classical.choice, Quot.sound]
'Verif.C05_false_min_zero_point' depends on axioms: [propext, Classical.choice, Quot.sound]
'Verif.C05_int8_round_trip_partial' depends on axioms: [propext, Classical.choice, Quot.sound]
'Verif.C05_scale_condition' depends on axioms: [propext, Classical.choice, Quot.sound]
'Verif.C06_dot_product' depends on axioms: [propext, Classical.choice, Quot.sound]
'Verif.C07_reference_float' depends on axioms: [propext, Classical.choice, Quot.sound]
'Verif.C08_reference_zero_padding' depends on axioms: [propext, Classical.choice, Quot.sound]
'Verif.C09_output_transform' depends on axioms: [propext, Classical.choice, Quot.sound]
'Verif.C09_overflow_witness' depends on axioms: [propext, Classical.choice, Quot.sound]
'Verif.C10_int8_transform' depends on axioms: [propext, Classical.choice, Quot.sound]
'Verif.C10_rounding' depends on axioms: [propext, Classical.choice, Quot.sound]
'Verif.C11_reference_bitpacked' depends on axioms: [propext, Classical.choice, Quot.sound]
'Verif.C12_float' depends on axioms: [propext, Classical.choice, Quot.sound]
'Verif.C12_indirect_eq_reference' depends on axioms: [propext, Classical.choice, Quot.sound]
'Verif.C12_int8' depends on axioms: [propext, Classical.choice, Quot.sound]
'Verif.C13_exact' depends on axioms: [propext, Classical.choice, Quot.sound]
'Verif.C13_indirect_bitpacked_partial' depends on axioms: [propext, Classical.choice, Quot.sound]
'Verif.C13_threshold_overread_witness' depends on axioms: [propext, Classical.choice, Quot.sound]
'Verif.C13_thresholds_partial' depends on axioms: [propext, Classical.choice, Quot.sound]
'Verif.C14_bgemm_eq_reference' depends on axioms: [propext, Classical.choice, Quot.sound]
'Verif.C14_float' depends on axioms: [propext, Classical.choice, Quot.sound]
'Verif.C14_int8' depends on axioms: [propext, Classical.choice, Quot.sound]
'Verif.C15_bgemm_bitpacked' depends on axioms: [propext, Classical.choice, Quot.sound]
'Verif.C15_thresholds' depends on axioms: [propext, Classical.choice, Quot.sound]
'Verif.C16_no_race' depends on axioms: [propext, Classical.choice, Quot.sound]
'Verif.C16_no_race_bitpacked' depends on axioms: [propext, Classical.choice, Quot.sound]
'Verif.C16_schedule_independent' depends on axioms: [propext, Classical.choice, Quot.sound]
'Verif.C16_schedule_independent_bitpacked' depends on axioms: [propext, Classical.choice, Quot.sound]
'Verif.C17_bgemm_exact' depends on axioms: [propext, Classical.choice, Quot.sound]
'Verif.C17_bgemm_iff' depends on axioms: [propext, Classical.choice, Quot.sound]
'Verif.C17_bgemm_partial' depends on axioms: [propext, Classical.choice, Quot.sound]
'Verif.C17_indirect_exact' depends on axioms: [propext, Classical.choice, Quot.sound]
'Verif.C17_indirect_iff' depends on axioms: [propext, Classical.choice, Quot.sound]
'Verif.C17_indirect_partial' depends on axioms: [propext, Classical.choice, Quot.sound]
'Verif.C17_kernels_agree_partial' depends on axioms: [propext, Classical.choice, Quot.sound]
'Verif.C17_large_filter_witness' depends on axioms: [propext, Classical.choice, Quot.sound]
'Verif.C18_cache_in_bounds' depends on axioms: [propext, Classical.choice, Quot.sound]
'Verif.C19_bgemm' depends on axioms: [propext, Classical.choice, Quot.sound]
'Verif.C19_indirect_exact' depends on axioms: [propext, Classical.choice, Quot.sound]
'Verif.C19_indirect_overflow_witness' depends on axioms: [propext, Classical.choice, Quot.sound]
'Verif.C19_indirect_partial' depends on axioms: [propext, Classical.choice, Quot.sound]
'Verif.C20_history' depends on axioms: [propext, Classical.choice, Quot.sound]
'Verif.C20_indirect_dangling_witness' depends on axioms: [propext, Classical.choice, Quot.sound]
'Verif.C20_indirect_enlarged' depends on axioms: [propext, Classical.choice, Quot.sound]
'Verif.C20_indirect_exact' depends on axioms: [propext, Classical.choice, Quot.sound]
'Verif.C20_indirect_float_exact' depends on axioms: [propext, Classical.choice, Quot.sound]
'Verif.C20_indirect_partial' depends on axioms: [propext, Classical.choice, Quot.sound]
'Verif.C20_indirect_stale_witness' depends on axioms: [propext, Classical.choice, Quot.sound]
'Verif.C20_indirect_zero_exact' depends on axioms: [propext, Classical.choice, Quot.sound]
'Verif.C21_accepted_ok' depends on axioms: [propext, Classical.choice, Quot.sound]
'Verif.C21_input_depth_unchecked' depends on axioms: [propext, Quot.sound]
'Verif.C21_prepare_accepts_iff' depends on axioms: [propext, Classical.choice, Quot.sound]
'Verif.C21_prepare_result' depends on axioms: [propext, Classical.choice, Quot.sound]
'Verif.C22_bmaxpool_quantize' depends on axioms: [propext, Classical.choice, Quot.sound]
'Verif.C23_bmaxpool_in_bounds' depends on axioms: [propext, Classical.choice, Quot.sound]
'Verif.C24_exact' depends on axioms: [propext, Classical.choice, Quot.sound]
'Verif.C24_move_quantize_partial' depends on axioms: [propext, Classical.choice, Quot.sound]
'Verif.C24_relu_witness' depends on axioms: [propext, Classical.choice, Quot.sound]
'Verif.C25_threshold_exact' depends on axioms: [propext, Classical.choice, Quot.sound]
'Verif.C26_float32_thresholds_partial' depends on axioms: [propext, Classical.choice, Quot.sound]
'Verif.C26_fraction_exact_partial' depends on axioms: [propext, Classical.choice, Quot.sound]
'Verif.C26_one_value_partial' depends on axioms: [propext, Classical.choice, Quot.sound]
'Verif.C26_rounding_witness' depends on axioms: [propext, Classical.choice, Quot.sound]
'Verif.C27_thresholds_fit' depends on axioms: [propext, Classical.choice, Quot.sound]
'Verif.C28_dynamic_witness' depends on axioms: [propext, Classical.choice, Quot.sound]
'Verif.C28_exact' depends on axioms: [propext, Classical.choice, Quot.sound]
'Verif.C28_exact_undilated' depends on axioms: [propext, Classical.choice, Quot.sound]
'Verif.C28_resnet_witness' depends on axioms: [propext]
'Verif.C28_same_padding_partial' depends on axioms: [propext, Classical.choice, Quot.sound]
'Verif.C28_stride2_witness' depends on axioms: [propext]
'Verif.C29_fuse_affine' depends on axioms: [propext, Classical.choice, Quot.sound]
'Verif.C29_rank4_witness' depends on axioms: [propext, Classical.choice, Quot.sound]
'Verif.C30_fuse_activation' depends on axioms: [propext, Classical.choice, Quot.sound]
'Verif.C31_binary_filter' depends on axioms: [propext, Classical.choice, Quot.sound]
'Verif.C31_groups' depends on axioms: [propext, Classical.choice, Quot.sound]
'Verif.C31_inexact_witness' depends on axioms: [propext, Classical.choice, Quot.sound]
'Verif.C31_layout' depends on axioms: [propext, Quot.sound]
'Verif.C32_constant_iff' depends on axioms: [propext, Classical.choice, Quot.sound]
'Verif.C32_sign_exact' depends on axioms: [propext, Classical.choice, Quot.sound]
'Verif.C32_sign_partial' depends on axioms: [propext, Classical.choice, Quot.sound]
'Verif.C32_unconstrained_witness' depends on axioms: [propext, Classical.choice, Quot.sound]
'Verif.C33_ge_bit_iff' depends on axioms: [propext, Classical.choice, Quot.sound]
'Verif.C33_ge_zero_bit_iff' depends on axioms: [propext, Quot.sound]
'Verif.C33_greater_equal' depends on axioms: [propext, Classical.choice, Quot.sound]
'Verif.C33_greater_equal_exact' depends on axioms: [propext, Classical.choice, Quot.sound]
'Verif.C33_greater_equal_ieee' depends on axioms: [propext, Classical.choice, Quot.sound]
'Verif.C33_less_equal' depends on axioms: [propext, Quot.sound]
'Verif.C33_nan_witness' depends on axioms: [propext, Quot.sound]
'Verif.C33_select_rows_iff' depends on axioms: [propext, Classical.choice, Quot.sound]
'Verif.C33_select_rows_witness' depends on axioms: [propext, Quot.sound]
'Verif.C33_select_v1_partial' depends on axioms: [propext, Classical.choice, Quot.sound]
'Verif.C33_select_v2' depends on axioms: [propext, Classical.choice, Quot.sound]
'Verif.C33_zero_shape_witness' depends on axioms: [propext, Classical.choice, Quot.sound]
'Verif.C34_dequantize_float' depends on axioms: [propext, Classical.choice, Quot.sound]
'Verif.C34_dequantize_int8_bound' depends on axioms: [propext, Classical.choice, Quot.sound]
'Verif.C34_dequantize_int8_partial' depends on axioms: [propext, Classical.choice, Quot.sound]
'Verif.C34_double_scale_witness' depends on axioms: [propext, Classical.choice, Quot.sound]
'Verif.C34_quantize' depends on axioms: [propext, Classical.choice, Quot.sound]
'Verif.C34_quantize_folds' depends on axioms: [propext, Classical.choice, Quot.sound]
'Verif.C34_unsupported_witness' depends on axioms: [propext, Quot.sound]
'Verif.C35_bad_pad_value' depends on axioms: [propext, Classical.choice, Quot.sound]
'Verif.C35_bconv_import' depends on axioms: [propext, Classical.choice, Quot.sound]
'Verif.C35_bconv_runtime' depends on axioms: [propext, Classical.choice, Quot.sound]
'Verif.C35_missing_attribute' depends on axioms: [propext]
'Verif.C35_names' depends on axioms: [propext, Classical.choice, Quot.sound]
'Verif.C35_pool' depends on axioms: [propext, Classical.choice, Quot.sound]
'Verif.C35_unsupported_activation_witness' depends on axioms: [propext, Classical.choice, Quot.sound]
'Verif.C36_fuse_output_quantize_partial' depends on axioms: [propext, Classical.choice, Quot.sound]
'Verif.C36_tie_witness' depends on axioms: [propext, Classical.choice, Quot.sound]
'Verif.C36_zero_padding_witness' depends on axioms: [propext, Classical.choice, Quot.sound]
'Verif.C37_drop_dequantize' depends on axioms: [propext, Classical.choice, Quot.sound]
'Verif.C37_quantize_of_dequantize' depends on axioms: [propext, Classical.choice, Quot.sound]
'Verif.C38_other_signatures_exact' depends on axioms: [propext, Classical.choice, Quot.sound]
'Verif.C38_removed_references' depends on axioms: [propext, Classical.choice, Quot.sound]
'Verif.C38_signature_other_tensor' depends on axioms: [propext, Quot.sound]
'Verif.C40_exact' depends on axioms: [propext, Classical.choice, Quot.sound]
'Verif.C40_python_indexing' depends on axioms: [propext, Classical.choice, Quot.sound]
'Verif.C41_empty_witness' depends on axioms: [propext]
'Verif.C41_other' depends on axioms: [propext]
'Verif.C41_predict_array_partial' depends on axioms: [propext, Classical.choice, Quot.sound]
'Verif.C41_predict_iter_partial' depends on axioms: [propext, Classical.choice, Quot.sound]
'Verif.C41_predict_list_partial' depends on axioms: [propext, Classical.choice, Quot.sound]
'Verif.C41_rejects' depends on axioms: [propext, Quot.sound]
'Verif.C41_truncation_witness' depends on axioms: [propext]
'Verif.C42_set_batch_size' depends on axioms: [propext, Quot.sound]
'Verif.C43_kernel_matrix' depends on axioms: [propext, Classical.choice, Quot.sound]
'Verif.C44_ceil' depends on axioms: [propext, Classical.choice, Quot.sound]
'Verif.C44_fast_bounds_check' depends on axioms: [propext, Classical.choice, Quot.sound]
'Verif.C44_saturate' depends on axioms: [propext, Quot.sound]
'Verif.C44_shift_saturate' depends on axioms: [propext, Classical.choice, Quot.sound]
'Verif.C45_float_matrix_partial' depends on axioms: [propext, Classical.choice, Quot.sound]
'Verif.C45_float_other_zp' depends on axioms: [propext, Quot.sound]
'Verif.C45_float_partial' depends on axioms: [propext, Classical.choice, Quot.sound]
'Verif.C45_float_small' depends on axioms: [propext, Classical.choice, Quot.sound]
'Verif.C45_int8' depends on axioms: [propext, Classical.choice, Quot.sound]
'Verif.C45_int8_matrix' depends on axioms: [propext, Classical.choice, Quot.sound]
'Verif.C45_negative_zero_witness' depends on axioms: [propext, Classical.choice, Quot.sound]
'Verif.C45_uint8' depends on axioms: [propext, Quot.sound]
'Verif.C46_block_float' depends on axioms: [propext, Classical.choice, Quot.sound]
'Verif.C46_block_kernels' depends on axioms: [propext, Classical.choice, Quot.sound]
'Verif.C46_block_reference' depends on axioms: [propext, Classical.choice, Quot.sound]
'Verif.C47_bgemm_float_exact' depends on axioms: [propext, Classical.choice, Quot.sound]
'Verif.C47_bgemm_float_partial' depends on axioms: [propext, Classical.choice, Quot.sound]
'Verif.C47_bitpacked_partial' depends on axioms: [propext, Classical.choice, Quot.sound]
'Verif.C47_indirect_bitpacked_partial' depends on axioms: [propext, Classical.choice, Quot.sound]
'Verif.C47_indirect_float_exact' depends on axioms: [propext, Classical.choice, Quot.sound]
'Verif.C47_indirect_float_partial' depends on axioms: [propext, Classical.choice, Quot.sound]
'Verif.C47_indirect_int8_partial' depends on axioms: [propext, Classical.choice, Quot.sound]
'Verif.C47_int8' depends on axioms: [propext, Classical.choice, Quot.sound]
'Verif.C47_null_multiplier_witness' depends on axioms: [propext, Classical.choice, Quot.sound]
'Verif.C47_reference_float' depends on axioms: [propext, Classical.choice, Quot.sound]
'Verif.C48_dequantize_accepts' depends on axioms: [propext, Classical.choice, Quot.sound]
'Verif.C48_dequantize_in_bounds' depends on axioms: [propext, Classical.choice, Quot.sound]
'Verif.C48_quantize_shape' depends on axioms: [propext]
'Verif.C49_a64_float' depends on axioms: [propext, Classical.choice, Quot.sound]
'Verif.C49_overflow_witness' depends on axioms: [propext, Classical.choice, Quot.sound]
'Verif.C50_a64_int8' depends on axioms: [propext, Classical.choice, Quot.sound]
'Verif.C51_a64_allocated_partial' depends on axioms: [propext, Classical.choice, Quot.sound]
'Verif.C51_a64_fits_iff' depends on axioms: [propext, Classical.choice, Quot.sound]
'Verif.C51_input_overread_witness' depends on axioms: [propext, Classical.choice, Quot.sound]
'Verif.C51_multiplier_overread_witness' depends on axioms: [propext, Classical.choice, Quot.sound]
'Verif.C52_a64_bgemm_float' depends on axioms: [propext, Classical.choice, Quot.sound]
'Verif.C52_a64_bgemm_int8' depends on axioms: [propext, Classical.choice, Quot.sound]
'Verif.C53_a64_bgemm_bits' depends on axioms: [propext, Classical.choice, Quot.sound]
'Verif.C54_a64_bgemm4_float_partial' depends on axioms: [propext, Classical.choice, Quot.sound]
'Verif.C54_a64_bgemm4_int8_partial' depends on axioms: [propext, Classical.choice, Quot.sound]
'Verif.C54_stream_wrong' depends on axioms: [propext, Classical.choice, Quot.sound]
'Verif.C54_stream_wrong_witness' depends on axioms: [propext, Classical.choice, Quot.sound]
'Verif.C55_reads_4x4_float' depends on axioms: [propext, Classical.choice, Quot.sound]
'Verif.C55_reads_4x4_int8' depends on axioms: [propext, Classical.choice, Quot.sound]
'Verif.C55_reads_bits' depends on axioms: [propext, Classical.choice, Quot.sound]
'Verif.C55_reads_float' depends on axioms: [propext, Classical.choice, Quot.sound]
'Verif.C55_reads_int8' depends on axioms: [propext, Classical.choice, Quot.sound]
'Verif.C56_a32_bgemm_float' depends on axioms: [propext, Classical.choice, Quot.sound]
'Verif.C56_buffers_suffice' depends on axioms: [propext, Quot.sound]
'Verif.C57_a32_bgemm_int8' depends on axioms: [propext, Classical.choice, Quot.sound]
'Verif.C57_a32_int8_rounding' depends on axioms: [propext, Classical.choice, Quot.sound]
'Verif.C57_fix8Round_eq' depends on axioms: [propext, Classical.choice, Quot.sound]
'Verif.C57_rounding_witness' depends on axioms: [propext, Classical.choice, Quot.sound]
'Verif.C58_cancellation_witness' depends on axioms: [propext, Classical.choice, Quot.sound]
'Verif.C58_float_error' depends on axioms: [propext, Classical.choice, Quot.sound]
'Verif.C58_float_exact' depends on axioms: [propext, Classical.choice, Quot.sound]
'Verif.C58_kernels_agree' depends on axioms: [propext, Classical.choice, Quot.sound]
'Verif.C59_int8_error' depends on axioms: [propext, Classical.choice, Quot.sound]
'Verif.C60_a64_bgemm4_float' depends on axioms: [propext, Classical.choice, Quot.sound]
'Verif.C60_a64_bgemm4_int8' depends on axioms: [propext, Classical.choice, Quot.sound]
'Verif.C60_a64_bgemm_float' depends on axioms: [propext, Classical.choice, Quot.sound]
'Verif.C60_a64_bgemm_int8' depends on axioms: [propext, Classical.choice, Quot.sound]
'Verif.C60_a64_indirect_float' depends on axioms: [propext, Classical.choice, Quot.sound]
'Verif.C60_a64_indirect_int8' depends on axioms: [propext, Classical.choice, Quot.sound]
'Verif.C68_accum' depends on axioms: [propext, Classical.choice, Quot.sound]
'Verif.C68_bits' depends on axioms: [propext, Classical.choice, Quot.sound]
'Verif.C68_bits_reads' depends on axioms: [propext, Classical.choice, Quot.sound]
'Verif.C68_float' depends on axioms: [propext, Classical.choice, Quot.sound]
'Verif.C68_float_platforms' depends on axioms: [propext, Classical.choice, Quot.sound]
'Verif.C68_float_reads' depends on axioms: [propext, Classical.choice, Quot.sound]
'Verif.C68_int8' depends on axioms: [propext, Classical.choice, Quot.sound]
'Verif.C68_int8_reads' depends on axioms: [propext, Classical.choice, Quot.sound]
'Verif.C68_path' depends on axioms: [propext, Classical.choice, Quot.sound]
'Verif.C68_rounding' depends on axioms: [propext, Classical.choice, Quot.sound]
'Verif.C68_rounding_witness' depends on axioms: [propext, Classical.choice, Quot.sound]
'Verif.C73_close_to_reference' depends on axioms: [propext, Classical.choice, Quot.sound]
'Verif.C73_float_error' depends on axioms: [propext, Classical.choice, Quot.sound]
'Verif.C73_float_exact' depends on axioms: [propext, Classical.choice, Quot.sound]
'Verif.C73_platforms' depends on axioms: [propext, Classical.choice, Quot.sound]
'Verif.C77_a32_bgemm_float' depends on axioms: [propext, Classical.choice, Quot.sound]
'Verif.C77_a32_bgemm_int8' depends on axioms: [propext, Classical.choice, Quot.sound]
'Verif.C77_flush_witness' depends on axioms: [propext, Classical.choice, Quot.sound]
'Verif.C78_differ_witness' depends on axioms: [propext, Classical.choice, Quot.sound]
'Verif.C78_fused_sign' depends on axioms: [propext, Classical.choice, Quot.sound]
'Verif.C78_fused_sign_channel' depends on axioms: [propext, Classical.choice, Quot.sound]
'Verif.C78_one_value' depends on axioms: [propext, Classical.choice, Quot.sound]
'Verif.Convert.C65_float_model_witness' depends on axioms: [propext, Quot.sound]
'Verif.Convert.C65_graph_result' depends on axioms: [propext, Quot.sound]
'Verif.Convert.C65_int8_iff' depends on axioms: [propext, Classical.choice, Quot.sound]
'Verif.Convert.C65_invalid_options' depends on axioms: [propext, Classical.choice, Quot.sound]
'Verif.Convert.C65_io_types_exact' depends on axioms: [propext, Classical.choice, Quot.sound]
'Verif.Convert.C65_io_types_partial' depends on axioms: [propext, Classical.choice, Quot.sound]
'Verif.Convert.C65_keras_total' depends on axioms: [propext, Classical.choice, Quot.sound]
'Verif.Convert.C65_keras_via_saved' depends on axioms: [propext, Classical.choice, Quot.sound]
'Verif.Convert.C65_not_a_model' depends on axioms: [propext, Quot.sound]
'Verif.Convert.C65_saved_result' depends on axioms: [propext, Classical.choice, Quot.sound]
'Verif.Convert.C65_unquantized_input_witness' depends on axioms: [propext, Quot.sound]
'Verif.Convert.C71_errors' depends on axioms: [propext, Classical.choice, Quot.sound]
'Verif.Convert.C71_float_outputs_partial' depends on axioms: [propext, Classical.choice, Quot.sound]
'Verif.Convert.C71_graph' depends on axioms: [propext, Classical.choice, Quot.sound]
'Verif.Convert.C71_inputs' depends on axioms: [propext, Classical.choice, Quot.sound]
'Verif.Convert.C71_keras' depends on axioms: [propext, Classical.choice, Quot.sound]
'Verif.Convert.C71_no_input_witness' depends on axioms: [propext, Classical.choice, Quot.sound]
'Verif.Convert.C71_saved' depends on axioms: [propext, Classical.choice, Quot.sound]
'Verif.Det.C70_absorbed' depends on axioms: [propext, Quot.sound]
'Verif.Det.C70_cleaned' depends on axioms: [propext, Quot.sound]
'Verif.Det.C70_defined' depends on axioms: [propext, Classical.choice, Quot.sound]
'Verif.Det.C70_detections' depends on axioms: [propext, Quot.sound]
'Verif.Det.C70_interface' depends on axioms: [propext, Classical.choice, Quot.sound]
'Verif.Det.C70_new_types' depends on axioms: [propext, Classical.choice, Quot.sound]
'Verif.Det.C70_terminates' depends on axioms: [propext, Quot.sound]
'Verif.Det.C70_uint8_witness' depends on axioms: [propext, Classical.choice, Quot.sound]
'Verif.Det.C70_undefined' depends on axioms: [propext, Quot.sound]
'Verif.Det.C70_undefined_witness' depends on axioms: [propext, Classical.choice, Quot.sound]
'Verif.Det.C70_values' depends on axioms: [propext, Classical.choice, Quot.sound]
'Verif.Ir.C61_add_witness' depends on axioms: [propext, Classical.choice, Quot.sound]
'Verif.Ir.C61_filter_witness' depends on axioms: [propext, Classical.choice, Quot.sound]
'Verif.Ir.C61_float_pad_witness' depends on axioms: [propext, Classical.choice, Quot.sound]
'Verif.Ir.C61_maxpool_witness' depends on axioms: [propext, Classical.choice, Quot.sound]
'Verif.Ir.C61_pad_witness' depends on axioms: [propext, Classical.choice, Quot.sound]
'Verif.Ir.C61_pipeline_partial' depends on axioms: [propext, Classical.choice, Quot.sound]
'Verif.Ir.C61_quantize_witness' depends on axioms: [propext, Classical.choice, Quot.sound]
'Verif.Ir.C61_rewriting_preserves_partial' depends on axioms: [propext, Classical.choice, Quot.sound]
'Verif.Ir.C61_scalar_witness' depends on axioms: [propext, Classical.choice, Quot.sound]
'Verif.Ir.C61_sign_witness' depends on axioms: [propext, Classical.choice, Quot.sound]
'Verif.Ir.C61_static_exceptions' depends on axioms: [propext, Classical.choice, Quot.sound]
'Verif.Ir.C61_strip_witness' depends on axioms: [propext, Classical.choice, Quot.sound]
'Verif.Ir.C61_well_formed' depends on axioms: [propext, Classical.choice, Quot.sound]
'Verif.Ir.C61_zero_witness' depends on axioms: [propext, Classical.choice, Quot.sound]
'Verif.Ir.C62_bound' depends on axioms: [propext, Classical.choice, Quot.sound]
'Verif.Ir.C62_converts' depends on axioms: [propext, Classical.choice, Quot.sound]
'Verif.Ir.C62_linear_bound' depends on axioms: [propext, Classical.choice, Quot.sound]
'Verif.Ir.C62_normal_form' depends on axioms: [propext, Classical.choice, Quot.sound]
'Verif.Ir.C62_terminates' depends on axioms: [propext, Classical.choice, Quot.sound]
'Verif.Ir.C63_any_pass_order_partial' depends on axioms: [propext, Classical.choice, Quot.sound]
'Verif.Ir.C63_checked_types' depends on axioms: [propext, Classical.choice, Quot.sound]
'Verif.Ir.C63_converted_model_partial' depends on axioms: [propext, Classical.choice, Quot.sound]
'Verif.Ir.C63_float_model_partial' depends on axioms: [propext, Classical.choice, Quot.sound]
'Verif.Ir.C63_inference' depends on axioms: [propext, Classical.choice, Quot.sound]
'Verif.Ir.C63_int32_by_bits' depends on axioms: [propext, Classical.choice, Quot.sound]
'Verif.Ir.C63_kernels_agree' depends on axioms: [propext, Classical.choice, Quot.sound]
'Verif.Ir.C64_converted_lifetime_partial' depends on axioms: [propext, Classical.choice, Quot.sound]
'Verif.Ir.C64_history' depends on axioms: [propext, Classical.choice, Quot.sound]
'Verif.Ir.C64_history_defined' depends on axioms: [propext, Classical.choice, Quot.sound]
'Verif.Ir.C64_indirect_resize_witness' depends on axioms: [propext, Classical.choice, Quot.sound]
'Verif.Ir.C64_lifetime_partial' depends on axioms: [propext, Classical.choice, Quot.sound]
'Verif.Ir.C64_params_constant' depends on axioms: [propext, Classical.choice, Quot.sound]
'Verif.Ir.C64_pipeline_partial' depends on axioms: [propext, Classical.choice, Quot.sound]
'Verif.Ir.C64_variable_multiplier_witness' depends on axioms: [propext, Classical.choice, Quot.sound]
'Verif.Ir.C66_kernel_choice' does not depend on any axioms
'Verif.Ir.C66_predict_array_partial' depends on axioms: [propext, Classical.choice, Quot.sound]
'Verif.Ir.C66_predict_iter_partial' depends on axioms: [propext, Classical.choice, Quot.sound]
'Verif.Ir.C66_predict_list_partial' depends on axioms: [propext, Classical.choice, Quot.sound]
'Verif.Ir.C66_predict_refused' depends on axioms: [propext, Classical.choice, Quot.sound]
'Verif.Ir.C69_binarized' depends on axioms: [propext, Classical.choice, Quot.sound]
'Verif.Ir.C69_binarized_all' depends on axioms: [propext, Classical.choice, Quot.sound]
'Verif.Ir.C69_constants' depends on axioms: [propext, Classical.choice, Quot.sound]
'Verif.Ir.C69_converts' depends on axioms: [propext, Classical.choice, Quot.sound]
'Verif.Ir.C69_fused' depends on axioms: [propext, Classical.choice, Quot.sound]
'Verif.Ir.C69_int8_fused' depends on axioms: [propext, Classical.choice, Quot.sound]
'Verif.Ir.C69_padding_fused' depends on axioms: [propext, Classical.choice, Quot.sound]
'Verif.Ir.C69_unfused_witness' depends on axioms: [propext, Classical.choice, Quot.sound]
'Verif.Ir.C69_weights' depends on axioms: [propext, Classical.choice, Quot.sound]
'Verif.Ir.C72_converted_file_partial' depends on axioms: [propext, Classical.choice, Quot.sound]
'Verif.Ir.C72_inference' depends on axioms: [propext, Classical.choice, Quot.sound]
'Verif.Ir.C72_missing_entry_witness' does not depend on any axioms
'Verif.Ir.C72_no_lq_left' depends on axioms: [propext, Classical.choice, Quot.sound]
'Verif.Ir.C72_reexport' depends on axioms: [propext, Classical.choice, Quot.sound]
'Verif.Ir.C72_roundtrip' depends on axioms: [propext, Classical.choice, Quot.sound]
'Verif.Ir.C72_undefined' depends on axioms: [propext, Classical.choice, Quot.sound]
'Verif.Ir.C72_written' depends on axioms: [propext, Classical.choice, Quot.sound]
'Verif.Ir.C74_binary_exact' depends on axioms: [propext, Classical.choice, Quot.sound]
'Verif.Ir.C74_converted_model_partial' depends on axioms: [propext, Classical.choice, Quot.sound]
'Verif.Ir.C74_exact' depends on axioms: [propext, Classical.choice, Quot.sound]
'Verif.Ir.C74_inference' depends on axioms: [propext, Classical.choice, Quot.sound]
'Verif.Ir.C74_margin_witness' depends on axioms: [propext, Classical.choice, Quot.sound]
'Verif.Ir.C74_same_as_exact_arithmetic' depends on axioms: [propext, Classical.choice, Quot.sound]
'Verif.Ir.C75_converted_lifetime_partial' depends on axioms: [propext, Classical.choice, Quot.sound]
'Verif.Ir.C75_histories_agree' depends on axioms: [propext, Classical.choice, Quot.sound]
'Verif.Ir.C75_history' depends on axioms: [propext, Classical.choice, Quot.sound]
'Verif.Ir.C75_history_defined' depends on axioms: [propext, Classical.choice, Quot.sound]
'Verif.Ir.C75_indirect_resize_witness' depends on axioms: [propext, Classical.choice, Quot.sound]
'Verif.Ir.C75_lifetime_partial' depends on axioms: [propext, Classical.choice, Quot.sound]
'Verif.Ir.C75_variable_multiplier_witness' depends on axioms: [propext, Classical.choice, Quot.sound]
'Verif.Ir.C76_predict_array_partial' depends on axioms: [propext, Classical.choice, Quot.sound]
'Verif.Ir.C76_predict_iter_partial' depends on axioms: [propext, Classical.choice, Quot.sound]
'Verif.Ir.C76_predict_list_partial' depends on axioms: [propext, Classical.choice, Quot.sound]
'Verif.Ir.C76_predict_refused' depends on axioms: [propext, Classical.choice, Quot.sound]
'Verif.Wrap.C67_metadata_constant' depends on axioms: [propext, Classical.choice, Quot.sound]
'Verif.Wrap.C67_predict' depends on axioms: [propext, Classical.choice, Quot.sound]
'Verif.Wrap.C67_quantization' depends on axioms: [propext, Classical.choice, Quot.sound]
'Verif.Wrap.C67_types_shapes' depends on axioms: [propext, Classical.choice, Quot.sound]
'Verif.Wrap.C67_unknown_type' depends on axioms: [propext, Quot.sound]
'Verif.Wrap.C79_array' depends on axioms: [propext, Classical.choice, Quot.sound]
'Verif.Wrap.C79_array_rejects' depends on axioms: [propext, Classical.choice, Quot.sound]
'Verif.Wrap.C79_empty' depends on axioms: [propext, Classical.choice, Quot.sound]
'Verif.Wrap.C79_iter' depends on axioms: [propext, Classical.choice, Quot.sound]
'Verif.Wrap.C79_list' depends on axioms: [propext, Classical.choice, Quot.sound]
'Verif.Wrap.C79_metadata_constant' depends on axioms: [propext, Classical.choice, Quot.sound]
'Verif.Wrap.C79_predict' depends on axioms: [propext, Classical.choice, Quot.sound]
'Verif.convertible_not_lost' depends on axioms: [propext, Quot.sound]
'Verif.modify_io_breaks_input_as_output' depends on axioms: [propext, Classical.choice, Quot.sound]
'Verif.modify_io_breaks_read_output' depends on axioms: [propext, Classical.choice, Quot.sound]
'Verif.modify_io_breaks_shared_input' depends on axioms: [propext, Classical.choice, Quot.sound]
'Verif.modify_io_preserves_function_partial' depends on axioms: [propext, Classical.choice, Quot.sound]
'Verif.modify_io_raises_on_types' depends on axioms: [propext, Quot.sound]
'Verif.nearestInt_roundings' depends on axioms: [propext, Classical.choice, Quot.sound]
'Verif.otSetup_clamp' depends on axioms: [propext, Classical.choice, Quot.sound]
'Verif.packedPos_inj' depends on axioms: [propext, Classical.choice, Quot.sound]
'Verif.remove_tensors_keeps_references_partial' depends on axioms: [propext, Classical.choice, Quot.sound]
'Verif.roundHalfAway_shift_ne' depends on axioms: [propext, Classical.choice, Quot.sound]
'Verif.ruy_pack_exact' depends on axioms: [propext, Classical.choice, Quot.sound]
'Verif.second_signature_wrong' depends on axioms: [propext, Quot.sound]
'Verif.strip_breaks_consumers' depends on axioms: [propext, Quot.sound]
'Verif.strip_lcedequantize_ops_exposes_packed' depends on axioms: [propext, Classical.choice, Quot.sound]
'Verif.strip_lcedequantize_subgraph' depends on axioms: [propext, Classical.choice, Quot.sound]
'Verif.strip_raises_on_dequantize_types' depends on axioms: [propext, Quot.sound]
'Verif.strip_raises_on_lcedequantize_types' depends on axioms: [propext, Quot.sound]
'Verif.strip_raises_without_codes' depends on axioms: [propext, Quot.sound]
'Verif.strip_two_subgraphs_signature_wrong' depends on axioms: [propext, Quot.sound] 
