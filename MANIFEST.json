{"claims": [
  {"property": "C01", "status": "proved", "theorems": ["OnnxIR.C01_dead_nodes_preserve_outputs", "OnnxIR.C01_dead_nodes_sublist"], "note": "all operator semantics, graphs, inputs"},
  {"property": "C02", "status": "proved", "theorems": ["OnnxIR.C02_dead_nodes_complete", "OnnxIR.C02_dead_nodes_idempotent"], "note": "exact characterisation on topologically ordered graphs; idempotent always; termination is totality of the model function"},
  {"property": "C03", "status": "partial", "theorems": ["OnnxIR.C03_cse_preserves_outputs_partial", "OnnxIR.C03_cse_wrong_on_random"], "note": "the pass merges random operators; proved for deterministic ones, counterexample proved for random ones"},
  {"property": "C04", "status": "proved", "theorems": ["OnnxIR.C04_idempotent_preserves_outputs", "OnnxIR.realSem_idempotentLaw"], "note": "under the algebraic law of the six operators (proved of real tensors), SSA and the empty-name discipline"},
  {"property": "C05", "status": "partial", "theorems": ["OnnxIR.C05_identity_element_preserves_outputs_partial", "OnnxIR.C05_identity_element_wrong_shape", "OnnxIR.realSem_identityLaw"], "note": "the pass does not compare shapes; proved under that guard, counterexample proved without it"},
  {"property": "C06", "status": "partial", "theorems": ["OnnxIR.C06_permute_reshape_preserves_outputs_partial", "OnnxIR.C06_transpose_moves_data", "OnnxIR.Tensor.transpose_data"], "note": "Proved when the permutation keeps the order of the dimensions other than 1 (Tensor.transpose_data shows this is enough), the Shape is unsliced, indices are single numbers and the rank matches. In general the claim is false: C06_transpose_moves_data is a 2x3 counterexample."},
  {"property": "C07", "status": "partial", "theorems": ["OnnxIR.C07_constant_shape_preserves_outputs_partial", "OnnxIR.C07_gather_ignores_end", "OnnxIR.C07_negative_step_drops_element", "OnnxIR.C07_negative_step_panics", "OnnxIR.C07_end_below_rank", "OnnxIR.C07_marks_resolve"], "note": "Proved under the exact guard the code needs: no Shape node carries an end attribute whose range differs, Slice steps are positive at run time (FoldableShapes), annotations are right about the run (TypedRun) and the constant table matches the run (TableOk). Outside the guard the code disagrees with ONNX; four counterexample theorems."},
  {"property": "C08", "status": "partial", "theorems": ["OnnxIR.C08_constant_folding_preserves_outputs_partial", "OnnxIR.C08_unknown_shape_panics", "OnnxIR.C08_unknown_shape_changes_rank", "OnnxIR.C08_broadcast_panics", "OnnxIR.C08_division_overflow_panics", "OnnxIR.C08_marks_resolve"], "note": "Proved when annotations are right and determine the folded shapes and float-to-int casts are in range. Where they are not, the code panics or changes the rank: four counterexample theorems."},
  {"property": "C09", "status": "partial", "theorems": ["OnnxIR.C09_simplification_preserves_outputs_partial", "OnnxIR.C09_panics_only_in_passes", "OnnxIR.C09_outputs_kept"], "note": "Any number of rounds of all eight passes, with early exit, keeps every graph result, provided each pass runs in a state where it is right on its own (Pass.Guard, the exact guards of C03, C05-C08, C10); single assignment, the naming discipline, the constant table and the annotations are shown to survive every pass. Without any condition: outputs keep number, order, names and annotations, the graph never grows, and the pipeline itself never panics. Missing: the situations excluded by the guards, in which single passes are wrong."},
  {"property": "C10", "status": "partial", "theorems": ["OnnxIR.C10_coalesce_attention_preserves_partial", "OnnxIR.AttnCase.C10_unscaled_wrong", "OnnxIR.AttnCase.C10_vector_scale_wrong", "OnnxIR.AttnCase.C10_runtime_scale_wrong", "OnnxIR.AttnCase.C10_scores_output_lost"], "note": "Proved for graphs that stay within what an Attention node expresses (one-element exact scale constants, no batch broadcasting, mask no larger than the scores, scores scaled once). Missing: the pattern with Q and K both scaled before the product. Counterexamples: unscaled scores, vector scale constants, run-time shared factor, scores that are graph outputs."},
  {"property": "C11", "status": "proved", "theorems": ["OnnxIR.C11_noop_elimination_preserves_outputs", "OnnxIR.C11_original_name_clash", "OnnxIR.C11_dropout_mask_lost", "OnnxIR.C11_noop_elimination_in_run"], "note": "any order of hash-map traversal, chains of any length; assumptions are those of the importer except that original names must not clash (counterexample proved)"},
  {"property": "C12", "status": "proved", "theorems": ["OnnxIR.C12_unreferenced_constants_preserve_outputs", "OnnxIR.C12_removed_exactly"], "note": ""},
  {"property": "C13", "status": "partial", "theorems": ["OnnxIR.C13_fusion_preserves_meaning_partial", "OnnxIR.C13_linear_law", "OnnxIR.C13_linear_is_product", "OnnxIR.C13_linear_is_biased_product", "OnnxIR.C13_linear_is_gemm", "OnnxIR.C13_product_lost", "OnnxIR.C13_product_output_lost", "OnnxIR.C13_number_bias_fused", "OnnxIR.C13_gemm_bias_fused", "OnnxIR.C13_transposed_input_fused", "OnnxIR.C13_runtime_weight_fused", "OnnxIR.C13_linear_type"], "note": "Whole loop: conversion with fusion succeeds and keeps the results of every graph that has them, for all graphs and inputs (C13_fusion_preserves_meaning_partial), with the layer's values proved for every shape and arithmetic (product, biased product, Gemm) and the law discharged from them (C13_linear_law). Partial: under FusionOk, which the code does not check; counterexamples for shared products, products that are outputs, non-vector biases, matrix C, transA = 2 and run-time weights."},
  {"property": "C14", "status": "partial", "theorems": ["OnnxIR.C14_constant_sound", "OnnxIR.C14_gemm_sound", "OnnxIR.C14_transpose_sound", "OnnxIR.C14_same_shape_sound", "OnnxIR.C14_scatter_sound", "OnnxIR.C14_like_sound", "OnnxIR.C14_gather_elements_sound", "OnnxIR.C14_cast_sound", "OnnxIR.C14_batchnorm_sound", "OnnxIR.C14_nonzero_sound", "OnnxIR.C14_rank_only_sound", "OnnxIR.C14_constant_of_shape_sound", "OnnxIR.C14_slice_shape_partial", "OnnxIR.C14_slice_tensor_partial", "OnnxIR.C14_slice_static_wrong", "OnnxIR.C14_slice_reverse_wrong", "OnnxIR.C14_copy_rank_partial", "OnnxIR.C14_copied_shape_wrong", "OnnxIR.C14_where_tensor_partial", "OnnxIR.C14_where_shape_partial", "OnnxIR.C14_where_condition_wrong", "OnnxIR.C14_where_equal_or_scalar"], "note": "Output types of Constant, Gemm, Transpose, Slice, Pad, Tile, pooling, Cast, BatchNormalization, ConstantOfShape, NonZero, Where, GatherElements, scatter, random and shape-preserving operators; others under C18, C19, C21, C22, C29, C30, C32, C43, C47, C50. Counterexamples: Slice, Pad, Tile, GlobalAveragePool copy the input's static shape; Slice of a Shape with a negative step; Where with a longer condition."},
  {"property": "C15", "status": "partial", "theorems": ["OnnxIR.C15_inference_sound", "OnnxIR.C15_registry_partial", "OnnxIR.C15_element_types_partial", "OnnxIR.C15_compare_shapes_wrong", "OnnxIR.C15_onehot_elements_wrong", "OnnxIR.C15_random_like_elements_wrong", "OnnxIR.C15_element_types_sound"], "note": "Element types: C15_element_types_sound (induction over the rounds, any rules) and C15_element_types_partial (the rules of the table, within ElemLaw.Supported); three _wrong theorems for element types the library gets wrong."},
  {"property": "C16", "status": "partial", "theorems": ["OnnxIR.C16_broadcast_sound_partial", "OnnxIR.C16_static_shape_partial", "OnnxIR.C16_rank", "OnnxIR.C16_unknown_input_ignored", "OnnxIR.C16_rank_and_shape_disagree", "OnnxIR.C16_first_shape_wins", "OnnxIR.C16_equal_or_scalar", "OnnxIR.C16_two_operands"], "note": "Rank and static shape are true of ONNX broadcasting for any number of inputs when all tensors or none have a static shape and Shape inputs have equal length. Outside the guard the claim is false; three counterexamples."},
  {"property": "C17", "status": "proved", "theorems": ["OnnxIR.C17_merge_sound", "OnnxIR.C17_merge_informative", "OnnxIR.C17_merge_gains", "OnnxIR.C17_merge_idempotent", "OnnxIR.C17_flag_exact"], "note": "Merged annotation is true of every shape both are true of; nothing lost or invented; gains every dimension either knows; idempotent; returned flag exact."},
  {"property": "C18", "status": "partial", "theorems": ["OnnxIR.C18_reshape_static", "OnnxIR.C18_reshape_constant", "OnnxIR.C18_reshape_shape_partial", "OnnxIR.C18_shape_zero_wrong", "OnnxIR.C18_scalar_to_vector_wrong", "OnnxIR.C18_reshape_runtime", "OnnxIR.C18_noop_partial", "OnnxIR.C18_noop_constant", "OnnxIR.C18_noop_runtime_wrong"], "note": "Static, constant and runtime targets proved; the code is wrong for 0 in a Shape target and for scalar to vector, and for the no-op test with runtime targets (counterexamples proved)."},
  {"property": "C19", "status": "proved", "theorems": ["OnnxIR.C19_static_eq_runtime", "OnnxIR.C19_even_split", "OnnxIR.C19_explicit_sizes", "OnnxIR.C19_generated_split", "OnnxIR.C19_num_outputs_unchecked", "OnnxIR.C19_split_type"], "note": "Sizes, generated split and inferred types."},
  {"property": "C20", "status": "proved", "theorems": ["OnnxIR.C20_one_dim", "OnnxIR.C20_one_dim_total", "OnnxIR.C20_module_1d", "OnnxIR.C20_module_2d", "OnnxIR.C20_module_3d", "OnnxIR.C20_conv_attribute", "OnnxIR.C20_pool_attribute", "OnnxIR.C20_modes_known"], "note": "One axis of any length, and generated modules with one, two and three axes, for all four modes. Needs a right static input type and non-empty axes (an empty axis panics)."},
  {"property": "C21", "status": "partial", "theorems": ["OnnxIR.C21_conv1d_partial", "OnnxIR.C21_conv2d_partial", "OnnxIR.C21_conv3d_partial", "OnnxIR.C21_deformConv_partial", "OnnxIR.C21_avgPool", "OnnxIR.C21_maxPool_partial", "OnnxIR.C21_same_wrong", "OnnxIR.C21_maxPool_wrong", "OnnxIR.C21_convTranspose_wrong"], "note": "Convolutions (1D, 2D, 3D, deformable) with explicit padding, average pooling, and max pooling without static shape. False for SAME modes (inference ignores auto_pad), max pooling and transposed convolution (input shape copied)."},
  {"property": "C22", "status": "partial", "theorems": ["OnnxIR.C22_squeeze_axes", "OnnxIR.C22_squeeze_all_partial", "OnnxIR.C22_unknown_one_wrong", "OnnxIR.C22_runtime_axes_wrong", "OnnxIR.C22_unsqueeze", "OnnxIR.C22_round_trip"], "note": "Squeeze with axes and Unsqueeze agree with ONNX, and the round trip restores the static shape; Squeeze without axes needs known dimensions, and runtime axes are wrong (counterexamples proved)."},
  {"property": "C23", "status": "partial", "theorems": ["OnnxIR.C23_no_use_after_move_partial", "OnnxIR.C23_scalar_output_wrong", "OnnxIR.C23_duplicate_output_wrong", "OnnxIR.C25_outer_values_partial", "OnnxIR.C23_written_partial", "OnnxIR.C23_reordered_blocks", "OnnxIR.C23_lstm_states_wrong", "OnnxIR.C23_where_condition_wrong", "OnnxIR.C23_matmul_integer_wrong"], "note": "Proved for graphs without subgraph nodes, and (C25_outer_values_partial) for graphs with If and Loop bodies under the conditions stated there; outputs distinct, scalar outputs used by no node; counterexamples for the excluded cases."},
  {"property": "C24", "status": "partial", "theorems": ["OnnxIR.C24_clone_minimal_partial"], "note": "Proved for graphs without subgraph nodes whose nodes access every input once per mention."},
  {"property": "C25", "status": "partial", "theorems": ["OnnxIR.C25_if_both_branches_wrong", "OnnxIR.C25_if_branch_positions_wrong", "OnnxIR.C25_loop_initial_wrong", "OnnxIR.C25_loop_trip_count_wrong", "OnnxIR.C25_loop_same_result_wrong", "OnnxIR.C25_outer_values_partial", "OnnxIR.C25_loop_delay_wrong"], "note": "Proved for every graph with If and Loop nodes nested to any depth whose names are introduced once, in which a value captured by both branches is listed twice, loop initial values are not used otherwise, trip counts are native, body results are different tensors and no loop variable receives another one; every excluded case has a counterexample. Scan bodies are not represented."},
  {"property": "C26", "status": "partial", "theorems": ["OnnxIR.C26_loop_partial", "OnnxIR.C26_unlimited_partial", "OnnxIR.C26_swap_wrong", "OnnxIR.C26_condition_wrong", "OnnxIR.C26_scan_elements_partial", "OnnxIR.C26_scan_rank_wrong"], "note": "Proved for bodies whose carried outputs do not clobber one another (NoClobber), with known trip count or none; counterexamples show sequential variable update, condition read after update, and scan outputs concatenated instead of stacked."},
  {"property": "C27", "status": "partial", "theorems": ["OnnxIR.Fields.C27_records_match", "OnnxIR.Fields.C27_field_names_distinct_partial", "OnnxIR.Fields.C27_weight_has_one_field_partial", "OnnxIR.Fields.C27_code_reads_own_field_partial", "OnnxIR.Fields.C27_field_name_twice", "OnnxIR.Fields.C27_branch_reads_other_weights", "OnnxIR.Fields.C27_scan_body_field_missing"], "note": "The two traversals agree for every graph and nesting depth. Field names are distinct provided nested nodes are not named like nodes of the main graph, which imported names violate (C27_field_name_twice). Also proved: code of a nested node reads its own field only if all node names differ (C27_branch_reads_other_weights), Scan bodies get no fields."},
  {"property": "C28", "status": "partial", "theorems": ["OnnxIR.C28_shape_slice_partial", "OnnxIR.C28_empty_slice_panics", "OnnxIR.C28_negative_step_wrong"], "note": "Right for positive steps with start not after end; when the start is after the end the generated code panics, and for negative steps it is wrong whenever ONNX returns anything."},
  {"property": "C29", "status": "partial", "theorems": ["OnnxIR.C29_expand_constant_partial", "OnnxIR.C29_expand_runtime_partial", "OnnxIR.C29_target_one_wrong", "OnnxIR.C29_short_target_wrong", "OnnxIR.C56_expand_partial", "OnnxIR.C56_expand_empty_panics", "OnnxIR.C56_expand_device_scalar_panics"], "note": "Types and generated code; counterexamples for target 1, for short targets, for zero dimensions and for device scalars."},
  {"property": "C30", "status": "partial", "theorems": ["OnnxIR.C30_matmul_type_partial", "OnnxIR.C30_matmulinteger_type_partial", "OnnxIR.C30_matmul_value_partial", "OnnxIR.C30_vector_vector_wrong"], "note": "Type part, and value part: generated MatMul code aligns ranks and computes every dot product as ONNX defines, for all ranks but vector-vector, whose type is wrong (counterexample)."},
  {"property": "C31", "status": "partial", "theorems": ["OnnxIR.C31_cumsum", "OnnxIR.C31_runtime_axis_partial", "OnnxIR.C31_negative_runtime_axis_panics"], "note": "Constant axis: exact in all four modes and every rejected axis characterised (C31_cumsum), for associative and commutative addition. Run-time axis: exact for non-negative axes; a negative run-time axis, legal in ONNX, panics (C31_negative_runtime_axis_panics)."},
  {"property": "C32", "status": "partial", "theorems": ["OnnxIR.C32_reduce_axes_type", "OnnxIR.C32_reduce_all_drop_type", "OnnxIR.C32_reduce_all_keep_wrong", "OnnxIR.C32_reduce_runtime_axes_wrong", "OnnxIR.C32_reduce_node_partial", "OnnxIR.C32_reduce_values_partial", "OnnxIR.C32_reduce_bool", "OnnxIR.C32_logsumexp_partial", "OnnxIR.C32_all_axes_listed_panics", "OnnxIR.C32_int_mean_wrong", "OnnxIR.C32_logsumexp_drop_panics", "OnnxIR.C32_logsumexp_drop_wrong", "OnnxIR.C32_logsumexp_drop_square"], "note": "Types and values. The generated code of every reduction returns ONNX's result for all shapes, constant axes and both settings of keepdims, under guards shown necessary: all axes listed and dropped panics on the device (C32_all_axes_listed_panics), integer means over several axes truncate once per axis (C32_int_mean_wrong), ReduceLogSumExp with dropped axes panics or mixes rows. Type counterexamples for reducing all axes with keepdims and for runtime axes."},
  {"property": "C33", "status": "partial", "theorems": ["OnnxIR.C33_range_partial", "OnnxIR.C33_range_negative_wrong", "OnnxIR.C33_range_float_wrong", "OnnxIR.C33_mod_tensor", "OnnxIR.C33_mod_scalar_partial", "OnnxIR.C33_mod_scalar_wrong"], "note": "Range exact for integer operands and positive steps; every negative step and fractional constants proved wrong. Mod exact whenever an operand is on the device; for two native scalars exact under the guard, and proved wrong for fmod=0 with different signs."},
  {"property": "C34", "status": "partial", "theorems": ["OnnxIR.C34_sanitized_is_identifier_partial", "OnnxIR.C34_sanitize_idempotent", "OnnxIR.C34_sanitizeName_idempotent", "OnnxIR.C34_sanitized_characters", "OnnxIR.C34_sanitize_keeps_normal_names", "OnnxIR.C34_not_injective", "OnnxIR.C34_keyword", "OnnxIR.C34_empty"], "note": "sanitize_name: the result is [a-z0-9_] (plus uppercase rules as modelled), identifier-shaped when non-empty, and stable under re-sanitising. Fails in full: distinct names can collide (a.b, a/b), Rust keywords are returned unchanged (type), and ':' gives an empty name; each shown by a theorem."},
  {"property": "C35", "status": "proved", "theorems": ["OnnxIR.C35_registry_names_unique", "OnnxIR.C35_node_names_unique", "OnnxIR.C35_value_names_unique", "OnnxIR.C35_nested_names_repeat", "OnnxIR.C35_sibling_names_repeat"], "note": "Names are unique within one graph and across graphs sharing one registry. Graphs that do not share a registry (main graph vs its subgraphs, subgraphs of two control-flow nodes) do repeat names: C35_nested_names_repeat, C35_sibling_names_repeat."},
  {"property": "C36", "status": "partial", "theorems": ["OnnxIR.C36_import_preserves_meaning_partial", "OnnxIR.C36_sanitised_names_clash", "OnnxIR.C36_generated_name_clash", "OnnxIR.C36_input_shadows_output", "OnnxIR.C36_outer_output_dropped", "OnnxIR.C36_omitted_constant"], "note": "Proved under NamesOk (names stay apart after sanitising, no node output reuses a graph input name, outputs defined in the graph, ...) and freshness of generated names; each condition is shown necessary by a concrete graph on which the importer changes the result."},
  {"property": "C37", "status": "partial", "theorems": ["OnnxIR.C37_accepts_iff", "OnnxIR.C37_accepted_is_ordered_partial", "OnnxIR.C37_out_of_order_rejected", "OnnxIR.C37_valid_accepted", "OnnxIR.C37_self_loop_accepted"], "note": "The check accepts exactly the node lists in which no output of a node is read by an earlier node; every correctly ordered graph is accepted and every reversed edge rejected. Missing: self-loops are accepted (C37_self_loop_accepted), and reads inside subgraphs are not looked at."},
  {"property": "C38", "status": "partial", "theorems": ["OnnxIR.C38_extract_exact_partial", "OnnxIR.C38_if_exact", "OnnxIR.C38_loop_inputs_reported", "OnnxIR.C38_clash_missed"], "note": "For every nesting depth: references found = free names plus own formal inputs, when names stay apart after sanitising; exact for If nodes. False for Loop/Scan nodes (formal inputs reported) and for clashing names, both shown."},
  {"property": "C39", "status": "proved", "theorems": ["OnnxIR.Store.C39_ids_fresh", "OnnxIR.Store.C39_read_back", "OnnxIR.Store.C39_unknown_id", "OnnxIR.Store.C39_name_lookup", "OnnxIR.Store.C39_constant_node", "OnnxIR.Store.C39_snapshots_agree", "OnnxIR.Store.C39_to_static", "OnnxIR.Store.C39_attach_keeps_value", "OnnxIR.Store.C39_finalize_keeps_static", "OnnxIR.Store.C39_finalize_same_graph", "OnnxIR.Store.C39_captured_constant_forgotten"], "note": "Store of constants, Constant nodes, initializers, snapshots and finalisation. Reading back by id or name gives the tensor that was stored; ids are never reused. Captured constants that a subgraph reads by name after post-processing become unknown (never a wrong tensor): C39_captured_constant_forgotten."},
  {"property": "C40", "status": "partial", "theorems": ["OnnxIR.Decode.C40_raw_decoded", "OnnxIR.Decode.C40_typed_decoded", "OnnxIR.Decode.C40_raw_same_as_typed", "OnnxIR.Decode.C40_external_decoded", "OnnxIR.Decode.C40_count_partial", "OnnxIR.Decode.C40_external_default_length", "OnnxIR.Decode.C40_supported_accepted", "OnnxIR.Decode.C40_shape_kept", "OnnxIR.Decode.C40_count_unchecked", "OnnxIR.Decode.C40_negative_dim_accepted", "OnnxIR.Decode.C40_out_of_range_wraps", "OnnxIR.Decode.C40_raw_bool_unchecked"], "note": "Raw, typed and external elements are decoded faithfully for every element type and list. The element count is not checked against the dims (C40_count_unchecked); what holds is C40_count_partial and C40_external_default_length."},
  {"property": "C41", "status": "partial", "theorems": ["OnnxIR.Ext.C41_contained_partial", "OnnxIR.Ext.C41_bytes", "OnnxIR.Ext.C41_rejects", "OnnxIR.Ext.C41_no_links", "OnnxIR.Ext.C41_bare_name_escapes", "OnnxIR.Ext.C41_late_link_escapes"], "note": "Against a small model of Unix paths and links. Two real gaps, proved as counterexamples: a model given by bare file name skips the link check, and the file is opened lazily so a link created after import is followed."},
  {"property": "C42", "status": "partial", "theorems": ["OnnxIR.C42_one_axis_partial", "OnnxIR.C42_two_axes_partial", "OnnxIR.C42_three_axes_partial", "OnnxIR.C42_transpose_partial", "OnnxIR.C42_malformed_wrong"], "note": "Lists of the right length, for convolution/pooling and transposed convolution. Over-long lists and negative 1D transposed padding are accepted, shown as counterexample."},
  {"property": "C43", "status": "partial", "theorems": ["OnnxIR.C43_generated_value", "OnnxIR.C43_type_matches_code", "OnnxIR.C43_defined_iff", "OnnxIR.C43_no_clamping", "OnnxIR.C43_shape_of_shape_wrong", "OnnxIR.C43_shape_of_shape"], "note": "Values and types of the generated Shape code; Shape of a Shape is wrong when start/end are set (counterexample)."},
  {"property": "C44", "status": "proved", "theorems": ["OnnxIR.C44_fixed_point", "OnnxIR.C44_rounds"], "note": "For every topologically ordered graph with distinct output names (what ONNX requires of a file) and every set of rules: at most ten rounds, and on every exit each node's output types are what its rule gives for its final inputs; if the exit is early, all preferences have been taken into account."},
  {"property": "C45", "status": "partial", "theorems": ["OnnxIR.C45_interface_partial", "OnnxIR.C45_default_input_dropped", "OnnxIR.C45_unknown_output_dropped", "OnnxIR.C45_product_output_dropped"], "note": "Parameters are exactly the graph inputs without an initializer, in order, under sanitised names; as many results as outputs when each output is defined. Counterexamples: inputs with a default are not parameters, undefined outputs are dropped silently."},
  {"property": "C46", "status": "partial", "theorems": ["OnnxIR.Boundary.C46_boundary_partial", "OnnxIR.Boundary.C46_signature", "OnnxIR.Boundary.C46_well_typed", "OnnxIR.Boundary.C46_repeated_scalar_output"], "note": "Signature types, values crossing and well-typedness for every input/output list with distinct input names and no scalar output listed twice; a scalar listed twice as an output is converted twice (counterexample)."},
  {"property": "C47", "status": "partial", "theorems": ["OnnxIR.C47_gather_tensor", "OnnxIR.C47_gather_shape_partial", "OnnxIR.C47_gather_shape_tensor_indices_wrong", "OnnxIR.C47_concat_partial", "OnnxIR.C47_concat_unknown_length_wrong", "OnnxIR.C47_gathernd_value", "OnnxIR.C47_gathernd_scalar", "OnnxIR.C47_gathernd_type", "OnnxIR.C47_argmax_type", "OnnxIR.C47_topk_type", "OnnxIR.C47_onehot_type"], "note": "Gather, Concat, GatherND, ArgMax/ArgMin, TopK, OneHot output types; GatherND values; counterexamples for Shape inputs of Gather and Concat."},
  {"property": "C48", "status": "proved", "theorems": ["OnnxIR.C48_depth_to_space", "OnnxIR.C48_space_to_depth", "OnnxIR.C48_depth_to_space_unique", "OnnxIR.C48_inverse", "OnnxIR.C48_depth_to_space_type", "OnnxIR.C48_space_to_depth_type", "OnnxIR.C48_space_to_depth_unique"], "note": "Generated code against an element-by-element specification, for every block size, shape and element type; inferred types; inverse."},
  {"property": "C49", "status": "proved", "theorems": ["OnnxIR.C49_check_exact", "OnnxIR.C49_count_is_the_files", "OnnxIR.C49_whole_graph", "OnnxIR.C49_forged_count", "OnnxIR.C49_negative_opset"], "note": "Exact for the counts the importer sees, at node level and for the whole inference phase. C49_forged_count: the private attribute __onnx_input_count is trusted when the file sets it itself; C49_negative_opset: a negative opset version wraps around."},
  {"property": "C50", "status": "partial", "theorems": ["OnnxIR.C50_flatten_type", "OnnxIR.C56_flatten_partial", "OnnxIR.C56_flatten_empty_panics"], "note": "Types for every axis; the generated code agrees with ONNX unless a dimension before the axis is zero, where it panics (counterexample)."},
  {"property": "C51", "status": "partial", "theorems": ["OnnxIR.C51_conv", "OnnxIR.C51_maxPool", "OnnxIR.C51_avgPool_partial", "OnnxIR.C51_avgPool_dilation_wrong"], "note": "Max pooling and convolution carry all attributes; average pooling loses the dilation."},
  {"property": "C52", "status": "partial", "theorems": ["OnnxIR.C52_import_preserves_meaning_partial"], "note": "End-to-end composition of conversion with fusion (C36, C13), constant lifting, inference, C11, C09 and C12. Partial: FileOk (names stay apart, no omitted outputs), FusionOk (see C13) and PhasesOk (no-ops are no-ops, annotations right, passes in the situations in which they are right)."},
  {"property": "C53", "status": "proved", "theorems": ["OnnxIR.C53_gemm_value"], "note": "For all shapes, factors, flags and arithmetic."},
  {"property": "C54", "status": "partial", "theorems": ["OnnxIR.C54_noop_returns_input_partial", "OnnxIR.C54_expand_inferred", "OnnxIR.C54_elimination_preserves_outputs_partial", "OnnxIR.NoopCase.C54_mask_lost", "OnnxIR.NoopCase.C54_training_dropped", "OnnxIR.NoopCase.C54_shape_cast_wrong"], "note": "Every override of is_noop is modelled; a node that passes the test returns its first input in every run with right annotations, and removing such nodes preserves outputs. Excluded, with counterexamples: Dropout with a mask output, Dropout in training mode, Reshape with a run-time target and several unknown dimensions (C18_noop_runtime_wrong), Cast of a Shape to a narrow integer type (the inferred annotation is wrong)."},
  {"property": "C55", "status": "partial", "theorems": ["OnnxIR.C55_binary_partial", "OnnxIR.C55_add_int_partial", "OnnxIR.C55_sub_int_partial", "OnnxIR.C55_mul_int_partial", "OnnxIR.addCode_computes", "OnnxIR.subCode_computes", "OnnxIR.mulCode_computes", "OnnxIR.divCode_computes", "OnnxIR.equalCode_computes", "OnnxIR.greaterCode_computes", "OnnxIR.greaterEqualCode_computes", "OnnxIR.lessCode_computes", "OnnxIR.lessEqualCode_computes", "OnnxIR.andCode_computes", "OnnxIR.orCode_computes", "OnnxIR.xorCode_computes", "OnnxIR.bitwiseCode_computes", "OnnxIR.bitshiftCode_computes", "OnnxIR.pairCode_computes", "OnnxIR.C55_shape_lengths_wrong", "OnnxIR.C55_saturates", "OnnxIR.C55_div_by_zero", "OnnxIR.C55_shape_with_matrix_wrong", "OnnxIR.C55_compare_shape_native_panics", "OnnxIR.C55_bitshift_rank_wrong", "OnnxIR.C55_min_native_panics"], "note": "Proved for all arms the generator has whose result fits the inferred type (Handles), all ranks, shapes and values; arrays need equal lengths and results inside i64. Disagreements proved: arrays of different lengths, array with a matrix, comparison of an array with a scalar, BitShift across ranks, Min/Max with native numbers, saturation and division by zero of arrays."},
  {"property": "C56", "status": "partial", "theorems": ["OnnxIR.C56_squeeze_axes", "OnnxIR.C56_squeeze_all_partial", "OnnxIR.C56_unsqueeze_partial", "OnnxIR.C56_transpose", "OnnxIR.C56_reshape_partial", "OnnxIR.C56_reshape_runtime_partial", "OnnxIR.C56_flatten_partial", "OnnxIR.C56_expand_partial", "OnnxIR.C56_squeeze_unknown_one_panics", "OnnxIR.C56_reshape_native_panics", "OnnxIR.C56_unsqueeze_native_panics", "OnnxIR.C56_allowzero_panics", "OnnxIR.C56_runtime_target_panics", "OnnxIR.C56_flatten_empty_panics", "OnnxIR.C56_expand_empty_panics", "OnnxIR.C56_expand_device_scalar_panics"], "note": "Squeeze with axes and Transpose for all inputs that the type rule accepts. Others under exact guards: Squeeze without axes needs known dimensions; Unsqueeze at most one negative axis and scalars with one axis; Reshape no 0 under allowzero, no zero dimension next to -1; Flatten no zero before the axis; Expand no zero dimension, target at least as long as the input's rank. The excluded cases are proved to panic, except Unsqueeze with several negative axes, whose meaning in Burn is not in the repository."},
  {"property": "C57", "status": "partial", "theorems": ["OnnxIR.C57_concat_partial", "OnnxIR.C57_shape_tensor_fails", "OnnxIR.C57_device_scalar_fails", "OnnxIR.C57_scalar_first_panics"], "note": "Proved for all numbers of inputs, axes, shapes and values under ConcatOk (no on-device scalars among the inputs, tensors and arrays not mixed, a negative axis needs a non-scalar first input). Outside the guard the generated code fails or the generator panics: C57_shape_tensor_fails, C57_device_scalar_fails, C57_scalar_first_panics."},
  {"property": "C58", "status": "partial", "theorems": ["OnnxIR.C58_where_partial", "OnnxIR.C58_sum_partial", "OnnxIR.C58_mean_partial", "OnnxIR.C58_clip_partial", "OnnxIR.C58_pow_partial", "OnnxIR.C58_where_fill_panics", "OnnxIR.C58_where_array_condition_fails", "OnnxIR.C58_where_vector_arrays_panics", "OnnxIR.C58_where_lengths_fails", "OnnxIR.C58_where_device_condition_wrong", "OnnxIR.C58_sum_ranks_fails", "OnnxIR.C58_mean_natives_fails", "OnnxIR.C58_clip_panics", "OnnxIR.C58_clip_native_fails"], "note": "Where, Sum, Mean, Clip and Pow proved for all shapes and values under the guards WhereOk, SumOk (one rank, no arrays), constant ordered bounds on a device value, no arrays for Pow. Outside them the code fails or is wrong, shown by the _fails/_panics/_wrong theorems. Integer powers are taken as one function pow."},
  {"property": "C59", "status": "partial", "theorems": ["OnnxIR.C59_gather_partial", "OnnxIR.C59_gather_elements_partial", "OnnxIR.C59_gather_shape_tensor_panics", "OnnxIR.C59_gather_shape_i32_fails"], "note": "Proved for Gather on tensors (all index kinds) and arrays of sizes, and for GatherElements with indices of the shape of the data outside the axis (ONNX also allows smaller ones: outside what is documented of Burn's gather). Missing: several indices in a tensor into an array of sizes (panics, proved) and i32 scalar indices into an array (does not compile, proved); negative indices in a tensor rely on Burn reading them as ONNX does (a hypothesis)."},
  {"property": "C60", "status": "partial", "theorems": ["OnnxIR.C60_slice_partial", "OnnxIR.C60_slice_negative_step_wrong", "OnnxIR.C60_slice_runtime_steps_ignored", "OnnxIR.C60_slice_static_bounds_runtime_steps_panics", "OnnxIR.C60_slice_runtime_axes_ignored", "OnnxIR.C60_slice_mixed_axes_ignored", "OnnxIR.C60_slice_tensor_array_one_dim", "OnnxIR.C60_slice_tensors_without_axes_panics", "OnnxIR.C60_slice_scalar_start_panics", "OnnxIR.C60_slice_device_scalars_fail", "OnnxIR.C60_slice_large_end_panics", "OnnxIR.C60_slice_empty_panics"], "note": "Proved under SliceOk (constant bounds with positive steps; run-time bounds with steps of one; see the definition). Outside it the code is wrong or fails, each with a proved witness."},
  {"property": "C61", "status": "partial", "theorems": ["OnnxIR.C61_argmax", "OnnxIR.C61_topk_partial", "OnnxIR.C61_softmax_partial", "OnnxIR.C61_hardmax_partial", "OnnxIR.C61_hardmax_old_opset_wrong", "OnnxIR.C61_softmax_old_opset_wrong", "OnnxIR.C61_topk_smallest_refused", "OnnxIR.C61_topk_runtime_panics"], "note": "ArgMax proved for every configuration the importer accepts. Missing: Softmax, LogSoftmax and Hardmax of operator sets below 13 unless only sizes of one follow the axis (wrong otherwise, proved); TopK of the smallest elements (refused) and with k known at run time only (panics). Burn's choice among equal elements is a hypothesis."},
  {"property": "C62", "status": "partial", "theorems": ["OnnxIR.C62_pad_partial", "OnnxIR.C62_tile_partial", "OnnxIR.C62_trilu_partial", "OnnxIR.C62_trilu_runtime_ignored", "OnnxIR.C62_onehot_partial", "OnnxIR.C62_onehot_fraction_truncated", "OnnxIR.C62_onehot_depth_panics", "OnnxIR.C62_nonzero", "OnnxIR.C62_pad_refused", "OnnxIR.C62_pad_runtime_panics", "OnnxIR.C62_pad_negative_refused", "OnnxIR.C62_pad_infinite_fails", "OnnxIR.C62_tile_runtime_panics"], "note": "Pad and Tile proved for constant pads and repeats, Trilu for constant diagonals, OneHot for constant depth and values with indices in range, NonZero in full. Missing: what the importer refuses (axes, negative or run-time pads), infinite constants (do not compile), run-time diagonals (wrong, proved), fractional values with integer indices (wrong, proved), indices out of range."},
  {"property": "C63", "status": "partial", "theorems": ["OnnxIR.C63_scatternd_partial", "OnnxIR.C63_scatter_elements_partial", "OnnxIR.C63_scatter_infinite_wrong", "OnnxIR.C63_scatter_bool_panics"], "note": "ScatterND proved for every reduction on slices that are not empty; ScatterElements for every reduction. Missing: without reduction ScatterElements adds the difference, which is only right where x + (u - x) = u (an infinite element becomes not-a-number, proved); indices smaller than the data outside the axis with none and add (outside what Burn documents); reductions of booleans (panic, proved)."},
  {"property": "C64", "status": "partial", "theorems": ["OnnxIR.C64_lstm_partial", "OnnxIR.C64_lstm_batch_first_partial", "OnnxIR.C64_rnn_partial", "OnnxIR.C64_rnn_batch_first_partial", "OnnxIR.C64_gru_partial", "OnnxIR.C64_gru_batch_first_partial", "OnnxIR.C64_lstm_one_state_ignored", "OnnxIR.C64_lstm_one_state_wrong", "OnnxIR.C64_batch_first_y_wrong", "OnnxIR.C64_batch_first_state_wrong", "OnnxIR.C64_batch_first_initial_fails", "OnnxIR.C64_clip_wrong", "OnnxIR.C64_alpha_ignored", "OnnxIR.C64_alpha_wrong", "OnnxIR.C64_one_unit_panics", "OnnxIR.C64_weights_not_read", "OnnxIR.C64_gru_options_panic", "OnnxIR.C64_activation_panics", "OnnxIR.C64_clip_nonpositive_ignored"], "note": "Proved for layout 0 and all directions (GRU also Y in layout 1, LSTM and RNN bidirectional Y in layout 1) with at least two features and units, no clip, default activation parameters, activations the modules have. Refuted: layout 1 outputs and initial states, clip, activation_alpha/beta, one of initial_h/initial_c alone, one feature or unit."},
  {"property": "C65", "status": "partial", "theorems": ["OnnxIR.C65_unary_partial", "OnnxIR.C65_unary_fails", "OnnxIR.C65_round_wrong", "OnnxIR.C65_not_partial", "OnnxIR.C65_not_fails", "OnnxIR.C65_act_partial", "OnnxIR.C65_selu_partial", "OnnxIR.C65_selu_error", "OnnxIR.C65_selu_refused", "OnnxIR.C65_gelu_approximate_ignored", "OnnxIR.C65_gelu_approximate_wrong", "OnnxIR.C65_act_fails", "OnnxIR.C65_isnan_partial", "OnnxIR.C65_isinf_partial", "OnnxIR.C65_isinf_scalar_panics", "OnnxIR.C65_prelu_partial", "OnnxIR.C65_prelu_last_wrong", "OnnxIR.C65_prelu_full_panics", "OnnxIR.C65_prelu_runtime_panics"], "note": "Proved: every unary operator on tensors and device scalars and, except Erf, Log, Sign and Round, on native scalars; every activation on floating-point device values (Selu when Burn's constants are the attributes, with an error bound otherwise; Gelu without approximation); IsNaN; IsInf except on scalar tensors; PRelu with one slope or one per channel. The remaining cases fail, with witnesses."},
  {"property": "C66", "status": "partial", "theorems": ["OnnxIR.C66_batch_norm_partial", "OnnxIR.C66_batch_norm_default_epsilon_wrong", "OnnxIR.C66_batch_norm_training_wrong", "OnnxIR.C66_group_norm_partial", "OnnxIR.C66_group_norm_per_group_panics", "OnnxIR.C66_instance_norm_partial", "OnnxIR.C66_computed_parameters_panic", "OnnxIR.C66_layer_norm_partial", "OnnxIR.C66_layer_norm_axis_refused", "OnnxIR.C66_layer_norm_axis_wrong", "OnnxIR.C66_layer_norm_matrix_scale_panics", "OnnxIR.C66_layer_norm_bias_panics"], "note": "BatchNormalization (constant or computed parameters) with an epsilon given, Instance- and GroupNormalization with constant parameters for each channel, LayerNormalization over the last axis. Refuted: missing epsilon, training mode, per-group scales, computed parameters, other axes."},
  {"property": "C67", "status": "partial", "theorems": ["OnnxIR.C67_constant_partial", "OnnxIR.C67_constant_panics", "OnnxIR.C67_constant_of_shape_partial", "OnnxIR.C67_constant_of_shape_value_wrong", "OnnxIR.C67_eye_like"], "note": "Constants of the readable element types at every representation, ConstantOfShape with positive sizes and f32/f64/i32/i64/bool values, EyeLike for every type. Refuted: other element types. Size has no compiling code and no model. Sizes 0 are left open (Burn's expand)."},
  {"property": "C68", "status": "partial", "theorems": ["OnnxIR.C68_cast_partial", "OnnxIR.C68_int_to_double_wrong", "OnnxIR.C68_cast_shape_partial", "OnnxIR.C68_shape_narrow_wrong", "OnnxIR.C68_native_partial", "OnnxIR.C68_native_fails", "OnnxIR.C68_native_narrow_wrong"], "note": "Tensors, device scalars and shapes under explicit representability conditions; the exact set of native casts that work. Refuted: integers to f64 through f32, narrowing of shapes and native integers, other native casts."},
  {"property": "C69", "status": "partial", "theorems": ["OnnxIR.C69_matmul_integer_partial", "OnnxIR.C69_row_zero_point_wrong", "OnnxIR.C69_row_zero_point_panics", "OnnxIR.C69_host_zero_point_fails"], "note": "Missing: a zero point for each row of the first operand (subtracted from the columns when the operand is square, a panic otherwise), zero points with batch dimensions, and the product of two vectors; the sum of products is a parameter, 32-bit overflow is not modelled."},
  {"property": "C70", "status": "partial", "theorems": ["OnnxIR.C70_nearest_partial", "OnnxIR.C70_linear_partial", "OnnxIR.C70_nearest_mode_ignored", "OnnxIR.C70_coordinates_ignored", "OnnxIR.C70_pytorch_ignored", "OnnxIR.C70_batch_scale_ignored", "OnnxIR.C70_nearest_reduced_wrong", "OnnxIR.C70_scale_wrong", "OnnxIR.C70_default_mode_refused", "OnnxIR.C70_rank_fails", "OnnxIR.C70_runtime_rank_fails", "OnnxIR.C70_attributes_refused"], "note": "Values of nearest and linear modes, given Burn's coordinates, where batch and channels are kept and the scale is the quotient of the lengths. Missing: cubic mode, the coordinate modes tf_crop_and_resize and half_pixel_symmetric, opset 10. The property fails where attributes are ignored, for reduced lengths, uneven scales, other ranks, and a missing mode; each failure is a theorem."},
  {"property": "C71", "status": "partial", "theorems": ["OnnxIR.C71_scan_partial", "OnnxIR.C71_previous_value_wrong", "OnnxIR.C71_swap_wrong", "OnnxIR.C71_negative_axis_panics", "OnnxIR.C71_scalar_elements_panic", "OnnxIR.C71_empty_panics"], "note": "Proved for all bodies, lengths and directions when the axes are not negative, elements have an axis of their own, and no assignment overwrites a value that a later assignment or a scan output reads. Missing: the code is wrong when carried values are exchanged and when a scan output is a carried input, and panics for negative axes, scalar elements and empty sequences (proved); opset 8 and bodies with parameters (C27) are not covered."},
  {"property": "C72", "status": "partial", "theorems": ["OnnxIR.C72_attention_partial", "OnnxIR.C72_scores_partial", "OnnxIR.C72_mask_ignored", "OnnxIR.C72_mask_matters", "OnnxIR.C72_rank3_mask_wrong", "OnnxIR.C72_uncapped_scores_fail", "OnnxIR.C72_bool_mask_fails", "OnnxIR.C72_scores_without_cache_refused", "OnnxIR.C72_precision_refused", "OnnxIR.C72_grouped_heads_panic"], "note": "Proved for ranks 3 and 4 with a cache or without, all masks that can be broadcast of rank 2 or 4 (rank 3 with one head), all scales; with scores as an output also for all output modes and caps, rows without a key excepted. Missing: masks are ignored when attention is causal, masks of rank 3 are aligned with the batch, capping after mode 2 without a cap, Boolean masks of other ranks and grouped heads fail when scores are returned, scores without a cache and softmax_precision are refused (proved); Burn's function is not assumed to order capping and masking, nor causal masks of unequal lengths, nor grouped heads."},
  {"property": "C73", "status": "partial", "theorems": ["OnnxIR.C73_col2im_partial", "OnnxIR.C73_int_fails", "OnnxIR.C73_three_dims_refused", "OnnxIR.C73_dynamic_refused"], "note": "Proved for one and two spatial dimensions, all sizes, strides, dilations and paddings, with attributes given or left out, for elements of any commutative addition. Missing: three and more dimensions and shapes computed at run time are refused, tensors of integers and Booleans do not compile (proved); negative entries are not modelled."},
  {"property": "C74", "status": "partial", "theorems": ["OnnxIR.C74_uniform_partial", "OnnxIR.C74_normal_partial", "OnnxIR.C74_uniform_like_partial", "OnnxIR.C74_normal_like_partial", "OnnxIR.C74_bernoulli_partial", "OnnxIR.C74_bernoulli_probability", "OnnxIR.C74_dtype_ignored", "OnnxIR.C74_double_wrong", "OnnxIR.C74_like_dtype_ignored", "OnnxIR.C74_like_declared_wrong", "OnnxIR.C74_bernoulli_dtype_wrong", "OnnxIR.C74_half_refused"], "note": "All five operators, for every generator and the element types where the code agrees with ONNX. False when dtype differs from what the code draws in: shown as counterexamples. The attribute seed is not read."},
  {"property": "C75", "status": "partial", "theorems": ["OnnxIR.C75_conv1d_partial", "OnnxIR.C75_conv2d_partial", "OnnxIR.C75_conv3d_partial", "OnnxIR.C75_empty_bias_fails", "OnnxIR.C75_maxPool1d_partial", "OnnxIR.C75_maxPool2d_partial", "OnnxIR.C75_avgPool1d_partial", "OnnxIR.C75_avgPool2d_partial", "OnnxIR.C75_globalAveragePool_partial", "OnnxIR.C75_globalAveragePool_refused", "OnnxIR.C75_convTranspose_partial", "OnnxIR.C75_convTranspose_refused", "OnnxIR.C75_avgPool_dilation_wrong", "OnnxIR.C75_conv3d_asymmetric_panics"], "note": "For every Conv (1, 2 and 3 axes), ConvTranspose (1 to 3 axes), MaxPool and AveragePool (1 and 2 axes) and GlobalAveragePool node: shape and every element, for all groups, strides, dilations, paddings and modes. Excluded because the code fails or is wrong there: an empty bias name, three axes with asymmetric padding, AveragePool with dilation, GlobalAveragePool with other ranks, ConvTranspose with auto_pad or asymmetric padding; the SAME modes need a known static shape. Not modelled: values with ceil_mode, and asymmetric padding that AveragePool does not count."},
  {"property": "C76", "status": "partial", "theorems": ["OnnxIR.C76_deformConv_partial", "OnnxIR.C76_gridSample_partial", "OnnxIR.C76_gridSample_rank_fails"], "note": "DeformConv: shape and every element for all groups, offset groups, masks, biases, strides and dilations with the same padding at both ends (Burn's behaviour for other padding is not assumed). GridSample with two spatial axes: the options passed, for any meaning of the options (Burn's interpolation itself is trusted); with more axes the generated code does not compile."},
  {"property": "C77", "status": "partial", "theorems": ["OnnxIR.C77_attribute_loops", "OnnxIR.C77_attribute_values", "OnnxIR.C77_first_attribute", "OnnxIR.C77_pads_and_paddings_wrong", "OnnxIR.C77_captured_values_partial", "OnnxIR.C77_captured_inputs_partial", "OnnxIR.C77_captured_values_wrong", "OnnxIR.C77_generated_text_wrong", "OnnxIR.C77_sorted_attributes", "OnnxIR.C77_imports", "OnnxIR.C77_noop_plan", "OnnxIR.C77_noop_rewiring"], "note": "Proved for all iteration orders: every one of the 73 attribute loops gives the same configuration; the plan and the rewiring of no-op elimination; sorted attributes and imports; the values captured by bodies, when no outer variable is called like another captured name. Proved to fail: with such a name (the body reads a wrong value, different per order), for the text of the generated code (order of captured inputs), and for Pad with both pads and paddings."},
  {"property": "C78", "status": "partial", "theorems": ["OnnxIR.C78_scalar_constants", "OnnxIR.C78_shape_constants", "OnnxIR.C78_constant_forms", "OnnxIR.C78_device_constants", "OnnxIR.C78_shared_constant_refused"], "note": "Proved for every graph whose inference converges, except that a constant has one form for all its consumers: C78_shared_constant_refused is a graph that is refused because one vector is used beside a shape and by MatMul. Bodies of control-flow nodes do not ask for forms of outer constants and are not covered."},
  {"property": "C79", "status": "partial", "theorems": ["OnnxIR.C79_names", "OnnxIR.C79_no_confusion", "OnnxIR.C79_accepted", "OnnxIR.C79_refused", "OnnxIR.C79_code_partial", "OnnxIR.C79_placeholder_panics", "OnnxIR.C79_domain_ignored_wrong", "OnnxIR.C79_nonstandard_accepted_wrong", "OnnxIR.C79_window_axes", "OnnxIR.C79_computed_weights_panics", "OnnxIR.C79_three_axes_pooling_panics", "OnnxIR.C79_documented_partial", "OnnxIR.C79_documented_wrong", "OnnxIR.C79_opset", "OnnxIR.C79_opset_alias_refused"], "note": "The code disagrees with the property in the ways the _wrong, _panics and _refused theorems show: the domain is ignored, names are matched up to case and internal names are accepted, three placeholder operators are accepted and panic during generation, convolutions with computed weights and poolings over three axes panic, the alias ai.onnx is refused, and one documented name does not exist."},
  {"property": "C80", "status": "partial", "theorems": ["OnnxIR.C80_forward_partial", "OnnxIR.C80_model_partial", "OnnxIR.WholeModelExample.C80_scalar_output_wrong"], "note": "Composition proved for every graph without control flow over faithful node code (C80_forward_partial); concrete for 127 operators under the guards in Supported (C80_model_partial); that no input is named like a local variable of the code of its node is an explicit hypothesis (NamesFree, C81). Missing: operators outside the list, nodes with subgraphs, scalar outputs that a node uses too (proved not to compile), Where and ScatterND with one value as two operands (proved not to compile)."},
  {"property": "C81", "status": "partial", "theorems": ["OnnxIR.C81_operands_denoted", "OnnxIR.C81_node_outputs", "OnnxIR.C81_graph_inputs_partial", "OnnxIR.C81_graph_inputs_wrong", "OnnxIR.C81_attention_wrong", "OnnxIR.C81_body_partial", "OnnxIR.C81_body_node_outputs", "OnnxIR.C81_left_variable_wrong", "OnnxIR.C81_reshape_input_wrong"], "note": "Names given by the importer never collide with local variables of the modelled blocks, nor with variables left in the body (C81_body_partial, C81_body_node_outputs); graph inputs can (C81_graph_inputs_wrong, C81_attention_wrong, C81_left_variable_wrong). Blocks of control flow nodes are not modelled as texts."},
  {"property": "C82", "status": "partial", "theorems": ["OnnxIR.C82_embedded_partial", "OnnxIR.C82_embedded_again", "OnnxIR.C82_prelu_slope_panics", "OnnxIR.C82_run_time_operands", "OnnxIR.C82_is_lifting"], "note": "Missing: a constant whose node has no tensor, and value stores that are not attached; a run-time slope of PRelu panics (C82_prelu_slope_panics)."},
  {"property": "C83", "status": "partial", "theorems": ["OnnxIR.C83_split_sizes_partial", "OnnxIR.C83_split_even_partial", "OnnxIR.C83_runtime_sizes_panics"], "note": "Explicit sizes and even splits proved for every shape, axis and number of outputs (C83_split_sizes_partial, C83_split_even_partial). Missing: empty pieces, whose treatment by Burn is not documented; sizes only known at run time make code generation panic (C83_runtime_sizes_panics)."},
  {"property": "C84", "status": "partial", "theorems": ["OnnxIR.C84_file_to_forward_partial"], "note": "C52 and C80 composed for every file without control flow over the 127 operators of C80. Missing: files with control flow or other operators; the guards of C52 and C80 (annotations right, constants known rightly, per-operator guards, names) are hypotheses."},
  {"property": "C85", "status": "partial", "theorems": ["OnnxIR.Decode.C85_declared_exact_partial", "OnnxIR.Decode.C85_declared_supported", "OnnxIR.Decode.C85_input_partial", "OnnxIR.Decode.C85_node_output_partial", "OnnxIR.Decode.C85_value_info_partial", "OnnxIR.Decode.C85_outer_scope", "OnnxIR.Decode.C85_unknown_rank_wrong", "OnnxIR.Decode.C85_unsupported_input_wrong", "OnnxIR.Decode.C85_renamed_output_ignored"], "note": "Exact for declarations with a shape; an absent shape, unsupported input types and renamed outputs are proved to be read wrongly."},
  {"property": "C86", "status": "partial", "theorems": ["OnnxIR.Decode.C86_attributes_partial", "OnnxIR.Decode.C86_scalar_values", "OnnxIR.Decode.C86_int32_partial", "OnnxIR.Decode.C86_int32_wraps", "OnnxIR.Decode.C86_external_tensor_panics", "OnnxIR.Decode.C86_kind_panics", "OnnxIR.Decode.C86_bytes_panic", "OnnxIR.Decode.C86_graph_of_other_operator_ignored"], "note": "All kinds the importer knows with data in the file itself; external tensors, sparse tensors, types and non-UTF-8 text are proved to panic, subgraphs of other operators to be dropped."},
  {"property": "C87", "status": "partial", "theorems": ["OnnxIR.Driver.C87_files_partial", "OnnxIR.Driver.C87_crash_partial", "OnnxIR.Driver.C87_success", "OnnxIR.Driver.C87_dotted_names_wrong", "OnnxIR.Driver.C87_same_name_wrong", "OnnxIR.Driver.C87_stale_source_wrong"], "note": "For inputs n.onnx with different names n without dots. Dotted names and equal names in different directories overwrite each other, and an interrupted rerun can leave old code with new weights: proved. Stated of the names in the output directory; what is in a source or weights file is a parameter."},
  {"property": "C88", "status": "partial", "theorems": ["OnnxIR.Nested.C88_results_partial", "OnnxIR.Nested.C88_only_used", "OnnxIR.Nested.C88_rest_kept", "OnnxIR.Nested.C88_unmarked_wrong", "OnnxIR.Nested.C88_import_marks", "OnnxIR.Nested.C88_import_outer_marks"], "note": "Proved for every nesting depth under the hypothesis that arguments reading a constant are marked as constants; that the hypothesis is needed is shown, and that the importer marks them, in one graph and for constants of the enclosing graph. The two are not composed: import is modelled graph by graph, and folding (which marks again, C07, C08) comes between."},
  {"property": "C89", "status": "partial", "theorems": ["OnnxIR.Captured.C89_captured_partial", "OnnxIR.Captured.C89_own_input_wrong"], "note": "Proved for values whose name is not that of one of the node's own inputs; for the others the type is proved to be forgotten (a disagreement, see DESIGN.md)."},
  {"property": "C90", "status": "partial", "theorems": ["OnnxIR.Lit.C90_integers", "OnnxIR.Lit.C90_arrays", "OnnxIR.Lit.C90_floats", "OnnxIR.Lit.C90_other_floats_partial", "OnnxIR.Lit.C90_not_finite_wrong"], "note": "Integers, integer lists and the two float functions proved for all numbers; the debug format, quoted floats and padding values proved for finite floats and proved wrong for all others."}
]}
