# Axioms of each theorem

Output of `#print axioms`, grouped. No theorem depends on anything else.

## none (4)

`C45_two_proofs`
`C45_one_proof`
`C58_try_collect`
`C99_empty`

## propext (16)

`C37_squeeze_new`
`C37_resume_then_absorb_differs`
`C40_constructors`
`C40_wraps_fails`
`C58_convert`
`C84_determined`
`C84_promote`
`C84_attributes`
`C84_fields`
`C99_option`
`C99_always`
`C99_leak_fails`
`C100_kind`
`C100_array_fails`
`C100_impl`
`C101_fixed_length`

## propext, Quot.sound (76)

`C01_dot_panics`
`C02_factor_iter`
`C02_factor_panics`
`C06_fft_panics`
`C08_mul`
`C08_add`
`C08_from`
`C08_is_zero`
`C09_trimmed`
`C15_monomials`
`C26_new`
`C26_final`
`C27_sum`
`C28_generator_total`
`C30_mul`
`C30_alloc`
`C30_linear`
`C30_sum`
`C30_multiadd`
`C31_not`
`C31_and`
`C31_conditional_select`
`C33_root_of_unity`
`C34_consistent`
`C40_distinct`
`C40_field_labels`
`C42_distinct`
`C43_refuses`
`C45_paired`
`C45_capacity`
`C45_nested`
`C52_output`
`C52_width`
`C52_from_proof`
`C52_written`
`C52_zero_suffix`
`C53_suffix_nonzero`
`C53_in_circuit`
`C53_in_circuit_complete`
`C58_from_fn`
`C59_bitwise`
`C59_conversions`
`C59_eq`
`C62_adapter_errors`
`C69_preamble`
`C69_outerError`
`C69_innerError`
`C69_query`
`C69_eval`
`C72_free`
`C72_boolean`
`C77_shape`
`C84_map`
`C84_wires`
`C84_fungible`
`C84_clone`
`C84_compose`
`C84_demote`
`C84_strip`
`C84_equal`
`C84_derive`
`C84_consistent`
`C84_write`
`C85_local`
`C86_emulator`
`C94_simple_meaning`
`C94_simple_runs`
`C94_square_meaning`
`C94_square_runs`
`C94_instance`
`C99_unwitnessed`
`C99_same_calls`
`C99_witness_independent`
`C100_rebind`
`C100_params`
`C102_own_name_needed`

## propext, Classical.choice, Quot.sound (418)

`C01_eval`
`C01_dot`
`C02_factor`
`C02_factor_exact`
`C03_geosum`
`C04_mul`
`C04_mul_field`
`C04_bucket_width`
`C05_poly_with_roots`
`C05_eval`
`C06_fft`
`C06_paths_agree`
`C06_schedules_agree`
`C06_round_trip`
`C07_new`
`C07_new_panics`
`C07_contains`
`C07_ell`
`C08_is_zero_char_two_fails`
`C09_from_coeffs`
`C09_from_coeffs_panics`
`C09_iter`
`C09_round_trip`
`C09_gaps`
`C10_step`
`C10_history`
`C11_eval`
`C11_revdot`
`C11_revdot_comm`
`C11_dilate_eval`
`C11_fold_eval`
`C11_revdot_linear`
`C12_commit`
`C12_commit_panics`
`C12_layout`
`C12_linear`
`C12_history`
`C13_trace_build`
`C13_wiring_build`
`C13_build_panics`
`C13_views_dual`
`C14_tz_coeffs`
`C14_tz`
`C14_tx`
`C14_txz`
`C14_circuit`
`C14_prediction`
`C15_sxy`
`C15_sx`
`C15_sy`
`C15_agree`
`C16_refcounts`
`C16_conservation`
`C16_all_released`
`C17_metrics`
`C17_floor_plan`
`C17_gates_partition`
`C17_constraints_partition`
`C18_schedule`
`C18_produced`
`C18_deferral`
`C18_assemble`
`C19_completeness`
`C19_honest`
`C20_soundness`
`C20_all_pass`
`C21_ky`
`C21_constant`
`C21_injective`
`C21_few_collisions`
`C22_limits`
`C22_no_later_failure`
`C22_counts`
`C22_assemble_no_failure`
`C23_restrictions`
`C23_circuit`
`C24_order`
`C24_distinct`
`C24_in_domain`
`C24_stable`
`C25_order`
`C25_capacity`
`C25_domain`
`C26_evaluators`
`C27_complete`
`C27_sound`
`C27_few`
`C27_rx`
`C27_disjoint`
`C28_exact`
`C28_wires`
`C28_rx`
`C28_rx_outcome`
`C28_generator`
`C28_final_trace`
`C28_inject`
`C29_counts`
`C29_accepts`
`C29_evaluators`
`C29_meaning`
`C29_sound`
`C29_independent`
`C29_output_one_accepted`
`C30_simulated_is_satisfying`
`C30_invert`
`C30_invert_with`
`C30_div_nonzero`
`C30_fold`
`C31_alloc`
`C31_conditional_enforce_equal`
`C31_consistent`
`C31_multipack`
`C32_is_zero`
`C32_is_equal`
`C33_domain`
`C34_alloc`
`C34_constant`
`C34_negate`
`C34_add_incomplete`
`C34_add_degenerate`
`C34_nonzero_accumulator`
`C34_double`
`C34_double_and_add`
`C34_conditional`
`C34_conditional_honest`
`C34_value`
`C34_endo`
`C35_alloc`
`C35_lift`
`C35_group_scale`
`C35_lift_scalar_field`
`C36_extract`
`C36_extract_zero_free`
`C36_native`
`C37_duplex`
`C37_histories`
`C37_save_resume`
`C37_save_errors`
`C37_trailing_zero`
`C37_poseidon`
`C37_in_circuit`
`C38_tags_separate`
`C38_small_field_fails`
`C38_resume_in_circuit`
`C39_encode`
`C39_suffix_separates`
`C39_injective`
`C39_trailing_zeros`
`C39_uniform`
`C41_register`
`C41_next`
`C42_assertions`
`C42_positions`
`C42_nested`
`C42_nested_distinct`
`C42_total`
`C43_native`
`C43_circuit`
`C43_circuit_honest`
`C43_errors`
`C43_fold_inner`
`C43_two_layer`
`C43_fold_two_layer`
`C43_fold_two_layer_honest`
`C44_soundness`
`C44_two_layer`
`C45_covers`
`C45_polynomials`
`C45_wiring`
`C46_verify`
`C46_rejects`
`C46_rejects_early`
`C46_data`
`C46_errors`
`C47_circuit`
`C47_prover`
`C47_answers`
`C47_agree`
`C48_circuit`
`C48_prover`
`C48_agree`
`C49_circuit`
`C49_agree`
`C50_commitment`
`C50_operations`
`C50_dedup`
`C50_fuse`
`C51_partition`
`C51_degenerate`
`C51_witness`
`C51_inputs`
`C51_scalar`
`C51_sound`
`C51_complete`
`C52_filled_once`
`C52_circuit`
`C52_coverage`
`C52_alloc_order`
`C52_finish_order`
`C53_linear`
`C53_separated`
`C53_equal_only_if_zero`
`C54_split`
`C54_complete`
`C55_data`
`C55_relation`
`C55_same_circuit`
`C56_outputs`
`C56_counts`
`C56_simulator_emulator`
`C56_trace`
`C57_direct_sum`
`C57_wire_eval_sum`
`C57_term_collector`
`C57_term_enforcer`
`C58_length`
`C58_no_panic`
`C59_normalize`
`C59_sample`
`C59_shl`
`C59_shr`
`C60_digest`
`C60_key_is_digest`
`C60_binding`
`C61_completeness`
`C61_honest`
`C61_soundness`
`C61_all_pass`
`C62_adapter`
`C62_trivial`
`C63_trivial`
`C63_consistent`
`C63_progress`
`C63_verified`
`C63_verify`
`C64_circuits_sound`
`C65_circuits_complete`
`C65_prover_staged`
`C66_object`
`C66_complete`
`C66_wires`
`C66_sound`
`C67_complete`
`C67_synthesis`
`C67_sound`
`C68_hashes1`
`C68_hashes2`
`C68_innerCollapse`
`C68_outerCollapse`
`C68_computeV`
`C69_preambleGuard`
`C69_outerErrorGuard`
`C69_innerErrorGuard`
`C69_queryGuard`
`C69_evalGuard`
`C70_sound`
`C70_deferred`
`C70_registry`
`C70_application`
`C71_step`
`C71_satisfied`
`C72_element`
`C72_point`
`C72_endoscalar`
`C72_evaluate`
`C72_fold`
`C73_hashes1`
`C73_hashes2`
`C73_innerCollapse`
`C73_outerCollapse`
`C73_computeV`
`C73_inUse`
`C73_recorded`
`C73_limit`
`C73_header`
`C73_exist`
`C74_step`
`C74_rerandomize`
`C74_trivial`
`C74_accepted`
`C75_fields`
`C75_curves`
`C75_endo`
`C75_env`
`C75_repr`
`C75_host`
`C75_app`
`C76_keys`
`C77_permutation`
`C77_circuit`
`C78_literal`
`C78_constants`
`C79_generators`
`C79_baked`
`C80_endoscaling`
`C80_rerandomize`
`C80_trivial`
`C80_endoscaling_size`
`C80_rerandomize_size`
`C80_trivial_size`
`C80_exist`
`C80_compile`
`C81_finalizes`
`C81_pasta`
`C81_accepted`
`C82_made`
`C82_accepted`
`C82_rerandomize_data`
`C82_fuse_progress`
`C82_seed_progress`
`C82_rerandomize_progress`
`C82_pasta`
`C83_stages`
`C83_endoscaling`
`C83_unchecked`
`C83_mixed`
`C85_records`
`C85_same`
`C85_separates`
`C85_fingerprints`
`C85_leaf`
`C85_collision`
`C85_outputs`
`C86_ends`
`C86_schedule`
`C86_stops`
`C86_predictions`
`C86_emulator_lenient`
`C86_unfaithful`
`C86_errors`
`C86_library`
`C86_evaluate`
`C86_circuit`
`C86_gadget`
`C86_simulator`
`C87_children`
`C87_wins`
`C87_accepted`
`C87_verified`
`C87_honest`
`C88_history`
`C88_verified`
`C88_honest`
`C88_seed`
`C88_fuse`
`C89_commitment`
`C89_injective`
`C89_hides`
`C89_publish`
`C89_zero_stage`
`C89_pasta`
`C90_binding`
`C90_extract`
`C90_accepted`
`C90_play`
`C90_verified`
`C90_history`
`C90_honest`
`C90_seed`
`C90_fuse`
`C90_tied`
`C90_ties`
`C91_children`
`C91_history`
`C91_verified`
`C91_asks`
`C92_known`
`C92_verified`
`C92_derived`
`C92_honest`
`C93_leaf_runs`
`C93_node_runs`
`C93_leaf`
`C93_node`
`C93_derived`
`C93_read_leaf`
`C93_read_node`
`C93_known`
`C93_verified`
`C93_honest`
`C93_program`
`C93_seed_progress`
`C93_fuse_progress`
`C93_steps`
`C93_pasta`
`C94_simple_circuit`
`C94_square_circuit`
`C94_simple_sound`
`C94_square_sound`
`C94_simple_complete`
`C94_square_complete`
`C95_handles`
`C95_index`
`C95_circuits_first`
`C95_poisoned`
`C95_circuit`
`C95_assemble`
`C95_bonding`
`C95_order_matters`
`C96_circuit`
`C96_meaning`
`C97_commitments`
`C97_size`
`C98_bridges`
`C98_binding`
`C98_endoscaling`
`C99_cast`
`C100_extract`
`C101_write`
`C101_too_long`
`C101_injective`
`C101_buffers`
`C101_pipe`
`C101_header`
`C102_names`
`C102_error`
`C102_direct`
`C102_pinned`
