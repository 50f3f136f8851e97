{
 "claims": [
  {
   "property": "C01",
   "status": "proved",
   "theorems": [
    "Ragu.Props.C01_eval",
    "Ragu.Props.C01_dot",
    "Ragu.Props.C01_dot_panics"
   ],
   "note": ""
  },
  {
   "property": "C02",
   "status": "proved",
   "theorems": [
    "Ragu.Props.C02_factor",
    "Ragu.Props.C02_factor_exact",
    "Ragu.Props.C02_factor_iter",
    "Ragu.Props.C02_factor_panics"
   ],
   "note": ""
  },
  {
   "property": "C03",
   "status": "proved",
   "theorems": [
    "Ragu.Props.C03_geosum"
   ],
   "note": ""
  },
  {
   "property": "C04",
   "status": "proved",
   "theorems": [
    "Ragu.Props.C04_mul",
    "Ragu.Props.C04_mul_field",
    "Ragu.Props.C04_bucket_width"
   ],
   "note": ""
  },
  {
   "property": "C05",
   "status": "proved",
   "theorems": [
    "Ragu.Props.C05_poly_with_roots",
    "Ragu.Props.C05_eval"
   ],
   "note": ""
  },
  {
   "property": "C06",
   "status": "proved",
   "theorems": [
    "Ragu.Props.C06_fft",
    "Ragu.Props.C06_paths_agree",
    "Ragu.Props.C06_schedules_agree",
    "Ragu.Props.C06_fft_panics",
    "Ragu.Props.C06_round_trip"
   ],
   "note": ""
  },
  {
   "property": "C07",
   "status": "proved",
   "theorems": [
    "Ragu.Props.C07_new",
    "Ragu.Props.C07_new_panics",
    "Ragu.Props.C07_contains",
    "Ragu.Props.C07_ell"
   ],
   "note": ""
  },
  {
   "property": "C08",
   "status": "proved",
   "theorems": [
    "Ragu.Props.C08_mul",
    "Ragu.Props.C08_add",
    "Ragu.Props.C08_from",
    "Ragu.Props.C08_is_zero",
    "Ragu.Props.C08_is_zero_char_two_fails"
   ],
   "note": ""
  },
  {
   "property": "C09",
   "status": "proved",
   "theorems": [
    "Ragu.Props.C09_from_coeffs",
    "Ragu.Props.C09_from_coeffs_panics",
    "Ragu.Props.C09_iter",
    "Ragu.Props.C09_round_trip",
    "Ragu.Props.C09_trimmed",
    "Ragu.Props.C09_gaps"
   ],
   "note": ""
  },
  {
   "property": "C10",
   "status": "proved",
   "theorems": [
    "Ragu.Props.C10_step",
    "Ragu.Props.C10_history"
   ],
   "note": ""
  },
  {
   "property": "C11",
   "status": "proved",
   "theorems": [
    "Ragu.Props.C11_eval",
    "Ragu.Props.C11_revdot",
    "Ragu.Props.C11_revdot_comm",
    "Ragu.Props.C11_dilate_eval",
    "Ragu.Props.C11_fold_eval",
    "Ragu.Props.C11_revdot_linear"
   ],
   "note": ""
  },
  {
   "property": "C12",
   "status": "proved",
   "theorems": [
    "Ragu.Props.C12_commit",
    "Ragu.Props.C12_commit_panics",
    "Ragu.Props.C12_layout",
    "Ragu.Props.C12_linear",
    "Ragu.Props.C12_history"
   ],
   "note": ""
  },
  {
   "property": "C13",
   "status": "proved",
   "theorems": [
    "Ragu.Props.C13_trace_build",
    "Ragu.Props.C13_wiring_build",
    "Ragu.Props.C13_build_panics",
    "Ragu.Props.C13_views_dual"
   ],
   "note": ""
  },
  {
   "property": "C14",
   "status": "proved",
   "theorems": [
    "Ragu.Props.C14_tz_coeffs",
    "Ragu.Props.C14_tz",
    "Ragu.Props.C14_tx",
    "Ragu.Props.C14_txz",
    "Ragu.Props.C14_circuit",
    "Ragu.Props.C14_prediction"
   ],
   "note": ""
  },
  {
   "property": "C15",
   "status": "proved",
   "theorems": [
    "Ragu.Props.C15_sxy",
    "Ragu.Props.C15_sx",
    "Ragu.Props.C15_sy",
    "Ragu.Props.C15_agree",
    "Ragu.Props.C15_monomials"
   ],
   "note": ""
  },
  {
   "property": "C16",
   "status": "proved",
   "theorems": [
    "Ragu.Props.C16_refcounts",
    "Ragu.Props.C16_conservation",
    "Ragu.Props.C16_all_released"
   ],
   "note": ""
  },
  {
   "property": "C17",
   "status": "proved",
   "theorems": [
    "Ragu.Props.C17_metrics",
    "Ragu.Props.C17_floor_plan",
    "Ragu.Props.C17_gates_partition",
    "Ragu.Props.C17_constraints_partition"
   ],
   "note": ""
  },
  {
   "property": "C18",
   "status": "proved",
   "theorems": [
    "Ragu.Props.C18_schedule",
    "Ragu.Props.C18_produced",
    "Ragu.Props.C18_deferral",
    "Ragu.Props.C18_assemble"
   ],
   "note": ""
  },
  {
   "property": "C19",
   "status": "proved",
   "theorems": [
    "Ragu.Props.C19_completeness",
    "Ragu.Props.C19_honest"
   ],
   "note": ""
  },
  {
   "property": "C20",
   "status": "proved",
   "theorems": [
    "Ragu.Props.C20_soundness",
    "Ragu.Props.C20_all_pass"
   ],
   "note": ""
  },
  {
   "property": "C21",
   "status": "proved",
   "theorems": [
    "Ragu.Props.C21_ky",
    "Ragu.Props.C21_constant",
    "Ragu.Props.C21_injective",
    "Ragu.Props.C21_few_collisions"
   ],
   "note": ""
  },
  {
   "property": "C22",
   "status": "proved",
   "theorems": [
    "Ragu.Props.C22_limits",
    "Ragu.Props.C22_no_later_failure",
    "Ragu.Props.C22_counts",
    "Ragu.Props.C22_assemble_no_failure"
   ],
   "note": ""
  },
  {
   "property": "C23",
   "status": "proved",
   "theorems": [
    "Ragu.Props.C23_restrictions",
    "Ragu.Props.C23_circuit"
   ],
   "note": ""
  },
  {
   "property": "C24",
   "status": "proved",
   "theorems": [
    "Ragu.Props.C24_order",
    "Ragu.Props.C24_distinct",
    "Ragu.Props.C24_in_domain",
    "Ragu.Props.C24_stable"
   ],
   "note": ""
  },
  {
   "property": "C25",
   "status": "proved",
   "theorems": [
    "Ragu.Props.C25_order",
    "Ragu.Props.C25_capacity",
    "Ragu.Props.C25_domain"
   ],
   "note": ""
  },
  {
   "property": "C26",
   "status": "proved",
   "theorems": [
    "Ragu.Props.C26_new",
    "Ragu.Props.C26_evaluators",
    "Ragu.Props.C26_final"
   ],
   "note": ""
  },
  {
   "property": "C27",
   "status": "proved",
   "theorems": [
    "Ragu.Props.C27_complete",
    "Ragu.Props.C27_sound",
    "Ragu.Props.C27_few",
    "Ragu.Props.C27_rx",
    "Ragu.Props.C27_disjoint",
    "Ragu.Props.C27_sum"
   ],
   "note": ""
  },
  {
   "property": "C28",
   "status": "proved",
   "theorems": [
    "Ragu.Props.C28_exact",
    "Ragu.Props.C28_wires",
    "Ragu.Props.C28_rx",
    "Ragu.Props.C28_rx_outcome",
    "Ragu.Props.C28_generator",
    "Ragu.Props.C28_generator_total",
    "Ragu.Props.C28_final_trace",
    "Ragu.Props.C28_inject"
   ],
   "note": ""
  },
  {
   "property": "C29",
   "status": "proved",
   "theorems": [
    "Ragu.Props.C29_counts",
    "Ragu.Props.C29_accepts",
    "Ragu.Props.C29_evaluators",
    "Ragu.Props.C29_meaning",
    "Ragu.Props.C29_sound",
    "Ragu.Props.C29_independent",
    "Ragu.Props.C29_output_one_accepted"
   ],
   "note": ""
  },
  {
   "property": "C30",
   "status": "proved",
   "theorems": [
    "Ragu.Props.C30_simulated_is_satisfying",
    "Ragu.Props.C30_mul",
    "Ragu.Props.C30_alloc",
    "Ragu.Props.C30_linear",
    "Ragu.Props.C30_invert",
    "Ragu.Props.C30_invert_with",
    "Ragu.Props.C30_div_nonzero",
    "Ragu.Props.C30_fold",
    "Ragu.Props.C30_sum",
    "Ragu.Props.C30_multiadd"
   ],
   "note": ""
  },
  {
   "property": "C31",
   "status": "proved",
   "theorems": [
    "Ragu.Props.C31_alloc",
    "Ragu.Props.C31_not",
    "Ragu.Props.C31_and",
    "Ragu.Props.C31_conditional_select",
    "Ragu.Props.C31_conditional_enforce_equal",
    "Ragu.Props.C31_consistent",
    "Ragu.Props.C31_multipack"
   ],
   "note": ""
  },
  {
   "property": "C32",
   "status": "proved",
   "theorems": [
    "Ragu.Props.C32_is_zero",
    "Ragu.Props.C32_is_equal"
   ],
   "note": ""
  },
  {
   "property": "C33",
   "status": "proved",
   "theorems": [
    "Ragu.Props.C33_root_of_unity",
    "Ragu.Props.C33_domain"
   ],
   "note": ""
  },
  {
   "property": "C34",
   "status": "proved",
   "theorems": [
    "Ragu.Props.C34_alloc",
    "Ragu.Props.C34_constant",
    "Ragu.Props.C34_negate",
    "Ragu.Props.C34_add_incomplete",
    "Ragu.Props.C34_add_degenerate",
    "Ragu.Props.C34_nonzero_accumulator",
    "Ragu.Props.C34_double",
    "Ragu.Props.C34_double_and_add",
    "Ragu.Props.C34_conditional",
    "Ragu.Props.C34_conditional_honest",
    "Ragu.Props.C34_value",
    "Ragu.Props.C34_consistent",
    "Ragu.Props.C34_endo"
   ],
   "note": ""
  },
  {
   "property": "C35",
   "status": "proved",
   "theorems": [
    "Ragu.Props.C35_alloc",
    "Ragu.Props.C35_lift",
    "Ragu.Props.C35_group_scale",
    "Ragu.Props.C35_lift_scalar_field"
   ],
   "note": ""
  },
  {
   "property": "C36",
   "status": "proved",
   "theorems": [
    "Ragu.Props.C36_extract",
    "Ragu.Props.C36_extract_zero_free",
    "Ragu.Props.C36_native"
   ],
   "note": ""
  },
  {
   "property": "C37",
   "status": "proved",
   "theorems": [
    "Ragu.Props.C37_duplex",
    "Ragu.Props.C37_histories",
    "Ragu.Props.C37_squeeze_new",
    "Ragu.Props.C37_save_resume",
    "Ragu.Props.C37_save_errors",
    "Ragu.Props.C37_resume_then_absorb_differs",
    "Ragu.Props.C37_trailing_zero",
    "Ragu.Props.C37_poseidon",
    "Ragu.Props.C37_in_circuit"
   ],
   "note": ""
  },
  {
   "property": "C38",
   "status": "proved",
   "theorems": [
    "Ragu.Props.C38_tags_separate",
    "Ragu.Props.C38_small_field_fails",
    "Ragu.Props.C38_resume_in_circuit"
   ],
   "note": ""
  },
  {
   "property": "C39",
   "status": "proved",
   "theorems": [
    "Ragu.Props.C39_encode",
    "Ragu.Props.C39_suffix_separates",
    "Ragu.Props.C39_injective",
    "Ragu.Props.C39_trailing_zeros",
    "Ragu.Props.C39_uniform"
   ],
   "note": ""
  },
  {
   "property": "C40",
   "status": "proved",
   "theorems": [
    "Ragu.Props.C40_constructors",
    "Ragu.Props.C40_distinct",
    "Ragu.Props.C40_field_labels",
    "Ragu.Props.C40_wraps_fails"
   ],
   "note": ""
  },
  {
   "property": "C41",
   "status": "proved",
   "theorems": [
    "Ragu.Props.C41_register",
    "Ragu.Props.C41_next"
   ],
   "note": ""
  },
  {
   "property": "C42",
   "status": "proved",
   "theorems": [
    "Ragu.Props.C42_assertions",
    "Ragu.Props.C42_positions",
    "Ragu.Props.C42_nested",
    "Ragu.Props.C42_distinct",
    "Ragu.Props.C42_nested_distinct",
    "Ragu.Props.C42_total"
   ],
   "note": ""
  },
  {
   "property": "C43",
   "status": "proved",
   "theorems": [
    "Ragu.Props.C43_native",
    "Ragu.Props.C43_circuit",
    "Ragu.Props.C43_circuit_honest",
    "Ragu.Props.C43_errors",
    "Ragu.Props.C43_refuses",
    "Ragu.Props.C43_fold_inner",
    "Ragu.Props.C43_two_layer",
    "Ragu.Props.C43_fold_two_layer",
    "Ragu.Props.C43_fold_two_layer_honest"
   ],
   "note": ""
  },
  {
   "property": "C44",
   "status": "proved",
   "theorems": [
    "Ragu.Props.C44_soundness",
    "Ragu.Props.C44_two_layer"
   ],
   "note": ""
  },
  {
   "property": "C45",
   "status": "proved",
   "theorems": [
    "Ragu.Props.C45_paired",
    "Ragu.Props.C45_two_proofs",
    "Ragu.Props.C45_one_proof",
    "Ragu.Props.C45_capacity",
    "Ragu.Props.C45_nested",
    "Ragu.Props.C45_covers",
    "Ragu.Props.C45_polynomials",
    "Ragu.Props.C45_wiring"
   ],
   "note": ""
  },
  {
   "property": "C46",
   "status": "proved",
   "theorems": [
    "Ragu.Props.C46_verify",
    "Ragu.Props.C46_rejects",
    "Ragu.Props.C46_rejects_early",
    "Ragu.Props.C46_data",
    "Ragu.Props.C46_errors"
   ],
   "note": ""
  },
  {
   "property": "C47",
   "status": "proved",
   "theorems": [
    "Ragu.Props.C47_circuit",
    "Ragu.Props.C47_prover",
    "Ragu.Props.C47_answers",
    "Ragu.Props.C47_agree"
   ],
   "note": ""
  },
  {
   "property": "C48",
   "status": "proved",
   "theorems": [
    "Ragu.Props.C48_circuit",
    "Ragu.Props.C48_prover",
    "Ragu.Props.C48_agree"
   ],
   "note": ""
  },
  {
   "property": "C49",
   "status": "proved",
   "theorems": [
    "Ragu.Props.C49_circuit",
    "Ragu.Props.C49_agree"
   ],
   "note": ""
  },
  {
   "property": "C50",
   "status": "proved",
   "theorems": [
    "Ragu.Props.C50_commitment",
    "Ragu.Props.C50_operations",
    "Ragu.Props.C50_dedup",
    "Ragu.Props.C50_fuse"
   ],
   "note": ""
  },
  {
   "property": "C51",
   "status": "proved",
   "theorems": [
    "Ragu.Props.C51_partition",
    "Ragu.Props.C51_degenerate",
    "Ragu.Props.C51_witness",
    "Ragu.Props.C51_inputs",
    "Ragu.Props.C51_scalar",
    "Ragu.Props.C51_sound",
    "Ragu.Props.C51_complete"
   ],
   "note": ""
  },
  {
   "property": "C52",
   "status": "proved",
   "theorems": [
    "Ragu.Props.C52_output",
    "Ragu.Props.C52_filled_once",
    "Ragu.Props.C52_circuit",
    "Ragu.Props.C52_coverage",
    "Ragu.Props.C52_width",
    "Ragu.Props.C52_from_proof",
    "Ragu.Props.C52_alloc_order",
    "Ragu.Props.C52_finish_order",
    "Ragu.Props.C52_written",
    "Ragu.Props.C52_zero_suffix"
   ],
   "note": ""
  },
  {
   "property": "C53",
   "status": "proved",
   "theorems": [
    "Ragu.Props.C53_linear",
    "Ragu.Props.C53_separated",
    "Ragu.Props.C53_equal_only_if_zero",
    "Ragu.Props.C53_suffix_nonzero",
    "Ragu.Props.C53_in_circuit",
    "Ragu.Props.C53_in_circuit_complete"
   ],
   "note": ""
  },
  {
   "property": "C54",
   "status": "proved",
   "theorems": [
    "Ragu.Props.C54_split",
    "Ragu.Props.C54_complete"
   ],
   "note": ""
  },
  {
   "property": "C55",
   "status": "proved",
   "theorems": [
    "Ragu.Props.C55_data",
    "Ragu.Props.C55_relation",
    "Ragu.Props.C55_same_circuit"
   ],
   "note": ""
  },
  {
   "property": "C56",
   "status": "proved",
   "theorems": [
    "Ragu.Props.C56_outputs",
    "Ragu.Props.C56_counts",
    "Ragu.Props.C56_simulator_emulator",
    "Ragu.Props.C56_trace"
   ],
   "note": ""
  },
  {
   "property": "C57",
   "status": "proved",
   "theorems": [
    "Ragu.Props.C57_direct_sum",
    "Ragu.Props.C57_wire_eval_sum",
    "Ragu.Props.C57_term_collector",
    "Ragu.Props.C57_term_enforcer"
   ],
   "note": ""
  },
  {
   "property": "C58",
   "status": "proved",
   "theorems": [
    "Ragu.Props.C58_length",
    "Ragu.Props.C58_no_panic",
    "Ragu.Props.C58_convert",
    "Ragu.Props.C58_try_collect",
    "Ragu.Props.C58_from_fn"
   ],
   "note": ""
  },
  {
   "property": "C59",
   "status": "proved",
   "theorems": [
    "Ragu.Props.C59_normalize",
    "Ragu.Props.C59_sample",
    "Ragu.Props.C59_bitwise",
    "Ragu.Props.C59_shl",
    "Ragu.Props.C59_shr",
    "Ragu.Props.C59_conversions",
    "Ragu.Props.C59_eq"
   ],
   "note": ""
  },
  {
   "property": "C60",
   "status": "proved",
   "theorems": [
    "Ragu.Props.C60_digest",
    "Ragu.Props.C60_key_is_digest",
    "Ragu.Props.C60_binding"
   ],
   "note": ""
  },
  {
   "property": "C61",
   "status": "proved",
   "theorems": [
    "Ragu.Props.C61_completeness",
    "Ragu.Props.C61_honest",
    "Ragu.Props.C61_soundness",
    "Ragu.Props.C61_all_pass"
   ],
   "note": ""
  },
  {
   "property": "C62",
   "status": "proved",
   "theorems": [
    "Ragu.Props.C62_adapter",
    "Ragu.Props.C62_adapter_errors",
    "Ragu.Props.C62_trivial"
   ],
   "note": ""
  },
  {
   "property": "C63",
   "status": "proved",
   "theorems": [
    "Ragu.Props.C63_trivial",
    "Ragu.Props.C63_consistent",
    "Ragu.Props.C63_progress",
    "Ragu.Props.C63_verified",
    "Ragu.Props.C63_verify"
   ],
   "note": ""
  },
  {
   "property": "C64",
   "status": "proved",
   "theorems": [
    "Ragu.Props.C64_circuits_sound"
   ],
   "note": ""
  },
  {
   "property": "C65",
   "status": "proved",
   "theorems": [
    "Ragu.Props.C65_circuits_complete",
    "Ragu.Props.C65_prover_staged"
   ],
   "note": ""
  },
  {
   "property": "C66",
   "status": "proved",
   "theorems": [
    "Ragu.Props.C66_object",
    "Ragu.Props.C66_complete",
    "Ragu.Props.C66_wires",
    "Ragu.Props.C66_sound"
   ],
   "note": ""
  },
  {
   "property": "C67",
   "status": "proved",
   "theorems": [
    "Ragu.Props.C67_complete",
    "Ragu.Props.C67_synthesis",
    "Ragu.Props.C67_sound"
   ],
   "note": ""
  },
  {
   "property": "C68",
   "status": "proved",
   "theorems": [
    "Ragu.Props.C68_hashes1",
    "Ragu.Props.C68_hashes2",
    "Ragu.Props.C68_innerCollapse",
    "Ragu.Props.C68_outerCollapse",
    "Ragu.Props.C68_computeV"
   ],
   "note": ""
  },
  {
   "property": "C69",
   "status": "proved",
   "theorems": [
    "Ragu.Props.C69_preamble",
    "Ragu.Props.C69_outerError",
    "Ragu.Props.C69_innerError",
    "Ragu.Props.C69_query",
    "Ragu.Props.C69_eval",
    "Ragu.Props.C69_preambleGuard",
    "Ragu.Props.C69_outerErrorGuard",
    "Ragu.Props.C69_innerErrorGuard",
    "Ragu.Props.C69_queryGuard",
    "Ragu.Props.C69_evalGuard"
   ],
   "note": ""
  },
  {
   "property": "C70",
   "status": "proved",
   "theorems": [
    "Ragu.Props.C70_sound",
    "Ragu.Props.C70_deferred",
    "Ragu.Props.C70_registry",
    "Ragu.Props.C70_application"
   ],
   "note": ""
  },
  {
   "property": "C71",
   "status": "proved",
   "theorems": [
    "Ragu.Props.C71_step",
    "Ragu.Props.C71_satisfied"
   ],
   "note": ""
  },
  {
   "property": "C72",
   "status": "proved",
   "theorems": [
    "Ragu.Props.C72_element",
    "Ragu.Props.C72_free",
    "Ragu.Props.C72_boolean",
    "Ragu.Props.C72_point",
    "Ragu.Props.C72_endoscalar",
    "Ragu.Props.C72_evaluate",
    "Ragu.Props.C72_fold"
   ],
   "note": ""
  },
  {
   "property": "C73",
   "status": "proved",
   "theorems": [
    "Ragu.Props.C73_hashes1",
    "Ragu.Props.C73_hashes2",
    "Ragu.Props.C73_innerCollapse",
    "Ragu.Props.C73_outerCollapse",
    "Ragu.Props.C73_computeV",
    "Ragu.Props.C73_inUse",
    "Ragu.Props.C73_recorded",
    "Ragu.Props.C73_limit",
    "Ragu.Props.C73_header",
    "Ragu.Props.C73_exist"
   ],
   "note": ""
  },
  {
   "property": "C74",
   "status": "proved",
   "theorems": [
    "Ragu.Props.C74_step",
    "Ragu.Props.C74_rerandomize",
    "Ragu.Props.C74_trivial",
    "Ragu.Props.C74_accepted"
   ],
   "note": ""
  },
  {
   "property": "C75",
   "status": "proved",
   "theorems": [
    "Ragu.Props.C75_fields",
    "Ragu.Props.C75_curves",
    "Ragu.Props.C75_endo",
    "Ragu.Props.C75_env",
    "Ragu.Props.C75_repr",
    "Ragu.Props.C75_host",
    "Ragu.Props.C75_app"
   ],
   "note": ""
  },
  {
   "property": "C76",
   "status": "proved",
   "theorems": [
    "Ragu.Props.C76_keys"
   ],
   "note": ""
  },
  {
   "property": "C77",
   "status": "proved",
   "theorems": [
    "Ragu.Props.C77_shape",
    "Ragu.Props.C77_permutation",
    "Ragu.Props.C77_circuit"
   ],
   "note": ""
  },
  {
   "property": "C78",
   "status": "proved",
   "theorems": [
    "Ragu.Props.C78_literal",
    "Ragu.Props.C78_constants"
   ],
   "note": ""
  },
  {
   "property": "C79",
   "status": "proved",
   "theorems": [
    "Ragu.Props.C79_generators",
    "Ragu.Props.C79_baked"
   ],
   "note": ""
  },
  {
   "property": "C80",
   "status": "proved",
   "theorems": [
    "Ragu.Props.C80_endoscaling",
    "Ragu.Props.C80_rerandomize",
    "Ragu.Props.C80_trivial",
    "Ragu.Props.C80_endoscaling_size",
    "Ragu.Props.C80_rerandomize_size",
    "Ragu.Props.C80_trivial_size",
    "Ragu.Props.C80_exist",
    "Ragu.Props.C80_compile"
   ],
   "note": ""
  },
  {
   "property": "C81",
   "status": "proved",
   "theorems": [
    "Ragu.Props.C81_finalizes",
    "Ragu.Props.C81_pasta",
    "Ragu.Props.C81_accepted"
   ],
   "note": ""
  },
  {
   "property": "C82",
   "status": "proved",
   "theorems": [
    "Ragu.Props.C82_made",
    "Ragu.Props.C82_accepted",
    "Ragu.Props.C82_rerandomize_data",
    "Ragu.Props.C82_fuse_progress",
    "Ragu.Props.C82_seed_progress",
    "Ragu.Props.C82_rerandomize_progress",
    "Ragu.Props.C82_pasta"
   ],
   "note": ""
  },
  {
   "property": "C83",
   "status": "proved",
   "theorems": [
    "Ragu.Props.C83_stages",
    "Ragu.Props.C83_endoscaling",
    "Ragu.Props.C83_unchecked",
    "Ragu.Props.C83_mixed"
   ],
   "note": ""
  },
  {
   "property": "C84",
   "status": "proved",
   "theorems": [
    "Ragu.Props.C84_map",
    "Ragu.Props.C84_determined",
    "Ragu.Props.C84_wires",
    "Ragu.Props.C84_fungible",
    "Ragu.Props.C84_clone",
    "Ragu.Props.C84_compose",
    "Ragu.Props.C84_demote",
    "Ragu.Props.C84_strip",
    "Ragu.Props.C84_promote",
    "Ragu.Props.C84_equal",
    "Ragu.Props.C84_attributes",
    "Ragu.Props.C84_derive",
    "Ragu.Props.C84_fields",
    "Ragu.Props.C84_consistent",
    "Ragu.Props.C84_write"
   ],
   "note": ""
  },
  {
   "property": "C85",
   "status": "proved",
   "theorems": [
    "Ragu.Props.C85_records",
    "Ragu.Props.C85_local",
    "Ragu.Props.C85_same",
    "Ragu.Props.C85_separates",
    "Ragu.Props.C85_fingerprints",
    "Ragu.Props.C85_leaf",
    "Ragu.Props.C85_collision",
    "Ragu.Props.C85_outputs"
   ],
   "note": ""
  },
  {
   "property": "C86",
   "status": "proved",
   "theorems": [
    "Ragu.Props.C86_ends",
    "Ragu.Props.C86_schedule",
    "Ragu.Props.C86_stops",
    "Ragu.Props.C86_predictions",
    "Ragu.Props.C86_emulator",
    "Ragu.Props.C86_emulator_lenient",
    "Ragu.Props.C86_unfaithful",
    "Ragu.Props.C86_errors",
    "Ragu.Props.C86_library",
    "Ragu.Props.C86_evaluate",
    "Ragu.Props.C86_circuit",
    "Ragu.Props.C86_gadget",
    "Ragu.Props.C86_simulator"
   ],
   "note": ""
  },
  {
   "property": "C87",
   "status": "proved",
   "theorems": [
    "Ragu.Props.C87_children",
    "Ragu.Props.C87_wins",
    "Ragu.Props.C87_accepted",
    "Ragu.Props.C87_verified",
    "Ragu.Props.C87_honest"
   ],
   "note": ""
  },
  {
   "property": "C88",
   "status": "proved",
   "theorems": [
    "Ragu.Props.C88_history",
    "Ragu.Props.C88_verified",
    "Ragu.Props.C88_honest",
    "Ragu.Props.C88_seed",
    "Ragu.Props.C88_fuse"
   ],
   "note": ""
  },
  {
   "property": "C89",
   "status": "proved",
   "theorems": [
    "Ragu.Props.C89_commitment",
    "Ragu.Props.C89_injective",
    "Ragu.Props.C89_hides",
    "Ragu.Props.C89_publish",
    "Ragu.Props.C89_zero_stage",
    "Ragu.Props.C89_pasta"
   ],
   "note": ""
  },
  {
   "property": "C90",
   "status": "proved",
   "theorems": [
    "Ragu.Props.C90_binding",
    "Ragu.Props.C90_extract",
    "Ragu.Props.C90_accepted",
    "Ragu.Props.C90_play",
    "Ragu.Props.C90_verified",
    "Ragu.Props.C90_history",
    "Ragu.Props.C90_honest",
    "Ragu.Props.C90_seed",
    "Ragu.Props.C90_fuse",
    "Ragu.Props.C90_tied",
    "Ragu.Props.C90_ties"
   ],
   "note": ""
  },
  {
   "property": "C91",
   "status": "proved",
   "theorems": [
    "Ragu.Props.C91_children",
    "Ragu.Props.C91_history",
    "Ragu.Props.C91_verified",
    "Ragu.Props.C91_asks"
   ],
   "note": ""
  },
  {
   "property": "C92",
   "status": "proved",
   "theorems": [
    "Ragu.Props.C92_known",
    "Ragu.Props.C92_verified",
    "Ragu.Props.C92_derived",
    "Ragu.Props.C92_honest"
   ],
   "note": ""
  },
  {
   "property": "C93",
   "status": "proved",
   "theorems": [
    "Ragu.Props.C93_leaf_runs",
    "Ragu.Props.C93_node_runs",
    "Ragu.Props.C93_leaf",
    "Ragu.Props.C93_node",
    "Ragu.Props.C93_derived",
    "Ragu.Props.C93_read_leaf",
    "Ragu.Props.C93_read_node",
    "Ragu.Props.C93_known",
    "Ragu.Props.C93_verified",
    "Ragu.Props.C93_honest",
    "Ragu.Props.C93_program",
    "Ragu.Props.C93_seed_progress",
    "Ragu.Props.C93_fuse_progress",
    "Ragu.Props.C93_steps",
    "Ragu.Props.C93_pasta"
   ],
   "note": ""
  },
  {
   "property": "C94",
   "status": "proved",
   "theorems": [
    "Ragu.Props.C94_simple_meaning",
    "Ragu.Props.C94_simple_runs",
    "Ragu.Props.C94_square_meaning",
    "Ragu.Props.C94_square_runs",
    "Ragu.Props.C94_instance",
    "Ragu.Props.C94_simple_circuit",
    "Ragu.Props.C94_square_circuit",
    "Ragu.Props.C94_simple_sound",
    "Ragu.Props.C94_square_sound",
    "Ragu.Props.C94_simple_complete",
    "Ragu.Props.C94_square_complete"
   ],
   "note": ""
  },
  {
   "property": "C95",
   "status": "proved",
   "theorems": [
    "Ragu.Props.C95_handles",
    "Ragu.Props.C95_index",
    "Ragu.Props.C95_circuits_first",
    "Ragu.Props.C95_poisoned",
    "Ragu.Props.C95_circuit",
    "Ragu.Props.C95_assemble",
    "Ragu.Props.C95_bonding",
    "Ragu.Props.C95_order_matters"
   ],
   "note": ""
  },
  {
   "property": "C96",
   "status": "proved",
   "theorems": [
    "Ragu.Props.C96_circuit",
    "Ragu.Props.C96_meaning"
   ],
   "note": ""
  },
  {
   "property": "C97",
   "status": "proved",
   "theorems": [
    "Ragu.Props.C97_commitments",
    "Ragu.Props.C97_size"
   ],
   "note": ""
  },
  {
   "property": "C98",
   "status": "proved",
   "theorems": [
    "Ragu.Props.C98_bridges",
    "Ragu.Props.C98_binding",
    "Ragu.Props.C98_endoscaling"
   ],
   "note": ""
  },
  {
   "property": "C99",
   "status": "proved",
   "theorems": [
    "Ragu.Props.C99_option",
    "Ragu.Props.C99_always",
    "Ragu.Props.C99_empty",
    "Ragu.Props.C99_cast",
    "Ragu.Props.C99_unwitnessed",
    "Ragu.Props.C99_same_calls",
    "Ragu.Props.C99_witness_independent",
    "Ragu.Props.C99_leak_fails"
   ],
   "note": ""
  },
  {
   "property": "C100",
   "status": "proved",
   "theorems": [
    "Ragu.Props.C100_kind",
    "Ragu.Props.C100_array_fails",
    "Ragu.Props.C100_impl",
    "Ragu.Props.C100_rebind",
    "Ragu.Props.C100_params",
    "Ragu.Props.C100_extract"
   ],
   "note": ""
  },
  {
   "property": "C101",
   "status": "proved",
   "theorems": [
    "Ragu.Props.C101_write",
    "Ragu.Props.C101_too_long",
    "Ragu.Props.C101_fixed_length",
    "Ragu.Props.C101_injective",
    "Ragu.Props.C101_buffers",
    "Ragu.Props.C101_pipe",
    "Ragu.Props.C101_header"
   ],
   "note": ""
  },
  {
   "property": "C102",
   "status": "proved",
   "theorems": [
    "Ragu.Props.C102_names",
    "Ragu.Props.C102_error",
    "Ragu.Props.C102_direct",
    "Ragu.Props.C102_pinned",
    "Ragu.Props.C102_own_name_needed"
   ],
   "note": ""
  }
 ]
}