{
 "claims": [
  {
   "property": "C01",
   "status": "proved",
   "theorems": [
    "Allo.C01_verify_iff",
    "Allo.C01_unique"
   ],
   "note": ""
  },
  {
   "property": "C02",
   "status": "proved",
   "theorems": [
    "Allo.C02_new",
    "Allo.C02_panic",
    "Allo.C02_nonmember"
   ],
   "note": ""
  },
  {
   "property": "C03",
   "status": "proved",
   "theorems": [
    "Allo.C03_add_remove",
    "Allo.C03_remove_add",
    "Allo.C03_commute",
    "Allo.C03_add_elements",
    "Allo.C03_default",
    "Allo.C03_remove_elements",
    "Allo.C03_order",
    "Allo.C03_add_remove_elements",
    "Allo.C03_panic",
    "Allo.C03_assign",
    "Allo.C03_update_acc"
   ],
   "note": ""
  },
  {
   "property": "C04",
   "status": "proved",
   "theorems": [
    "Allo.C04_batch_update",
    "Allo.C04_update_panics"
   ],
   "note": ""
  },
  {
   "property": "C05",
   "status": "proved",
   "theorems": [
    "Allo.C05_removed_unchanged",
    "Allo.C05_error_iff",
    "Allo.C05_removed_rejected"
   ],
   "note": ""
  },
  {
   "property": "C06",
   "status": "proved",
   "theorems": [
    "Allo.C06_multi_eq_sequence",
    "Allo.C06_multi_eq_sequence_non",
    "Allo.C06_removed_unchanged",
    "Allo.C06_empty_coefficients_differ"
   ],
   "note": ""
  },
  {
   "property": "C07",
   "status": "proved",
   "theorems": [
    "Allo.C07_history",
    "Allo.C07_history_non",
    "Allo.C07_history_total"
   ],
   "note": ""
  },
  {
   "property": "C08",
   "status": "proved",
   "theorems": [
    "Allo.C08_none_iff",
    "Allo.C08_some",
    "Allo.C08_panic"
   ],
   "note": ""
  },
  {
   "property": "C09",
   "status": "proved",
   "theorems": [
    "Allo.C09_batch_update_non",
    "Allo.C09_deleted_unchanged"
   ],
   "note": ""
  },
  {
   "property": "C10",
   "status": "proved",
   "theorems": [
    "Allo.C10_verify_iff",
    "Allo.C10_member_accepted",
    "Allo.C10_update_across_own_addition",
    "Allo.C10_single_update_across_own_addition",
    "Allo.C10_counterexample"
   ],
   "note": ""
  },
  {
   "property": "C11",
   "status": "proved",
   "theorems": [
    "Allo.C11_single_add",
    "Allo.C11_single_delete",
    "Allo.C11_own_delete",
    "Allo.C11_single_add_non",
    "Allo.C11_single_delete_non",
    "Allo.C11_sequence",
    "Allo.C11_sequence_non",
    "Allo.C11_own_delete_later",
    "Allo.C11_two_deletions",
    "Allo.C11_two_additions",
    "Allo.C11_mixed",
    "Allo.C11_counterexample"
   ],
   "note": ""
  },
  {
   "property": "C12",
   "status": "proved",
   "theorems": [
    "Allo.C12_eval_degree",
    "Allo.C12_arith",
    "Allo.C12_lengths",
    "Allo.C12_eval_hom"
   ],
   "note": ""
  },
  {
   "property": "C13",
   "status": "proved",
   "theorems": [
    "Allo.C13_evaluate",
    "Allo.C13_arith"
   ],
   "note": ""
  },
  {
   "property": "C14",
   "status": "proved",
   "theorems": [
    "Allo.C14_dad",
    "Allo.C14_dad_zero"
   ],
   "note": ""
  },
  {
   "property": "C15",
   "status": "proved",
   "theorems": [
    "Allo.C15_refines",
    "Allo.C15_member_spec"
   ],
   "note": ""
  },
  {
   "property": "C16",
   "status": "proved",
   "theorems": [
    "Allo.C16_history",
    "Allo.C16_add_keeps"
   ],
   "note": ""
  },
  {
   "property": "C17",
   "status": "proved",
   "theorems": [
    "Allo.C17_stored_witnesses_valid"
   ],
   "note": ""
  },
  {
   "property": "C18",
   "status": "proved",
   "theorems": [
    "Allo.C18_delete_quickDelete"
   ],
   "note": ""
  },
  {
   "property": "C19",
   "status": "proved",
   "theorems": [
    "Allo.C19_revival"
   ],
   "note": ""
  },
  {
   "property": "C20",
   "status": "proved",
   "theorems": [
    "Allo.C20_no_panic"
   ],
   "note": ""
  },
  {
   "property": "C21",
   "status": "proved",
   "theorems": [
    "Allo.C21_witness"
   ],
   "note": ""
  },
  {
   "property": "C22",
   "status": "proved",
   "theorems": [
    "Allo.C22_create_witness",
    "Allo.C22_getters",
    "Allo.C22_nonmember"
   ],
   "note": ""
  },
  {
   "property": "C23",
   "status": "proved",
   "theorems": [
    "Allo.C23_check_witness"
   ],
   "note": ""
  },
  {
   "property": "C24",
   "status": "proved",
   "theorems": [
    "Allo.C24_stale",
    "Allo.C24_single"
   ],
   "note": ""
  },
  {
   "property": "C25",
   "status": "proved",
   "theorems": [
    "Allo.C25_bls",
    "Allo.C25_update"
   ],
   "note": ""
  },
  {
   "property": "C26",
   "status": "proved",
   "theorems": [
    "Allo.C26_bls",
    "Allo.C26_deleted"
   ],
   "note": ""
  },
  {
   "property": "C27",
   "status": "proved",
   "theorems": [
    "Allo.C27_second_update",
    "Allo.C27_with_epoch_set"
   ],
   "note": ""
  },
  {
   "property": "C28",
   "status": "proved",
   "theorems": [
    "Allo.C28_epoch_zero_panics",
    "Allo.C28_no_new_epoch_panics",
    "Allo.C28_future_epoch_panics"
   ],
   "note": ""
  },
  {
   "property": "C29",
   "status": "proved",
   "theorems": [
    "Allo.C29_threshold",
    "Allo.C29_update_errors",
    "Allo.C29_error_unchanged"
   ],
   "note": ""
  },
  {
   "property": "C30",
   "status": "proved",
   "theorems": [
    "Allo.C30_update_shape"
   ],
   "note": ""
  },
  {
   "property": "C31",
   "status": "proved",
   "theorems": [
    "Allo.C31_plain_powers"
   ],
   "note": ""
  },
  {
   "property": "C32",
   "status": "proved",
   "theorems": [
    "Allo.C32_chunk_size",
    "Allo.C32_prepare"
   ],
   "note": ""
  },
  {
   "property": "C33",
   "status": "proved",
   "theorems": [
    "Allo.C33_bls",
    "Allo.C33_shares",
    "Allo.C33_shares_onto",
    "Allo.C33_zero_threshold",
    "Allo.C33_round_trip",
    "Allo.C33_any_t_shares"
   ],
   "note": ""
  },
  {
   "property": "C34",
   "status": "proved",
   "theorems": [
    "Allo.C34_affine",
    "Allo.C34_affine_scalar"
   ],
   "note": ""
  },
  {
   "property": "C35",
   "status": "proved",
   "theorems": [
    "Allo.C35_exact",
    "Allo.C35_tamper",
    "Allo.C35_rest_ignored",
    "Allo.C35_exact_scalar",
    "Allo.C35_tamper_scalar",
    "Allo.C35_rest_ignored_scalar"
   ],
   "note": ""
  },
  {
   "property": "C36",
   "status": "proved",
   "theorems": [
    "Allo.C36_honest_accepted_iff",
    "Allo.C36_honest_accepted_iff_scalar",
    "Allo.C36_counterexample"
   ],
   "note": ""
  },
  {
   "property": "C37",
   "status": "proved",
   "theorems": [
    "Allo.C37_bls",
    "Allo.C37_secrecy",
    "Allo.C37_sessions",
    "Allo.C37_equal_counts",
    "Allo.C37_t_servers_learn_the_id"
   ],
   "note": ""
  },
  {
   "property": "C38",
   "status": "proved",
   "theorems": [
    "Allo.C38_one_liar",
    "Allo.C38_accepted_is_valid",
    "Allo.C38_bls"
   ],
   "note": ""
  },
  {
   "property": "C39",
   "status": "proved",
   "theorems": [
    "Allo.C39_control"
   ],
   "note": ""
  },
  {
   "property": "C40",
   "status": "proved",
   "theorems": [
    "Allo.C40_malformed_panics",
    "Allo.C40_ok_needs_enough"
   ],
   "note": ""
  },
  {
   "property": "C41",
   "status": "proved",
   "theorems": [
    "Allo.C41_silent_ok",
    "Allo.C41_silent_exact",
    "Allo.C41_first_silent_rejected",
    "Allo.C41_lagging_ok"
   ],
   "note": ""
  },
  {
   "property": "C42",
   "status": "proved",
   "theorems": [
    "Allo.C42_complete",
    "Allo.C42_user",
    "Allo.C42_user_keys"
   ],
   "note": ""
  },
  {
   "property": "C43",
   "status": "proved",
   "theorems": [
    "Allo.C43_special_sound",
    "Allo.C43_extracts_prover"
   ],
   "note": ""
  },
  {
   "property": "C44",
   "status": "proved",
   "theorems": [
    "Allo.C44_simulation",
    "Allo.C44_accepted_iff",
    "Allo.C44_anonymous",
    "Allo.C44_sessions"
   ],
   "note": ""
  },
  {
   "property": "C45",
   "status": "proved",
   "theorems": [
    "Allo.C45_binding"
   ],
   "note": ""
  },
  {
   "property": "C46",
   "status": "proved",
   "theorems": [
    "Allo.C46_finalize_iff",
    "Allo.C46_complete",
    "Allo.C46_issued",
    "Allo.C46_stale"
   ],
   "note": ""
  },
  {
   "property": "C47",
   "status": "proved",
   "theorems": [
    "Allo.C47_special_sound",
    "Allo.C47_extracted_is_witness",
    "Allo.C47_extracts_prover"
   ],
   "note": ""
  },
  {
   "property": "C48",
   "status": "proved",
   "theorems": [
    "Allo.C48_responses",
    "Allo.C48_same_triple",
    "Allo.C48_any_proof_is_honest",
    "Allo.C48_triple_determines_witness"
   ],
   "note": ""
  },
  {
   "property": "C49",
   "status": "proved",
   "theorems": [
    "Allo.C49_panics_iff",
    "Allo.C49_finalize_iff",
    "Allo.C49_complete",
    "Allo.C49_issued",
    "Allo.C49_stale",
    "Allo.C49_added"
   ],
   "note": ""
  },
  {
   "property": "C50",
   "status": "proved",
   "theorems": [
    "Allo.C50_special_sound",
    "Allo.C50_extracted_is_witness",
    "Allo.C50_extracts_prover"
   ],
   "note": ""
  },
  {
   "property": "C51",
   "status": "proved",
   "theorems": [
    "Allo.C51_mem_mem",
    "Allo.C51_mem_non",
    "Allo.C51_linked_mem_mem",
    "Allo.C51_linked_mem_non",
    "Allo.C51_hidden_unlinked",
    "Allo.C51_reuse_reveals"
   ],
   "note": ""
  },
  {
   "property": "C52",
   "status": "proved",
   "theorems": [
    "Allo.C52_cred_layout",
    "Allo.C52_mem_layout",
    "Allo.C52_cred_decode",
    "Allo.C52_cred_roundtrip",
    "Allo.C52_cred_unique",
    "Allo.C52_mem_decode",
    "Allo.C52_mem_roundtrip",
    "Allo.C52_mem_unique"
   ],
   "note": ""
  },
  {
   "property": "C53",
   "status": "proved",
   "theorems": [
    "Allo.C53_accept_iff",
    "Allo.C53_roundtrip",
    "Allo.C53_points",
    "Allo.C53_coefficient",
    "Allo.C53_non_membership"
   ],
   "note": ""
  },
  {
   "property": "C54",
   "status": "proved",
   "theorems": [
    "Allo.C54_random_is_hash",
    "Allo.C54_scalars",
    "Allo.C54_params_distinct",
    "Allo.C54_params_injective",
    "Allo.C54_acc_params",
    "Allo.C54_random_accumulator",
    "Allo.C54_exact"
   ],
   "note": ""
  },
  {
   "property": "C55",
   "status": "proved",
   "theorems": [
    "Allo.C55_complete",
    "Allo.C55_special_sound",
    "Allo.C55_special_sound_applies",
    "Allo.C55_accept_iff",
    "Allo.C55_replay"
   ],
   "note": ""
  },
  {
   "property": "C56",
   "status": "proved",
   "theorems": [
    "Allo.C56_random"
   ],
   "note": ""
  },
  {
   "property": "C57",
   "status": "proved",
   "theorems": [
    "Allo.C57_bls",
    "Allo.C57_recorded_valid",
    "Allo.C57_proof_accepted",
    "Allo.C57_update_succeeds"
   ],
   "note": ""
  },
  {
   "property": "C58",
   "status": "proved",
   "theorems": [
    "Allo.C58_wrong_window",
    "Allo.C58_exact_threshold_lagging_corrupts"
   ],
   "note": ""
  },
  {
   "property": "C59",
   "status": "proved",
   "theorems": [
    "Allo.C59_revocation_sdh",
    "Allo.C59_forged_proof"
   ],
   "note": ""
  },
  {
   "property": "C60",
   "status": "proved",
   "theorems": [
    "Allo.C60_membership_forgery",
    "Allo.C60_nonmembership_forgery",
    "Allo.C60_both_witnesses"
   ],
   "note": ""
  },
  {
   "property": "C61",
   "status": "proved",
   "theorems": [
    "Allo.C61_unenrolled_sdh",
    "Allo.C61_exception"
   ],
   "note": ""
  },
  {
   "property": "C62",
   "status": "proved",
   "theorems": [
    "Allo.C62_anyone_enrols",
    "Allo.C62_any_key",
    "Allo.C62_request",
    "Allo.C62_zero_knowledge"
   ],
   "note": ""
  },
  {
   "property": "C63",
   "status": "proved",
   "theorems": [
    "Allo.C63_call",
    "Allo.C63_users_unread",
    "Allo.C63_history",
    "Allo.C63_create_witness",
    "Allo.C63_update",
    "Allo.C63_panic_state",
    "Allo.C63_all_users"
   ],
   "note": ""
  },
  {
   "property": "C64",
   "status": "proved",
   "theorems": [
    "Allo.C64_f64_error",
    "Allo.C64_f64_even",
    "Allo.C64_seed_pos",
    "Allo.C64_rounding_harmless",
    "Allo.C64_communication",
    "Allo.C64_near_optimal",
    "Allo.C64_no_overflow"
   ],
   "note": ""
  },
  {
   "property": "C65",
   "status": "proved",
   "theorems": [
    "Allo.C65_responses",
    "Allo.C65_same_triple",
    "Allo.C65_triple_determines_point"
   ],
   "note": ""
  },
  {
   "property": "C66",
   "status": "proved",
   "theorems": [
    "Allo.C66_mem_accumulator",
    "Allo.C66_mem_key",
    "Allo.C66_non_accumulator",
    "Allo.C66_non_key",
    "Allo.C66_mem_both",
    "Allo.C66_non_both",
    "Allo.C66_mem_binding",
    "Allo.C66_non_binding",
    "Allo.C66_params_binding",
    "Allo.C66_accumulator_must_be_hashed"
   ],
   "note": ""
  },
  {
   "property": "C67",
   "status": "proved",
   "theorems": [
    "Allo.C67_slices_cover",
    "Allo.C67_slices_small",
    "Allo.C67_accumulator",
    "Allo.C67_size",
    "Allo.C67_witness",
    "Allo.C67_non_witness",
    "Allo.C67_scenario"
   ],
   "note": ""
  },
  {
   "property": "C68",
   "status": "proved",
   "theorems": [
    "Allo.C68_follow_log",
    "Allo.C68_built",
    "Allo.C68_sign_key_base",
    "Allo.C68_bench"
   ],
   "note": ""
  },
  {
   "property": "C69",
   "status": "proved",
   "theorems": [
    "Allo.C69_types",
    "Allo.C69_restore",
    "Allo.C69_transparent",
    "Allo.C69_read_wf",
    "Allo.C69_message_bytes",
    "Allo.C69_sizes"
   ],
   "note": ""
  },
  {
   "property": "C70",
   "status": "proved",
   "theorems": [
    "Allo.C70_knowledge",
    "Allo.C70_revocation",
    "Allo.C70_unenrolled",
    "Allo.C70_query_set",
    "Allo.C70_honest"
   ],
   "note": ""
  },
  {
   "property": "C71",
   "status": "proved",
   "theorems": [
    "Allo.C71_membership",
    "Allo.C71_nonmembership",
    "Allo.C71_membership_in_set",
    "Allo.C71_nonmembership_in_set",
    "Allo.C71_honest",
    "Allo.C71_honest_non"
   ],
   "note": ""
  },
  {
   "property": "C72",
   "status": "proved",
   "theorems": [
    "Allo.C72_enrol_knowledge",
    "Allo.C72_honest"
   ],
   "note": ""
  },
  {
   "property": "C73",
   "status": "proved",
   "theorems": [
    "Allo.C73_server",
    "Allo.C73_prepare",
    "Allo.C73_no_new_epoch",
    "Allo.C73_prepare_future",
    "Allo.C73_future_epoch",
    "Allo.C73_update",
    "Allo.C73_honest_update"
   ],
   "note": ""
  },
  {
   "property": "C74",
   "status": "proved",
   "theorems": [
    "Allo.C74_selective_failure",
    "Allo.C74_guess",
    "Allo.C74_accepted_iff",
    "Allo.C74_no_leak"
   ],
   "note": ""
  },
  {
   "property": "C75",
   "status": "proved",
   "theorems": [
    "Allo.C75_same_log",
    "Allo.C75_log",
    "Allo.C75_order_of_adds",
    "Allo.C75_update",
    "Allo.C75_missed_add"
   ],
   "note": ""
  },
  {
   "property": "C76",
   "status": "proved",
   "theorems": [
    "Allo.C76_anonymous"
   ],
   "note": ""
  },
  {
   "property": "C77",
   "status": "proved",
   "theorems": [
    "Allo.C77_nonmalleable",
    "Allo.C77_other_context"
   ],
   "note": ""
  },
  {
   "property": "C78",
   "status": "proved",
   "theorems": [
    "Allo.C78_prover",
    "Allo.C78_zero_knowledge",
    "Allo.C78_worlds",
    "Allo.C78_query_set"
   ],
   "note": ""
  },
  {
   "property": "C79",
   "status": "proved",
   "theorems": [
    "Allo.C79_fresh_transcript",
    "Allo.C79_not_a_copy",
    "Allo.C79_revocation",
    "Allo.C79_example"
   ],
   "note": ""
  },
  {
   "property": "C80",
   "status": "proved",
   "theorems": [
    "Allo.C80_any_hash",
    "Allo.C80_witness",
    "Allo.C80_element_hash",
    "Allo.C80_run"
   ],
   "note": ""
  },
  {
   "property": "C81",
   "status": "proved",
   "theorems": [
    "Allo.C81_nonmalleable",
    "Allo.C81_request",
    "Allo.C81_zero_knowledge",
    "Allo.C81_extract",
    "Allo.C81_impersonation",
    "Allo.C81_query_set",
    "Allo.C81_example"
   ],
   "note": ""
  },
  {
   "property": "C82",
   "status": "proved",
   "theorems": [
    "Allo.C82_each_scalar",
    "Allo.C82_several",
    "Allo.C82_generate_fr",
    "Allo.C82_random_ids",
    "Allo.C82_challenges",
    "Allo.C82_query_set",
    "Allo.C82_knowledge"
   ],
   "note": ""
  },
  {
   "property": "C83",
   "status": "proved",
   "theorems": [
    "Allo.C83_frame",
    "Allo.C83_updates",
    "Allo.C83_enrol_resets",
    "Allo.C83_foreign_keys"
   ],
   "note": ""
  },
  {
   "property": "C84",
   "status": "proved",
   "theorems": [
    "Allo.C84_simulation",
    "Allo.C84_forgery",
    "Allo.C84_deleted",
    "Allo.C84_credential",
    "Allo.C84_not_added",
    "Allo.C84_query_set",
    "Allo.C84_presentation",
    "Allo.C84_insider"
   ],
   "note": ""
  },
  {
   "property": "C85",
   "status": "proved",
   "theorems": [
    "Allo.C85_simulation",
    "Allo.C85_forgery",
    "Allo.C85_credential",
    "Allo.C85_not_enrolled",
    "Allo.C85_two_problems",
    "Allo.C85_query_set",
    "Allo.C85_presentation"
   ],
   "note": ""
  },
  {
   "property": "C86",
   "status": "proved",
   "theorems": [
    "Allo.C86_simulation",
    "Allo.C86_forgery",
    "Allo.C86_witness",
    "Allo.C86_query_set",
    "Allo.C86_membership_proof",
    "Allo.C86_nonmembership_proof"
   ],
   "note": ""
  },
  {
   "property": "C87",
   "status": "proved",
   "theorems": [
    "Allo.C87_membership",
    "Allo.C87_membership_worlds",
    "Allo.C87_nonmembership",
    "Allo.C87_nonmembership_worlds",
    "Allo.C87_prover",
    "Allo.C87_query_set",
    "Allo.C87_example"
   ],
   "note": ""
  },
  {
   "property": "C88",
   "status": "proved",
   "theorems": [
    "Allo.C88_unforgeable"
   ],
   "note": ""
  },
  {
   "property": "C89",
   "status": "proved",
   "theorems": [
    "Allo.C89_anonymous",
    "Allo.C89_live",
    "Allo.C89_enrol"
   ],
   "note": ""
  },
  {
   "property": "C90",
   "status": "proved",
   "theorems": [
    "Allo.C90_same",
    "Allo.C90_changes",
    "Allo.C90_server_update",
    "Allo.C90_post_update",
    "Allo.C90_batch_update",
    "Allo.C90_update"
   ],
   "note": ""
  },
  {
   "property": "C91",
   "status": "proved",
   "theorems": [
    "Allo.C91_identity_accumulator",
    "Allo.C91_identity_accumulator_credential",
    "Allo.C91_becomes_identity",
    "Allo.C91_server",
    "Allo.C91_mixing",
    "Allo.C91_zero_key",
    "Allo.C91_identity_keys",
    "Allo.C91_identity_params",
    "Allo.C91_identity_z",
    "Allo.C91_identity_z_linkable"
   ],
   "note": ""
  },
  {
   "property": "C92",
   "status": "proved",
   "theorems": [
    "Allo.C92_presentations",
    "Allo.C92_mem_proofs",
    "Allo.C92_non_proofs",
    "Allo.C92_shared_blinding",
    "Allo.C92_update_queries"
   ],
   "note": ""
  },
  {
   "property": "C93",
   "status": "proved",
   "theorems": [
    "Allo.C93_repeated",
    "Allo.C93_update_iff",
    "Allo.C93_lost_future",
    "Allo.C93_revives"
   ],
   "note": ""
  },
  {
   "property": "C94",
   "status": "proved",
   "theorems": [
    "Allo.C94_one_fate",
    "Allo.C94_reinstated",
    "Allo.C94_update_refused"
   ],
   "note": ""
  },
  {
   "property": "C95",
   "status": "proved",
   "theorems": [
    "Allo.C95_accumulator",
    "Allo.C95_false_witness",
    "Allo.C95_key",
    "Allo.C95_update_test",
    "Allo.C95_batch_tests",
    "Allo.C95_proofs",
    "Allo.C95_growing",
    "Allo.C95_shamir",
    "Allo.C95_witness_issue",
    "Allo.C95_witness_update",
    "Allo.C95_split_update",
    "Allo.C95_present_all",
    "Allo.C95_present_stale"
   ],
   "note": ""
  },
  {
   "property": "C96",
   "status": "proved",
   "theorems": [
    "Allo.C96_total",
    "Allo.C96_accept_iff"
   ],
   "note": ""
  },
  {
   "property": "C97",
   "status": "proved",
   "theorems": [
    "Allo.C97_recover",
    "Allo.C97_deleted"
   ],
   "note": ""
  },
  {
   "property": "C98",
   "status": "proved",
   "theorems": [
    "Allo.C98_check",
    "Allo.C98_make",
    "Allo.C98_enrol",
    "Allo.C98_membership_check",
    "Allo.C98_membership_make",
    "Allo.C98_nonmembership_check",
    "Allo.C98_nonmembership_make",
    "Allo.C98_params",
    "Allo.C98_separate"
   ],
   "note": ""
  },
  {
   "property": "C99",
   "status": "proved",
   "theorems": [
    "Allo.C99_binding",
    "Allo.C99_collision_reveals_key",
    "Allo.C99_updates",
    "Allo.C99_removed_rejected",
    "Allo.C99_epochs"
   ],
   "note": ""
  },
  {
   "property": "C100",
   "status": "proved",
   "theorems": [
    "Allo.C100_one_witness_per_d",
    "Allo.C100_both_claims",
    "Allo.C100_add_twice",
    "Allo.C100_removed_once",
    "Allo.C100_remove_absent"
   ],
   "note": ""
  },
  {
   "property": "C101",
   "status": "proved",
   "theorems": [
    "Allo.C101_same",
    "Allo.C101_server_update",
    "Allo.C101_prepare",
    "Allo.C101_post_update",
    "Allo.C101_changes",
    "Allo.C101_batch_update"
   ],
   "note": ""
  },
  {
   "property": "C102",
   "status": "proved",
   "theorems": [
    "Allo.Bench.C102_messages",
    "Allo.C102_allosaur",
    "Allo.C102_single_server",
    "Allo.C102_slices",
    "Allo.C102_single_server_bytes",
    "Allo.C102_fewer_bytes",
    "Allo.C102_more_bytes"
   ],
   "note": ""
  },
  {
   "property": "C103",
   "status": "proved",
   "theorems": [
    "Allo.C103_result",
    "Allo.C103_valid_iff",
    "Allo.C103_race",
    "Allo.C103_same_shares"
   ],
   "note": ""
  },
  {
   "property": "C104",
   "status": "proved",
   "theorems": [
    "Allo.C104_discrete_log",
    "Allo.C104_presentations",
    "Allo.C104_revocation",
    "Allo.C104_key_relation",
    "Allo.C104_uniform",
    "Allo.C104_proof_params_good",
    "Allo.C104_membership",
    "Allo.C104_nonmembership",
    "Allo.C104_query_set",
    "Allo.C104_honest"
   ],
   "note": ""
  },
  {
   "property": "C105",
   "status": "proved",
   "theorems": [
    "Allo.C105_unforgeable",
    "Allo.C105_corrupted",
    "Allo.C105_outsider"
   ],
   "note": ""
  },
  {
   "property": "C106",
   "status": "proved",
   "theorems": [
    "Allo.C106_game",
    "Allo.C106_anonymous",
    "Allo.C106_unforgeable",
    "Allo.C106_outsider"
   ],
   "note": ""
  },
  {
   "property": "C107",
   "status": "proved",
   "theorems": [
    "Allo.C107_same",
    "Allo.C107_show",
    "Allo.C107_alike",
    "Allo.C107_check",
    "Allo.C107_enrol",
    "Allo.C107_create_witness",
    "Allo.C107_vb",
    "Allo.C107_counts"
   ],
   "note": ""
  },
  {
   "property": "C108",
   "status": "proved",
   "theorems": [
    "Allo.C108_enrol",
    "Allo.C108_update",
    "Allo.C108_scale",
    "Allo.C108_recognised"
   ],
   "note": ""
  },
  {
   "property": "C109",
   "status": "proved",
   "theorems": [
    "Allo.C109_uses",
    "Allo.C109_keyless_replica",
    "Allo.C109_wrong_key",
    "Allo.C109_stolen_accumulator_key",
    "Allo.C109_stolen_signing_key"
   ],
   "note": ""
  },
  {
   "property": "C110",
   "status": "proved",
   "theorems": [
    "Allo.C110_download",
    "Allo.C110_nothing_else",
    "Allo.C110_published_witness",
    "Allo.C110_recover",
    "Allo.C110_proofs"
   ],
   "note": ""
  },
  {
   "property": "C111",
   "status": "proved",
   "theorems": [
    "Allo.C111_reversed",
    "Allo.C111_shifted",
    "Allo.C111_exactly_t",
    "Allo.C111_reversed_wrong",
    "Allo.C111_shifted_wrong"
   ],
   "note": ""
  },
  {
   "property": "C112",
   "status": "proved",
   "theorems": [
    "Allo.C112_types",
    "Allo.C112_documents",
    "Allo.C112_user_without_witness",
    "Allo.C112_restore",
    "Allo.C112_read_wf",
    "Allo.C112_transparent"
   ],
   "note": ""
  },
  {
   "property": "C113",
   "status": "proved",
   "theorems": [
    "Allo.C113_display",
    "Allo.C113_same_name",
    "Allo.C113_labels",
    "Allo.C113_debug_leaks",
    "Allo.C113_debug"
   ],
   "note": ""
  },
  {
   "property": "C114",
   "status": "proved",
   "theorems": [
    "Allo.C114_mixed_detected_bls",
    "Allo.C114_session_free",
    "Allo.C114_mixed_detected",
    "Allo.C114_mixed_exactly_t"
   ],
   "note": ""
  },
  {
   "property": "C115",
   "status": "proved",
   "theorems": [
    "Allo.C115_smaller_bls",
    "Allo.C115_larger",
    "Allo.C115_lengths",
    "Allo.C115_smaller",
    "Allo.C115_smaller_exact"
   ],
   "note": ""
  },
  {
   "property": "C116",
   "status": "proved",
   "theorems": [
    "Allo.C116_delivered",
    "Allo.C116_accepted_iff",
    "Allo.C116_count",
    "Allo.C116_anonymous",
    "Allo.C116_nonmalleable",
    "Allo.C116_vb_delivered",
    "Allo.C116_vb_unique",
    "Allo.C116_vb_nonmalleable"
   ],
   "note": ""
  },
  {
   "property": "C117",
   "status": "proved",
   "theorems": [
    "Allo.C117_same",
    "Allo.C117_batch_change",
    "Allo.C117_cubic",
    "Allo.C117_plain_change",
    "Allo.C117_multi_batch",
    "Allo.C117_multi_or_single",
    "Allo.C117_single_updates"
   ],
   "note": ""
  },
  {
   "property": "C118",
   "status": "proved",
   "theorems": [
    "Allo.C118_non_unique",
    "Allo.C118_non_second",
    "Allo.C118_non_nonmalleable",
    "Allo.C118_made_up",
    "Allo.C118_default",
    "Allo.C118_default_vb"
   ],
   "note": ""
  },
  {
   "property": "C119",
   "status": "proved",
   "theorems": [
    "Allo.C119_error",
    "Allo.C119_update_iff",
    "Allo.C119_chain",
    "Allo.C119_damage"
   ],
   "note": ""
  },
  {
   "property": "C120",
   "status": "proved",
   "theorems": [
    "Allo.C120_state",
    "Allo.C120_issue",
    "Allo.C120_update",
    "Allo.C120_safe_history",
    "Allo.C120_safe_update",
    "Allo.C120_unsafe_update",
    "Allo.C120_careful",
    "Allo.C120_careful_covers",
    "Allo.C120_fresh",
    "Allo.C120_error_iff",
    "Allo.C120_chain",
    "Allo.C120_damage",
    "Allo.C120_liar",
    "Allo.C120_liar_and_silent",
    "Allo.C120_error",
    "Allo.C120_recover",
    "Allo.C120_reinstated"
   ],
   "note": ""
  },
  {
   "property": "C121",
   "status": "proved",
   "theorems": [
    "Allo.C121_factor",
    "Allo.C121_right_iff",
    "Allo.C121_rare",
    "Allo.C121_same_epoch",
    "Allo.C121_returns_ok"
   ],
   "note": ""
  },
  {
   "property": "C122",
   "status": "proved",
   "theorems": [
    "Allo.C122_wrong_accepted",
    "Allo.C122_not_noticed",
    "Allo.C122_control",
    "Allo.C122_harmless",
    "Allo.C122_one_server",
    "Allo.C122_accepted_once"
   ],
   "note": ""
  },
  {
   "property": "C123",
   "status": "proved",
   "theorems": [
    "Allo.C123_always_valid",
    "Allo.C123_revoked_stuck",
    "Allo.C123_progress"
   ],
   "note": ""
  },
  {
   "property": "C124",
   "status": "proved",
   "theorems": [
    "Allo.C124_first_silent",
    "Allo.C124_accepted_lie_bls",
    "Allo.C124_guess_bls",
    "Allo.C124_guess",
    "Allo.C124_first_answers",
    "Allo.C124_accepted_is_valid",
    "Allo.C124_spare_must_lie",
    "Allo.C124_one_answer",
    "Allo.C124_accepted_lie",
    "Allo.C124_two_known_id"
   ],
   "note": ""
  }
 ]
}