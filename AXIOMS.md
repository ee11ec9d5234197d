# Axioms of every theorem in MANIFEST.json

Printed by Lean (`collectAxioms`, the same as `#print axioms`). No theorem depends on any other axiom.
P = `propext`, Q = `Quot.sound`, C = `Classical.choice`.

| theorem | axioms |
|---|---|
| `Allo.Bench.C102_messages` | C P Q |
| `Allo.C01_unique` | C P Q |
| `Allo.C01_verify_iff` | P Q |
| `Allo.C02_new` | C P Q |
| `Allo.C02_nonmember` | C P Q |
| `Allo.C02_panic` | C P Q |
| `Allo.C03_add_elements` | P Q |
| `Allo.C03_add_remove` | C P Q |
| `Allo.C03_add_remove_elements` | C P Q |
| `Allo.C03_assign` | C P Q |
| `Allo.C03_commute` | C P Q |
| `Allo.C03_default` | P Q |
| `Allo.C03_order` | C P Q |
| `Allo.C03_panic` | C P Q |
| `Allo.C03_remove_add` | C P Q |
| `Allo.C03_remove_elements` | C P Q |
| `Allo.C03_update_acc` | C P Q |
| `Allo.C04_batch_update` | C P Q |
| `Allo.C04_update_panics` | C P Q |
| `Allo.C05_error_iff` | C P Q |
| `Allo.C05_removed_rejected` | C P Q |
| `Allo.C05_removed_unchanged` | C P Q |
| `Allo.C06_empty_coefficients_differ` | C P Q |
| `Allo.C06_multi_eq_sequence` | C P Q |
| `Allo.C06_multi_eq_sequence_non` | C P Q |
| `Allo.C06_removed_unchanged` | C P Q |
| `Allo.C07_history` | C P Q |
| `Allo.C07_history_non` | C P Q |
| `Allo.C07_history_total` | C P Q |
| `Allo.C08_none_iff` | C P Q |
| `Allo.C08_panic` | C P Q |
| `Allo.C08_some` | C P Q |
| `Allo.C09_batch_update_non` | C P Q |
| `Allo.C09_deleted_unchanged` | C P Q |
| `Allo.C100_add_twice` | C P Q |
| `Allo.C100_both_claims` | C P Q |
| `Allo.C100_one_witness_per_d` | C P Q |
| `Allo.C100_remove_absent` | C P Q |
| `Allo.C100_removed_once` | C P Q |
| `Allo.C101_batch_update` | C P Q |
| `Allo.C101_changes` | C P Q |
| `Allo.C101_post_update` | C P Q |
| `Allo.C101_prepare` | P Q |
| `Allo.C101_same` | C P Q |
| `Allo.C101_server_update` | C P Q |
| `Allo.C102_allosaur` | C P Q |
| `Allo.C102_fewer_bytes` | C P Q |
| `Allo.C102_more_bytes` | C P Q |
| `Allo.C102_single_server` | C P Q |
| `Allo.C102_single_server_bytes` | C P Q |
| `Allo.C102_slices` | C P Q |
| `Allo.C103_race` | C P Q |
| `Allo.C103_result` | C P Q |
| `Allo.C103_same_shares` | C P Q |
| `Allo.C103_valid_iff` | C P Q |
| `Allo.C104_discrete_log` | C P Q |
| `Allo.C104_honest` | C P Q |
| `Allo.C104_key_relation` | C P Q |
| `Allo.C104_membership` | C P Q |
| `Allo.C104_nonmembership` | C P Q |
| `Allo.C104_presentations` | C P Q |
| `Allo.C104_proof_params_good` | C P Q |
| `Allo.C104_query_set` | C P Q |
| `Allo.C104_revocation` | C P Q |
| `Allo.C104_uniform` | C P Q |
| `Allo.C105_corrupted` | C P Q |
| `Allo.C105_outsider` | C P Q |
| `Allo.C105_unforgeable` | C P Q |
| `Allo.C106_anonymous` | C P Q |
| `Allo.C106_game` | C P Q |
| `Allo.C106_outsider` | C P Q |
| `Allo.C106_unforgeable` | C P Q |
| `Allo.C107_alike` | P Q |
| `Allo.C107_check` | P Q |
| `Allo.C107_counts` |  |
| `Allo.C107_create_witness` | C P Q |
| `Allo.C107_enrol` | C P Q |
| `Allo.C107_same` | C P Q |
| `Allo.C107_show` | P Q |
| `Allo.C107_vb` | C P Q |
| `Allo.C108_enrol` | C P Q |
| `Allo.C108_recognised` | C P Q |
| `Allo.C108_scale` | C P Q |
| `Allo.C108_update` | C P Q |
| `Allo.C109_keyless_replica` | C P Q |
| `Allo.C109_stolen_accumulator_key` | C P Q |
| `Allo.C109_stolen_signing_key` | C P Q |
| `Allo.C109_uses` | C P Q |
| `Allo.C109_wrong_key` | C P Q |
| `Allo.C10_counterexample` | C P Q |
| `Allo.C10_member_accepted` | P Q |
| `Allo.C10_single_update_across_own_addition` | C P Q |
| `Allo.C10_update_across_own_addition` | C P Q |
| `Allo.C10_verify_iff` | P Q |
| `Allo.C110_download` | C P Q |
| `Allo.C110_nothing_else` | C P Q |
| `Allo.C110_proofs` | C P Q |
| `Allo.C110_published_witness` | C P Q |
| `Allo.C110_recover` | C P Q |
| `Allo.C111_exactly_t` | C P Q |
| `Allo.C111_reversed` | C P Q |
| `Allo.C111_reversed_wrong` | C P Q |
| `Allo.C111_shifted` | C P Q |
| `Allo.C111_shifted_wrong` | C P Q |
| `Allo.C112_documents` | C P Q |
| `Allo.C112_read_wf` | P Q |
| `Allo.C112_restore` | C P Q |
| `Allo.C112_transparent` | C P Q |
| `Allo.C112_types` | C P Q |
| `Allo.C112_user_without_witness` | C P Q |
| `Allo.C113_debug` | C P Q |
| `Allo.C113_debug_leaks` | C P Q |
| `Allo.C113_display` | C P Q |
| `Allo.C113_labels` | C P Q |
| `Allo.C113_same_name` | C P Q |
| `Allo.C114_mixed_detected` | C P Q |
| `Allo.C114_mixed_detected_bls` | C P Q |
| `Allo.C114_mixed_exactly_t` | C P Q |
| `Allo.C114_session_free` | C P Q |
| `Allo.C115_larger` | C P Q |
| `Allo.C115_lengths` | C P Q |
| `Allo.C115_smaller` | C P Q |
| `Allo.C115_smaller_bls` | C P Q |
| `Allo.C115_smaller_exact` | C P Q |
| `Allo.C116_accepted_iff` | C P Q |
| `Allo.C116_anonymous` | C P Q |
| `Allo.C116_count` | C P Q |
| `Allo.C116_delivered` | C P Q |
| `Allo.C116_nonmalleable` | C P Q |
| `Allo.C116_vb_delivered` | C P Q |
| `Allo.C116_vb_nonmalleable` | C P Q |
| `Allo.C116_vb_unique` | C P Q |
| `Allo.C117_batch_change` | C P Q |
| `Allo.C117_cubic` | C P Q |
| `Allo.C117_multi_batch` | C P Q |
| `Allo.C117_multi_or_single` | C P Q |
| `Allo.C117_plain_change` | C P Q |
| `Allo.C117_same` | C P Q |
| `Allo.C117_single_updates` | C P Q |
| `Allo.C118_default` | P Q |
| `Allo.C118_default_vb` | P Q |
| `Allo.C118_made_up` | C P Q |
| `Allo.C118_non_nonmalleable` | C P Q |
| `Allo.C118_non_second` | C P Q |
| `Allo.C118_non_unique` | C P Q |
| `Allo.C119_chain` | C P Q |
| `Allo.C119_damage` | C P Q |
| `Allo.C119_error` | C P Q |
| `Allo.C119_update_iff` | C P Q |
| `Allo.C11_counterexample` | C P Q |
| `Allo.C11_mixed` | C P Q |
| `Allo.C11_own_delete` | C P Q |
| `Allo.C11_own_delete_later` | C P Q |
| `Allo.C11_sequence` | C P Q |
| `Allo.C11_sequence_non` | C P Q |
| `Allo.C11_single_add` | C P Q |
| `Allo.C11_single_add_non` | C P Q |
| `Allo.C11_single_delete` | C P Q |
| `Allo.C11_single_delete_non` | C P Q |
| `Allo.C11_two_additions` | C P Q |
| `Allo.C11_two_deletions` | C P Q |
| `Allo.C120_careful` | P Q |
| `Allo.C120_careful_covers` | P Q |
| `Allo.C120_chain` | C P Q |
| `Allo.C120_damage` | C P Q |
| `Allo.C120_error` | C P Q |
| `Allo.C120_error_iff` | C P Q |
| `Allo.C120_fresh` | C P Q |
| `Allo.C120_issue` | C P Q |
| `Allo.C120_liar` | C P Q |
| `Allo.C120_liar_and_silent` | C P Q |
| `Allo.C120_recover` | C P Q |
| `Allo.C120_reinstated` | C P Q |
| `Allo.C120_safe_history` | C P Q |
| `Allo.C120_safe_update` | C P Q |
| `Allo.C120_state` | C P Q |
| `Allo.C120_unsafe_update` | C P Q |
| `Allo.C120_update` | C P Q |
| `Allo.C121_factor` | C P Q |
| `Allo.C121_rare` | C P Q |
| `Allo.C121_returns_ok` | C P Q |
| `Allo.C121_right_iff` | C P Q |
| `Allo.C121_same_epoch` | C P Q |
| `Allo.C122_accepted_once` | C P Q |
| `Allo.C122_control` | C P Q |
| `Allo.C122_harmless` | C P Q |
| `Allo.C122_not_noticed` | C P Q |
| `Allo.C122_one_server` | C P Q |
| `Allo.C122_wrong_accepted` | C P Q |
| `Allo.C123_always_valid` | C P Q |
| `Allo.C123_progress` | C P Q |
| `Allo.C123_revoked_stuck` | C P Q |
| `Allo.C124_accepted_is_valid` | C P Q |
| `Allo.C124_accepted_lie` | C P Q |
| `Allo.C124_accepted_lie_bls` | C P Q |
| `Allo.C124_first_answers` | C P Q |
| `Allo.C124_first_silent` | C P Q |
| `Allo.C124_guess` | C P Q |
| `Allo.C124_guess_bls` | C P Q |
| `Allo.C124_one_answer` | C P Q |
| `Allo.C124_spare_must_lie` | C P Q |
| `Allo.C124_two_known_id` | C P Q |
| `Allo.C12_arith` | C P Q |
| `Allo.C12_eval_degree` | P Q |
| `Allo.C12_eval_hom` | C P Q |
| `Allo.C12_lengths` | P Q |
| `Allo.C13_arith` | C P Q |
| `Allo.C13_evaluate` | P Q |
| `Allo.C14_dad` | P Q |
| `Allo.C14_dad_zero` | C P Q |
| `Allo.C15_member_spec` | P Q |
| `Allo.C15_refines` | C P Q |
| `Allo.C16_add_keeps` | C P Q |
| `Allo.C16_history` | C P Q |
| `Allo.C17_stored_witnesses_valid` | C P Q |
| `Allo.C18_delete_quickDelete` | C P Q |
| `Allo.C19_revival` | C P Q |
| `Allo.C20_no_panic` | C P Q |
| `Allo.C21_witness` | C P Q |
| `Allo.C22_create_witness` | C P Q |
| `Allo.C22_getters` | C P Q |
| `Allo.C22_nonmember` | C P Q |
| `Allo.C23_check_witness` | C P Q |
| `Allo.C24_single` | C P Q |
| `Allo.C24_stale` | C P Q |
| `Allo.C25_bls` | C P Q |
| `Allo.C25_update` | C P Q |
| `Allo.C26_bls` | C P Q |
| `Allo.C26_deleted` | C P Q |
| `Allo.C27_second_update` | C P Q |
| `Allo.C27_with_epoch_set` | C P Q |
| `Allo.C28_epoch_zero_panics` | C P Q |
| `Allo.C28_future_epoch_panics` | C P Q |
| `Allo.C28_no_new_epoch_panics` | C P Q |
| `Allo.C29_error_unchanged` | C P Q |
| `Allo.C29_threshold` | P Q |
| `Allo.C29_update_errors` | C P Q |
| `Allo.C30_update_shape` | C P Q |
| `Allo.C31_plain_powers` | C P Q |
| `Allo.C32_chunk_size` | C P Q |
| `Allo.C32_prepare` | C P Q |
| `Allo.C33_any_t_shares` | C P Q |
| `Allo.C33_bls` | C P Q |
| `Allo.C33_round_trip` | C P Q |
| `Allo.C33_shares` | P Q |
| `Allo.C33_shares_onto` | C P Q |
| `Allo.C33_zero_threshold` | P Q |
| `Allo.C34_affine` | C P Q |
| `Allo.C34_affine_scalar` | C P Q |
| `Allo.C35_exact` | C P Q |
| `Allo.C35_exact_scalar` | C P Q |
| `Allo.C35_rest_ignored` | C P Q |
| `Allo.C35_rest_ignored_scalar` | C P Q |
| `Allo.C35_tamper` | C P Q |
| `Allo.C35_tamper_scalar` | C P Q |
| `Allo.C36_counterexample` | C P Q |
| `Allo.C36_honest_accepted_iff` | C P Q |
| `Allo.C36_honest_accepted_iff_scalar` | C P Q |
| `Allo.C37_bls` | C P Q |
| `Allo.C37_equal_counts` | C P Q |
| `Allo.C37_secrecy` | C P Q |
| `Allo.C37_sessions` | C P Q |
| `Allo.C37_t_servers_learn_the_id` | C P Q |
| `Allo.C38_accepted_is_valid` | C P Q |
| `Allo.C38_bls` | C P Q |
| `Allo.C38_one_liar` | C P Q |
| `Allo.C39_control` | C P Q |
| `Allo.C40_malformed_panics` | C P Q |
| `Allo.C40_ok_needs_enough` | C P Q |
| `Allo.C41_first_silent_rejected` | C P Q |
| `Allo.C41_lagging_ok` | C P Q |
| `Allo.C41_silent_exact` | C P Q |
| `Allo.C41_silent_ok` | C P Q |
| `Allo.C42_complete` | C P Q |
| `Allo.C42_user` | C P Q |
| `Allo.C42_user_keys` | C P Q |
| `Allo.C43_extracts_prover` | C P Q |
| `Allo.C43_special_sound` | C P Q |
| `Allo.C44_accepted_iff` | C P Q |
| `Allo.C44_anonymous` | C P Q |
| `Allo.C44_sessions` | C P Q |
| `Allo.C44_simulation` | C P Q |
| `Allo.C45_binding` | C P Q |
| `Allo.C46_complete` | C P Q |
| `Allo.C46_finalize_iff` | C P Q |
| `Allo.C46_issued` | C P Q |
| `Allo.C46_stale` | C P Q |
| `Allo.C47_extracted_is_witness` | C P Q |
| `Allo.C47_extracts_prover` | C P Q |
| `Allo.C47_special_sound` | C P Q |
| `Allo.C48_any_proof_is_honest` | P Q |
| `Allo.C48_responses` | P Q |
| `Allo.C48_same_triple` | C P Q |
| `Allo.C48_triple_determines_witness` | C P Q |
| `Allo.C49_added` | C P Q |
| `Allo.C49_complete` | C P Q |
| `Allo.C49_finalize_iff` | C P Q |
| `Allo.C49_issued` | C P Q |
| `Allo.C49_panics_iff` | C P Q |
| `Allo.C49_stale` | C P Q |
| `Allo.C50_extracted_is_witness` | C P Q |
| `Allo.C50_extracts_prover` | C P Q |
| `Allo.C50_special_sound` | C P Q |
| `Allo.C51_hidden_unlinked` | P Q |
| `Allo.C51_linked_mem_mem` | C P Q |
| `Allo.C51_linked_mem_non` | C P Q |
| `Allo.C51_mem_mem` | C P Q |
| `Allo.C51_mem_non` | C P Q |
| `Allo.C51_reuse_reveals` | C P Q |
| `Allo.C52_cred_decode` | C P Q |
| `Allo.C52_cred_layout` | P Q |
| `Allo.C52_cred_roundtrip` | C P Q |
| `Allo.C52_cred_unique` | C P Q |
| `Allo.C52_mem_decode` | C P Q |
| `Allo.C52_mem_layout` | P Q |
| `Allo.C52_mem_roundtrip` | C P Q |
| `Allo.C52_mem_unique` | C P Q |
| `Allo.C53_accept_iff` | C P Q |
| `Allo.C53_coefficient` | P Q |
| `Allo.C53_non_membership` | C P Q |
| `Allo.C53_points` | P Q |
| `Allo.C53_roundtrip` | C P Q |
| `Allo.C54_acc_params` | C P Q |
| `Allo.C54_exact` | C P Q |
| `Allo.C54_params_distinct` | C P Q |
| `Allo.C54_params_injective` | C P Q |
| `Allo.C54_random_accumulator` | C P Q |
| `Allo.C54_random_is_hash` | C P Q |
| `Allo.C54_scalars` | C P Q |
| `Allo.C55_accept_iff` | C P Q |
| `Allo.C55_complete` | C P Q |
| `Allo.C55_replay` | C P Q |
| `Allo.C55_special_sound` | C P Q |
| `Allo.C55_special_sound_applies` | C P Q |
| `Allo.C56_random` | C P Q |
| `Allo.C57_bls` | C P Q |
| `Allo.C57_proof_accepted` | C P Q |
| `Allo.C57_recorded_valid` | C P Q |
| `Allo.C57_update_succeeds` | C P Q |
| `Allo.C58_exact_threshold_lagging_corrupts` | C P Q |
| `Allo.C58_wrong_window` | C P Q |
| `Allo.C59_forged_proof` | C P Q |
| `Allo.C59_revocation_sdh` | C P Q |
| `Allo.C60_both_witnesses` | C P Q |
| `Allo.C60_membership_forgery` | C P Q |
| `Allo.C60_nonmembership_forgery` | C P Q |
| `Allo.C61_exception` | P Q |
| `Allo.C61_unenrolled_sdh` | C P Q |
| `Allo.C62_any_key` | C P Q |
| `Allo.C62_anyone_enrols` | C P Q |
| `Allo.C62_request` | C P Q |
| `Allo.C62_zero_knowledge` | P Q |
| `Allo.C63_all_users` | C P Q |
| `Allo.C63_call` | C P Q |
| `Allo.C63_create_witness` | C P Q |
| `Allo.C63_history` | C P Q |
| `Allo.C63_panic_state` | C P Q |
| `Allo.C63_update` | C P Q |
| `Allo.C63_users_unread` | C P Q |
| `Allo.C64_communication` | C P Q |
| `Allo.C64_f64_error` | C P Q |
| `Allo.C64_f64_even` | C P Q |
| `Allo.C64_near_optimal` | C P Q |
| `Allo.C64_no_overflow` | C P Q |
| `Allo.C64_rounding_harmless` | C P Q |
| `Allo.C64_seed_pos` | C P Q |
| `Allo.C65_responses` | C P Q |
| `Allo.C65_same_triple` | C P Q |
| `Allo.C65_triple_determines_point` | C P Q |
| `Allo.C66_accumulator_must_be_hashed` | C P Q |
| `Allo.C66_mem_accumulator` | C P Q |
| `Allo.C66_mem_binding` | C P Q |
| `Allo.C66_mem_both` | C P Q |
| `Allo.C66_mem_key` | C P Q |
| `Allo.C66_non_accumulator` | C P Q |
| `Allo.C66_non_binding` | C P Q |
| `Allo.C66_non_both` | C P Q |
| `Allo.C66_non_key` | C P Q |
| `Allo.C66_params_binding` | P Q |
| `Allo.C67_accumulator` | C P Q |
| `Allo.C67_non_witness` | C P Q |
| `Allo.C67_scenario` | C P Q |
| `Allo.C67_size` | C P Q |
| `Allo.C67_slices_cover` | P Q |
| `Allo.C67_slices_small` | P Q |
| `Allo.C67_witness` | C P Q |
| `Allo.C68_bench` | C P Q |
| `Allo.C68_built` | C P Q |
| `Allo.C68_follow_log` | C P Q |
| `Allo.C68_sign_key_base` | C P Q |
| `Allo.C69_message_bytes` | C P Q |
| `Allo.C69_read_wf` | P Q |
| `Allo.C69_restore` | P Q |
| `Allo.C69_sizes` | P Q |
| `Allo.C69_transparent` | C P Q |
| `Allo.C69_types` | C P Q |
| `Allo.C70_honest` | C P Q |
| `Allo.C70_knowledge` | C P Q |
| `Allo.C70_query_set` | C P Q |
| `Allo.C70_revocation` | C P Q |
| `Allo.C70_unenrolled` | C P Q |
| `Allo.C71_honest` | C P Q |
| `Allo.C71_honest_non` | C P Q |
| `Allo.C71_membership` | C P Q |
| `Allo.C71_membership_in_set` | C P Q |
| `Allo.C71_nonmembership` | C P Q |
| `Allo.C71_nonmembership_in_set` | C P Q |
| `Allo.C72_enrol_knowledge` | C P Q |
| `Allo.C72_honest` | C P Q |
| `Allo.C73_future_epoch` | C P Q |
| `Allo.C73_honest_update` | C P Q |
| `Allo.C73_no_new_epoch` | C P Q |
| `Allo.C73_prepare` | C P Q |
| `Allo.C73_prepare_future` | C P Q |
| `Allo.C73_server` | C P Q |
| `Allo.C73_update` | C P Q |
| `Allo.C74_accepted_iff` | C P Q |
| `Allo.C74_guess` | C P Q |
| `Allo.C74_no_leak` | C P Q |
| `Allo.C74_selective_failure` | C P Q |
| `Allo.C75_log` | P Q |
| `Allo.C75_missed_add` | C P Q |
| `Allo.C75_order_of_adds` | C P Q |
| `Allo.C75_same_log` | C P Q |
| `Allo.C75_update` | C P Q |
| `Allo.C76_anonymous` | C P Q |
| `Allo.C77_nonmalleable` | C P Q |
| `Allo.C77_other_context` | C P Q |
| `Allo.C78_prover` | C P Q |
| `Allo.C78_query_set` | C P Q |
| `Allo.C78_worlds` | C P Q |
| `Allo.C78_zero_knowledge` | C P Q |
| `Allo.C79_example` | C P Q |
| `Allo.C79_fresh_transcript` | C P Q |
| `Allo.C79_not_a_copy` | C P Q |
| `Allo.C79_revocation` | C P Q |
| `Allo.C80_any_hash` | C P Q |
| `Allo.C80_element_hash` | C P Q |
| `Allo.C80_run` | C P Q |
| `Allo.C80_witness` | C P Q |
| `Allo.C81_example` | C P Q |
| `Allo.C81_extract` | C P Q |
| `Allo.C81_impersonation` | C P Q |
| `Allo.C81_nonmalleable` | C P Q |
| `Allo.C81_query_set` | C P Q |
| `Allo.C81_request` | C P Q |
| `Allo.C81_zero_knowledge` | C P Q |
| `Allo.C82_challenges` | C P Q |
| `Allo.C82_each_scalar` | C P Q |
| `Allo.C82_generate_fr` | C P Q |
| `Allo.C82_knowledge` | C P Q |
| `Allo.C82_query_set` | C P Q |
| `Allo.C82_random_ids` | C P Q |
| `Allo.C82_several` | C P Q |
| `Allo.C83_enrol_resets` | C P Q |
| `Allo.C83_foreign_keys` | C P Q |
| `Allo.C83_frame` | C P Q |
| `Allo.C83_updates` | C P Q |
| `Allo.C84_credential` | C P Q |
| `Allo.C84_deleted` | C P Q |
| `Allo.C84_forgery` | C P Q |
| `Allo.C84_insider` | C P Q |
| `Allo.C84_not_added` | C P Q |
| `Allo.C84_presentation` | C P Q |
| `Allo.C84_query_set` | C P Q |
| `Allo.C84_simulation` | C P Q |
| `Allo.C85_credential` | C P Q |
| `Allo.C85_forgery` | C P Q |
| `Allo.C85_not_enrolled` | C P Q |
| `Allo.C85_presentation` | C P Q |
| `Allo.C85_query_set` | C P Q |
| `Allo.C85_simulation` | C P Q |
| `Allo.C85_two_problems` | C P Q |
| `Allo.C86_forgery` | C P Q |
| `Allo.C86_membership_proof` | C P Q |
| `Allo.C86_nonmembership_proof` | C P Q |
| `Allo.C86_query_set` | C P Q |
| `Allo.C86_simulation` | C P Q |
| `Allo.C86_witness` | C P Q |
| `Allo.C87_example` | C P Q |
| `Allo.C87_membership` | C P Q |
| `Allo.C87_membership_worlds` | C P Q |
| `Allo.C87_nonmembership` | C P Q |
| `Allo.C87_nonmembership_worlds` | C P Q |
| `Allo.C87_prover` | C P Q |
| `Allo.C87_query_set` | C P Q |
| `Allo.C88_unforgeable` | C P Q |
| `Allo.C89_anonymous` | C P Q |
| `Allo.C89_enrol` | C P Q |
| `Allo.C89_live` | C P Q |
| `Allo.C90_batch_update` | C P Q |
| `Allo.C90_changes` | C P Q |
| `Allo.C90_post_update` | C P Q |
| `Allo.C90_same` | C P Q |
| `Allo.C90_server_update` | C P Q |
| `Allo.C90_update` | C P Q |
| `Allo.C91_becomes_identity` | C P Q |
| `Allo.C91_identity_accumulator` | C P Q |
| `Allo.C91_identity_accumulator_credential` | C P Q |
| `Allo.C91_identity_keys` | C P Q |
| `Allo.C91_identity_params` | P Q |
| `Allo.C91_identity_z` | C P Q |
| `Allo.C91_identity_z_linkable` | C P Q |
| `Allo.C91_mixing` | C P Q |
| `Allo.C91_server` | C P Q |
| `Allo.C91_zero_key` | C P Q |
| `Allo.C92_mem_proofs` | C P Q |
| `Allo.C92_non_proofs` | C P Q |
| `Allo.C92_presentations` | C P Q |
| `Allo.C92_shared_blinding` | C P Q |
| `Allo.C92_update_queries` | C P Q |
| `Allo.C93_lost_future` | C P Q |
| `Allo.C93_repeated` | C P Q |
| `Allo.C93_revives` | C P Q |
| `Allo.C93_update_iff` | C P Q |
| `Allo.C94_one_fate` | P Q |
| `Allo.C94_reinstated` | C P Q |
| `Allo.C94_update_refused` | C P Q |
| `Allo.C95_accumulator` | C P Q |
| `Allo.C95_batch_tests` | C P Q |
| `Allo.C95_false_witness` | C P Q |
| `Allo.C95_growing` | C P Q |
| `Allo.C95_key` | C P Q |
| `Allo.C95_present_all` | C P Q |
| `Allo.C95_present_stale` | C P Q |
| `Allo.C95_proofs` | C P Q |
| `Allo.C95_shamir` | C P Q |
| `Allo.C95_split_update` | C P Q |
| `Allo.C95_update_test` | C P Q |
| `Allo.C95_witness_issue` | C P Q |
| `Allo.C95_witness_update` | C P Q |
| `Allo.C96_accept_iff` | C P Q |
| `Allo.C96_total` | C P Q |
| `Allo.C97_deleted` | C P Q |
| `Allo.C97_recover` | C P Q |
| `Allo.C98_check` | P Q |
| `Allo.C98_enrol` | C P Q |
| `Allo.C98_make` | C P Q |
| `Allo.C98_membership_check` | P Q |
| `Allo.C98_membership_make` | P Q |
| `Allo.C98_nonmembership_check` | P Q |
| `Allo.C98_nonmembership_make` | C P Q |
| `Allo.C98_params` | P |
| `Allo.C98_separate` | P |
| `Allo.C99_binding` | C P Q |
| `Allo.C99_collision_reveals_key` | C P Q |
| `Allo.C99_epochs` | C P Q |
| `Allo.C99_removed_rejected` | C P Q |
| `Allo.C99_updates` | C P Q |
