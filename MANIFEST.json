{
 "claims": [
  {
   "property": "C01",
   "status": "proved",
   "theorems": [
    "Verif.C01_string_shape",
    "Verif.C01_string_round_trip",
    "Verif.C01_compare_iff_string",
    "Verif.C01_path_shape",
    "Verif.C01_path_iff"
   ],
   "note": ""
  },
  {
   "property": "C02",
   "status": "proved",
   "theorems": [
    "Verif.C02_total",
    "Verif.C02_rejects_exactly",
    "Verif.C02_case_insensitive",
    "Verif.C02_value"
   ],
   "note": ""
  },
  {
   "property": "C03",
   "status": "proved",
   "theorems": [
    "Verif.C03_fromBytes",
    "Verif.C03_idempotent"
   ],
   "note": ""
  },
  {
   "property": "C04",
   "status": "proved",
   "theorems": [
    "Verif.C04_concatenation_only",
    "Verif.C04_rows_not_separated_neg",
    "Verif.C04_binding"
   ],
   "note": "The expectation of separated rows is refuted (_neg); what a hash does bind is proved."
  },
  {
   "property": "C05",
   "status": "proved",
   "theorems": [
    "Verif.C05_padding_with_floats",
    "Verif.C05_tree_shape"
   ],
   "note": ""
  },
  {
   "property": "C06",
   "status": "partial",
   "theorems": [
    "Verif.C06_empty_panics_neg",
    "Verif.C06_fails_only_on_empty_partial"
   ],
   "note": "Expectation refuted for the code as it is (theorems ending in _neg, for all inputs named there). Partial: for non-empty data building never fails."
  },
  {
   "property": "C07",
   "status": "proved",
   "theorems": [
    "Verif.C07_merkle_binding",
    "Verif.C07_data_binding"
   ],
   "note": ""
  },
  {
   "property": "C08",
   "status": "proved",
   "theorems": [
    "Verif.C08_padding_ambiguous_neg",
    "Verif.C08_inner_nodes_ambiguous_neg"
   ],
   "note": "Expectation refuted for the code as it is (theorems ending in _neg, for all inputs named there)."
  },
  {
   "property": "C09",
   "status": "proved",
   "theorems": [
    "Verif.C09_compact_round_trip",
    "Verif.C09_full_round_trip"
   ],
   "note": ""
  },
  {
   "property": "C10",
   "status": "proved",
   "theorems": [
    "Verif.C10_order_restores",
    "Verif.C10_order_sound"
   ],
   "note": ""
  },
  {
   "property": "C11",
   "status": "proved",
   "theorems": [
    "Verif.C11_compact_head_unchecked_neg",
    "Verif.C11_forged_head_neg",
    "Verif.C11_rebuild_exact",
    "Verif.C11_stack_irrelevant",
    "Verif.C11_missing_node_panics_neg"
   ],
   "note": "Expectation refuted for the code as it is (theorems ending in _neg, for all inputs named there). Exact conditions for rebuilding are proved."
  },
  {
   "property": "C12",
   "status": "partial",
   "theorems": [
    "Verif.C12_sign_succeeds_iff",
    "Verif.C12_recovered_iff",
    "Verif.C12_sign_recovers_public_key_partial",
    "Verif.C12_large_private_keys_neg"
   ],
   "note": "Partial: private keys up to K = 0x877...7 (C122), among them all created ones (C116); larger ones are refuted (_neg). Exactly when signing succeeds and when the signer is recovered: C12_sign_succeeds_iff, C12_recovered_iff."
  },
  {
   "property": "C13",
   "status": "proved",
   "theorems": [
    "Verif.C13_verify_accepts_forgeries_neg",
    "Verif.C13_verify_exact"
   ],
   "note": "Expectation refuted for the code as it is (theorems ending in _neg, for all inputs named there). C13_verify_exact gives the exact acceptance condition."
  },
  {
   "property": "C14",
   "status": "partial",
   "theorems": [
    "Verif.C14_ring_sign_verifies_partial",
    "Verif.C14_large_private_keys_neg",
    "Verif.C14_ring_sign_fails_iff"
   ],
   "note": "Partial: private keys up to K = 0x877...7 (C122), among them all created ones (C116); larger ones are refuted (_neg). Exactly when signing succeeds and when the signer is recovered: C12_sign_succeeds_iff, C12_recovered_iff. The condition for failure is exact."
  },
  {
   "property": "C15",
   "status": "proved",
   "theorems": [
    "Verif.C15_text_round_trip",
    "Verif.C15_text_round_trip_canonical",
    "Verif.C15_signed_round_trip"
   ],
   "note": ""
  },
  {
   "property": "C16",
   "status": "partial",
   "theorems": [
    "Verif.C16_empty_ring_verifies_neg",
    "Verif.C16_nonempty_ring_binds_message_partial"
   ],
   "note": "Expectation refuted for the code as it is (theorems ending in _neg, for all inputs named there). Partial: with a non-empty ring a signature accepted for two messages gives two challenge preimages with the same challenge (see also C85); unforgeability itself is a computational notion that is not modelled."
  },
  {
   "property": "C17",
   "status": "proved",
   "theorems": [
    "Verif.C17_verify_panics_iff",
    "Verif.C17_parsed_signature_panics_neg",
    "Verif.C17_parsing_total"
   ],
   "note": "Exact panic condition; texts that panic are accepted by the parser (_neg)."
  },
  {
   "property": "C18",
   "status": "proved",
   "theorems": [
    "Verif.C18_to_verification_exact"
   ],
   "note": ""
  },
  {
   "property": "C19",
   "status": "proved",
   "theorems": [
    "Verif.C19_builder_accepts_iff",
    "Verif.C19_built_lock"
   ],
   "note": ""
  },
  {
   "property": "C20",
   "status": "proved",
   "theorems": [
    "Verif.C20_unlock_sound",
    "Verif.C20_unlock_exact",
    "Verif.C20_unlock_needs_ring"
   ],
   "note": ""
  },
  {
   "property": "C21",
   "status": "partial",
   "theorems": [
    "Verif.C21_unlock_complete_partial"
   ],
   "note": "Partial: private keys up to K = 0x877...7 (C122), see C14 for larger ones."
  },
  {
   "property": "C22",
   "status": "proved",
   "theorems": [
    "Verif.C22_app_lock_cannot_be_opened_neg",
    "Verif.C22_app_lock_is_built"
   ],
   "note": "Expectation refuted for the code as it is (theorems ending in _neg, for all inputs named there)."
  },
  {
   "property": "C23",
   "status": "proved",
   "theorems": [
    "Verif.C23_same_hash_iff",
    "Verif.C23_bill_hash_binds",
    "Verif.C23_bill_builder_exact"
   ],
   "note": ""
  },
  {
   "property": "C24",
   "status": "proved",
   "theorems": [
    "Verif.C24_conservation_mod",
    "Verif.C24_conservation_exact",
    "Verif.C24_content_builder_accepts_iff",
    "Verif.C24_content_locks"
   ],
   "note": ""
  },
  {
   "property": "C25",
   "status": "partial",
   "theorems": [
    "Verif.C25_covered_iff",
    "Verif.C25_never_above_listed_total",
    "Verif.C25_never_above_distinct_total_partial",
    "Verif.C25_same_bill_twice_neg"
   ],
   "note": "Overflow part proved in full. Partial: with each bill counted once, only for lists without repeated bills; the repeated bill is the _neg witness. Exact: covered iff no bill is listed twice."
  },
  {
   "property": "C26",
   "status": "proved",
   "theorems": [
    "Verif.C26_expense_builder_accepts_iff",
    "Verif.C26_built_expense"
   ],
   "note": ""
  },
  {
   "property": "C27",
   "status": "partial",
   "theorems": [
    "Verif.C27_signature_bound_to_lock_partial",
    "Verif.C27_signatures_replay_neg",
    "Verif.C27_signature_bound_to_keys_partial"
   ],
   "note": "Expectation refuted for the code as it is (theorems ending in _neg, for all inputs named there). Partial: a signature is bound to the keys of the lock."
  },
  {
   "property": "C28",
   "status": "proved",
   "theorems": [
    "Verif.C28_same_hash_iff",
    "Verif.C28_content_hash_binds_shape",
    "Verif.C28_content_hash_binds_no_overflow",
    "Verif.C28_content_hash_ambiguous_neg"
   ],
   "note": "Proved for totals that do not overflow; the overflow case is refuted (_neg)."
  },
  {
   "property": "C29",
   "status": "partial",
   "theorems": [
    "Verif.C29_expense_round_trip_exact",
    "Verif.C29_transaction_round_trip_exact",
    "Verif.C29_block_round_trip_exact",
    "Verif.C29_link_round_trip_exact",
    "Verif.C29_mined_link_round_trip_exact",
    "Verif.C29_lock_round_trip",
    "Verif.C29_bill_round_trip",
    "Verif.C29_content_round_trip",
    "Verif.C29_genesis_round_trip",
    "Verif.C29_address_round_trip",
    "Verif.C29_expense_round_trip_partial",
    "Verif.C29_large_scalar_neg",
    "Verif.C29_transaction_round_trip_partial",
    "Verif.C29_block_round_trip_partial",
    "Verif.C29_link_round_trip_partial",
    "Verif.C29_mined_link_round_trip_partial",
    "Verif.C29_invalid_mining_text_neg",
    "Verif.C29_reduced_of_canonical",
    "Verif.C29_ring_sign_canonical"
   ],
   "note": "Invalid UTF-8 in a mining text does not survive (_neg); scalars above K = 0x877...7 (C122) can make an accepted expense unreadable (_neg); exactly when: the theorems ending in _exact; all other round trips hold."
  },
  {
   "property": "C30",
   "status": "proved",
   "theorems": [
    "Verif.C30_decoded_built",
    "Verif.C30_decoded_built_signed",
    "Verif.C30_hash_recomputed",
    "Verif.C30_missing_part_panics"
   ],
   "note": ""
  },
  {
   "property": "C31",
   "status": "proved",
   "theorems": [
    "Verif.C31_saved_is_retrievable",
    "Verif.C31_saved_comes_back"
   ],
   "note": ""
  },
  {
   "property": "C32",
   "status": "proved",
   "theorems": [
    "Verif.C32_saving_never_damages",
    "Verif.C32_histories_never_damage"
   ],
   "note": ""
  },
  {
   "property": "C33",
   "status": "proved",
   "theorems": [
    "Verif.C33_save_is_idempotent",
    "Verif.C33_second_save_is_quiet"
   ],
   "note": ""
  },
  {
   "property": "C34",
   "status": "proved",
   "theorems": [
    "Verif.C34_interrupted_save_resumes"
   ],
   "note": ""
  },
  {
   "property": "C35",
   "status": "proved",
   "theorems": [
    "Verif.C35_references_stay_intact",
    "Verif.C35_complete_files_are_retrievable"
   ],
   "note": ""
  },
  {
   "property": "C36",
   "status": "proved",
   "theorems": [
    "Verif.C36_genesis_written_once",
    "Verif.C36_concurrent_saves_neg"
   ],
   "note": "Sequential histories proved; two concurrent saves refute it (_neg)."
  },
  {
   "property": "C37",
   "status": "partial",
   "theorems": [
    "Verif.C37_honest_hash_partial",
    "Verif.C37_copied_file_neg",
    "Verif.C37_other_genesis_neg"
   ],
   "note": "Expectation refuted for the code as it is (theorems ending in _neg, for all inputs named there). Partial: holds for stores written by the services only."
  },
  {
   "property": "C38",
   "status": "proved",
   "theorems": [
    "Verif.C38_retrieved_without_address_neg",
    "Verif.C38_address_only_neg",
    "Verif.C38_address_dropped_neg"
   ],
   "note": "Expectation refuted for the code as it is (theorems ending in _neg, for all inputs named there)."
  },
  {
   "property": "C39",
   "status": "proved",
   "theorems": [
    "Verif.C39_own_genesis_rejected_neg",
    "Verif.C39_inserted_chain_lost_neg",
    "Verif.C39_retrieved_genesis_differs_neg"
   ],
   "note": "Expectation refuted for the code as it is (theorems ending in _neg, for all inputs named there)."
  },
  {
   "property": "C40",
   "status": "proved",
   "theorems": [
    "Verif.C40_update_inverted_neg",
    "Verif.C40_unrelated_update_stored_neg"
   ],
   "note": "Expectation refuted for the code as it is (theorems ending in _neg, for all inputs named there)."
  },
  {
   "property": "C41",
   "status": "proved",
   "theorems": [
    "Verif.C41_states_never_saved_neg",
    "Verif.C41_no_state_ever_stored_neg"
   ],
   "note": "Expectation refuted for the code as it is (theorems ending in _neg, for all inputs named there)."
  },
  {
   "property": "C42",
   "status": "partial",
   "theorems": [
    "Verif.C42_heights_clash_neg",
    "Verif.C42_code_points_injective_partial",
    "Verif.C42_same_file_iff_partial"
   ],
   "note": "Expectation refuted for the code as it is (theorems ending in _neg, for all inputs named there). Partial: injective on code points other than 46 and 47."
  },
  {
   "property": "C43",
   "status": "proved",
   "theorems": [
    "Verif.C43_same_hash_iff",
    "Verif.C43_link_hash_binds"
   ],
   "note": ""
  },
  {
   "property": "C44",
   "status": "proved",
   "theorems": [
    "Verif.C44_same_hash_iff",
    "Verif.C44_block_hash_binds",
    "Verif.C44_block_builder_exact"
   ],
   "note": ""
  },
  {
   "property": "C45",
   "status": "proved",
   "theorems": [
    "Verif.C45_same_hash_iff",
    "Verif.C45_chain_hash_binds",
    "Verif.C45_total_covers_known"
   ],
   "note": ""
  },
  {
   "property": "C46",
   "status": "proved",
   "theorems": [
    "Verif.C46_mined_hash_has_prefix",
    "Verif.C46_huge_difficulty_is_free_neg",
    "Verif.C46_stored_mined_block_meets_difficulty",
    "Verif.C46_stored_mined_link_meets_difficulty"
   ],
   "note": "Proved below 2^63; from there on refuted (_neg)."
  },
  {
   "property": "C47",
   "status": "proved",
   "theorems": [
    "Verif.C47_wanted",
    "Verif.C47_mine_first_candidate",
    "Verif.C47_mined_text_is_digits",
    "Verif.C47_mine_never_fails",
    "Verif.C47_mine_complete"
   ],
   "note": ""
  },
  {
   "property": "C48",
   "status": "proved",
   "theorems": [
    "Verif.C48_impossible_difficulty_diverges"
   ],
   "note": ""
  },
  {
   "property": "C49",
   "status": "partial",
   "theorems": [
    "Verif.C49_mined_block_same_hash_iff",
    "Verif.C49_mined_link_same_hash_iff",
    "Verif.C49_any_mining_accepted_neg",
    "Verif.C49_mined_hash_binds_partial"
   ],
   "note": "Expectation refuted for the code as it is (theorems ending in _neg, for all inputs named there). Partial: the hash of a mined object binds the mined text. Which objects share a hash is proved exactly (_same_hash_iff)."
  },
  {
   "property": "C50",
   "status": "proved",
   "theorems": [
    "Verif.C50_difficulty_monotone",
    "Verif.C50_difficulty_accuracy",
    "Verif.C50_difficulty_exact",
    "Verif.C50_out_of_range_neg",
    "Verif.C50_machines_disagree_neg",
    "Verif.C50_base_rounded_neg"
   ],
   "note": "Monotone, exact for integers and within a bound in range; out of range, and between machines that fuse or do not, results differ (_neg)."
  },
  {
   "property": "C51",
   "status": "proved",
   "theorems": [
    "Verif.C51_stored_links_have_index_zero_neg",
    "Verif.C51_mined_head_has_height_zero_neg"
   ],
   "note": "Expectation refuted for the code as it is (theorems ending in _neg, for all inputs named there)."
  },
  {
   "property": "C52",
   "status": "proved",
   "theorems": [
    "Verif.C52_encrypt_stream",
    "Verif.C52_decrypt_stream",
    "Verif.C52_decrypt_encrypt",
    "Verif.C52_encrypted_length",
    "Verif.C52_builder_exact",
    "Verif.C52_store_returns_saved"
   ],
   "note": ""
  },
  {
   "property": "C53",
   "status": "proved",
   "theorems": [
    "Verif.C53_decrypt_total",
    "Verif.C53_no_password_rejected_neg",
    "Verif.C53_end_of_message_forged_neg",
    "Verif.C53_cut_and_changed_neg"
   ],
   "note": "Totality proved; authentication refuted (_neg)."
  },
  {
   "property": "C54",
   "status": "proved",
   "theorems": [
    "Verif.C54_accepted_texts_exact",
    "Verif.C54_single_text_iff",
    "Verif.C54_base64_round_trip",
    "Verif.C54_base64_alphabet",
    "Verif.C54_base64_injective"
   ],
   "note": ""
  },
  {
   "property": "C55",
   "status": "proved",
   "theorems": [
    "Verif.C55_last_save_wins",
    "Verif.C55_no_panic",
    "Verif.C55_save_succeeds_iff",
    "Verif.C55_delete_all",
    "Verif.C55_listing"
   ],
   "note": ""
  },
  {
   "property": "C56",
   "status": "proved",
   "theorems": [
    "Verif.C56_chunks_cover",
    "Verif.C56_short_file_refused",
    "Verif.C56_chunks_with_floats"
   ],
   "note": ""
  },
  {
   "property": "C57",
   "status": "proved",
   "theorems": [
    "Verif.C57_mutable_times_ordered",
    "Verif.C57_mutable_fails_iff",
    "Verif.C57_builder_remembers",
    "Verif.C57_immutable",
    "Verif.C57_immutable_builder_remembers"
   ],
   "note": ""
  },
  {
   "property": "C58",
   "status": "proved",
   "theorems": [
    "Verif.C58_init_never_succeeds_neg",
    "Verif.C58_init_panics_neg",
    "Verif.C58_wallet_with_statement_neg",
    "Verif.C58_wallet_without_statement_neg",
    "Verif.C58_no_wallet_neg",
    "Verif.C58_no_transfer_wallet_neg",
    "Verif.C58_no_stored_wallet_neg",
    "Verif.C58_no_wallet_retrieved_neg"
   ],
   "note": "Expectation refuted for the code as it is (theorems ending in _neg, for all inputs named there)."
  },
  {
   "property": "C59",
   "status": "partial",
   "theorems": [
    "Verif.C59_update_drops_wallets_neg",
    "Verif.C59_update_sets_fields_partial",
    "Verif.C59_kept_iff"
   ],
   "note": "Expectation refuted for the code as it is (theorems ending in _neg, for all inputs named there). Partial: the fields themselves are set as asked. Exact: kept iff there were none."
  },
  {
   "property": "C60",
   "status": "partial",
   "theorems": [
    "Verif.C60_authenticate_exact_neg",
    "Verif.C60_new_identity_cannot_authenticate_neg",
    "Verif.C60_session_needs_equal_secrets_neg",
    "Verif.C60_equal_secrets_partial"
   ],
   "note": "Expectation refuted for the code as it is (theorems ending in _neg, for all inputs named there). Partial: with equal password and seed authentication works."
  },
  {
   "property": "C61",
   "status": "partial",
   "theorems": [
    "Verif.C61_fields_ambiguous_neg",
    "Verif.C61_hash_shows_seed_neg",
    "Verif.C61_same_hash_iff_partial",
    "Verif.C61_hash_binds_fields_partial",
    "Verif.C61_hash_binds_bare_identity_partial"
   ],
   "note": "Expectation refuted for the code as it is (theorems ending in _neg, for all inputs named there). Partial: for equal field lengths (or bare identities with the same lengths) the hash binds the fields."
  },
  {
   "property": "C62",
   "status": "partial",
   "theorems": [
    "Verif.C62_delete_all_chunks",
    "Verif.C62_save_all_chunks_neg",
    "Verif.C62_read_objects_empty_neg",
    "Verif.C62_chunk_lost_neg",
    "Verif.C62_file_never_saved_neg",
    "Verif.C62_file_lists_neg",
    "Verif.C62_bucket_never_saved_neg",
    "Verif.C62_nothing_retrieved_neg",
    "Verif.C62_data_survives_partial",
    "Verif.C62_data_history_partial"
   ],
   "note": "Expectation refuted for the code as it is (theorems ending in _neg, for all inputs named there). Partial: raw data survives."
  },
  {
   "property": "C63",
   "status": "partial",
   "theorems": [
    "Verif.C63_text_injective",
    "Verif.C63_builder_keeps_distinct",
    "Verif.C63_stored_list_lost_neg",
    "Verif.C63_never_added_neg",
    "Verif.C63_add_peer_partial",
    "Verif.C63_failed_add_changes_nothing"
   ],
   "note": "Expectation refuted for the code as it is (theorems ending in _neg, for all inputs named there). Partial: over any repository that keeps its contract, adding a peer works; the file repository of the module does not keep it."
  },
  {
   "property": "C64",
   "status": "partial",
   "theorems": [
    "Verif.C64_best_peer_chosen",
    "Verif.C64_round_applies_partial",
    "Verif.C64_one_below_the_remote_head_neg",
    "Verif.C64_local_height_applied_again_neg",
    "Verif.C64_not_higher_nothing_applied_neg",
    "Verif.C64_far_ahead_ignored_neg"
   ],
   "note": "Expectation refuted for the code as it is (theorems ending in _neg, for all inputs named there). Partial: exactly which indices are asked for and applied, and the choice of the best peer (totals and heights below 2^63)."
  },
  {
   "property": "C65",
   "status": "proved",
   "theorems": [
    "Verif.C65_stop_has_no_effect_neg",
    "Verif.C65_every_tick_does_a_round_neg",
    "Verif.C65_rounds_are_counted",
    "Verif.C65_returned_daemon_is_quiet"
   ],
   "note": "Expectation refuted for the code as it is (theorems ending in _neg, for all inputs named there)."
  },
  {
   "property": "C66",
   "status": "partial",
   "theorems": [
    "Verif.C66_same_hash_iff",
    "Verif.C66_genesis_hash_binds_partial",
    "Verif.C66_bill_bound",
    "Verif.C66_genesis_hash_ambiguous_neg",
    "Verif.C66_small_increase_lost_neg"
   ],
   "note": "Expectation refuted for the code as it is (theorems ending in _neg, for all inputs named there). Partial: bill and link difficulty are bound for finite increases, the increase up to 12 decimals when the base agrees; the base is not bound. Which objects share a hash is proved exactly (_same_hash_iff)."
  },
  {
   "property": "C67",
   "status": "partial",
   "theorems": [
    "Verif.C67_decode_drops_errors_neg",
    "Verif.C67_encode_drops_errors_neg",
    "Verif.C67_encode_decode_partial",
    "Verif.C67_decoded_built"
   ],
   "note": "Exact conditions for the dropped errors, on texts. Round trip proved for scalars up to K = 0x877...7 (C122) (see C29); errors are dropped (_neg)."
  },
  {
   "property": "C68",
   "status": "partial",
   "theorems": [
    "Verif.C68_entry_same_hash_iff",
    "Verif.C68_statement_same_hash_iff",
    "Verif.C68_sides_ambiguous_neg",
    "Verif.C68_sole_entry_changes_sides_neg",
    "Verif.C68_description_unhashed_neg",
    "Verif.C68_name_ambiguous_neg",
    "Verif.C68_hash_binds_entries_partial",
    "Verif.C68_hash_binds_entry_partial"
   ],
   "note": "Expectation refuted for the code as it is (theorems ending in _neg, for all inputs named there). Partial: the hash binds the concatenated list of entry hashes, and names of equal length. Which objects share a hash is proved exactly (_same_hash_iff)."
  },
  {
   "property": "C69",
   "status": "partial",
   "theorems": [
    "Verif.C69_same_hash_iff",
    "Verif.C69_transaction_roles_confused_neg",
    "Verif.C69_transaction_hash_binds_partial",
    "Verif.C69_time_not_hashed"
   ],
   "note": "Expectation refuted for the code as it is (theorems ending in _neg, for all inputs named there). Partial: the hash binds the sequence of parts. Which objects share a hash is proved exactly (_same_hash_iff)."
  },
  {
   "property": "C70",
   "status": "partial",
   "theorems": [
    "Verif.C70_order_exact",
    "Verif.C70_order_accepts_iff",
    "Verif.C70_order_rejects_foreign_partial",
    "Verif.C70_order_drops_foreign_neg"
   ],
   "note": "Partial: on trees with pairwise different leaf hashes; refuted in general (_neg). What the order returns, and which orders are accepted, is proved exactly (C70_order_exact, C70_order_accepts_iff)."
  },
  {
   "property": "C71",
   "status": "proved",
   "theorems": [
    "Verif.C71_signature_text_round_trip"
   ],
   "note": ""
  },
  {
   "property": "C72",
   "status": "partial",
   "theorems": [
    "Verif.C72_same_key_iff",
    "Verif.C72_key_text_round_trip_partial",
    "Verif.C72_large_private_keys_neg",
    "Verif.C72_private_key_trailing_text_neg"
   ],
   "note": "Round trips proved, for the public key of a private key up to K = 0x877...7 (C122) (larger ones _neg); trailing digits in private key texts are accepted (_neg). Exact: same public key iff up to K."
  },
  {
   "property": "C73",
   "status": "partial",
   "theorems": [
    "Verif.C73_same_hash_iff",
    "Verif.C73_lock_hash_binds_keys_partial",
    "Verif.C73_lock_hash_ambiguous_neg"
   ],
   "note": "Partial: locks with two or more keys; a lock with one key has that key as its hash (_neg). Which objects share a hash is proved exactly (_same_hash_iff)."
  },
  {
   "property": "C74",
   "status": "proved",
   "theorems": [
    "Verif.C74_same_hash_iff",
    "Verif.C74_expense_hash_binds"
   ],
   "note": ""
  },
  {
   "property": "C75",
   "status": "proved",
   "theorems": [
    "Verif.C75_nan_increase_accepted_neg",
    "Verif.C75_genesis_builder_exact"
   ],
   "note": "Exact for finite increases; NaN and infinity pass (_neg)."
  },
  {
   "property": "C76",
   "status": "proved",
   "theorems": [
    "Verif.C76_same_hash_iff",
    "Verif.C76_state_hash_binds"
   ],
   "note": ""
  },
  {
   "property": "C77",
   "status": "proved",
   "theorems": [
    "Verif.C77_payments_indistinguishable_neg"
   ],
   "note": "Expectation refuted for the code as it is (theorems ending in _neg, for all inputs named there)."
  },
  {
   "property": "C78",
   "status": "proved",
   "theorems": [
    "Verif.C78_torn_update_loses_chain_neg"
   ],
   "note": "Expectation refuted for the code as it is (theorems ending in _neg, for all inputs named there)."
  },
  {
   "property": "C79",
   "status": "proved",
   "theorems": [
    "Verif.C79_resave_without_genesis_neg"
   ],
   "note": "Expectation refuted for the code as it is (theorems ending in _neg, for all inputs named there)."
  },
  {
   "property": "C80",
   "status": "proved",
   "theorems": [
    "Verif.C80_no_mining_on_own_chain_neg"
   ],
   "note": "Expectation refuted for the code as it is (theorems ending in _neg, for all inputs named there)."
  },
  {
   "property": "C81",
   "status": "partial",
   "theorems": [
    "Verif.C81_inside_iff",
    "Verif.C81_escapes_neg",
    "Verif.C81_stays_inside_partial"
   ],
   "note": "Expectation refuted for the code as it is (theorems ending in _neg, for all inputs named there). Partial: paths without a '..' element stay inside. Exact: inside every base directory iff the path never goes up more often than down."
  },
  {
   "property": "C82",
   "status": "partial",
   "theorems": [
    "Verif.C82_test_store_agrees_partial",
    "Verif.C82_delete_all_agrees_partial",
    "Verif.C82_spelling_matters_neg",
    "Verif.C82_listing_differs_neg"
   ],
   "note": "Expectation refuted for the code as it is (theorems ending in _neg, for all inputs named there). Partial: agreement for paths that are apart from each other and from existing files, without listing."
  },
  {
   "property": "C83",
   "status": "proved",
   "theorems": [
    "Verif.C83_bucket_made_iff",
    "Verif.C83_bucket_covers_directory"
   ],
   "note": ""
  },
  {
   "property": "C84",
   "status": "partial",
   "theorems": [
    "Verif.C84_file_same_hash_iff",
    "Verif.C84_bucket_same_hash_iff",
    "Verif.C84_chunk_binding",
    "Verif.C84_file_boundary_ambiguous_neg",
    "Verif.C84_file_binding_partial",
    "Verif.C84_bucket_binding",
    "Verif.C84_single_file_bucket_neg",
    "Verif.C84_chunk_same_hash_iff"
   ],
   "note": "Chunks and buckets of several files proved. Partial: file hashes bind path and chunks among files with equally many chunks; the boundary and single file buckets refuted (_neg). Which objects share a hash is proved exactly (_same_hash_iff)."
  },
  {
   "property": "C85",
   "status": "proved",
   "theorems": [
    "Verif.C85_verify_iff_ring_closes",
    "Verif.C85_verify_otherwise_false"
   ],
   "note": ""
  },
  {
   "property": "C86",
   "status": "partial",
   "theorems": [
    "Verif.C86_survives_iff",
    "Verif.C86_identity_survives_partial",
    "Verif.C86_update_time_lost_neg",
    "Verif.C86_clock_behind_neg",
    "Verif.C86_invalid_name_neg"
   ],
   "note": "Partial: everything but the time of the last update, for UTF-8 texts and a clock not behind the creation time; the rest is refuted (_neg). Exact as an iff."
  },
  {
   "property": "C87",
   "status": "proved",
   "theorems": [
    "Verif.C87_reads_last_save",
    "Verif.C87_nothing_else_is_read",
    "Verif.C87_delete"
   ],
   "note": ""
  },
  {
   "property": "C88",
   "status": "partial",
   "theorems": [
    "Verif.C88_entry_exact",
    "Verif.C88_entry_survives",
    "Verif.C88_statement_survives",
    "Verif.C88_wallet_bill_survives_partial",
    "Verif.C88_cancel_survives"
   ],
   "note": "Partial: the public keys of wallet bills are kept for private keys up to K = 0x877...7 (C122), see C72 for larger ones."
  },
  {
   "property": "C89",
   "status": "partial",
   "theorems": [
    "Verif.C89_same_hash_iff",
    "Verif.C89_content_unhashed_neg",
    "Verif.C89_hash_binds_path_partial"
   ],
   "note": "Expectation refuted for the code as it is (theorems ending in _neg, for all inputs named there). Partial: the hash binds the path. Which objects share a hash is proved exactly (_same_hash_iff)."
  },
  {
   "property": "C90",
   "status": "partial",
   "theorems": [
    "Verif.C90_session_loses_identity_neg",
    "Verif.C90_session_keeps_identity_partial",
    "Verif.C90_failed_update_changes_nothing",
    "Verif.C90_session_follows_iff"
   ],
   "note": "Expectation refuted for the code as it is (theorems ending in _neg, for all inputs named there). Partial: changes of password and root keep the session. Exact: the session follows iff neither name nor seed changed."
  },
  {
   "property": "C91",
   "status": "proved",
   "theorems": [
    "Verif.C91_fee_never_paid_neg",
    "Verif.C91_exact_amount_neg",
    "Verif.C91_no_bills_panics_neg",
    "Verif.C91_bucket_panics_neg"
   ],
   "note": "Expectation refuted for the code as it is (theorems ending in _neg, for all inputs named there)."
  },
  {
   "property": "C92",
   "status": "partial",
   "theorems": [
    "Verif.C92_transaction_names_path_neg",
    "Verif.C92_transaction_made_partial",
    "Verif.C92_names_content_iff"
   ],
   "note": "Expectation refuted for the code as it is (theorems ending in _neg, for all inputs named there). Partial: which transaction is made and kept. Exact: the content is named iff its hash is that of the path."
  },
  {
   "property": "C93",
   "status": "proved",
   "theorems": [
    "Verif.C93_add_bucket",
    "Verif.C93_hash_not_updated_neg",
    "Verif.C93_delete_bucket",
    "Verif.C93_delete_same_path_neg"
   ],
   "note": "Adding and deleting proved against the contract of the repository; the hash stays behind and other spellings of the path are not found (_neg)."
  },
  {
   "property": "C94",
   "status": "proved",
   "theorems": [
    "Verif.C94_chunk_by_hash",
    "Verif.C94_chunk_by_hash_last",
    "Verif.C94_chunk_by_hash_content",
    "Verif.C94_file_by_path"
   ],
   "note": ""
  },
  {
   "property": "C95",
   "status": "proved",
   "theorems": [
    "Verif.C95_url_round_trip",
    "Verif.C95_url_round_trip_only",
    "Verif.C95_brackets_neg"
   ],
   "note": "Exact: the round trip holds if and only if the host is plain and the port is below 2^63."
  },
  {
   "property": "C96",
   "status": "proved",
   "theorems": [
    "Verif.C96_line_trimmed_exact",
    "Verif.C96_lines_read_back",
    "Verif.C96_blanks_ignored",
    "Verif.C96_text_injective",
    "Verif.C96_line_break_neg"
   ],
   "note": "Holds for hosts without line breaks; refuted otherwise (_neg)."
  },
  {
   "property": "C97",
   "status": "proved",
   "theorems": [
    "Verif.C97_running_daemon_changed_nothing_neg",
    "Verif.C97_synchronises_once_neg"
   ],
   "note": "Expectation refuted for the code as it is (theorems ending in _neg, for all inputs named there)."
  },
  {
   "property": "C98",
   "status": "proved",
   "theorems": [
    "Verif.C98_unreachable_peer_ends_chain_daemon_neg",
    "Verif.C98_unreachable_peer_ends_peer_daemon_neg"
   ],
   "note": "Expectation refuted for the code as it is (theorems ending in _neg, for all inputs named there)."
  },
  {
   "property": "C99",
   "status": "proved",
   "theorems": [
    "Verif.C99_round",
    "Verif.C99_any_schedule"
   ],
   "note": ""
  },
  {
   "property": "C100",
   "status": "proved",
   "theorems": [
    "Verif.C100_round",
    "Verif.C100_one_missing_bucket_neg"
   ],
   "note": "Successful rounds proved; one unavailable bucket ends the daemon (_neg)."
  },
  {
   "property": "C101",
   "status": "proved",
   "theorems": [
    "Verif.C101_decrypt_encrypt",
    "Verif.C101_too_long_refused",
    "Verif.C101_only_encryptions",
    "Verif.C101_encrypts_oaep"
   ],
   "note": ""
  },
  {
   "property": "C102",
   "status": "proved",
   "theorems": [
    "Verif.C102_private_text_exact",
    "Verif.C102_public_round_trip",
    "Verif.C102_private_round_trip",
    "Verif.C102_imported_checked",
    "Verif.C102_private_encodings_exact"
   ],
   "note": ""
  },
  {
   "property": "C103",
   "status": "proved",
   "theorems": [
    "Verif.C103_hash_binds_key",
    "Verif.C103_hash_binds_usual_key"
   ],
   "note": ""
  },
  {
   "property": "C104",
   "status": "partial",
   "theorems": [
    "Verif.C104_accepted_texts_exact",
    "Verif.C104_spare_bits_neg",
    "Verif.C104_accepted_encodings_exact",
    "Verif.C104_extra_bytes_ignored_neg",
    "Verif.C104_line_feed_ignored_neg",
    "Verif.C104_accepted_encodings_partial"
   ],
   "note": "Expectation refuted for the code as it is (theorems ending in _neg, for all inputs named there). Partial: accepted bytes are the canonical ones with, possibly, ignored bytes behind the exponent. The accepted encodings are characterised exactly."
  },
  {
   "property": "C105",
   "status": "partial",
   "theorems": [
    "Verif.C105_decryption_panics_iff",
    "Verif.C105_decryption_panics_neg",
    "Verif.C105_encoding_lost_neg",
    "Verif.C105_decryption_returns_partial"
   ],
   "note": "Expectation refuted for the code as it is (theorems ending in _neg, for all inputs named there). Partial: with coprime factors no decryption panics. When a decryption panics is proved exactly (C105_decryption_panics_iff)."
  },
  {
   "property": "C106",
   "status": "proved",
   "theorems": [
    "Verif.C106_creation",
    "Verif.C106_creation_never_replaces",
    "Verif.C106_deletion",
    "Verif.C106_failed_deletion"
   ],
   "note": ""
  },
  {
   "property": "C107",
   "status": "proved",
   "theorems": [
    "Verif.C107_every_fee_paid",
    "Verif.C107_transaction_recorded",
    "Verif.C107_failed_bucket"
   ],
   "note": ""
  },
  {
   "property": "C108",
   "status": "proved",
   "theorems": [
    "Verif.C108_accepted_exactly"
   ],
   "note": ""
  },
  {
   "property": "C109",
   "status": "proved",
   "theorems": [
    "Verif.C109_state_accepted_iff",
    "Verif.C109_state_survives",
    "Verif.C109_bucket_transfer",
    "Verif.C109_chunk_transfer",
    "Verif.C109_bucket_accepted_iff"
   ],
   "note": ""
  },
  {
   "property": "C110",
   "status": "proved",
   "theorems": [
    "Verif.C110_path_absolute",
    "Verif.C110_rebuild"
   ],
   "note": ""
  },
  {
   "property": "C111",
   "status": "proved",
   "theorems": [
    "Verif.Kyber.C111_vendored_sign_recovers_key"
   ],
   "note": ""
  },
  {
   "property": "C112",
   "status": "proved",
   "theorems": [
    "Verif.Kyber.C112_vendored_ring_sign_verifies",
    "Verif.Kyber.C112_vendored_ring_sign_fails_iff"
   ],
   "note": ""
  },
  {
   "property": "C113",
   "status": "proved",
   "theorems": [
    "Verif.Kyber.C113_public_key_texts",
    "Verif.Kyber.C113_public_key_round_trip"
   ],
   "note": ""
  },
  {
   "property": "C114",
   "status": "proved",
   "theorems": [
    "Verif.Kyber.C114_canonical_texts",
    "Verif.Kyber.C114_second_text_neg"
   ],
   "note": "Expectation refuted for the code as it is (theorems ending in _neg, for all inputs named there). The texts that are written back unchanged are characterised exactly."
  },
  {
   "property": "C115",
   "status": "proved",
   "theorems": [
    "Verif.Kyber.C115_ownerless_key_neg",
    "Verif.Kyber.C115_ownerless_signature_neg"
   ],
   "note": "Expectation refuted for the code as it is (theorems ending in _neg, for all inputs named there). Which keys have an owner is C121."
  },
  {
   "property": "C116",
   "status": "proved",
   "theorems": [
    "Verif.Kyber.C116_created_keys",
    "Verif.Kyber.C116_created_key_text",
    "Verif.Kyber.C116_created_key_signs",
    "Verif.Kyber.C116_created_key_ring_signs"
   ],
   "note": ""
  },
  {
   "property": "C117",
   "status": "partial",
   "theorems": [
    "Verif.C117_two_rings_reveal_key_neg",
    "Verif.C117_plain_and_ring_reveal_key_neg",
    "Verif.C117_plain_signatures_agree_partial"
   ],
   "note": "Expectation refuted for the code as it is (theorems ending in _neg, for all inputs named there). Partial: plain signatures of one message agree."
  },
  {
   "property": "C118",
   "status": "proved",
   "theorems": [
    "Verif.C118_ring_signature_contents",
    "Verif.C118_plain_signature_reveals_signer_neg"
   ],
   "note": "Contents proved; anonymity refuted (_neg)."
  },
  {
   "property": "C119",
   "status": "proved",
   "theorems": [
    "Verif.Kyber.C119_public_key_is_multiple",
    "Verif.Kyber.C119_public_keys_distinct"
   ],
   "note": ""
  },
  {
   "property": "C120",
   "status": "proved",
   "theorems": [
    "Verif.Kyber.C120_vendored_verify_exact"
   ],
   "note": ""
  },
  {
   "property": "C121",
   "status": "proved",
   "theorems": [
    "Verif.Kyber.C121_owned_exactly",
    "Verif.Kyber.C121_key_counts"
   ],
   "note": ""
  },
  {
   "property": "C122",
   "status": "proved",
   "theorems": [
    "Verif.Kyber.C122_recovers_own_key_iff",
    "Verif.Kyber.C122_text_keeps_public_key_iff",
    "Verif.Kyber.C122_large_key_ring_neg"
   ],
   "note": ""
  },
  {
   "property": "C123",
   "status": "proved",
   "theorems": [
    "Verif.C123_float_texts_exist",
    "Verif.C123_decimal_numbers_read",
    "Verif.C123_files_read_back",
    "Verif.C123_written_iff",
    "Verif.C123_identity_files_read_back"
   ],
   "note": ""
  },
  {
   "property": "C124",
   "status": "proved",
   "theorems": [
    "Verif.C124_cut_file_unreadable",
    "Verif.C124_tail_unreadable"
   ],
   "note": ""
  },
  {
   "property": "C125",
   "status": "proved",
   "theorems": [
    "Verif.C125_bytes_never_damaged",
    "Verif.C125_saved_bytes_retrievable",
    "Verif.C125_saved_bytes_come_back",
    "Verif.C125_interrupted_bytes_resume",
    "Verif.C125_undated_lock_never_saved_neg"
   ],
   "note": "Proved on files of bytes by simulation; objects with times outside of the years 0 to 9999 are never saved (_neg)."
  },
  {
   "property": "C126",
   "status": "proved",
   "theorems": [
    "Verif.C126_missing_lock_neg",
    "Verif.C126_missing_bill_neg",
    "Verif.C126_missing_expense_neg",
    "Verif.C126_missing_genesis_neg",
    "Verif.C126_missing_transaction_neg",
    "Verif.C126_missing_block_neg",
    "Verif.C126_missing_mined_block_neg",
    "Verif.C126_missing_mined_link_neg",
    "Verif.C126_missing_link_neg",
    "Verif.C126_missing_chain_neg",
    "Verif.C126_missing_state_neg",
    "Verif.C126_unknown_member_neg",
    "Verif.C126_last_amount_wins_neg",
    "Verif.C126_first_amount_ignored_neg",
    "Verif.C126_missing_time_neg",
    "Verif.C126_nulls_cut_keys_neg",
    "Verif.C126_white_space_neg"
   ],
   "note": "Expectation refuted for the code as it is (theorems ending in _neg, for all inputs named there). Files are not canonical."
  },
  {
   "property": "C127",
   "status": "proved",
   "theorems": [
    "Verif.C127_rest_keys",
    "Verif.C127_rest_to_new_key_neg",
    "Verif.C127_common_ring_key_refused_neg",
    "Verif.C127_new_key_not_kept_neg"
   ],
   "note": "Expectation refuted for the code as it is (theorems ending in _neg, for all inputs named there). The keys of the lock for the rest are given exactly."
  },
  {
   "property": "C128",
   "status": "proved",
   "theorems": [
    "Verif.C128_trees_read_back",
    "Verif.C128_blocks_read_back",
    "Verif.C128_entities_read_back",
    "Verif.C128_signed_entities_read_back",
    "Verif.C128_cut_text_refused"
   ],
   "note": ""
  },
  {
   "property": "C129",
   "status": "proved",
   "theorems": [
    "Verif.C129_head_unchecked_neg",
    "Verif.C129_block_length_unchecked_neg",
    "Verif.C129_missing_node_panics_neg",
    "Verif.C129_rebuilding_checks"
   ],
   "note": "Expectation refuted for the code as it is (theorems ending in _neg, for all inputs named there). Rebuilding is proved to be a sufficient check."
  },
  {
   "property": "C130",
   "status": "proved",
   "theorems": [
    "Verif.C130_spellings_read",
    "Verif.C130_ascii_spelling",
    "Verif.C130_escaped_time_refused_neg",
    "Verif.C130_times_in_zones",
    "Verif.C130_respelled_bill"
   ],
   "note": "Expectation refuted for the code as it is (theorems ending in _neg, for all inputs named there). Times are read from the raw bytes of their literal."
  },
  {
   "property": "C131",
   "status": "partial",
   "theorems": [
    "Verif.C131_made_up_bill_neg",
    "Verif.C131_block_expenses_opened_partial"
   ],
   "note": "Expectation refuted for the code as it is (theorems ending in _neg, for all inputs named there). Nothing looks up the bills that are spent."
  },
  {
   "property": "C132",
   "status": "partial",
   "theorems": [
    "Verif.C132_spent_twice_neg",
    "Verif.C132_same_owner_partial"
   ],
   "note": "Expectation refuted for the code as it is (theorems ending in _neg, for all inputs named there). A second spending needs no key because signatures cover the lock only (C27)."
  },
  {
   "property": "C133",
   "status": "partial",
   "theorems": [
    "Verif.C133_equal_payments_one_bill_neg",
    "Verif.C133_payment_to_oneself_neg",
    "Verif.C133_different_payments_partial"
   ],
   "note": "Expectation refuted for the code as it is (theorems ending in _neg, for all inputs named there). The hash of a bill covers its lock and amount only."
  },
  {
   "property": "C134",
   "status": "partial",
   "theorems": [
    "Verif.C134_chain_builder_accepts_iff_partial",
    "Verif.C134_disconnected_chain_neg"
   ],
   "note": "Expectation refuted for the code as it is (theorems ending in _neg, for all inputs named there). The exact acceptance condition of the builder is proved."
  },
  {
   "property": "C135",
   "status": "proved",
   "theorems": [
    "Verif.C135_stored_hash_unused_neg",
    "Verif.C135_copied_file_neg",
    "Verif.C135_block_without_tree_neg",
    "Verif.C135_state_without_tree_neg",
    "Verif.C135_link_members_neg",
    "Verif.C135_bill_members",
    "Verif.C135_lock_members",
    "Verif.C135_genesis_members",
    "Verif.C135_chain_members",
    "Verif.C135_expense_members",
    "Verif.C135_mined_block_members_neg"
   ],
   "note": "Expectation refuted for the code as it is (theorems ending in _neg, for all inputs named there). What is refused and what is accepted is given for each kind."
  },
  {
   "property": "C136",
   "status": "partial",
   "theorems": [
    "Verif.C136_lock_displaced_neg",
    "Verif.C136_first_lock_stays_partial",
    "Verif.C136_bill_changed_neg",
    "Verif.C136_transaction_displaced_neg",
    "Verif.C136_block_changed_neg",
    "Verif.C136_first_bill_stays_partial",
    "Verif.C136_first_transaction_stays_partial",
    "Verif.C136_first_block_stays_partial"
   ],
   "note": "Expectation refuted for the code as it is (theorems ending in _neg, for all inputs named there). The first lock, bill, transaction or block saved under a hash stays (proved); that no other one has the hash is false."
  },
  {
   "property": "C137",
   "status": "partial",
   "theorems": [
    "Verif.C137_calls_at_once_succeed_partial",
    "Verif.C137_calls_at_once_take_effect_partial",
    "Verif.C137_calls_at_once_keep_partial",
    "Verif.C137_calls_go_on",
    "Verif.C137_calls_end",
    "Verif.C137_saved_lock_vanishes_neg",
    "Verif.C137_two_times_neg",
    "Verif.C137_mixed_text_neg"
   ],
   "note": "Expectation refuted for the code as it is (theorems ending in _neg, for all inputs named there). Proved for objects of which no two different ones have the same hash; without that, and while a file is open, it is false."
  },
  {
   "property": "C138",
   "status": "proved",
   "theorems": [
    "Verif.C138_retrieved_is_right",
    "Verif.C138_saving_again_repairs"
   ],
   "note": ""
  },
  {
   "property": "C139",
   "status": "proved",
   "theorems": [
    "Verif.C139_entry_comes_back",
    "Verif.C139_statement_comes_back",
    "Verif.C139_wallet_bill_comes_back",
    "Verif.C139_cancel_comes_back",
    "Verif.C139_nothing_else",
    "Verif.C139_save_succeeds_iff",
    "Verif.C139_written_iff"
   ],
   "note": ""
  },
  {
   "property": "C140",
   "status": "proved",
   "theorems": [
    "Verif.C140_holders_can_pay",
    "Verif.C140_payments_travel",
    "Verif.C140_bill_travels"
   ],
   "note": ""
  },
  {
   "property": "C141",
   "status": "partial",
   "theorems": [
    "Verif.C141_halves_make_the_calls",
    "Verif.C141_alone_is_the_call",
    "Verif.C141_last_write_wins",
    "Verif.C141_added_bucket_lost_neg",
    "Verif.C141_deleted_bucket_back_neg",
    "Verif.C141_added_bucket_kept_partial",
    "Verif.C141_nothing_invented",
    "Verif.C141_changed_hash_refused"
   ],
   "note": "Partial: a change is kept when every call that writes after it reads after it, too; otherwise it is lost (_neg)."
  },
  {
   "property": "C142",
   "status": "partial",
   "theorems": [
    "Verif.C142_alone_is_the_call",
    "Verif.C142_halves_make_the_calls",
    "Verif.C142_last_write_wins",
    "Verif.C142_added_peer_lost_neg",
    "Verif.C142_round_drops_peer_neg",
    "Verif.C142_added_peer_kept_partial",
    "Verif.C142_known_peers_stay"
   ],
   "note": "Partial: an addition is kept when every call that writes after it reads after it, too; otherwise it is lost (_neg)."
  },
  {
   "property": "C143",
   "status": "proved",
   "theorems": [
    "Verif.C143_ring_sign_is_the_scheme",
    "Verif.C143_one_signature_per_draw",
    "Verif.C143_signatures_are_accepted",
    "Verif.C143_any_member_could_have_signed",
    "Verif.C143_signers_cannot_be_told_apart",
    "Verif.C143_signatures_are_linked_neg"
   ],
   "note": ""
  },
  {
   "property": "C144",
   "status": "partial",
   "theorems": [
    "Verif.C144_chain_same_hash_iff_partial",
    "Verif.C144_every_kind_partial",
    "Verif.C144_transactions_replaced_neg"
   ],
   "note": "Expectation refuted for the code as it is (theorems ending in _neg, for all inputs named there). Partial: same hash is characterised exactly, for every kind of object, by a structural relation; every chain has a twin with the same hash and no fees in its head (_neg)."
  },
  {
   "property": "C145",
   "status": "proved",
   "theorems": [
    "Verif.C145_locks_bills_genesis_never",
    "Verif.C145_sturdy_files_never_panic",
    "Verif.C145_saving_never_panics",
    "Verif.C145_stores_stay_sturdy",
    "Verif.C145_empty_store_sturdy",
    "Verif.C145_calls_never_panic",
    "Verif.C145_expense_panics_iff",
    "Verif.C145_trx_panics_iff",
    "Verif.C145_block_panics_iff",
    "Verif.C145_state_panics_iff",
    "Verif.C145_containers_panic_iff",
    "Verif.C145_chain_panics_iff"
   ],
   "note": ""
  },
  {
   "property": "C146",
   "status": "proved",
   "theorems": [
    "Verif.C146_supply_constant",
    "Verif.C146_each_bill_once",
    "Verif.C146_outcome_unique",
    "Verif.C146_passes_iff",
    "Verif.C146_owners",
    "Verif.C146_not_audited_neg"
   ],
   "note": ""
  },
  {
   "property": "C147",
   "status": "proved",
   "theorems": [
    "Verif.C147_expense_panics_iff",
    "Verif.C147_trx_panics_iff",
    "Verif.C147_block_panics_iff",
    "Verif.C147_link_panics_iff",
    "Verif.C147_decode_panics_iff",
    "Verif.C147_texts_panic_iff",
    "Verif.C147_whole_structures_never_panic",
    "Verif.C147_whole_texts_never_panic",
    "Verif.C147_own_texts_never_panic"
   ],
   "note": ""
  },
  {
   "property": "C148",
   "status": "proved",
   "theorems": [
    "Verif.C148_missing_lock_neg",
    "Verif.C148_missing_bill_neg",
    "Verif.C148_missing_content_neg",
    "Verif.C148_missing_expense_neg",
    "Verif.C148_missing_address_neg",
    "Verif.C148_missing_transaction_neg",
    "Verif.C148_missing_genesis_neg",
    "Verif.C148_missing_block_neg",
    "Verif.C148_missing_link_neg",
    "Verif.C148_missing_mined_link_neg",
    "Verif.C148_missing_entry_neg",
    "Verif.C148_missing_statement_neg",
    "Verif.C148_missing_wallet_bill_neg",
    "Verif.C148_missing_wallet_neg",
    "Verif.C148_missing_identity_neg",
    "Verif.C148_missing_cancel_neg",
    "Verif.C148_mined_link_decodes_neg",
    "Verif.C148_time_left_out_neg",
    "Verif.C148_identity_reads_neg"
   ],
   "note": ""
  },
  {
   "property": "C149",
   "status": "partial",
   "theorems": [
    "Verif.C149_sealed_identity_comes_back_partial",
    "Verif.C149_never_panics",
    "Verif.C149_save_succeeds_iff",
    "Verif.C149_wallets_cut_off_neg"
   ],
   "note": "Refuted for files that somebody changed (_neg); proved for files that nobody changed."
  },
  {
   "property": "C150",
   "status": "partial",
   "theorems": [
    "Verif.C150_last_saved_comes_back",
    "Verif.C150_saved_address_found_partial",
    "Verif.C150_another_address_instead_neg",
    "Verif.C150_save_succeeds_iff",
    "Verif.C150_never_panics",
    "Verif.C150_hash_not_checked_neg"
   ],
   "note": "Refuted: another address with the same members takes its place (_neg). Which address comes back is proved for all histories."
  },
  {
   "property": "C151",
   "status": "proved",
   "theorems": [
    "Verif.C151_reads_of_a_retrieval",
    "Verif.C151_reads_are_bounded",
    "Verif.C151_repeated_references_neg"
   ],
   "note": "Expectation refuted for the code as it is (theorems ending in _neg, for all inputs named there). The number of reads is exact and bounded for all stores; repeated references are read again each time (_neg)."
  },
  {
   "property": "C152",
   "status": "partial",
   "theorems": [
    "Verif.C152_same_instant",
    "Verif.C152_read_times_partial",
    "Verif.C152_files_in_zones_partial",
    "Verif.C152_files_in_odd_zones_neg",
    "Verif.C152_received_locks_partial",
    "Verif.C152_received_lock_lost_neg"
   ],
   "note": "Expectation refuted for the code as it is (theorems ending in _neg, for all inputs named there). Kept for zones of less than 100 hours, for every kind of file; zones from there on are accepted and make the file unreadable (_neg). Locks are followed from the received text to the file, the other kinds from the object to the file."
  },
  {
   "property": "C153",
   "status": "proved",
   "theorems": [
    "Verif.C153_retrieved_is_right",
    "Verif.C153_retrieved_meanwhile_is_right",
    "Verif.C153_saving_again_repairs",
    "Verif.C153_saving_everything_again_repairs",
    "Verif.C153_saving_objects_again_repairs",
    "Verif.C153_everything_lost_neg",
    "Verif.C153_acknowledged_save_lost_neg",
    "Verif.C153_earlier_files_come_back_neg",
    "Verif.C153_lock_of_bill_lost_neg"
   ],
   "note": "Expectation refuted for the code as it is (theorems ending in _neg, for all inputs named there). Saved objects can be lost (_neg), as can the order of files and the last update of the chain; every retrieval gives the right object or an error, and saving again repairs. Assumed: a file that is damaged by the power failure is not a JSON text of the right form; a file is never given the content of another one."
  },
  {
   "property": "C154",
   "status": "partial",
   "theorems": [
    "Verif.C154_relayed_is_right_partial",
    "Verif.C154_relayed_arrives_partial",
    "Verif.C154_addresses_never_sent_on_neg"
   ],
   "note": "Expectation refuted for the code as it is (theorems ending in _neg, for all inputs named there). Partial: links without addresses whose parts have no hash in common with other objects, with scalars up to K (C122), times in the years 0 to 9999. Links with addresses are never sent on (_neg)."
  },
  {
   "property": "C155",
   "status": "partial",
   "theorems": [
    "Verif.C155_call_writes_no_file_neg",
    "Verif.C155_no_file_ever_neg",
    "Verif.C155_applications_start_nothing_neg",
    "Verif.C155_nobody_has_money_neg",
    "Verif.C155_failed_calls_change_nothing_partial"
   ],
   "note": "Expectation refuted for the code as it is (theorems ending in _neg, for all inputs named there). Partial: no file is ever written and nobody ever has money (_neg); failed calls leave everything as it was. The identity services and the collection of wallets are interfaces without implementation; what is assumed of them is stated in Model/App/Identities and Spec/Node."
  },
  {
   "property": "C156",
   "status": "partial",
   "theorems": [
    "Verif.C156_same_hash_iff_partial",
    "Verif.C156_lists_apart_partial",
    "Verif.C156_kinds_apart_partial",
    "Verif.C156_any_hash_neg",
    "Verif.C156_bill_as_mined_block_neg",
    "Verif.C156_link_as_mined_block_neg",
    "Verif.C156_content_as_block_neg"
   ],
   "note": "Expectation refuted for the code as it is (theorems ending in _neg, for all inputs named there). Partial: equal hashes across kinds are characterised exactly, the kinds that are told apart are listed, and families of built objects of different kinds with equal hashes are given (_neg). Pairs of kinds that are not listed can only have equal hashes if a hash has a chosen form; nothing is claimed about them."
  },
  {
   "property": "C157",
   "status": "proved",
   "theorems": [
    "Verif.C157_nobody_is_invented",
    "Verif.C157_everybody_is_found",
    "Verif.C157_lists_become_complete",
    "Verif.C157_doubling",
    "Verif.C157_one_node_down_ends_all_neg"
   ],
   "note": "Proved when all nodes that can be found are up; with a node down the expectation is refuted (_neg). Remote nodes answer with their stored lists (the clients are interfaces); repositories are assumed to keep their contract, saving to succeed."
  },
  {
   "property": "C158",
   "status": "proved",
   "theorems": [
    "Verif.C158_heights_are_kept",
    "Verif.C158_newest_link_never_arrives_neg",
    "Verif.C158_highest_never_agree_neg",
    "Verif.C158_ended_for_good_neg"
   ],
   "note": "Expectation refuted for the code as it is (theorems ending in _neg, for all inputs named there). What holds is C158_heights_are_kept. The local and remote chain applications are interfaces; their contract is assumed. Nodes are named by the peer under which others know them."
  },
  {
   "property": "C159",
   "status": "partial",
   "theorems": [
    "Verif.C159_changed_signatures_verify",
    "Verif.C159_extra_scalars_neg",
    "Verif.C159_turned_ring_neg",
    "Verif.C159_any_number_neg",
    "Verif.C159_transaction_changes_neg",
    "Verif.C159_spelling_partial"
   ],
   "note": "Expectation refuted for the code as it is (theorems ending in _neg, for all inputs named there). Partial: spellings of the same signature do not change the hash."
  },
  {
   "property": "C160",
   "status": "proved",
   "theorems": [
    "Verif.C160_hashes_can_be_extended"
   ],
   "note": ""
  },
  {
   "property": "C161",
   "status": "partial",
   "theorems": [
    "Verif.C161_times_are_free_neg",
    "Verif.C161_any_order_neg",
    "Verif.C161_texts_on_the_way_neg",
    "Verif.C161_first_times_stay",
    "Verif.C161_expense_times_partial"
   ],
   "note": "Expectation refuted for the code as it is (theorems ending in _neg, for all inputs named there). times are in no hash and are never compared, so an accepted object of any kind with any other times is accepted with the same hash, also a chain whose head is older than its genesis, and also when read from JSON. Partial: inside of an expense the times agree; the first times stored under a hash stay."
  },
  {
   "property": "C162",
   "status": "partial",
   "theorems": [
    "Verif.C162_numbers_exact",
    "Verif.C162_primes_cancel",
    "Verif.C162_decrypts_partial",
    "Verif.C162_wrong_key_neg"
   ],
   "note": "Expectation refuted for the code as it is (theorems ending in _neg, for all inputs named there). primality is not checked: a file with the factors 4 and 7^201 is accepted and does not decrypt what its public key encrypts. Partial: exact condition on accepted keys with coprime factors (C162_numbers_exact), under which messages come back; primes satisfy it. Keys whose factors are not coprime panic (C105)."
  },
  {
   "property": "C163",
   "status": "proved",
   "theorems": [
    "Verif.C163_jacobi_exact",
    "Verif.C163_lucas_accepts_primes",
    "Verif.C163_test_complete",
    "Verif.C163_round_iff",
    "Verif.C163_primes_are_strong",
    "Verif.C163_test_accepts_primes",
    "Verif.C163_test_accepts",
    "Verif.C163_prime_drawn",
    "Verif.C163_no_prime_passed_over",
    "Verif.C163_every_prime_possible",
    "Verif.C163_every_key_possible",
    "Verif.C163_pairs_drawn",
    "Verif.C163_created_from_source",
    "Verif.C163_first_usable_pair",
    "Verif.C163_no_usable_pair",
    "Verif.C163_few_bits_refused",
    "Verif.C163_created_key_decrypts",
    "Verif.C163_short_keys_encrypt_nothing",
    "Verif.C163_created_key_survives"
   ],
   "note": "rsa.GenerateKey written out, the primes of rand.Prime are arguments (taken to be prime, of the length asked for, with the two highest bits set). rand.Prime itself is written out over the bytes of the random source: all of this is proved of it but that the test for primes is right. ProbablyPrime is written out too: every prime passes the table, small factors, Miller-Rabin rounds and the Lucas test (which panics if no parameter up to 10000 has the Jacobi symbol -1), and accepted numbers below 59*59 are prime; that no larger composite is accepted is not claimed. Keys below 521 bits are created but encrypt nothing."
  },
  {
   "property": "C164",
   "status": "proved",
   "theorems": [
    "Verif.C164_decrypts",
    "Verif.C164_imported_checked",
    "Verif.C164_panics_iff",
    "Verif.C164_two_primes_as_before",
    "Verif.C164_round_trip",
    "Verif.C164_numbers_exact",
    "Verif.C164_one_power",
    "Verif.C164_blinding_does_not_matter",
    "Verif.C164_decrypts_iff",
    "Verif.C164_imported_decrypts",
    "Verif.C164_primes_cancel",
    "Verif.C164_two_primes_same"
   ],
   "note": "Keys with any number of primes (version 1 files), crypto/rsa and the PKCS #1 encoding written out as of Go 1.13; the round trip is for encodings below 2^31 bytes, the limit of the asn1 reader."
  },
  {
   "property": "C165",
   "status": "proved",
   "theorems": [
    "Verif.C165_blinding_does_not_matter",
    "Verif.C165_decrypts_iff",
    "Verif.C165_encryptions_differ",
    "Verif.C165_leading_zero_neg"
   ],
   "note": "Keys of two different odd primes with inverse exponents (proved of created ones in C163). SHA-256 is a parameter."
  },
  {
   "property": "C166",
   "status": "proved",
   "theorems": [
    "Verif.C166_every_block_differs",
    "Verif.C166_changed_block",
    "Verif.C166_changed_start"
   ],
   "note": "SHA-256 and AES-256 written out (Model/Sha2, Model/Aes). Blocks are complete ones of 16 bytes; what follows an incomplete one is not said to differ."
  },
  {
   "property": "C167",
   "status": "proved",
   "theorems": [
    "Verif.C167_objects_hash",
    "Verif.C167_encrypt",
    "Verif.C167_decrypt"
   ],
   "note": "For the objects of crypto/sha256 and crypto/sha512 of Go 1.13 in their portable form; the theorems on Encrypt and Decrypt are for SHA-256 as written out in Model/Sha2."
  }
 ]
}