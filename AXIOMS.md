# Axioms of the property theorems

Output of `#print axioms`, by `tools/axioms.py`.

| theorem | axioms |
|---|---|
| TF.Props.C01_sia_int | propext, Classical.choice, Quot.sound |
| TF.Props.C02_rivine_int | propext, Classical.choice, Quot.sound |
| TF.Props.C03_rivine_slice_length | propext, Classical.choice, Quot.sound |
| TF.Props.C04_slice_decode | propext, Classical.choice, Quot.sound |
| TF.Props.C04_slice_self_delimiting | propext, Classical.choice, Quot.sound |
| TF.Props.C05_text_slice_partial | propext, Classical.choice, Quot.sound |
| TF.Props.C05_text_slice_false | propext |
| TF.Props.C05_text_slice_unambiguous_partial | propext, Classical.choice, Quot.sound |
| TF.Props.C06_append_only | propext |
| TF.Props.C06_add_all_concat | propext |
| TF.Props.C06_add_all_first_error | propext |
| TF.Props.C06_list_is_prefix_and_elements | propext, Quot.sound |
| TF.Props.C06_array | propext, Quot.sound |
| TF.Props.C06_slice | propext, Classical.choice, Quot.sound |
| TF.Props.C06_byte | propext, Classical.choice, Quot.sound |
| TF.Props.C07_merkle_root | propext, Classical.choice, Quot.sound |
| TF.Props.C08_merkle_stack | propext, Classical.choice, Quot.sound |
| TF.Props.C09_empty_root_raises | none |
| TF.Props.C09_root_defined_iff_nonempty_partial | propext, Classical.choice, Quot.sound |
| TF.Props.C10_fixed_size_invariant | propext, Classical.choice, Quot.sound |
| TF.Props.C10_set_accepts | propext, Classical.choice, Quot.sound |
| TF.Props.C11_binary_data_text_roundtrip | propext, Classical.choice, Quot.sound |
| TF.Props.C12_hash_text_roundtrip_partial | propext, Quot.sound |
| TF.Props.C12_hash_text_roundtrip_false | none |
| TF.Props.C13_currency_always_good | propext, Classical.choice, Quot.sound |
| TF.Props.C14_refusal_partial | propext, Classical.choice, Quot.sound |
| TF.Props.C14_documented_error_false | propext, Classical.choice, Quot.sound |
| TF.Props.C15_add_sub_exact_partial | propext, Classical.choice, Quot.sound |
| TF.Props.C15_mul_exact_partial | propext, Classical.choice, Quot.sound |
| TF.Props.C15_exact_false | propext, Classical.choice, Quot.sound |
| TF.Props.C15_add_rounded | propext, Classical.choice, Quot.sound |
| TF.Props.C15_sub_rounded | propext, Classical.choice, Quot.sound |
| TF.Props.C15_mul_rounded | propext, Classical.choice, Quot.sound |
| TF.Props.C15_mul_spelling_false | propext, Classical.choice, Quot.sound |
| TF.Props.C16_rsub_false | propext, Classical.choice, Quot.sound |
| TF.Props.C17_currency_json_partial | propext, Classical.choice, Quot.sound |
| TF.Props.C17_currency_json_false | propext, Classical.choice, Quot.sound |
| TF.Props.C17_currency_json_rounded | propext, Classical.choice, Quot.sound |
| TF.Props.C18_currency_text_roundtrip | propext, Classical.choice, Quot.sound |
| TF.Props.C19_amount_encoding | propext, Classical.choice, Quot.sound |
| TF.Props.C19_currency_encodes_units | propext, Classical.choice, Quot.sound |
| TF.Props.C19_amount_self_delimiting | propext, Classical.choice, Quot.sound |
| TF.Props.C20_blockstake | propext, Classical.choice, Quot.sound |
| TF.Props.C20_text | propext, Classical.choice, Quot.sound |
| TF.Props.C20_held | propext |
| TF.Props.C20_currency_false | propext |
| TF.Props.C21_public_key_text_partial | propext, Classical.choice, Quot.sound |
| TF.Props.C21_public_key_text_false | propext, Classical.choice, Quot.sound |
| TF.Props.C22_address_roundtrip | propext, Quot.sound |
| TF.Props.C23_accepted_address_partial | propext, Classical.choice, Quot.sound |
| TF.Props.C23_only_checksummed_false | propext, Classical.choice, Quot.sound |
| TF.Props.C23_prefix | propext, Classical.choice, Quot.sound |
| TF.Props.C24_default_address_false | propext |
| TF.Props.C25_multisig_order_partial | propext, Classical.choice, Quot.sound |
| TF.Props.C25_multisig_order_false | propext, Quot.sound |
| TF.Props.C26_lock_keeps_address | propext, Quot.sound |
| TF.Props.C27_lock_boundary | propext, Quot.sound |
| TF.Props.C27_unlocked_stays_unlocked | propext, Quot.sound |
| TF.Props.C28_condition_json_partial | propext, Classical.choice, Quot.sound |
| TF.Props.C28_condition_json_false | propext, Classical.choice, Quot.sound |
| TF.Props.C29_condition_encoding_partial | propext, Classical.choice, Quot.sound |
| TF.Props.C29_condition_encoding_false | propext |
| TF.Props.C30_recipient | propext, Quot.sound |
| TF.Props.C30_owners | propext, Classical.choice, Quot.sound |
| TF.Props.C31_sign_once | propext, Classical.choice, Quot.sound |
| TF.Props.C31_second_attempt_changes_nothing | propext, Classical.choice, Quot.sound |
| TF.Props.C32_owner_only | propext, Classical.choice, Quot.sound |
| TF.Props.C32_nil_address_any_key | propext, Classical.choice, Quot.sound |
| TF.Props.C33_multisig_distinct_partial | propext, Classical.choice, Quot.sound |
| TF.Props.C33_multisig_distinct_false | propext, Classical.choice, Quot.sound |
| TF.Props.C34_signers_are_owners_partial | propext, Classical.choice, Quot.sound |
| TF.Props.C34_signers_are_owners_false | propext, Classical.choice, Quot.sound |
| TF.Props.C35_fulfillment_json_partial | propext, Classical.choice, Quot.sound |
| TF.Props.C35_fulfillment_json_false | propext, Classical.choice, Quot.sound |
| TF.Props.C36_io_json_partial | propext, Classical.choice, Quot.sound |
| TF.Props.C36_io_json_false | propext, Classical.choice, Quot.sound |
| TF.Props.C37_dispatch | propext, Classical.choice, Quot.sound |
| TF.Props.C37_refuses | propext, Classical.choice, Quot.sound |
| TF.Props.C38_signing_keeps_preimages_partial | propext, Classical.choice, Quot.sound |
| TF.Props.C38_signing_keeps_preimages_false | propext, Classical.choice, Quot.sound |
| TF.Props.C39_signed_bytes_v1 | propext, Classical.choice, Quot.sound |
| TF.Props.C40_tx_json_partial | propext, Classical.choice, Quot.sound |
| TF.Props.C40_tx_json_false | propext, Classical.choice, Quot.sound |
| TF.Props.C41_output_ids_distinct | propext, Classical.choice, Quot.sound |
| TF.Props.C41_coin_index_partial | propext, Classical.choice, Quot.sound |
| TF.Props.C41_blockstake_index_false | propext, Classical.choice, Quot.sound |
| TF.Props.C42_data_limit | propext, Quot.sound |
| TF.Props.C43_is_fulfilled_partial | propext, Quot.sound |
| TF.Props.C43_is_fulfilled_false | propext, Classical.choice, Quot.sound |
| TF.Props.C44_registration_fee | propext, Classical.choice, Quot.sound |
| TF.Props.C45_update_fee | propext, Classical.choice, Quot.sound |
| TF.Props.C46_header_bytes | propext, Classical.choice, Quot.sound |
| TF.Props.C47_limits_partial | propext, Quot.sound |
| TF.Props.C47_assignment_replaces | propext, Quot.sound |
| TF.Props.C47_limits_false | propext, Classical.choice, Quot.sound |
| TF.Props.C48_spent_never_spendable | propext, Classical.choice, Quot.sound |
| TF.Props.C48_wallets_spent_never_spendable | propext, Classical.choice, Quot.sound |
| TF.Props.C49_counted_once_partial | propext, Classical.choice, Quot.sound |
| TF.Props.C49_amounts_split_partial | propext, Classical.choice, Quot.sound |
| TF.Props.C49_counted_once_false | propext, Classical.choice, Quot.sound |
| TF.Props.C50_merge_partial | propext, Classical.choice, Quot.sound |
| TF.Props.C50_merge_false | propext, Classical.choice, Quot.sound |
| TF.Props.C51_funding_conserves_partial | propext, Classical.choice, Quot.sound |
| TF.Props.C51_funding_conserves_false | propext, Classical.choice, Quot.sound |
| TF.Props.C52_input_limit | propext, Classical.choice, Quot.sound |
| TF.Props.C52_distinct_partial | propext, Classical.choice, Quot.sound |
| TF.Props.C52_distinct_false | propext, Classical.choice, Quot.sound |
| TF.Props.C53_eligible | propext, Classical.choice, Quot.sound |
| TF.Props.C53_not_locked_partial | propext, Classical.choice, Quot.sound |
| TF.Props.C53_not_spent | propext, Classical.choice, Quot.sound |
| TF.Props.C53_not_locked_false | propext, Classical.choice, Quot.sound |
| TF.Props.C54_complete_personal_partial | propext, Classical.choice, Quot.sound |
| TF.Props.C54_complete_small_partial | propext, Classical.choice, Quot.sound |
| TF.Props.C54_complete_false | propext, Classical.choice, Quot.sound |
| TF.Props.C54_complete_single_partial | propext, Classical.choice, Quot.sound |
| TF.Props.C55_drain_spends_selected | propext, Classical.choice, Quot.sound |
| TF.Props.C55_drain_once_partial | propext, Classical.choice, Quot.sound |
| TF.Props.C55_drain_transactions_partial | propext, Classical.choice, Quot.sound |
| TF.Props.C55_drain_once_false | propext, Classical.choice, Quot.sound |
| TF.Props.C56_erc20_plain | propext, Classical.choice, Quot.sound |
| TF.Props.C56_huge_false | propext, Classical.choice, Quot.sound |
| TF.Props.C56_coins_send_partial | propext, Classical.choice, Quot.sound |
| TF.Props.C56_builder_send_partial | propext, Classical.choice, Quot.sound |
| TF.Props.C56_builder_once | propext, Classical.choice, Quot.sound |
| TF.Props.C56_erc20_send_partial | propext, Classical.choice, Quot.sound |
| TF.Props.C57_coins_send | propext, Classical.choice, Quot.sound |
| TF.Props.C57_builder_send | propext, Classical.choice, Quot.sound |
| TF.Props.C57_erc20_send | propext, Classical.choice, Quot.sound |
| TF.Props.C57_record_new | propext, Classical.choice, Quot.sound |
| TF.Props.C57_record_update | propext, Classical.choice, Quot.sound |
| TF.Props.C57_address_register | propext, Classical.choice, Quot.sound |
| TF.Props.C57_coins_new | propext, Classical.choice, Quot.sound |
| TF.Props.C57_definition_set | propext, Classical.choice, Quot.sound |
| TF.Props.C57_name_transfer | propext, Classical.choice, Quot.sound |
| TF.Props.C58_scan_finds | propext, Classical.choice, Quot.sound |
| TF.Props.C58_scan_adds | propext, Classical.choice, Quot.sound |
| TF.Props.C58_scan_ends | propext, Classical.choice, Quot.sound |
| TF.Props.C58_no_key_error | propext, Classical.choice, Quot.sound |
| TF.Props.C59_key | propext, Classical.choice, Quot.sound |
| TF.Props.C59_preimage_injective | propext, Classical.choice, Quot.sound |
| TF.Props.C59_new_wallet | propext, Classical.choice, Quot.sound |
| TF.Props.C59_recreate | propext, Classical.choice, Quot.sound |
| TF.Props.C59_seed_keys | propext, Classical.choice, Quot.sound |
| TF.Props.C60_get_answer | propext, Classical.choice, Quot.sound |
| TF.Props.C60_get_unavailable | propext, Classical.choice, Quot.sound |
| TF.Props.C60_get_refused | propext, Classical.choice, Quot.sound |
| TF.Props.C60_post | propext, Quot.sound |
| TF.Props.C61_coin_partial | propext, Classical.choice, Quot.sound |
| TF.Props.C61_stake_partial | propext, Classical.choice, Quot.sound |
| TF.Props.C61_withdrawal_false | propext, Classical.choice, Quot.sound |
| TF.Props.C61_spend_false | propext, Classical.choice, Quot.sound |
| TF.Props.C61_same_block_false | propext, Classical.choice, Quot.sound |
| TF.Props.C62_accepted | propext, Classical.choice, Quot.sound |
| TF.Props.C62_history | propext, Classical.choice, Quot.sound |
| TF.Props.C63_available | propext, Quot.sound |
| TF.Props.C63_available_multi_partial | propext, Quot.sound |
| TF.Props.C63_personal_partial | propext, Classical.choice, Quot.sound |
| TF.Props.C63_multi_partial | propext, Classical.choice, Quot.sound |
| TF.Props.C63_withdrawal_false | propext, Classical.choice, Quot.sound |
| TF.Props.C63_withdrawal_spent_false | propext, Classical.choice, Quot.sound |
| TF.Props.C63_mint_false | propext, Classical.choice, Quot.sound |
| TF.Props.C63_plain_output_false | propext, Classical.choice, Quot.sound |
| TF.Props.C64_verify_secret | propext, Quot.sound |
| TF.Props.C64_verify_secret_no | propext, Quot.sound |
| TF.Props.C64_redeem_secret | propext, Classical.choice, Quot.sound |
| TF.Props.C64_redeem_refused | propext, Classical.choice, Quot.sound |
| TF.Props.C65_redeem | propext, Classical.choice, Quot.sound |
| TF.Props.C65_refund | propext, Classical.choice, Quot.sound |
| TF.Props.C65_refund_signed_partial | propext, Classical.choice, Quot.sound |
| TF.Props.C65_told | propext, Classical.choice, Quot.sound |
| TF.Props.C65_initiate_partial | propext, Classical.choice, Quot.sound |
| TF.Props.C65_participate_partial | propext, Classical.choice, Quot.sound |
| TF.Props.C65_refund_signed_false | propext, Classical.choice, Quot.sound |
| TF.Props.C66_number | propext, Classical.choice, Quot.sound |
| TF.Props.C66_net_address_wire | propext, Classical.choice, Quot.sound |
| TF.Props.C66_mapped_is_v4 | propext, Classical.choice, Quot.sound |
| TF.Props.C66_net_address_json | propext, Classical.choice, Quot.sound |
| TF.Props.C67_bot_name_partial | propext, Classical.choice, Quot.sound |
| TF.Props.C67_bot_name_false | propext, Classical.choice, Quot.sound |
| TF.Props.C68_accepted_texts | propext, Classical.choice, Quot.sound |
| TF.Props.C68_erc20_valid_partial | propext, Classical.choice, Quot.sound |
| TF.Props.C68_values | propext, Classical.choice, Quot.sound |
| TF.Props.C68_erc20_valid_false | propext, Classical.choice, Quot.sound |
| TF.Props.C69_reads | propext, Classical.choice, Quot.sound |
| TF.Props.C69_reads_seconds | propext, Classical.choice, Quot.sound |
| TF.Props.C69_reads_only | propext, Quot.sound |
| TF.Props.C69_roundtrip_partial | propext, Classical.choice, Quot.sound |
| TF.Props.C69_negative_false | propext, Classical.choice, Quot.sound |
| TF.Props.C69_huge_false | propext, Classical.choice, Quot.sound |
| TF.Props.C70_failed_attempt_partial | propext, Classical.choice, Quot.sound |
| TF.Props.C70_failed_attempt_false | propext, Classical.choice, Quot.sound |
| TF.Props.C71_assign_inputs_partial | propext, Quot.sound |
| TF.Props.C71_assign_inputs_false | propext, Classical.choice, Quot.sound |
| TF.Props.C72_json_dumps_false | propext, Classical.choice, Quot.sound |
| TF.Props.C72_json_dumps_partial | propext, Classical.choice, Quot.sound |
| TF.Props.C73_both_sign_partial | propext, Classical.choice, Quot.sound |
| TF.Props.C73_both_sign_false | propext, Classical.choice, Quot.sound |
| TF.Props.C74_compare_partial | propext, Classical.choice, Quot.sound |
| TF.Props.C74_compare_false | none |
| TF.Props.C74_read_false | propext, Classical.choice, Quot.sound |
| TF.Props.C74_read_partial | propext, Classical.choice, Quot.sound |
| TF.Props.C75_signed_bytes_determine_contents | propext, Classical.choice, Quot.sound |
| TF.Props.C76_copy_partial | propext |
| TF.Props.C76_copy_false | propext |
| TF.Props.C77_drain_succeeds_partial | propext, Classical.choice, Quot.sound |
| TF.Props.C77_drain_succeeds_false | propext, Classical.choice, Quot.sound |
| TF.Props.C78_combine_partial | propext, Quot.sound |
| TF.Props.C78_combine_false | propext, Quot.sound |
| TF.Props.C79_record_new_partial | propext, Classical.choice, Quot.sound |
| TF.Props.C79_record_update_partial | propext, Classical.choice, Quot.sound |
| TF.Props.C79_name_transfer_partial | propext, Classical.choice, Quot.sound |
| TF.Props.C79_address_register_partial | propext, Classical.choice, Quot.sound |
| TF.Props.C79_huge_false | propext, Classical.choice, Quot.sound |
| TF.Props.C80_update_active | propext, Classical.choice, Quot.sound |
| TF.Props.C80_transfer_active | propext, Classical.choice, Quot.sound |
| TF.Props.C80_something_given_false | propext, Classical.choice, Quot.sound |
| TF.Props.C81_coins_new | propext, Classical.choice, Quot.sound |
| TF.Props.C81_definition_set | propext, Classical.choice, Quot.sound |
| TF.Props.C82_only_signs | propext, Classical.choice, Quot.sound |
| TF.Props.C82_submits_signed | propext, Classical.choice, Quot.sound |
| TF.Props.C82_signs_own_input | propext, Classical.choice, Quot.sound |
| TF.Props.C82_garbage_false | propext, Classical.choice, Quot.sound |
| TF.Props.C82_complete_false | propext, Classical.choice, Quot.sound |
| TF.Props.C82_no_inputs_false | propext, Classical.choice, Quot.sound |
| TF.Props.C82_legacy_false | propext, Classical.choice, Quot.sound |
| TF.Props.C83_coins_send | propext, Classical.choice, Quot.sound |
| TF.Props.C83_builder_send | propext, Classical.choice, Quot.sound |
| TF.Props.C83_record_new | propext, Classical.choice, Quot.sound |
| TF.Props.C83_address_register | propext, Classical.choice, Quot.sound |
| TF.Props.C83_record_update | propext, Classical.choice, Quot.sound |
| TF.Props.C83_name_transfer | propext, Classical.choice, Quot.sound |
| TF.Props.C84_offered_partial | propext, Classical.choice, Quot.sound |
| TF.Props.C84_no_double_spend_partial | propext, Classical.choice, Quot.sound |
| TF.Props.C84_double_spend_false | propext, Classical.choice, Quot.sound |
| TF.Props.C85_participate_partial | propext, Classical.choice, Quot.sound |
| TF.Props.C85_claims_partial | propext, Classical.choice, Quot.sound |
| TF.Props.C85_coins_send_partial | propext, Classical.choice, Quot.sound |
| TF.Props.C85_builder_send_partial | propext, Classical.choice, Quot.sound |
| TF.Props.C85_coins_new_partial | propext, Classical.choice, Quot.sound |
| TF.Props.C85_bots_partial | propext, Classical.choice, Quot.sound |
| TF.Props.C85_definition_set_partial | propext, Classical.choice, Quot.sound |
| TF.Props.C85_transaction_sign_partial | propext, Classical.choice, Quot.sound |
| TF.Props.C85_answer_false | propext, Classical.choice, Quot.sound |
| TF.Props.C85_own_multisig_false | propext, Classical.choice, Quot.sound |
| TF.Props.C86_coins_send | propext, Classical.choice, Quot.sound |
| TF.Props.C86_builder_send | propext, Classical.choice, Quot.sound |
| TF.Props.C86_coins_new | propext, Classical.choice, Quot.sound |
| TF.Props.C86_record_new | propext, Classical.choice, Quot.sound |
| TF.Props.C86_record_update | propext, Classical.choice, Quot.sound |
| TF.Props.C86_name_transfer | propext, Classical.choice, Quot.sound |
| TF.Props.C86_address_register | propext, Classical.choice, Quot.sound |
| TF.Props.C86_transaction_sign | propext, Classical.choice, Quot.sound |
| TF.Props.C86_initiate | propext, Classical.choice, Quot.sound |
| TF.Props.C86_participate | propext, Classical.choice, Quot.sound |
| TF.Props.C86_redeem | propext, Classical.choice, Quot.sound |
| TF.Props.C86_refund | propext, Classical.choice, Quot.sound |
| TF.Props.C87_decimal_text_partial | propext, Classical.choice, Quot.sound |
| TF.Props.C87_smallest_unit_false | propext, Classical.choice, Quot.sound |
| TF.Props.C88_returned | propext, Classical.choice, Quot.sound |
| TF.Props.C88_submits | propext, Classical.choice, Quot.sound |
| TF.Props.C88_id_false | propext, Classical.choice, Quot.sound |
| TF.Props.C89_fetched_partial | propext, Classical.choice, Quot.sound |
| TF.Props.C89_given_partial | propext, Classical.choice, Quot.sound |
| TF.Props.C89_accepts | propext, Classical.choice, Quot.sound |
| TF.Props.C89_spent_false | propext, Classical.choice, Quot.sound |
| TF.Props.C89_time_false | propext, Classical.choice, Quot.sound |
| TF.Props.C89_seconds_false | propext, Classical.choice, Quot.sound |
| TF.Props.C90_redeem_partial | propext, Classical.choice, Quot.sound |
| TF.Props.C90_refund_partial | propext, Classical.choice, Quot.sound |
| TF.Props.C90_free_for_all_stuck | propext, Classical.choice, Quot.sound |
| TF.Props.C90_free_for_all_false | propext, Classical.choice, Quot.sound |
| TF.Props.C90_multisig_participator_false | propext, Classical.choice, Quot.sound |
| TF.Props.C91_secret_partial | propext, Classical.choice, Quot.sound |
| TF.Props.C91_secret_false | propext, Classical.choice, Quot.sound |
| TF.Props.C92_skipped_forever | propext, Classical.choice, Quot.sound |
| TF.Props.C92_no_gap_partial | propext, Classical.choice, Quot.sound |
| TF.Props.C92_skipped_false | propext, Classical.choice, Quot.sound |
| TF.Props.C93_failover_partial | propext, Classical.choice, Quot.sound |
| TF.Props.C93_failover_false | propext, Classical.choice, Quot.sound |
| TF.Props.C94_accepted | propext, Classical.choice, Quot.sound |
| TF.Props.C94_inputs | propext, Classical.choice, Quot.sound |
| TF.Props.C94_outputs_partial | propext, Classical.choice, Quot.sound |
| TF.Props.C94_withdrawal_false | propext, Classical.choice, Quot.sound |
| TF.Props.C94_stakes | propext, Classical.choice, Quot.sound |
| TF.Props.C94_confirmed | propext, Classical.choice, Quot.sound |
| TF.Props.C95_block_contents | propext, Classical.choice, Quot.sound |
| TF.Props.C95_other_kind | propext, Classical.choice, Quot.sound |
| TF.Props.C95_missing_field | propext, Classical.choice, Quot.sound |
| TF.Props.C95_no_key_error | propext, Classical.choice, Quot.sound |
| TF.Props.C95_unknown_bot | propext, Classical.choice, Quot.sound |
| TF.Props.C95_record_contents | propext, Classical.choice, Quot.sound |
| TF.Props.C95_erc20_false | propext, Classical.choice, Quot.sound |
| TF.Props.C95_transaction | propext, Classical.choice, Quot.sound |
| TF.Props.C95_block | propext, Classical.choice, Quot.sound |
| TF.Props.C95_height_false | propext, Classical.choice, Quot.sound |
| TF.Props.C95_record_false | propext, Classical.choice, Quot.sound |
| TF.Props.C96_available_partial | propext, Classical.choice, Quot.sound |
| TF.Props.C96_first_block_false | propext, Classical.choice, Quot.sound |
| TF.Props.C96_balance_partial | propext, Classical.choice, Quot.sound |
| TF.Props.C96_two_owners_false | propext, Classical.choice, Quot.sound |
| TF.Props.C97_rewards_false | propext, Classical.choice, Quot.sound |
| TF.Props.C98_transactions_partial | propext, Classical.choice, Quot.sound |
| TF.Props.C98_unused_false | propext, Classical.choice, Quot.sound |
| TF.Props.C99_encodes | propext, Classical.choice, Quot.sound |
| TF.Props.C99_identified | propext, Classical.choice, Quot.sound |
| TF.Props.C99_output_ids | propext, Classical.choice, Quot.sound |
| TF.Props.C99_signable | propext, Classical.choice, Quot.sound |
| TF.Props.C99_legacy_encodes | propext, Classical.choice, Quot.sound |
| TF.Props.C99_legacy_identified | propext, Classical.choice, Quot.sound |
| TF.Props.C99_legacy_signable | propext, Classical.choice, Quot.sound |
| TF.Props.C99_legacy_multisig_unfit | propext, Classical.choice, Quot.sound |
| TF.Props.C100_coins_send_partial | propext, Classical.choice, Quot.sound |
| TF.Props.C100_builder_send_partial | propext, Classical.choice, Quot.sound |
| TF.Props.C100_erc20_send_partial | propext, Classical.choice, Quot.sound |
| TF.Props.C100_owner_twice_false | propext, Classical.choice, Quot.sound |
| TF.Props.C100_one_text_false | propext, Classical.choice, Quot.sound |
| TF.Props.C100_initiate_partial | propext, Classical.choice, Quot.sound |
| TF.Props.C100_participate_partial | propext, Classical.choice, Quot.sound |
| TF.Props.C101_duration | propext, Classical.choice, Quot.sound |
| TF.Props.C101_date | propext, Classical.choice, Quot.sound |
| TF.Props.C101_undefined | propext, Classical.choice, Quot.sound |
| TF.Props.C101_clock_false | propext, Classical.choice, Quot.sound |
| TF.Props.C101_locked_for | propext, Classical.choice, Quot.sound |
| TF.Props.C101_refundable_after | propext, Classical.choice, Quot.sound |
| TF.Props.C101_early_date_false | propext, Classical.choice, Quot.sound |
| TF.Props.C102_erc20 | propext, Classical.choice, Quot.sound |
| TF.Props.C102_erc20_only_personal | propext, Classical.choice, Quot.sound |
| TF.Props.C102_mint_condition | propext, Classical.choice, Quot.sound |
| TF.Props.C102_last_block | propext, Classical.choice, Quot.sound |
| TF.Props.C103_own_all | propext, Classical.choice, Quot.sound |
| TF.Props.C103_answered | propext, Classical.choice, Quot.sound |
| TF.Props.C103_own | propext, Classical.choice, Quot.sound |
| TF.Props.C104_payments | propext, Classical.choice, Quot.sound |
| TF.Props.C104_minting | propext, Classical.choice, Quot.sound |
| TF.Props.C104_bots | propext, Classical.choice, Quot.sound |
| TF.Props.C104_transaction_sign | propext, Classical.choice, Quot.sound |
| TF.Props.C104_swaps | propext, Classical.choice, Quot.sound |
| TF.Props.C105_submit_false | propext, Classical.choice, Quot.sound |
| TF.Props.C105_payments_false | propext, Classical.choice, Quot.sound |
| TF.Props.C105_submit_partial | propext, Classical.choice, Quot.sound |
| TF.Props.C106_client_network_partial | propext, Classical.choice, Quot.sound |
| TF.Props.C106_fee_and_explorers | propext, Classical.choice, Quot.sound |
| TF.Props.C106_client_network_false | propext, Classical.choice, Quot.sound |
| TF.Props.C107_counted | propext, Classical.choice, Quot.sound |
| TF.Props.C107_active | propext, Classical.choice, Quot.sound |
| TF.Props.C107_addresses | propext, Quot.sound |
| TF.Props.C107_combined | propext, Classical.choice, Quot.sound |
| TF.Props.C107_personal_part | propext, Quot.sound |
| TF.Props.C107_multisig_part_partial | propext, Classical.choice, Quot.sound |
| TF.Props.C107_multisig_part_false | propext, Classical.choice, Quot.sound |
| TF.Props.C108_report | propext, Classical.choice, Quot.sound |
| TF.Props.C108_print | propext, Classical.choice, Quot.sound |
| TF.Props.C109_record_new_partial | propext, Classical.choice, Quot.sound |
| TF.Props.C109_address_register_partial | propext, Classical.choice, Quot.sound |
| TF.Props.C109_record_update_partial | propext, Classical.choice, Quot.sound |
| TF.Props.C109_name_transfer_partial | propext, Classical.choice, Quot.sound |
| TF.Props.C109_same_key_false | propext, Classical.choice, Quot.sound |
| TF.Props.C110_definition_set_partial | propext, Classical.choice, Quot.sound |
| TF.Props.C110_coins_new_partial | propext, Classical.choice, Quot.sound |
| TF.Props.C110_owner_twice_false | propext, Classical.choice, Quot.sound |
| TF.Props.C111_encoding | propext, Classical.choice, Quot.sound |
| TF.Props.C111_identity | propext, Classical.choice, Quot.sound |
| TF.Props.C111_coin_output_id | propext, Classical.choice, Quot.sound |
| TF.Props.C111_signed | propext, Classical.choice, Quot.sound |
| TF.Props.C111_legacy_encoding | propext, Classical.choice, Quot.sound |
| TF.Props.C111_legacy_signed | propext, Classical.choice, Quot.sound |
| TF.Props.C111_wire_format | propext, Classical.choice, Quot.sound |
| TF.Props.C111_overlong_false | propext, Classical.choice, Quot.sound |
| TF.Props.C112_legacy_json | propext, Classical.choice, Quot.sound |
| TF.Props.C112_legacy_bytes | propext, Classical.choice, Quot.sound |
| TF.Props.C113_requests | propext, Classical.choice, Quot.sound |
| TF.Props.C113_answered_partial | propext, Classical.choice, Quot.sound |
| TF.Props.C113_complete_partial | propext, Classical.choice, Quot.sound |
| TF.Props.C113_asks_false | propext, Classical.choice, Quot.sound |
| TF.Props.C113_swap_false | propext, Classical.choice, Quot.sound |
| TF.Props.C114_separate_partial | propext, Classical.choice, Quot.sound |
| TF.Props.C114_follow | propext, Classical.choice, Quot.sound |
| TF.Props.C114_shared_false | propext, Classical.choice, Quot.sound |
| TF.Props.C115_fields_partial | propext, Classical.choice, Quot.sound |
| TF.Props.C115_refused | propext, Classical.choice, Quot.sound |
| TF.Props.C115_refused_false | propext, Classical.choice, Quot.sound |
| TF.Props.C115_accepts | propext, Classical.choice, Quot.sound |
| TF.Props.C115_fees | propext, Classical.choice, Quot.sound |
| TF.Props.C115_created | propext, Classical.choice, Quot.sound |
| TF.Props.C115_mint_defined | propext, Classical.choice, Quot.sound |
| TF.Props.C116_amounts_partial | propext, Classical.choice, Quot.sound |
| TF.Props.C116_fees | propext, Classical.choice, Quot.sound |
| TF.Props.C116_operators | propext, Classical.choice, Quot.sound |
| TF.Props.C116_inplace_false | propext, Classical.choice, Quot.sound |
| TF.Props.C117_json | propext, Quot.sound |
| TF.Props.C117_equal | propext, Classical.choice, Quot.sound |
| TF.Props.C117_text | propext, Classical.choice, Quot.sound |
| TF.Props.C117_refund | propext, Classical.choice, Quot.sound |
| TF.Props.C117_now | propext, Quot.sound |
| TF.Props.C118_amounts | propext, Classical.choice, Quot.sound |
| TF.Props.C118_whole_number | propext, Classical.choice, Quot.sound |
| TF.Props.C118_amount_text | propext, Classical.choice, Quot.sound |
| TF.Props.C118_any_answer | propext, Classical.choice, Quot.sound |
| TF.Props.C118_total_order | propext, Classical.choice, Quot.sound |
| TF.Props.C118_amounts_false | propext, Classical.choice, Quot.sound |
| TF.Props.C118_data | propext, Classical.choice, Quot.sound |
| TF.Props.C118_data_kinds | propext |
| TF.Props.C118_data_objects | propext, Quot.sound |
| TF.Props.C118_data_keys | propext, Quot.sound |
| TF.Props.C118_identifier_keys | propext, Classical.choice, Quot.sound |
| TF.Props.C118_text_key_false | propext |
| TF.Props.C118_address | propext, Quot.sound |
| TF.Props.C118_address_keys | propext, Quot.sound |
| TF.Props.C118_address_false | propext |
| TF.Props.C119_output | propext, Classical.choice, Quot.sound |
| TF.Props.C119_sum | propext, Classical.choice, Quot.sound |
| TF.Props.C119_apart | propext, Classical.choice, Quot.sound |
| TF.Props.C119_new | propext, Classical.choice, Quot.sound |
| TF.Props.C119_personal | propext, Classical.choice, Quot.sound |
| TF.Props.C119_alone_partial | propext, Classical.choice, Quot.sound |
| TF.Props.C119_block_id_partial | propext, Classical.choice, Quot.sound |
| TF.Props.C119_own_id | propext, Classical.choice, Quot.sound |
| TF.Props.C119_chain | propext, Classical.choice, Quot.sound |
| TF.Props.C119_merged_false | propext, Classical.choice, Quot.sound |
| TF.Props.C119_block_id_false | propext |
| TF.Props.C119_blockid_refused | propext, Quot.sound |
| TF.Props.C120_valid_partial | propext, Classical.choice, Quot.sound |
| TF.Props.C120_withdrawal_false | propext, Classical.choice, Quot.sound |
| TF.Props.C120_mint_false | propext, Classical.choice, Quot.sound |
| TF.Props.C120_contract_partial | propext, Classical.choice, Quot.sound |
| TF.Props.C120_redeem_partial | propext, Classical.choice, Quot.sound |
| TF.Props.C120_refund_partial | propext, Classical.choice, Quot.sound |
| TF.Props.C120_refund_false | propext, Classical.choice, Quot.sound |
| TF.Props.C120_worthless_false | propext, Classical.choice, Quot.sound |
| TF.Props.C120_empty_secret_false | propext, Classical.choice, Quot.sound |
| TF.Props.C121_conserved_partial | propext, Classical.choice, Quot.sound |
| TF.Props.C121_once_partial | propext, Classical.choice, Quot.sound |
| TF.Props.C121_untouched_partial | propext, Classical.choice, Quot.sound |
| TF.Props.C121_number | propext, Classical.choice, Quot.sound |
| TF.Props.C122_loads | propext, Classical.choice, Quot.sound |
| TF.Props.C122_unique | propext, Classical.choice, Quot.sound |
| TF.Props.C122_dumps | propext, Classical.choice, Quot.sound |
| TF.Props.C122_proper | propext, Classical.choice, Quot.sound |
| TF.Props.C122_roundtrip | propext, Classical.choice, Quot.sound |
| TF.Props.C122_bytes | propext, Classical.choice, Quot.sound |
| TF.Props.C122_transaction | propext, Classical.choice, Quot.sound |
| TF.Props.C122_transaction_text | propext, Classical.choice, Quot.sound |
| TF.Props.C122_answer_partial | propext, Classical.choice, Quot.sound |
| TF.Props.C122_answer_false | propext, Classical.choice, Quot.sound |
| TF.Props.C122_submit | propext, Classical.choice, Quot.sound |
| TF.Props.C122_get | propext, Classical.choice, Quot.sound |
| TF.Props.C122_client | propext, Classical.choice, Quot.sound |
| TF.Props.C123_words | propext, Classical.choice, Quot.sound |
| TF.Props.C123_entropy | propext, Classical.choice, Quot.sound |
| TF.Props.C123_has_words | propext, Classical.choice, Quot.sound |
| TF.Props.C123_unique | propext, Classical.choice, Quot.sound |
| TF.Props.C123_recover_partial | propext, Classical.choice, Quot.sound |
| TF.Props.C123_new_wallet | propext, Classical.choice, Quot.sound |
| TF.Props.C123_raw_false | propext, Classical.choice, Quot.sound |
| TF.Props.C124_redeem | propext, Quot.sound |
| TF.Props.C124_refund | propext, Quot.sound |
| TF.Props.C124_verify | propext, Classical.choice, Quot.sound |
| TF.Props.C124_redeem_raises | propext, Classical.choice, Quot.sound |
| TF.Props.C124_refund_raises_partial | propext, Classical.choice, Quot.sound |
| TF.Props.C124_verify_raises_partial | propext, Classical.choice, Quot.sound |
| TF.Props.C124_amount | propext, Classical.choice, Quot.sound |
| TF.Props.C124_get | propext, Classical.choice, Quot.sound |
| TF.Props.C124_post | propext, Quot.sound |
| TF.Props.C124_bot | propext, Classical.choice, Quot.sound |
| TF.Props.C124_update | propext, Quot.sound |
| TF.Props.C124_transfer | propext, Quot.sound |
| TF.Props.C124_bots_raise_partial | propext, Classical.choice, Quot.sound |
| TF.Props.C124_address | propext, Classical.choice, Quot.sound |
| TF.Props.C124_unspent_false | propext, Quot.sound |
| TF.Props.C124_undated_false | propext, Classical.choice, Quot.sound |
| TF.Props.C124_spelling_false | propext, Classical.choice, Quot.sound |
| TF.Props.C125_accepted | propext, Classical.choice, Quot.sound |
| TF.Props.C125_refused | propext, Classical.choice, Quot.sound |
| TF.Props.C125_one_reading | propext, Classical.choice, Quot.sound |
| TF.Props.C125_json_partial | propext, Classical.choice, Quot.sound |
| TF.Props.C125_json_false | propext, Classical.choice, Quot.sound |
| TF.Props.C125_json_refused | propext, Classical.choice, Quot.sound |
| TF.Props.C126_signatures | propext, Classical.choice, Quot.sound |
| TF.Props.C126_next | propext, Classical.choice, Quot.sound |
| TF.Props.C126_submitted | propext, Classical.choice, Quot.sound |
| TF.Props.C126_unknown | propext, Classical.choice, Quot.sound |
| TF.Props.C126_personal_false | propext, Classical.choice, Quot.sound |
| TF.Props.C127_base64 | propext, Classical.choice, Quot.sound |
| TF.Props.C127_address | propext, Classical.choice, Quot.sound |
| TF.Props.C127_key | propext, Classical.choice, Quot.sound |
| TF.Props.C127_condition | propext, Classical.choice, Quot.sound |
| TF.Props.C127_fulfillment | propext, Classical.choice, Quot.sound |
| TF.Props.C127_input | propext, Classical.choice, Quot.sound |
| TF.Props.C127_output | propext, Classical.choice, Quot.sound |
| TF.Props.C127_stake_input | propext, Classical.choice, Quot.sound |
| TF.Props.C127_stake_output | propext, Classical.choice, Quot.sound |
| TF.Props.C127_transaction | propext, Classical.choice, Quot.sound |
| TF.Props.C128_texts_partial | propext, Classical.choice, Quot.sound |
| TF.Props.C128_newline_false | propext, Classical.choice, Quot.sound |
| TF.Props.C128_refused | propext, Classical.choice, Quot.sound |
| TF.Props.C128_numbers | propext, Classical.choice, Quot.sound |
| TF.Props.C129_text | propext, Classical.choice, Quot.sound |
| TF.Props.C129_writes | propext, Classical.choice, Quot.sound |
| TF.Props.C129_roundtrip | propext, Classical.choice, Quot.sound |
| TF.Props.C129_lawful | propext, Classical.choice, Quot.sound |
| TF.Props.C129_network_address_partial | propext, Classical.choice, Quot.sound |
| TF.Props.C129_refused | propext, Classical.choice, Quot.sound |
| TF.Props.C129_same_address | propext, Classical.choice, Quot.sound |
| TF.Props.C129_scope_lost | propext, Classical.choice, Quot.sound |
| TF.Props.C130_calendar | propext, Classical.choice, Quot.sound |
| TF.Props.C130_order | propext, Classical.choice, Quot.sound |
| TF.Props.C130_date | propext, Classical.choice, Quot.sound |
| TF.Props.C130_shown | propext, Classical.choice, Quot.sound |
| TF.Props.C130_repeated_hour_false | propext, Classical.choice, Quot.sound |
| TF.Props.C130_height_refused | propext, Classical.choice, Quot.sound |
| TF.Props.C130_ago | propext, Classical.choice, Quot.sound |
| TF.Props.C130_dashes_refused | propext, Classical.choice, Quot.sound |
| TF.Props.C131_reads | propext, Classical.choice, Quot.sound |
| TF.Props.C131_exact | propext, Classical.choice, Quot.sound |
| TF.Props.C131_far | propext, Classical.choice, Quot.sound |
| TF.Props.C131_reads_only | propext, Classical.choice, Quot.sound |
| TF.Props.C131_whole | propext, Classical.choice, Quot.sound |
| TF.Props.C131_lock | propext, Classical.choice, Quot.sound |
| TF.Props.C131_dropped_false | propext, Classical.choice, Quot.sound |
| TF.Props.C131_huge_false | propext, Classical.choice, Quot.sound |
| TF.Props.C131_ago | propext, Classical.choice, Quot.sound |
| TF.Props.C131_ago_false | propext, Classical.choice, Quot.sound |
| TF.Props.C132_timedelta | propext, Classical.choice, Quot.sound |
| TF.Props.C132_same_delta | propext, Classical.choice, Quot.sound |
| TF.Props.C132_datetime | propext, Classical.choice, Quot.sound |
| TF.Props.C132_skipped | propext, Classical.choice, Quot.sound |
| TF.Props.C132_aware | propext, Classical.choice, Quot.sound |
| TF.Props.C132_same_date | propext, Classical.choice, Quot.sound |
| TF.Props.C132_far_false | propext, Classical.choice, Quot.sound |
| TF.Props.C133_request | propext, Classical.choice, Quot.sound |
| TF.Props.C133_first | propext, Classical.choice, Quot.sound |
| TF.Props.C133_apart | propext, Classical.choice, Quot.sound |
| TF.Props.C133_names | propext, Quot.sound |
| TF.Props.C133_endpoints | propext, Classical.choice, Quot.sound |
| TF.Props.C133_submission | propext, Classical.choice, Quot.sound |
| TF.Props.C133_no_scheme | propext, Classical.choice, Quot.sound |
| TF.Props.C134_payment | propext, Classical.choice, Quot.sound |
| TF.Props.C134_mint | propext, Classical.choice, Quot.sound |
| TF.Props.C134_private | propext, Classical.choice, Quot.sound |
| TF.Props.C134_private_contract | propext, Classical.choice, Quot.sound |
| TF.Props.C134_contract | propext, Classical.choice, Quot.sound |
| TF.Props.C134_claim | propext, Classical.choice, Quot.sound |
| TF.Props.C134_closed | propext, Classical.choice, Quot.sound |
| TF.Props.C135_shows_partial | propext, Classical.choice, Quot.sound |
| TF.Props.C135_shared_partial | propext, Classical.choice, Quot.sound |
| TF.Props.C135_grows_partial | propext, Classical.choice, Quot.sound |
| TF.Props.C135_shrinks_partial | propext, Classical.choice, Quot.sound |
| TF.Props.C135_arrives_partial | propext, Classical.choice, Quot.sound |
| TF.Props.C136_spendable_partial | propext, Classical.choice, Quot.sound |
| TF.Props.C136_shared_partial | propext, Classical.choice, Quot.sound |
| TF.Props.C136_builder_partial | propext, Classical.choice, Quot.sound |
| TF.Props.C136_erc20_partial | propext, Classical.choice, Quot.sound |
| TF.Props.C136_register_partial | propext, Classical.choice, Quot.sound |
| TF.Props.C136_record_new_partial | propext, Classical.choice, Quot.sound |
| TF.Props.C136_record_update_partial | propext, Classical.choice, Quot.sound |
| TF.Props.C136_name_transfer_partial | propext, Classical.choice, Quot.sound |
| TF.Props.C137_redeem_partial | propext, Classical.choice, Quot.sound |
| TF.Props.C137_refund_partial | propext, Classical.choice, Quot.sound |
| TF.Props.C137_once | propext, Classical.choice, Quot.sound |
| TF.Props.C137_taken | propext, Classical.choice, Quot.sound |
| TF.Props.C138_initiated_partial | propext, Classical.choice, Quot.sound |
| TF.Props.C138_participated_partial | propext, Classical.choice, Quot.sound |
| TF.Props.C138_atomic_partial | propext, Classical.choice, Quot.sound |
| TF.Props.C138_initiates_partial | propext, Classical.choice, Quot.sound |
| TF.Props.C138_participates_partial | propext, Classical.choice, Quot.sound |
| TF.Props.C138_swap_partial | propext, Classical.choice, Quot.sound |
| TF.Props.C138_joined_swap_partial | propext, Classical.choice, Quot.sound |
