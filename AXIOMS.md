# Axioms of the theorems in MANIFEST.json

From `#print axioms` (tools/mkaxioms.sh).

## propext

* `C04_combined_ok_iff`
* `C05_lookup_false`
* `C16_target_false`
* `C26_only_approval_signs`
* `C26_no_approval_no_signature`
* `C26_one_per_review`
* `C30_message_false`
* `C31_path_false`
* `C32_path_false`
* `C33_review_false`
* `C39_approvals_false`
* `C39_crash_false`
* `C39_validate_false`
* `C40_target_false`
* `C40_code_false`
* `C40_key_false`
* `C40_names_false`
* `C40_v1_target_false`
* `C40_v1_args_false`
* `C41_repeatable`
* `C46_required_false`
* `C46_name_false`
* `C47_chain_false`
* `C49_accepted_false`
* `C63_contract_false`
* `C65_case`
* `C65_condition_needed`
* `C70_entry_false`
* `C70_contract_false`
* `C72_delegation_false`
* `C74_order_false`
* `C75_crash_false`
* `C78_signature_false`
* `C78_approvals_false`
* `C80_target_false`
* `C81_both_false`
* `C85_code_false`
* `C86_masked_false`

## propext, Classical.choice, Quot.sound

* `C03_accepted_partial`
* `C03_type_extent_partial`
* `C04_type_parsing_total`
* `C05_lookup_partial`
* `C06_walk_args`
* `C07_refused`
* `C09_accepted_hashes`
* `C09_serialized`
* `C10_wrong_hash_refused`
* `C11_fee_partial`
* `C12_transfer`
* `C13_first_cut_partial`
* `C13_first_partial`
* `C13_same_hash_false`
* `C14_call_cut_partial`
* `C14_hidden_cut_false`
* `C14_call_partial`
* `C14_hidden_false`
* `C15_surplus`
* `C15_delegation`
* `C15_redelegation`
* `C16_text`
* `C16_injective_partial`
* `C16_key_false`
* `C16_uref_false`
* `C16_long_false`
* `C17_amount_u512`
* `C17_amount_int`
* `C17_amount_injective`
* `C18_thousand_separators_false`
* `C18_thousand_separators_partial`
* `C18_digits_kept`
* `C19_ttl`
* `C19_ttl_injective`
* `C21_address`
* `C21_screens`
* `C22_signed_is_shown`
* `C23_signed_is_shown_partial`
* `C23_nothing_shown_false`
* `C24_state_partial`
* `C24_history_partial`
* `C24_rejected_transaction_false`
* `C24_first_bytes_false`
* `C25_message_prefix`
* `C25_refused`
* `C26_review_origin`
* `C26_review_of_accepted_data`
* `C26_wasm_partial`
* `C26_wasm_false`
* `C27_no_init`
* `C28_chunking`
* `C29_oversize`
* `C30_closed_partial`
* `C31_path_partial`
* `C32_path_partial`
* `C34_status_words`
* `C34_success`
* `C36_state_partial`
* `C36_header_partial`
* `C36_deploy_partial`
* `C36_history_partial`
* `C36_first_bytes_false`
* `C36_transaction_false`
* `C37_payload_hash`
* `C38_memory`
* `C39_deploy_memory_partial`
* `C39_serialized_partial`
* `C39_module_partial`
* `C39_module_false`
* `C39_many_false`
* `C39_upload_false`
* `C40_deploy_partial`
* `C40_serialized_partial`
* `C40_v1_partial`
* `C40_v1_serialized_partial`
* `C42_items_partial`
* `C42_items_false`
* `C43_accepted_count_partial`
* `C43_arguments_false`
* `C43_count_partial`
* `C43_required_partial`
* `C44_accepted_partial`
* `C44_accepted_cut_partial`
* `C44_signed_arguments_partial`
* `C44_signed_arguments_false`
* `C45_native_operation`
* `C45_transfer`
* `C46_accepted_target`
* `C46_accepted_required_partial`
* `C46_cut_partial`
* `C46_target`
* `C46_required_partial`
* `C47_chain_deploy_partial`
* `C47_chain_v1_partial`
* `C48_approvals_accepted`
* `C48_approvals_read`
* `C48_approvals`
* `C48_reservations`
* `C48_delegators_partial`
* `C48_delegators_false`
* `C48_deploy_approvals`
* `C48_deploy_number`
* `C49_effort_partial`
* `C49_deploy_partial`
* `C49_v1_partial`
* `C50_address_partial`
* `C50_address_false`
* `C51_refusals`
* `C52_payment_partial`
* `C52_payment_false`
* `C53_call_partial`
* `C53_names_false`
* `C53_accepted_partial`
* `C54_args_hash_false`
* `C54_args_hash_partial`
* `C54_accepted_partial`
* `C55_reservations`
* `C56_header_partial`
* `C57_canonical_partial`
* `C57_loop_false`
* `C57_type_false`
* `C58_arguments_partial`
* `C58_cut_partial`
* `C59_contract_partial`
* `C59_hidden_false`
* `C59_cut_partial`
* `C60_signature`
* `C60_answer`
* `C61_session_false`
* `C61_same_review_false`
* `C61_custom_false`
* `C61_hash_partial`
* `C62_deploy_partial`
* `C62_v1_partial`
* `C62_v1_accepted_partial`
* `C62_v1_header_partial`
* `C63_kinds_partial`
* `C63_trailing_partial`
* `C63_target_false`
* `C64_appended_partial`
* `C64_unsigned_false`
* `C65_history`
* `C66_review`
* `C66_same_line`
* `C66_same_digest`
* `C66_message`
* `C67_deploy`
* `C67_version1_partial`
* `C67_call_false`
* `C68_v1_accepted_partial`
* `C68_cut_partial`
* `C68_deploy_partial`
* `C68_v1_partial`
* `C69_scheduling`
* `C70_transfer`
* `C70_delegation`
* `C70_operation`
* `C70_call_partial`
* `C70_v1_call_partial`
* `C70_version_false`
* `C70_entries_false`
* `C70_contracts_false`
* `C70_stake`
* `C71_line`
* `C71_digest`
* `C72_complete_partial`
* `C72_cut_partial`
* `C72_surplus_false`
* `C73_unknown_kinds`
* `C73_deploy_kinds`
* `C74_delegation_partial`
* `C74_redelegation_partial`
* `C74_hidden_cut_false`
* `C74_delegation_cut_partial`
* `C74_redelegation_cut_partial`
* `C74_expert_cut_false`
* `C74_hidden_false`
* `C75_small_partial`
* `C75_long_false`
* `C75_small_cut_partial`
* `C75_hidden_cut_false`
* `C75_long_cut_false`
* `C75_hidden_false`
* `C76_quiet_partial`
* `C76_review_partial`
* `C76_message_false`
* `C77_chosen_false`
* `C77_transaction_false`
* `C77_message_partial`
* `C78_expert_partial`
* `C78_v1_partial`
* `C78_deploy_partial`
* `C79_labels`
* `C79_text_partial`
* `C79_quotations_partial`
* `C79_chain_false`
* `C80_transaction_partial`
* `C80_other`
* `C80_argument_partial`
* `C80_chain_false`
* `C81_reviewed_partial`
* `C81_value_false`
* `C81_auction_false`
* `C82_serialized_partial`
* `C82_length_false`
* `C83_names_partial`
* `C83_content_partial`
* `C83_operation_partial`
* `C83_call_partial`
* `C83_cut_partial`
* `C83_unique`
* `C83_signed`
* `C83_binding`
* `C84_operation_partial`
* `C84_reservation_partial`
* `C84_call_partial`
* `C84_program_partial`
* `C84_layout_partial`
* `C84_layout_false`
* `C84_names_partial`
* `C84_layout_cut_partial`
* `C84_cut_partial`
* `C84_reservation_cut_partial`
* `C85_call_partial`
* `C85_deploy_partial`
* `C85_transfer_partial`
* `C85_call_cut_partial`
* `C85_announced_cut_partial`
* `C85_operands_cut_partial`
* `C85_code_cut_partial`
* `C85_transfer_cut_partial`
* `C85_code_partial`
* `C86_hash_partial`
* `C86_cut_partial`
* `C87_bypass_false`
* `C87_kind_partial`
* `C87_lines_partial`
* `C88_shadow_false`
* `C88_operation_partial`

## propext, Quot.sound

* `C01_read_little_endian`
* `C02_length_prefix_false`
* `C02_length_prefix_partial`
* `C02_stays_inside_partial`
* `C03_type_extent_false`
* `C07_first_byte`
* `C08_header_extent`
* `C11_name_false`
* `C11_fee_false`
* `C20_checksum_hex`
* `C20_checksum_faithful`
* `C20_bits_inside`
* `C20_hash_hex`
* `C27_refused`
* `C33_review_partial`
* `C34_specific`
* `C35_locked`
* `C35_version`
* `C49_loop_false`
* `C51_error_texts`
* `C53_name_false`
* `C53_version_false`
* `C54_length_false`
* `C56_header_false`
* `C58_name_false`
* `C58_module_false`
* `C59_zero_false`
* `C60_signing_wipes`
* `C60_extraction_wipes`
* `C60_public_key`
* `C62_account_false`
* `C62_chain_false`
* `C62_ttl_false`
* `C68_code_false`
* `C68_name_false`
* `C76_where`
* `C82_table_false`
* `C88_name_false`
