{
 "claims": [
  {
   "property": "C01",
   "status": "proved",
   "theorems": [
    "TF.Props.C01_sia_int"
   ],
   "note": "proved for every integer"
  },
  {
   "property": "C02",
   "status": "proved",
   "theorems": [
    "TF.Props.C02_rivine_int"
   ],
   "note": "proved for every integer and each width 1,2,3,4,8"
  },
  {
   "property": "C03",
   "status": "proved",
   "theorems": [
    "TF.Props.C03_rivine_slice_length"
   ],
   "note": "proved for every length"
  },
  {
   "property": "C04",
   "status": "proved",
   "theorems": [
    "TF.Props.C04_slice_decode",
    "TF.Props.C04_slice_self_delimiting"
   ],
   "note": "proved for sia (< 2^64) and rivine (< 2^29) slices"
  },
  {
   "property": "C05",
   "status": "partial",
   "theorems": [
    "TF.Props.C05_text_slice_partial",
    "TF.Props.C05_text_slice_false",
    "TF.Props.C05_text_slice_unambiguous_partial"
   ],
   "note": "False of the code for non-ASCII text: the prefix counts code points while the body is UTF-8 (C05_text_slice_false); proved for texts whose UTF-8 size equals their length."
  },
  {
   "property": "C06",
   "status": "proved",
   "theorems": [
    "TF.Props.C06_append_only",
    "TF.Props.C06_add_all_concat",
    "TF.Props.C06_add_all_first_error",
    "TF.Props.C06_list_is_prefix_and_elements",
    "TF.Props.C06_array",
    "TF.Props.C06_slice",
    "TF.Props.C06_byte"
   ],
   "note": "proved for every encoder state and every list"
  },
  {
   "property": "C07",
   "status": "proved",
   "theorems": [
    "TF.Props.C07_merkle_root"
   ],
   "note": "proved for every hash function and every leaf list"
  },
  {
   "property": "C08",
   "status": "proved",
   "theorems": [
    "TF.Props.C08_merkle_stack"
   ],
   "note": "proved for every leaf list"
  },
  {
   "property": "C09",
   "status": "partial",
   "theorems": [
    "TF.Props.C09_empty_root_raises",
    "TF.Props.C09_root_defined_iff_nonempty_partial"
   ],
   "note": "False of the code: root() of an empty tree raises TypeError (C09_empty_root_raises); on non-empty trees it is always defined."
  },
  {
   "property": "C10",
   "status": "proved",
   "theorems": [
    "TF.Props.C10_fixed_size_invariant",
    "TF.Props.C10_set_accepts"
   ],
   "note": "proved for every history"
  },
  {
   "property": "C11",
   "status": "proved",
   "theorems": [
    "TF.Props.C11_binary_data_text_roundtrip"
   ],
   "note": "proved for every byte string and each of the three encodings"
  },
  {
   "property": "C12",
   "status": "partial",
   "theorems": [
    "TF.Props.C12_hash_text_roundtrip_partial",
    "TF.Props.C12_hash_text_roundtrip_false"
   ],
   "note": "False for the default Hash (empty value printed as 64 zeros); proved for every 32-byte Hash."
  },
  {
   "property": "C13",
   "status": "proved",
   "theorems": [
    "TF.Props.C13_currency_always_good"
   ],
   "note": "proved for every history of operations"
  },
  {
   "property": "C14",
   "status": "partial",
   "theorems": [
    "TF.Props.C14_refusal_partial",
    "TF.Props.C14_documented_error_false"
   ],
   "note": "False: the setter names undefined classes, so NameError is raised; the refusal itself is proved."
  },
  {
   "property": "C15",
   "status": "partial",
   "theorems": [
    "TF.Props.C15_add_sub_exact_partial",
    "TF.Props.C15_mul_exact_partial",
    "TF.Props.C15_exact_false",
    "TF.Props.C15_add_rounded",
    "TF.Props.C15_sub_rounded",
    "TF.Props.C15_mul_rounded",
    "TF.Props.C15_mul_spelling_false"
   ],
   "note": "False beyond 28 significant digits (decimal context); proved within. For amounts of any size the exact outcome is proved: the result is the exact sum, difference or product rounded to 28 digits, half to even (C15_*_rounded). A product is also refused when the stored decimals add up to more than nine, even when the product itself is a whole number of units (C15_mul_spelling_false)."
  },
  {
   "property": "C16",
   "status": "partial",
   "theorems": [
    "TF.Props.C16_rsub_false"
   ],
   "note": "False of the code: __rsub__ returns c - x."
  },
  {
   "property": "C17",
   "status": "partial",
   "theorems": [
    "TF.Props.C17_currency_json_partial",
    "TF.Props.C17_currency_json_false",
    "TF.Props.C17_currency_json_rounded"
   ],
   "note": "False past 28 significant digits; proved within. For any size, what comes back is the amount rounded to 28 digits (C17_currency_json_rounded)."
  },
  {
   "property": "C18",
   "status": "proved",
   "theorems": [
    "TF.Props.C18_currency_text_roundtrip"
   ],
   "note": "proved for every good currency"
  },
  {
   "property": "C19",
   "status": "proved",
   "theorems": [
    "TF.Props.C19_amount_encoding",
    "TF.Props.C19_currency_encodes_units",
    "TF.Props.C19_amount_self_delimiting"
   ],
   "note": "proved for every amount in the representable range"
  },
  {
   "property": "C20",
   "status": "proved",
   "theorems": [
    "TF.Props.C20_blockstake",
    "TF.Props.C20_text",
    "TF.Props.C20_held",
    "TF.Props.C20_currency_false"
   ],
   "note": "Proved for every int and every text (Python's grammar for whole numbers). Outside the property: a Currency is accepted as a block stake too and the result can be neither encoded nor taken as a number (C20_currency_false)."
  },
  {
   "property": "C21",
   "status": "partial",
   "theorems": [
    "TF.Props.C21_public_key_text_partial",
    "TF.Props.C21_public_key_text_false"
   ],
   "note": "False: a key with an empty payload is accepted; the rest proved."
  },
  {
   "property": "C22",
   "status": "proved",
   "theorems": [
    "TF.Props.C22_address_roundtrip"
   ],
   "note": "proved for the canonical addresses"
  },
  {
   "property": "C23",
   "status": "partial",
   "theorems": [
    "TF.Props.C23_accepted_address_partial",
    "TF.Props.C23_only_checksummed_false",
    "TF.Props.C23_prefix"
   ],
   "note": "False: the nil type is not checked, type byte is read as decimal, blank hash accepted; the rest proved."
  },
  {
   "property": "C24",
   "status": "partial",
   "theorems": [
    "TF.Props.C24_default_address_false"
   ],
   "note": "False of the code (default nil address does not round trip)."
  },
  {
   "property": "C25",
   "status": "partial",
   "theorems": [
    "TF.Props.C25_multisig_order_partial",
    "TF.Props.C25_multisig_order_false"
   ],
   "note": "Unlock hash order-independence proved; false when an owner is an empty nil address."
  },
  {
   "property": "C26",
   "status": "proved",
   "theorems": [
    "TF.Props.C26_lock_keeps_address"
   ],
   "note": "proved"
  },
  {
   "property": "C27",
   "status": "proved",
   "theorems": [
    "TF.Props.C27_lock_boundary",
    "TF.Props.C27_unlocked_stays_unlocked"
   ],
   "note": "proved"
  },
  {
   "property": "C28",
   "status": "partial",
   "theorems": [
    "TF.Props.C28_condition_json_partial",
    "TF.Props.C28_condition_json_false"
   ],
   "note": "False for default/unset conditions; proved for full conditions."
  },
  {
   "property": "C29",
   "status": "partial",
   "theorems": [
    "TF.Props.C29_condition_encoding_partial",
    "TF.Props.C29_condition_encoding_false"
   ],
   "note": "False for empty hashes; proved for full conditions."
  },
  {
   "property": "C30",
   "status": "proved",
   "theorems": [
    "TF.Props.C30_recipient",
    "TF.Props.C30_owners"
   ],
   "note": "proved"
  },
  {
   "property": "C31",
   "status": "proved",
   "theorems": [
    "TF.Props.C31_sign_once",
    "TF.Props.C31_second_attempt_changes_nothing"
   ],
   "note": "proved for every history"
  },
  {
   "property": "C32",
   "status": "proved",
   "theorems": [
    "TF.Props.C32_owner_only",
    "TF.Props.C32_nil_address_any_key"
   ],
   "note": "proved"
  },
  {
   "property": "C33",
   "status": "partial",
   "theorems": [
    "TF.Props.C33_multisig_distinct_partial",
    "TF.Props.C33_multisig_distinct_false"
   ],
   "note": "False for the None key; proved for present keys."
  },
  {
   "property": "C34",
   "status": "partial",
   "theorems": [
    "TF.Props.C34_signers_are_owners_partial",
    "TF.Props.C34_signers_are_owners_false"
   ],
   "note": "False via add_pair/JSON; proved through signature requests."
  },
  {
   "property": "C35",
   "status": "partial",
   "theorems": [
    "TF.Props.C35_fulfillment_json_partial",
    "TF.Props.C35_fulfillment_json_false"
   ],
   "note": "False for unsigned fulfillments; proved for signed ones."
  },
  {
   "property": "C36",
   "status": "partial",
   "theorems": [
    "TF.Props.C36_io_json_partial",
    "TF.Props.C36_io_json_false"
   ],
   "note": "False for inputs without parent id and amounts of 29 digits (C36_io_json_false); proved for complete inputs and outputs of less than 10^28 units."
  },
  {
   "property": "C37",
   "status": "proved",
   "theorems": [
    "TF.Props.C37_dispatch",
    "TF.Props.C37_refuses"
   ],
   "note": "proved for every JSON value"
  },
  {
   "property": "C38",
   "status": "partial",
   "theorems": [
    "TF.Props.C38_signing_keeps_preimages_partial",
    "TF.Props.C38_signing_keeps_preimages_false"
   ],
   "note": "False for legacy (version 0 style) V1 data, whose preimages contain the signer keys; proved for every other transaction and every signing history."
  },
  {
   "property": "C39",
   "status": "proved",
   "theorems": [
    "TF.Props.C39_signed_bytes_v1"
   ],
   "note": "proved for all pairs of version-1 (not legacy) transactions ready for signing, same extra objects"
  },
  {
   "property": "C40",
   "status": "partial",
   "theorems": [
    "TF.Props.C40_tx_json_partial",
    "TF.Props.C40_tx_json_false"
   ],
   "note": "False: versions 145, 146, 210 read the signature back without as_array and so change their binary encoding and id; legacy transactions come back as version 1; an unsigned registration has no JSON (C40_tx_json_false). Proved for every complete transaction: version, JSON form and signature preimages for all nine versions, binary encoding for six."
  },
  {
   "property": "C41",
   "status": "partial",
   "theorems": [
    "TF.Props.C41_output_ids_distinct",
    "TF.Props.C41_coin_index_partial",
    "TF.Props.C41_blockstake_index_false"
   ],
   "note": "Distinctness proved for all transactions and indices; coin index check proved; false for block stakes: the check uses the number of coin outputs (C41_blockstake_index_false)."
  },
  {
   "property": "C42",
   "status": "proved",
   "theorems": [
    "TF.Props.C42_data_limit"
   ],
   "note": "proved for every history of data assignments"
  },
  {
   "property": "C43",
   "status": "partial",
   "theorems": [
    "TF.Props.C43_is_fulfilled_partial",
    "TF.Props.C43_is_fulfilled_false"
   ],
   "note": "False of the code: blockstake inputs are ignored (C43_is_fulfilled_false); exact characterisation of the rest proved."
  },
  {
   "property": "C44",
   "status": "proved",
   "theorems": [
    "TF.Props.C44_registration_fee"
   ],
   "note": "proved for every registration in the representable range"
  },
  {
   "property": "C45",
   "status": "proved",
   "theorems": [
    "TF.Props.C45_update_fee"
   ],
   "note": "proved for every update/transfer in the representable range"
  },
  {
   "property": "C46",
   "status": "proved",
   "theorems": [
    "TF.Props.C46_header_bytes"
   ],
   "note": "proved for every months/flags/count combination"
  },
  {
   "property": "C47",
   "status": "partial",
   "theorems": [
    "TF.Props.C47_limits_partial",
    "TF.Props.C47_assignment_replaces",
    "TF.Props.C47_limits_false"
   ],
   "note": "False of the code: the name transfer's setter appends instead of replacing and JSON loading does not apply limits; proved through the setters of registration/update."
  },
  {
   "property": "C48",
   "status": "proved",
   "theorems": [
    "TF.Props.C48_spent_never_spendable",
    "TF.Props.C48_wallets_spent_never_spendable"
   ],
   "note": "proved for a single balance over every history and for a balance of several wallets (reports of one id agree)"
  },
  {
   "property": "C49",
   "status": "partial",
   "theorems": [
    "TF.Props.C49_counted_once_partial",
    "TF.Props.C49_amounts_split_partial",
    "TF.Props.C49_counted_once_false"
   ],
   "note": "False: an output reported confirmed and then unconfirmed is counted twice; proved for histories where confirmations are not taken back, and the amounts split exactly into available and locked."
  },
  {
   "property": "C50",
   "status": "partial",
   "theorems": [
    "TF.Props.C50_merge_partial",
    "TF.Props.C50_merge_false"
   ],
   "note": "False: the merge checks nothing across the balances; proved: spent ids stay known, nothing new is counted, and no spent output is offered when neither balance counts what the other knows spent."
  },
  {
   "property": "C51",
   "status": "partial",
   "theorems": [
    "TF.Props.C51_funding_conserves_partial",
    "TF.Props.C51_funding_conserves_false"
   ],
   "note": "False above 28 digits (decimal rounding); proved when the offered outputs stay below 10^19 TFT."
  },
  {
   "property": "C52",
   "status": "partial",
   "theorems": [
    "TF.Props.C52_input_limit",
    "TF.Props.C52_distinct_partial",
    "TF.Props.C52_distinct_false"
   ],
   "note": "The limit of 99 inputs is proved unconditionally. Distinct inputs: false when an output is counted twice (C49), proved when the wallets offer no output twice."
  },
  {
   "property": "C53",
   "status": "partial",
   "theorems": [
    "TF.Props.C53_eligible",
    "TF.Props.C53_not_locked_partial",
    "TF.Props.C53_not_spent",
    "TF.Props.C53_not_locked_false"
   ],
   "note": "Eligibility and never-spent are proved. Never-locked is false for multi-signature wallets (their balances never learn the chain state), proved for balances that know the chain."
  },
  {
   "property": "C54",
   "status": "partial",
   "theorems": [
    "TF.Props.C54_complete_personal_partial",
    "TF.Props.C54_complete_small_partial",
    "TF.Props.C54_complete_false",
    "TF.Props.C54_complete_single_partial"
   ],
   "note": "False for mixed personal and multi-signature sources with more than 99 outputs; proved for personal sources of any size, for a source of one multi-signature wallet of any size, and for any sources with at most 99 outputs."
  },
  {
   "property": "C55",
   "status": "partial",
   "theorems": [
    "TF.Props.C55_drain_spends_selected",
    "TF.Props.C55_drain_once_partial",
    "TF.Props.C55_drain_transactions_partial",
    "TF.Props.C55_drain_once_false"
   ],
   "note": "Spends exactly the selected outputs: proved unconditionally. Each once: false after a confirmation is taken back (C49), proved otherwise. Amounts: proved below 10^19 TFT."
  },
  {
   "property": "C56",
   "status": "partial",
   "theorems": [
    "TF.Props.C56_erc20_plain",
    "TF.Props.C56_huge_false",
    "TF.Props.C56_coins_send_partial",
    "TF.Props.C56_builder_send_partial",
    "TF.Props.C56_builder_once",
    "TF.Props.C56_erc20_send_partial"
   ],
   "note": "coins_send, the transaction builder (after any history of output_add calls) and sending to an ERC20 address: whatever is posted or returned pays exactly what was asked, the remainder goes to the refund address, and inputs = outputs + fee. False beyond 28 decimal digits (C56_huge_false): proved when the amounts of the wallet add up to less than 10^28 smallest units."
  },
  {
   "property": "C57",
   "status": "proved",
   "theorems": [
    "TF.Props.C57_coins_send",
    "TF.Props.C57_builder_send",
    "TF.Props.C57_erc20_send",
    "TF.Props.C57_record_new",
    "TF.Props.C57_record_update",
    "TF.Props.C57_address_register",
    "TF.Props.C57_coins_new",
    "TF.Props.C57_definition_set",
    "TF.Props.C57_name_transfer"
   ],
   "note": "All wallet operations that submit (coins_send, builder, ERC20 sends, minter, 3Bot, ERC20 registration, transaction_sign's helpers): at most one transaction is posted, only with all signatures present and genuine; True is returned iff posted; False only when a signature is missing."
  },
  {
   "property": "C58",
   "status": "proved",
   "theorems": [
    "TF.Props.C58_scan_finds",
    "TF.Props.C58_scan_adds",
    "TF.Props.C58_scan_ends",
    "TF.Props.C58_no_key_error"
   ],
   "note": "Proved for every pattern of used addresses: the scan looks at blocks of key_scan_count keys (Spec.LookedAt), finds every used key it looks at, adds nothing else, ends if finitely many keys are used, and raises no KeyError in any reachable state (no two keys of the seed having the same address)."
  },
  {
   "property": "C59",
   "status": "proved",
   "theorems": [
    "TF.Props.C59_key",
    "TF.Props.C59_preimage_injective",
    "TF.Props.C59_new_wallet",
    "TF.Props.C59_recreate",
    "TF.Props.C59_seed_keys"
   ],
   "note": "blake2b and ed25519 are parameters; preimages proved injective. Holds for all histories of scans (also interrupted) and key requests. key_start_index is ignored by the code (recorded in DESIGN.md)."
  },
  {
   "property": "C60",
   "status": "proved",
   "theorems": [
    "TF.Props.C60_get_answer",
    "TF.Props.C60_get_unavailable",
    "TF.Props.C60_get_refused",
    "TF.Props.C60_post"
   ],
   "note": "Every list of explorers and every pattern of answers; the HTTP layer is abstracted to answer/refused/unreachable/bad URL."
  },
  {
   "property": "C61",
   "status": "partial",
   "theorems": [
    "TF.Props.C61_coin_partial",
    "TF.Props.C61_stake_partial",
    "TF.Props.C61_withdrawal_false",
    "TF.Props.C61_spend_false",
    "TF.Props.C61_same_block_false"
   ],
   "note": "The returned output is the one listed under the id in the returned creating transaction (proved). False: the returned spending transaction need not spend it (C61_spend_false), outputs of ERC20 withdrawals are never found (C61_withdrawal_false), outputs spent in the creating block or by an unconfirmed transaction may not be found (C61_same_block_false)."
  },
  {
   "property": "C62",
   "status": "proved",
   "theorems": [
    "TF.Props.C62_accepted",
    "TF.Props.C62_history"
   ],
   "note": "For heights below 2^63-1 (the sort key of unconfirmed transactions is sys.maxsize). Answers of the documented form are accepted (C62_accepted)."
  },
  {
   "property": "C63",
   "status": "partial",
   "theorems": [
    "TF.Props.C63_available",
    "TF.Props.C63_available_multi_partial",
    "TF.Props.C63_personal_partial",
    "TF.Props.C63_multi_partial",
    "TF.Props.C63_withdrawal_false",
    "TF.Props.C63_withdrawal_spent_false",
    "TF.Props.C63_mint_false",
    "TF.Props.C63_plain_output_false"
   ],
   "note": "Proved for coherent histories (an id stands for one output). False: ERC20 withdrawals lose their output id, so several collapse into one and spent ones stay in the balance; a mint condition definition empties the balance of a multi-signature address; a plain output at a multi-signature address makes the balance raise TypeError. The balance is available for every history whose outputs have addresses and, at a multi-signature address, name its owners."
  },
  {
   "property": "C64",
   "status": "proved",
   "theorems": [
    "TF.Props.C64_verify_secret",
    "TF.Props.C64_verify_secret_no",
    "TF.Props.C64_redeem_secret",
    "TF.Props.C64_redeem_refused"
   ],
   "note": "Proved for every contract, secret and wallet."
  },
  {
   "property": "C65",
   "status": "partial",
   "theorems": [
    "TF.Props.C65_redeem",
    "TF.Props.C65_refund",
    "TF.Props.C65_refund_signed_partial",
    "TF.Props.C65_told",
    "TF.Props.C65_initiate_partial",
    "TF.Props.C65_participate_partial",
    "TF.Props.C65_refund_signed_false"
   ],
   "note": "Amounts below 10^28 smallest units. Redeem and refund guards, amounts and addressees proved; a wallet that holds both keys signs a refund with the receiver's key (C65_refund_signed_false), proved otherwise."
  },
  {
   "property": "C66",
   "status": "proved",
   "theorems": [
    "TF.Props.C66_number",
    "TF.Props.C66_net_address_wire",
    "TF.Props.C66_mapped_is_v4",
    "TF.Props.C66_net_address_json"
   ],
   "note": "proved for every IP library that parses what it prints (LawfulIp)"
  },
  {
   "property": "C67",
   "status": "partial",
   "theorems": [
    "TF.Props.C67_bot_name_partial",
    "TF.Props.C67_bot_name_false"
   ],
   "note": "False: a trailing newline is accepted (C67 false theorem); proved for the rest."
  },
  {
   "property": "C68",
   "status": "partial",
   "theorems": [
    "TF.Props.C68_accepted_texts",
    "TF.Props.C68_erc20_valid_partial",
    "TF.Props.C68_values",
    "TF.Props.C68_erc20_valid_false"
   ],
   "note": "False: the two checks disagree on underscores, signs, blanks and doubled prefixes; proved for hex texts, bytes and address objects (C68_values)."
  },
  {
   "property": "C69",
   "status": "partial",
   "theorems": [
    "TF.Props.C69_reads",
    "TF.Props.C69_reads_seconds",
    "TF.Props.C69_reads_only",
    "TF.Props.C69_roundtrip_partial",
    "TF.Props.C69_negative_false",
    "TF.Props.C69_huge_false"
   ],
   "note": "Proved for every duration from 0 up to 10^9 days, with the exact set of accepted texts and their meaning; texts with a decimal point rest on float and timedelta arithmetic, which is a parameter here and modelled in C131. False: negative durations are printed as other ones (C69_negative_false), durations from 10^9 days on are printed as unreadable texts (C69_huge_false)."
  },
  {
   "property": "C70",
   "status": "partial",
   "theorems": [
    "TF.Props.C70_failed_attempt_partial",
    "TF.Props.C70_failed_attempt_false"
   ],
   "note": "False: a refused atomic-swap attempt stores the key/secret; proved for the others."
  },
  {
   "property": "C71",
   "status": "partial",
   "theorems": [
    "TF.Props.C71_assign_inputs_partial",
    "TF.Props.C71_assign_inputs_false"
   ],
   "note": "False of the code: an unknown parent is replaced by a made-up nil output; parent ids and fulfillments proved kept."
  },
  {
   "property": "C72",
   "status": "partial",
   "theorems": [
    "TF.Props.C72_json_dumps_false",
    "TF.Props.C72_json_dumps_partial"
   ],
   "note": "False of the code for every transaction: json() holds a TransactionVersion object json.dumps refuses; the data part is proved dumpable."
  },
  {
   "property": "C73",
   "status": "partial",
   "theorems": [
    "TF.Props.C73_both_sign_partial",
    "TF.Props.C73_both_sign_false"
   ],
   "note": "False of the code when both parties use the same key; proved for different keys, whichever signs first."
  },
  {
   "property": "C74",
   "status": "partial",
   "theorems": [
    "TF.Props.C74_compare_partial",
    "TF.Props.C74_compare_false",
    "TF.Props.C74_read_false",
    "TF.Props.C74_read_partial"
   ],
   "note": "False: NameError for transactions without id; transactions read from JSON without an id all compare equal (C74_read_false). Proved for transactions with ids, also those read with one, up to collisions of Python's str hash."
  },
  {
   "property": "C75",
   "status": "proved",
   "theorems": [
    "TF.Props.C75_signed_bytes_determine_contents"
   ],
   "note": "proved for all nine versions, also across versions"
  },
  {
   "property": "C76",
   "status": "partial",
   "theorems": [
    "TF.Props.C76_copy_partial",
    "TF.Props.C76_copy_false"
   ],
   "note": "False for IP addresses and bot names (AttributeError); proved for host names."
  },
  {
   "property": "C77",
   "status": "partial",
   "theorems": [
    "TF.Props.C77_drain_succeeds_partial",
    "TF.Props.C77_drain_succeeds_false"
   ],
   "note": "False: an output below the fee alone in the last transaction makes the drain raise NameError; proved when every output is worth the fee."
  },
  {
   "property": "C78",
   "status": "partial",
   "theorems": [
    "TF.Props.C78_combine_partial",
    "TF.Props.C78_combine_false"
   ],
   "note": "False: AttributeError whenever a multi-signature wallet is known to both, and always for the balance of a multi-signature wallet; proved for disjoint multi-signature wallets."
  },
  {
   "property": "C79",
   "status": "partial",
   "theorems": [
    "TF.Props.C79_record_new_partial",
    "TF.Props.C79_record_update_partial",
    "TF.Props.C79_name_transfer_partial",
    "TF.Props.C79_address_register_partial",
    "TF.Props.C79_huge_false"
   ],
   "note": "record_new, record_update, name_transfer, ERC20 address_register. False beyond 28 decimal digits (C79_huge_false): proved when the amounts of the wallet add up to less than 10^28 smallest units."
  },
  {
   "property": "C80",
   "status": "partial",
   "theorems": [
    "TF.Props.C80_update_active",
    "TF.Props.C80_transfer_active",
    "TF.Props.C80_something_given_false"
   ],
   "note": "Active-bot guards proved; False part: empty lists of names/addresses pass the 'at least one must be given' checks."
  },
  {
   "property": "C81",
   "status": "proved",
   "theorems": [
    "TF.Props.C81_coins_new",
    "TF.Props.C81_definition_set"
   ],
   "note": "coins_new and definition_set: everything posted or returned is exactly what was asked."
  },
  {
   "property": "C82",
   "status": "partial",
   "theorems": [
    "TF.Props.C82_only_signs",
    "TF.Props.C82_submits_signed",
    "TF.Props.C82_signs_own_input",
    "TF.Props.C82_garbage_false",
    "TF.Props.C82_complete_false",
    "TF.Props.C82_no_inputs_false",
    "TF.Props.C82_legacy_false"
   ],
   "note": "Proved for every transaction that is not a legacy (version 0) one and whose name-transfer parties differ: nothing but genuine signatures of own keys is added, the flags are true, at most one submission and only if asked; submitted transactions are completely signed if the signatures they had were genuine; own inputs are signed. Findings: foreign signatures are not verified before submitting; an already complete transaction is never submitted; a transaction without coin inputs set raises TypeError. Legacy transactions are signed for other bytes than those to be signed (C82_legacy_false)."
  },
  {
   "property": "C83",
   "status": "proved",
   "theorems": [
    "TF.Props.C83_coins_send",
    "TF.Props.C83_builder_send",
    "TF.Props.C83_record_new",
    "TF.Props.C83_address_register",
    "TF.Props.C83_record_update",
    "TF.Props.C83_name_transfer"
   ],
   "note": "coins_send (including to an ERC20 address), the transaction builder, the four 3Bot and ERC20 registration operations, whenever all that may be spent belongs to single-signature addresses of the wallet. Updates and name transfers moreover need the keys of the 3Bots in the wallet; for a transfer between two 3Bots with the same key see C80."
  },
  {
   "property": "C84",
   "status": "partial",
   "theorems": [
    "TF.Props.C84_offered_partial",
    "TF.Props.C84_no_double_spend_partial",
    "TF.Props.C84_double_spend_false"
   ],
   "note": "False in general: the wallet computes a fresh balance from the explorers for each operation and remembers nothing (C84_double_spend_false). Proved: every paying operation spends only outputs the balance offered when it began, hence no double spend once the balance no longer offers what the earlier transaction spends."
  },
  {
   "property": "C85",
   "status": "partial",
   "theorems": [
    "TF.Props.C85_participate_partial",
    "TF.Props.C85_claims_partial",
    "TF.Props.C85_coins_send_partial",
    "TF.Props.C85_builder_send_partial",
    "TF.Props.C85_coins_new_partial",
    "TF.Props.C85_bots_partial",
    "TF.Props.C85_definition_set_partial",
    "TF.Props.C85_transaction_sign_partial",
    "TF.Props.C85_answer_false",
    "TF.Props.C85_own_multisig_false"
   ],
   "note": "False: the answer to the submission may get lost, and even with a perfect network a payment to the address of an own multi-signature wallet (given as address) is submitted and then raises TypeError. Proved for all submitting operations: an exception means nothing was submitted, unless one of the named troubles came up afterwards."
  },
  {
   "property": "C86",
   "status": "proved",
   "theorems": [
    "TF.Props.C86_coins_send",
    "TF.Props.C86_builder_send",
    "TF.Props.C86_coins_new",
    "TF.Props.C86_record_new",
    "TF.Props.C86_record_update",
    "TF.Props.C86_name_transfer",
    "TF.Props.C86_address_register",
    "TF.Props.C86_transaction_sign",
    "TF.Props.C86_initiate",
    "TF.Props.C86_participate",
    "TF.Props.C86_redeem",
    "TF.Props.C86_refund"
   ],
   "note": "For coins_send, the builder, coins_new, the 3Bot operations, address_register, transaction_sign (all versions) and the atomic swap operations. The network's way to compute ids is specified in Spec.NetworkOutputId."
  },
  {
   "property": "C87",
   "status": "partial",
   "theorems": [
    "TF.Props.C87_decimal_text_partial",
    "TF.Props.C87_smallest_unit_false"
   ],
   "note": "Finding: whole numbers (int, digits-only text), documented as smallest units, are taken as whole TFT. Decimal texts mean what they say (below the 28 digit bound)."
  },
  {
   "property": "C88",
   "status": "partial",
   "theorems": [
    "TF.Props.C88_returned",
    "TF.Props.C88_submits",
    "TF.Props.C88_id_false"
   ],
   "note": "The returned contract's fields and the single submission are proved (C88_returned, C88_submits). The id clause is false while signatures of a multisig source are missing: the id is computed before the missing signatures are added (C88_id_false)."
  },
  {
   "property": "C89",
   "status": "partial",
   "theorems": [
    "TF.Props.C89_fetched_partial",
    "TF.Props.C89_given_partial",
    "TF.Props.C89_accepts",
    "TF.Props.C89_spent_false",
    "TF.Props.C89_time_false",
    "TF.Props.C89_seconds_false"
   ],
   "note": "Every check is proved for fetched and given contracts, and acceptance is characterised exactly for fetched ones (C89_accepts). False of the code: a given contract that is already spent passes (C89_spent_false), and a minimum refund time given as a duration in seconds is compared the wrong way round (C89_time_false, C89_seconds_false)."
  },
  {
   "property": "C90",
   "status": "partial",
   "theorems": [
    "TF.Props.C90_redeem_partial",
    "TF.Props.C90_refund_partial",
    "TF.Props.C90_free_for_all_stuck",
    "TF.Props.C90_free_for_all_false",
    "TF.Props.C90_multisig_participator_false"
   ],
   "note": "Redeeming and refunding are proved to submit whenever the contract is reported unspent, the wallet holds the receiver (sender), the secret opens it and the fields fit the wire format. False: a contract for the free-for-all wallet (participator None) is created but can never be redeemed (C90_free_for_all_stuck, C90_free_for_all_false), and the documented multi-signature participators are refused (C90_multisig_participator_false)."
  },
  {
   "property": "C91",
   "status": "partial",
   "theorems": [
    "TF.Props.C91_secret_partial",
    "TF.Props.C91_secret_false"
   ],
   "note": "Proved when the chain time is available after submission; false otherwise: the contract is on chain, an exception is raised and the secret is lost (C91_secret_false)."
  },
  {
   "property": "C92",
   "status": "partial",
   "theorems": [
    "TF.Props.C92_skipped_forever",
    "TF.Props.C92_no_gap_partial",
    "TF.Props.C92_skipped_false"
   ],
   "note": "False: a scan drops the last pooled key of each round (slice off by one), which is then never found again whatever happens (C92_skipped_false, C92_skipped_forever). Proved: no key is skipped when used keys have no gaps."
  },
  {
   "property": "C93",
   "status": "partial",
   "theorems": [
    "TF.Props.C93_failover_partial",
    "TF.Props.C93_failover_false"
   ],
   "note": "False: the first HTTP error stops the search, so a request fails although another explorer would answer (C93_failover_false). Proved when no explorer answers with an HTTP error (C93_failover_partial)."
  },
  {
   "property": "C94",
   "status": "partial",
   "theorems": [
    "TF.Props.C94_accepted",
    "TF.Props.C94_inputs",
    "TF.Props.C94_outputs_partial",
    "TF.Props.C94_withdrawal_false",
    "TF.Props.C94_stakes",
    "TF.Props.C94_confirmed"
   ],
   "note": "Proved for inputs, outputs and confirmation; false for the output of an ERC20 withdrawal, whose id is lost (C94_withdrawal_false). Every entry of the documented form is accepted (C94_accepted)."
  },
  {
   "property": "C95",
   "status": "partial",
   "theorems": [
    "TF.Props.C95_block_contents",
    "TF.Props.C95_other_kind",
    "TF.Props.C95_missing_field",
    "TF.Props.C95_no_key_error",
    "TF.Props.C95_unknown_bot",
    "TF.Props.C95_record_contents",
    "TF.Props.C95_erc20_false",
    "TF.Props.C95_transaction",
    "TF.Props.C95_block",
    "TF.Props.C95_height_false",
    "TF.Props.C95_record_false"
   ],
   "note": "Proved for transactions and blocks asked for by id; false for blocks by height, for 3Bot records and for ERC20 registrations, which are not checked. Blocks and records are returned as the answer describes them; an unknown 3Bot raises ThreeBotNotFound."
  },
  {
   "property": "C96",
   "status": "partial",
   "theorems": [
    "TF.Props.C96_available_partial",
    "TF.Props.C96_first_block_false",
    "TF.Props.C96_balance_partial",
    "TF.Props.C96_two_owners_false"
   ],
   "note": "Proved for coherent histories; false for a wallet two of whose addresses own a multi-signature address together: AttributeError (C96_two_owners_false). The balance is available otherwise (C96_available_partial), except while the chain has only its first block: ValueError (C96_first_block_false)."
  },
  {
   "property": "C97",
   "status": "partial",
   "theorems": [
    "TF.Props.C97_rewards_false"
   ],
   "note": "False: the blocks in an explorer's answer are ignored, so block rewards are never part of a balance (C97_rewards_false, for every answer)."
  },
  {
   "property": "C98",
   "status": "partial",
   "theorems": [
    "TF.Props.C98_transactions_partial",
    "TF.Props.C98_unused_false"
   ],
   "note": "Proved whenever it returns; false for a wallet with an unused address, for which it always raises ExplorerNoContent (C98_unused_false)."
  },
  {
   "property": "C99",
   "status": "proved",
   "theorems": [
    "TF.Props.C99_encodes",
    "TF.Props.C99_identified",
    "TF.Props.C99_output_ids",
    "TF.Props.C99_signable",
    "TF.Props.C99_legacy_encodes",
    "TF.Props.C99_legacy_identified",
    "TF.Props.C99_legacy_signable",
    "TF.Props.C99_legacy_multisig_unfit"
   ],
   "note": "Under bounds on list lengths (2^20; 15 for 3Bot lists). Legacy (version 0) transactions: C99_legacy_*; one that spends a multi-signature output does not fit (AttributeError: C99_legacy_multisig_unfit)."
  },
  {
   "property": "C100",
   "status": "partial",
   "theorems": [
    "TF.Props.C100_coins_send_partial",
    "TF.Props.C100_builder_send_partial",
    "TF.Props.C100_erc20_send_partial",
    "TF.Props.C100_owner_twice_false",
    "TF.Props.C100_one_text_false",
    "TF.Props.C100_initiate_partial",
    "TF.Props.C100_participate_partial"
   ],
   "note": "Proved for personal sources, for one multi-signature wallet of any size as the source, and for wallets offering at most 99 outputs altogether (C54 shows that more multi-signature outputs can be missed), when no multi-signature condition names an owner of the wallet twice; false otherwise (C100_owner_twice_false). A source given as a list of one text is never usable: C100_one_text_false."
  },
  {
   "property": "C101",
   "status": "partial",
   "theorems": [
    "TF.Props.C101_duration",
    "TF.Props.C101_date",
    "TF.Props.C101_undefined",
    "TF.Props.C101_clock_false",
    "TF.Props.C101_locked_for",
    "TF.Props.C101_refundable_after",
    "TF.Props.C101_early_date_false"
   ],
   "note": "Proved for durations and for every documented date form (also am/pm times; what is not a time is refused), relative to the calendar (time.strptime and mktime are a parameter; the theorem says which text is read with which format; C130 makes it concrete, C131 durations with decimal points). False: a time of the day alone, documented as '12:00:10', is refused (C101_clock_false); dates before 5 November 1985 are taken as block heights (C101_early_date_false)."
  },
  {
   "property": "C102",
   "status": "proved",
   "theorems": [
    "TF.Props.C102_erc20",
    "TF.Props.C102_erc20_only_personal",
    "TF.Props.C102_mint_condition",
    "TF.Props.C102_last_block"
   ],
   "note": "For explorers that answer in the documented form (Spec/ChainInfo). The last block: its id is not all zeros."
  },
  {
   "property": "C103",
   "status": "proved",
   "theorems": [
    "TF.Props.C103_own_all",
    "TF.Props.C103_answered",
    "TF.Props.C103_own"
   ],
   "note": "In every state reached by key requests and scans, for truthful explorers. The class AddressNotInWallet is modelled as its base class Exception."
  },
  {
   "property": "C104",
   "status": "proved",
   "theorems": [
    "TF.Props.C104_payments",
    "TF.Props.C104_minting",
    "TF.Props.C104_bots",
    "TF.Props.C104_transaction_sign",
    "TF.Props.C104_swaps"
   ],
   "note": "All submitting operations: payments, builder, minting, 3Bot and ERC20 operations, transaction_sign (object and JSON) and the atomic swap operations."
  },
  {
   "property": "C105",
   "status": "partial",
   "theorems": [
    "TF.Props.C105_submit_false",
    "TF.Props.C105_payments_false",
    "TF.Props.C105_submit_partial"
   ],
   "note": "False: no transaction object is ever sent, as the version in the dict to be dumped is no JSON value (see C72): transaction_put raises TypeError before anything is posted, so with the explorer client of the library no wallet operation submits anything. Proved for transactions given as their JSON. All other properties about submissions are therefore stated for any way of submitting (the methods explorer_get and explorer_post are made to be overridden)."
  },
  {
   "property": "C106",
   "status": "partial",
   "theorems": [
    "TF.Props.C106_client_network_partial",
    "TF.Props.C106_fee_and_explorers",
    "TF.Props.C106_client_network_false"
   ],
   "note": "False: a name that is no network (such as a misspelling) is not refused: the client is then for the standard network, or has no network at all. Proved for names of networks, network types and networks told by explorers; fees and explorers of each network."
  },
  {
   "property": "C107",
   "status": "partial",
   "theorems": [
    "TF.Props.C107_counted",
    "TF.Props.C107_active",
    "TF.Props.C107_addresses",
    "TF.Props.C107_combined",
    "TF.Props.C107_personal_part",
    "TF.Props.C107_multisig_part_partial",
    "TF.Props.C107_multisig_part_false"
   ],
   "note": "Exact for personal balances and for multi-signature wallets whose outputs are without time lock. False otherwise: when the first reported output of a multi-signature wallet is time-locked, the report raises AttributeError and the output is not counted."
  },
  {
   "property": "C108",
   "status": "proved",
   "theorems": [
    "TF.Props.C108_report",
    "TF.Props.C108_print"
   ],
   "note": "For amounts that together stay below 10^28 smallest units. The text of the time is a parameter."
  },
  {
   "property": "C109",
   "status": "partial",
   "theorems": [
    "TF.Props.C109_record_new_partial",
    "TF.Props.C109_address_register_partial",
    "TF.Props.C109_record_update_partial",
    "TF.Props.C109_name_transfer_partial",
    "TF.Props.C109_same_key_false"
   ],
   "note": "For outputs that add up to less than 10^28 smallest units, a source of personal addresses, of one multi-signature wallet, or of at most 99 outputs, addresses given as text or number (address objects cannot be copied, C76), outputs that name no owner twice (see C100), and name transfers between bots with different addresses (C73 for the other case). C109_same_key_false: a transfer between bots with the same key is never submitted."
  },
  {
   "property": "C110",
   "status": "partial",
   "theorems": [
    "TF.Props.C110_definition_set_partial",
    "TF.Props.C110_coins_new_partial",
    "TF.Props.C110_owner_twice_false"
   ],
   "note": "False if the mint condition names an owner twice whose key the wallet has: then minting raises ValueError (C110_owner_twice_false). Proved for all other mint conditions."
  },
  {
   "property": "C111",
   "status": "proved",
   "theorems": [
    "TF.Props.C111_encoding",
    "TF.Props.C111_identity",
    "TF.Props.C111_coin_output_id",
    "TF.Props.C111_signed",
    "TF.Props.C111_legacy_encoding",
    "TF.Props.C111_legacy_signed",
    "TF.Props.C111_wire_format",
    "TF.Props.C111_overlong_false"
   ],
   "note": "C111_wire_format adds, with C99, that the bytes exist. C111_overlong_false: outside the quantifier, a 3Bot registration with 17 addresses is not refused but encoded with the counts \"1 address, 1 name\"."
  },
  {
   "property": "C112",
   "status": "proved",
   "theorems": [
    "TF.Props.C112_legacy_json",
    "TF.Props.C112_legacy_bytes"
   ],
   "note": "C112_legacy_bytes also asks that the lists fit their lengths."
  },
  {
   "property": "C113",
   "status": "partial",
   "theorems": [
    "TF.Props.C113_requests",
    "TF.Props.C113_answered_partial",
    "TF.Props.C113_complete_partial",
    "TF.Props.C113_asks_false",
    "TF.Props.C113_swap_false"
   ],
   "note": "C113_requests: exactly the owners whose keys are not entered are asked, in order, for every askable transaction (fulfillments of the kind their conditions need). C113_answered_partial: an answered request disappears and the others stay, also for atomic swaps neither party of which has signed; name transfers between the same keys are left out (C73). C113_complete_partial: when nothing is asked all is signed. C113_asks_false: a fulfilled transaction still asks the remaining owners of a multi-signature wallet, the owner of a nil output is asked for ever, and after an attempt with a malformed signature the owner is not asked again although nothing is signed (C70). C113_swap_false: once one party of an atomic swap has signed, the other one is still asked, and its answer replaces the first signature."
  },
  {
   "property": "C114",
   "status": "partial",
   "theorems": [
    "TF.Props.C114_separate_partial",
    "TF.Props.C114_follow",
    "TF.Props.C114_shared_false"
   ],
   "note": "C114_separate_partial: for every program that never assigns the inputs of one transaction to another one, each transaction is what the acts on it alone make of it. With such an assignment the property fails: C114_follow shows that from then on both transactions show the same fulfillments wherever signatures arrive, and C114_shared_false exhibits a payment that counts as fulfilled although only another transaction, with other bytes to sign, was signed. Blockstake inputs, conditions and amounts keep being values here."
  },
  {
   "property": "C115",
   "status": "partial",
   "theorems": [
    "TF.Props.C115_fields_partial",
    "TF.Props.C115_refused",
    "TF.Props.C115_refused_false",
    "TF.Props.C115_accepts",
    "TF.Props.C115_fees",
    "TF.Props.C115_created",
    "TF.Props.C115_mint_defined"
   ],
   "note": "C115_fields_partial, C115_accepts and C115_refused hold for all classes, properties and histories, except that a refused coin_outputs assignment of an ordinary payment or coin creation empties the list first (C115_refused_false), and that numbers that are not ints are left out for the number of months (its comparisons accept any number). C115_fees: an explicit zero is a fee, None is not. C115_created: the output of an ERC20 coin creation."
  },
  {
   "property": "C116",
   "status": "partial",
   "theorems": [
    "TF.Props.C116_amounts_partial",
    "TF.Props.C116_fees",
    "TF.Props.C116_operators",
    "TF.Props.C116_inplace_false"
   ],
   "note": "An output keeps the Currency object it is given, and += changes it in place: C116_inplace_false (10 become 15 after the output was added). C116_amounts_partial: programs that do not change outputs in place nor a variable that was given to an output. C116_fees: miner fees are copies, so they and the variables are right in every program that does not change outputs in place."
  },
  {
   "property": "C117",
   "status": "proved",
   "theorems": [
    "TF.Props.C117_json",
    "TF.Props.C117_equal",
    "TF.Props.C117_text",
    "TF.Props.C117_refund",
    "TF.Props.C117_now"
   ],
   "note": "C117_equal, C117_json (the comparison is that of the JSON), C117_text (the whole text), C117_refund (agreement with refund), C117_now. Refund times more than 10^9 days ahead are left out (their duration is not readable: C69_huge_false)."
  },
  {
   "property": "C118",
   "status": "partial",
   "theorems": [
    "TF.Props.C118_amounts",
    "TF.Props.C118_whole_number",
    "TF.Props.C118_amount_text",
    "TF.Props.C118_any_answer",
    "TF.Props.C118_total_order",
    "TF.Props.C118_amounts_false",
    "TF.Props.C118_data",
    "TF.Props.C118_data_kinds",
    "TF.Props.C118_data_objects",
    "TF.Props.C118_data_keys",
    "TF.Props.C118_identifier_keys",
    "TF.Props.C118_text_key_false",
    "TF.Props.C118_address",
    "TF.Props.C118_address_keys",
    "TF.Props.C118_address_false"
   ],
   "note": "C118_amounts, C118_whole_number, C118_amount_text, C118_any_answer, C118_total_order, C118_data, C118_data_kinds, C118_data_keys, C118_identifier_keys, C118_address, C118_address_keys hold in full. The last clause is false of the code: comparing with a negative number raises a NameError and with None a TypeError (C118_amounts_false), a text that is no address raises (C118_address_false); and a text equal to an identifier need not have its hash (C118_text_key_false)."
  },
  {
   "property": "C119",
   "status": "partial",
   "theorems": [
    "TF.Props.C119_output",
    "TF.Props.C119_sum",
    "TF.Props.C119_apart",
    "TF.Props.C119_new",
    "TF.Props.C119_personal",
    "TF.Props.C119_alone_partial",
    "TF.Props.C119_block_id_partial",
    "TF.Props.C119_own_id",
    "TF.Props.C119_chain",
    "TF.Props.C119_merged_false",
    "TF.Props.C119_block_id_false",
    "TF.Props.C119_blockid_refused"
   ],
   "note": "C119_output, C119_sum, C119_chain (the balance itself changes as in the value model, so that C56-C63 and C96 hold of objects), C119_apart, C119_new, C119_personal (outputs, addresses and chain context of a personal balance are never touched from elsewhere), C119_own_id, and C119_alone_partial for programs that merge only balances without multi-signature wallets. False in general: merged multi-signature wallets are shared, not copied (C119_merged_false), and a block identifier read earlier changes with the balance (C119_block_id_false; C119_block_id_partial says when it does not)."
  },
  {
   "property": "C120",
   "status": "partial",
   "theorems": [
    "TF.Props.C120_valid_partial",
    "TF.Props.C120_withdrawal_false",
    "TF.Props.C120_mint_false",
    "TF.Props.C120_contract_partial",
    "TF.Props.C120_redeem_partial",
    "TF.Props.C120_refund_partial",
    "TF.Props.C120_refund_false",
    "TF.Props.C120_worthless_false",
    "TF.Props.C120_empty_secret_false"
   ],
   "note": "C120_valid_partial holds for wallets whose addresses took part in no ERC20 withdrawal and whose shared addresses took part in no mint definition. Both restrictions are bugs of the code: outputs of a withdrawal are described without ids and are then spent with an empty id (C120_withdrawal_false), and once a shared address was made the mint condition its balance forgets what was spent since, so that an output spent already is spent again (C120_mint_false). For atomic swaps: C120_contract_partial (new contracts, with the same restrictions), C120_redeem_partial and C120_refund_partial (claims). The restrictions on claims are bugs too: a refund of a contract between two addresses of the wallet is signed by the wrong one (C120_refund_false), a contract worth exactly the miner fee is claimed with an output worth nothing (C120_worthless_false), and the empty secret is accepted (C120_empty_secret_false)."
  },
  {
   "property": "C121",
   "status": "partial",
   "theorems": [
    "TF.Props.C121_conserved_partial",
    "TF.Props.C121_once_partial",
    "TF.Props.C121_untouched_partial",
    "TF.Props.C121_number"
   ],
   "note": "The wallets are as in C120 (no ERC20 withdrawal or mint definition in their histories, because of the bugs shown by C120_withdrawal_false and C120_mint_false), claims are of contracts worth more than the miner fee whose parties are not both addresses of the wallet (C120_worthless_false, C120_refund_false) with secrets of 32 bytes (C120_empty_secret_false). Each wallet reads its balance from the chain as it is when it acts: with a balance read earlier it spends outputs again (C84_double_spend_false), which the network rejects. C121_untouched_partial is for personal addresses; shared ones are for those who sign (C83, C85)."
  },
  {
   "property": "C122",
   "status": "partial",
   "theorems": [
    "TF.Props.C122_loads",
    "TF.Props.C122_unique",
    "TF.Props.C122_dumps",
    "TF.Props.C122_proper",
    "TF.Props.C122_roundtrip",
    "TF.Props.C122_bytes",
    "TF.Props.C122_transaction",
    "TF.Props.C122_transaction_text",
    "TF.Props.C122_answer_partial",
    "TF.Props.C122_answer_false",
    "TF.Props.C122_submit",
    "TF.Props.C122_get",
    "TF.Props.C122_client"
   ],
   "note": "The reading of answers holds for answers on one line (C122_answer_partial): a client reads the first line of the body only, so an answer laid out over several lines is refused, even one written by json_dumps itself (C122_answer_false). Numbers with a fraction or exponent and lone surrogates are outside the values of the model; limits of Python on nesting and on the number of digits are not modelled."
  },
  {
   "property": "C123",
   "status": "partial",
   "theorems": [
    "TF.Props.C123_words",
    "TF.Props.C123_entropy",
    "TF.Props.C123_has_words",
    "TF.Props.C123_unique",
    "TF.Props.C123_recover_partial",
    "TF.Props.C123_new_wallet",
    "TF.Props.C123_raw_false"
   ],
   "note": "Not for wallets made from bytes of another number than 16, 20, 24, 28 or 32: they work but have no words (C123_raw_false). The package mnemonic is a dependency; its model follows the standard and is checked on standard vectors. The word list is any list of 2048 different words without spaces, sha256 any function with 32 bytes of output."
  },
  {
   "property": "C124",
   "status": "partial",
   "theorems": [
    "TF.Props.C124_redeem",
    "TF.Props.C124_refund",
    "TF.Props.C124_verify",
    "TF.Props.C124_redeem_raises",
    "TF.Props.C124_refund_raises_partial",
    "TF.Props.C124_verify_raises_partial",
    "TF.Props.C124_amount",
    "TF.Props.C124_get",
    "TF.Props.C124_post",
    "TF.Props.C124_bot",
    "TF.Props.C124_update",
    "TF.Props.C124_transfer",
    "TF.Props.C124_bots_raise_partial",
    "TF.Props.C124_address",
    "TF.Props.C124_unspent_false",
    "TF.Props.C124_undated_false",
    "TF.Props.C124_spelling_false"
   ],
   "note": "False of the code: a contract in an exception of redeem or refund says it is spent although it is not (C124_unspent_false); for lock times beyond what the platform can print as a date, refund raises OverflowError instead (C124_undated_false); an own address in capital letters is refused as not owned (C124_spelling_false). What is asked in the course of an operation (explorers, key scan) is assumed not to raise the classes in question itself. Messages are not modelled, except that printing a date may raise. ExplorerInvalidResponse is not covered."
  },
  {
   "property": "C125",
   "status": "partial",
   "theorems": [
    "TF.Props.C125_accepted",
    "TF.Props.C125_refused",
    "TF.Props.C125_one_reading",
    "TF.Props.C125_json_partial",
    "TF.Props.C125_json_false",
    "TF.Props.C125_json_refused"
   ],
   "note": "Texts given by a user: proved in full (which are accepted, what they mean, why the others are refused). JSON: false beyond 28 digits, where decimals are accepted and lost (C125_json_false); proved below 10^28. The two refusals meant by the code (CurrencyNegativeValue, CurrencyPrecisionOverflow) are raised as NameError, because the module does not import errors. Letters other than ASCII: str.upper turns a few of them into ASCII letters, but none that may occur in an accepted text. The limits on exponents of the decimal module are not modelled."
  },
  {
   "property": "C126",
   "status": "partial",
   "theorems": [
    "TF.Props.C126_signatures",
    "TF.Props.C126_next",
    "TF.Props.C126_submitted",
    "TF.Props.C126_unknown",
    "TF.Props.C126_personal_false"
   ],
   "note": "Payments from multi-signature wallets: proved for any number of owners, inputs and hands, when no owner has the same key in two of the wallets (an owner who has signed is not asked again, see C113, but which of two wallets then signs is left out here) and the owners are different personal addresses. Payments from personal outputs of several owners: false, every wallet knows its own outputs only and takes the inputs of the others as not fulfilled, so no wallet ever submits the completely signed payment (C126_personal_false, C126_unknown)."
  },
  {
   "property": "C127",
   "status": "proved",
   "theorems": [
    "TF.Props.C127_base64",
    "TF.Props.C127_address",
    "TF.Props.C127_key",
    "TF.Props.C127_condition",
    "TF.Props.C127_fulfillment",
    "TF.Props.C127_input",
    "TF.Props.C127_output",
    "TF.Props.C127_stake_input",
    "TF.Props.C127_stake_output",
    "TF.Props.C127_transaction"
   ],
   "note": "Amounts of money are texts with a grammar of their own, in C125; here they are what those texts are read as. The module ipaddress is a parameter. Floats in JSON are not modelled. What is refused is refused with some exception: which one is C124."
  },
  {
   "property": "C128",
   "status": "partial",
   "theorems": [
    "TF.Props.C128_texts_partial",
    "TF.Props.C128_newline_false",
    "TF.Props.C128_refused",
    "TF.Props.C128_numbers"
   ],
   "note": "Complete characterisation of the texts and numbers accepted and of the address they give. False for one kind of text: the pattern ends in $, which in Python also matches before a final newline, so a host name followed by a newline is accepted with the newline (C128_newline_false)."
  },
  {
   "property": "C129",
   "status": "partial",
   "theorems": [
    "TF.Props.C129_text",
    "TF.Props.C129_writes",
    "TF.Props.C129_roundtrip",
    "TF.Props.C129_lawful",
    "TF.Props.C129_network_address_partial",
    "TF.Props.C129_refused",
    "TF.Props.C129_same_address",
    "TF.Props.C129_scope_lost"
   ],
   "note": "The module is that of CPython 3.11: before 3.9.5 leading zeros were accepted in IPv4 addresses, before 3.9 scope ids were refused. Partial only because of the newline after a host name (C128_newline_false), which C129_network_address_partial states."
  },
  {
   "property": "C130",
   "status": "proved",
   "theorems": [
    "TF.Props.C130_calendar",
    "TF.Props.C130_order",
    "TF.Props.C130_date",
    "TF.Props.C130_shown",
    "TF.Props.C130_repeated_hour_false",
    "TF.Props.C130_height_refused",
    "TF.Props.C130_ago",
    "TF.Props.C130_dashes_refused"
   ],
   "note": "The C locale. What mktime does with a local time that is skipped or shown twice is a parameter (stamp), of which C130_shown assumes only that the clock shows the text at the timestamp it gives (LawfulZone); C130_repeated_hour_false says why the exception in the statement is needed. Numbers with a point or beyond 2^53 in front of a unit go through floating point arithmetic, which is a parameter here and modelled in C131. The RuntimeError of an unknown unit is not told from Exception."
  },
  {
   "property": "C131",
   "status": "proved",
   "theorems": [
    "TF.Props.C131_reads",
    "TF.Props.C131_exact",
    "TF.Props.C131_far",
    "TF.Props.C131_reads_only",
    "TF.Props.C131_whole",
    "TF.Props.C131_lock",
    "TF.Props.C131_dropped_false",
    "TF.Props.C131_huge_false",
    "TF.Props.C131_ago",
    "TF.Props.C131_ago_false"
   ],
   "note": "Exponents of floats are not bounded in the model; what would overflow is too large for a timedelta. Findings: \"0.9999999s\" is read as one second (C131_dropped_false), a millisecond less than 10^9 days as 10^9 days (C131_huge_false), and \"-4.1m\" is 245 seconds ago while \"4.1m\" is 246 seconds (C131_ago_false)."
  },
  {
   "property": "C132",
   "status": "proved",
   "theorems": [
    "TF.Props.C132_timedelta",
    "TF.Props.C132_same_delta",
    "TF.Props.C132_datetime",
    "TF.Props.C132_skipped",
    "TF.Props.C132_aware",
    "TF.Props.C132_same_date",
    "TF.Props.C132_far_false"
   ],
   "note": "The end of the range of years is not modelled. Finding: a microsecond before the year 10000 is rounded up to it (C132_far_false)."
  },
  {
   "property": "C133",
   "status": "proved",
   "theorems": [
    "TF.Props.C133_request",
    "TF.Props.C133_first",
    "TF.Props.C133_apart",
    "TF.Props.C133_names",
    "TF.Props.C133_endpoints",
    "TF.Props.C133_submission",
    "TF.Props.C133_no_scheme"
   ],
   "note": "Parameters: what becomes of a query in an address (parse_qs and urlencode; no endpoint has one), the NFKC check of hosts with other than ASCII letters, unquote of hosts with a percent sign. Not modelled: proxies, redirections. 3Bot identifiers given as text are passed on as they are, with the blanks that keys may contain."
  },
  {
   "property": "C134",
   "status": "proved",
   "theorems": [
    "TF.Props.C134_payment",
    "TF.Props.C134_mint",
    "TF.Props.C134_private",
    "TF.Props.C134_private_contract",
    "TF.Props.C134_contract",
    "TF.Props.C134_claim",
    "TF.Props.C134_closed"
   ],
   "note": "Spending is possible in general only if the wallet has the keys (that it succeeds then is C100-C102). That a time lock has passed is not part of having the keys (see C120). transaction_sign signs what others made, with keys of the wallet only (C134_private); the inputs others signed stay as they are."
  },
  {
   "property": "C135",
   "status": "partial",
   "theorems": [
    "TF.Props.C135_shows_partial",
    "TF.Props.C135_shared_partial",
    "TF.Props.C135_grows_partial",
    "TF.Props.C135_shrinks_partial",
    "TF.Props.C135_arrives_partial"
   ],
   "note": "Partial because of the assumptions of Informed (no ERC20 withdrawals among the answers and no mint definitions, see C120), under which the explorers and the balance are known to agree with the chain. Shares of multi-signature wallets are not part of what a wallet itself is shown; they are the subject of C135_shared_partial."
  },
  {
   "property": "C136",
   "status": "partial",
   "theorems": [
    "TF.Props.C136_spendable_partial",
    "TF.Props.C136_shared_partial",
    "TF.Props.C136_builder_partial",
    "TF.Props.C136_erc20_partial",
    "TF.Props.C136_register_partial",
    "TF.Props.C136_record_new_partial",
    "TF.Props.C136_record_update_partial",
    "TF.Props.C136_name_transfer_partial"
   ],
   "note": "Partial because of the assumptions of Informed (see C120, C135), and because unspent outputs are assumed to have ordinary conditions (no owner twice, no time lock of a contract, C100_owner_twice_false). For the multi-signature address it is assumed that the conditions explorers describe have at most 2^20 owners with well-formed addresses. 3Bot operations and the registration of an address are covered with keys the wallet has already; that the new key made without an index is one whose address can be registered is C109."
  },
  {
   "property": "C137",
   "status": "partial",
   "theorems": [
    "TF.Props.C137_redeem_partial",
    "TF.Props.C137_refund_partial",
    "TF.Props.C137_once",
    "TF.Props.C137_taken"
   ],
   "note": "Partial because of the assumptions: secrets have 32 bytes, contracts are worth more than the miner fee (C120_empty_secret_false, C120_worthless_false), and the wallet that refunds lacks the key of the receiver (C120_refund_false)."
  },
  {
   "property": "C138",
   "status": "partial",
   "theorems": [
    "TF.Props.C138_initiated_partial",
    "TF.Props.C138_participated_partial",
    "TF.Props.C138_atomic_partial",
    "TF.Props.C138_initiates_partial",
    "TF.Props.C138_participates_partial",
    "TF.Props.C138_swap_partial",
    "TF.Props.C138_joined_swap_partial"
   ],
   "note": "Partial because of the assumptions of C120 and C137: truthful explorers, no mint or withdrawal transactions, secrets of 32 bytes, contracts whose parties are personal addresses, worth more than the fee, and a refunding wallet without the key of the receiver."
  }
 ]
}