{
 "claims": [
  {
   "property": "C01",
   "status": "proved",
   "theorems": [
    "Casper.C01_read_little_endian"
   ],
   "note": "All widths n >= 1, all buffers and positions; specification through Mathlib's Nat.ofDigits."
  },
  {
   "property": "C02",
   "status": "partial",
   "theorems": [
    "Casper.C02_length_prefix_false",
    "Casper.C02_length_prefix_partial",
    "Casper.C02_stays_inside_partial"
   ],
   "note": "False of the code (32-bit wrap of offset+length): C02_length_prefix_false. True for length fields below 2^32-65535; an accepted item always leaves the cursor inside the data."
  },
  {
   "property": "C03",
   "status": "partial",
   "theorems": [
    "Casper.C03_accepted_partial",
    "Casper.C03_type_extent_false",
    "Casper.C03_type_extent_partial"
   ],
   "note": "False of the code for byte arrays or containers as non-last components: C03_type_extent_false. Exact acceptance and extent for all other types. From arbitrary data: what is accepted is a serialized type consumed exactly, or begins as in BadType (C03_accepted_partial)."
  },
  {
   "property": "C04",
   "status": "proved",
   "theorems": [
    "Casper.C04_type_parsing_total",
    "Casper.C04_combined_ok_iff"
   ],
   "note": "Recursion budget 3 never exhausted, nonzero error codes, both components must succeed."
  },
  {
   "property": "C05",
   "status": "partial",
   "theorems": [
    "Casper.C05_lookup_false",
    "Casper.C05_lookup_partial"
   ],
   "note": "False of the code for names containing NUL: C05_lookup_false. True for NUL-free names of at most 300 bytes."
  },
  {
   "property": "C06",
   "status": "proved",
   "theorems": [
    "Casper.C06_walk_args"
   ],
   "note": "For supported types inside the scope of C03."
  },
  {
   "property": "C07",
   "status": "proved",
   "theorems": [
    "Casper.C07_first_byte",
    "Casper.C07_refused"
   ],
   "note": "parser_parse case by case on the uploaded bytes, and the answers the host sees."
  },
  {
   "property": "C08",
   "status": "proved",
   "theorems": [
    "Casper.C08_header_extent"
   ],
   "note": "For every serialized header (both key kinds, any dependency count, any chain name) within data of up to 65535 bytes: the header is read, and the bytes hashed are exactly its serialization. Headers whose counts are not backed by data are the subject of C56."
  },
  {
   "property": "C09",
   "status": "proved",
   "theorems": [
    "Casper.C09_accepted_hashes",
    "Casper.C09_serialized"
   ],
   "note": "C09_accepted_hashes: every accepted byte string splits into header, hash, payment, session, rest with both hashes correct (body hash by its position behind the key). C09_serialized: for data laid out as a serialized Deploy, hash = BLAKE2b(header) and the header's body hash = BLAKE2b(payment ++ session). For any hash function."
  },
  {
   "property": "C10",
   "status": "proved",
   "theorems": [
    "Casper.C10_wrong_hash_refused"
   ],
   "note": "Any serialized Deploy with a wrong deploy hash or body hash: the last chunk never opens a review, and whenever the Deploy parses the reply is the text 'context prefix is invalid' with 0x6984."
  },
  {
   "property": "C11",
   "status": "partial",
   "theorems": [
    "Casper.C11_fee_partial",
    "Casper.C11_name_false",
    "Casper.C11_fee_false"
   ],
   "note": "All accepted Deploys, both modes: the payment is module bytes with exactly one argument of type U512 whose name up to the first zero byte is \"amount\", and the Fee line shows the number in its bytes. False as stated: names with a zero byte (C11_name_false) and values whose length byte is wrong (C11_fee_false) are accepted too; without these the full statement is proved."
  },
  {
   "property": "C12",
   "status": "proved",
   "theorems": [
    "Casper.C12_transfer"
   ],
   "note": "Any argument order, any key type, any chunking, normal and expert mode: accepted, the review is exactly the specified lines, approval signs SHA-256 of the deploy hash. 'Well-formed' is spelled out by DeploySpec.Usual and the argument hypotheses (names at most 300 bytes etc.)."
  },
  {
   "property": "C13",
   "status": "partial",
   "theorems": [
    "Casper.C13_first_cut_partial",
    "Casper.C13_first_partial",
    "Casper.C13_same_hash_false"
   ],
   "note": "False as stated: the hash shown covers only the argument count and the first argument. C13_first_partial proves exactly what is shown for all such transfers; C13_same_hash_false exhibits two transfers to different targets with identical reviews up to the transaction hash. Which transfers are shown in this way is exact: those with a U512 amount that have neither just the usual arguments nor too few. `C13_first_cut_partial`: the same for any names of arguments, which count up to a zero byte (Props/CutReviews.lean)."
  },
  {
   "property": "C14",
   "status": "partial",
   "theorems": [
    "Casper.C14_call_cut_partial",
    "Casper.C14_hidden_cut_false",
    "Casper.C14_call_partial",
    "Casper.C14_hidden_false"
   ],
   "note": "False as stated: an 'amount' that is neither U512 nor U32, or a 'delegator' or 'validator' that is no PublicKey, makes every argument line and the hash vanish (C14_hidden_false, a family of Deploys, with an instance shown as 'Delegate' with nothing else). C14_call_partial: with ordinary argument names and types the review shows a hash of the complete argument list. `C14_call_cut_partial`, `C14_hidden_cut_false`: the same for any names of arguments, which count up to a zero byte (Props/CutReviews.lean)."
  },
  {
   "property": "C15",
   "status": "proved",
   "theorems": [
    "Casper.C15_surplus",
    "Casper.C15_delegation",
    "Casper.C15_redelegation"
   ],
   "note": "Stored contracts by hash or by name, with or without version; any argument order; both display modes; `C15_surplus` also with any further arguments behind those needed (which are not shown, see C72)."
  },
  {
   "property": "C16",
   "status": "partial",
   "theorems": [
    "Casper.C16_text",
    "Casper.C16_injective_partial",
    "Casper.C16_key_false",
    "Casper.C16_uref_false",
    "Casper.C16_long_false",
    "Casper.C16_target_false"
   ],
   "note": "Every serialized value of every displayable type (byte strings up to 49 bytes) is shown as specified, and the text determines the value except for the tag of a key and the access rights of a URef. False as stated: C16_key_false, C16_uref_false, C16_long_false (byte strings of 51 to 127 bytes are shown as nothing), C16_target_false (in actual reviews)."
  },
  {
   "property": "C17",
   "status": "proved",
   "theorems": [
    "Casper.C17_amount_u512",
    "Casper.C17_amount_int",
    "Casper.C17_amount_injective"
   ],
   "note": "U512 up to 64 bytes, U32, U64; also injectivity."
  },
  {
   "property": "C18",
   "status": "partial",
   "theorems": [
    "Casper.C18_thousand_separators_false",
    "Casper.C18_thousand_separators_partial",
    "Casper.C18_digits_kept"
   ],
   "note": "False at function level for tiny output arrays: C18_thousand_separators_false. Otherwise exact."
  },
  {
   "property": "C19",
   "status": "proved",
   "theorems": [
    "Casper.C19_ttl",
    "Casper.C19_ttl_injective"
   ],
   "note": "Every duration; independent reader of duration texts; injectivity."
  },
  {
   "property": "C20",
   "status": "proved",
   "theorems": [
    "Casper.C20_checksum_hex",
    "Casper.C20_checksum_faithful",
    "Casper.C20_bits_inside",
    "Casper.C20_hash_hex"
   ],
   "note": "Any hash function; letter case as a function of the hash bits; injectivity; bits inside the hash."
  },
  {
   "property": "C21",
   "status": "proved",
   "theorems": [
    "Casper.C21_address",
    "Casper.C21_screens"
   ],
   "note": "For every 33-byte key the platform returns; immediate and confirmed variants; text specified by casedHex."
  },
  {
   "property": "C22",
   "status": "proved",
   "theorems": [
    "Casper.C22_signed_is_shown"
   ],
   "note": "Every pending Deploy review, after any history: item 0 shows the 32 bytes (BLAKE2b of the header) whose SHA-256 is signed on approval; a Deploy review has at least five items, so item 0 exists."
  },
  {
   "property": "C23",
   "status": "partial",
   "theorems": [
    "Casper.C23_signed_is_shown_partial",
    "Casper.C23_nothing_shown_false"
   ],
   "note": "Signed digest = SHA-256 of the hash of the payload, and item 0 shows that hash whenever the review has items. The full claim is false: with 252 arguments the 8-bit item count wraps to 0, nothing can be shown, and approval still signs (C23_nothing_shown_false)."
  },
  {
   "property": "C24",
   "status": "partial",
   "theorems": [
    "Casper.C24_state_partial",
    "Casper.C24_history_partial",
    "Casper.C24_rejected_transaction_false",
    "Casper.C24_first_bytes_false"
   ],
   "note": "False as stated: tx_content is not reset when a message is parsed. After a rejected version 1 transaction, approving a short message signs the hash of that transaction; after refused data of unknown kind, only the first 32 bytes of the message are signed. Proved: after any history in which all completed SIGN uploads began with the Deploy byte (or none completed), the review shows exactly the message hash and approval signs SHA-256 of exactly the message, for every message and chunking."
  },
  {
   "property": "C25",
   "status": "proved",
   "theorems": [
    "Casper.C25_message_prefix",
    "Casper.C25_refused"
   ],
   "note": "Acceptance of a message requires the 16-byte prefix and printable text; the refusals are exact."
  },
  {
   "property": "C26",
   "status": "partial",
   "theorems": [
    "Casper.C26_only_approval_signs",
    "Casper.C26_no_approval_no_signature",
    "Casper.C26_one_per_review",
    "Casper.C26_review_origin",
    "Casper.C26_review_of_accepted_data",
    "Casper.C26_wasm_partial",
    "Casper.C26_wasm_false"
   ],
   "note": "Every history of commands and user actions: a signature is produced only by an approval of a pending review, once per review, and reviews come only from accepted LAST commands, of transactions and messages only for data parsed and validated. False for raw WASM deploys in one respect: tx_bufferFull survives the start of another upload, so that the LAST chunk of a raw WASM upload can open a review of data never parsed (C26_wasm_false). Proved for raw WASM uploads sent without interruption (C26_wasm_partial)."
  },
  {
   "property": "C27",
   "status": "proved",
   "theorems": [
    "Casper.C27_refused",
    "Casper.C27_no_init"
   ],
   "note": "All states without an open session, all histories without INIT."
  },
  {
   "property": "C28",
   "status": "proved",
   "theorems": [
    "Casper.C28_chunking"
   ],
   "note": "Any two chunkings of the same bytes give the same outcome, for SIGN and SIGN-MESSAGE."
  },
  {
   "property": "C29",
   "status": "proved",
   "theorems": [
    "Casper.C29_oversize"
   ],
   "note": "Any upload longer than the buffer is refused at the chunk that does not fit, the session is closed and nothing of it can be signed."
  },
  {
   "property": "C30",
   "status": "partial",
   "theorems": [
    "Casper.C30_closed_partial",
    "Casper.C30_message_false"
   ],
   "note": "False of SIGN-MESSAGE, which does not close the session after LAST: C30_message_false. Proved for SIGN and raw WASM."
  },
  {
   "property": "C31",
   "status": "partial",
   "theorems": [
    "Casper.C31_path_partial",
    "Casper.C31_path_false"
   ],
   "note": "False of the code: C31_path_false (a refused GET_ADDR replaces the signing path). Partial: histories where other paths are only sent while nothing is open or shown; proved as independence of all signatures from other keys."
  },
  {
   "property": "C32",
   "status": "partial",
   "theorems": [
    "Casper.C32_path_partial",
    "Casper.C32_path_false"
   ],
   "note": "False of the code: C32_path_false (GET_ADDR during the upload changes the key). Partial: no further path-carrying command after INIT."
  },
  {
   "property": "C33",
   "status": "partial",
   "theorems": [
    "Casper.C33_review_partial",
    "Casper.C33_review_false"
   ],
   "note": "False under interleaving: C33_review_false. Partial: locked device, GET_VERSION, unknown instructions, chunks without session."
  },
  {
   "property": "C34",
   "status": "proved",
   "theorems": [
    "Casper.C34_status_words",
    "Casper.C34_specific",
    "Casper.C34_success"
   ],
   "note": "Exact set of status words, bound on the answer, specific codes and what 0x9000 implies."
  },
  {
   "property": "C35",
   "status": "proved",
   "theorems": [
    "Casper.C35_locked",
    "Casper.C35_version"
   ],
   "note": "All commands, all states."
  },
  {
   "property": "C36",
   "status": "partial",
   "theorems": [
    "Casper.C36_state_partial",
    "Casper.C36_header_partial",
    "Casper.C36_deploy_partial",
    "Casper.C36_history_partial",
    "Casper.C36_first_bytes_false",
    "Casper.C36_transaction_false"
   ],
   "note": "False as stated: tx_content is not assigned when raw WASM data is parsed. After refused data of unknown kind every raw WASM deploy too large for the buffer is signed as SHA-256 of its first 32 bytes (account only); after a rejected version 1 transaction, as SHA-256 of bytes 27..58. Proved: after any history in which all completed SIGN uploads began with the Deploy byte, whenever a raw WASM upload opens a review, DeployHash is the hash of the header bytes kept and is what is signed, and BodyHash is the header's; proper deploys with module code (complete, or cut within the code) are accepted so. Data cut within the arguments after the code are the subject of C81."
  },
  {
   "property": "C37",
   "status": "proved",
   "theorems": [
    "Casper.C37_payload_hash"
   ],
   "note": "All uploads within the device's 16384-byte capacity: envelope, hash, payload and approvals partition the data, hash = BLAKE2b(payload)."
  },
  {
   "property": "C38",
   "status": "proved",
   "theorems": [
    "Casper.C38_memory"
   ],
   "note": "readV1 has no outcome reading or writing outside the received data, for any data and starting state; the hash check after a successful parse neither."
  },
  {
   "property": "C39",
   "status": "partial",
   "theorems": [
    "Casper.C39_deploy_memory_partial",
    "Casper.C39_serialized_partial",
    "Casper.C39_approvals_false",
    "Casper.C39_crash_false",
    "Casper.C39_validate_false",
    "Casper.C39_module_partial",
    "Casper.C39_module_false",
    "Casper.C39_many_false",
    "Casper.C39_upload_false"
   ],
   "note": "False: a correct Deploy running module bytes without an 'auction' argument and with more than 100 approvals overflows buffer[100] (C39_approvals_false, C39_crash_false); a header length that wraps makes validation read beyond the data (C39_validate_false). Partial: for any bytes, parsing can only fail in a module-bytes session, validation only if the header is said to exceed the data; serialized Deploys with any other session are safe. For Deploys that run code (module bytes), the exact condition: C39_module_partial (safe unless Misread: the place where the name of the operation is looked for - the value of an argument \"auction\", else the bytes behind the session - starts with a length above 100 or above what is left) and C39_module_false (with a usual payment, undefined behaviour exactly if Misread); C39_many_false: without \"auction\", exactly if there are more than 100 approvals; C39_upload_false: every upload of such data, on every device and in any chunks, ends in undefined behaviour."
  },
  {
   "property": "C40",
   "status": "partial",
   "theorems": [
    "Casper.C40_deploy_partial",
    "Casper.C40_serialized_partial",
    "Casper.C40_target_false",
    "Casper.C40_code_false",
    "Casper.C40_key_false",
    "Casper.C40_names_false",
    "Casper.C40_v1_partial",
    "Casper.C40_v1_serialized_partial",
    "Casper.C40_v1_target_false",
    "Casper.C40_v1_args_false"
   ],
   "note": "False for Deploys (device histories): a transfer target of 50 or 128 bytes (C40_target_false), module bytes longer than 32 (C40_code_false), a short public key at the end of the data (C40_key_false), chain name of 100 or contract name of 300 bytes (C40_names_false). Partial: C40_deploy_partial lists, for any parsed and validated bytes, everything the data must contain for a line to leave the bounds; C40_serialized_partial: serialized Deploys whose shown parts fit are safe. Version 1 transactions: the same two theorems (C40_v1_partial, C40_v1_serialized_partial) and failing histories (C40_v1_target_false; C40_v1_args_false: the claimed length of the arguments of a call is never checked)."
  },
  {
   "property": "C41",
   "status": "proved",
   "theorems": [
    "Casper.C41_repeatable"
   ],
   "note": "Any review kind, any device state, any sequence of item requests, any starting cursor."
  },
  {
   "property": "C42",
   "status": "partial",
   "theorems": [
    "Casper.C42_items_partial",
    "Casper.C42_items_false"
   ],
   "note": "False for item numbers from 128 on (signed 8-bit item number): C42_items_false, an accepted transaction with 131 items of which three cannot be shown. True for indices below 128; every index at or above the count is refused."
  },
  {
   "property": "C43",
   "status": "partial",
   "theorems": [
    "Casper.C43_accepted_count_partial",
    "Casper.C43_arguments_false",
    "Casper.C43_count_partial",
    "Casper.C43_required_partial"
   ],
   "note": "False when the 8-bit item count wraps: C43_arguments_false (252 arguments, accepted, no items). True while the count stays below 256 (count) and for at most 119 arguments (every required argument among the items; the id of a transfer only in expert mode). `C43_accepted_count_partial`: the count for all accepted data, also with tables Casper would not write."
  },
  {
   "property": "C44",
   "status": "partial",
   "theorems": [
    "Casper.C44_accepted_partial",
    "Casper.C44_accepted_cut_partial",
    "Casper.C44_signed_arguments_partial",
    "Casper.C44_signed_arguments_false"
   ],
   "note": "False (u8 runtime_args_offset): C44_signed_arguments_false exhibits a signed transfer of 10^17 motes shown as 5 motes to another account. Partial: native operations whose arguments start before offset 256, at most 119 arguments. `C44_accepted_partial`: the same for all accepted data, also with tables Casper would not write. `C44_accepted_cut_partial`: the same for any names of arguments, which count up to a zero byte (Props/CutLayouts.lean)."
  },
  {
   "property": "C45",
   "status": "proved",
   "theorems": [
    "Casper.C45_native_operation",
    "Casper.C45_transfer"
   ],
   "note": "All well-formed native operations 2-9 and 12 with exactly their arguments, not just transfers: any chunking is accepted, the review is exactly the specified lines, approval signs SHA-256 of the payload hash."
  },
  {
   "property": "C46",
   "status": "partial",
   "theorems": [
    "Casper.C46_accepted_target",
    "Casper.C46_accepted_required_partial",
    "Casper.C46_cut_partial",
    "Casper.C46_target",
    "Casper.C46_required_partial",
    "Casper.C46_required_false",
    "Casper.C46_name_false"
   ],
   "note": "Target part proved for all accepted well-formed transactions. Required arguments: proved when the argument list starts before offset 256 and names have no NUL byte; false beyond (C46_required_false: accepted transfer whose signed arguments have none of amount, target, id). `C46_accepted_target`, `C46_accepted_required_partial`: the same for all accepted data. The condition on names is needed: `C46_name_false`, an accepted transfer without amount, target and id, whose names agree with these up to a zero byte. `C46_cut_partial`: for all names, the required arguments are there up to zero bytes in names."
  },
  {
   "property": "C47",
   "status": "partial",
   "theorems": [
    "Casper.C47_chain_deploy_partial",
    "Casper.C47_chain_v1_partial",
    "Casper.C47_chain_false"
   ],
   "note": "False: chain names with a NUL byte are shown cut, in version 1 also names of 256+ bytes. Partial: every accepted Deploy and every serialized version 1 transaction (under 100 bytes) whose name has no NUL byte."
  },
  {
   "property": "C48",
   "status": "partial",
   "theorems": [
    "Casper.C48_approvals_accepted",
    "Casper.C48_approvals_read",
    "Casper.C48_approvals",
    "Casper.C48_reservations",
    "Casper.C48_delegators_partial",
    "Casper.C48_delegators_false",
    "Casper.C48_deploy_approvals",
    "Casper.C48_deploy_number"
   ],
   "note": "Approvals and reservations: proved (the 8-bit counters cannot overflow within the 16384-byte buffer). Delegators of a cancellation: 257 are shown as 1 (C48_delegators_false); partial for fewer than 256. `C48_approvals_accepted`: the number of approvals for all accepted data. `C48_deploy_approvals`, `C48_deploy_number`: in expert mode the last line of a Deploy shows the number behind its session."
  },
  {
   "property": "C49",
   "status": "partial",
   "theorems": [
    "Casper.C49_effort_partial",
    "Casper.C49_deploy_partial",
    "Casper.C49_v1_partial",
    "Casper.C49_loop_false",
    "Casper.C49_accepted_false"
   ],
   "note": "False in general: an argument whose claimed length is just below 2^32 moves the 16-bit cursor back, so that 8 bytes count as any number of arguments (C49_loop_false, for every number), and a 236-byte Deploy claiming 1000 arguments is accepted (C49_accepted_false). Without such numbers (2^32 - 65536 or more) in the data: every argument loop behaves as if the claimed number were at most what the data hold at 9 bytes each (C49_effort_partial), and in accepted Deploys and version 1 transactions the claimed number of arguments is followed by 9 bytes for each (C49_deploy_partial, C49_v1_partial)."
  },
  {
   "property": "C50",
   "status": "partial",
   "theorems": [
    "Casper.C50_address_partial",
    "Casper.C50_address_false"
   ],
   "note": "False for version 1 contract calls: the address is shown as its bytes in decimal without separators (C50_address_false: two accepted calls of different contracts showing the same address). True for addresses all of whose bytes have three digits."
  },
  {
   "property": "C51",
   "status": "proved",
   "theorems": [
    "Casper.C51_error_texts",
    "Casper.C51_refusals"
   ],
   "note": "Texts of all codes; every answer with data to SIGN / SIGN-MESSAGE is the text of a non-zero code (structural walk over every parsing and rendering function)."
  },
  {
   "property": "C52",
   "status": "partial",
   "theorems": [
    "Casper.C52_payment_partial",
    "Casper.C52_payment_false"
   ],
   "note": "False for every amount from 10^19 on, on every platform: C52_payment_false. Exact below 10^19."
  },
  {
   "property": "C53",
   "status": "partial",
   "theorems": [
    "Casper.C53_call_partial",
    "Casper.C53_name_false",
    "Casper.C53_version_false",
    "Casper.C53_names_false",
    "Casper.C53_accepted_partial"
   ],
   "note": "Full review, any chunking, any device state, both display modes. False for packages without version in expert mode (`C53_version_false`, see C54) and for names of more than 99 bytes (`C53_name_false`: two calls whose entry points differ in the 100th byte look the same). Missing otherwise: arguments from position 256 on. `C53_accepted_partial`: contract and entry point are shown for all accepted data, wherever the arguments are and whatever length is given for them. Names of any length and with zero bytes: exactly the part before the first zero byte, at most 99 bytes, is shown (`C83_names_partial`), so every call has look-alikes with other contracts and entry points (`C53_names_false`, for all calls)."
  },
  {
   "property": "C54",
   "status": "partial",
   "theorems": [
    "Casper.C54_args_hash_false",
    "Casper.C54_args_hash_partial",
    "Casper.C54_accepted_partial",
    "Casper.C54_length_false"
   ],
   "note": "False in expert mode for every call of a package without version: C54_args_hash_false gives the exact review, with question marks and without hash. Also false where the length given for the arguments is wrong, which is accepted (`C54_length_false`: calls with different arguments show the same hash). True otherwise: for well-formed calls and for all accepted data with the right length (`C54_accepted_partial`)."
  },
  {
   "property": "C55",
   "status": "proved",
   "theorems": [
    "Casper.C55_reservations"
   ],
   "note": "End to end: upload in any chunking, exact review, signature. The lists have to be among the first two (three) arguments, arguments start before byte 256."
  },
  {
   "property": "C56",
   "status": "partial",
   "theorems": [
    "Casper.C56_header_partial",
    "Casper.C56_header_false"
   ],
   "note": "False: data counting 2048 dependencies and containing none are accepted (C56_header_false). Partial: with a dependency count below 2046, the header of accepted data is a complete serialized header containing the hash of the body."
  },
  {
   "property": "C57",
   "status": "partial",
   "theorems": [
    "Casper.C57_canonical_partial",
    "Casper.C57_loop_false",
    "Casper.C57_type_false"
   ],
   "note": "False as stated: lengths near 2^32 (C57_loop_false) and types with bad components, read differently by the search and the skip (C57_type_false). Otherwise proved for every accepted Deploy: C57_canonical_partial (fewer than 2046 dependencies, no 32-bit number of 2^32 - 65536 or more; a bad type is located)."
  },
  {
   "property": "C58",
   "status": "partial",
   "theorems": [
    "Casper.C58_arguments_partial",
    "Casper.C58_name_false",
    "Casper.C58_module_false",
    "Casper.C58_cut_partial"
   ],
   "note": "False as stated: a name may end in a zero byte and is then taken for the shorter name (C58_name_false: 10^17 motes delegated, 5 shown); code with an argument \"auction\" is searched from the wrong place (C58_module_false: the same amounts). Otherwise proved for all accepted Deploys whose session is a serialized item with types Casper reads alike (C57 says when), names without zero bytes, and not code with an argument \"auction\" or a name over 300 bytes. `C58_cut_partial`: for all names, lines are about the first argument whose name agrees up to a zero byte."
  },
  {
   "property": "C59",
   "status": "partial",
   "theorems": [
    "Casper.C59_contract_partial",
    "Casper.C59_hidden_false",
    "Casper.C59_cut_partial",
    "Casper.C59_zero_false"
   ],
   "note": "False as stated: in normal mode a delegation does not show its contract, so two delegations to different contracts look the same but for the hash (C59_hidden_false). Proved for all accepted Deploys whose session is a serialized item without zero bytes in names: every such line is right; in expert mode the contract is always identified, at items 9 and 10; in normal mode at items 5 and 6 unless the type is Delegate, Undelegate or Redelegate or the review ends after the fee (the case of C14_hidden_false). The hash of code over 32 bytes leaves the bounds of memory (C40). Names with zero bytes are cut, in both modes, so that calls of different contracts look alike: `C59_zero_false`. `C59_cut_partial`: the same for all names, shown up to the first zero byte."
  },
  {
   "property": "C60",
   "status": "proved",
   "theorems": [
    "Casper.C60_signing_wipes",
    "Casper.C60_extraction_wipes",
    "Casper.C60_signature",
    "Casper.C60_public_key",
    "Casper.C60_answer"
   ],
   "note": "The SDK calls are arbitrary functions that return success or failure and new contents; for the answers they are assumed not to write outside the arrays handed over and to return a DER length of at most 73. Copies the SDK itself makes are outside the model."
  },
  {
   "property": "C61",
   "status": "partial",
   "theorems": [
    "Casper.C61_session_false",
    "Casper.C61_same_review_false",
    "Casper.C61_custom_false",
    "Casper.C61_hash_partial"
   ],
   "note": "False for every such transaction: with the entry point `call` the review has header lines only, whatever code and arguments are (C61_session_false), so two programs look the same but for the transaction hash (C61_same_review_false); with a named entry point only the arguments are hashed (C61_custom_false). Proved: the first line commits to the whole payload, for everything that is accepted. `C84_program_partial`: the same for every layout of such data."
  },
  {
   "property": "C62",
   "status": "partial",
   "theorems": [
    "Casper.C62_deploy_partial",
    "Casper.C62_v1_partial",
    "Casper.C62_account_false",
    "Casper.C62_chain_false",
    "Casper.C62_ttl_false",
    "Casper.C62_v1_accepted_partial",
    "Casper.C62_v1_header_partial"
   ],
   "note": "False: version 1 transactions show the account with another letter case than the device's address, since the checksum is taken over the algorithm tag too (C62_account_false); chain names are cut at a zero byte (C62_chain_false); parts of a second of the time to live are dropped, under a second the line is empty (C62_ttl_false). Proved up to these for all accepted Deploys (C62_deploy_partial) and all accepted version 1 transactions, also those whose tables Casper would not write (C62_v1_accepted_partial, for chain names under 256 bytes and payments under 10^19; that accepted data hold such a header is C62_v1_header_partial)."
  },
  {
   "property": "C63",
   "status": "partial",
   "theorems": [
    "Casper.C63_kinds_partial",
    "Casper.C63_trailing_partial",
    "Casper.C63_contract_false",
    "Casper.C63_target_false"
   ],
   "note": "False: a text \"delegate\" behind the session replaces the two lines about the contract of a Deploy with code by question marks (C63_contract_false); a target given as public key but too short is completed from bytes behind the session (C63_target_false). Proved: a serialized Deploy accepted with some continuation (also none) is accepted with every longer one, with the same review and digest. For Deploys with the sessions of C85 (transfers, delegations, redelegations, other calls of stored contracts), what follows has in normal mode no influence at all (C63_kinds_partial)."
  },
  {
   "property": "C64",
   "status": "partial",
   "theorems": [
    "Casper.C64_appended_partial",
    "Casper.C64_unsigned_false"
   ],
   "note": "False for bytes behind the signed part in general: the offset of the arguments is kept in 8 bits, so that target and amount of a well-formed transfer can be shown from appended, unsigned bytes (C64_unsigned_false). Proved: data accepted are accepted with any continuation, with the same lines and digest, unless a pricing line is a mere question mark."
  },
  {
   "property": "C65",
   "status": "proved",
   "theorems": [
    "Casper.C65_history",
    "Casper.C65_case",
    "Casper.C65_condition_needed"
   ],
   "note": "C65_history compares two runs; C65_condition_needed shows the excluded case to differ"
  },
  {
   "property": "C66",
   "status": "proved",
   "theorems": [
    "Casper.C66_review",
    "Casper.C66_same_line",
    "Casper.C66_same_digest",
    "Casper.C66_message"
   ],
   "note": "`Asked` says what a network hash commits to, independently of the parser; `Asked.binding` is pure hashing; the review theorem connects both."
  },
  {
   "property": "C67",
   "status": "partial",
   "theorems": [
    "Casper.C67_deploy",
    "Casper.C67_version1_partial",
    "Casper.C67_call_false"
   ],
   "note": "`C67_deploy` is complete for Deploys. Version 1: proved for all data whose expert review has 9 to 128 lines (12 for a transfer) and, for contract calls, no blank line; false for calls of a package without version (`C67_call_false`: expert mode drops the hash of the arguments). Expert mode may refuse what normal mode accepts (for example an unprintable timestamp); that is not part of the property."
  },
  {
   "property": "C68",
   "status": "partial",
   "theorems": [
    "Casper.C68_v1_accepted_partial",
    "Casper.C68_cut_partial",
    "Casper.C68_deploy_partial",
    "Casper.C68_v1_partial",
    "Casper.C68_code_false",
    "Casper.C68_name_false"
   ],
   "note": "False of the code in two cases: code (module bytes) with delegation arguments and an argument \"auction\" is shown as \"Delegate\" whatever it does (`C68_code_false`); and an entry point \"delegate\", zero byte, more text is shown as \"Delegate\" (`C68_name_false`). The partial theorem for Deploys covers all other serialized sessions; the one for version 1 covers all serialized transactions whose review has a second item (C61 shows that \"Call\" can have none). `C68_v1_accepted_partial`: the same for all accepted version 1 data. `C68_cut_partial`: for all names, the title is right for the session with names cut at the first zero byte."
  },
  {
   "property": "C69",
   "status": "proved",
   "theorems": [
    "Casper.C69_scheduling"
   ],
   "note": "Complete for serialized transactions."
  },
  {
   "property": "C70",
   "status": "partial",
   "theorems": [
    "Casper.C70_transfer",
    "Casper.C70_delegation",
    "Casper.C70_operation",
    "Casper.C70_call_partial",
    "Casper.C70_entry_false",
    "Casper.C70_contract_false",
    "Casper.C70_v1_call_partial",
    "Casper.C70_version_false",
    "Casper.C70_entries_false",
    "Casper.C70_contracts_false",
    "Casper.C70_stake"
   ],
   "note": "Proved for transfers, delegations and native operations (`C70_transfer`, `C70_delegation`, `C70_operation`; `C70_stake` also for redelegations and whatever arguments follow those needed). For contract calls in normal mode the entry point is not shown (`C70_entry_false`), and for delegations in normal mode the contract is not shown (`C70_contract_false`): there the lines do not determine what is done. `C70_call_partial` (Deploys) and `C70_v1_call_partial` (version 1) are what holds for contract calls; version and virtual machine of a package are not shown in normal mode (`C70_version_false`). `C70_entries_false` and `C70_contracts_false`: the same for all contract calls (any two entry points) and all delegations (any two contracts) in normal mode."
  },
  {
   "property": "C71",
   "status": "proved",
   "theorems": [
    "Casper.C71_line",
    "Casper.C71_digest"
   ],
   "note": "Complete. Strengthens C66 (equal byte strings) to equal fields; the serialization is proved to be injective (`DeployHeader.encode_inj`, `DeploySpec.body_inj`, `TxPayload.encode_inj`)."
  },
  {
   "property": "C72",
   "status": "partial",
   "theorems": [
    "Casper.C72_complete_partial",
    "Casper.C72_delegation_false",
    "Casper.C72_cut_partial",
    "Casper.C72_surplus_false"
   ],
   "note": "Proved for transfers (the converse of C12: only argument lists like the ones there are itemised). False for delegations: a fourth argument is accepted and nowhere shown, in either mode (`C72_delegation_false`; for all delegations, revocations and redelegations with any further arguments: `C72_surplus_false`). Transfers with other arguments are shown by a hash, of the first one only (C13). `C72_cut_partial`: the same for all names, cut at the first zero byte."
  },
  {
   "property": "C73",
   "status": "proved",
   "theorems": [
    "Casper.C73_unknown_kinds",
    "Casper.C73_deploy_kinds"
   ],
   "note": "Unknown parts of version 1 are tables with the number of the kind as first field and at most nine other fields (the arguments: the number and any bytes). Deploys: payment of kind 0, session of kinds 0 to 5 behind any payment that is a serialized one."
  },
  {
   "property": "C74",
   "status": "partial",
   "theorems": [
    "Casper.C74_delegation_partial",
    "Casper.C74_redelegation_partial",
    "Casper.C74_order_false",
    "Casper.C74_hidden_cut_false",
    "Casper.C74_delegation_cut_partial",
    "Casper.C74_redelegation_cut_partial",
    "Casper.C74_expert_cut_false",
    "Casper.C74_hidden_false"
   ],
   "note": "Proved where the arguments of the operation come first, in any order, and the code has at most 32 bytes in expert mode. False otherwise: with `auction` first the Deploy is refused (`C74_order_false`), and longer code overflows an array in expert mode (`C40_code_false`). That the code really performs the operation shown is false, see `C68_code_false`. C74_hidden_false: it also fails, for all code, as soon as an operand has an unexpected type: in normal mode the review then says \"Delegate\" and nothing else. `C74_delegation_cut_partial`, `C74_redelegation_cut_partial`, `C74_hidden_cut_false`: the same for any names of arguments, which count up to a zero byte (Props/CutAuction.lean); so any code is presented as a delegation by arguments Casper does not find. `C74_expert_cut_false`: in expert mode, too, such an operation is announced without its operands, and a text that names no operation leaves a line of question marks (Props/CutAuctionAccept.lean)."
  },
  {
   "property": "C75",
   "status": "partial",
   "theorems": [
    "Casper.C75_small_partial",
    "Casper.C75_long_false",
    "Casper.C75_crash_false",
    "Casper.C75_small_cut_partial",
    "Casper.C75_hidden_cut_false",
    "Casper.C75_long_cut_false",
    "Casper.C75_hidden_false"
   ],
   "note": "Proved for code of at most 32 bytes, at most 100 approvals and arguments `amount`, `delegator`, `validator`, `new_validator` of the usual types if present. False for every longer code: the Deploy never leads to a review with defined behaviour (`C75_long_false`, a theorem about all such Deploys; a concrete one in `C75_crash_false`). More than 100 approvals: `C39_approvals_false`. C75_hidden_false: the property fails for code of any length as soon as an argument named \"amount\", \"delegator\" or \"validator\" has an unexpected type: then the review shows nothing of the code or its arguments, in either mode, and approving signs. `C75_small_cut_partial`, `C75_hidden_cut_false`, `C75_long_cut_false`: the same for any names of arguments, which count up to a zero byte (Props/CutRun.lean)."
  },
  {
   "property": "C76",
   "status": "partial",
   "theorems": [
    "Casper.C76_where",
    "Casper.C76_quiet_partial",
    "Casper.C76_review_partial",
    "Casper.C76_message_false"
   ],
   "note": "Proved, in every state: only the last part of a transaction, a later part of a WASM upload, or the approval of a review other than of an address can fail (`C76_where`). Proved: histories from power on without transaction and WASM commands never fail; the approval of a transaction that has just been accepted never fails. False for messages after a refused transaction (`C76_message_false`: an out-of-bounds read of a chosen distance); failing transaction uploads are in C39, C40, C75."
  },
  {
   "property": "C77",
   "status": "partial",
   "theorems": [
    "Casper.C77_chosen_false",
    "Casper.C77_transaction_false",
    "Casper.C77_message_partial"
   ],
   "note": "Proved for messages after histories in which transaction data began with 0 (or there were none). False in general, for every state and every 32 bytes: after a refused 15-byte transaction, a message review signs SHA-256 of 32 bytes chosen inside the message, for instance the hash of a transaction the device has never seen (`C77_chosen_false`, `C77_transaction_false`)."
  },
  {
   "property": "C78",
   "status": "partial",
   "theorems": [
    "Casper.C78_expert_partial",
    "Casper.C78_v1_partial",
    "Casper.C78_deploy_partial",
    "Casper.C78_signature_false",
    "Casper.C78_approvals_false"
   ],
   "note": "Proved: what is signed is complete. A version 1 transaction lacks at most the last 64 bytes of its approvals, and nothing if it has none; a Deploy is complete up to the end of its session, unless a beginning of the body has the BLAKE2b hash of the body. False for the rest: the last signature of a version 1 transaction can be missing (`C78_signature_false`), and all approvals of a Deploy including their number (`C78_approvals_false`). In expert mode the number of approvals of a Deploy must be there (`C78_expert_partial`)."
  },
  {
   "property": "C79",
   "status": "partial",
   "theorems": [
    "Casper.C79_labels",
    "Casper.C79_text_partial",
    "Casper.C79_quotations_partial",
    "Casper.C79_chain_false"
   ],
   "note": "Labels: proved for every state and review. Texts: proved for every state, except the lines \"Chain ID\", \"Name\" and \"Entry-point\", which are proved to repeat bytes of the uploaded data without a zero byte. False for those: a chain name with line feeds is handed to the screen as it is (`C79_chain_false`). How the screen draws such bytes is outside the model."
  },
  {
   "property": "C80",
   "status": "partial",
   "theorems": [
    "Casper.C80_transaction_partial",
    "Casper.C80_other",
    "Casper.C80_argument_partial",
    "Casper.C80_chain_false",
    "Casper.C80_target_false"
   ],
   "note": "Proved: all pages together show the whole text, for every line of every review; texts not paged have at most 19 characters; only lines from a listed set (repeated texts, \"Ttl\", \"Payment\", arguments) may lack a text, and arguments of the lengths Casper's types have never do. False otherwise: a transfer for a chain without name has no text on \"Chain ID\", a transfer to a target of 64 bytes none on \"Target\" (`C80_chain_false`, `C80_target_false`). That an empty text has no page is the contract of zxlib's `pageString`, which is not part of the repository."
  },
  {
   "property": "C81",
   "status": "partial",
   "theorems": [
    "Casper.C81_reviewed_partial",
    "Casper.C81_value_false",
    "Casper.C81_auction_false",
    "Casper.C81_both_false"
   ],
   "note": "Proved for deploys without an argument called \"auction\", for data kept that end anywhere, except within a name or value whose beginning looks like a short length-prefixed text. False otherwise: after an incomplete argument the app searches for \"auction\" inside that argument's value and refuses the deploy if it finds an unknown type there (`C81_value_false`); deploys with an argument \"auction\" that is not a text are refused if all arguments are kept (`C81_auction_false`), and by the ordinary command as well (`C81_both_false`)."
  },
  {
   "property": "C82",
   "status": "partial",
   "theorems": [
    "Casper.C82_serialized_partial",
    "Casper.C82_table_false",
    "Casper.C82_length_false"
   ],
   "note": "Proved up to numbers that describe the layout, for data without 32-bit numbers of 2^32 - 65536 or more: Spec/Loose.lean says which of these numbers are free. Free are the upper three bytes of a table's count, the upper half of its size, entries beyond those of the fields (up to ten), the lengths of the four fields of the body, all numbers in the tables of runtimes and of stored contracts' identifications, some offsets of targets. Where an argument has a type that the app reads differently (`BadType`), the theorem gives its place and the fields before it. False in the strict form: a table that claims 259 fields is accepted (`C82_table_false`), and a signed payload whose arguments claim to have a million bytes (`C82_length_false`). Approvals are complete too, except that up to 64 bytes of the last signature may be missing (see C78). `TxPayload.loose` shows that everything Casper serializes is of the form described."
  },
  {
   "property": "C83",
   "status": "partial",
   "theorems": [
    "Casper.C83_names_partial",
    "Casper.C83_content_partial",
    "Casper.C83_operation_partial",
    "Casper.C83_call_partial",
    "Casper.C83_cut_partial",
    "Casper.C83_unique",
    "Casper.C83_signed",
    "Casper.C83_binding"
   ],
   "note": "Proved for accepted data without 32-bit numbers of 2^32 - 65536 or more: they have a content (Spec/ContentV1.lean), and for native operations (`C83_operation_partial`) and contract calls (`C83_call_partial`) the complete review is that of the content. Missing: arguments at position 256 or later (C44), names with zero bytes or of more than 300 (operations) or 99 (calls) bytes, payments of more than 19 digits and packages without version in expert mode, a wrong length of a call's arguments. False there: the hash shown for the arguments of a call covers as many bytes as the unchecked length says (`C54_length_false`). `C83_unique`: the bytes determine the content; `C83_signed`, `C83_binding`: the approval signs the hash of the payload with this content, so two approvals of the same hash are for the same content (or a BLAKE2b collision is at hand). Reservations and programs: `C84_reservation_partial`, `C84_program_partial` give their complete reviews for all layouts. `C83_names_partial`: the complete review of calls for all names, which are shown up to a zero byte and the 99th byte. `C83_cut_partial`: the complete review of native operations for all names, arguments being found by their names up to a zero byte."
  },
  {
   "property": "C84",
   "status": "partial",
   "theorems": [
    "Casper.C84_operation_partial",
    "Casper.C84_reservation_partial",
    "Casper.C84_call_partial",
    "Casper.C84_program_partial",
    "Casper.C84_layout_partial",
    "Casper.C84_layout_false",
    "Casper.C84_names_partial",
    "Casper.C84_layout_cut_partial",
    "Casper.C84_cut_partial",
    "Casper.C84_reservation_cut_partial"
   ],
   "note": "Proved, as an equivalence, for arguments at positions below 256: native operations (`C84_operation_partial`), reservations (`C84_reservation_partial`), calls (`C84_call_partial`), programs run by `call` (`C84_program_partial`). Missing: arguments or names that cannot be shown as their line demands, payments of more than 19 digits in expert mode. False where further table entries move the arguments to position 256 or later: their position is kept in 8 bits (`C84_layout_false`: one payload, accepted with four ignored table entries, refused with five). `C84_names_partial`: the equivalence for calls with any names; no name is refused. `C84_cut_partial`: the equivalence for native operations with any argument names (Props/CutNames.lean). `C84_reservation_cut_partial`: the same for reservations and their cancellation (Props/CutReservations.lean). `C84_layout_cut_partial`: two layouts, any names of arguments (Props/CutLayouts.lean)."
  },
  {
   "property": "C85",
   "status": "partial",
   "theorems": [
    "Casper.C85_call_partial",
    "Casper.C85_deploy_partial",
    "Casper.C85_transfer_partial",
    "Casper.C85_code_false",
    "Casper.C85_call_cut_partial",
    "Casper.C85_announced_cut_partial",
    "Casper.C85_operands_cut_partial",
    "Casper.C85_code_cut_partial",
    "Casper.C85_transfer_cut_partial",
    "Casper.C85_code_partial"
   ],
   "note": "Proved, as an equivalence, for the sessions listed in `ItemShown` (transfers, delegations, redelegations, calls and others whose arguments can be shown as their lines demand): `C85_deploy_partial`, with `C63_kinds_partial` on the bytes behind. For native transfers the lists of arguments accepted are described exactly (`C85_transfer_partial`): the first argument named \"amount\" is a U512, and there is more than an amount and at most one of target and id. For calls of stored contracts they are described exactly as well (`C85_call_partial`): a redelegation has a PublicKey new_validator, and a delegation whose operands all have the right types has them as its first three (or four) arguments, in any order. Missing: code with an argument `auction` that names no operation and whose operands have the expected types (see C74), names of contracts and entry points with zero bytes, values that do not belong to their types. False for sessions that run code given in them: what follows is taken for the name of an operation (`C85_code_false`: accepted with four zero bytes behind it, refused with nothing). C85_code_partial: exactly which Deploys running code without an argument \"auction\" are accepted, for all code and arguments (what follows not having a letter in fifth place). `C85_transfer_cut_partial`: the exact description for transfers with any argument names, which count up to a zero byte (Props/CutTransfers.lean). `C85_call_cut_partial`: the same for calls of stored contracts with any names of arguments (Props/CutAcceptCalls.lean). `C85_code_cut_partial`: the same for Deploys that run code without an argument found as \"auction\" (Props/CutCode.lean). `C85_announced_cut_partial`: which Deploys are accepted, in either mode, that run code with a text in an argument \"auction\" and have an operand of an unexpected type: the text does not matter, and the code only by its length in expert mode (Props/CutAuctionAccept.lean). `C85_operands_cut_partial`: code that announces a delegation, undelegation or redelegation with an amount, a delegator and a validator of the expected types is accepted exactly if it has a new validator for a redelegation and none otherwise, the operands are the first arguments, in any order, and, in expert mode, the code has at most 32 bytes (Props/CutAuctionOrder.lean)."
  },
  {
   "property": "C86",
   "status": "partial",
   "theorems": [
    "Casper.C86_hash_partial",
    "Casper.C86_masked_false",
    "Casper.C86_cut_partial"
   ],
   "note": "False for code with an argument \"auction\": the hash starts four bytes late and covers as many arguments as the length of the first name says, so that two Deploys with different arguments (10^17 or 1 as amount, one with a further argument) show the same hash and, apart from the transaction hash, the same lines (`C86_masked_false`). Proved for all other accepted Deploys whose session is a serialized item with types Casper reads alike (C57 says when) and names without zero bytes. Native transfers, whose hash covers the first argument only, are the subject of C13. `C86_cut_partial`: the same without conditions on zero bytes in names."
  },
  {
   "property": "C87",
   "status": "partial",
   "theorems": [
    "Casper.C87_bypass_false",
    "Casper.C87_kind_partial",
    "Casper.C87_lines_partial"
   ],
   "note": "Refuted for every Deploy: parser_validate_wasm compares the deploy hash with the header but never the body hash with the data, so the header, hash and payment of any Deploy (a transfer, a delegation, a call) followed by the beginning of some code open a review of two hashes, and the approval signs that very Deploy (C87_bypass_false, for all Deploys with the usual payment, all code that does not end within the data). What holds: data whose session tag is not that of code open no review (C87_kind_partial). The two lines do determine the hashes of header and body (C87_lines_partial), so a reader who knows the body they want can compare."
  },
  {
   "property": "C88",
   "status": "partial",
   "theorems": [
    "Casper.C88_shadow_false",
    "Casper.C88_operation_partial",
    "Casper.C88_name_false"
   ],
   "note": "False for names with a zero byte: a transfer of 10^17 motes to one account is shown as 5 motes to another (`C88_name_false`; both decoys and both real arguments are signed, and the network uses the latter). Proved for names without zero bytes, under the conditions of `C83_operation_partial` (`C88_operation_partial`). `C88_shadow_false`: not only a sample; any native operation can be made to look like any other of its kind, by further arguments in front whose names end in a zero byte. What lines show for all names: `C83_cut_partial`."
  }
 ]
}