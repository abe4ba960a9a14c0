{
 "C01": "All widths n >= 1, all buffers and positions; specification through Mathlib's Nat.ofDigits.",
 "C02": "False of the code (32-bit wrap of offset+length): C02_length_prefix_false. True for length fields below 2^32-65535; an accepted item always leaves the cursor inside the data.",
 "C03": "False of the code for byte arrays or containers as non-last components: C03_type_extent_false. Exact acceptance and extent for all other types. From arbitrary data: what is accepted is a serialized type consumed exactly, or begins as in BadType (C03_accepted_partial).",
 "C04": "Recursion budget 3 never exhausted, nonzero error codes, both components must succeed.",
 "C05": "False of the code for names containing NUL: C05_lookup_false. True for NUL-free names of at most 300 bytes.",
 "C06": "For supported types inside the scope of C03.",
 "C07": "parser_parse case by case on the uploaded bytes, and the answers the host sees.",
 "C08": "For every serialized header (both key kinds, any dependency count, any chain name) within data of up to 65535 bytes: the header is read, and the bytes hashed are exactly its serialization. Headers whose counts are not backed by data are the subject of C56.",
 "C09": "C09_accepted_hashes: every accepted byte string splits into header, hash, payment, session, rest with both hashes correct (body hash by its position behind the key). C09_serialized: for data laid out as a serialized Deploy, hash = BLAKE2b(header) and the header's body hash = BLAKE2b(payment ++ session). For any hash function.",
 "C10": "Any serialized Deploy with a wrong deploy hash or body hash: the last chunk never opens a review, and whenever the Deploy parses the reply is the text 'context prefix is invalid' with 0x6984.",
 "C12": "Any argument order, any key type, any chunking, normal and expert mode: accepted, the review is exactly the specified lines, approval signs SHA-256 of the deploy hash. 'Well-formed' is spelled out by DeploySpec.Usual and the argument hypotheses (names at most 300 bytes etc.).",
 "C13": "False as stated: the hash shown covers only the argument count and the first argument. C13_first_partial proves exactly what is shown for all such transfers; C13_same_hash_false exhibits two transfers to different targets with identical reviews up to the transaction hash. Which transfers are shown in this way is exact: those with a U512 amount that have neither just the usual arguments nor too few. `C13_first_cut_partial`: the same for any names of arguments, which count up to a zero byte (Props/CutReviews.lean).",
 "C14": "False as stated: an 'amount' that is neither U512 nor U32, or a 'delegator' or 'validator' that is no PublicKey, makes every argument line and the hash vanish (C14_hidden_false, a family of Deploys, with an instance shown as 'Delegate' with nothing else). C14_call_partial: with ordinary argument names and types the review shows a hash of the complete argument list. `C14_call_cut_partial`, `C14_hidden_cut_false`: the same for any names of arguments, which count up to a zero byte (Props/CutReviews.lean).",
 "C15": "Stored contracts by hash or by name, with or without version; any argument order; both display modes; `C15_surplus` also with any further arguments behind those needed (which are not shown, see C72).",
 "C17": "U512 up to 64 bytes, U32, U64; also injectivity.",
 "C18": "False at function level for tiny output arrays: C18_thousand_separators_false. Otherwise exact.",
 "C19": "Every duration; independent reader of duration texts; injectivity.",
 "C20": "Any hash function; letter case as a function of the hash bits; injectivity; bits inside the hash.",
 "C21": "For every 33-byte key the platform returns; immediate and confirmed variants; text specified by casedHex.",
 "C22": "Every pending Deploy review, after any history: item 0 shows the 32 bytes (BLAKE2b of the header) whose SHA-256 is signed on approval; a Deploy review has at least five items, so item 0 exists.",
 "C23": "Signed digest = SHA-256 of the hash of the payload, and item 0 shows that hash whenever the review has items. The full claim is false: with 252 arguments the 8-bit item count wraps to 0, nothing can be shown, and approval still signs (C23_nothing_shown_false).",
 "C24": "False as stated: tx_content is not reset when a message is parsed. After a rejected version 1 transaction, approving a short message signs the hash of that transaction; after refused data of unknown kind, only the first 32 bytes of the message are signed. Proved: after any history in which all completed SIGN uploads began with the Deploy byte (or none completed), the review shows exactly the message hash and approval signs SHA-256 of exactly the message, for every message and chunking.",
 "C25": "Acceptance of a message requires the 16-byte prefix and printable text; the refusals are exact.",
 "C26": "Every history of commands and user actions: a signature is produced only by an approval of a pending review, once per review, and reviews come only from accepted LAST commands, of transactions and messages only for data parsed and validated. False for raw WASM deploys in one respect: tx_bufferFull survives the start of another upload, so that the LAST chunk of a raw WASM upload can open a review of data never parsed (C26_wasm_false). Proved for raw WASM uploads sent without interruption (C26_wasm_partial).",
 "C27": "All states without an open session, all histories without INIT.",
 "C28": "Any two chunkings of the same bytes give the same outcome, for SIGN and SIGN-MESSAGE.",
 "C29": "Any upload longer than the buffer is refused at the chunk that does not fit, the session is closed and nothing of it can be signed.",
 "C30": "False of SIGN-MESSAGE, which does not close the session after LAST: C30_message_false. Proved for SIGN and raw WASM.",
 "C31": "False of the code: C31_path_false (a refused GET_ADDR replaces the signing path). Partial: histories where other paths are only sent while nothing is open or shown; proved as independence of all signatures from other keys.",
 "C32": "False of the code: C32_path_false (GET_ADDR during the upload changes the key). Partial: no further path-carrying command after INIT.",
 "C33": "False under interleaving: C33_review_false. Partial: locked device, GET_VERSION, unknown instructions, chunks without session.",
 "C34": "Exact set of status words, bound on the answer, specific codes and what 0x9000 implies.",
 "C35": "All commands, all states.",
 "C37": "All uploads within the device's 16384-byte capacity: envelope, hash, payload and approvals partition the data, hash = BLAKE2b(payload).",
 "C38": "readV1 has no outcome reading or writing outside the received data, for any data and starting state; the hash check after a successful parse neither.",
 "C39": "False: a correct Deploy running module bytes without an 'auction' argument and with more than 100 approvals overflows buffer[100] (C39_approvals_false, C39_crash_false); a header length that wraps makes validation read beyond the data (C39_validate_false). Partial: for any bytes, parsing can only fail in a module-bytes session, validation only if the header is said to exceed the data; serialized Deploys with any other session are safe. For Deploys that run code (module bytes), the exact condition: C39_module_partial (safe unless Misread: the place where the name of the operation is looked for - the value of an argument \"auction\", else the bytes behind the session - starts with a length above 100 or above what is left) and C39_module_false (with a usual payment, undefined behaviour exactly if Misread); C39_many_false: without \"auction\", exactly if there are more than 100 approvals; C39_upload_false: every upload of such data, on every device and in any chunks, ends in undefined behaviour.",
 "C41": "Any review kind, any device state, any sequence of item requests, any starting cursor.",
 "C42": "False for item numbers from 128 on (signed 8-bit item number): C42_items_false, an accepted transaction with 131 items of which three cannot be shown. True for indices below 128; every index at or above the count is refused.",
 "C43": "False when the 8-bit item count wraps: C43_arguments_false (252 arguments, accepted, no items). True while the count stays below 256 (count) and for at most 119 arguments (every required argument among the items; the id of a transfer only in expert mode). `C43_accepted_count_partial`: the count for all accepted data, also with tables Casper would not write.",
 "C44": "False (u8 runtime_args_offset): C44_signed_arguments_false exhibits a signed transfer of 10^17 motes shown as 5 motes to another account. Partial: native operations whose arguments start before offset 256, at most 119 arguments. `C44_accepted_partial`: the same for all accepted data, also with tables Casper would not write. `C44_accepted_cut_partial`: the same for any names of arguments, which count up to a zero byte (Props/CutLayouts.lean).",
 "C45": "All well-formed native operations 2-9 and 12 with exactly their arguments, not just transfers: any chunking is accepted, the review is exactly the specified lines, approval signs SHA-256 of the payload hash.",
 "C46": "Target part proved for all accepted well-formed transactions. Required arguments: proved when the argument list starts before offset 256 and names have no NUL byte; false beyond (C46_required_false: accepted transfer whose signed arguments have none of amount, target, id). `C46_accepted_target`, `C46_accepted_required_partial`: the same for all accepted data. The condition on names is needed: `C46_name_false`, an accepted transfer without amount, target and id, whose names agree with these up to a zero byte. `C46_cut_partial`: for all names, the required arguments are there up to zero bytes in names.",
 "C47": "False: chain names with a NUL byte are shown cut, in version 1 also names of 256+ bytes. Partial: every accepted Deploy and every serialized version 1 transaction (under 100 bytes) whose name has no NUL byte.",
 "C48": "Approvals and reservations: proved (the 8-bit counters cannot overflow within the 16384-byte buffer). Delegators of a cancellation: 257 are shown as 1 (C48_delegators_false); partial for fewer than 256. `C48_approvals_accepted`: the number of approvals for all accepted data. `C48_deploy_approvals`, `C48_deploy_number`: in expert mode the last line of a Deploy shows the number behind its session.",
 "C50": "False for version 1 contract calls: the address is shown as its bytes in decimal without separators (C50_address_false: two accepted calls of different contracts showing the same address). True for addresses all of whose bytes have three digits.",
 "C51": "Texts of all codes; every answer with data to SIGN / SIGN-MESSAGE is the text of a non-zero code (structural walk over every parsing and rendering function).",
 "C52": "False for every amount from 10^19 on, on every platform: C52_payment_false. Exact below 10^19.",
 "C53": "Full review, any chunking, any device state, both display modes. False for packages without version in expert mode (`C53_version_false`, see C54) and for names of more than 99 bytes (`C53_name_false`: two calls whose entry points differ in the 100th byte look the same). Missing otherwise: arguments from position 256 on. `C53_accepted_partial`: contract and entry point are shown for all accepted data, wherever the arguments are and whatever length is given for them. Names of any length and with zero bytes: exactly the part before the first zero byte, at most 99 bytes, is shown (`C83_names_partial`), so every call has look-alikes with other contracts and entry points (`C53_names_false`, for all calls).",
 "C54": "False in expert mode for every call of a package without version: C54_args_hash_false gives the exact review, with question marks and without hash. Also false where the length given for the arguments is wrong, which is accepted (`C54_length_false`: calls with different arguments show the same hash). True otherwise: for well-formed calls and for all accepted data with the right length (`C54_accepted_partial`).",
 "C55": "End to end: upload in any chunking, exact review, signature. The lists have to be among the first two (three) arguments, arguments start before byte 256.",
 "C56": "False: data counting 2048 dependencies and containing none are accepted (C56_header_false). Partial: with a dependency count below 2046, the header of accepted data is a complete serialized header containing the hash of the body.",
 "C36": "False as stated: tx_content is not assigned when raw WASM data is parsed. After refused data of unknown kind every raw WASM deploy too large for the buffer is signed as SHA-256 of its first 32 bytes (account only); after a rejected version 1 transaction, as SHA-256 of bytes 27..58. Proved: after any history in which all completed SIGN uploads began with the Deploy byte, whenever a raw WASM upload opens a review, DeployHash is the hash of the header bytes kept and is what is signed, and BodyHash is the header's; proper deploys with module code (complete, or cut within the code) are accepted so. Data cut within the arguments after the code are the subject of C81.",
 "C11": "All accepted Deploys, both modes: the payment is module bytes with exactly one argument of type U512 whose name up to the first zero byte is \"amount\", and the Fee line shows the number in its bytes. False as stated: names with a zero byte (C11_name_false) and values whose length byte is wrong (C11_fee_false) are accepted too; without these the full statement is proved.",
 "C16": "Every serialized value of every displayable type (byte strings up to 49 bytes) is shown as specified, and the text determines the value except for the tag of a key and the access rights of a URef. False as stated: C16_key_false, C16_uref_false, C16_long_false (byte strings of 51 to 127 bytes are shown as nothing), C16_target_false (in actual reviews).",
 "C49": "False in general: an argument whose claimed length is just below 2^32 moves the 16-bit cursor back, so that 8 bytes count as any number of arguments (C49_loop_false, for every number), and a 236-byte Deploy claiming 1000 arguments is accepted (C49_accepted_false). Without such numbers (2^32 - 65536 or more) in the data: every argument loop behaves as if the claimed number were at most what the data hold at 9 bytes each (C49_effort_partial), and in accepted Deploys and version 1 transactions the claimed number of arguments is followed by 9 bytes for each (C49_deploy_partial, C49_v1_partial).",
 "C40": "False for Deploys (device histories): a transfer target of 50 or 128 bytes (C40_target_false), module bytes longer than 32 (C40_code_false), a short public key at the end of the data (C40_key_false), chain name of 100 or contract name of 300 bytes (C40_names_false). Partial: C40_deploy_partial lists, for any parsed and validated bytes, everything the data must contain for a line to leave the bounds; C40_serialized_partial: serialized Deploys whose shown parts fit are safe. Version 1 transactions: the same two theorems (C40_v1_partial, C40_v1_serialized_partial) and failing histories (C40_v1_target_false; C40_v1_args_false: the claimed length of the arguments of a call is never checked).",
 "C57": "False as stated: lengths near 2^32 (C57_loop_false) and types with bad components, read differently by the search and the skip (C57_type_false). Otherwise proved for every accepted Deploy: C57_canonical_partial (fewer than 2046 dependencies, no 32-bit number of 2^32 - 65536 or more; a bad type is located).",
 "C58": "False as stated: a name may end in a zero byte and is then taken for the shorter name (C58_name_false: 10^17 motes delegated, 5 shown); code with an argument \"auction\" is searched from the wrong place (C58_module_false: the same amounts). Otherwise proved for all accepted Deploys whose session is a serialized item with types Casper reads alike (C57 says when), names without zero bytes, and not code with an argument \"auction\" or a name over 300 bytes. `C58_cut_partial`: for all names, lines are about the first argument whose name agrees up to a zero byte.",
 "C59": "False as stated: in normal mode a delegation does not show its contract, so two delegations to different contracts look the same but for the hash (C59_hidden_false). Proved for all accepted Deploys whose session is a serialized item without zero bytes in names: every such line is right; in expert mode the contract is always identified, at items 9 and 10; in normal mode at items 5 and 6 unless the type is Delegate, Undelegate or Redelegate or the review ends after the fee (the case of C14_hidden_false). The hash of code over 32 bytes leaves the bounds of memory (C40). Names with zero bytes are cut, in both modes, so that calls of different contracts look alike: `C59_zero_false`. `C59_cut_partial`: the same for all names, shown up to the first zero byte.",
 "C60": "The SDK calls are arbitrary functions that return success or failure and new contents; for the answers they are assumed not to write outside the arrays handed over and to return a DER length of at most 73. Copies the SDK itself makes are outside the model.",
 "C61": "False for every such transaction: with the entry point `call` the review has header lines only, whatever code and arguments are (C61_session_false), so two programs look the same but for the transaction hash (C61_same_review_false); with a named entry point only the arguments are hashed (C61_custom_false). Proved: the first line commits to the whole payload, for everything that is accepted. `C84_program_partial`: the same for every layout of such data.",
 "C62": "False: version 1 transactions show the account with another letter case than the device's address, since the checksum is taken over the algorithm tag too (C62_account_false); chain names are cut at a zero byte (C62_chain_false); parts of a second of the time to live are dropped, under a second the line is empty (C62_ttl_false). Proved up to these for all accepted Deploys (C62_deploy_partial) and all accepted version 1 transactions, also those whose tables Casper would not write (C62_v1_accepted_partial, for chain names under 256 bytes and payments under 10^19; that accepted data hold such a header is C62_v1_header_partial).",
 "C63": "False: a text \"delegate\" behind the session replaces the two lines about the contract of a Deploy with code by question marks (C63_contract_false); a target given as public key but too short is completed from bytes behind the session (C63_target_false). Proved: a serialized Deploy accepted with some continuation (also none) is accepted with every longer one, with the same review and digest. For Deploys with the sessions of C85 (transfers, delegations, redelegations, other calls of stored contracts), what follows has in normal mode no influence at all (C63_kinds_partial).",
 "C64": "False for bytes behind the signed part in general: the offset of the arguments is kept in 8 bits, so that target and amount of a well-formed transfer can be shown from appended, unsigned bytes (C64_unsigned_false). Proved: data accepted are accepted with any continuation, with the same lines and digest, unless a pricing line is a mere question mark.",
 "C65": "C65_history compares two runs; C65_condition_needed shows the excluded case to differ",
 "C66": "`Asked` says what a network hash commits to, independently of the parser; `Asked.binding` is pure hashing; the review theorem connects both.",
 "C67": "`C67_deploy` is complete for Deploys. Version 1: proved for all data whose expert review has 9 to 128 lines (12 for a transfer) and, for contract calls, no blank line; false for calls of a package without version (`C67_call_false`: expert mode drops the hash of the arguments). Expert mode may refuse what normal mode accepts (for example an unprintable timestamp); that is not part of the property.",
 "C68": "False of the code in two cases: code (module bytes) with delegation arguments and an argument \"auction\" is shown as \"Delegate\" whatever it does (`C68_code_false`); and an entry point \"delegate\", zero byte, more text is shown as \"Delegate\" (`C68_name_false`). The partial theorem for Deploys covers all other serialized sessions; the one for version 1 covers all serialized transactions whose review has a second item (C61 shows that \"Call\" can have none). `C68_v1_accepted_partial`: the same for all accepted version 1 data. `C68_cut_partial`: for all names, the title is right for the session with names cut at the first zero byte.",
 "C69": "Complete for serialized transactions.",
 "C70": "Proved for transfers, delegations and native operations (`C70_transfer`, `C70_delegation`, `C70_operation`; `C70_stake` also for redelegations and whatever arguments follow those needed). For contract calls in normal mode the entry point is not shown (`C70_entry_false`), and for delegations in normal mode the contract is not shown (`C70_contract_false`): there the lines do not determine what is done. `C70_call_partial` (Deploys) and `C70_v1_call_partial` (version 1) are what holds for contract calls; version and virtual machine of a package are not shown in normal mode (`C70_version_false`). `C70_entries_false` and `C70_contracts_false`: the same for all contract calls (any two entry points) and all delegations (any two contracts) in normal mode.",
 "C71": "Complete. Strengthens C66 (equal byte strings) to equal fields; the serialization is proved to be injective (`DeployHeader.encode_inj`, `DeploySpec.body_inj`, `TxPayload.encode_inj`).",
 "C72": "Proved for transfers (the converse of C12: only argument lists like the ones there are itemised). False for delegations: a fourth argument is accepted and nowhere shown, in either mode (`C72_delegation_false`; for all delegations, revocations and redelegations with any further arguments: `C72_surplus_false`). Transfers with other arguments are shown by a hash, of the first one only (C13). `C72_cut_partial`: the same for all names, cut at the first zero byte.",
 "C73": "Unknown parts of version 1 are tables with the number of the kind as first field and at most nine other fields (the arguments: the number and any bytes). Deploys: payment of kind 0, session of kinds 0 to 5 behind any payment that is a serialized one.",
 "C74": "Proved where the arguments of the operation come first, in any order, and the code has at most 32 bytes in expert mode. False otherwise: with `auction` first the Deploy is refused (`C74_order_false`), and longer code overflows an array in expert mode (`C40_code_false`). That the code really performs the operation shown is false, see `C68_code_false`. C74_hidden_false: it also fails, for all code, as soon as an operand has an unexpected type: in normal mode the review then says \"Delegate\" and nothing else. `C74_delegation_cut_partial`, `C74_redelegation_cut_partial`, `C74_hidden_cut_false`: the same for any names of arguments, which count up to a zero byte (Props/CutAuction.lean); so any code is presented as a delegation by arguments Casper does not find. `C74_expert_cut_false`: in expert mode, too, such an operation is announced without its operands, and a text that names no operation leaves a line of question marks (Props/CutAuctionAccept.lean).",
 "C75": "Proved for code of at most 32 bytes, at most 100 approvals and arguments `amount`, `delegator`, `validator`, `new_validator` of the usual types if present. False for every longer code: the Deploy never leads to a review with defined behaviour (`C75_long_false`, a theorem about all such Deploys; a concrete one in `C75_crash_false`). More than 100 approvals: `C39_approvals_false`. C75_hidden_false: the property fails for code of any length as soon as an argument named \"amount\", \"delegator\" or \"validator\" has an unexpected type: then the review shows nothing of the code or its arguments, in either mode, and approving signs. `C75_small_cut_partial`, `C75_hidden_cut_false`, `C75_long_cut_false`: the same for any names of arguments, which count up to a zero byte (Props/CutRun.lean).",
 "C76": "Proved, in every state: only the last part of a transaction, a later part of a WASM upload, or the approval of a review other than of an address can fail (`C76_where`). Proved: histories from power on without transaction and WASM commands never fail; the approval of a transaction that has just been accepted never fails. False for messages after a refused transaction (`C76_message_false`: an out-of-bounds read of a chosen distance); failing transaction uploads are in C39, C40, C75.",
 "C77": "Proved for messages after histories in which transaction data began with 0 (or there were none). False in general, for every state and every 32 bytes: after a refused 15-byte transaction, a message review signs SHA-256 of 32 bytes chosen inside the message, for instance the hash of a transaction the device has never seen (`C77_chosen_false`, `C77_transaction_false`).",
 "C78": "Proved: what is signed is complete. A version 1 transaction lacks at most the last 64 bytes of its approvals, and nothing if it has none; a Deploy is complete up to the end of its session, unless a beginning of the body has the BLAKE2b hash of the body. False for the rest: the last signature of a version 1 transaction can be missing (`C78_signature_false`), and all approvals of a Deploy including their number (`C78_approvals_false`). In expert mode the number of approvals of a Deploy must be there (`C78_expert_partial`).",
 "C79": "Labels: proved for every state and review. Texts: proved for every state, except the lines \"Chain ID\", \"Name\" and \"Entry-point\", which are proved to repeat bytes of the uploaded data without a zero byte. False for those: a chain name with line feeds is handed to the screen as it is (`C79_chain_false`). How the screen draws such bytes is outside the model.",
 "C80": "Proved: all pages together show the whole text, for every line of every review; texts not paged have at most 19 characters; only lines from a listed set (repeated texts, \"Ttl\", \"Payment\", arguments) may lack a text, and arguments of the lengths Casper's types have never do. False otherwise: a transfer for a chain without name has no text on \"Chain ID\", a transfer to a target of 64 bytes none on \"Target\" (`C80_chain_false`, `C80_target_false`). That an empty text has no page is the contract of zxlib's `pageString`, which is not part of the repository.",
 "C81": "Proved for deploys without an argument called \"auction\", for data kept that end anywhere, except within a name or value whose beginning looks like a short length-prefixed text. False otherwise: after an incomplete argument the app searches for \"auction\" inside that argument's value and refuses the deploy if it finds an unknown type there (`C81_value_false`); deploys with an argument \"auction\" that is not a text are refused if all arguments are kept (`C81_auction_false`), and by the ordinary command as well (`C81_both_false`).",
 "C82": "Proved up to numbers that describe the layout, for data without 32-bit numbers of 2^32 - 65536 or more: Spec/Loose.lean says which of these numbers are free. Free are the upper three bytes of a table's count, the upper half of its size, entries beyond those of the fields (up to ten), the lengths of the four fields of the body, all numbers in the tables of runtimes and of stored contracts' identifications, some offsets of targets. Where an argument has a type that the app reads differently (`BadType`), the theorem gives its place and the fields before it. False in the strict form: a table that claims 259 fields is accepted (`C82_table_false`), and a signed payload whose arguments claim to have a million bytes (`C82_length_false`). Approvals are complete too, except that up to 64 bytes of the last signature may be missing (see C78). `TxPayload.loose` shows that everything Casper serializes is of the form described.",
 "C83": "Proved for accepted data without 32-bit numbers of 2^32 - 65536 or more: they have a content (Spec/ContentV1.lean), and for native operations (`C83_operation_partial`) and contract calls (`C83_call_partial`) the complete review is that of the content. Missing: arguments at position 256 or later (C44), names with zero bytes or of more than 300 (operations) or 99 (calls) bytes, payments of more than 19 digits and packages without version in expert mode, a wrong length of a call's arguments. False there: the hash shown for the arguments of a call covers as many bytes as the unchecked length says (`C54_length_false`). `C83_unique`: the bytes determine the content; `C83_signed`, `C83_binding`: the approval signs the hash of the payload with this content, so two approvals of the same hash are for the same content (or a BLAKE2b collision is at hand). Reservations and programs: `C84_reservation_partial`, `C84_program_partial` give their complete reviews for all layouts. `C83_names_partial`: the complete review of calls for all names, which are shown up to a zero byte and the 99th byte. `C83_cut_partial`: the complete review of native operations for all names, arguments being found by their names up to a zero byte.",
 "C84": "Proved, as an equivalence, for arguments at positions below 256: native operations (`C84_operation_partial`), reservations (`C84_reservation_partial`), calls (`C84_call_partial`), programs run by `call` (`C84_program_partial`). Missing: arguments or names that cannot be shown as their line demands, payments of more than 19 digits in expert mode. False where further table entries move the arguments to position 256 or later: their position is kept in 8 bits (`C84_layout_false`: one payload, accepted with four ignored table entries, refused with five). `C84_names_partial`: the equivalence for calls with any names; no name is refused. `C84_cut_partial`: the equivalence for native operations with any argument names (Props/CutNames.lean). `C84_reservation_cut_partial`: the same for reservations and their cancellation (Props/CutReservations.lean). `C84_layout_cut_partial`: two layouts, any names of arguments (Props/CutLayouts.lean).",
 "C85": "Proved, as an equivalence, for the sessions listed in `ItemShown` (transfers, delegations, redelegations, calls and others whose arguments can be shown as their lines demand): `C85_deploy_partial`, with `C63_kinds_partial` on the bytes behind. For native transfers the lists of arguments accepted are described exactly (`C85_transfer_partial`): the first argument named \"amount\" is a U512, and there is more than an amount and at most one of target and id. For calls of stored contracts they are described exactly as well (`C85_call_partial`): a redelegation has a PublicKey new_validator, and a delegation whose operands all have the right types has them as its first three (or four) arguments, in any order. Missing: code with an argument `auction` that names no operation and whose operands have the expected types (see C74), names of contracts and entry points with zero bytes, values that do not belong to their types. False for sessions that run code given in them: what follows is taken for the name of an operation (`C85_code_false`: accepted with four zero bytes behind it, refused with nothing). C85_code_partial: exactly which Deploys running code without an argument \"auction\" are accepted, for all code and arguments (what follows not having a letter in fifth place). `C85_transfer_cut_partial`: the exact description for transfers with any argument names, which count up to a zero byte (Props/CutTransfers.lean). `C85_call_cut_partial`: the same for calls of stored contracts with any names of arguments (Props/CutAcceptCalls.lean). `C85_code_cut_partial`: the same for Deploys that run code without an argument found as \"auction\" (Props/CutCode.lean). `C85_announced_cut_partial`: which Deploys are accepted, in either mode, that run code with a text in an argument \"auction\" and have an operand of an unexpected type: the text does not matter, and the code only by its length in expert mode (Props/CutAuctionAccept.lean). `C85_operands_cut_partial`: code that announces a delegation, undelegation or redelegation with an amount, a delegator and a validator of the expected types is accepted exactly if it has a new validator for a redelegation and none otherwise, the operands are the first arguments, in any order, and, in expert mode, the code has at most 32 bytes (Props/CutAuctionOrder.lean).",
 "C86": "False for code with an argument \"auction\": the hash starts four bytes late and covers as many arguments as the length of the first name says, so that two Deploys with different arguments (10^17 or 1 as amount, one with a further argument) show the same hash and, apart from the transaction hash, the same lines (`C86_masked_false`). Proved for all other accepted Deploys whose session is a serialized item with types Casper reads alike (C57 says when) and names without zero bytes. Native transfers, whose hash covers the first argument only, are the subject of C13. `C86_cut_partial`: the same without conditions on zero bytes in names.",
 "C87": "Refuted for every Deploy: parser_validate_wasm compares the deploy hash with the header but never the body hash with the data, so the header, hash and payment of any Deploy (a transfer, a delegation, a call) followed by the beginning of some code open a review of two hashes, and the approval signs that very Deploy (C87_bypass_false, for all Deploys with the usual payment, all code that does not end within the data). What holds: data whose session tag is not that of code open no review (C87_kind_partial). The two lines do determine the hashes of header and body (C87_lines_partial), so a reader who knows the body they want can compare.",
 "C88": "False for names with a zero byte: a transfer of 10^17 motes to one account is shown as 5 motes to another (`C88_name_false`; both decoys and both real arguments are signed, and the network uses the latter). Proved for names without zero bytes, under the conditions of `C83_operation_partial` (`C88_operation_partial`). `C88_shadow_false`: not only a sample; any native operation can be made to look like any other of its kind, by further arguments in front whose names end in a zero byte. What lines show for all names: `C83_cut_partial`."
}