{"id": "C01", "title": "Fixed-width integers are read little-endian, in bounds, and consume exactly their width", "statement": "Reading an N-byte integer at any position either succeeds with the little-endian value of exactly the N bytes at that position and moves the cursor by exactly N, or reports 'unexpected buffer end' when fewer than N bytes remain; it never looks outside the supplied bytes.", "quantifier": "every buffer of up to 65535 bytes, every cursor position, every width in {1,2,4,8}", "why_tests_cant": "the space of buffers and offsets is unbounded for testing; the interesting cases are at the exact end of the buffer", "anchors": ["app/src/parser_utils.h:_readUInt8/16/32/64", "app/src/parser.c:readU8.."]}
{"id": "C02", "title": "Length-prefixed items never move the cursor outside the data or backwards", "statement": "Skipping a length-prefixed item (4-byte length then payload) either fails or leaves the cursor exactly 4+length bytes further on, still inside the buffer.", "quantifier": "every buffer, every cursor position, every 32-bit length field", "why_tests_cant": "the failing lengths are the ones near 2^32 where 32-bit addition wraps; tests do not enumerate them", "anchors": ["app/src/parser_utils.c:parse_item", "app/src/parser_primitives.c:read_string", "app/src/parser_primitives.c:read_bytes"]}
{"id": "C03", "title": "Type descriptors are consumed to exactly the extent Casper's serialization defines", "statement": "Whenever the app accepts the type descriptor of a runtime argument, the number of bytes it consumes is the length of that type's Casper serialization, so the next argument starts where the network thinks it starts.", "quantifier": "every CLType tree (arbitrary nesting) and every byte string following it", "why_tests_cant": "types are an infinite recursive family; a mismatch only shows for particular nestings", "anchors": ["app/src/parser_utils.c:get_type", "app/src/parser_utils.c:parse_additional_typebytes"]}
{"id": "C04", "title": "Type descriptor parsing terminates with bounded recursion and never reports success for a failed component", "statement": "Parsing a type descriptor always returns, nesting at most three levels of recursion, and it succeeds only if every component descriptor succeeded (combining error codes can never yield 'ok').", "quantifier": "every byte string", "why_tests_cant": "stack depth and termination are statements about all inputs", "anchors": ["app/src/parser_utils.c:parse_additional_typebytes", "app/src/parser_utils.c:is_container_type"]}
{"id": "C05", "title": "Argument lookup by name returns the first argument with exactly that name", "statement": "Looking up an argument by name in a correctly serialized argument list finds the first argument whose name equals the requested name and returns its type, its length and the position of its value; it reports 'not found' exactly when no argument has that name.", "quantifier": "every list of named arguments (any number, any values, any supported types), every name", "why_tests_cant": "argument lists are unbounded, and adversarial names (for example containing NUL bytes) are not covered by samples", "anchors": ["app/src/runtime_arg.c:searchRuntimeArgs", "app/src/parser.c:parser_runtimeargs_getData", "app/src/parser_impl_deploy.c:copy_item_into_charbuffer"]}
{"id": "C06", "title": "Walking the argument list consumes exactly the serialized list", "statement": "Skipping n serialized named arguments advances the cursor by exactly their total serialized length.", "quantifier": "every list of named arguments with supported types, any following bytes", "why_tests_cant": "unbounded lists; compositional property", "anchors": ["app/src/runtime_arg.c:parseRuntimeArgs"]}
{"id": "C07", "title": "Transactions are recognised by their first byte; empty and unknown inputs are refused", "statement": "Parsing succeeds only if the first byte is 0 (Deploy) or 1 (TransactionV1) and at least one more byte follows; an empty input, a one-byte input and any other first byte are refused with their specific error.", "quantifier": "every byte string", "why_tests_cant": "universally quantified over input", "anchors": ["app/src/parser.c:parser_parse", "app/src/parser_utils.c:parser_init_context"]}
{"id": "C08", "title": "Deploy header extent equals the serialized header length", "statement": "For a Deploy header with n dependencies and a chain name of m bytes, the header the app hashes is exactly the serialized header: 1+key length+56+4+32n+4+m bytes.", "quantifier": "every header: both key kinds, every dependency count, every chain-name length", "why_tests_cant": "the 16-bit arithmetic only goes wrong for counts/lengths around 2048 and 65536", "anchors": ["app/src/parser_impl_deploy.c:header_length_deploy", "app/src/parser_impl_deploy.c:index_headerpart_deploy"]}
{"id": "C09", "title": "An accepted Deploy has consistent hashes", "statement": "If a Deploy is accepted, then the stored deploy hash equals BLAKE2b-256 of the header bytes that precede it, and the body hash inside the header equals BLAKE2b-256 of the payment and session bytes that follow it.", "quantifier": "every byte string accepted by parse+validate, in both display modes, and every hash function", "why_tests_cant": "acceptance is a predicate over all inputs, including malformed ones", "anchors": ["app/src/parser_impl_deploy.c:_validateTxDeploy", "app/src/parser.c:parser_validate"]}
{"id": "C10", "title": "A Deploy with a wrong hash is never accepted", "statement": "Changing the stored deploy hash or the stored body hash of a Deploy so that it no longer equals the computed hash makes validation fail with 'context prefix is invalid'.", "quantifier": "every Deploy that parses", "why_tests_cant": "universal over inputs and over the tampered hash", "anchors": ["app/src/parser_impl_deploy.c:_validateTxDeploy"]}
{"id": "C11", "title": "An accepted Deploy pays with exactly one U512 'amount' argument, shown as the Fee", "statement": "Every accepted Deploy has a payment section that is module-bytes with exactly one argument named amount of type U512, and the display contains a 'Fee' entry showing that amount.", "quantifier": "every accepted Deploy, both display modes", "why_tests_cant": "requires reasoning about all accepted inputs, including those that look like generic payments", "anchors": ["app/src/parser_special.c:parseSystemPayment", "app/src/parser_special.c:checkForSystemPaymentArgs", "app/src/parser_special.c:parser_getItem_SystemPayment", "app/src/parser_impl_deploy.c:parser_read_deploy"]}
{"id": "C12", "title": "Every well-formed native-transfer Deploy is accepted and shown faithfully", "statement": "For every well-formed Deploy that pays a U512 amount and whose session is a native transfer with exactly the arguments amount, id, target (and optionally source), in any order, with correct hashes: the app accepts it and the review shows, in order, the deploy hash, 'Token transfer', the chain name, the account, (expert: timestamp, ttl, gas price, dependency count), the fee, (expert: source,) the target, the amount (expert: the id, approvals count).", "quantifier": "every key, timestamp, ttl, gas price, dependency list, chain name, amounts, target, id, argument order, approvals, both display modes", "why_tests_cant": "end-to-end correctness over an infinite family of transactions; tests only sample a few generated blobs", "anchors": ["app/src/parser_impl_deploy.c:parser_read_deploy", "app/src/parser_special.c:parseNativeTransfer", "app/src/parser_special.c:parser_getItem_NativeTransfer", "app/src/parser_impl_deploy.c:_getItemDeploy"]}
{"id": "C13", "title": "Arguments that are not itemised are committed to by the displayed arguments hash (native transfer)", "statement": "When a native transfer carries unexpected arguments, the review shows an 'Args hash' which is the BLAKE2b hash of the complete serialized argument list, so two transfers with different arguments show different hashes (up to collisions).", "quantifier": "every accepted native-transfer Deploy with extra arguments", "why_tests_cant": "requires comparing what is hashed with what is signed for every argument list", "anchors": ["app/src/parser_special.c:parser_getItem_NativeTransfer", "app/src/runtime_arg.c:showRuntimeArgsHash"]}
{"id": "C14", "title": "Contract calls are never shown with neither their arguments nor an arguments hash", "statement": "For every accepted Deploy whose session calls a contract, the review contains either every argument needed for the shown operation (delegator, validator, amount) or an 'Args hash' over the complete argument list.", "quantifier": "every accepted contract-call Deploy, every argument list and argument typing", "why_tests_cant": "the failing cases depend on an argument having an expected name but an unexpected type", "anchors": ["app/src/parser_special.c:parseDelegation", "app/src/parser_special.c:checkForDelegationItems", "app/src/parser_special.c:COUNT_RUNTIME_ARGTYPE"]}
{"id": "C15", "title": "Well-formed delegate/undelegate/redelegate Deploys are accepted and shown faithfully", "statement": "For every well-formed stored-contract-by-hash Deploy with entry point delegate or undelegate (delegator, validator, amount) or redelegate (plus new_validator), in any argument order, the app accepts it and shows the operation name, delegator, validator(s) and amount carried by the arguments.", "quantifier": "every contract hash, keys, amounts, argument order, both display modes", "why_tests_cant": "infinite family of transactions", "anchors": ["app/src/parser_special.c:parser_getItem_Delegation", "app/src/parser_impl_deploy.c:check_entrypoint"]}
{"id": "C16", "title": "Argument values are displayed faithfully and unambiguously", "statement": "The text shown for an argument value of a supported type determines the value: byte strings and keys are shown as their full hexadecimal form, integers as decimal; two different values of the same type never display the same text.", "quantifier": "every value of every displayable type and every length", "why_tests_cant": "value space is unbounded; 8-bit truncation of lengths only shows for particular sizes", "anchors": ["app/src/parser.c:parser_display_runtimeArg", "app/src/parser_utils.c:parser_printBytes", "app/src/crypto.c:encode"]}
{"id": "C17", "title": "Amounts are displayed as the exact decimal value in groups of three followed by ' motes'", "statement": "The text shown for a U512 amount consists of the decimal digits of exactly that number, without leading zeros, separated by spaces into groups of three counted from the right, followed by ' motes'.", "quantifier": "every amount below 2^512 (and every U32/U64 amount)", "why_tests_cant": "2^512 values", "anchors": ["app/src/parser.c:parser_display_runtimeArgMotes", "app/src/parser.c:add_thousands_separators", "app/src/parser.c:inplace_insert_char", "app/src/parser.c:find_end_of_number"]}
{"id": "C18", "title": "Thousand separators keep every digit in place", "statement": "Formatting a decimal string with thousand separators fails or produces a string that, with the spaces removed, is the input, whose integer part is grouped by three from the right; the result always fits the given output buffer.", "quantifier": "every digit string (with optional fraction) and every output size", "why_tests_cant": "universal over strings and sizes", "anchors": ["app/src/parser_utils.c:add_thousand_separators"]}
{"id": "C19", "title": "TTL text denotes the exact duration", "statement": "A time-to-live of up to 28 days 23h 59m 59s is shown as days, hours, minutes, seconds that add up to exactly that many seconds; longer ones are refused; two different accepted durations never show the same text and the text fits in 23 bytes.", "quantifier": "every 64-bit TTL value", "why_tests_cant": "2^64 values", "anchors": ["app/src/parser.c:parse_TTL"]}
{"id": "C20", "title": "Checksummed hex keeps the bytes and its letter case is a function of the hash", "statement": "The checksummed hexadecimal text of a byte string of up to 50 bytes, read case-insensitively, is exactly that byte string in hexadecimal; different byte strings give different texts; the case of each letter is decided by consecutive bits of the BLAKE2b hash and every bit read is inside the hash.", "quantifier": "every byte string of 0..50 bytes, every hash value", "why_tests_cant": "exponentially many inputs", "anchors": ["app/src/crypto.c:encode", "app/src/crypto.c:encode_hex", "app/src/crypto.c:get_next_hash_bit", "app/src/crypto.c:bytes_to_nibbles"]}
{"id": "C21", "title": "The address answer is the public key plus its checksummed text", "statement": "GET_ADDR answers with the 33-byte public key followed by the 68-character text '02' + checksummed hex of that key (101 bytes in total); the on-screen address is the same text, and in expert mode the screens also show the path; there is no other line.", "quantifier": "every public key, every hash function, every previous device state", "why_tests_cant": "universal over keys and histories", "anchors": ["app/src/crypto.c:crypto_fillAddress", "app/src/crypto.c:encode_addr", "app/src/addr.c:addr_getItem", "app/src/apdu_handler.c:handleGetAddr"]}
{"id": "C22", "title": "What is signed is the hash that was shown (Deploy)", "statement": "When the user approves the review of an accepted Deploy and nothing else was sent in between, the message signed is SHA-256 of exactly the 32 bytes shown as 'Txn hash', which equal BLAKE2b of the header.", "quantifier": "every accepted Deploy, every previous history of the device, every chunking of the upload", "why_tests_cant": "needs all inputs and all histories", "anchors": ["app/src/common/actions.h:app_sign", "app/src/crypto.c:crypto_sign", "app/src/apdu_handler.c:handleSign"]}
{"id": "C23", "title": "What is signed is the hash that was shown (TransactionV1)", "statement": "When the user approves the review of an accepted TransactionV1 and nothing else was sent in between, the message signed is SHA-256 of exactly the 32 bytes shown as 'Txn hash', which equal BLAKE2b of the payload.", "quantifier": "every accepted TransactionV1, every previous history, every chunking", "why_tests_cant": "needs all inputs and all histories", "anchors": ["app/src/common/actions.h:app_sign", "app/src/crypto.c:crypto_sign", "app/src/parser_impl_transactionV1.c:_validateTxV1"]}
{"id": "C24", "title": "Message signing signs the displayed message", "statement": "When the user approves a message review (and nothing was sent in between), the signature is over SHA-256 of exactly the message whose BLAKE2b hash was shown, whatever happened on the device before.", "quantifier": "every message and every previous APDU history", "why_tests_cant": "the failure needs a specific earlier history (another transaction type parsed before); tests run each flow from a fresh boot", "anchors": ["app/src/parser_message.c:parser_parse_message", "app/src/common/actions.h:app_sign", "app/src/common/tx.c:tx_get_content_type", "app/src/crypto.c:crypto_sign"]}
{"id": "C25", "title": "Only messages with the Casper prefix can be signed as messages", "statement": "A message review is offered only if the uploaded bytes start with 'Casper Message:\\n'; shorter or different inputs are refused with the specific error.", "quantifier": "every byte string, every history", "why_tests_cant": "universal over inputs", "anchors": ["app/src/parser_message.c:parser_parse_message", "app/src/apdu_handler.c:handleSignMessage"]}
{"id": "C26", "title": "No signature without an approved review of parsed and validated data", "statement": "The device emits a signature only in response to a user approval of a pending signing review, at most one per review; a signing review becomes pending only after a LAST chunk whose data parsed and validated.", "quantifier": "every finite sequence of APDUs and user actions", "why_tests_cant": "all histories", "anchors": ["app/src/apdu_handler.c:handleSign", "app/src/apdu_handler.c:handleSignMessage", "app/src/apdu_handler.c:handleSignWasm", "app/src/common/actions.h:app_sign"]}
{"id": "C27", "title": "Data chunks are refused outside an upload session", "statement": "An ADD or LAST chunk sent when no upload is open is refused with TX_NOT_INITIALIZED and changes nothing; before the first INIT no chunk is ever accepted.", "quantifier": "every device state, every APDU history without INIT", "why_tests_cant": "all histories", "anchors": ["app/src/apdu_handler.c:process_chunk", "app/src/apdu_handler.c:process_wasm_chunk"]}
{"id": "C28", "title": "Chunking is transparent", "statement": "The data that is parsed and reviewed is the concatenation of the chunk payloads sent since INIT, so the outcome depends only on the concatenation, not on how it was split.", "quantifier": "every split of every payload into chunks (sign and sign-message flows), every prior history", "why_tests_cant": "exponentially many splits", "anchors": ["app/src/apdu_handler.c:process_chunk", "app/src/common/tx.c:tx_append"]}
{"id": "C29", "title": "Oversized uploads are refused, never truncated", "statement": "In the sign and sign-message flows, a chunk that does not fit in the remaining buffer is refused with OUTPUT_BUFFER_TOO_SMALL and closes the session; no later chunk is accepted until INIT.", "quantifier": "every buffer fill level and chunk size", "why_tests_cant": "boundary behaviour for all sizes", "anchors": ["app/src/apdu_handler.c:process_chunk"]}
{"id": "C30", "title": "Completing an upload closes the session", "statement": "After the LAST chunk has been processed (accepted or refused), further ADD/LAST chunks are refused until a new INIT.", "quantifier": "every history, all three signing instructions", "why_tests_cant": "all histories", "anchors": ["app/src/apdu_handler.c:handleSign", "app/src/apdu_handler.c:handleSignMessage", "app/src/apdu_handler.c:handleSignWasm"]}
{"id": "C31", "title": "Signing only ever uses a Casper derivation path", "statement": "Every signature is made with a path starting 44'/506'.", "quantifier": "every APDU history and user actions", "why_tests_cant": "needs a specific history mixing refused and accepted commands", "anchors": ["app/src/apdu_handler.c:extractHDPath", "app/src/crypto.c:crypto_sign"]}
{"id": "C32", "title": "The signing path is the one given at INIT of that upload", "statement": "The key used for a signature is the one selected by the INIT command that opened the upload being signed.", "quantifier": "every APDU history", "why_tests_cant": "needs interleavings of GET_ADDR with an upload", "anchors": ["app/src/apdu_handler.c:extractHDPath", "app/src/apdu_handler.c:handleGetAddr"]}
{"id": "C33", "title": "Nothing received during a review can change what gets signed", "statement": "Between showing a review and the user's decision, no APDU can change the data or path that will be signed.", "quantifier": "every interleaving of APDUs with a pending review", "why_tests_cant": "concurrency between host and user", "anchors": ["app/src/common/actions.h:app_sign", "app/src/apdu_handler.c:process_chunk"]}
{"id": "C34", "title": "Every command is answered with a well-formed status word", "statement": "Every APDU that is answered immediately is answered with data followed by a two-byte status word in 0x6xxx or 0x9000; unknown CLA, short commands, unknown INS and non-zero P2 get their specific codes; success (0x9000) is never reported for a refused command.", "quantifier": "every APDU, every state", "why_tests_cant": "all inputs and states", "anchors": ["app/src/apdu_handler.c:handleApdu"]}
{"id": "C35", "title": "A locked device does nothing but report its version", "statement": "While the PIN is not validated every command except GET_VERSION is refused and leaves all application state unchanged; GET_VERSION is answered in every state, and says which version the app has and whether the device is locked.", "quantifier": "every APDU, every state", "why_tests_cant": "all inputs and states", "anchors": ["app/src/apdu_handler.c:handleApdu"]}
{"id": "C36", "title": "Raw-WASM signing signs the displayed deploy hash of a hash-consistent header", "statement": "When a raw WASM deploy review is approved, the signed message is SHA-256 of the 32 bytes shown as 'DeployHash', which equal BLAKE2b of the header; 'BodyHash' shows the header's body hash.", "quantifier": "every uploaded prefix, every history", "why_tests_cant": "depends on stale state left by other instructions", "anchors": ["app/src/parser_wasm.c:parser_parse_wasm", "app/src/parser_wasm.c:parser_validate_wasm", "app/src/parser_wasm.c:parser_getWasmItem", "app/src/apdu_handler.c:process_wasm_chunk"]}
{"id": "C37", "title": "An accepted TransactionV1 has a consistent hash over its whole payload", "statement": "If a TransactionV1 is accepted, its stored hash equals BLAKE2b-256 of the payload bytes, and the payload region lies between the hash and the approvals inside the received data.", "quantifier": "every accepted byte string", "why_tests_cant": "acceptance is universal over inputs", "anchors": ["app/src/parser_impl_transactionV1.c:_validateTxV1", "app/src/parser_impl_transactionV1.c:parser_read_transactionV1"]}
{"id": "C38", "title": "TransactionV1 parsing never touches memory outside the received data", "statement": "Parsing and hash-validating any byte string as a TransactionV1 reads only inside the received bytes.", "quantifier": "every byte string of device-feasible length", "why_tests_cant": "memory safety is universal; sanitizers only see executed inputs", "anchors": ["app/src/parser_impl_transactionV1.c", "app/src/parser_primitives.c"]}
{"id": "C39", "title": "Deploy parsing and validation never touch memory outside their buffers", "statement": "Parsing and hash-validating any byte string as a Deploy reads only inside the received bytes and writes only inside its local buffers.", "quantifier": "every byte string of device-feasible length", "why_tests_cant": "memory safety is universal; the failing inputs are adversarial", "anchors": ["app/src/parser_impl_deploy.c", "app/src/parser_special.c:parseDelegation"]}
{"id": "C40", "title": "Rendering never touches memory outside its buffers", "statement": "Rendering any item of a successfully parsed transaction never reads outside the received bytes nor writes outside the local buffers.", "quantifier": "every parsed transaction and every item", "why_tests_cant": "memory safety is universal; failing inputs are adversarial value lengths", "anchors": ["app/src/crypto.c:encode", "app/src/parser_utils.h:DISPLAY_STRING", "app/src/parser_special.c:render_fixed_delegation_items", "app/src/parser.c:parser_display_runtimeArg"]}
{"id": "C41", "title": "Rendering is repeatable and order-independent", "statement": "What is shown for item i is the same no matter which items were shown before, in which order and how often.", "quantifier": "every parsed transaction, every sequence of item requests", "why_tests_cant": "all sequences of UI requests", "anchors": ["app/src/parser_impl_deploy.c:_getItemDeploy", "app/src/parser_impl_transactionV1.c:_getItemTxV1"]}
{"id": "C42", "title": "Every announced item can be shown, none beyond", "statement": "After acceptance every item index below the announced count can be shown without error and every index at or above it is refused.", "quantifier": "every accepted transaction", "why_tests_cant": "universal over inputs and indices", "anchors": ["app/src/parser.c:parser_validate", "app/src/parser.c:parser_getItem", "app/src/common/tx.c:tx_getItem"]}
{"id": "C43", "title": "All arguments of a native TransactionV1 operation are shown", "statement": "For an accepted TransactionV1 calling a native entry point other than call/custom, the number of review items reflects all runtime arguments (expert) and in particular the operation's required arguments are among the shown items.", "quantifier": "every accepted TransactionV1", "why_tests_cant": "8-bit item counters only wrap for particular argument counts", "anchors": ["app/src/parser_impl_transactionV1.c:read_entry_point", "app/src/parser_impl_transactionV1.c:_getItemTxV1"]}
{"id": "C44", "title": "TransactionV1 argument values are shown from the signed argument list", "statement": "The argument values shown for a TransactionV1 are those located in the signed arguments field.", "quantifier": "every accepted TransactionV1, every position of the arguments field", "why_tests_cant": "8-bit offset storage only fails beyond position 255", "anchors": ["app/src/parser_impl_transactionV1.c:read_args", "app/src/parser_txdef.h:parser_tx_txnV1_t"]}
{"id": "C45", "title": "Well-formed native TransactionV1 transfers are accepted and shown faithfully", "statement": "For every well-formed TransactionV1 native transfer with arguments amount, target, id whose argument list starts before offset 256, the app accepts it and shows its hash, type, chain, account, target and amount (expert: also timestamp, ttl, pricing, id, source, approvals).", "quantifier": "every initiator, timestamp, ttl, chain name, pricing mode, argument order and values", "why_tests_cant": "infinite family of transactions", "anchors": ["app/src/parser_impl_transactionV1.c"]}
{"id": "C46", "title": "Native entry points are only accepted with a native or session target and with their required arguments", "statement": "An accepted TransactionV1 whose entry point is not custom has a native or session target, and its required arguments are present (amount being a U512 where required).", "quantifier": "every accepted TransactionV1", "why_tests_cant": "universal over inputs", "anchors": ["app/src/parser_impl_transactionV1.c:check_sanity_*", "app/src/parser_impl_transactionV1.c:read_entry_point"]}
{"id": "C47", "title": "The chain name shown is the chain name signed", "statement": "The 'Chain ID' text is the complete chain name contained in the signed header.", "quantifier": "every accepted transaction of both kinds, every chain-name length", "why_tests_cant": "8-bit lengths only fail for names of 256 bytes and more", "anchors": ["app/src/parser_impl_transactionV1.c:read_chain_name", "app/src/parser_utils.h:DISPLAY_STRING"]}
{"id": "C48", "title": "Counts shown to the user are the real counts", "statement": "The approvals count and the reservation/delegator list lengths shown equal the counts contained in the transaction.", "quantifier": "every accepted transaction, every count", "why_tests_cant": "8-bit truncation only fails for counts of 256 and more", "anchors": ["app/src/parser_impl_transactionV1.c:parse_approvals", "app/src/parser_impl_transactionV1.c:parser_getItem_txV1_AddReservations"]}
{"id": "C49", "title": "Parsing effort is proportional to the input", "statement": "An accepted transaction cannot claim more arguments than its bytes can hold; parsing work is bounded by the input size.", "quantifier": "every byte string", "why_tests_cant": "non-termination-like behaviour appears only for crafted wrap-around lengths", "anchors": ["app/src/runtime_arg.c:parseRuntimeArgs", "app/src/parser_impl_transactionV1.c:read_args"]}
{"id": "C50", "title": "Different contract addresses are shown differently", "statement": "The text shown for a stored-by-hash contract address determines the 32-byte address.", "quantifier": "every pair of addresses", "why_tests_cant": "ambiguity of an encoding is a statement about pairs", "anchors": ["app/src/parser_utils.c:parser_printByHashAddress", "app/src/parser_impl_transactionV1.c"]}
{"id": "C51", "title": "Error reports always have a text", "statement": "Every error code that parsing or validation can return, including combined codes, is mapped to a non-empty text that fits the answer buffer, and 'No error' is used only for success.", "quantifier": "every error code", "why_tests_cant": "combined (bitwise-or) codes are not in the table of codes", "anchors": ["app/src/parser_utils.c:parser_getErrorDescription", "app/src/apdu_handler.c:handleSign"]}
{"id": "C52", "title": "Payment amount of a classic-pricing TransactionV1 is shown exactly", "statement": "The 'Payment' value shown for classic pricing is the exact 64-bit payment amount in decimal with thousand separators.", "quantifier": "every 64-bit payment amount", "why_tests_cant": "2^64 values; fails only above 10^19 where the scratch buffer is too small", "anchors": ["app/src/parser_impl_transactionV1.c:parser_getItem_pricing_mode"]}
{"id": "C53", "title": "Well-formed TransactionV1 contract calls are accepted and shown faithfully", "statement": "For every well-formed TransactionV1 calling a custom entry point of a stored contract or package (by hash or by name) or of session code, whose argument list starts before offset 256, the app accepts it and shows hash, type, chain, account, how the contract is found, its address or name, (expert: its version,) the entry point and the hash of the serialized arguments.", "quantifier": "every initiator, timestamp, ttl, chain name, pricing mode, target, entry point name, argument list, both display modes, every chunking", "why_tests_cant": "universal over transactions; snapshot tests cover a handful", "anchors": ["app/src/parser_impl_transactionV1.c:parser_getItem_txV1_Custom", "app/src/parser_impl_transactionV1.c:read_target"]}
{"id": "C54", "title": "Every accepted TransactionV1 contract call shows a hash of its arguments", "statement": "The review of a TransactionV1 contract call always contains an 'Args hash' line showing the BLAKE2b hash of the complete serialized arguments.", "quantifier": "every well-formed contract call, both display modes", "why_tests_cant": "fails only in expert mode for packages without a version, a combination no snapshot covers", "anchors": ["app/src/parser_impl_transactionV1.c:parser_getItem_txV1_Custom", "app/src/parser_impl_transactionV1.c:read_target"]}
{"id": "C55", "title": "Well-formed reservations and cancellations of version 1 are accepted, shown and signed", "statement": "For every well-formed native add-reservations or cancel-reservations transaction, any chunked upload is acknowledged and opens a review with exactly the header lines, (the validator,) the length of the list (modulo 256) and the BLAKE2b hash of the whole serialized list; approving it signs the payload's hash.", "quantifier": "every key, timestamp, ttl, chain name, pricing mode, list of reservations or delegators, approvals, chunking, both display modes", "why_tests_cant": "an infinite family of transactions; the tests contain one of each kind", "anchors": ["app/src/parser_impl_transactionV1.c:parser_getItem_txV1_AddReservations", "app/src/parser_impl_transactionV1.c:parser_getItem_txV1_CancelReservations"]}
{"id": "C56", "title": "The header of an accepted Deploy is a complete header", "statement": "The bytes hashed as the header of an accepted Deploy are the serialization of a header: key, timestamp, ttl, gas price, body hash, as many 32-byte dependencies as counted, and the chain name; and its body hash is the hash of the body.", "quantifier": "every accepted byte string", "why_tests_cant": "acceptance is a predicate over all inputs; the exceptions are counts that wrap 16-bit arithmetic", "anchors": ["app/src/parser_impl_deploy.c:header_length_deploy", "app/src/parser_impl_deploy.c:index_headerpart_deploy", "app/src/parser_impl_deploy.c:parser_read_deploy"]}
{"id": "C57", "title": "An accepted Deploy is a serialized Deploy", "statement": "Data the app accepts as a Deploy are the Casper serialization of a Deploy: header, its hash, payment, session (a serialized item with a list of named, typed arguments), and only then approvals; so what is signed means to the network what it meant to the app.", "quantifier": "every accepted byte string", "why_tests_cant": "the claim is about every byte string that passes validation; the exceptions are specially built type descriptors and lengths", "anchors": ["app/src/parser_impl_deploy.c:parser_read_deploy", "app/src/parser_utils.c:parse_runtime_args", "app/src/parser_utils.c:get_type", "app/src/parser_utils.c:searchRuntimeArgs"]}
{"id": "C58", "title": "Lines about named arguments show the arguments the network uses", "statement": "In the review of an accepted Deploy, a line Target, Amount, From, ID, Delegator, Validator, Old or New shows the value of the session's argument of that name (the first one, which is the one the network hands to the contract), whatever the other arguments, their order and their number.", "quantifier": "every accepted Deploy, both modes, every line of its review", "why_tests_cant": "the claim ranges over all lists of arguments, including those made to mislead the app's search; the review looks arguments up again with numbers and offsets remembered from parsing", "anchors": ["app/src/parser_impl_deploy.c:parser_getItem_RuntimeArgs", "app/src/parser_impl_deploy.c:_getItemDeploy", "app/src/parser_utils.c:parser_runtimeargs_getData", "app/src/parser_utils.c:searchRuntimeArgs"]}
{"id": "C59", "title": "The review of a call says which contract is called", "statement": "In the review of an accepted Deploy that calls a stored contract, the lines Execution, Address, Name, Version, Entry-point and Cntrct hash show what the session calls, and the review has the lines that identify the contract.", "quantifier": "every accepted Deploy, both modes, every line of its review", "why_tests_cant": "the entry point is shown from an offset remembered in a global variable, and which lines there are depends on three counters set while parsing; the claim is about all addresses, names, versions and arguments", "anchors": ["app/src/parser_special.c:render_fixed_delegation_items", "app/src/parser_special.c:parser_getItem_Delegation", "app/src/parser_special.c:parseDelegation", "app/src/parser_impl_deploy.c:check_entrypoint", "app/src/parser_impl_deploy.c:_getItemDeploy"]}
{"id": "C60", "title": "Signing and key extraction leave no key behind and answer only the result", "statement": "After signing or extracting a public key, wherever it stopped, the derived seed and the private key are overwritten with zeros; what is answered is exactly the signature (r, s, v, DER) or the compressed public key for the path, and if any step failed it is no data at all and an error status.", "quantifier": "all results of the calls into the cryptographic library, including failing ones that leave arbitrary contents; all contents of memory before; all paths and digests", "why_tests_cant": "the calls into the library are mocked in the unit tests of the repository and never fail; the claim is about every failing step and every content of the buffers", "anchors": ["app/src/crypto.c:crypto_sign", "app/src/crypto.c:crypto_extractPublicKey", "app/src/crypto.c:crypto_fillAddress", "app/src/common/actions.h:app_sign"]}
{"id": "C61", "title": "The review of code to be run says which code and with which arguments", "statement": "When a version 1 transaction runs session code (Wasm sent with it), its review contains something by which the user can recognise the code and its arguments: the values or a hash of each.", "quantifier": "all codes, arguments, modes and devices; all accepted version 1 transactions for the positive part", "why_tests_cant": "the claim is about the absence of lines in every review of a whole class of transactions, and about pairs of transactions", "anchors": ["app/src/parser_impl_transactionV1.c:read_entry_point", "app/src/parser_impl_transactionV1.c:_getItemTxV1", "app/src/parser_impl_transactionV1.c:parser_getItemCustom"]}
{"id": "C62", "title": "Header lines show the header that is signed, the account as the device reports it", "statement": "The header lines of a review (chain, account, in expert mode timestamp, time to live, gas price, number of dependencies) show the header that is signed, and the account line is the text the device reports as address of that key.", "quantifier": "every accepted Deploy that starts with a header, every serialized version 1 transaction, both modes, any order and number of requests", "why_tests_cant": "the claim is about all headers and relates two different commands (signing and address)", "anchors": ["app/src/parser_impl_deploy.c:_getItemDeploy", "app/src/parser_impl_deploy.c:index_headerpart_deploy", "app/src/parser_impl_transactionV1.c:_getItemTxV1", "app/src/parser_utils.c:parser_printAddress", "app/src/parser_utils.c:parser_printBytes", "app/src/crypto.c:encode_addr"]}
{"id": "C63", "title": "What follows the signed part of a Deploy has no influence on its review", "statement": "The review of a Deploy is a function of the part its hash commits to (header, hash, payment, session): approvals and any other bytes behind the session change neither whether it is accepted nor any line shown nor what is signed.", "quantifier": "every Deploy, every continuation behind the session, both modes, any chunking and history", "why_tests_cant": "the claim compares infinitely many continuations of the same signed bytes", "anchors": ["app/src/parser_special.c:parseDelegation", "app/src/parser_impl_deploy.c:parser_read_deploy", "app/src/parser_impl_deploy.c:_getItemDeploy", "app/src/parser_utils.c:parser_printAddress", "app/src/parser.c:parser_display_runtimeArg"]}
{"id": "C64", "title": "What follows a version 1 transaction has no influence on its review", "statement": "Bytes behind the signed part of a version 1 transaction do not change what is shown of the operation; bytes appended to an accepted transaction change neither acceptance nor any line nor what is signed.", "quantifier": "every version 1 transaction, every continuation, both modes, any chunking and history", "why_tests_cant": "the claim compares infinitely many continuations of the same signed bytes", "anchors": ["app/src/parser_impl_transactionV1.c:parser_read_transactionV1", "app/src/parser_impl_transactionV1.c:_getItemTxV1", "app/src/parser_impl_transactionV1.c:read_args", "app/src/runtime_arg.c:searchRuntimeArgs"]}
{"id": "C65", "title": "What was done before has no influence on an upload", "statement": "On an idle device, from the first command of a SIGN upload on, all answers to the host, whether a review appears, its lines and the answer to the user's decision are determined by the events from that command on and the expert setting; nothing left behind by earlier uploads, reviews, addresses or failed commands can show. (Provided no SIGN command arrives while a review is on the screen; a witness shows that without this the signature depends on the history.)", "quantifier": "all pairs of histories, all later event sequences without message/WASM commands and without SIGN commands during a review, both modes", "why_tests_cant": "the parser works on globals that survive between commands; a leftover only shows for particular pairs of histories, and there are infinitely many", "anchors": ["app/src/common/tx.c:tx_parse", "app/src/parser.c:parser_parse", "app/src/parser_utils.c:parser_init_context", "app/src/apdu_handler.c:process_chunk", "app/src/apdu_handler.c:handleSign"]}
{"id": "C66", "title": "The line \"Txn hash\" names one transaction", "statement": "If two reviews of SIGN uploads show the same \"Txn hash\" line then what is signed on approval is the same digest, and the signed parts of the two uploads (header and body of a Deploy; payload of a version 1 transaction) are the same, or two different byte strings with the same BLAKE2b hash are among them. In particular no Deploy and no version 1 transaction share a line. (One further escape remains for Deploys with an absurd dependency count: a body whose hash contains the body's own first bytes behind the end of the header's hash.) The same for \"Msg hash\" and messages.", "quantifier": "All platforms (hash and signature functions arbitrary), all pairs of device states with their buffers in bounds, any modes and derivation paths, all LAST chunks that open a review; no condition on what was uploaded.", "why_tests_cant": "A test compares a few pairs of transactions. The claim is about all pairs of byte strings the device can accept, including malformed ones, and depends on the parser never letting the displayed hash commit to less than what the user is shown; wrap-around of 16-bit header offsets and cross-format confusion (a payload that is also a header) are invisible to samples.", "anchors": ["app/src/parser_impl_deploy.c:header_length_deploy", "app/src/parser_impl_deploy.c:_validateTxDeploy", "app/src/parser_impl_transactionV1.c:_validateTxV1", "app/src/parser_impl_transactionV1.c:parser_read_transactionV1", "app/src/crypto.c:crypto_sign", "app/src/parser_message.c:parser_getMessageItem"]}
{"id": "C67", "title": "Expert mode only adds lines", "statement": "Whatever transaction a device in expert mode reviews is also reviewed in normal mode; each line with content that normal mode shows is shown in expert mode too, with the same text and in the same order; and approving signs the same digest in both modes.", "quantifier": "All platforms, all pairs of device states with their buffers in bounds (one in expert, one in normal mode), all LAST chunks that open a review in expert mode, any derivation paths, all ways to split the same data into chunks for the other device; no condition on the data for Deploys.", "why_tests_cant": "A test vector lists the expected lines of one transaction in each mode; the relation between the two lists is never checked, and must hold for all byte strings the device accepts, where the two modes use different index arithmetic (offsets modulo 256), different item counts, and different branches of every display function.", "anchors": ["app/src/parser_impl_deploy.c:_getItemDeploy", "app/src/parser_impl_deploy.c:_getNumItemsDeploy", "app/src/parser_impl_transactionV1.c:_getItemTxV1", "app/src/parser_impl_transactionV1.c:_getNumItemsTxV1", "app/src/parser_special.c:parser_getItem_NativeTransfer", "app/src/parser_special.c:parseDelegation"]}
{"id": "C68", "title": "The Type line names what is done", "statement": "The line \"Type\" of a review is right. For Deploys: it says \"Token transfer\" for native transfers and for nothing else; if it says \"Delegate\", \"Undelegate\" or \"Redelegate\" then the session calls the entry point of that name of a stored contract; and it says \"Contract execution\" for no transfer. For version 1 transactions it is the title of the entry point.", "quantifier": "All platforms, all device states with buffers in bounds, all LAST chunks that open a review, all Deploy sessions and all version 1 transactions.", "why_tests_cant": "Tests compare the Type line of some fixed transactions. That no other transaction gets the title of a transfer or a delegation is a statement about all byte strings the device accepts, for which the parser compares names through C strings, searches argument lists, and keeps a mutable special-type flag.", "anchors": ["app/src/parser_impl_deploy.c:check_entrypoint", "app/src/parser_special.c:parseDelegation", "app/src/parser_impl_deploy.c:_getItemDeploy", "app/src/parser_impl_transactionV1.c:_getItemTxV1"]}
{"id": "C69", "title": "Nothing is signed that is to be executed later", "statement": "If the data of an upload are a serialized version 1 transaction, with any scheduling (standard, from a future era, from a future time) and anything behind it, then a review opens only for the standard scheduling. No line of the review shows a scheduling, so with any other the reader would not see when the transaction takes effect.", "quantifier": "All platforms, all device states with buffers in bounds, all LAST chunks that open a review, all transactions, all schedulings, all approvals, all trailing data.", "why_tests_cant": "The test vectors only have standard scheduling; a test with a future era can only show that one encoding of one transaction is refused.", "anchors": ["app/src/parser_impl_transactionV1.c:read_scheduling", "app/src/parser_impl_transactionV1.c:read_txV1_body_fields"]}
{"id": "C70", "title": "What is shown besides the hash determines what is done", "statement": "If two reviews in the same mode show the same lines, the hash line left aside, then the two transactions do the same as far as lines are shown: for transfers, delegations, contract calls (Deploys) and native operations (version 1) the kind of transaction, account, chain, fee, recipients, validators and amounts are equal; in expert mode also prices, times (in seconds), the contract, its version and the entry point; and the lists of arguments of contract calls are equal or a BLAKE2b collision is exhibited. The reader need not compare hashes to tell two such transactions apart.", "quantifier": "All platforms, all pairs of device states with buffers in bounds and equal mode, all pairs of well-formed Deploys and version 1 native operations, all approvals, all ways to cut the uploads into chunks.", "why_tests_cant": "A statement about all pairs of transactions: that no two different amounts, keys, names or durations ever give the same text, at any position of the review. Tests compare single reviews with expected texts.", "anchors": ["app/src/parser_special.c:parser_getItem_NativeTransfer", "app/src/parser_special.c:parser_getItem_Delegation", "app/src/parser_impl_deploy.c:_getItemDeploy", "app/src/parser_impl_transactionV1.c:_getItemTxV1"]}
{"id": "C71", "title": "The hash shown and signed determines the whole transaction", "statement": "Take two serialized transactions, of either format, each uploaded to a device in any state, with any approvals and anything behind them. If the hash lines of the two reviews are the same, or if approving them signs the same digest, then the two transactions are equal in every field (account, times, prices, chain, payment, session or target, entry point, every argument with its name, type and value), or a collision of BLAKE2b (of SHA-256) among the hashed byte strings is exhibited.", "quantifier": "All platforms, all pairs of device states with buffers in bounds and any modes, all pairs of Deploys and version 1 transactions whose parts fit their fields, all approvals, all trailing data.", "why_tests_cant": "A statement about all pairs of transactions, and about uniqueness of the serialization at any depth of type descriptors; tests check single hashes.", "anchors": ["app/src/parser_impl_deploy.c:_validateTxDeploy", "app/src/parser_impl_transactionV1.c:_validateTxV1", "app/src/crypto.c:crypto_sign", "app/src/parser_impl_deploy.c:_getItemDeploy", "app/src/parser_impl_transactionV1.c:_getItemTxV1"]}
{"id": "C72", "title": "Itemised reviews leave no argument out", "statement": "If the review of a Deploy lists the arguments of its session one by one (there is a line Target, Amount, Delegator, ...), then the session has no argument besides those that are listed: for a transfer, exactly amount, target, id and perhaps source, each once and with an admissible type. A further argument, which the network would pass on to the code that runs, is never left out silently.", "quantifier": "All device states with buffers in bounds, all final chunks, all uploaded data, every line of the review, both modes.", "why_tests_cant": "A statement about every list of arguments, of any length and order, with any names and types; tests check that listed arguments are shown, not that there are no others.", "anchors": ["app/src/parser_special.c:checkNativeTransferArgs", "app/src/parser_special.c:parseNativeTransfer", "app/src/parser_special.c:parser_getItem_NativeTransfer", "app/src/parser_special.c:checkForDelegationItems", "app/src/parser_special.c:parser_getItem_Delegation"]}
{"id": "C73", "title": "What is of an unknown kind is refused", "statement": "A transaction of which some part is of a kind the app does not know never leads to a review. For version 1: initiator, the algorithm of its key, pricing, arguments, target, the way a stored contract is addressed, the virtual machine, the entry point and the scheduling, and options and flags of the target that are neither 0 nor 1; for Deploys: payment and session. So a transaction written for a later version of Casper is never shown as if it were one of the known kinds.", "quantifier": "All device states with buffers in bounds, all final chunks; all transactions whose other parts are of known kinds; every number beyond the known kinds, whatever stands in the other fields of the part, all approvals and data behind.", "why_tests_cant": "Tests contain the kinds of today; the claim is about all numbers beyond them, in every part, behind every combination of the parts before it.", "anchors": ["app/src/parser_impl_transactionV1.c:read_initiator_address", "app/src/parser_impl_transactionV1.c:read_pricing_mode", "app/src/parser_impl_transactionV1.c:read_args", "app/src/parser_impl_transactionV1.c:read_target", "app/src/parser_impl_transactionV1.c:read_entry_point", "app/src/parser_impl_transactionV1.c:read_scheduling", "app/src/parser_primitives.c:read_runtime", "app/src/parser_impl_deploy.c:parser_read_deploy", "app/src/parser_impl_deploy.c:parseDeployItem"]}
{"id": "C74", "title": "Delegations made by running code are shown as delegations", "statement": "A Deploy that runs code with an argument `auction` naming a staking operation (delegate, undelegate, redelegate) and the arguments of that operation is accepted and shown as the operation: its name, the delegator, the validator or validators and the amount; in expert mode also that code is run and the hash of it. Approving signs the Deploy.", "quantifier": "All platforms and device states with buffers in bounds, all chunkings; all Deploys in the usual form, all codes, all orders of the arguments, all other arguments, all keys and amounts.", "why_tests_cant": "Tests contain a few recorded Deploys of this form with one order of arguments; the claim is about every order, every further argument and every value, through the whole path from upload to signature.", "anchors": ["app/src/parser_special.c:parseDelegation", "app/src/parser_special.c:checkForDelegationItems", "app/src/parser_special.c:parser_getItem_Delegation", "app/src/parser_special.c:render_fixed_delegation_items"]}
{"id": "C75", "title": "Deploys that run code are accepted and shown with the hash of the code and of its arguments", "statement": "A well-formed Deploy that runs code, without an argument `auction`, is accepted in both modes and shown as a contract execution with the hash of the code, the amount if there is an argument of this name, and a hash of the complete list of arguments. Approving signs the Deploy.", "quantifier": "All platforms and device states with buffers in bounds, all chunkings; all Deploys in the usual form, all codes, all arguments, all well-formed approvals.", "why_tests_cant": "The session parser leaves its cursor behind the arguments and then reads the number of approvals as the length of a text and the approvals as that text; whether this goes well depends on what comes after the session. The line with the hash of the code copies the code into an array of 32 bytes. No finite set of recorded Deploys covers the lengths.", "anchors": ["app/src/parser_special.c:parseDelegation", "app/src/parser_special.c:checkForDelegationItems", "app/src/parser_special.c:render_fixed_delegation_items", "app/src/parser_special.c:showRuntimeArgsHash"]}
{"id": "C76", "title": "No sequence of commands and decisions makes the device fail", "statement": "Whatever commands are sent to the device and whatever the user decides, the code never runs into undefined behaviour (reads or writes outside an array, use of an object of the wrong type). In particular approving what is on the screen never does.", "quantifier": "All platforms, all device states or all histories from power on, all commands and decisions.", "why_tests_cant": "State that survives from one command to the next (the kind of the last transaction data, the offsets found in it, the registered review) decides what an approval reads. The number of histories is unbounded, and the dangerous ones combine a refused upload with a later, unrelated review.", "anchors": ["app/src/apdu_handler.c:handleApdu", "app/src/apdu_handler.c:handleSignMessage", "app/src/common/actions.h:app_sign", "app/src/crypto.c:crypto_sign", "app/src/parser_message.c:parser_parse_message"]}
{"id": "C77", "title": "A signature on a message is not a signature on a transaction", "statement": "What approving a message signs is never what approving a transaction signs, unless the hash of the transaction begins with the 16 bytes `Casper Message:` and a line feed.", "quantifier": "All platforms, all histories, all messages, all accepted transactions.", "why_tests_cant": "Both are signed as SHA-256 of some bytes with the same key, so the separation rests on which bytes are taken, which depends on state left behind by earlier, possibly refused, uploads.", "anchors": ["app/src/parser_message.c:parser_parse_message", "app/src/common/actions.h:app_sign", "app/src/crypto.c:crypto_sign", "app/src/parser.c:parser_parse"]}
{"id": "C78", "title": "An incomplete transaction is refused", "statement": "If the upload ends before the transaction does, no review opens: data that are a proper beginning of a serialized transaction are refused.", "quantifier": "All platforms, all device states, all well-formed Deploys and version 1 transactions, all places where they are cut off, all ways of splitting the upload.", "why_tests_cant": "There are as many cut-off places as bytes, for every transaction. The parser checks lengths piecewise, some reads skip bytes without checking that they are there, and the approvals of a Deploy are not read at all.", "anchors": ["app/src/parser_impl_transactionV1.c:parser_read_transactionV1", "app/src/parser_primitives.c:read_signature", "app/src/parser_primitives.c:read_public_key", "app/src/parser_impl_deploy.c:parser_read_deploy", "app/src/parser_impl_deploy.c:_validateTxDeploy"]}
{"id": "C79", "title": "Labels are the app's own, and texts are readable", "statement": "On every screen of a review the label is one of a fixed list of labels of the app, never a text chosen by the sender, and the text below it consists of printable characters.", "quantifier": "All platforms whose own formatting functions produce printable characters, all device states, all reviews (transactions, messages, WASM, addresses), all lines.", "why_tests_cant": "A line break or control character inside a value can imitate further lines; a label taken from the data could name a value something it is not. Every line of every kind of review and every possible byte in the data matters, and also states left by earlier uploads.", "anchors": ["app/src/parser_impl_deploy.c:_getItemDeploy", "app/src/parser_impl_transactionV1.c:_getItemTxV1", "app/src/parser_special.c:parser_getItem_Delegation", "app/src/parser.c:parser_display_runtimeArg", "app/src/parser_utils.h:DISPLAY_STRING"]}
{"id": "C80", "title": "Every line of a review has a text, and turning the pages shows all of it", "statement": "In the review of an accepted transaction, message, header or address every line has a non-empty text; however narrow the screen, the pages counted in one byte show the whole text; labels and the texts that are not divided into pages are short enough for one screen.", "quantifier": "All platforms whose own formatting functions produce texts of up to 399 characters, all device states and uploads that lead to a review, all lines, all screen widths from 2 characters on.", "why_tests_cant": "A line with an empty text has zero pages and is not shown, so a review may silently lack a line; a text of too many pages would be cut by the one-byte counter. Only a bound over all values of all types on all lines excludes this.", "anchors": ["app/src/parser_utils.c:parser_printBytes", "app/src/parser.c:parser_display_runtimeArg", "app/src/parser_impl_deploy.c:_getItemDeploy", "app/src/parser_impl_transactionV1.c:_getItemTxV1", "app/src/parser_impl_transactionV1.c:entry_point_to_str"]}
{"id": "C81", "title": "Raw WASM deploys of any size can be reviewed and signed", "statement": "Uploading a well-formed deploy that runs code with the raw WASM command opens a review of its deploy hash and body hash, however much of the code, of its arguments and of the approvals the device can keep.", "quantifier": "All deploys with a standard payment, all codes, all lists of arguments with supported types, all divisions into chunks, all buffer sizes that hold the header and the payment, all device states after Deploy data.", "why_tests_cant": "Whether a deploy is accepted depends on the place at which the buffer happens to end, within code, an argument's name, value or type, or the approvals; there are as many cases as bytes in a deploy.", "anchors": ["app/src/parser_wasm.c:readHeader", "app/src/parser_special.c:parseDelegation", "app/src/runtime_arg.c:searchRuntimeArgs", "app/src/parser.c:parser_runtimeargs_getData", "app/src/parser_utils.c:parse_item"]}
{"id": "C82", "title": "Accepted version 1 data are a serialized version 1 transaction", "statement": "If the device accepts a version 1 transaction for review, the data are a serialized version 1 transaction: hash, payload, approvals, each where the table says; the payload consists of a complete initiator, timestamp, time to live, chain name, pricing mode and body; the body of complete arguments, target, entry point and scheduling; nothing that is signed is outside of these.", "quantifier": "All uploads, all accepted data up to the buffer size, all payloads, targets, entry points, pricing modes, argument lists, both modes.", "why_tests_cant": "Tests upload well-formed transactions and a few broken ones; they cannot show that no other byte sequence is accepted.", "anchors": ["app/src/parser_impl_transactionV1.c:parser_read_transactionV1", "app/src/parser_impl_transactionV1.c:read_txV1_payload", "app/src/parser_impl_transactionV1.c:read_target", "app/src/parser_impl_transactionV1.c:read_entry_point", "app/src/parser_impl_transactionV1.c:read_scheduling", "app/src/parser_primitives.c:read_metadata"]}
{"id": "C83", "title": "The review of a version 1 transaction is that of what its payload says", "statement": "If the device accepts a version 1 transaction, the signed payload says who initiates what on which chain, when, at which price, with which arguments; and the review consists of exactly the lines for this content. Numbers that only describe the layout of the bytes (offsets, sizes, field counts, lengths) do not change a line.", "quantifier": "All accepted data (not only those Casper would write), all contents, native operations with any arguments, contract calls, both modes, all numbers of approvals.", "why_tests_cant": "Tests review transactions serialized by one tool; data with other tables, counts or lengths, which the app also accepts, are not among them, and there are too many of them.", "anchors": ["app/src/parser_impl_transactionV1.c:parser_read_transactionV1", "app/src/parser_impl_transactionV1.c:_getItemTxV1", "app/src/parser_impl_transactionV1.c:parser_getItem_txV1_Custom", "app/src/parser_impl_transactionV1.c:read_txV1_payload", "app/src/parser_primitives.c:read_metadata"]}
{"id": "C84", "title": "Whether version 1 data are accepted depends on what they say, not on their layout", "statement": "Version 1 data that say an operation, a call or a program the device can show are accepted if and only if the required arguments are there and the header can be shown (chain name of at most 99 bytes; in expert mode a timestamp that can be written as a date and a time to live of less than 29 days). Then the review is that of the content, and approving signs the hash of the payload. Two byte sequences with the same content are both accepted or both refused.", "quantifier": "All byte sequences up to the buffer size that say a content, all layouts (offsets, sizes, field counts, further table entries, bytes behind the approvals), all chunkings, native operations, reservations, calls, programs, both modes.", "why_tests_cant": "Tests feed transactions serialized by one tool; an exact description of what is accepted concerns all byte sequences with a given content.", "anchors": ["app/src/parser_impl_transactionV1.c:parser_read_transactionV1", "app/src/parser_impl_transactionV1.c:check_sanity_native_transfer", "app/src/parser.c:parser_validate", "app/src/parser_impl_transactionV1.c:_getItemTxV1", "app/src/parser_primitives.c:read_metadata"]}
{"id": "C85", "title": "Whether a Deploy is accepted depends on what it says, not on what follows it", "statement": "A well-formed Deploy whose session is one the device can show is accepted if and only if its header can be shown (chain name of at most 99 bytes; in expert mode a timestamp that can be written as a date, a time to live of less than 29 days, and at least the four bytes of the number of approvals) and its payment pays an amount. Then the review is that of the Deploy, and approving signs its hash. In normal mode, what stands behind the signed part has no influence on anything.", "quantifier": "All Deploys with transfer, delegation, redelegation, stored-contract call or other listed sessions, all bytes behind them, all chunkings, both modes, all devices.", "why_tests_cant": "Tests feed Deploys serialized by one tool with valid approvals; the exact condition concerns all contents, and all bytes behind them.", "anchors": ["app/src/parser_impl_deploy.c:parser_read_deploy", "app/src/parser.c:parser_validate", "app/src/parser_special.c:parseTransfer", "app/src/parser_special.c:parseDelegation", "app/src/parser_impl_deploy.c:_getItemDeploy"]}
{"id": "C86", "title": "The hash of the arguments shown for a contract execution is that of all its arguments", "statement": "In the review of an accepted Deploy that calls a stored contract or runs code, every line 'Args hash' shows the BLAKE2b hash of the complete serialized list of the session's arguments, so that a user who recomputes it from the arguments they expect is protected against any other arguments.", "quantifier": "All accepted Deploys other than native transfers, all lists of arguments, both modes, all histories leading to the review.", "why_tests_cant": "Tests compare the hash for a few recorded Deploys; that no accepted arguments lead to another range of bytes being hashed concerns all argument lists.", "anchors": ["app/src/parser_special.c:parser_getItem_Delegation", "app/src/parser_special.c:parseDelegation", "app/src/runtime_arg.c:showRuntimeArgsHash"]}
{"id": "C87", "title": "Only code is reviewed by hashes alone", "statement": "A Deploy that does something the app can itemise - a native transfer, a call of a stored contract - is signed only after a review of what it does. The review of raw WASM, which consists of the deploy hash and the body hash, is opened only for Deploys whose session is code.", "quantifier": "every Deploy with the usual payment, every session, every way of cutting the upload into chunks, every state of the device after a valid history", "why_tests_cant": "A test that uploads a transfer with the raw WASM command and sees it refused does not exclude that the same Deploy hash can be signed with other data behind the header; the claim is about all data that lead to a signature of that hash.", "anchors": ["app/src/parser_wasm.c:24-95", "app/src/apdu_handler.c:156-228"]}
{"id": "C88", "title": "Lines about the arguments of a native version 1 operation show the arguments the network uses", "statement": "In the review of an accepted native version 1 operation, every line about an argument (Target, Amount, Validator, ...) shows the value of the argument of exactly that name - the first one, which is the one the network uses -, whatever the other arguments, their order and their number.", "quantifier": "every accepted native operation, both modes, every line of the operation", "why_tests_cant": "the claim ranges over all argument lists, including those whose names are made to mislead the app's comparison, which stops at a zero byte", "anchors": ["app/src/parser_impl_transactionV1.c:parser_getItem_txV1_Transfer", "app/src/parser_utils.c:parser_runtimeargs_getData", "app/src/parser_utils.c:searchRuntimeArgs"]}
