# Formal model of the Casper Ledger app (ledger-casper 3.0.2)

## What is here

* `properties.jsonl` – the properties, in terms of API and observable effects.
* `MANIFEST.json` – status of each property and the exact theorem names (generated by `tools/mkmanifest.py` from the
  theorem names in `lean/Verif/Props` and the notes in `tools/notes.json`).
* `AXIOMS.md` – the axioms each theorem depends on (generated by `tools/mkaxioms.sh` from `#print axioms`).
* `lean/` – Lake project (Lean 4.33.0, Mathlib available).
  * `Verif/Model/*` – the code, function by function, every definition citing `/repo` file and lines.
  * `Verif/Spec/*` – specifications that do not use the model: Casper wire format (`Bytesrepr`, `Deploy`, `V1`), texts
    (`Text`, `Value`), the lines a review has to show (`Screens`), a reference BLAKE2b (`Blake2b`).
  * `Verif/Lib/*` – lemmas about the model.
  * `Verif/Props/*` – the property theorems, one file per theme, each theorem followed by a concrete case that meets its
    hypotheses.
* `seeded/LOG.jsonl` – log of deliberately wrong models tried against the theorems.

## Trusted base

1. The Lean 4.33.0 kernel. Axioms: only `propext`, `Classical.choice`, `Quot.sound` (`AXIOMS.md`). No axioms of our own, no
   `sorry`, no `native_decide`, no `bv_decide`. Concrete witnesses are evaluated by the kernel (`decide +kernel`).
2. The hand transcription of C into Lean. C integers are `Nat` with an explicit reduction modulo 2^8, 2^16 or 2^32 at each
   place where C truncates (32-bit `int`/`size_t`, as on the devices); bytes are `UInt8`; texts are lists of bytes.
3. Undefined behaviour is not ignored. A read outside `ctx->buffer[0..bufferLen)`, a write outside a local array, paging an
   unterminated string, and reading a transaction object as the other kind are a distinct outcome `Res.fault`. A command that
   meets it is answered by nothing (`Out.crash`) and leaves the state as it was; the theorems about histories claim nothing of
   what real hardware would do afterwards.
4. External code. The git submodules (zxlib, the Ledger SDK) are empty in the repository, so their functions are parameters
   the theorems quantify over, or are taken by contract:
   * BLAKE2b-256, SHA-256, ECDSA and BIP32 derivation: arbitrary functions (`Platform`, `Hash`); BLAKE2b returns 32 bytes.
     A BLAKE2b-256 written in Lean is used only for concrete witnesses.
   * `buffering_append`: appends the whole chunk if it fits in the capacity, else stores nothing and reports fewer bytes.
     Capacity is a parameter; 16384 (`common/tx.c:30-46`) where a theorem needs a number.
   * `pageString`, `pageStringHex`: page through a NUL-terminated text or the hex digits of a byte string. The
     model has the text that is paged, not how it is cut into pages; that all pages are shown is trusted.  What follows
     for pages of any width is stated in `Spec/Pages` and proved as C80.
   * `snprintf` with `%s`/`%.*s`/`%u`: the C standard's meaning with truncation to the array; `%.*s` reads at most
     min(length, 99) bytes.
   * `uint64_to_str`: decimal digits; what it leaves in an array that is too small is a platform parameter (`overlong`).
     `fpuint64_to_str`: decimal digits.
   * `bignumLittleEndian_to_bcd` and the printing of its digits: the decimal digits of the little-endian value.
   * `printTimeSpecialFormat`, `bip32_to_str`: parameters (`fmtTime`, `pathText`).
   * `view_*`: shows the items through the registered callback, then calls the registered accept function or `app_reject`.
   * `CHECK_APP_CANARY`: no effect. `CHECK_PIN_VALIDATED`: answers 0x6986 unless the PIN is validated.
   * APDU layout (CLA, INS, P1, P2, length, data) and the values of instructions and status words come from zxlib's headers
     as used by the JavaScript tests in `/repo/tests_zemu`.
5. Simplifications:
   * One upload buffer. The C code splits it into RAM and flash; `buffering_append` hides that.
   * Commands and user decisions are interleaved arbitrarily: the model lets commands arrive while a review is shown. The
     firmware's UI loop may refuse some of them; C33 and the `_false` theorems using an interruption say so.
   * `handleSignWasm` shows a progress message every five chunks (`view_message_show`); it has no effect on state and is left
     out.
   * A failing number reader or `read_metadata` stores nothing in the object it reads for; the C macros leave the bytes read so
     far there (`parser_utils.h:87-96`, `parser_primitives.c:36-45`). Only leftovers of a refused upload are concerned: every
     accepted upload starts by zeroing the object, and no theorem says what such leftovers are, except the witnesses
     about interrupted reviews, whose refused uploads fail at places where nothing is left behind.
   * A review is a list of (key, value) pairs; every `getItem` writes `("?", "?")` first, so that is what an item
     shows when its function succeeds without writing.
6. Not modelled: UI drawing and paging, `common/main.c`, `secret.c`, the calls into the SDK and `convertDERtoRSV`
   inside `crypto_sign` and `crypto_extractPublicKey` (arbitrary functions `Sdk` in `Model/Crypto`; the device model takes
   the signature as an arbitrary function of path and digest, C60 says which one), the status word and the zeros left in
   the APDU buffer after an answer, the functions without callers
   `parser_getItem_Transfer`, `parser_getItem_ModuleBytes`, `parser_getItemDeploy`, and the stub `crypto_extractPublicKey`
   of the test build.

## Which code is modelled where

| model file | source (under `/repo/app/src`) | functions |
|---|---|---|
| `Model/Basic` | `parser_common.h`, `parser_utils.h`, `crypto.c` (limits) | outcomes, error codes, environment (buffer, mode) |
| `Model/Primitives` | `parser_primitives.c`, `parser_utils.c`, `parser_txdef.h` | `_readUIntN`, `readU8/16/32/64`, `parse_item`, `copy_item_into_charbuffer`, `get_type`, `read_string`, `read_bytes`, `read_public_key`, `read_entity_version` and the other readers |
| `Model/Format` | `parser.c`, `parser_utils.c`, `crypto.c` | `add_thousand_separators`, TTL text, checksummed hex (`encode_addr`, `encode_hex`, `get_next_hash_bit`), amounts, `parser_printBytes`, `parser_display_runtimeArg*` |
| `Model/RuntimeArgs` | `runtime_arg.c`, `parser_special.c`, `parser.c` | `searchRuntimeArgs`, `parser_runtimeargs_getData`, `parseRuntimeArgs`, the per-value display |
| `Model/Deploy` | `parser_impl_deploy.c`, `parser_special.c` | `parser_read_deploy`, headers, `parse_*` of every executable item, special transfers / delegations / system payments, `_validateTxDeploy`, `_getNumItemsDeploy`, every `parser_getItem_*` with a caller |
| `Model/TxV1` | `parser_impl_transactionV1.c` | `parser_read_transactionV1` and every reader under it, `_validateTxV1`, item counts, every `parser_getItem*` |
| `Model/MessageWasm` | `parser_message.c`, `parser_wasm.c` | message and raw-WASM parsing, item counts and items |
| `Model/Crypto` | `crypto.c` | `crypto_sign` behind the digest, `crypto_extractPublicKey`: derivation, the order of the calls, wiping |
| `Model/Device` | `apdu_handler.c`, `common/tx.c`, `common/actions.h`, `parser.c`, `addr.c`, `crypto.c` | APDU dispatch, upload sessions, paths, `parser_parse`, `parser_validate`, `parser_getNumItems`, `parser_getItem`, `crypto_sign` up to the digest, address answers, user decisions |

The model was compared by hand with the repository's own data: all 24 transaction blobs in `/repo/tests` and
`/repo/tests_zemu` parse and validate in the model and the lines it shows are those in the snapshots under
`/repo/tests_zemu/snapshots/st-*`. (This is a test of the transcription, not a proof.)

## Model shape

`Res σ α = ok a s | err code s | fault f` and `M σ α = σ → Res σ α`: errors keep the state reached, because the code
continues after some errors (ignored search errors) and because the global parser state survives a refused command.
`P = M Nat` is a parser over the cursor (`ctx->offset`), with buffer and mode in an environment `Env`. The device is a
transition system over APDUs and user decisions (`step`, `run`, `Model/Device.lean`).

## Proof methods

* *Forward execution* (`Lib/V1Fwd`, `Lib/DeployFwd`, `Lib/Args`, `Lib/V1Show`): run the model on the serialization of an
  arbitrary specification value, one lemma per reader, to get the exact outcome.
* *Inversion* (`Lib/Post`, `Lib/V1`, `Lib/Safe`): from "this run succeeded" to what the bytes must be; `FaultPost` does the
  same for undefined behaviour.
* *Structural walks* (`Lib/Walk` and the predicates `NZ`, `NF`, `Steady`, `Back`, `Bd`, `Up`, `Lim`, `KC`, ...): a property
  closed under sequencing and branching, shown of every function of the model by a tactic that follows its syntax.
* *Two runs compared*: `Grows` (`Lib/Grow`, `Lib/GrowDeploy`) relates a run on some data to the run on the same data with more
  bytes behind; `Agree`/`Alike` (`Props/History`) relates two devices with different pasts.
* *Invariants over histories* (`Lib/Device*`, `Props/Session`, `Props/Keys`, ...): induction on the list of events.
* *Witnesses*: when a property is false of the code, the negation is proved (`..._false`), by a concrete history evaluated by
  the kernel or by a family derived from forward execution; the true restriction is `..._partial`.

## Properties: what is modelled and how it is proved

| id | title | status | modelled part | proof |
|----|-------|--------|---------------|-------|
| C01 | Fixed-width integers are read little-endian, in bounds, and consume exactly their width | proved | `readLE` | equations, all buffers; spec: `Nat.ofDigits` |
| C02 | Length-prefixed items never move the cursor outside the data or backwards | partial | `parseItem`, `readString`, `readBytes` | witness; inversion |
| C03 | Type descriptors are consumed to exactly the extent Casper's serialization defines | partial | `getType` | induction on CLTypes; witness |
| C04 | Type descriptor parsing terminates with bounded recursion and never reports success for a failed component | proved | `getType` | recursion budget; case analysis |
| C05 | Argument lookup by name returns the first argument with exactly that name | partial | `searchArgs`, `getData` | induction on the argument list; witness |
| C06 | Walking the argument list consumes exactly the serialized list | proved | `parseArgs` | induction on the argument list |
| C07 | Transactions are recognised by their first byte; empty and unknown inputs are refused | proved | `parserParse`, `handleSign` | case analysis |
| C08 | Deploy header extent equals the serialized header length | proved | `readDeployHeader`, `headerLength` | forward execution |
| C09 | An accepted Deploy has consistent hashes | proved | `readDeploy`, `validateDeploy` | inversion; forward execution |
| C10 | A Deploy with a wrong hash is never accepted | proved | as C09, and the upload commands | forward execution |
| C11 | An accepted Deploy pays with exactly one U512 'amount' argument, shown as the Fee | partial | payment of a Deploy, Fee line | inversion; witnesses |
| C12 | Every well-formed native-transfer Deploy is accepted and shown faithfully | proved | Deploy end to end | forward execution of parse, validation, every line, upload and approval |
| C13 | Arguments that are not itemised are committed to by the displayed arguments hash (native transfer) | partial | Deploy transfers, Args hash | forward execution; witness |
| C14 | Contract calls are never shown with neither their arguments nor an arguments hash | partial | Deploy contract calls, Args hash | forward execution; family of witnesses |
| C15 | Well-formed delegate/undelegate/redelegate Deploys are accepted and shown faithfully | proved | Deploy delegations | forward execution |
| C16 | Argument values are displayed faithfully and unambiguously | partial | `displayArg` | forward execution; injectivity; witnesses |
| C17 | Amounts are displayed as the exact decimal value in groups of three followed by ' motes' | proved | amount texts | list lemmas, induction on digits |
| C18 | Thousand separators keep every digit in place | partial | `add_thousand_separators` | list lemmas; witness |
| C19 | TTL text denotes the exact duration | proved | `parse_TTL` | arithmetic, independent reader of durations |
| C20 | Checksummed hex keeps the bytes and its letter case is a function of the hash | proved | `encode_addr`/`encode_hex` | list lemmas |
| C21 | The address answer is the public key plus its checksummed text | proved | GET_ADDR | case analysis |
| C22 | What is signed is the hash that was shown (Deploy) | proved | approval of a Deploy | history invariant; inversion |
| C23 | What is signed is the hash that was shown (TransactionV1) | partial | approval of a version 1 transaction | history invariant; inversion; witness |
| C24 | Message signing signs the displayed message | partial | SIGN-MESSAGE | forward execution; history invariant; witnesses |
| C25 | Only messages with the Casper prefix can be signed as messages | proved | SIGN-MESSAGE | case analysis |
| C26 | No signature without an approved review of parsed and validated data | partial | all commands | history invariants; witness |
| C27 | Data chunks are refused outside an upload session | proved | upload commands | history invariant |
| C28 | Chunking is transparent | proved | upload commands | induction on the chunking |
| C29 | Oversized uploads are refused, never truncated | proved | upload commands | induction on the chunking |
| C30 | Completing an upload closes the session | partial | upload commands | case analysis; witness |
| C31 | Signing only ever uses a Casper derivation path | partial | paths in all commands | relational induction on histories; witness |
| C32 | The signing path is the one given at INIT of that upload | partial | paths in all commands | history invariant; witness |
| C33 | Nothing received during a review can change what gets signed | partial | all commands during a review | case analysis; witness |
| C34 | Every command is answered with a well-formed status word | proved | all commands | case analysis; structural walk |
| C35 | A locked device does nothing but report its version | proved | all commands | case analysis |
| C36 | Raw-WASM signing signs the displayed deploy hash of a hash-consistent header | partial | raw WASM upload | inversion; forward execution; history invariant; witnesses |
| C37 | An accepted TransactionV1 has a consistent hash over its whole payload | proved | `readV1`, `validateV1` | inversion |
| C38 | TransactionV1 parsing never touches memory outside the received data | proved | `readV1` | structural walk (no fault) |
| C39 | Deploy parsing and validation never touch memory outside their buffers | partial | `readDeploy`, `validateDeploy` | fault inversion; forward execution; witnesses |
| C40 | Rendering never touches memory outside its buffers | partial | all lines of both kinds | fault inversion; forward execution; witnesses |
| C41 | Rendering is repeatable and order-independent | proved | all lines | structural walk (rendering leaves the state alone) |
| C42 | Every announced item can be shown, none beyond | partial | item counts and lines | inversion; witness |
| C43 | All arguments of a native TransactionV1 operation are shown | partial | version 1 native operations | inversion; witness |
| C44 | TransactionV1 argument values are shown from the signed argument list | partial | version 1 argument lines | inversion; witness |
| C45 | Well-formed native TransactionV1 transfers are accepted and shown faithfully | proved | version 1 native operations, end to end | forward execution |
| C46 | Native entry points are only accepted with a native or session target and with their required arguments | partial | version 1 targets and required arguments | inversion; witness |
| C47 | The chain name shown is the chain name signed | partial | chain name line | inversion; witness |
| C48 | Counts shown to the user are the real counts | partial | approvals, reservations, delegators | inversion, bounds from the data length; witness |
| C49 | Parsing effort is proportional to the input | partial | argument loops | structural walk with counts; induction; witnesses |
| C50 | Different contract addresses are shown differently | partial | version 1 address line | injectivity; witness |
| C51 | Error reports always have a text | proved | error texts, all refusals | case analysis; structural walk |
| C52 | Payment amount of a classic-pricing TransactionV1 is shown exactly | partial | version 1 payment line | list lemmas; witness |
| C53 | Well-formed TransactionV1 contract calls are accepted and shown faithfully | partial | version 1 contract calls, end to end | forward execution |
| C54 | Every accepted TransactionV1 contract call shows a hash of its arguments | partial | version 1 Args hash line | inversion; exact review as witness |
| C55 | Well-formed reservations and cancellations of version 1 are accepted, shown and signed | proved | version 1 reservations and cancellations, end to end | forward execution |
| C56 | The header of an accepted Deploy is a complete header | partial | Deploy header | inversion; witness |
| C57 | An accepted Deploy is a serialized Deploy | partial | Deploy parser from header to arguments | inversion: case analysis of the type reader, induction on the number of arguments, cursor preservation of searches; two witnesses |
| C58 | Lines about named arguments show the arguments the network uses | partial | Deploy parser and renderer | inversion: what the parser found where, for arbitrary lists of arguments; two witnesses |
| C59 | The review of a call says which contract is called | partial | Deploy parser and renderer | inversion: what the parser found where and which counters it set; the two reviews of C15 |
| C60 | Signing and key extraction leave no key behind and answer only the result | proved | `crypto_sign` behind the digest, `crypto_extractPublicKey` | execution of the call sequence, by cases on which call fails |
| C61 | The review of code to be run says which code and with which arguments | partial | V1 parser and renderer, device | forward execution of the parser on serialized transactions; C23 |
| C62 | Header lines show the header that is signed, the account as the device reports it | partial | Deploy and V1 parser and renderer | uniqueness of what lies at the offsets the parser found; C19, C20, C21 |
| C63 | What follows the signed part of a Deploy has no influence on its review | partial | Deploy parser, validation, renderer; device | relation between runs on data and on longer data (Lib/Grow, Lib/GrowItems, Lib/GrowDeploy), lifted through upload and review |
| C64 | What follows a version 1 transaction has no influence on its review | partial | V1 parser, validation, renderer; device | relation between runs on data and on longer data (Lib/Grow, Lib/GrowItems), lifted through upload and review |
| C65 | What was done before has no influence on an upload | proved | the whole device: upload buffer, parser globals, review state, APDU buffer | a relation on pairs of device states (equal uploads, paths, settings, review and review functions; anything else may differ) is established by INIT and kept by every event; parsing starts from overwritten globals, so its verdict and the functions that draw the review are equal |
| C66 | The line "Txn hash" names one transaction | proved | whole device step, both formats, messages | inversion of acceptance (`sign_pending`, `DeployAccepted.split`, `V1Accepted.split`, field count of an accepted payload) and a small argument about hashes |
| C67 | Expert mode only adds lines | partial | whole device step in two modes, both formats | a relation between the two modes' parser states (`Modal`, `Modal1`: same cursor, same result except for item counts), then inversion of the item arithmetic of each operation |
| C68 | The Type line names what is done | partial | whole device step and review | inversion of the session parser (what the special-type flag says about the name of the entry point), and forward execution of the item display |
| C69 | Nothing is signed that is to be executed later | proved | whole device step | forward execution of the parser through a transaction of arbitrary shape up to the scheduling field, where it must stop |
| C70 | What is shown besides the hash determines what is done | partial | whole review of two uploads | injectivity of all texts (amounts, checksummed keys, numbers, durations) on top of the full reviews of C12, C14, C15, C45; concrete pairs of Deploys for the negative parts |
| C71 | The hash shown and signed determines the whole transaction | proved | whole device step, review and signature | inversion of both parsers for what is hashed, and injectivity of the specified serialization by structural induction |
| C72 | Itemised reviews leave no argument out | partial | counting of arguments by name, parsing of transfers, all lines of a review | inversion: a count that reaches the number of arguments has met distinct names, so the list is a permutation of them; a witness for delegations |
| C73 | What is of an unknown kind is refused | proved | the parts of version 1 transactions as bytes; reading of each part | forward execution up to the unknown part, where reading fails; for Deploys inversion of acceptance and uniqueness of serialized items |
| C74 | Delegations made by running code are shown as delegations | partial | the search for the argument `auction`, the lines of delegations; lines stated by labels, key addresses and amounts | forward execution of the parser on the serialized session, then the lines one by one |
| C75 | Deploys that run code are accepted and shown with the hash of the code and of its arguments | partial | the search for the argument `auction` that fails, what is read behind the arguments instead, and the lines of generic sessions; lines stated by labels, hashes of the serialized parts and amounts | forward execution of the parser on the serialized session and the approvals, then the lines one by one; for longer code the line `Cntrct hash` is a fault, and no review opens unless all lines are computed |
| C76 | No sequence of commands and decisions makes the device fail | partial | the whole command loop; failure is a value of its own of the model (`Out.crash`) | a case analysis over commands showing that the other handlers contain no step that can fail; an invariant (nothing but messages has been parsed) for the histories; the counterexample by forward execution of the parser on the 15 bytes and of the message review, for all states |
| C77 | A signature on a message is not a signature on a transaction | partial | uploads of messages and transactions and the bytes handed to SHA-256 at approval; messages and hashes stated as byte lists | C24 for messages and C22, C23 for transactions; the counterexample by forward execution |
| C78 | An incomplete transaction is refused | partial | both parsers and validations on all data that are a beginning of a specified serialization | the parser run on the cut data is compared with the run on the complete data (whatever it reads it reads the same when more follows), whose final cursor is known; the cursor of a successful run exceeds the data by at most 64 |
| C79 | Labels are the app's own, and texts are readable | partial | the functions producing the lines of all reviews; printable is a specification of its own (codes 32 to 126), the labels are listed in Spec/Shown | every formatting function yields printable characters (induction over hexadecimal, grouping of digits, time to live), then a syntax-directed walk through all line functions |
| C80 | Every line of a review has a text, and turning the pages shows all of it | partial | the functions producing the lines of all reviews; pages are specified in Spec/Pages | lengths of all formatted texts by induction, a syntax-directed walk through all line functions, inversion of the parser for the ranges of recorded fields, arithmetic on page counts |
| C81 | Raw WASM deploys of any size can be reviewed and signed | partial | `readHeader` of parser_wasm.c with the module bytes branch of `parseDelegation`, argument search, chunk handling | forward symbolic execution on data that end too early: readers that run into the end of the data, type descriptors by a relation between longer and shorter data |
| C82 | Accepted version 1 data are a serialized version 1 transaction | partial | all readers of parser_impl_transactionV1.c and the table reader of parser_primitives.c | backward analysis of successful reads (`Post`): each reader yields the bytes it consumed and their structure |
| C83 | The review of a version 1 transaction is that of what its payload says | partial | all readers of parser_impl_transactionV1.c, the table reader of parser_primitives.c, the item functions | accepted data are analysed (C82), the parser is executed on data of this form (`readV1_of`) giving positions of everything shown, the item functions are executed on these |
| C84 | Whether version 1 data are accepted depends on what they say, not on their layout | partial | the parser, validation, item functions and upload commands | the parser is executed on data with given content (`readV1_of`); validation and every line of the review are executed on what it remembers; conversely acceptance is taken apart (`upload_iff`) |
| C85 | Whether a Deploy is accepted depends on what it says, not on what follows it | partial | the parser, validation, item functions and upload commands | the parser is executed on the Deploy followed by anything; validation and every line are executed on what it remembers; conversely acceptance is taken apart (`upload_deploy_iff`, `DeployAccepted.presentable`) |
| C86 | The hash of the arguments shown for a contract execution is that of all its arguments | partial | Deploy parser and renderer | inversion as for C58: where the parser found the arguments, then every way a line "Args hash" can arise; one witness |
| C87 | Only code is reviewed by hashes alone | partial | Raw WASM uploads (readWasm, validateWasm, Device.step) against the Deploys of Spec/Deploy. | Family of counterexamples by forward execution of readWasm on unfinished code behind the header of an arbitrary Deploy; the positive part by inversion (readWasm_post) and uniqueness of what stands at an offset. |
| C88 | Lines about the arguments of a native version 1 operation show the arguments the network uses | partial | Version 1 parsing and rendering (TxV1, RuntimeArgs) against the arguments of Spec/Screens. | From the complete review of native operations (C83, C44); the witness is evaluated by the kernel. |

## What the theorems say, and what is missing

* **C01** (proved; `C01_read_little_endian`). All widths n >= 1, all buffers and positions; specification through Mathlib's Nat.ofDigits.
* **C02** (partial; `C02_length_prefix_false`, `C02_length_prefix_partial`, `C02_stays_inside_partial`). False of the code (32-bit wrap of offset+length): C02_length_prefix_false. True for length fields below 2^32-65535; an accepted item always leaves the cursor inside the data.
* **C03** (partial; `C03_accepted_partial`, `C03_type_extent_false`, `C03_type_extent_partial`). False of the code for byte arrays or containers as non-last components: C03_type_extent_false. Exact acceptance and extent for all other types. From arbitrary data: what is accepted is a serialized type consumed exactly, or begins as in BadType (C03_accepted_partial).
* **C04** (proved; `C04_type_parsing_total`, `C04_combined_ok_iff`). Recursion budget 3 never exhausted, nonzero error codes, both components must succeed.
* **C05** (partial; `C05_lookup_false`, `C05_lookup_partial`). False of the code for names containing NUL: C05_lookup_false. True for NUL-free names of at most 300 bytes.
* **C06** (proved; `C06_walk_args`). For supported types inside the scope of C03.
* **C07** (proved; `C07_first_byte`, `C07_refused`). parser_parse case by case on the uploaded bytes, and the answers the host sees.
* **C08** (proved; `C08_header_extent`). For every serialized header (both key kinds, any dependency count, any chain name) within data of up to 65535 bytes: the header is read, and the bytes hashed are exactly its serialization. Headers whose counts are not backed by data are the subject of C56.
* **C09** (proved; `C09_accepted_hashes`, `C09_serialized`). C09_accepted_hashes: every accepted byte string splits into header, hash, payment, session, rest with both hashes correct (body hash by its position behind the key). C09_serialized: for data laid out as a serialized Deploy, hash = BLAKE2b(header) and the header's body hash = BLAKE2b(payment ++ session). For any hash function.
* **C10** (proved; `C10_wrong_hash_refused`). Any serialized Deploy with a wrong deploy hash or body hash: the last chunk never opens a review, and whenever the Deploy parses the reply is the text 'context prefix is invalid' with 0x6984.
* **C11** (partial; `C11_fee_partial`, `C11_name_false`, `C11_fee_false`). All accepted Deploys, both modes: the payment is module bytes with exactly one argument of type U512 whose name up to the first zero byte is "amount", and the Fee line shows the number in its bytes. False as stated: names with a zero byte (C11_name_false) and values whose length byte is wrong (C11_fee_false) are accepted too; without these the full statement is proved.
* **C12** (proved; `C12_transfer`). Any argument order, any key type, any chunking, normal and expert mode: accepted, the review is exactly the specified lines, approval signs SHA-256 of the deploy hash. 'Well-formed' is spelled out by DeploySpec.Usual and the argument hypotheses (names at most 300 bytes etc.).
* **C13** (partial; `C13_first_cut_partial`, `C13_first_partial`, `C13_same_hash_false`). False as stated: the hash shown covers only the argument count and the first argument. C13_first_partial proves exactly what is shown for all such transfers; C13_same_hash_false exhibits two transfers to different targets with identical reviews up to the transaction hash. Which transfers are shown in this way is exact: those with a U512 amount that have neither just the usual arguments nor too few. `C13_first_cut_partial`: the same for any names of arguments, which count up to a zero byte (Props/CutReviews.lean).
* **C14** (partial; `C14_call_cut_partial`, `C14_hidden_cut_false`, `C14_call_partial`, `C14_hidden_false`). False as stated: an 'amount' that is neither U512 nor U32, or a 'delegator' or 'validator' that is no PublicKey, makes every argument line and the hash vanish (C14_hidden_false, a family of Deploys, with an instance shown as 'Delegate' with nothing else). C14_call_partial: with ordinary argument names and types the review shows a hash of the complete argument list. `C14_call_cut_partial`, `C14_hidden_cut_false`: the same for any names of arguments, which count up to a zero byte (Props/CutReviews.lean).
* **C15** (proved; `C15_surplus`, `C15_delegation`, `C15_redelegation`). Stored contracts by hash or by name, with or without version; any argument order; both display modes; `C15_surplus` also with any further arguments behind those needed (which are not shown, see C72).
* **C16** (partial; `C16_text`, `C16_injective_partial`, `C16_key_false`, `C16_uref_false`, `C16_long_false`, `C16_target_false`). Every serialized value of every displayable type (byte strings up to 49 bytes) is shown as specified, and the text determines the value except for the tag of a key and the access rights of a URef. False as stated: C16_key_false, C16_uref_false, C16_long_false (byte strings of 51 to 127 bytes are shown as nothing), C16_target_false (in actual reviews).
* **C17** (proved; `C17_amount_u512`, `C17_amount_int`, `C17_amount_injective`). U512 up to 64 bytes, U32, U64; also injectivity.
* **C18** (partial; `C18_thousand_separators_false`, `C18_thousand_separators_partial`, `C18_digits_kept`). False at function level for tiny output arrays: C18_thousand_separators_false. Otherwise exact.
* **C19** (proved; `C19_ttl`, `C19_ttl_injective`). Every duration; independent reader of duration texts; injectivity.
* **C20** (proved; `C20_checksum_hex`, `C20_checksum_faithful`, `C20_bits_inside`, `C20_hash_hex`). Any hash function; letter case as a function of the hash bits; injectivity; bits inside the hash.
* **C21** (proved; `C21_address`, `C21_screens`). For every 33-byte key the platform returns; immediate and confirmed variants; text specified by casedHex.
* **C22** (proved; `C22_signed_is_shown`). Every pending Deploy review, after any history: item 0 shows the 32 bytes (BLAKE2b of the header) whose SHA-256 is signed on approval; a Deploy review has at least five items, so item 0 exists.
* **C23** (partial; `C23_signed_is_shown_partial`, `C23_nothing_shown_false`). Signed digest = SHA-256 of the hash of the payload, and item 0 shows that hash whenever the review has items. The full claim is false: with 252 arguments the 8-bit item count wraps to 0, nothing can be shown, and approval still signs (C23_nothing_shown_false).
* **C24** (partial; `C24_state_partial`, `C24_history_partial`, `C24_rejected_transaction_false`, `C24_first_bytes_false`). False as stated: tx_content is not reset when a message is parsed. After a rejected version 1 transaction, approving a short message signs the hash of that transaction; after refused data of unknown kind, only the first 32 bytes of the message are signed. Proved: after any history in which all completed SIGN uploads began with the Deploy byte (or none completed), the review shows exactly the message hash and approval signs SHA-256 of exactly the message, for every message and chunking.
* **C25** (proved; `C25_message_prefix`, `C25_refused`). Acceptance of a message requires the 16-byte prefix and printable text; the refusals are exact.
* **C26** (partial; `C26_only_approval_signs`, `C26_no_approval_no_signature`, `C26_one_per_review`, `C26_review_origin`, `C26_review_of_accepted_data`, `C26_wasm_partial`, `C26_wasm_false`). Every history of commands and user actions: a signature is produced only by an approval of a pending review, once per review, and reviews come only from accepted LAST commands, of transactions and messages only for data parsed and validated. False for raw WASM deploys in one respect: tx_bufferFull survives the start of another upload, so that the LAST chunk of a raw WASM upload can open a review of data never parsed (C26_wasm_false). Proved for raw WASM uploads sent without interruption (C26_wasm_partial).
* **C27** (proved; `C27_refused`, `C27_no_init`). All states without an open session, all histories without INIT.
* **C28** (proved; `C28_chunking`). Any two chunkings of the same bytes give the same outcome, for SIGN and SIGN-MESSAGE.
* **C29** (proved; `C29_oversize`). Any upload longer than the buffer is refused at the chunk that does not fit, the session is closed and nothing of it can be signed.
* **C30** (partial; `C30_closed_partial`, `C30_message_false`). False of SIGN-MESSAGE, which does not close the session after LAST: C30_message_false. Proved for SIGN and raw WASM.
* **C31** (partial; `C31_path_partial`, `C31_path_false`). False of the code: C31_path_false (a refused GET_ADDR replaces the signing path). Partial: histories where other paths are only sent while nothing is open or shown; proved as independence of all signatures from other keys.
* **C32** (partial; `C32_path_partial`, `C32_path_false`). False of the code: C32_path_false (GET_ADDR during the upload changes the key). Partial: no further path-carrying command after INIT.
* **C33** (partial; `C33_review_partial`, `C33_review_false`). False under interleaving: C33_review_false. Partial: locked device, GET_VERSION, unknown instructions, chunks without session.
* **C34** (proved; `C34_status_words`, `C34_specific`, `C34_success`). Exact set of status words, bound on the answer, specific codes and what 0x9000 implies.
* **C35** (proved; `C35_locked`, `C35_version`). All commands, all states.
* **C36** (partial; `C36_state_partial`, `C36_header_partial`, `C36_deploy_partial`, `C36_history_partial`, `C36_first_bytes_false`, `C36_transaction_false`). False as stated: tx_content is not assigned when raw WASM data is parsed. After refused data of unknown kind every raw WASM deploy too large for the buffer is signed as SHA-256 of its first 32 bytes (account only); after a rejected version 1 transaction, as SHA-256 of bytes 27..58. Proved: after any history in which all completed SIGN uploads began with the Deploy byte, whenever a raw WASM upload opens a review, DeployHash is the hash of the header bytes kept and is what is signed, and BodyHash is the header's; proper deploys with module code (complete, or cut within the code) are accepted so. Data cut within the arguments after the code are the subject of C81.
* **C37** (proved; `C37_payload_hash`). All uploads within the device's 16384-byte capacity: envelope, hash, payload and approvals partition the data, hash = BLAKE2b(payload).
* **C38** (proved; `C38_memory`). readV1 has no outcome reading or writing outside the received data, for any data and starting state; the hash check after a successful parse neither.
* **C39** (partial; `C39_deploy_memory_partial`, `C39_serialized_partial`, `C39_approvals_false`, `C39_crash_false`, `C39_validate_false`, `C39_module_partial`, `C39_module_false`, `C39_many_false`, `C39_upload_false`). False: a correct Deploy running module bytes without an 'auction' argument and with more than 100 approvals overflows buffer[100] (C39_approvals_false, C39_crash_false); a header length that wraps makes validation read beyond the data (C39_validate_false). Partial: for any bytes, parsing can only fail in a module-bytes session, validation only if the header is said to exceed the data; serialized Deploys with any other session are safe. For Deploys that run code (module bytes), the exact condition: C39_module_partial (safe unless Misread: the place where the name of the operation is looked for - the value of an argument "auction", else the bytes behind the session - starts with a length above 100 or above what is left) and C39_module_false (with a usual payment, undefined behaviour exactly if Misread); C39_many_false: without "auction", exactly if there are more than 100 approvals; C39_upload_false: every upload of such data, on every device and in any chunks, ends in undefined behaviour.
* **C40** (partial; `C40_deploy_partial`, `C40_serialized_partial`, `C40_target_false`, `C40_code_false`, `C40_key_false`, `C40_names_false`, `C40_v1_partial`, `C40_v1_serialized_partial`, `C40_v1_target_false`, `C40_v1_args_false`). False for Deploys (device histories): a transfer target of 50 or 128 bytes (C40_target_false), module bytes longer than 32 (C40_code_false), a short public key at the end of the data (C40_key_false), chain name of 100 or contract name of 300 bytes (C40_names_false). Partial: C40_deploy_partial lists, for any parsed and validated bytes, everything the data must contain for a line to leave the bounds; C40_serialized_partial: serialized Deploys whose shown parts fit are safe. Version 1 transactions: the same two theorems (C40_v1_partial, C40_v1_serialized_partial) and failing histories (C40_v1_target_false; C40_v1_args_false: the claimed length of the arguments of a call is never checked).
* **C41** (proved; `C41_repeatable`). Any review kind, any device state, any sequence of item requests, any starting cursor.
* **C42** (partial; `C42_items_partial`, `C42_items_false`). False for item numbers from 128 on (signed 8-bit item number): C42_items_false, an accepted transaction with 131 items of which three cannot be shown. True for indices below 128; every index at or above the count is refused.
* **C43** (partial; `C43_accepted_count_partial`, `C43_arguments_false`, `C43_count_partial`, `C43_required_partial`). False when the 8-bit item count wraps: C43_arguments_false (252 arguments, accepted, no items). True while the count stays below 256 (count) and for at most 119 arguments (every required argument among the items; the id of a transfer only in expert mode). `C43_accepted_count_partial`: the count for all accepted data, also with tables Casper would not write.
* **C44** (partial; `C44_accepted_partial`, `C44_accepted_cut_partial`, `C44_signed_arguments_partial`, `C44_signed_arguments_false`). False (u8 runtime_args_offset): C44_signed_arguments_false exhibits a signed transfer of 10^17 motes shown as 5 motes to another account. Partial: native operations whose arguments start before offset 256, at most 119 arguments. `C44_accepted_partial`: the same for all accepted data, also with tables Casper would not write. `C44_accepted_cut_partial`: the same for any names of arguments, which count up to a zero byte (Props/CutLayouts.lean).
* **C45** (proved; `C45_native_operation`, `C45_transfer`). All well-formed native operations 2-9 and 12 with exactly their arguments, not just transfers: any chunking is accepted, the review is exactly the specified lines, approval signs SHA-256 of the payload hash.
* **C46** (partial; `C46_accepted_target`, `C46_accepted_required_partial`, `C46_cut_partial`, `C46_target`, `C46_required_partial`, `C46_required_false`, `C46_name_false`). Target part proved for all accepted well-formed transactions. Required arguments: proved when the argument list starts before offset 256 and names have no NUL byte; false beyond (C46_required_false: accepted transfer whose signed arguments have none of amount, target, id). `C46_accepted_target`, `C46_accepted_required_partial`: the same for all accepted data. The condition on names is needed: `C46_name_false`, an accepted transfer without amount, target and id, whose names agree with these up to a zero byte. `C46_cut_partial`: for all names, the required arguments are there up to zero bytes in names.
* **C47** (partial; `C47_chain_deploy_partial`, `C47_chain_v1_partial`, `C47_chain_false`). False: chain names with a NUL byte are shown cut, in version 1 also names of 256+ bytes. Partial: every accepted Deploy and every serialized version 1 transaction (under 100 bytes) whose name has no NUL byte.
* **C48** (partial; `C48_approvals_accepted`, `C48_approvals_read`, `C48_approvals`, `C48_reservations`, `C48_delegators_partial`, `C48_delegators_false`, `C48_deploy_approvals`, `C48_deploy_number`). Approvals and reservations: proved (the 8-bit counters cannot overflow within the 16384-byte buffer). Delegators of a cancellation: 257 are shown as 1 (C48_delegators_false); partial for fewer than 256. `C48_approvals_accepted`: the number of approvals for all accepted data. `C48_deploy_approvals`, `C48_deploy_number`: in expert mode the last line of a Deploy shows the number behind its session.
* **C49** (partial; `C49_effort_partial`, `C49_deploy_partial`, `C49_v1_partial`, `C49_loop_false`, `C49_accepted_false`). False in general: an argument whose claimed length is just below 2^32 moves the 16-bit cursor back, so that 8 bytes count as any number of arguments (C49_loop_false, for every number), and a 236-byte Deploy claiming 1000 arguments is accepted (C49_accepted_false). Without such numbers (2^32 - 65536 or more) in the data: every argument loop behaves as if the claimed number were at most what the data hold at 9 bytes each (C49_effort_partial), and in accepted Deploys and version 1 transactions the claimed number of arguments is followed by 9 bytes for each (C49_deploy_partial, C49_v1_partial).
* **C50** (partial; `C50_address_partial`, `C50_address_false`). False for version 1 contract calls: the address is shown as its bytes in decimal without separators (C50_address_false: two accepted calls of different contracts showing the same address). True for addresses all of whose bytes have three digits.
* **C51** (proved; `C51_error_texts`, `C51_refusals`). Texts of all codes; every answer with data to SIGN / SIGN-MESSAGE is the text of a non-zero code (structural walk over every parsing and rendering function).
* **C52** (partial; `C52_payment_partial`, `C52_payment_false`). False for every amount from 10^19 on, on every platform: C52_payment_false. Exact below 10^19.
* **C53** (partial; `C53_call_partial`, `C53_name_false`, `C53_version_false`, `C53_names_false`, `C53_accepted_partial`). Full review, any chunking, any device state, both display modes. False for packages without version in expert mode (`C53_version_false`, see C54) and for names of more than 99 bytes (`C53_name_false`: two calls whose entry points differ in the 100th byte look the same). Missing otherwise: arguments from position 256 on. `C53_accepted_partial`: contract and entry point are shown for all accepted data, wherever the arguments are and whatever length is given for them. Names of any length and with zero bytes: exactly the part before the first zero byte, at most 99 bytes, is shown (`C83_names_partial`), so every call has look-alikes with other contracts and entry points (`C53_names_false`, for all calls).
* **C54** (partial; `C54_args_hash_false`, `C54_args_hash_partial`, `C54_accepted_partial`, `C54_length_false`). False in expert mode for every call of a package without version: C54_args_hash_false gives the exact review, with question marks and without hash. Also false where the length given for the arguments is wrong, which is accepted (`C54_length_false`: calls with different arguments show the same hash). True otherwise: for well-formed calls and for all accepted data with the right length (`C54_accepted_partial`).
* **C55** (proved; `C55_reservations`). End to end: upload in any chunking, exact review, signature. The lists have to be among the first two (three) arguments, arguments start before byte 256.
* **C56** (partial; `C56_header_partial`, `C56_header_false`). False: data counting 2048 dependencies and containing none are accepted (C56_header_false). Partial: with a dependency count below 2046, the header of accepted data is a complete serialized header containing the hash of the body.
* **C57** (partial; `C57_canonical_partial`, `C57_loop_false`, `C57_type_false`). False as stated: lengths near 2^32 (C57_loop_false) and types with bad components, read differently by the search and the skip (C57_type_false). Otherwise proved for every accepted Deploy: C57_canonical_partial (fewer than 2046 dependencies, no 32-bit number of 2^32 - 65536 or more; a bad type is located).
* **C58** (partial; `C58_arguments_partial`, `C58_name_false`, `C58_module_false`, `C58_cut_partial`). False as stated: a name may end in a zero byte and is then taken for the shorter name (C58_name_false: 10^17 motes delegated, 5 shown); code with an argument "auction" is searched from the wrong place (C58_module_false: the same amounts). Otherwise proved for all accepted Deploys whose session is a serialized item with types Casper reads alike (C57 says when), names without zero bytes, and not code with an argument "auction" or a name over 300 bytes. `C58_cut_partial`: for all names, lines are about the first argument whose name agrees up to a zero byte.
* **C59** (partial; `C59_contract_partial`, `C59_hidden_false`, `C59_cut_partial`, `C59_zero_false`). False as stated: in normal mode a delegation does not show its contract, so two delegations to different contracts look the same but for the hash (C59_hidden_false). Proved for all accepted Deploys whose session is a serialized item without zero bytes in names: every such line is right; in expert mode the contract is always identified, at items 9 and 10; in normal mode at items 5 and 6 unless the type is Delegate, Undelegate or Redelegate or the review ends after the fee (the case of C14_hidden_false). The hash of code over 32 bytes leaves the bounds of memory (C40). Names with zero bytes are cut, in both modes, so that calls of different contracts look alike: `C59_zero_false`. `C59_cut_partial`: the same for all names, shown up to the first zero byte.
* **C60** (proved; `C60_signing_wipes`, `C60_extraction_wipes`, `C60_signature`, `C60_public_key`, `C60_answer`). The SDK calls are arbitrary functions that return success or failure and new contents; for the answers they are assumed not to write outside the arrays handed over and to return a DER length of at most 73. Copies the SDK itself makes are outside the model.
* **C61** (partial; `C61_session_false`, `C61_same_review_false`, `C61_custom_false`, `C61_hash_partial`). False for every such transaction: with the entry point `call` the review has header lines only, whatever code and arguments are (C61_session_false), so two programs look the same but for the transaction hash (C61_same_review_false); with a named entry point only the arguments are hashed (C61_custom_false). Proved: the first line commits to the whole payload, for everything that is accepted. `C84_program_partial`: the same for every layout of such data.
* **C62** (partial; `C62_deploy_partial`, `C62_v1_partial`, `C62_account_false`, `C62_chain_false`, `C62_ttl_false`, `C62_v1_accepted_partial`, `C62_v1_header_partial`). False: version 1 transactions show the account with another letter case than the device's address, since the checksum is taken over the algorithm tag too (C62_account_false); chain names are cut at a zero byte (C62_chain_false); parts of a second of the time to live are dropped, under a second the line is empty (C62_ttl_false). Proved up to these for all accepted Deploys (C62_deploy_partial) and all accepted version 1 transactions, also those whose tables Casper would not write (C62_v1_accepted_partial, for chain names under 256 bytes and payments under 10^19; that accepted data hold such a header is C62_v1_header_partial).
* **C63** (partial; `C63_kinds_partial`, `C63_trailing_partial`, `C63_contract_false`, `C63_target_false`). False: a text "delegate" behind the session replaces the two lines about the contract of a Deploy with code by question marks (C63_contract_false); a target given as public key but too short is completed from bytes behind the session (C63_target_false). Proved: a serialized Deploy accepted with some continuation (also none) is accepted with every longer one, with the same review and digest. For Deploys with the sessions of C85 (transfers, delegations, redelegations, other calls of stored contracts), what follows has in normal mode no influence at all (C63_kinds_partial).
* **C64** (partial; `C64_appended_partial`, `C64_unsigned_false`). False for bytes behind the signed part in general: the offset of the arguments is kept in 8 bits, so that target and amount of a well-formed transfer can be shown from appended, unsigned bytes (C64_unsigned_false). Proved: data accepted are accepted with any continuation, with the same lines and digest, unless a pricing line is a mere question mark.
* **C65** (proved; `C65_history`, `C65_case`, `C65_condition_needed`). C65_history compares two runs; C65_condition_needed shows the excluded case to differ
* **C66** (proved; `C66_review`, `C66_same_line`, `C66_same_digest`, `C66_message`). `Asked` says what a network hash commits to, independently of the parser; `Asked.binding` is pure hashing; the review theorem connects both.
* **C67** (partial; `C67_deploy`, `C67_version1_partial`, `C67_call_false`). `C67_deploy` is complete for Deploys. Version 1: proved for all data whose expert review has 9 to 128 lines (12 for a transfer) and, for contract calls, no blank line; false for calls of a package without version (`C67_call_false`: expert mode drops the hash of the arguments). Expert mode may refuse what normal mode accepts (for example an unprintable timestamp); that is not part of the property.
* **C68** (partial; `C68_v1_accepted_partial`, `C68_cut_partial`, `C68_deploy_partial`, `C68_v1_partial`, `C68_code_false`, `C68_name_false`). False of the code in two cases: code (module bytes) with delegation arguments and an argument "auction" is shown as "Delegate" whatever it does (`C68_code_false`); and an entry point "delegate", zero byte, more text is shown as "Delegate" (`C68_name_false`). The partial theorem for Deploys covers all other serialized sessions; the one for version 1 covers all serialized transactions whose review has a second item (C61 shows that "Call" can have none). `C68_v1_accepted_partial`: the same for all accepted version 1 data. `C68_cut_partial`: for all names, the title is right for the session with names cut at the first zero byte.
* **C69** (proved; `C69_scheduling`). Complete for serialized transactions.
* **C70** (partial; `C70_transfer`, `C70_delegation`, `C70_operation`, `C70_call_partial`, `C70_entry_false`, `C70_contract_false`, `C70_v1_call_partial`, `C70_version_false`, `C70_entries_false`, `C70_contracts_false`, `C70_stake`). Proved for transfers, delegations and native operations (`C70_transfer`, `C70_delegation`, `C70_operation`; `C70_stake` also for redelegations and whatever arguments follow those needed). For contract calls in normal mode the entry point is not shown (`C70_entry_false`), and for delegations in normal mode the contract is not shown (`C70_contract_false`): there the lines do not determine what is done. `C70_call_partial` (Deploys) and `C70_v1_call_partial` (version 1) are what holds for contract calls; version and virtual machine of a package are not shown in normal mode (`C70_version_false`). `C70_entries_false` and `C70_contracts_false`: the same for all contract calls (any two entry points) and all delegations (any two contracts) in normal mode.
* **C71** (proved; `C71_line`, `C71_digest`). Complete. Strengthens C66 (equal byte strings) to equal fields; the serialization is proved to be injective (`DeployHeader.encode_inj`, `DeploySpec.body_inj`, `TxPayload.encode_inj`).
* **C72** (partial; `C72_complete_partial`, `C72_delegation_false`, `C72_cut_partial`, `C72_surplus_false`). Proved for transfers (the converse of C12: only argument lists like the ones there are itemised). False for delegations: a fourth argument is accepted and nowhere shown, in either mode (`C72_delegation_false`; for all delegations, revocations and redelegations with any further arguments: `C72_surplus_false`). Transfers with other arguments are shown by a hash, of the first one only (C13). `C72_cut_partial`: the same for all names, cut at the first zero byte.
* **C73** (proved; `C73_unknown_kinds`, `C73_deploy_kinds`). Unknown parts of version 1 are tables with the number of the kind as first field and at most nine other fields (the arguments: the number and any bytes). Deploys: payment of kind 0, session of kinds 0 to 5 behind any payment that is a serialized one.
* **C74** (partial; `C74_delegation_partial`, `C74_redelegation_partial`, `C74_order_false`, `C74_hidden_cut_false`, `C74_delegation_cut_partial`, `C74_redelegation_cut_partial`, `C74_expert_cut_false`, `C74_hidden_false`). Proved where the arguments of the operation come first, in any order, and the code has at most 32 bytes in expert mode. False otherwise: with `auction` first the Deploy is refused (`C74_order_false`), and longer code overflows an array in expert mode (`C40_code_false`). That the code really performs the operation shown is false, see `C68_code_false`. C74_hidden_false: it also fails, for all code, as soon as an operand has an unexpected type: in normal mode the review then says "Delegate" and nothing else. `C74_delegation_cut_partial`, `C74_redelegation_cut_partial`, `C74_hidden_cut_false`: the same for any names of arguments, which count up to a zero byte (Props/CutAuction.lean); so any code is presented as a delegation by arguments Casper does not find. `C74_expert_cut_false`: in expert mode, too, such an operation is announced without its operands, and a text that names no operation leaves a line of question marks (Props/CutAuctionAccept.lean).
* **C75** (partial; `C75_small_partial`, `C75_long_false`, `C75_crash_false`, `C75_small_cut_partial`, `C75_hidden_cut_false`, `C75_long_cut_false`, `C75_hidden_false`). Proved for code of at most 32 bytes, at most 100 approvals and arguments `amount`, `delegator`, `validator`, `new_validator` of the usual types if present. False for every longer code: the Deploy never leads to a review with defined behaviour (`C75_long_false`, a theorem about all such Deploys; a concrete one in `C75_crash_false`). More than 100 approvals: `C39_approvals_false`. C75_hidden_false: the property fails for code of any length as soon as an argument named "amount", "delegator" or "validator" has an unexpected type: then the review shows nothing of the code or its arguments, in either mode, and approving signs. `C75_small_cut_partial`, `C75_hidden_cut_false`, `C75_long_cut_false`: the same for any names of arguments, which count up to a zero byte (Props/CutRun.lean).
* **C76** (partial; `C76_where`, `C76_quiet_partial`, `C76_review_partial`, `C76_message_false`). Proved, in every state: only the last part of a transaction, a later part of a WASM upload, or the approval of a review other than of an address can fail (`C76_where`). Proved: histories from power on without transaction and WASM commands never fail; the approval of a transaction that has just been accepted never fails. False for messages after a refused transaction (`C76_message_false`: an out-of-bounds read of a chosen distance); failing transaction uploads are in C39, C40, C75.
* **C77** (partial; `C77_chosen_false`, `C77_transaction_false`, `C77_message_partial`). Proved for messages after histories in which transaction data began with 0 (or there were none). False in general, for every state and every 32 bytes: after a refused 15-byte transaction, a message review signs SHA-256 of 32 bytes chosen inside the message, for instance the hash of a transaction the device has never seen (`C77_chosen_false`, `C77_transaction_false`).
* **C78** (partial; `C78_expert_partial`, `C78_v1_partial`, `C78_deploy_partial`, `C78_signature_false`, `C78_approvals_false`). Proved: what is signed is complete. A version 1 transaction lacks at most the last 64 bytes of its approvals, and nothing if it has none; a Deploy is complete up to the end of its session, unless a beginning of the body has the BLAKE2b hash of the body. False for the rest: the last signature of a version 1 transaction can be missing (`C78_signature_false`), and all approvals of a Deploy including their number (`C78_approvals_false`). In expert mode the number of approvals of a Deploy must be there (`C78_expert_partial`).
* **C79** (partial; `C79_labels`, `C79_text_partial`, `C79_quotations_partial`, `C79_chain_false`). Labels: proved for every state and review. Texts: proved for every state, except the lines "Chain ID", "Name" and "Entry-point", which are proved to repeat bytes of the uploaded data without a zero byte. False for those: a chain name with line feeds is handed to the screen as it is (`C79_chain_false`). How the screen draws such bytes is outside the model.
* **C80** (partial; `C80_transaction_partial`, `C80_other`, `C80_argument_partial`, `C80_chain_false`, `C80_target_false`). Proved: all pages together show the whole text, for every line of every review; texts not paged have at most 19 characters; only lines from a listed set (repeated texts, "Ttl", "Payment", arguments) may lack a text, and arguments of the lengths Casper's types have never do. False otherwise: a transfer for a chain without name has no text on "Chain ID", a transfer to a target of 64 bytes none on "Target" (`C80_chain_false`, `C80_target_false`). That an empty text has no page is the contract of zxlib's `pageString`, which is not part of the repository.
* **C81** (partial; `C81_reviewed_partial`, `C81_value_false`, `C81_auction_false`, `C81_both_false`). Proved for deploys without an argument called "auction", for data kept that end anywhere, except within a name or value whose beginning looks like a short length-prefixed text. False otherwise: after an incomplete argument the app searches for "auction" inside that argument's value and refuses the deploy if it finds an unknown type there (`C81_value_false`); deploys with an argument "auction" that is not a text are refused if all arguments are kept (`C81_auction_false`), and by the ordinary command as well (`C81_both_false`).
* **C82** (partial; `C82_serialized_partial`, `C82_table_false`, `C82_length_false`). Proved up to numbers that describe the layout, for data without 32-bit numbers of 2^32 - 65536 or more: Spec/Loose.lean says which of these numbers are free. Free are the upper three bytes of a table's count, the upper half of its size, entries beyond those of the fields (up to ten), the lengths of the four fields of the body, all numbers in the tables of runtimes and of stored contracts' identifications, some offsets of targets. Where an argument has a type that the app reads differently (`BadType`), the theorem gives its place and the fields before it. False in the strict form: a table that claims 259 fields is accepted (`C82_table_false`), and a signed payload whose arguments claim to have a million bytes (`C82_length_false`). Approvals are complete too, except that up to 64 bytes of the last signature may be missing (see C78). `TxPayload.loose` shows that everything Casper serializes is of the form described.
* **C83** (partial; `C83_names_partial`, `C83_content_partial`, `C83_operation_partial`, `C83_call_partial`, `C83_cut_partial`, `C83_unique`, `C83_signed`, `C83_binding`). Proved for accepted data without 32-bit numbers of 2^32 - 65536 or more: they have a content (Spec/ContentV1.lean), and for native operations (`C83_operation_partial`) and contract calls (`C83_call_partial`) the complete review is that of the content. Missing: arguments at position 256 or later (C44), names with zero bytes or of more than 300 (operations) or 99 (calls) bytes, payments of more than 19 digits and packages without version in expert mode, a wrong length of a call's arguments. False there: the hash shown for the arguments of a call covers as many bytes as the unchecked length says (`C54_length_false`). `C83_unique`: the bytes determine the content; `C83_signed`, `C83_binding`: the approval signs the hash of the payload with this content, so two approvals of the same hash are for the same content (or a BLAKE2b collision is at hand). Reservations and programs: `C84_reservation_partial`, `C84_program_partial` give their complete reviews for all layouts. `C83_names_partial`: the complete review of calls for all names, which are shown up to a zero byte and the 99th byte. `C83_cut_partial`: the complete review of native operations for all names, arguments being found by their names up to a zero byte.
* **C84** (partial; `C84_operation_partial`, `C84_reservation_partial`, `C84_call_partial`, `C84_program_partial`, `C84_layout_partial`, `C84_layout_false`, `C84_names_partial`, `C84_layout_cut_partial`, `C84_cut_partial`, `C84_reservation_cut_partial`). Proved, as an equivalence, for arguments at positions below 256: native operations (`C84_operation_partial`), reservations (`C84_reservation_partial`), calls (`C84_call_partial`), programs run by `call` (`C84_program_partial`). Missing: arguments or names that cannot be shown as their line demands, payments of more than 19 digits in expert mode. False where further table entries move the arguments to position 256 or later: their position is kept in 8 bits (`C84_layout_false`: one payload, accepted with four ignored table entries, refused with five). `C84_names_partial`: the equivalence for calls with any names; no name is refused. `C84_cut_partial`: the equivalence for native operations with any argument names (Props/CutNames.lean). `C84_reservation_cut_partial`: the same for reservations and their cancellation (Props/CutReservations.lean). `C84_layout_cut_partial`: two layouts, any names of arguments (Props/CutLayouts.lean).
* **C85** (partial; `C85_call_partial`, `C85_deploy_partial`, `C85_transfer_partial`, `C85_code_false`, `C85_call_cut_partial`, `C85_announced_cut_partial`, `C85_operands_cut_partial`, `C85_code_cut_partial`, `C85_transfer_cut_partial`, `C85_code_partial`). Proved, as an equivalence, for the sessions listed in `ItemShown` (transfers, delegations, redelegations, calls and others whose arguments can be shown as their lines demand): `C85_deploy_partial`, with `C63_kinds_partial` on the bytes behind. For native transfers the lists of arguments accepted are described exactly (`C85_transfer_partial`): the first argument named "amount" is a U512, and there is more than an amount and at most one of target and id. For calls of stored contracts they are described exactly as well (`C85_call_partial`): a redelegation has a PublicKey new_validator, and a delegation whose operands all have the right types has them as its first three (or four) arguments, in any order. Missing: code with an argument `auction` that names no operation and whose operands have the expected types (see C74), names of contracts and entry points with zero bytes, values that do not belong to their types. False for sessions that run code given in them: what follows is taken for the name of an operation (`C85_code_false`: accepted with four zero bytes behind it, refused with nothing). C85_code_partial: exactly which Deploys running code without an argument "auction" are accepted, for all code and arguments (what follows not having a letter in fifth place). `C85_transfer_cut_partial`: the exact description for transfers with any argument names, which count up to a zero byte (Props/CutTransfers.lean). `C85_call_cut_partial`: the same for calls of stored contracts with any names of arguments (Props/CutAcceptCalls.lean). `C85_code_cut_partial`: the same for Deploys that run code without an argument found as "auction" (Props/CutCode.lean). `C85_announced_cut_partial`: which Deploys are accepted, in either mode, that run code with a text in an argument "auction" and have an operand of an unexpected type: the text does not matter, and the code only by its length in expert mode (Props/CutAuctionAccept.lean). `C85_operands_cut_partial`: code that announces a delegation, undelegation or redelegation with an amount, a delegator and a validator of the expected types is accepted exactly if it has a new validator for a redelegation and none otherwise, the operands are the first arguments, in any order, and, in expert mode, the code has at most 32 bytes (Props/CutAuctionOrder.lean).
* **C86** (partial; `C86_hash_partial`, `C86_masked_false`, `C86_cut_partial`). False for code with an argument "auction": the hash starts four bytes late and covers as many arguments as the length of the first name says, so that two Deploys with different arguments (10^17 or 1 as amount, one with a further argument) show the same hash and, apart from the transaction hash, the same lines (`C86_masked_false`). Proved for all other accepted Deploys whose session is a serialized item with types Casper reads alike (C57 says when) and names without zero bytes. Native transfers, whose hash covers the first argument only, are the subject of C13. `C86_cut_partial`: the same without conditions on zero bytes in names.
* **C87** (partial; `C87_bypass_false`, `C87_kind_partial`, `C87_lines_partial`). Refuted for every Deploy: parser_validate_wasm compares the deploy hash with the header but never the body hash with the data, so the header, hash and payment of any Deploy (a transfer, a delegation, a call) followed by the beginning of some code open a review of two hashes, and the approval signs that very Deploy (C87_bypass_false, for all Deploys with the usual payment, all code that does not end within the data). What holds: data whose session tag is not that of code open no review (C87_kind_partial). The two lines do determine the hashes of header and body (C87_lines_partial), so a reader who knows the body they want can compare.
* **C88** (partial; `C88_shadow_false`, `C88_operation_partial`, `C88_name_false`). False for names with a zero byte: a transfer of 10^17 motes to one account is shown as 5 motes to another (`C88_name_false`; both decoys and both real arguments are signed, and the network uses the latter). Proved for names without zero bytes, under the conditions of `C83_operation_partial` (`C88_operation_partial`). `C88_shadow_false`: not only a sample; any native operation can be made to look like any other of its kind, by further arguments in front whose names end in a zero byte. What lines show for all names: `C83_cut_partial`.
