{
 "C01": [
  "`readLE`",
  "equations, all buffers; spec: `Nat.ofDigits`"
 ],
 "C02": [
  "`parseItem`, `readString`, `readBytes`",
  "witness; inversion"
 ],
 "C03": [
  "`getType`",
  "induction on CLTypes; witness"
 ],
 "C04": [
  "`getType`",
  "recursion budget; case analysis"
 ],
 "C05": [
  "`searchArgs`, `getData`",
  "induction on the argument list; witness"
 ],
 "C06": [
  "`parseArgs`",
  "induction on the argument list"
 ],
 "C07": [
  "`parserParse`, `handleSign`",
  "case analysis"
 ],
 "C08": [
  "`readDeployHeader`, `headerLength`",
  "forward execution"
 ],
 "C09": [
  "`readDeploy`, `validateDeploy`",
  "inversion; forward execution"
 ],
 "C10": [
  "as C09, and the upload commands",
  "forward execution"
 ],
 "C11": [
  "payment of a Deploy, Fee line",
  "inversion; witnesses"
 ],
 "C12": [
  "Deploy end to end",
  "forward execution of parse, validation, every line, upload and approval"
 ],
 "C13": [
  "Deploy transfers, Args hash",
  "forward execution; witness"
 ],
 "C14": [
  "Deploy contract calls, Args hash",
  "forward execution; family of witnesses"
 ],
 "C15": [
  "Deploy delegations",
  "forward execution"
 ],
 "C16": [
  "`displayArg`",
  "forward execution; injectivity; witnesses"
 ],
 "C17": [
  "amount texts",
  "list lemmas, induction on digits"
 ],
 "C18": [
  "`add_thousand_separators`",
  "list lemmas; witness"
 ],
 "C19": [
  "`parse_TTL`",
  "arithmetic, independent reader of durations"
 ],
 "C20": [
  "`encode_addr`/`encode_hex`",
  "list lemmas"
 ],
 "C21": [
  "GET_ADDR",
  "case analysis"
 ],
 "C22": [
  "approval of a Deploy",
  "history invariant; inversion"
 ],
 "C23": [
  "approval of a version 1 transaction",
  "history invariant; inversion; witness"
 ],
 "C24": [
  "SIGN-MESSAGE",
  "forward execution; history invariant; witnesses"
 ],
 "C25": [
  "SIGN-MESSAGE",
  "case analysis"
 ],
 "C26": [
  "all commands",
  "history invariants; witness"
 ],
 "C27": [
  "upload commands",
  "history invariant"
 ],
 "C28": [
  "upload commands",
  "induction on the chunking"
 ],
 "C29": [
  "upload commands",
  "induction on the chunking"
 ],
 "C30": [
  "upload commands",
  "case analysis; witness"
 ],
 "C31": [
  "paths in all commands",
  "relational induction on histories; witness"
 ],
 "C32": [
  "paths in all commands",
  "history invariant; witness"
 ],
 "C33": [
  "all commands during a review",
  "case analysis; witness"
 ],
 "C34": [
  "all commands",
  "case analysis; structural walk"
 ],
 "C35": [
  "all commands",
  "case analysis"
 ],
 "C36": [
  "raw WASM upload",
  "inversion; forward execution; history invariant; witnesses"
 ],
 "C37": [
  "`readV1`, `validateV1`",
  "inversion"
 ],
 "C38": [
  "`readV1`",
  "structural walk (no fault)"
 ],
 "C39": [
  "`readDeploy`, `validateDeploy`",
  "fault inversion; forward execution; witnesses"
 ],
 "C40": [
  "all lines of both kinds",
  "fault inversion; forward execution; witnesses"
 ],
 "C41": [
  "all lines",
  "structural walk (rendering leaves the state alone)"
 ],
 "C42": [
  "item counts and lines",
  "inversion; witness"
 ],
 "C43": [
  "version 1 native operations",
  "inversion; witness"
 ],
 "C44": [
  "version 1 argument lines",
  "inversion; witness"
 ],
 "C45": [
  "version 1 native operations, end to end",
  "forward execution"
 ],
 "C46": [
  "version 1 targets and required arguments",
  "inversion; witness"
 ],
 "C47": [
  "chain name line",
  "inversion; witness"
 ],
 "C48": [
  "approvals, reservations, delegators",
  "inversion, bounds from the data length; witness"
 ],
 "C49": [
  "argument loops",
  "structural walk with counts; induction; witnesses"
 ],
 "C50": [
  "version 1 address line",
  "injectivity; witness"
 ],
 "C51": [
  "error texts, all refusals",
  "case analysis; structural walk"
 ],
 "C52": [
  "version 1 payment line",
  "list lemmas; witness"
 ],
 "C53": [
  "version 1 contract calls, end to end",
  "forward execution"
 ],
 "C54": [
  "version 1 Args hash line",
  "inversion; exact review as witness"
 ],
 "C55": [
  "version 1 reservations and cancellations, end to end",
  "forward execution"
 ],
 "C56": [
  "Deploy header",
  "inversion; witness"
 ],
 "C57": [
  "Deploy parser from header to arguments",
  "inversion: case analysis of the type reader, induction on the number of arguments, cursor preservation of searches; two witnesses"
 ],
 "C58": [
  "Deploy parser and renderer",
  "inversion: what the parser found where, for arbitrary lists of arguments; two witnesses"
 ],
 "C59": [
  "Deploy parser and renderer",
  "inversion: what the parser found where and which counters it set; the two reviews of C15"
 ],
 "C60": [
  "`crypto_sign` behind the digest, `crypto_extractPublicKey`",
  "execution of the call sequence, by cases on which call fails"
 ],
 "C61": [
  "V1 parser and renderer, device",
  "forward execution of the parser on serialized transactions; C23"
 ],
 "C62": [
  "Deploy and V1 parser and renderer",
  "uniqueness of what lies at the offsets the parser found; C19, C20, C21"
 ],
 "C63": [
  "Deploy parser, validation, renderer; device",
  "relation between runs on data and on longer data (Lib/Grow, Lib/GrowItems, Lib/GrowDeploy), lifted through upload and review"
 ],
 "C64": [
  "V1 parser, validation, renderer; device",
  "relation between runs on data and on longer data (Lib/Grow, Lib/GrowItems), lifted through upload and review"
 ],
 "C65": [
  "the whole device: upload buffer, parser globals, review state, APDU buffer",
  "a relation on pairs of device states (equal uploads, paths, settings, review and review functions; anything else may differ) is established by INIT and kept by every event; parsing starts from overwritten globals, so its verdict and the functions that draw the review are equal"
 ],
 "C66": [
  "whole device step, both formats, messages",
  "inversion of acceptance (`sign_pending`, `DeployAccepted.split`, `V1Accepted.split`, field count of an accepted payload) and a small argument about hashes"
 ],
 "C67": [
  "whole device step in two modes, both formats",
  "a relation between the two modes' parser states (`Modal`, `Modal1`: same cursor, same result except for item counts), then inversion of the item arithmetic of each operation"
 ],
 "C68": [
  "whole device step and review",
  "inversion of the session parser (what the special-type flag says about the name of the entry point), and forward execution of the item display"
 ],
 "C69": [
  "whole device step",
  "forward execution of the parser through a transaction of arbitrary shape up to the scheduling field, where it must stop"
 ],
 "C70": [
  "whole review of two uploads",
  "injectivity of all texts (amounts, checksummed keys, numbers, durations) on top of the full reviews of C12, C14, C15, C45; concrete pairs of Deploys for the negative parts"
 ],
 "C71": [
  "whole device step, review and signature",
  "inversion of both parsers for what is hashed, and injectivity of the specified serialization by structural induction"
 ],
 "C72": [
  "counting of arguments by name, parsing of transfers, all lines of a review",
  "inversion: a count that reaches the number of arguments has met distinct names, so the list is a permutation of them; a witness for delegations"
 ],
 "C73": [
  "the parts of version 1 transactions as bytes; reading of each part",
  "forward execution up to the unknown part, where reading fails; for Deploys inversion of acceptance and uniqueness of serialized items"
 ],
 "C74": [
  "the search for the argument `auction`, the lines of delegations; lines stated by labels, key addresses and amounts",
  "forward execution of the parser on the serialized session, then the lines one by one"
 ],
 "C75": [
  "the search for the argument `auction` that fails, what is read behind the arguments instead, and the lines of generic sessions; lines stated by labels, hashes of the serialized parts and amounts",
  "forward execution of the parser on the serialized session and the approvals, then the lines one by one; for longer code the line `Cntrct hash` is a fault, and no review opens unless all lines are computed"
 ],
 "C76": [
  "the whole command loop; failure is a value of its own of the model (`Out.crash`)",
  "a case analysis over commands showing that the other handlers contain no step that can fail; an invariant (nothing but messages has been parsed) for the histories; the counterexample by forward execution of the parser on the 15 bytes and of the message review, for all states"
 ],
 "C77": [
  "uploads of messages and transactions and the bytes handed to SHA-256 at approval; messages and hashes stated as byte lists",
  "C24 for messages and C22, C23 for transactions; the counterexample by forward execution"
 ],
 "C78": [
  "both parsers and validations on all data that are a beginning of a specified serialization",
  "the parser run on the cut data is compared with the run on the complete data (whatever it reads it reads the same when more follows), whose final cursor is known; the cursor of a successful run exceeds the data by at most 64"
 ],
 "C79": [
  "the functions producing the lines of all reviews; printable is a specification of its own (codes 32 to 126), the labels are listed in Spec/Shown",
  "every formatting function yields printable characters (induction over hexadecimal, grouping of digits, time to live), then a syntax-directed walk through all line functions"
 ],
 "C80": [
  "the functions producing the lines of all reviews; pages are specified in Spec/Pages",
  "lengths of all formatted texts by induction, a syntax-directed walk through all line functions, inversion of the parser for the ranges of recorded fields, arithmetic on page counts"
 ],
 "C81": [
  "`readHeader` of parser_wasm.c with the module bytes branch of `parseDelegation`, argument search, chunk handling",
  "forward symbolic execution on data that end too early: readers that run into the end of the data, type descriptors by a relation between longer and shorter data"
 ],
 "C82": [
  "all readers of parser_impl_transactionV1.c and the table reader of parser_primitives.c",
  "backward analysis of successful reads (`Post`): each reader yields the bytes it consumed and their structure"
 ],
 "C83": [
  "all readers of parser_impl_transactionV1.c, the table reader of parser_primitives.c, the item functions",
  "accepted data are analysed (C82), the parser is executed on data of this form (`readV1_of`) giving positions of everything shown, the item functions are executed on these"
 ],
 "C84": [
  "the parser, validation, item functions and upload commands",
  "the parser is executed on data with given content (`readV1_of`); validation and every line of the review are executed on what it remembers; conversely acceptance is taken apart (`upload_iff`)"
 ],
 "C85": [
  "the parser, validation, item functions and upload commands",
  "the parser is executed on the Deploy followed by anything; validation and every line are executed on what it remembers; conversely acceptance is taken apart (`upload_deploy_iff`, `DeployAccepted.presentable`)"
 ],
 "C86": [
  "Deploy parser and renderer",
  "inversion as for C58: where the parser found the arguments, then every way a line \"Args hash\" can arise; one witness"
 ],
 "C87": [
  "Raw WASM uploads (readWasm, validateWasm, Device.step) against the Deploys of Spec/Deploy.",
  "Family of counterexamples by forward execution of readWasm on unfinished code behind the header of an arbitrary Deploy; the positive part by inversion (readWasm_post) and uniqueness of what stands at an offset."
 ],
 "C88": [
  "Version 1 parsing and rendering (TxV1, RuntimeArgs) against the arguments of Spec/Screens.",
  "From the complete review of native operations (C83, C44); the witness is evaluated by the kernel."
 ]
}