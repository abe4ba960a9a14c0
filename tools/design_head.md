# Formal model of the Casper Ledger app (ledger-casper 3.0.2)

## What is here

* `properties.jsonl` – the properties, in terms of API and observable effects.
* `MANIFEST.json` – status of each property and the exact theorem names (generated by `tools/mkmanifest.py` from the
  theorem names in `lean/Verif/Props` and the notes in `tools/notes.json`).
* `AXIOMS.md` – the axioms each theorem depends on (generated by `tools/mkaxioms.sh` from `#print axioms`).
* `lean/` – Lake project (Lean 4.33.0, Mathlib available).
  * `Verif/Model/*` – the code, function by function, every definition citing `/repo` file and lines.
  * `Verif/Spec/*` – specifications that do not use the model: Casper wire format (`Bytesrepr`, `Deploy`, `V1`), texts
    (`Text`, `Value`), the lines a review has to show (`Screens`), a reference BLAKE2b (`Blake2b`).
  * `Verif/Lib/*` – lemmas about the model.
  * `Verif/Props/*` – the property theorems, one file per theme, each theorem followed by a concrete case that meets its
    hypotheses.
* `seeded/LOG.jsonl` – log of deliberately wrong models tried against the theorems.

## Trusted base

1. The Lean 4.33.0 kernel. Axioms: only `propext`, `Classical.choice`, `Quot.sound` (`AXIOMS.md`). No axioms of our own, no
   `sorry`, no `native_decide`, no `bv_decide`. Concrete witnesses are evaluated by the kernel (`decide +kernel`).
2. The hand transcription of C into Lean. C integers are `Nat` with an explicit reduction modulo 2^8, 2^16 or 2^32 at each
   place where C truncates (32-bit `int`/`size_t`, as on the devices); bytes are `UInt8`; texts are lists of bytes.
3. Undefined behaviour is not ignored. A read outside `ctx->buffer[0..bufferLen)`, a write outside a local array, paging an
   unterminated string, and reading a transaction object as the other kind are a distinct outcome `Res.fault`. A command that
   meets it is answered by nothing (`Out.crash`) and leaves the state as it was; the theorems about histories claim nothing of
   what real hardware would do afterwards.
4. External code. The git submodules (zxlib, the Ledger SDK) are empty in the repository, so their functions are parameters
   the theorems quantify over, or are taken by contract:
   * BLAKE2b-256, SHA-256, ECDSA and BIP32 derivation: arbitrary functions (`Platform`, `Hash`); BLAKE2b returns 32 bytes.
     A BLAKE2b-256 written in Lean is used only for concrete witnesses.
   * `buffering_append`: appends the whole chunk if it fits in the capacity, else stores nothing and reports fewer bytes.
     Capacity is a parameter; 16384 (`common/tx.c:30-46`) where a theorem needs a number.
   * `pageString`, `pageStringHex`: page through a NUL-terminated text or the hex digits of a byte string. The
     model has the text that is paged, not how it is cut into pages; that all pages are shown is trusted.  What follows
     for pages of any width is stated in `Spec/Pages` and proved as C80.
   * `snprintf` with `%s`/`%.*s`/`%u`: the C standard's meaning with truncation to the array; `%.*s` reads at most
     min(length, 99) bytes.
   * `uint64_to_str`: decimal digits; what it leaves in an array that is too small is a platform parameter (`overlong`).
     `fpuint64_to_str`: decimal digits.
   * `bignumLittleEndian_to_bcd` and the printing of its digits: the decimal digits of the little-endian value.
   * `printTimeSpecialFormat`, `bip32_to_str`: parameters (`fmtTime`, `pathText`).
   * `view_*`: shows the items through the registered callback, then calls the registered accept function or `app_reject`.
   * `CHECK_APP_CANARY`: no effect. `CHECK_PIN_VALIDATED`: answers 0x6986 unless the PIN is validated.
   * APDU layout (CLA, INS, P1, P2, length, data) and the values of instructions and status words come from zxlib's headers
     as used by the JavaScript tests in `/repo/tests_zemu`.
5. Simplifications:
   * One upload buffer. The C code splits it into RAM and flash; `buffering_append` hides that.
   * Commands and user decisions are interleaved arbitrarily: the model lets commands arrive while a review is shown. The
     firmware's UI loop may refuse some of them; C33 and the `_false` theorems using an interruption say so.
   * `handleSignWasm` shows a progress message every five chunks (`view_message_show`); it has no effect on state and is left
     out.
   * A failing number reader or `read_metadata` stores nothing in the object it reads for; the C macros leave the bytes read so
     far there (`parser_utils.h:87-96`, `parser_primitives.c:36-45`). Only leftovers of a refused upload are concerned: every
     accepted upload starts by zeroing the object, and no theorem says what such leftovers are, except the witnesses
     about interrupted reviews, whose refused uploads fail at places where nothing is left behind.
   * A review is a list of (key, value) pairs; every `getItem` writes `("?", "?")` first, so that is what an item
     shows when its function succeeds without writing.
6. Not modelled: UI drawing and paging, `common/main.c`, `secret.c`, the calls into the SDK and `convertDERtoRSV`
   inside `crypto_sign` and `crypto_extractPublicKey` (arbitrary functions `Sdk` in `Model/Crypto`; the device model takes
   the signature as an arbitrary function of path and digest, C60 says which one), the status word and the zeros left in
   the APDU buffer after an answer, the functions without callers
   `parser_getItem_Transfer`, `parser_getItem_ModuleBytes`, `parser_getItemDeploy`, and the stub `crypto_extractPublicKey`
   of the test build.

## Which code is modelled where

| model file | source (under `/repo/app/src`) | functions |
|---|---|---|
| `Model/Basic` | `parser_common.h`, `parser_utils.h`, `crypto.c` (limits) | outcomes, error codes, environment (buffer, mode) |
| `Model/Primitives` | `parser_primitives.c`, `parser_utils.c`, `parser_txdef.h` | `_readUIntN`, `readU8/16/32/64`, `parse_item`, `copy_item_into_charbuffer`, `get_type`, `read_string`, `read_bytes`, `read_public_key`, `read_entity_version` and the other readers |
| `Model/Format` | `parser.c`, `parser_utils.c`, `crypto.c` | `add_thousand_separators`, TTL text, checksummed hex (`encode_addr`, `encode_hex`, `get_next_hash_bit`), amounts, `parser_printBytes`, `parser_display_runtimeArg*` |
| `Model/RuntimeArgs` | `runtime_arg.c`, `parser_special.c`, `parser.c` | `searchRuntimeArgs`, `parser_runtimeargs_getData`, `parseRuntimeArgs`, the per-value display |
| `Model/Deploy` | `parser_impl_deploy.c`, `parser_special.c` | `parser_read_deploy`, headers, `parse_*` of every executable item, special transfers / delegations / system payments, `_validateTxDeploy`, `_getNumItemsDeploy`, every `parser_getItem_*` with a caller |
| `Model/TxV1` | `parser_impl_transactionV1.c` | `parser_read_transactionV1` and every reader under it, `_validateTxV1`, item counts, every `parser_getItem*` |
| `Model/MessageWasm` | `parser_message.c`, `parser_wasm.c` | message and raw-WASM parsing, item counts and items |
| `Model/Crypto` | `crypto.c` | `crypto_sign` behind the digest, `crypto_extractPublicKey`: derivation, the order of the calls, wiping |
| `Model/Device` | `apdu_handler.c`, `common/tx.c`, `common/actions.h`, `parser.c`, `addr.c`, `crypto.c` | APDU dispatch, upload sessions, paths, `parser_parse`, `parser_validate`, `parser_getNumItems`, `parser_getItem`, `crypto_sign` up to the digest, address answers, user decisions |

The model was compared by hand with the repository's own data: all 24 transaction blobs in `/repo/tests` and
`/repo/tests_zemu` parse and validate in the model and the lines it shows are those in the snapshots under
`/repo/tests_zemu/snapshots/st-*`. (This is a test of the transcription, not a proof.)

## Model shape

`Res σ α = ok a s | err code s | fault f` and `M σ α = σ → Res σ α`: errors keep the state reached, because the code
continues after some errors (ignored search errors) and because the global parser state survives a refused command.
`P = M Nat` is a parser over the cursor (`ctx->offset`), with buffer and mode in an environment `Env`. The device is a
transition system over APDUs and user decisions (`step`, `run`, `Model/Device.lean`).

## Proof methods

* *Forward execution* (`Lib/V1Fwd`, `Lib/DeployFwd`, `Lib/Args`, `Lib/V1Show`): run the model on the serialization of an
  arbitrary specification value, one lemma per reader, to get the exact outcome.
* *Inversion* (`Lib/Post`, `Lib/V1`, `Lib/Safe`): from "this run succeeded" to what the bytes must be; `FaultPost` does the
  same for undefined behaviour.
* *Structural walks* (`Lib/Walk` and the predicates `NZ`, `NF`, `Steady`, `Back`, `Bd`, `Up`, `Lim`, `KC`, ...): a property
  closed under sequencing and branching, shown of every function of the model by a tactic that follows its syntax.
* *Two runs compared*: `Grows` (`Lib/Grow`, `Lib/GrowDeploy`) relates a run on some data to the run on the same data with more
  bytes behind; `Agree`/`Alike` (`Props/History`) relates two devices with different pasts.
* *Invariants over histories* (`Lib/Device*`, `Props/Session`, `Props/Keys`, ...): induction on the list of events.
* *Witnesses*: when a property is false of the code, the negation is proved (`..._false`), by a concrete history evaluated by
  the kernel or by a family derived from forward execution; the true restriction is `..._partial`.

## Properties: what is modelled and how it is proved

| id | title | status | modelled part | proof |
|----|-------|--------|---------------|-------|
