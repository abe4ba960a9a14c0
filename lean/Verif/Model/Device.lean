import Verif.Model.MessageWasm
import Verif.Model.TxV1
/-
The device: global state, APDU handlers, reviews and user decisions
(`app/src/apdu_handler.c`, `app/src/common/{actions.h,tx.c}`, `app/src/{parser.c,crypto.c,addr.c}`).
-/
namespace Casper
open M

/-- What lies outside the application: SHA-256, the keys (public key and signature per derivation path; `none` is a
failure of the cryptographic library), BLAKE2b, date text, path text, the capacity of the upload buffer. -/
structure Platform where
  sha256 : Bytes → Bytes
  sign : Bytes → Bytes → Option Bytes
  pubKey : Bytes → Option Bytes
  blake : Hash
  fmtTime : Nat → Option Bytes
  overlong : Nat → Nat → Bytes
  pathText : Bytes → Bytes
  cap : Nat
  targetId : Bytes

/-- The object `ctx->tx_obj` points to. -/
inductive Obj where
  | null | deploy | v1
  deriving DecidableEq, Repr

/-- `parser_context_t` (`parser_common.h:72-78`): `start` is the distance of `ctx->buffer` from the upload buffer,
`content` is `tx_content`. -/
structure Ctx where
  start : Nat := 0
  len : Nat := 0
  content : Nat := 0
  obj : Obj := .null
  deriving DecidableEq, Repr

/-- The review waiting for the user's decision: the registered item and accept functions. -/
inductive Review where
  | tx | message | wasm | address
  deriving DecidableEq, Repr

/-- Global state: `tx_initialized`, `tx_bufferFull`, `wasm_counter` (`apdu_handler.c:34-36`), the upload buffer and
its fill level (`common/tx.c:35-47`), `hdPath`, `ctx_parsed_tx`, `parser_tx_obj_deploy`, `parser_tx_obj_txnV1`,
`entry_point_offset`, the registered review, `G_io_apdu_buffer` with `*tx`, `action_addrResponseLen`, expert mode.
Simplification: one upload buffer instead of a RAM and a flash part. -/
structure Dev where
  txInit : Bool := false
  bufFull : Bool := false
  wasmCounter : Nat := 0
  mem : Bytes := []
  pos : Nat := 0
  hdPath : Bytes := List.replicate 20 0
  ctx : Ctx := {}
  dep : Deploy := {}
  v1 : V1 := {}
  epo : Nat := 0
  review : Option Review := none
  io : Bytes := List.replicate 260 0
  tx : Nat := 0
  addrLen : Nat := 0
  expert : Bool := false
  deriving DecidableEq, Repr

/-- Power on: all static storage is zero. -/
def Dev.init (pl : Platform) : Dev := { mem := List.replicate pl.cap 0 }

/-- `ctx->buffer[0..bufferLen)` and the mode. -/
def Dev.env (pl : Platform) (d : Dev) : Env where
  buf := (d.mem.drop d.ctx.start).take d.ctx.len
  expert := d.expert
  blake := pl.blake
  fmtTime := pl.fmtTime
  overlong := pl.overlong
  wasm := d.ctx.content == 0 && d.dep.kind == 2

/-- Write a prefix of a fixed array. -/
def poke (arr xs : Bytes) : Bytes := xs ++ arr.drop xs.length

/-! ### Parsing entry points -/

/-- `parser_init` (`parser_utils.c:17-38`); `bufferSize` is a `uint16_t`. -/
def parserInit : M Dev Unit := fun d =>
  if u16 d.pos = 0 then .err eInitEmpty { d with ctx := { d.ctx with start := 0, len := 0 } }
  else .ok () { d with ctx := { d.ctx with start := 0, len := u16 d.pos }, epo := 0 }

/-- Run a deploy function on `parser_tx_obj_deploy` from cursor 0. -/
def runDeploy {α : Type} (pl : Platform) (m : Env → M DS α) : M Dev α := fun d =>
  match m (d.env pl) ⟨0, d.epo, d.dep⟩ with
  | .ok a s => .ok a { d with epo := s.epo, dep := s.dep }
  | .err x s => .err x { d with epo := s.epo, dep := s.dep }
  | .fault f => .fault f

/-- Run `parser_read_transactionV1` on `parser_tx_obj_txnV1`. -/
def runV1 (pl : Platform) : M Dev Unit := fun d =>
  match readV1 (d.env pl) ⟨0, d.v1⟩ with
  | .ok a s => .ok a { d with v1 := s.v }
  | .err x s => .err x { d with v1 := s.v }
  | .fault f => .fault f

/-- Run a function that only moves the cursor (which every caller resets). -/
def runP {α : Type} (pl : Platform) (m : Env → P α) : M Dev α := fun d =>
  match m (d.env pl) 0 with
  | .ok a _ => .ok a d
  | .err x _ => .err x d
  | .fault f => .fault f

/-- `parser_parse` (`parser.c:46-76`). -/
def parserParse (pl : Platform) : M Dev Unit := do
  parserInit
  let c ← runP pl readU8
  modify fun d => { d with ctx := { d.ctx with content := c, start := 1, len := d.ctx.len - 1 } }
  let d ← get
  if d.ctx.len = 0 then fail eBufferEnd
  else if c = 0 then do
    modify fun d => { d with dep := {}, ctx := { d.ctx with obj := .deploy } }
    runDeploy pl readDeploy
  else if c = 1 then do
    modify fun d => { d with v1 := {}, ctx := { d.ctx with obj := .v1 } }
    runV1 pl
  else fail eUnknownPrefix

/-- `parser_getNumItems` (`parser.c:103-112`). -/
def parserNumItems (e : Env) (d : Dev) : P Nat :=
  if d.ctx.content = 0 then
    if d.ctx.obj = .deploy then pure (numItemsDeploy e d.dep) else abort .typeConfusion
  else if d.ctx.content = 1 then
    if d.ctx.obj = .v1 then pure d.v1.numItems else abort .typeConfusion
  else fail eUnknownPrefix

/-- `parser_getItem` (`parser.c:517-526`). -/
def parserItem (d : Dev) (e : Env) (idx : Nat) : P (Bytes × Bytes) :=
  if d.ctx.content = 0 then
    if d.ctx.obj = .deploy then getItemDeploy e d.epo d.dep idx else abort .typeConfusion
  else if d.ctx.content = 1 then
    if d.ctx.obj = .v1 then getItemV1 e d.v1 idx else abort .typeConfusion
  else fail eUnknownPrefix

/-- The loop over all items in `parser_validate` (`parser.c:94-98`): `k` items left, next `idx`. -/
def checkItems (f : Nat → P (Bytes × Bytes)) : Nat → Nat → P Unit
  | 0, _ => pure ()
  | k + 1, idx => do
    let _ ← f idx
    checkItems f k (idx + 1)

/-- `parser_validate` (`parser.c:78-101`). -/
def parserValidate (pl : Platform) : M Dev Unit := do
  let d ← get
  runP pl fun e => do
    if d.ctx.content = 0 then
      if d.ctx.obj = .deploy then validateDeploy e d.dep else abort .typeConfusion
    else if d.ctx.content = 1 then
      if d.ctx.obj = .v1 then validateV1 e d.v1 else abort .typeConfusion
    else fail eUnknownPrefix
    let n ← parserNumItems e d
    checkItems (parserItem d e) n 0

/-- `tx_parse` (`common/tx.c:63-79`). -/
def txParse (pl : Platform) : M Dev Unit := do
  parserParse pl
  parserValidate pl

/-- `parser_parse_message` (`parser_message.c:26-45`): `tx_content` is not assigned. -/
def parseMessage (pl : Platform) : M Dev Unit := do
  parserInit
  modify fun d => { d with dep := {}, ctx := { d.ctx with obj := .deploy } }
  runP pl checkMessage
  modify fun d => { d with dep := { d.dep with kind := 1 } }

/-- `parser_parse_wasm` (`parser_wasm.c:74-82`): `tx_content` is not assigned. -/
def parseWasm (pl : Platform) : M Dev Unit := do
  parserInit
  modify fun d => { d with dep := { kind := 2 }, ctx := { d.ctx with obj := .deploy } }
  runDeploy pl readWasm

/-- `tx_validate_wasm` (`common/tx.c:158-161`): the object pointed to is taken for a deploy. -/
def txValidateWasm (pl : Platform) : M Dev Unit := do
  let d ← get
  if d.ctx.obj = .deploy then runP pl fun e => validateWasm e d.dep else abort .typeConfusion

/-- `parser_getErrorDescription` (`parser_utils.c:281-347`). -/
def errorText (x : Nat) : Bytes :=
  if x = 0 then b!"No error"
  else if x = 1 then b!"No more data"
  else if x = 2 then b!"Initialized empty context"
  else if x = 3 then b!"display_idx_out_of_range"
  else if x = 4 then b!"display_page_out_of_range"
  else if x = 5 then b!"Unexepected internal error"
  else if x = 6 then b!"unexpected CBOR error"
  else if x = 8 then b!"CBOR was not in canonical order"
  else if x = 7 then b!"Unexpected CBOR EOF"
  else if x = 9 then b!"tx version is not supported"
  else if x = 10 then b!"Unexpected data type"
  else if x = 11 then b!"Unexpected method"
  else if x = 12 then b!"Unexpected buffer end"
  else if x = 13 then b!"Unexpected value"
  else if x = 14 then b!"Unexpected number of items"
  else if x = 15 then b!"Unexpected number of fields"
  else if x = 16 then b!"Unexpected characters"
  else if x = 17 then b!"Unexpected field"
  else if x = 18 then b!"Unexpected field offset"
  else if x = 19 then b!"Value out of range"
  else if x = 20 then b!"Invalid address format"
  else if x = 21 then b!"context prefix is invalid"
  else if x = 22 then b!"context unexpected size"
  else if x = 23 then b!"context invalid chars"
  else if x = 25 then b!"Required field nonce"
  else if x = 26 then b!"Required field method"
  else if x = 27 then b!"RuntimArg not found"
  else if x = 28 then b!"Invalid stored contract"
  else b!"Unrecognized error code"

/-! ### Status words (zxlib `apdu_codes.h`, assumed values) -/
section
scoped notation "swOk" => (0x9000 : Nat)
scoped notation "swExecution" => (0x6400 : Nat)
scoped notation "swWrongLength" => (0x6700 : Nat)
scoped notation "swTooSmall" => (0x6983 : Nat)
scoped notation "swDataInvalid" => (0x6984 : Nat)
scoped notation "swNotAllowed" => (0x6986 : Nat)
scoped notation "swNotInit" => (0x6987 : Nat)
scoped notation "swP1P2" => (0x6B00 : Nat)
scoped notation "swIns" => (0x6D00 : Nat)
scoped notation "swCla" => (0x6E00 : Nat)
scoped notation "swSignVerify" => (0x6F01 : Nat)
end

/-! ### Chunks -/

/-- `extractHDPath` (`apdu_handler.c:38-52`): 20 bytes are copied, then the first two words are checked. -/
def extractPath (rx : Bytes) : M Dev Unit := do
  require (rx.length - 5 ≥ 20) swWrongLength
  modify fun d => { d with hdPath := (rx.drop 5).take 20 }
  let p := (rx.drop 5).take 20
  require (leVal (p.take 4) = 0x8000002c ∧ leVal ((p.drop 4).take 4) = 0x800001fa) swDataInvalid

/-- `tx_append` (`common/tx.c:57`, external `buffering_append`): all or nothing; says whether everything was
stored. -/
def txAppend (pl : Platform) (xs : Bytes) : M Dev Bool := fun d =>
  if d.pos + xs.length ≤ pl.cap then
    .ok true { d with mem := d.mem.take d.pos ++ xs ++ d.mem.drop (d.pos + xs.length), pos := d.pos + xs.length }
  else .ok (xs.length == 0) d

/-- `process_chunk` (`apdu_handler.c:54-98`): the result is "this was the last chunk". -/
def processChunk (pl : Platform) (rx : Bytes) : M Dev Bool := do
  require (rx.getD 3 0 = 0) swP1P2
  require (rx.length ≥ 5) swWrongLength
  let p1 := rx.getD 2 0
  if p1 = 0 then do
    modify fun d => { d with pos := 0 }
    extractPath rx
    modify fun d => { d with txInit := true }
    pure false
  else if p1 = 1 ∨ p1 = 2 then do
    require (← get).txInit swNotInit
    if ← txAppend pl (rx.drop 5) then pure (p1 == 2)
    else do
      modify fun d => { d with txInit := false }
      fail swTooSmall
  else do
    modify fun d => { d with txInit := false }
    fail swP1P2

/-- Calls whose parser error is turned into one status word (`tx_parse_wasm`, `tx_validate_wasm`). -/
def orThrow (m : M Dev Unit) (before : Dev → Dev) (sw : Nat) : M Dev Unit := do
  match ← attempt m with
  | .ok _ => pure ()
  | .error _ => do
    modify before
    fail sw

/-- The buffer has just become full: parse what has arrived (`apdu_handler.c:128-134,142-148`). -/
def wasmFull (pl : Platform) (full : Bool) : M Dev Unit := do
  let d ← get
  if d.bufFull = false ∧ full = false then do
    orThrow (parseWasm pl) (fun d => { d with txInit := false }) swExecution
    modify fun d => { d with bufFull := true }
  else pure ()

/-- `process_wasm_chunk` (`apdu_handler.c:100-154`). -/
def processWasmChunk (pl : Platform) (rx : Bytes) : M Dev Bool := do
  require (rx.getD 3 0 = 0) swP1P2
  require (rx.length ≥ 5) swWrongLength
  let p1 := rx.getD 2 0
  if p1 = 0 then do
    modify fun d => { d with pos := 0 }
    extractPath rx
    modify fun d => { d with txInit := true, bufFull := false, wasmCounter := 0 }
    pure false
  else if p1 = 1 ∨ p1 = 2 then do
    require (← get).txInit swNotInit
    let full ← txAppend pl (rx.drop 5)
    wasmFull pl full
    pure (p1 == 2)
  else do
    modify fun d => { d with txInit := false }
    fail swP1P2

/-! ### Commands.  `fail sw` is `THROW(sw)`; a normal return leaves the answer pending. -/

/-- Answer a parser error with its text (`apdu_handler.c:240-245,263-268`). -/
def orExplain (m : M Dev Unit) : M Dev Unit := do
  match ← attempt m with
  | .ok _ => pure ()
  | .error x => do
    modify fun d => { d with io := poke d.io (errorText x), tx := (errorText x).length }
    fail swDataInvalid

/-- `handleSign` (`apdu_handler.c:229-251`). -/
def handleSign (pl : Platform) (rx : Bytes) : M Dev Unit := do
  if ← processChunk pl rx then do
    modify fun d => { d with txInit := false }
    orExplain (txParse pl)
    modify fun d => { d with review := some .tx }
  else fail swOk

/-- `handleSignMessage` (`apdu_handler.c:253-274`): `tx_initialized` is not cleared. -/
def handleSignMessage (pl : Platform) (rx : Bytes) : M Dev Unit := do
  if ← processChunk pl rx then do
    orExplain (parseMessage pl)
    modify fun d => { d with review := some .message }
  else fail swOk

/-- Parse at the end of the upload unless that was done before (`apdu_handler.c:173-176`). -/
def wasmEnd (pl : Platform) : M Dev Unit := do
  let d ← get
  if d.bufFull = false then orThrow (parseWasm pl) id swExecution else pure ()

/-- `handleSignWasm` (`apdu_handler.c:156-186`); `view_idle_show` takes a pending review off the screen. -/
def handleSignWasm (pl : Platform) (rx : Bytes) : M Dev Unit := do
  modify fun d => { d with wasmCounter := u32 (d.wasmCounter + 1) }
  if ← processWasmChunk pl rx then do
    modify fun d => { d with txInit := false, review := none }
    wasmEnd pl
    orThrow (txValidateWasm pl) id swExecution
    modify fun d => { d with review := some .wasm }
  else fail swOk

/-- `handle_getversion` (`apdu_handler.c:188-207`): release build, version 3.0.2; byte 4 is `!IS_UX_ALLOWED`. -/
def handleGetVersion (pl : Platform) (pin : Bool) : M Dev Unit := do
  modify fun d => { d with
    io := poke d.io ([0, 3, 0, 2, if pin then 0 else 1] ++ pl.targetId)
    tx := 5 + pl.targetId.length }
  fail swOk

/-- `crypto_fillAddress` (`crypto.c:213-239`): the 33-byte key, then 68 characters. -/
def addressAnswer (pl : Platform) (path : Bytes) : Option Bytes :=
  (pl.pubKey path).map fun k => k ++ encodeAddr pl.blake (2 :: k)

/-- `handleGetAddr` (`apdu_handler.c:209-227`) with `app_fill_address` (`common/actions.h:59-72`). -/
def handleGetAddr (pl : Platform) (rx : Bytes) : M Dev Unit := do
  extractPath rx
  let d ← get
  match addressAnswer pl d.hdPath with
  | none => do
    modify fun d => { d with io := List.replicate 260 0, addrLen := 0 }
    fail swExecution
  | some a => do
    modify fun d => { d with io := poke (List.replicate 260 0) a, addrLen := 101 }
    if rx.getD 2 0 ≠ 0 then modify fun d => { d with review := some .address }
    else do
      modify fun d => { d with tx := 101 }
      fail swOk

/-- The body of `handleApdu` (`apdu_handler.c:281-321`).  An empty command reads a stale class byte. -/
def dispatch (pl : Platform) (rx : Bytes) (pin : Bool) : M Dev Unit := do
  require ((← get).io.getD 0 0 = 0x11) swCla
  require (rx.length ≥ 5) swWrongLength
  let ins := rx.getD 1 0
  if ins = 0 then handleGetVersion pl pin
  else if ins = 1 ∨ ins = 2 ∨ ins = 3 ∨ ins = 4 then do
    require (pin = true) swNotAllowed
    if ins = 1 then handleGetAddr pl rx
    else if ins = 2 then handleSign pl rx
    else if ins = 3 then handleSignMessage pl rx
    else handleSignWasm pl rx
  else fail swIns

/-! ### Signing -/

/-- The bytes whose SHA-256 is signed: `app_sign` (`common/actions.h:31-45`) and `crypto_sign`
(`crypto.c:101-121`). -/
def signedBytes (pl : Platform) (d : Dev) : Res Unit Bytes :=
  let m := if (d.ctx.content = 0 ∧ d.dep.kind = 0) ∨ d.ctx.content = 1 then 1 else 0
  let at32 (off : Nat) : Res Unit Bytes :=
    if off + 32 ≤ pl.cap then .ok ((d.mem.drop off).take 32) () else .fault .oobRead
  if d.ctx.content = 0 then
    if d.dep.kind = 0 ∨ d.dep.kind = 2 then at32 (m + headerLength d.dep.header)
    else if d.dep.kind = 1 then .ok ((d.mem.drop m).take (u16 (u16 d.pos + 65536 - m))) ()
    else .err eUnexpectedError ()
  else at32 (m + (d.v1.md.size + d.v1.md.fo 0))

/-- What the outside sees after an event. -/
inductive Out where
  /-- data and status word -/
  | reply (data : Bytes) (sw : Nat)
  /-- a review is being shown, the answer will come later -/
  | pending
  /-- nothing happens -/
  | silent
  /-- undefined behaviour -/
  | crash (f : Fault)
  deriving DecidableEq, Repr

/-- Events: a command (with the PIN state), the user's decisions, switching expert mode in the menu (not possible
while a review is shown). -/
inductive Event where
  | apdu (rx : Bytes) (pin : Bool)
  | approve
  | reject
  | setExpert (b : Bool)
  deriving DecidableEq, Repr

/-- `app_sign` (`common/actions.h:31-54`). -/
def appSign (pl : Platform) (d : Dev) : Dev × Out :=
  match signedBytes pl d with
  | .fault f => (d, .crash f)
  | .err _ _ => ({ d with io := poke d.io [0x6F, 0x01] }, .reply [] swSignVerify)
  | .ok bytes _ =>
    match pl.sign d.hdPath (pl.sha256 bytes) with
    | none => ({ d with io := poke d.io [0x6F, 0x01] }, .reply [] swSignVerify)
    | some sig => ({ d with io := poke d.io sig }, .reply sig swOk)

/-- One event.  `handleApdu` (`apdu_handler.c:276-341`); decisions call the registered accept function or
`app_reject` (`common/actions.h:55-58`); `app_reply_address` (74-77). -/
def step (pl : Platform) (d : Dev) : Event → Dev × Out
  | .apdu rx pin =>
    match dispatch pl rx pin { d with io := poke d.io rx, tx := 0 } with
    | .ok _ d' => (d', .pending)
    | .err sw d' => (d', .reply (d'.io.take d'.tx) sw)
    | .fault f => (d, .crash f)
  | .approve =>
    match d.review with
    | none => (d, .silent)
    | some .address => ({ d with review := none }, .reply (d.io.take d.addrLen) swOk)
    | some _ => appSign pl { d with review := none }
  | .reject =>
    match d.review with
    | none => (d, .silent)
    | some _ => ({ d with review := none, io := poke d.io [0x69, 0x86] }, .reply [] swNotAllowed)
  | .setExpert b => if d.review = none then ({ d with expert := b }, .silent) else (d, .silent)

/-- A history of events: final state and outputs. -/
def run (pl : Platform) : Dev → List Event → Dev × List Out
  | d, [] => (d, [])
  | d, ev :: evs =>
    let r := step pl d ev
    let rest := run pl r.1 evs
    (rest.1, r.2 :: rest.2)

/-! ### What a pending review shows -/

/-- Announced number of items (`tx_getNumItems`, `tx_getMessageNumItems`, `tx_getWasmNumItems`,
`addr_getNumItems`). -/
def reviewCount (pl : Platform) (d : Dev) : Review → P Nat
  | .tx => parserNumItems (d.env pl) d
  | .message => pure 1
  | .wasm => pure 2
  | .address => pure (if d.expert then 2 else 1)

/-- `addr_getItem` (`addr.c:33-62`). -/
def addrItem (pl : Platform) (d : Dev) (idx : Nat) : P (Bytes × Bytes) :=
  if idx = 0 then pure (b!"Address", encodeAddr pl.blake (2 :: d.io.take 33))
  else if idx = 1 ∧ d.expert then pure (b!"Path", pl.pathText d.hdPath)
  else fail eNoData

/-- Item `idx` of the review (`tx_getItem`, `tx_getMessageItem`, `tx_getWasmItem`, `common/tx.c:101-189`).
`displayIdx` is an `int8_t`: `tx_getItem` refuses negative ones, i.e. indices from 128. -/
def reviewItem (pl : Platform) (d : Dev) (r : Review) (idx : Nat) : P (Bytes × Bytes) :=
  match r with
  | .tx => do
    let n ← parserNumItems (d.env pl) d
    if u8 idx ≥ 128 ∨ u8 idx > n then fail eNoData else parserItem d (d.env pl) (u8 idx)
  | .message => messageItem (d.env pl) (u8 idx)
  | .wasm => if d.ctx.obj = .deploy then wasmItem (d.env pl) d.dep (u8 idx) else abort .typeConfusion
  | .address => addrItem pl d (u8 idx)

end Casper
