import Verif.Model.RuntimeArgs
/-
Version 1 transactions (`app/src/parser_impl_transactionV1.c`).
-/
namespace Casper
open M

/-- `parser_header_txnV1_t` (`parser_txdef.h:107-114`). -/
structure V1Header where
  initMd : Nat := 0
  initLen : Nat := 0
  chainLen : Nat := 0
  pmode : Nat := 0
  pmMd : Nat := 0
  pmItems : Nat := 0
  deriving DecidableEq, Repr

/-- `target_t` (`parser_txdef.h:148-156`); `ptr` is the pointer `hash`/`name` as an index into the buffer. -/
structure Target where
  typ : Nat := 0
  ptr : Nat := 0
  nameLen : Nat := 0
  version : Nat := 0
  deriving DecidableEq, Repr

/-- `parser_tx_txnV1_t` (`parser_txdef.h:163-177`); `cepPtr` is `custom_entry_point` as an index. -/
structure V1 where
  md : Meta := {}
  header : V1Header := {}
  pmd : Meta := {}
  epType : Nat := 0
  cepPtr : Nat := 0
  cepLen : Nat := 0
  target : Target := {}
  argsOff : Nat := 0
  argsType : Nat := 0
  argsLen : Nat := 0
  numArgs : Nat := 0
  numItems : Nat := 0
  numApprovals : Nat := 0
  deriving DecidableEq, Repr

/-- State while a version 1 transaction is parsed. -/
structure VS where
  off : Nat
  v : V1
  deriving DecidableEq, Repr

/-- Run a cursor-only function. -/
def lv {α : Type} (m : P α) : M VS α := fun s =>
  match m s.off with
  | .ok a o => .ok a { s with off := o }
  | .err x o => .err x { s with off := o }
  | .fault f => .fault f

/-- Assign fields of `*v`. -/
def updV (f : V1 → V1) : M VS Unit := modify fun s => { s with v := f s.v }

/-- `INCR_NUM_ITEMS[_BY](v, false, k)` (`parser_impl_transactionV1.c:72-92`): `numItems` is a `uint8_t`. -/
def incr (k : Nat) : M VS Unit := updV fun v => { v with numItems := u8 (v.numItems + k) }

/-- `INCR_NUM_ITEMS[_BY](v, true, k)`. -/
def incrExpert (e : Env) (k : Nat) : M VS Unit := if e.expert then incr k else pure ()

/-- `PARSER_ASSERT_OR_ERROR(ctx->offset == field_offset, parser_unexpected_field_offset)` with
`field_offset = x` computed in `uint32_t`. -/
def atOff (x : Nat) : M VS Unit := fun s => if s.off = u32 x then .ok () s else .err eFieldOffset s

/-- `PAYLOAD_FIRST_FIELD_OFFSET` (`parser_impl_transactionV1.c:66-68`). -/
def payloadFirst (v : V1) : Nat := v.md.size + v.md.fo 1 + v.pmd.size

/-- The address proper in `read_initiator_address` (`parser_impl_transactionV1.c:367-379`). -/
def initiatorKey (e : Env) (tag : Nat) : P Unit := if tag = 0 then readPublicKey e else readHash

/-- `read_initiator_address` (`parser_impl_transactionV1.c:351-384`). -/
def readInitiator (e : Env) : M VS Unit := do
  let m ← lv (readMetadata e)
  let base := payloadFirst (← get).v + m.size
  require (m.numFields = 2) eNumberFields
  atOff (base + m.fo 0)
  updV fun v => { v with header := { v.header with initMd := m.size } }
  let tag ← lv (readU8 e)
  require (tag = 0 ∨ tag = 1) eUnexpectedValue
  atOff (base + m.fo 1)
  let start := (← get).off
  lv (initiatorKey e tag)
  atOff (base + m.fieldsSize)
  let off := (← get).off
  updV fun v => { v with header := { v.header with initLen := u8 (off + 4294967296 - start) } }

/-- `read_chain_name` (`parser_impl_transactionV1.c:386-391`): the length is truncated to 8 bits. -/
def readChainName (e : Env) : M VS Unit := do
  let len ← lv (readBytes e)
  updV fun v => { v with header := { v.header with chainLen := u8 len } }

/-- The fields of each pricing mode in `read_pricing_mode` (`parser_impl_transactionV1.c:409-440`). -/
def pricingFields (e : Env) (base : Nat) (m : Meta) (tag : Nat) : M VS Unit := do
  if tag = 0 then do
    let _ ← lv (readU64 e)
    atOff (base + m.fo 2)
    let _ ← lv (readU8 e)
    atOff (base + m.fo 3)
    let _ ← lv (readU8 e)
    pure ()
  else if tag = 1 then do
    let _ ← lv (readU8 e)
    atOff (base + m.fo 2)
    let _ ← lv (readU8 e)
    pure ()
  else if tag = 2 then lv readHash
  else fail eUnexpectedValue

/-- `read_pricing_mode` (`parser_impl_transactionV1.c:393-445`). -/
def readPricing (e : Env) : M VS Unit := do
  let m ← lv (readMetadata e)
  let v := (← get).v
  let base := payloadFirst v + v.pmd.fo 4 + m.size
  atOff (base + m.fo 0)
  updV fun v => { v with header := { v.header with pmMd := m.size, pmItems := 2 } }
  let tag ← lv (readU8 e)
  atOff (base + m.fo 1)
  pricingFields e base m tag
  atOff (base + m.fieldsSize)
  updV fun v => { v with header := { v.header with pmode := tag } }

/-- `read_txV1_header` (`parser_impl_transactionV1.c:307-349`). -/
def readV1Header (e : Env) : M VS Unit := do
  let v := (← get).v
  let base := payloadFirst v
  atOff (base + v.pmd.fo 0)
  readInitiator e
  incr 1
  atOff (base + v.pmd.fo 1)
  let _ ← lv (readU64 e)
  incrExpert e 1
  atOff (base + v.pmd.fo 2)
  let _ ← lv (readU64 e)
  incrExpert e 1
  atOff (base + v.pmd.fo 3)
  readChainName e
  incr 1
  atOff (base + v.pmd.fo 4)
  readPricing e
  atOff (base + v.pmd.fo 5)
  incrExpert e 1
  incrExpert e 1

/-- The loop over named arguments in `read_args` (`parser_impl_transactionV1.c:489-493`). -/
def readNamedArgs (e : Env) : Nat → P Unit
  | 0 => pure ()
  | n + 1 => do
    let _ ← readBytes e
    readClvalue e
    readNamedArgs e n

/-- `read_args` (`parser_impl_transactionV1.c:475-506`): the offset of the arguments is truncated to 8 bits. -/
def readArgs (e : Env) : M VS Unit := do
  let len ← lv (readU32 e)
  updV fun v => { v with argsLen := len }
  let tag ← lv (readU8 e)
  if tag = 0 then do
    updV fun v => { v with argsType := 0 }
    let n ← lv (readU32 e)
    modify fun s => { s with v := { s.v with numArgs := n, argsOff := u8 s.off } }
    lv (readNamedArgs e n)
  else if tag = 1 then do
    modify fun s => { s with v := { s.v with argsType := 1, argsOff := u8 (s.off + 4) } }
    let l ← lv (readBytes e)
    updV fun v => { v with argsLen := l }
  else fail eUnexpectedValue

/-- `read_field_key` (`parser_impl_transactionV1.c:508-515`). -/
def readKey (e : Env) (k : Nat) : M VS Unit := do
  let x ← lv (readU16 e)
  require (x = k) eUnexpectedValue

/-- The four kinds of stored targets (`parser_impl_transactionV1.c:549-584`). -/
def storedTarget (e : Env) (tag : Nat) : M VS Unit := do
  if tag = 0 then do
    modify fun s => { s with v := { s.v with target := { s.v.target with typ := 1, ptr := s.off } } }
    lv readHash
    incr 1
  else if tag = 1 then do
    modify fun s => { s with v := { s.v with target := { s.v.target with typ := 2, ptr := s.off + 4 } } }
    let len ← lv (readBytes e)
    updV fun v => { v with target := { v.target with nameLen := len } }
    incr 1
  else if tag = 2 then do
    modify fun s => { s with v := { s.v with target := { s.v.target with typ := 3, ptr := s.off } } }
    lv readHash
    let ver ← lv (readEntityVersion e)
    updV fun v => { v with target := { v.target with version := ver } }
    incr 1
    if ver ≠ noVersion then incrExpert e 1 else pure ()
  else if tag = 3 then do
    modify fun s => { s with v := { s.v with target := { s.v.target with typ := 4, ptr := s.off + 4 } } }
    let len ← lv (readBytes e)
    updV fun v => { v with target := { v.target with nameLen := len } }
    let ver ← lv (readEntityVersion e)
    updV fun v => { v with target := { v.target with version := ver } }
    incr 1
    if ver ≠ noVersion then incrExpert e 1 else pure ()
  else fail eUnexpectedValue

/-- Stored targets in `read_target` (`parser_impl_transactionV1.c:541-590`). -/
def readStored (e : Env) : M VS Unit := do
  let _ ← lv (readMetadata e)
  let tag ← lv (readU8 e)
  incr 1
  incr 1
  storedTarget e tag
  lv (readRuntime e)

/-- `read_target` (`parser_impl_transactionV1.c:517-611`). -/
def readTarget (e : Env) : M VS Unit := do
  let _ ← lv (readU32 e)
  let m ← lv (readMetadata e)
  let base := (← get).off
  atOff (base + m.fo 0)
  let tag ← lv (readU8 e)
  if tag = 0 then do
    atOff (base + m.fieldsSize)
    updV fun v => { v with target := { v.target with typ := 0 } }
  else if tag = 1 then do
    atOff (base + m.fo 1)
    readStored e
  else if tag = 2 then do
    atOff (base + m.fo 1)
    updV fun v => { v with target := { v.target with typ := 5 } }
    let _ ← lv (readBool e)
    lv (readRuntime e)
    let _ ← lv (readBytes e)
    pure ()
  else fail eUnexpectedValue

/-- The required named arguments per entry point (`check_sanity_native_transfer`,
`parser_impl_transactionV1.c:1555-1625`), in order of checking; the flag says that the type must be U512. -/
def requiredArgs (ep : Nat) : List (Bytes × Bool) :=
  if ep = 2 then [(b!"amount", true), (b!"target", false), (b!"id", false)]
  else if ep = 3 then [(b!"public_key", false), (b!"delegation_rate", false), (b!"amount", true),
    (b!"minimum_delegation_amount", false), (b!"maximum_delegation_amount", false)]
  else if ep = 4 then [(b!"public_key", false), (b!"amount", true)]
  else if ep = 5 ∨ ep = 6 then [(b!"delegator", false), (b!"validator", false), (b!"amount", true)]
  else if ep = 7 then [(b!"new_validator", false)]
  else if ep = 8 then [(b!"validator_public_key", false)]
  else if ep = 9 then [(b!"public_key", false), (b!"new_public_key", false)]
  else if ep = 10 then [(b!"reservations", false)]
  else if ep = 11 then [(b!"validator", false), (b!"delegators", false)]
  else if ep = 12 then [(b!"source", false), (b!"amount", true)]
  else []

/-- The lookups of `check_sanity_native_transfer`, each from the same cursor. -/
def checkRequired (e : Env) (start n : Nat) : List (Bytes × Bool) → P Unit
  | [] => pure ()
  | (name, big) :: rest => do
    set start
    let (_, t) ← getData e name n
    require (big = false ∨ t = 8) eUnexpectedValue
    checkRequired e start n rest

/-- `check_sanity_native_transfer` (`parser_impl_transactionV1.c:1542-1628`), on a copy of the context. -/
def checkSanity (e : Env) (v : V1) : P Unit := do
  if v.epType ≠ 1 ∧ v.target.typ ≠ 0 ∧ v.target.typ ≠ 5 then fail eInvalidStored
  else checkRequired e v.argsOff v.numArgs (requiredArgs v.epType)

/-- Run on a copy of the context: the cursor is unaffected. -/
def onCopy {α : Type} (m : P α) : M VS α := fun s =>
  match m s.off with
  | .ok a _ => .ok a s
  | .err x _ => .err x s
  | .fault f => .fault f

/-- Screens contributed by the entry point (`parser_impl_transactionV1.c:646-683`). -/
def entryItems (e : Env) (ep numArgs : Nat) : Nat :=
  if ep = 2 then (if e.expert then numArgs else 2)
  else if ep = 1 then 1
  else if ep = 10 then 2
  else if ep = 11 then 3
  else if ep = 0 then 0
  else numArgs

/-- The name of a custom entry point in `read_entry_point` (`parser_impl_transactionV1.c:631-637`). -/
def customName (e : Env) (x tag : Nat) : M VS Unit := do
  if tag = 1 then do
    atOff x
    modify fun s => { s with v := { s.v with cepPtr := s.off + 4 } }
    let len ← lv (readBytes e)
    updV fun v => { v with cepLen := len }
  else pure ()

/-- `read_entry_point` (`parser_impl_transactionV1.c:613-692`). -/
def readEntryPoint (e : Env) : M VS Unit := do
  let _ ← lv (readU32 e)
  let m ← lv (readMetadata e)
  let base := (← get).off
  atOff (base + m.fo 0)
  let tag ← lv (readU8 e)
  require (tag ≤ 12) eUnexpectedValue
  customName e (base + m.fo 1) tag
  atOff (base + m.fieldsSize)
  updV fun v => { v with epType := tag }
  incr 1
  incr (entryItems e tag (← get).v.numArgs)
  let v := (← get).v
  onCopy (checkSanity e v)

/-- `read_scheduling` (`parser_impl_transactionV1.c:694-720`). -/
def readScheduling (e : Env) : M VS Unit := do
  let _ ← lv (readU32 e)
  let m ← lv (readMetadata e)
  let base := (← get).off
  atOff (base + m.fo 0)
  let tag ← lv (readU8 e)
  require (tag = 0) eUnexpectedValue
  atOff (base + m.fieldsSize)

/-- `read_txV1_body_fields` (`parser_impl_transactionV1.c:447-473`). -/
def readBody (e : Env) : M VS Unit := do
  let n ← lv (readU32 e)
  require (n = 4) eUnexpectedValue
  readKey e 0
  readArgs e
  readKey e 1
  readTarget e
  readKey e 2
  readEntryPoint e
  readKey e 3
  readScheduling e

/-- `read_txV1_payload` (`parser_impl_transactionV1.c:270-289`). -/
def readPayload (e : Env) : M VS Unit := do
  let m ← lv (readMetadata e)
  updV fun v => { v with pmd := m }
  let base := payloadFirst (← get).v
  atOff (base + m.fo 0)
  readV1Header e
  atOff (base + m.fo 5)
  readBody e
  atOff (base + m.fieldsSize)

/-- The loop of `read_txV1_approvals` (`parser_impl_transactionV1.c:297-300`). -/
def readApprovalList (e : Env) : Nat → P Unit
  | 0 => pure ()
  | n + 1 => do
    readPublicKey e
    readSignature e
    readApprovalList e n

/-- `read_txV1_approvals` (`parser_impl_transactionV1.c:291-305`). -/
def readApprovals (e : Env) : M VS Unit := do
  let n ← lv (readU32 e)
  updV fun v => { v with numApprovals := u8 n }
  lv (readApprovalList e n)
  incrExpert e 1

/-- `parser_read_transactionV1` (`parser_impl_transactionV1.c:231-260`), with `read_txV1_hash` (262-268). -/
def readV1 (e : Env) : M VS Unit := do
  require (e.buf.length ≠ 0) eUnexpectedValue
  let m ← lv (readMetadata e)
  updV fun v => { v with md := m }
  atOff (m.size + m.fo 0)
  lv readHash
  incr 1
  atOff (m.size + m.fo 1)
  readPayload e
  atOff (m.size + m.fo 2)
  readApprovals e
  atOff (m.size + m.fieldsSize)

/-- `_validateTxV1` (`parser_impl_transactionV1.c:722-736`). -/
def validateV1 (e : Env) (v : V1) : P Unit := do
  let hash ← slice e (v.md.size + v.md.fo 0) 32
  let payload ← slice e (v.md.size + v.md.fo 1) (v.pmd.size + v.pmd.fieldsSize)
  require (e.blake payload = hash) eMismatch

/-! ### Rendering -/

/-- Header parts of `index_headerpart_txnV1`. -/
inductive VPart where
  | initiator | timestamp | ttl | chainname | pricing | gasprice
  deriving DecidableEq, Repr

/-- The offsets of `index_headerpart_txnV1` (`parser_impl_transactionV1.c:181-222`), in `uint16_t`. -/
def vIndex (v : V1) : VPart → Nat
  | .initiator => u16 (v.md.size + v.md.fo 1 + v.pmd.size + v.header.initMd + 1)
  | .timestamp => u16 (v.md.size + v.md.fo 1 + v.pmd.size + v.header.initMd + 1 + v.header.initLen)
  | .ttl => u16 (v.md.size + v.md.fo 1 + v.pmd.size + v.header.initMd + 1 + v.header.initLen + 8)
  | .chainname => u16 (v.md.size + v.md.fo 1 + v.pmd.size + v.header.initMd + 1 + v.header.initLen + 8 + 8 + 4)
  | .pricing => u16 (v.md.size + v.md.fo 1 + v.pmd.size + v.header.initMd + 1 + v.header.initLen + 8 + 8 + 4
      + v.header.chainLen + v.header.pmMd + 1)
  | .gasprice => u16 (v.md.size + v.md.fo 1 + v.pmd.size + v.header.initMd + 1 + v.header.initLen + 8 + 8 + 4
      + v.header.chainLen + v.header.pmMd + 1 + (if v.header.pmode = 0 then 8 else 0))

/-- `index_headerpart_txnV1` (`parser_impl_transactionV1.c:181-229`). -/
def indexV (e : Env) (v : V1) (p : VPart) : P Unit := do
  set (vIndex v p)
  if vIndex v p > e.buf.length then fail eBufferEnd else pure ()

/-- `entry_point_to_str` (`parser_impl_transactionV1.c:740-784`). -/
def entryName (ep : Nat) : Bytes :=
  if ep = 0 then b!"Call"
  else if ep = 1 then b!"Contract Execution"
  else if ep = 2 then b!"Transfer"
  else if ep = 3 then b!"Add Bid"
  else if ep = 4 then b!"Withdraw Bid"
  else if ep = 5 then b!"Delegate"
  else if ep = 6 then b!"Undelegate"
  else if ep = 7 then b!"Redelegate"
  else if ep = 8 then b!"Activate Bid"
  else if ep = 9 then b!"Change Bid PK"
  else if ep = 10 then b!"Add Reservations"
  else if ep = 11 then b!"Cancel Reservations"
  else if ep = 12 then b!"Burn"
  else b!"Unknown"

/-- Contract of the external `uint64_to_str` into an array of `cap` bytes. -/
def numStr (e : Env) (cap n : Nat) : Bytes :=
  if (decimal n).length < cap then decimal n else (cstr (e.overlong cap n)).take (cap - 1)

/-- The text "Payment" shows in the classic pricing mode (`parser_impl_transactionV1.c:1129-1136`); a failed
grouping leaves the text empty. -/
def paymentText (e : Env) (v : Nat) : P Bytes :=
  match addThousand 30 (numStr e 20 v) with
  | .ok t => pure t
  | .err _ => pure []
  | .fault f => abort f

/-- Values of `parser_getItem_pricing_mode` (`parser_impl_transactionV1.c:1118-1168`). -/
def pricingValue (e : Env) (v : V1) (i : Nat) : P Bytes := do
  if i = 0 then
    if v.header.pmode = 0 then do
      indexV e v .pricing
      let x ← readU64 e
      paymentText e x
    else if v.header.pmode = 1 then pure b!"Fixed"
    else if v.header.pmode = 2 then pure b!"Prepaid"
    else fail eUnexpectedValue
  else if v.header.pmode = 0 ∨ v.header.pmode = 1 then do
    indexV e v .gasprice
    let x ← readU8 e
    pure (numStr e 8 x)
  else do
    indexV e v .pricing
    let off ← get
    printBytes e off 32

/-- Keys of `parser_getItem_pricing_mode`. -/
def pricingKey (v : V1) (i : Nat) : Bytes :=
  if i = 0 then b!"Payment"
  else if v.header.pmode = 0 ∨ v.header.pmode = 1 then b!"Max gs prce"
  else b!"Receipt"

/-- The call of `parser_getItem_pricing_mode` in `_getItemTxV1` (`parser_impl_transactionV1.c:853-856`): its error is
ignored, the value then stays "?". -/
def itemPricing (e : Env) (v : V1) (i : Nat) : P (Bytes × Bytes) := do
  match ← attempt (pricingValue e v i) with
  | .ok x => pure (pricingKey v i, x)
  | .error _ => pure (pricingKey v i, b!"?")

/-- `snprintf(tmpBuf[100], "%.*s", len, ptr)` then `pageString`: at most 99 bytes are read. -/
def printfStr (e : Env) (ptr len : Nat) : P Bytes := do
  let xs ← slice e ptr (min len 99)
  pure (cstr xs)

/-- "Args hash" of `parser_getItem_txV1_Custom` (`parser_impl_transactionV1.c:1044-1056`). -/
def customHash (e : Env) (v : V1) : P (Bytes × Bytes) := do
  if v.argsType = 0 then
    if v.argsOff < 4 then abort .oobRead
    else do
      let xs ← slice e (v.argsOff - 4) (u32 (v.argsLen + 4294967295))
      pure (b!"Args hash", encodeChecksum e.blake (e.blake xs))
  else do
    let xs ← slice e v.argsOff v.argsLen
    pure (b!"Args hash", encodeChecksum e.blake (e.blake xs))

/-- Entry point line. -/
def customEntry (e : Env) (v : V1) : P (Bytes × Bytes) := do
  let t ← printfStr e v.cepPtr v.cepLen
  pure (b!"Entry-point", t)

/-- `parser_getItem_txV1_Custom` (`parser_impl_transactionV1.c:921-1057`); `i` is `displayIdx - 8`. -/
def itemCustom (e : Env) (v : V1) (i : Nat) : P (Bytes × Bytes) := do
  if i ≥ u32 (v.numItems + 4294967296 - (if e.expert then 9 else 4)) then fail eNoData
  else if v.target.typ = 1 ∨ v.target.typ = 2 then
    if i = 0 then pure (b!"Execution", if v.target.typ = 1 then b!"by-hash" else b!"by-name")
    else if i = 1 then
      if v.target.typ = 1 then do
        let t ← printByHash e v.target.ptr 32
        pure (b!"Address", t)
      else do
        let t ← printfStr e v.target.ptr v.target.nameLen
        pure (b!"Name", t)
    else if i = 2 then customEntry e v
    else customHash e v
  else if v.target.typ = 3 ∨ v.target.typ = 4 then
    if i = 0 then pure (b!"Execution", if v.target.typ = 3 then b!"by-hash-versioned" else b!"by-name-versioned")
    else if i = 1 then
      if v.target.typ = 3 then do
        let t ← printByHash e v.target.ptr 32
        pure (b!"Address", t)
      else do
        let t ← printfStr e v.target.ptr v.target.nameLen
        pure (b!"Name", t)
    else if e.expert ∧ i = 2 then
      if v.target.version ≠ noVersion then pure (b!"Version", decimal v.target.version)
      else pure (b!"?", b!"?")
    else if (if e.expert then i else i + 1) = 3 then customEntry e v
    else customHash e v
  else customHash e v

/-- `parser_getItem_txV1_Transfer` (`parser_impl_transactionV1.c:1059-1116`). -/
def itemTransfer (e : Env) (v : V1) (i : Nat) : P (Bytes × Bytes) := do
  let start ← get
  let n := v.numArgs
  if i ≥ n then fail eNoData
  else if e.expert then
    match ← attempt (getData e b!"source" n) with
    | .ok (len, t) =>
      if i = 0 then do
        let x ← displayArg e t len
        pure (b!"From", x)
      else do
        set start
        if i = 1 then showArg e b!"Target" b!"target" n
        else if i = 2 then showMotes e b!"Amount" b!"amount" n
        else if i = 3 then showArg e b!"ID" b!"id" n
        else pure (b!"?", b!"?")
    | .error x =>
      set start
      if x ≠ eNoData then fail x
      else if i + 1 = 1 then showArg e b!"Target" b!"target" n
      else if i + 1 = 2 then showMotes e b!"Amount" b!"amount" n
      else if i + 1 = 3 then showArg e b!"ID" b!"id" n
      else pure (b!"?", b!"?")
  else if i + 1 = 1 then showArg e b!"Target" b!"target" n
  else if i + 1 = 2 then showMotes e b!"Amount" b!"amount" n
  else pure (b!"?", b!"?")

/-- `parser_getItem_txV1_Redelegate` (`parser_impl_transactionV1.c:1302-1385`). -/
def itemRedelegate (e : Env) (v : V1) (i : Nat) : P (Bytes × Bytes) := do
  let start ← get
  let n := v.numArgs
  if i ≥ n then fail eNoData
  else
    let exists_ (name : Bytes) : P Bool := do
      match ← attempt (getData e name n) with
      | .ok _ => do
        set start
        pure true
      | .error x =>
        if x ≠ eNoData then fail x
        else do
          set start
          pure false
    let d ← exists_ b!"delegator"
    let o ← exists_ b!"validator"
    let a ← exists_ b!"amount"
    if d ∧ i = 0 then showArg e b!"Delegator" b!"delegator" n
    else
      let i1 := if d then i else i + 1
      if o ∧ i1 = 1 then showArg e b!"Old" b!"validator" n
      else
        let i2 := if o then i1 else i1 + 1
        if i2 = 2 then showArg e b!"New" b!"new_validator" n
        else if a ∧ i2 = 3 then showMotes e b!"Amount" b!"amount" n
        else pure (b!"?", b!"?")

/-- The simple tables of `parser_getItem_txV1_{AddBid,WithdrawBid,Delegate,ActivateBid,ChangePublicKey}`
(`parser_impl_transactionV1.c:1170-1300,1387-1438`): label, argument, shown as motes. -/
def argTable (ep : Nat) : List (Bytes × Bytes × Bool) :=
  if ep = 3 then [(b!"Pk", b!"public_key", false), (b!"Deleg. rate", b!"delegation_rate", false),
    (b!"Amount", b!"amount", true), (b!"Min. amount", b!"minimum_delegation_amount", false),
    (b!"Max. amount", b!"maximum_delegation_amount", false), (b!"Rsrvd slots", b!"reserved_slots", false)]
  else if ep = 4 then [(b!"Pk", b!"public_key", false), (b!"Amount", b!"amount", true)]
  else if ep = 5 ∨ ep = 6 then [(b!"Delegator", b!"delegator", false), (b!"Validator", b!"validator", false),
    (b!"Amount", b!"amount", true)]
  else if ep = 8 then [(b!"Validtr pk", b!"validator_public_key", false)]
  else if ep = 9 then [(b!"Pk", b!"public_key", false), (b!"New pk", b!"new_public_key", false)]
  else []

/-- Those five functions. -/
def itemTable (e : Env) (v : V1) (i : Nat) : P (Bytes × Bytes) := do
  if i ≥ v.numArgs then fail eNoData
  else
    match (argTable v.epType)[i]? with
    | none => pure (b!"?", b!"?")
    | some (key, name, motes) =>
      if motes then showMotes e key name v.numArgs else showArg e key name v.numArgs

/-- `parser_getItem_txV1_AddReservations` (`parser_impl_transactionV1.c:1440-1470`): the lookup covers two
arguments. -/
def itemAddRsv (e : Env) (i : Nat) : P (Bytes × Bytes) := do
  if i ≥ 2 then fail eNoData
  else
    let (len, _) ← getData e b!"reservations" 2
    let off ← get
    if i = 0 then do
      let b ← byteAt e off
      pure (b!"Rsrv len", decimal b)
    else do
      let xs ← slice e off len
      pure (b!"Rsrv hash", encodeChecksum e.blake (e.blake xs))

/-- `parser_getItem_txV1_CancelReservations` (`parser_impl_transactionV1.c:1472-1511`): the lookup covers three
arguments. -/
def itemCancelRsv (e : Env) (i : Nat) : P (Bytes × Bytes) := do
  if i ≥ 3 then fail eNoData
  else if i = 0 then showArg e b!"Validator" b!"validator" 3
  else
    let (len, _) ← getData e b!"delegators" 3
    let off ← get
    if i = 1 then do
      let b ← byteAt e off
      pure (b!"Dlgtrs len", decimal b)
    else do
      let xs ← slice e off len
      pure (b!"Dlgtrs hash", encodeChecksum e.blake (e.blake xs))

/-- `parser_getItem_txV1_Burn` (`parser_impl_transactionV1.c:1513-1540`). -/
def itemBurn (e : Env) (v : V1) (i : Nat) : P (Bytes × Bytes) := do
  let start ← get
  let n := v.numArgs
  if i ≥ n then fail eNoData
  else
    match ← attempt (getData e b!"source" n) with
    | .ok (len, t) =>
      if i = 0 then do
        let x ← displayArg e t len
        pure (b!"Source", x)
      else do
        set start
        showMotes e b!"Amount" b!"amount" n
    | .error _ => do
      set start
      showMotes e b!"Amount" b!"amount" n

/-- The switch over entry points (`parser_impl_transactionV1.c:863-907`); "Call" falls through to "?". -/
def itemEntry (e : Env) (v : V1) (i : Nat) : P (Bytes × Bytes) := do
  seek v.argsOff
  if v.epType = 1 then itemCustom e v i
  else if v.epType = 2 then itemTransfer e v i
  else if v.epType = 7 then itemRedelegate e v i
  else if v.epType = 10 then itemAddRsv e i
  else if v.epType = 11 then itemCancelRsv e i
  else if v.epType = 12 then itemBurn e v i
  else if v.epType = 0 ∨ v.epType > 12 then pure (b!"?", b!"?")
  else itemTable e v i

/-- `_getItemTxV1` (`parser_impl_transactionV1.c:786-919`). -/
def getItemV1 (e : Env) (v : V1) (idx : Nat) : P (Bytes × Bytes) := do
  if idx ≥ v.numItems then fail eNoData
  else
    let toShow := if e.expert then u16 (v.numItems + 65536 - 9) else u16 (v.numItems + 65536 - (2 + v.header.pmItems))
    if idx = 0 then do
      seek (v.md.size + v.md.fo 0)
      let off ← get
      let t ← printBytes e off 32
      pure (b!"Txn hash", t)
    else if idx = 1 then pure (b!"Type", entryName v.epType)
    else if idx = 2 then do
      indexV e v .chainname
      let off ← get
      let t ← displayString e off v.header.chainLen
      pure (b!"Chain ID", t)
    else if idx = 3 then do
      indexV e v .initiator
      let off ← get
      let t ← printBytes e off v.header.initLen
      pure (b!"Account", t)
    else if e.expert then
      if idx = 4 then do
        indexV e v .timestamp
        let x ← readU64 e
        match e.fmtTime (x / 1000) with
        | none => fail eUnexpectedError
        | some t => pure (b!"Timestamp", t)
      else if idx = 5 then do
        indexV e v .ttl
        let x ← readU64 e
        let t ← ttlText (x / 1000) 100
        pure (b!"Ttl", t)
      else if idx < 6 + v.header.pmItems then itemPricing e v (idx - 6)
      else if 8 ≤ idx ∧ idx < 8 + toShow ∧ v.epType ≠ 0 then itemEntry e v (idx - 8)
      else if idx ≥ 8 + toShow then pure (b!"Approvals #", decimal v.numApprovals)
      else pure (b!"?", b!"?")
    else
      let d := u8 (idx + 2 + v.header.pmItems)
      if 8 ≤ d ∧ d < 8 + toShow then itemEntry e v (d - 8)
      else pure (b!"?", b!"?")

end Casper
