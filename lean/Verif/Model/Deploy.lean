import Verif.Model.RuntimeArgs
/-
Deploys: header arithmetic, executable items, special forms, validation, rendering
(`app/src/parser_impl_deploy.c`, `app/src/parser_special.c`).
-/
namespace Casper
open M

/-- `parser_header_deploy_t` (`parser_txdef.h:41-45`). -/
structure Header where
  pubkeyType : Nat := 0
  deps : Nat := 0
  chainLen : Nat := 0
  deriving DecidableEq, Repr

/-! Values of `special_deploy_e` (`parser_txdef.h:60-67`), and the marker 255 of `parser_impl_deploy.c:237`. -/
abbrev spGeneric : Nat := 0
abbrev spSystemPayment : Nat := 1
abbrev spNativeTransfer : Nat := 2
abbrev spDelegate : Nat := 3
abbrev spUnDelegate : Nat := 4
abbrev spReDelegate : Nat := 5

/-! Values of `deploy_type_e` (`parser_txdef.h:50-57`). -/
abbrev tyModuleBytes : Nat := 0
abbrev tyByHash : Nat := 1
abbrev tyByName : Nat := 2
abbrev tyVerByHash : Nat := 3
abbrev tyVerByName : Nat := 4
abbrev tyTransfer : Nat := 5

/-- `ExecutableDeployItem` (`parser_txdef.h:80-91`). -/
structure Item where
  typ : Nat := 0
  special : Nat := 0
  total : Nat := 0
  fixed : Nat := 0
  runtime : Nat := 0
  generic : Nat := 0
  itemOffset : Nat := 0
  hasAmount : Bool := false
  deriving DecidableEq, Repr

/-- `parser_tx_deploy_t` (`parser_txdef.h:93-99`); `kind` is the field `type`: 0 transaction, 1 message, 2 wasm. -/
structure Deploy where
  header : Header := {}
  payment : Item := {}
  session : Item := {}
  kind : Nat := 0
  deriving DecidableEq, Repr

/-- State while one item is parsed: the cursor, the global `entry_point_offset` (`parser_special.c:29`) and
`*item`. -/
structure IS where
  off : Nat
  epo : Nat
  item : Item
  deriving DecidableEq, Repr

/-- Run a cursor-only function while parsing an item. -/
def lp {α : Type} (m : P α) : M IS α := fun s =>
  match m s.off with
  | .ok a o => .ok a { s with off := o }
  | .err x o => .err x { s with off := o }
  | .fault f => .fault f

/-- Assign a field of `*item`. -/
def upd (f : Item → Item) : M IS Unit := modify fun s => { s with item := f s.item }

/-! ### Header arithmetic -/

/-- Length of the key with its tag (`parser_impl_deploy.c:39,49`). -/
def pkLen (h : Header) : Nat := 1 + (if h.pubkeyType = 2 then 33 else 32)

/-- `header_length_deploy` (`parser_impl_deploy.c:38-44`), all in `uint16_t`. -/
def headerLength (h : Header) : Nat :=
  u16 (pkLen h + 56 + u16 (4 + h.deps * 32) + u16 (4 + h.chainLen))

/-- `header_part_e` (`parser_txdef.h`) for the deploy header. -/
inductive HPart where
  | pubkey | timestamp | ttl | gasprice | bodyhash | deps | chainname
  deriving DecidableEq, Repr

/-- The value assigned to the cursor (`parser_impl_deploy.c:51-85`). -/
def partIndex (h : Header) : HPart → Nat
  | .pubkey => 0
  | .timestamp => pkLen h
  | .ttl => pkLen h + 8
  | .gasprice => pkLen h + 16
  | .bodyhash => pkLen h + 24
  | .deps => pkLen h + 56
  | .chainname => u16 (pkLen h + 56 + u16 (4 + h.deps * 32))

/-- `index_headerpart_deploy` (`parser_impl_deploy.c:46-96`). -/
def indexPart (e : Env) (h : Header) (p : HPart) : P Unit := do
  set (partIndex h p)
  if partIndex h p > e.buf.length then fail eBufferEnd else pure ()

/-! ### Special forms: parsing -/

/-- Admissible types of the native transfer arguments (`parser_special.c:163-173`). -/
def isU512 (t _it : Nat) : Bool := t == 8
def isId (t it : Nat) : Bool := (t == 13 && it == 5) || t == 5
def isAccount (t _it : Nat) : Bool := t == 11 || t == 12 || t == 15 || t == 22
def isPublicKey (t _it : Nat) : Bool := t == 22
def isAmount (t _it : Nat) : Bool := t == 8 || t == 4

/-- `num_args_found` after counting; `none` when `COUNT_RUNTIME_ARGTYPE` returned `parser_ok` from the enclosing
function. -/
def countStep (acc : Nat) : Count → Option Nat
  | .found => some (acc + 1)
  | .skip => some acc
  | .returnOk => none

/-- `checkNativeTransferArgs` (`parser_special.c:155-177`): returns `*fitems` (still 0 when a COUNT macro returns
early). -/
def checkTransferArgs (e : Env) (n : Nat) : P Nat := do
  checkArg e n b!"amount" isU512
  match countStep 0 (← countArg e n b!"amount" isU512) with
  | none => pure 0
  | some a =>
    match countStep a (← countArg e n b!"id" isId) with
    | none => pure 0
    | some b =>
      match countStep b (← countArg e n b!"target" isAccount) with
      | none => pure 0
      | some c =>
        if n = 4 then
          match countStep c (← countArg e n b!"source" isAccount) with
          | none => pure 0
          | some d => pure d
        else pure c

/-- `parseNativeTransfer` (`parser_special.c:179-216`); `num_items - found_items` is a `uint32_t`. -/
def parseNativeTransfer (e : Env) (n : Nat) : M IS Unit := do
  let found ← lp (checkTransferArgs e n)
  let uitems := u32 (n + 4294967296 - found)
  if uitems = 0 then
    if found = 3 ∨ found = 4 then
      upd fun i => { i with runtime := i.runtime + (if e.expert then n else 2), generic := 0 }
    else do
      upd fun i => { i with runtime := i.runtime + found, generic := 0 }
      fail eNumberItems
  else upd fun i => { i with generic := 1, runtime := i.runtime + 1 }

/-- `checkForSystemPaymentArgs` (`parser_special.c:218-228`). -/
def checkPaymentArgs (e : Env) (n : Nat) : M IS Unit := do
  require (n = 1) eNumberItems
  lp (checkArg e n b!"amount" isU512)
  upd fun i => { i with hasAmount := true }

/-- `parseSystemPayment` (`parser_special.c:230-251`). -/
def parseSystemPayment (e : Env) (n : Nat) : M IS Unit := do
  if n = 0 then fail eNumberItems
  else
    match ← attempt (checkPaymentArgs e n) with
    | .ok _ => upd fun i => { i with generic := 0, runtime := i.runtime + 1 }
    | .error x =>
      if x ≠ eNumberItems ∧ x ≠ eArgNotFound ∧ x ≠ eUnexpectedType then fail x
      else upd fun i => { i with generic := 1, runtime := i.runtime + 1 }

/-- `checkForDelegationItems` (`parser_special.c:593-629`). -/
def checkDelegationItems (e : Env) (n : Nat) (redelegate : Bool) : M IS Unit := do
  match countStep 0 (← lp (countArg e n b!"amount" isAmount)) with
  | none => pure ()
  | some a =>
    upd fun i => { i with hasAmount := a == 1 }
    match countStep a (← lp (countArg e n b!"delegator" isPublicKey)) with
    | none => pure ()
    | some b =>
      match countStep b (← lp (countArg e n b!"validator" isPublicKey)) with
      | none => pure ()
      | some found =>
        lp (checkArg e n b!"delegator" isPublicKey)
        lp (checkArg e n b!"validator" isPublicKey)
        lp (checkArg e n b!"amount" isAmount)
        let s ← get
        if s.item.special = spGeneric then
          upd fun i => { i with runtime := i.runtime + 2, fixed := u32 (found + 4294967295), generic := 1 }
        else if redelegate then do
          lp (checkArg e n b!"new_validator" isPublicKey)
          upd fun i => { i with runtime := i.runtime + 4 }
        else upd fun i => { i with runtime := i.runtime + 3 }

/-- The `special_type` chosen from the text after the cursor (`parser_special.c:667-683`): the unchecked copy into
`buffer[100]` and the comparisons. -/
def auctionKind (e : Env) : P Nat := do
  let len ← readU32 e
  let off ← get
  if len > 100 then abort .oobWrite
  else
    let xs ← slice e off len
    if len = 8 ∧ xs = b!"delegate" then pure spDelegate
    else if len = 10 ∧ xs = b!"undelegate" then pure spUnDelegate
    else if len = 10 ∧ xs = b!"redelegate" then pure spReDelegate
    else pure spGeneric

/-- The part of `parseDelegation` for module bytes (`parser_special.c:637-686`): returns
`(redelegation, hasAuction)`. -/
def parseAuction (e : Env) (n : Nat) : M IS (Bool × Bool) := do
  let start := (← get).off
  upd fun i => { i with itemOffset := start }
  let redel ← attempt (lp (searchArgs e b!"new_validator" n))
  let redel := match redel with | .ok _ => true | .error _ => false
  let hasAuction ← (do
    match ← attempt (lp (getData e b!"auction" n)) with
    | .ok (len, t) =>
      require (t = 10) eUnexpectedType
      let off := (← get).off
      require (len ≤ 100 ∧ e.buf.length ≥ u32 (off + len)) eBufferEnd
      pure true
    | .error x =>
      if x ≠ eNoData then fail x
      else if e.wasm then fail eNoData
      else do
        upd fun i => { i with generic := 1, itemOffset := u32 (i.itemOffset + 4294967292) }
        pure false)
  let k ← lp (auctionKind e)
  upd fun i => { i with special := k }
  lp (set start)
  pure (redel, hasAuction)

/-- A redelegation needs its new validator (`parser_special.c:688-691`). -/
def checkNewValidator (e : Env) (n : Nat) (redel : Bool) : M IS Unit :=
  if redel then lp (checkArg e n b!"new_validator" isPublicKey) else pure ()

/-- Lines for the arguments (`parser_special.c:693-709`). -/
def delegationLines (e : Env) (n : Nat) (redel : Bool) : M IS Unit := do
  match ← attempt (checkDelegationItems e n redel) with
  | .ok _ => pure ()
  | .error x =>
    if x = eArgNotFound ∨ x = eUnexpectedType then do
      let am ← attempt (lp (searchArgs e b!"amount" n))
      let add := match am with | .ok _ => 1 | .error _ => 0
      upd fun i => { i with runtime := i.runtime + (1 + add), fixed := 2, generic := 1 }
    else fail x

/-- The end of `parseDelegation` (`parser_special.c:711-729`). -/
def finishDelegation (e : Env) (hasAuction : Bool) : M IS Unit := do
  upd fun i => if i.special = spGeneric then { i with generic := 1 } else i
  if e.expert && hasAuction then
    upd fun i =>
      let ver := if i.typ = tyVerByHash ∨ i.typ = tyVerByName then 1 else 0
      { i with fixed := 2 + ver + (if i.generic ≠ 0 then 1 else 0) }
  else pure ()

/-- `parseDelegation` (`parser_special.c:631-730`). -/
def parseDelegation (e : Env) (n : Nat) (redelegation : Bool) : M IS Unit := do
  let isModule : Bool := (← get).item.typ == tyModuleBytes
  let (redel, hasAuction) ← (if isModule then parseAuction e n else pure (redelegation, true))
  checkNewValidator e n redel
  delegationLines e n redel
  finishDelegation e hasAuction

/-! ### Executable items: parsing -/

/-- `parse_version` (`parser_impl_deploy.c:152-163`). -/
def parseVersion (e : Env) : P Nat := do
  let t ← readU8 e
  if t = 0 then pure 0
  else if t = 1 then readU32 e
  else fail eUnknownPrefix

/-- Common tail: `parseRuntimeArgs`, then `parseTotalLength(ctx, start, &item->totalLength)`. -/
def finishItem (e : Env) (n start : Nat) : M IS Unit := do
  lp (parseArgs e n)
  let t ← lp (totalLength start)
  upd fun i => { i with total := t }

/-- The choice of `special_type` by entry point name (`parser_impl_deploy.c:175-187`). -/
def entryKind (name : Bytes) (old : Nat) : Nat :=
  if cstr name = b!"delegate" then spDelegate
  else if cstr name = b!"undelegate" then spUnDelegate
  else if cstr name = b!"redelegate" then spReDelegate
  else if old = 255 then spGeneric else old

/-- `check_entrypoint` (`parser_impl_deploy.c:165-193`): returns the number of arguments. -/
def checkEntrypoint (e : Env) : M IS Nat := do
  modify fun s => { s with epo := s.off }
  let name ← lp (copyItem e 100)
  modify fun s => { s with item := { s.item with itemOffset := s.off } }
  let n ← lp (readU32 e)
  upd fun i => { i with special := entryKind name i.special }
  parseDelegation e n (cstr name = b!"redelegate")
  pure n

/-- `parseModuleBytes` (`parser_impl_deploy.c:124-139`). -/
def parseModuleBytes (e : Env) (payment : Bool) : M IS Unit := do
  let start := (← get).off
  lp (parseItem e)
  let n ← lp (readU32 e)
  if payment then do
    parseSystemPayment e n
    upd fun i => { i with special := spSystemPayment }
  else parseDelegation e n false
  finishItem e n start

/-- `parseTransfer` (`parser_impl_deploy.c:141-150`). -/
def parseTransfer (e : Env) : M IS Unit := do
  let start := (← get).off
  let n ← lp (readU32 e)
  parseNativeTransfer e n
  upd fun i => { i with special := spNativeTransfer }
  finishItem e n start

/-- Version bytes of a versioned item (`parser_impl_deploy.c:199-204,217-222`). -/
def versionStep (e : Env) (ver : Bool) : M IS Unit := do
  if ver then do
    let _ ← lp (parseVersion e)
    if e.expert then upd fun i => { i with fixed := i.fixed + 1 } else pure ()
  else pure ()

/-- `parseStoredContractByHash` (`parser_impl_deploy.c:195-210`). -/
def parseByHash (e : Env) : M IS Unit := do
  let start := (← get).off
  lp (skip 32)
  versionStep e ((← get).item.typ = tyVerByHash)
  let n ← checkEntrypoint e
  finishItem e n start

/-- `parseStoredContractByName` (`parser_impl_deploy.c:212-229`). -/
def parseByName (e : Env) : M IS Unit := do
  let start := (← get).off
  lp (parseItem e)
  versionStep e ((← get).item.typ = tyVerByName)
  let n ← checkEntrypoint e
  finishItem e n start

/-- `parseDeployItem` (`parser_impl_deploy.c:231-260`). -/
def parseDeployItem (e : Env) (payment : Bool) : M IS Unit := do
  upd fun i => { i with total := 0, fixed := 0, runtime := 0, generic := 0, special := 255 }
  let ty := (← get).item.typ
  if ty = tyModuleBytes then parseModuleBytes e payment
  else if ty = tyByHash ∨ ty = tyVerByHash then parseByHash e
  else if ty = tyByName ∨ ty = tyVerByName then parseByName e
  else if ty = tyTransfer then parseTransfer e
  else fail eMismatch

/-! ### Deploy: parsing -/

/-- State while a deploy is parsed: cursor, `entry_point_offset`, `parser_tx_obj_deploy`. -/
structure DS where
  off : Nat
  epo : Nat
  dep : Deploy
  deriving DecidableEq, Repr

/-- Run a cursor-only function while parsing a deploy. -/
def ld {α : Type} (m : P α) : M DS α := fun s =>
  match m s.off with
  | .ok a o => .ok a { s with off := o }
  | .err x o => .err x { s with off := o }
  | .fault f => .fault f

/-- Run an item function on `v->payment`. -/
def onPayment {α : Type} (m : M IS α) : M DS α := fun s =>
  match m ⟨s.off, s.epo, s.dep.payment⟩ with
  | .ok a t => .ok a ⟨t.off, t.epo, { s.dep with payment := t.item }⟩
  | .err x t => .err x ⟨t.off, t.epo, { s.dep with payment := t.item }⟩
  | .fault f => .fault f

/-- Run an item function on `v->session`. -/
def onSession {α : Type} (m : M IS α) : M DS α := fun s =>
  match m ⟨s.off, s.epo, s.dep.session⟩ with
  | .ok a t => .ok a ⟨t.off, t.epo, { s.dep with session := t.item }⟩
  | .err x t => .err x ⟨t.off, t.epo, { s.dep with session := t.item }⟩
  | .fault f => .fault f

/-- Assign header fields. -/
def updHeader (f : Header → Header) : M DS Unit :=
  modify fun s => { s with dep := { s.dep with header := f s.dep.header } }

/-- `parser_read_deploy` up to the payment item (`parser_impl_deploy.c:262-278`). -/
def readDeployHeader (e : Env) : M DS Unit := do
  require (e.buf.length ≠ 0) eUnexpectedValue
  let pk ← ld (readU8 e)
  require (pk = 1 ∨ pk = 2) eUnknownPrefix
  updHeader fun h => { h with pubkeyType := pk }
  let h := (← get).dep.header
  ld (indexPart e h .deps)
  let deps ← ld (readU32 e)
  updHeader fun h => { h with deps := deps }
  let h := (← get).dep.header
  ld (indexPart e h .chainname)
  let cl ← ld (readU32 e)
  updHeader fun h => { h with chainLen := cl }
  let h := (← get).dep.header
  ld (seek (headerLength h + 32))

/-- `parser_read_deploy` (`parser_impl_deploy.c:262-301`), with `parseDeployType` (98-105): types above 6 are
refused. -/
def readDeploy (e : Env) : M DS Unit := do
  readDeployHeader e
  let t ← ld (readU8 e)
  require (t ≤ 6) eOutOfRange
  onPayment (upd fun i => { i with typ := t })
  require (t = tyModuleBytes) eUnexpectedType
  onPayment (parseDeployItem e true)
  let p := (← get).dep.payment
  require (¬ (p.special = spSystemPayment ∧ p.hasAmount = false)) eNoData
  let t ← ld (readU8 e)
  require (t ≤ 6) eOutOfRange
  onSession (upd fun i => { i with typ := t })
  onSession (parseDeployItem e false)
  modify fun s => { s with dep := { s.dep with kind := 0 } }

/-- `_validateTxDeploy` (`parser_impl_deploy.c:303-325`). -/
def validateDeploy (e : Env) (d : Deploy) : P Unit := do
  let hl := headerLength d.header
  let hdr ← slice e 0 hl
  let hh ← slice e hl 32
  require (e.blake hdr = hh) eMismatch
  let size := u32 (d.payment.total + d.session.total)
  let body ← slice e (u16 (hl + 32)) size
  indexPart e d.header .bodyhash
  let bh ← slice e (partIndex d.header .bodyhash) 32
  require (e.blake body = bh) eMismatch

/-! ### Deploy: rendering -/

/-- `_getNumItemsDeploy` (`parser_impl_deploy.c:327-332`). -/
def numItemsDeploy (e : Env) (d : Deploy) : Nat :=
  u8 ((if e.expert then 9 else 4) + d.payment.fixed + d.payment.runtime + d.session.fixed + d.session.runtime)

/-- `parser_getItem_SystemPayment` (`parser_special.c:253-294`). -/
def itemSystemPayment (e : Env) (it : Item) (idx : Nat) : P (Bytes × Bytes) := do
  skip 1
  let len ← readU32 e
  let off ← get
  if len > e.buf.length - off then fail eBufferEnd
  else
    skip len
    let start ← get
    let n ← readU32 e
    if idx < it.fixed ∨ idx - it.fixed > it.runtime then fail eNoData
    else if idx - it.fixed = 0 then
      if it.generic = 0 then showMotes e b!"Fee" b!"amount" it.runtime
      else do
        parseArgs e n
        let stop ← get
        let r ← showArgsHash e start stop b!"payment"
        set stop
        pure r
    else fail eNoData

/-- `parser_getItem_NativeTransfer` (`parser_special.c:58-153`).  The branch through `showRuntimeArgByIndex`
(lines 101-106) is modelled as a fault; it is proved unreachable for parsed deploys. -/
def itemNativeTransfer (e : Env) (it : Item) (idx : Nat) : P (Bytes × Bytes) := do
  skip 1
  let start ← get
  let n ← readU32 e
  if it.runtime > n then fail eNumberItems
  else if idx < it.fixed ∨ idx - it.fixed ≥ it.runtime then fail eNumberItems
  else
    let i := idx - it.fixed
    if it.generic > 0 then
      if i = 0 then do
        parseArgs e it.runtime
        let stop ← get
        let r ← showArgsHash e start stop b!"native-transfer"
        set stop
        pure r
      else fail eNoData
    else if ¬ (n = 3 ∨ n = 4) then abort .typeConfusion
    else if ¬ e.expert then
      if i = 0 then showArg e b!"Target" b!"target" n
      else if i = 1 then showMotes e b!"Amount" b!"amount" n
      else fail eNoData
    else if i = 0 ∧ it.runtime = 4 then showArg e b!"From" b!"source" n
    else
      let j := if it.runtime = 4 then i - 1 else i
      if j = 0 then showArg e b!"Target" b!"target" n
      else if j = 1 then showMotes e b!"Amount" b!"amount" n
      else if j = 2 then showArg e b!"ID" b!"id" n
      else fail eNoData

/-- `render_entry_point` (`parser_special.c:296-311`). -/
def renderEntryPoint (e : Env) (epo : Nat) : P (Bytes × Bytes) := do
  let prev ← get
  set epo
  let xs ← copyItem e 100
  set prev
  let v ← showArray 100 xs
  pure (b!"Entry-point", v)

/-- "Cntrct hash" of module bytes (`parser_special.c:329-343`, again 351-365): unchecked copy into `hash[32]`,
then BLAKE2b of the bytes, shown with `parser_printBytes`. -/
def contractHash (e : Env) : P (Bytes × Bytes) := do
  let len ← readU32 e
  let off ← get
  if len > 32 then abort .oobWrite
  else
    let xs ← slice e off len
    pure (b!"Cntrct hash", encodeChecksum e.blake (e.blake xs))

/-- Items of a call by hash (`parser_special.c:371-387,389-417`). -/
def fixedByHash (e : Env) (epo : Nat) (show01 ver : Bool) (label : Bytes) (idx : Nat) : P (Bytes × Bytes) := do
  if idx = 0 ∧ show01 then pure (b!"Execution", label)
  else if idx = 1 ∧ show01 then do
    let off ← get
    let v ← printBytes e off 32
    pure (b!"Address", v)
  else do
    skip 32
    if ver then do
      let v ← parseVersion e
      if idx = 2 ∧ e.expert then pure (b!"Version", decimal v)
      else do
        parseItem e
        if idx = 3 ∧ e.expert then renderEntryPoint e epo else pure (b!"?", b!"?")
    else do
      parseItem e
      if idx = 2 ∧ e.expert then renderEntryPoint e epo else pure (b!"?", b!"?")

/-- Items of a call by name (`parser_special.c:419-441,443-473`). -/
def fixedByName (e : Env) (epo : Nat) (show01 ver : Bool) (label : Bytes) (idx : Nat) : P (Bytes × Bytes) := do
  if idx = 0 ∧ show01 then pure (b!"Execution", label)
  else if idx = 1 ∧ show01 then do
    let xs ← copyItem e 300
    let v ← showArray 300 xs
    pure (b!"Name", v)
  else do
    parseItem e
    if ver then do
      let v ← parseVersion e
      if idx = 2 ∧ e.expert then pure (b!"Version", decimal v)
      else do
        parseItem e
        if idx = 3 ∧ e.expert then renderEntryPoint e epo else pure (b!"?", b!"?")
    else do
      parseItem e
      if idx = 2 ∧ e.expert then renderEntryPoint e epo else pure (b!"?", b!"?")

/-- `render_fixed_delegation_items` (`parser_special.c:313-479`). -/
def fixedDelegation (e : Env) (epo : Nat) (it : Item) (idx : Nat) : P (Bytes × Bytes) := do
  let show01 : Bool := e.expert || it.fixed != 3
  if it.typ = tyModuleBytes then
    if it.special = spGeneric ∨ e.expert then
      if idx = 0 then pure (b!"Execution", b!"contract")
      else if idx = 1 then contractHash e
      else do
        parseItem e
        pure (b!"?", b!"?")
    else do
      parseItem e
      pure (b!"?", b!"?")
  else if it.typ = tyByHash then fixedByHash e epo show01 false b!"by-hash" idx
  else if it.typ = tyVerByHash then fixedByHash e epo show01 true b!"by-hash-versioned" idx
  else if it.typ = tyByName then fixedByName e epo show01 false b!"by-name" idx
  else if it.typ = tyVerByName then fixedByName e epo show01 true b!"by-name-versioned" idx
  else fail eUnexpectedType

/-- `parser_getItem_Delegation` (`parser_special.c:481-591`). -/
def itemDelegation (e : Env) (epo : Nat) (it : Item) (idx : Nat) : P (Bytes × Bytes) := do
  skip 1
  if idx < it.fixed then fixedDelegation e epo it idx
  else
    seek it.itemOffset
    let i := idx - it.fixed
    if i > it.runtime then fail eNoData
    else if it.generic ≠ 0 then do
      let n ← readU32 e
      if i = 0 ∧ it.runtime = 2 then showMotes e b!"Amount" b!"amount" n
      else if i = 0 ∨ (i = 1 ∧ it.runtime = 2) then do
        parseArgs e n
        let stop ← get
        let xs ← slice e (u16 it.itemOffset) (u32 (stop + 4294967296 - it.itemOffset))
        pure (b!"Args hash", b!"execution" ++ b!"-" ++ encodeHex (e.blake xs))
      else fail eNoData
    else do
      (if it.typ ≠ tyModuleBytes then do
        let _ ← readU32 e
        pure ()
       else pure ())
      if i = 0 then showArg e b!"Delegator" b!"delegator" it.runtime
      else if it.special = spReDelegate then
        if i = 1 then showArg e b!"Old" b!"validator" it.runtime
        else if i = 2 then showArg e b!"New" b!"new_validator" it.runtime
        else if i = 3 then showMotes e b!"Amount" b!"amount" it.runtime
        else fail eNoData
      else if i = 1 then showArg e b!"Validator" b!"validator" it.runtime
      else if i = 2 then showMotes e b!"Amount" b!"amount" it.runtime
      else fail eNoData

/-- The "Type" line (`parser_impl_deploy.c:359-373`). -/
def typeLabel (d : Deploy) : Bytes :=
  if d.payment.special = spSystemPayment ∧ d.session.typ = tyTransfer then b!"Token transfer"
  else if d.session.special = spDelegate ∧ d.session.generic = 0 then b!"Delegate"
  else if d.session.special = spUnDelegate ∧ d.session.generic = 0 then b!"Undelegate"
  else if d.session.special = spReDelegate ∧ d.session.generic = 0 then b!"Redelegate"
  else b!"Contract execution"

/-- Expert-only header lines 4..7 (`parser_impl_deploy.c:388-421`). -/
def headerLine (e : Env) (d : Deploy) (idx : Nat) : P (Bytes × Bytes) := do
  if idx = 4 then do
    indexPart e d.header .timestamp
    let v ← readU64 e
    match e.fmtTime (v / 1000) with
    | none => fail eUnexpectedError
    | some t => pure (b!"Timestamp", t)
  else if idx = 5 then do
    indexPart e d.header .ttl
    let v ← readU64 e
    let t ← ttlText (v / 1000) 100
    pure (b!"Ttl", t)
  else if idx = 6 then do
    indexPart e d.header .gasprice
    let v ← readU64 e
    pure (b!"Gas price", decimal v)
  else do
    indexPart e d.header .deps
    let v ← readU32 e
    pure (b!"Deps #", decimal v)

/-- Lines of the payment, the session and the approvals (`parser_impl_deploy.c:422-466`). -/
def bodyLine (e : Env) (epo : Nat) (d : Deploy) (idx : Nat) : P (Bytes × Bytes) := do
  let new := idx - (if e.expert then 8 else 4)
  seek (headerLength d.header + 32)
  let tp := u16 (d.payment.fixed + d.payment.runtime)
  if new < tp then
    if d.payment.special = spSystemPayment then itemSystemPayment e d.payment new
    else fail eUnexpectedType
  else do
    let new := u8 (new + 65536 - tp)
    skip d.payment.total
    let ts := u16 (d.session.fixed + d.session.runtime)
    if new < ts then
      if d.session.special = spNativeTransfer then itemNativeTransfer e d.session new
      else if d.session.special = spDelegate ∨ d.session.special = spUnDelegate
          ∨ d.session.special = spReDelegate ∨ d.session.special = spGeneric then
        itemDelegation e epo d.session new
      else fail eUnexpectedType
    else do
      skip d.session.total
      if idx + 1 = numItemsDeploy e d ∧ e.expert then do
        let v ← readU32 e
        pure (b!"Approvals #", decimal v)
      else fail eNoData

/-- `_getItemDeploy` (`parser_impl_deploy.c:334-466`): the pair (key, value) shown for line `idx`, before
paging. -/
def getItemDeploy (e : Env) (epo : Nat) (d : Deploy) (idx : Nat) : P (Bytes × Bytes) := do
  if idx ≥ numItemsDeploy e d then fail eNoData
  else if idx = 0 then do
    seek (headerLength d.header)
    let v ← printBytes e (headerLength d.header) 32
    pure (b!"Txn hash", v)
  else if idx = 1 then pure (b!"Type", typeLabel d)
  else if idx = 2 then do
    indexPart e d.header .chainname
    let off ← get
    let v ← displayString e (off + 4) d.header.chainLen
    pure (b!"Chain ID", v)
  else if idx = 3 then do
    indexPart e d.header .pubkey
    let v ← printAddress e 0 (pkLen d.header)
    pure (b!"Account", v)
  else if e.expert ∧ idx < 8 then headerLine e d idx
  else bodyLine e epo d idx

end Casper
