import Verif.Model.Deploy
/-
Messages (`app/src/parser_message.c`) and raw WASM deploys (`app/src/parser_wasm.c`).
-/
namespace Casper
open M

/-- `messagePrefix` (`parser_message.c:23`). -/
def messagePrefix : Bytes := b!"Casper Message:\n"

/-- The checks of `parser_parse_message` (`parser_message.c:32-40`). -/
def checkMessage (e : Env) : P Unit := do
  if e.buf.length < 16 then fail eBufferEnd
  else require (e.buf.take 16 = messagePrefix) eUnknownPrefix

/-- `parser_getMessageItem` (`parser_message.c:55-76`). -/
def messageItem (e : Env) (idx : Nat) : P (Bytes × Bytes) := do
  if idx ≠ 0 then fail eIdxOutOfRange
  else pure (b!"Msg hash", lowerHex (e.blake e.buf))

/-- `readHeader` (`parser_wasm.c:24-72`). -/
def readWasm (e : Env) : M DS Unit := do
  let pk ← ld (byteAt e 0)
  updHeader fun h => { h with pubkeyType := pk }
  require (pk = 1 ∨ pk = 2) eUnknownPrefix
  let h := (← get).dep.header
  ld (indexPart e h .deps)
  let deps ← ld (readU32 e)
  updHeader fun h => { h with deps := deps }
  let h := (← get).dep.header
  ld (indexPart e h .chainname)
  let cl ← ld (readU32 e)
  updHeader fun h => { h with chainLen := cl }
  let s ← get
  if e.buf.length < s.off + 32 then fail eBufferEnd
  else
    ld (seek (headerLength s.dep.header + 32))
    let t ← ld (readU8 e)
    require (t ≤ 6) eOutOfRange
    onPayment (upd fun i => { i with typ := t })
    require (t = tyModuleBytes) eUnexpectedType
    onPayment (parseDeployItem e true)
    let p := (← get).dep.payment
    require (¬ (p.special = spSystemPayment ∧ p.hasAmount = false)) eNoData
    let t ← ld (readU8 e)
    require (t ≤ 6) eOutOfRange
    onSession (upd fun i => { i with typ := t })
    match ← attempt (onSession (parseDeployItem e false)) with
    | .ok _ => fail eUnexpectedError
    | .error x =>
      require (t = tyModuleBytes ∧ (x = eNoData ∨ x = eBufferEnd)) eUnexpectedError

/-- `parser_validate_wasm` (`parser_wasm.c:84-95`). -/
def validateWasm (e : Env) (d : Deploy) : P Unit := do
  let hl := headerLength d.header
  let hdr ← slice e 0 hl
  let hh ← slice e hl 32
  require (e.blake hdr = hh) eMismatch

/-- `parser_getWasmItem` (`parser_wasm.c:105-133`). -/
def wasmItem (e : Env) (d : Deploy) (idx : Nat) : P (Bytes × Bytes) := do
  if idx = 0 then do
    let xs ← slice e (headerLength d.header) 32
    pure (b!"DeployHash", lowerHex xs)
  else if idx = 1 then do
    indexPart e d.header .bodyhash
    let off ← get
    let xs ← slice e off 32
    pure (b!"BodyHash", lowerHex xs)
  else fail eIdxOutOfRange

end Casper
