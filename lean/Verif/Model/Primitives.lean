import Verif.Model.Basic
/-
Fixed-width readers, length-prefixed items, type descriptors, metadata envelopes:
`app/src/parser_utils.{h,c}` and `app/src/parser_primitives.c`.
-/
namespace Casper
open M

/-- One byte of `_readUIntN` (`parser_utils.h:87-96`): bounds check, read, advance.  The increment cannot wrap: the
cursor is below `bufferLen ≤ 65535`. -/
def readU8 (e : Env) : P Nat := fun off =>
  match e.buf[off]? with
  | none => .err eBufferEnd off
  | some b => .ok b.toNat (off + 1)

/-- `_readUInt{8,16,32,64}` (`parser_utils.h:87-101`; `readU8..readU64` are wrappers): little-endian, byte by byte;
on failure the cursor stays where the data ran out. -/
def readLE (e : Env) : Nat → P Nat
  | 0 => pure 0
  | n + 1 => do
    let b ← readU8 e
    let r ← readLE e n
    pure (b + 256 * r)

abbrev readU16 (e : Env) : P Nat := readLE e 2
abbrev readU32 (e : Env) : P Nat := readLE e 4
abbrev readU64 (e : Env) : P Nat := readLE e 8

/-- `parse_item` (`parser_utils.c:54-65`).  `ctx->offset + part` is computed in `uint32_t`. -/
def parseItem (e : Env) : P Unit := do
  let part ← readU32 e
  let off ← get
  if u32 (off + part) > e.buf.length then fail eBufferEnd
  else set (u16 (off + part))

/-- `read_string` and `read_bytes` (`parser_primitives.c:53-78`): like `parse_item` with another error code,
returning the length. -/
def readBytes (e : Env) : P Nat := do
  let len ← readU32 e
  let off ← get
  if u32 (off + len) > e.buf.length then fail eUnexpectedValue
  else
    set (u16 (off + len))
    pure len

/-- `is_container_type` (`parser_utils.c:40-42`). -/
def isContainer (t : Nat) : Bool := t == 13 || t == 14 || (16 ≤ t && t ≤ 21)

/-- `err | f()` on error codes (`parser_utils.c:170-171,191,208-209`): both calls are made, their codes are
combined with bitwise or. -/
def orElse2 (a : Nat → P Nat) (b : Nat → P Nat) (opt : Nat) : P Nat := fun s =>
  match a opt s with
  | .fault f => .fault f
  | .ok o s1 => b o s1
  | .err e1 s1 =>
    match b opt s1 with
    | .fault f => .fault f
    | .ok _ s2 => .err e1 s2
    | .err e2 s2 => .err (e1 ||| e2) s2

/-- Reading the element tags of a tuple, each refused at once when it is a container
(`parser_utils.c:183-188`). -/
def readTags (e : Env) : Nat → P (List Nat)
  | 0 => pure []
  | n + 1 => do
    let t ← readU8 e
    if isContainer t then fail eUnexpectedType
    else
      let ts ← readTags e n
      pure (t :: ts)

/-- `for (..) err |= parse_additional_typebytes(ctx, element[i], &inner_type)` (`parser_utils.c:190-194`). -/
def orAll (f : Nat → Nat → P Nat) : List Nat → Nat → P Nat
  | [], opt => pure opt
  | t :: ts, opt => orElse2 (f t) (orAll f ts) opt

/-- `parse_additional_typebytes` (`parser_utils.c:82-225`).  The first argument bounds the recursion depth (the C
function is recursive); `opt` is the current value of `*option_type`, the result its new value. -/
def addlType (e : Env) : Nat → Nat → Nat → P Nat
  | 0, _, _ => abort .fuel
  | fuel + 1, t, opt =>
    -- 84-114 (scalars, string, key, uref), 136-138 (public key), 212-217 (any)
    if t ≤ 12 ∨ t = 21 ∨ t = 22 then pure opt
    -- option, 119-129
    else if t = 13 then do
      let inner ← readU8 e
      if isContainer inner then fail eUnexpectedType
      else
        let _ ← addlType e fuel inner 255
        pure inner
    -- list, 144-156
    else if t = 14 then do
      let inner ← readU8 e
      if inner = 21 then pure opt
      else if isContainer inner then fail eUnexpectedType
      else
        let _ ← addlType e fuel inner inner
        pure inner
    -- byte array, 131-134
    else if t = 15 then do
      let _ ← readU32 e
      pure opt
    -- result, 162-173
    else if t = 16 then do
      let okT ← readU8 e
      let errT ← readU8 e
      if isContainer okT ∨ isContainer errT then fail eUnexpectedType
      else orElse2 (addlType e fuel okT) (addlType e fuel errT) opt
    -- map, 197-210
    else if t = 17 then do
      let kT ← readU8 e
      let vT ← readU8 e
      if kT = 17 ∨ vT = 17 then fail eUnexpectedType
      else orElse2 (addlType e fuel kT) (addlType e fuel vT) opt
    -- tuples, 175-195 (the inner types do not reach `option_type`)
    else if t = 18 ∨ t = 19 ∨ t = 20 then do
      let ts ← readTags e (t - 17)
      let _ ← orAll (addlType e fuel) ts 0
      pure opt
    -- 218-223
    else fail eUnexpectedType

/-- `get_type` (`parser_utils.c:67-74`), with `check_runtime_type` (46-52): returns the type tag and the new value
of `*option_type` (previously `opt`). -/
def getType (e : Env) (opt : Nat) : P (Nat × Nat) := do
  let t ← readU8 e
  require (t ≤ 22) eUnknownPrefix
  let o ← addlType e 3 t opt
  pure (t, o)

/-- `parseTotalLength` (`parser_utils.c:76-80`).  The C code reads the 16-bit cursor through a `uint32_t *`; the
16 bits beyond it are the same in `start` and now, so they cancel. -/
def totalLength (start : Nat) : P Nat := do
  let off ← get
  if off > start then pure (off - start + 1) else fail eUnexpectedError

/-- `read_bool` (`parser_primitives.c:80-88`). -/
def readBool (e : Env) : P Nat := do
  let b ← readU8 e
  require (b = 0 ∨ b = 1) eUnexpectedValue
  pure b

/-- `NO_ENTITY_VERSION_PRESENT` (`parser_utils.h:12`). -/
abbrev noVersion : Nat := 4294967295

/-- `read_entity_version` (`parser_primitives.c:91-106`). -/
def readEntityVersion (e : Env) : P Nat := do
  let tag ← readBool e
  if tag = 1 then readU32 e else pure noVersion

/-- `read_hash`, `read_entity_address` (`parser_primitives.c:141-144,182-185`): unchecked skip. -/
def readHash : P Unit := skip 32

/-- `read_public_key` (`parser_primitives.c:157-170`). -/
def readPublicKey (e : Env) : P Unit := do
  let tag ← readU8 e
  require (tag = 0 ∨ tag = 1 ∨ tag = 2) eUnexpectedValue
  if tag = 1 then skip 32 else if tag = 2 then skip 33 else pure ()

/-- `read_signature` (`parser_primitives.c:172-180`). -/
def readSignature (e : Env) : P Unit := do
  let tag ← readU8 e
  require (tag = 1 ∨ tag = 2) eUnexpectedValue
  skip 64

/-- `read_clvalue` (`parser_primitives.c:146-155`). -/
def readClvalue (e : Env) : P Unit := do
  let _ ← readBytes e
  let _ ← getType e 0
  pure ()

/-- `parser_metadata_txnV1_t` (`parser_txdef.h:116-121`). -/
structure Meta where
  numFields : Nat := 0
  size : Nat := 0
  offsets : List Nat := [0, 0, 0, 0, 0, 0, 0, 0, 0, 0]
  fieldsSize : Nat := 0
  deriving DecidableEq, Repr

/-- `field_offsets[i]` -/
def Meta.fo (m : Meta) (i : Nat) : Nat := m.offsets.getD i 0

/-- The loop of `read_metadata` (`parser_primitives.c:36-43`): `n` entries left, next index `i`; storing behind the
end of `field_offsets` is undefined. -/
def readOffsets (e : Env) : Nat → Nat → List Nat → P (List Nat)
  | 0, _, os => pure os
  | n + 1, i, os => do
    let idx ← readU16 e
    require (idx = i) eFieldOffset
    let o ← readU32 e
    if i < os.length then readOffsets e n (i + 1) (os.set i o) else abort .oobWrite

/-- `read_metadata` (`parser_primitives.c:24-50`).  `num_fields` is truncated to 8 bits before the check;
`fields_size` is a 16-bit field written through a `uint32_t *` (the upper half goes to padding).
The table starts zeroed in every caller. -/
def readMetadata (e : Env) : P Meta := do
  let start ← get
  let n ← readU32 e
  let num := u8 n
  require (num > 0 ∧ num ≤ 10) eNumberFields
  let os ← readOffsets e num 0 [0, 0, 0, 0, 0, 0, 0, 0, 0, 0]
  let fs ← readU32 e
  let off ← get
  pure { numFields := num, size := u16 (off - start), offsets := os, fieldsSize := u16 fs }

/-- `read_runtime` (`parser_primitives.c:109-138`). -/
def readRuntime (e : Env) : P Unit := do
  let _ ← readMetadata e
  let rt ← readU8 e
  if rt = 1 then do
    let _ ← readU64 e
    let seed ← readU8 e
    if seed = 1 then readHash
    else if seed = 0 then pure ()
    else fail eUnexpectedValue
  else require (rt = 0) eUnexpectedValue

end Casper
