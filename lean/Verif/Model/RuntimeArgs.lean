import Verif.Model.Format
/-
Named arguments: walking, looking up, showing (`app/src/runtime_arg.c`, `app/src/parser.c`).
-/
namespace Casper
open M

/-- `copy_item_into_charbuffer` (`parser_impl_deploy.c:107-122`) into a cleared `char[cap]`: the copied bytes. -/
def copyItem (e : Env) (cap : Nat) : P Bytes := do
  let part ← readU32 e
  let off ← get
  if part > cap ∨ part > e.buf.length - off then fail eBufferEnd
  else
    let xs ← slice e off part
    skip part
    pure xs

/-- `parseRuntimeArgs` (`runtime_arg.c:27-40`). -/
def parseArgs (e : Env) : Nat → P Unit
  | 0 => pure ()
  | n + 1 => do
    parseItem e
    parseItem e
    let _ ← getType e 0
    parseArgs e n

/-- `searchRuntimeArgs` (`runtime_arg.c:42-71`) from `start`: returns `(*type, *internal_type)`; the cursor goes
back to `start` when the name is found or absent, but not after a parsing error.  `*internal_type` is 255 on
entry wherever it is used. -/
def searchFrom (e : Env) (name : Bytes) (start : Nat) : Nat → P (Nat × Nat)
  | 0 => do
    set start
    fail eArgNotFound
  | n + 1 => do
    let key ← copyItem e 300
    if cstr key = name then do
      parseItem e
      let t ← getType e 255
      set start
      pure t
    else do
      parseItem e
      let _ ← getType e 0
      searchFrom e name start n

/-- `searchRuntimeArgs` (`runtime_arg.c:42-71`). -/
def searchArgs (e : Env) (name : Bytes) (n : Nat) : P (Nat × Nat) := do
  let start ← get
  searchFrom e name start n

/-- `parser_runtimeargs_getData` (`parser.c:302-337`): returns `(*length, *runtype)`, leaves the cursor on the
value. -/
def getData (e : Env) (name : Bytes) : Nat → P (Nat × Nat)
  | 0 => fail eNoData
  | n + 1 => do
    let key ← copyItem e 300
    if cstr key = name then do
      let len ← readU32 e
      let start ← get
      if len > e.buf.length - start then fail eBufferEnd
      else
        skip len
        let (t, _) ← getType e 0
        set start
        pure (len, t)
    else do
      parseItem e
      let _ ← getType e 0
      getData e name n

/-- `CHECK_RUNTIME_ARGTYPE` (`parser_special.c:31-37`). -/
def checkArg (e : Env) (n : Nat) (name : Bytes) (cond : Nat → Nat → Bool) : P Unit := do
  let (t, it) ← searchArgs e name n
  require (cond t it) eUnexpectedType

/-- What `COUNT_RUNTIME_ARGTYPE` (`parser_special.c:39-49`) makes the enclosing function do. -/
inductive Count where
  /-- `num_args_found += 1` -/
  | found
  /-- fall through -/
  | skip
  /-- `return __err` with `__err == parser_ok` -/
  | returnOk
  deriving DecidableEq, Repr

/-- `COUNT_RUNTIME_ARGTYPE` (`parser_special.c:39-49`).  A found argument of another type leaves `__err` at
`parser_ok`, which differs from both listed errors, so the macro returns `parser_ok`. -/
def countArg (e : Env) (n : Nat) (name : Bytes) (cond : Nat → Nat → Bool) : P Count := do
  match ← attempt (searchArgs e name n) with
  | .ok (t, it) => if cond t it then pure .found else pure .returnOk
  | .error x => if x ≠ eArgNotFound ∧ x ≠ eUnexpectedType then fail x else pure .skip

/-- `DISPLAY_RUNTIMEARG_AMOUNT_BIGNUM` (`parser.c:166-184`): the value is the `LEN-1` bytes after the first one.
`bcdOut` has 256 digits; contract of the external conversion: decimal of the value modulo `10^256`. -/
def amountBignum (e : Env) (len : Nat) : P Bytes := do
  let off ← get
  let xs ← slice e (off + 1) (len - 1)
  motesText (decimal (leVal xs % 10 ^ 256))

/-- `parser_display_runtimeArgMotes` (`parser.c:204-231`). -/
def displayMotes (e : Env) (t len : Nat) : P Bytes := do
  let off ← get
  if u32 (off + len) ≥ e.buf.length then fail eBufferEnd
  else if len = 0 then fail eUnexpectedError
  else if t = 4 then do
    let v ← readU32 e
    motesText (decimal v)
  else if t = 5 then do
    let v ← readU64 e
    motesText (decimal v)
  else if t = 8 then amountBignum e len
  else fail eUnexpectedType

/-- One byte of received data at an index that is not checked. -/
def byteAt (e : Env) (i : Nat) : P Nat := fun s =>
  match e.buf[i]? with
  | none => .fault .oobRead
  | some b => .ok b.toNat s

/-- `parser_display_runtimeArg` (`parser.c:233-300`). -/
def displayArg (e : Env) (t len : Nat) : P Bytes := do
  let off ← get
  if u32 (off + len) ≥ e.buf.length then fail eBufferEnd
  else if len = 0 then fail eUnexpectedError
  else if t = 3 then do
    let v ← readU8 e
    pure (decimal v)
  else if t = 4 then do
    let v ← readU32 e
    pure (decimal v)
  else if t = 5 then do
    let v ← readU64 e
    pure (decimal v)
  else if t = 8 then amountBignum e len
  else if t = 11 then do
    skip 1
    let off' ← get
    printBytes e off' (len - 1)
  else if t = 12 then printBytes e off (len - 1)
  else if t = 13 then do
    let o ← readU8 e
    if o = 0 then pure b!"Null"
    else
      let off' ← get
      let inner ← byteAt e (off' + len)
      if inner = 5 then do
        let v ← readU64 e
        pure (decimal v)
      else if inner = 4 then do
        let v ← readU32 e
        pure (decimal v)
      else if inner = 12 then
        if len < 2 then fail eUnexpectedValue
        else printBytes e off' (len - 2)
      else fail eUnexpectedError
  else if t = 15 then printBytes e off len
  else if t = 22 then do
    let k ← byteAt e off
    printAddress e off (1 + if k = 1 then 32 else 33)
  else fail eUnexpectedType

/-- `showRuntimeArgsHash` (`runtime_arg.c:73-103`): BLAKE2b of `len` bytes at the cursor, shown as
`name-hex`.  Callers pass the literals "native-transfer", "payment", "execution", all below the length limit of
line 87; `len` is a `uint32_t` difference of cursors (negative ones wrap). -/
def showArgsHash (e : Env) (start endOff : Nat) (name : Bytes) : P (Bytes × Bytes) := do
  set start
  let xs ← slice e start (u32 (endOff + 4294967296 - start))
  pure (b!"Args hash", name ++ b!"-" ++ encodeHex (e.blake xs))

/-- Show the argument `name` under the label `key` (`parser_special.c`, many places). -/
def showArg (e : Env) (key name : Bytes) (n : Nat) : P (Bytes × Bytes) := do
  let (len, t) ← getData e name n
  let v ← displayArg e t len
  pure (key, v)

/-- Show the argument `name` under the label `key` with `parser_display_runtimeArgMotes`. -/
def showMotes (e : Env) (key name : Bytes) (n : Nat) : P (Bytes × Bytes) := do
  let (len, t) ← getData e name n
  let v ← displayMotes e t len
  pure (key, v)

end Casper
