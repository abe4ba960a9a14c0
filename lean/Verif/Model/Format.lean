import Verif.Model.Primitives
/-
Text formatting: thousands separators, motes, time to live, checksummed hex
(`app/src/parser.c`, `app/src/parser_utils.c`, `app/src/crypto.c`).
-/
namespace Casper
open M

/-! ### Thousands separators used for motes (`parser.c:114-201`) -/

/-- The loop of `find_end_of_number` (`parser.c:117-123`) from `index` on, over the whole array. -/
def findEndFrom (buffer : Bytes) (size : Nat) : Nat → Nat → Option Nat
  | 0, _ => none
  | k + 1, index =>
    if index < size then
      if buffer.getD index 0 = 0 ∧ index ≠ 0 then some index
      else findEndFrom buffer size k (index + 1)
    else none

/-- `find_end_of_number` (`parser.c:114-125`): `none` is `parser_unexpected_buffer_end`. -/
def findEndOfNumber (buffer : Bytes) (size : Nat) : Option Nat := findEndFrom buffer size (size + 1) 0

/-- Outcome of the string functions below that work in a fixed array. -/
inductive Str where
  | ok (s : Bytes)
  | err (e : Nat)
  | fault (f : Fault)
  deriving DecidableEq, Repr

/-- `inplace_insert_char` (`parser.c:127-142`) on the NUL-terminated string `s` in an array of `max` bytes.
`MEMMOVE` writes the terminator at index `len + 1`. -/
def insertChar (s : Bytes) (max pos : Nat) (sep : UInt8) : Str :=
  if s.length ≥ max then .err eBufferEnd
  else if pos > s.length then .err eOutOfRange
  else if s.length + 1 ≥ max then .fault .oobWrite
  else .ok (s.take pos ++ sep :: s.drop pos)

/-- The loop of `add_thousands_separators` (`parser.c:152-161`). -/
def sepLoop (max : Nat) : Nat → Nat → Bytes → Str
  | 0, _, s => .ok s
  | index + 1, step, s =>
    if step % 3 = 0 then
      match insertChar s max (index + 1) 0x20 with
      | .ok s' => sepLoop max index 1 s'
      | r => r
    else sepLoop max index (step + 1) s

/-- `add_thousands_separators` (`parser.c:144-164`): the array holds the string `s`, `*numsize` is its length. -/
def addThousands (s : Bytes) (max : Nat) : Str :=
  if s.length ≥ max then .err eBufferEnd
  else sepLoop max (s.length - 1) 1 s

/-- Common part of `DISPLAY_RUNTIMEARG_AMOUNT_{BIGNUM,INT}` (`parser.c:166-201`): group the digits held in
`buffer[400]`, append `" motes"`. -/
def motesText (digits : Bytes) : P Bytes :=
  match findEndOfNumber (digits ++ List.replicate (400 - digits.length) 0) 400 with
  | none => fail eBufferEnd
  | some n =>
    match addThousands ((digits ++ List.replicate (400 - digits.length) 0).take n) 400 with
    | .err x => fail x
    | .fault x => abort x
    | .ok t => if t.length + 6 ≥ 400 then fail eBufferEnd else pure (t ++ b!" motes")

/-! ### `add_thousand_separators` (`parser_utils.c:349-407`) -/

/-- The loop over the remaining digits (`parser_utils.c:388-394`). -/
def groupRest : Bytes → Nat → Bytes
  | [], _ => []
  | c :: cs, count => if count % 3 = 0 then 0x20 :: c :: groupRest cs (count + 1) else c :: groupRest cs (count + 1)

/-- `add_thousand_separators` (`parser_utils.c:349-407`): `number` is a NUL-terminated string, the result is
what the terminated array `out` of `outLen` bytes holds.  `snprintf`/`strncpy` truncate to the array. -/
def addThousand (outLen : Nat) (number : Bytes) : Str :=
  if number = [] then .ok ((b!"0").take (outLen - 1))
  else
    let intLen := (number.takeWhile (· != 0x2e)).length
    let hasPoint := number.contains 0x2e
    if intLen ≤ 3 then
      -- strncpy(out, number, outLen): not terminated when the number fills the array
      if number.length < outLen then .ok number else .fault .unterminated
    else
      let needed := intLen + (intLen - 1) / 3 + (if hasPoint then number.length - intLen else 0)
      if outLen ≤ needed then .err eBufferEnd
      else
        let first := if intLen % 3 = 0 then 3 else intLen % 3
        .ok (number.take first ++ groupRest ((number.take intLen).drop first) 0
          ++ (if hasPoint then number.drop intLen else []))

/-! ### Time to live (`parser.c:458-515`) -/

/-- `if (x > 0) { add space if index > 0; number; unit }` (`parser.c:482-512`). -/
def ttlPart (out : Bytes) (n : Nat) (unit : Bytes) : Bytes :=
  if n > 0 then out ++ (if out.length > 0 then b!" " else []) ++ decimal n ++ unit else out

/-- `parse_TTL` (`parser.c:458-515`): `value` in seconds, into an array of `size` bytes. -/
def ttlText (value size : Nat) : P Bytes :=
  if size < 23 then fail eBufferEnd
  else
    let days := value / 86400
    if days > 28 then fail eUnexpectedValue
    else
      let out : Bytes := if days = 1 then b!"1day" else if days > 1 then decimal days ++ b!"days" else []
      let v1 := value % 86400
      let hours := v1 / 3600
      let v2 := v1 % 3600
      let minutes := v2 / 60
      let seconds := v2 % 60
      pure (ttlPart (ttlPart (ttlPart out hours b!"h") minutes b!"m") seconds b!"s")

/-! ### Hexadecimal (`crypto.c:241-323`) -/

/-- `bytes_to_nibbles` (`crypto.c:318-323`). -/
def nibbles : Bytes → List Nat
  | [] => []
  | b :: bs => (b.toNat / 16) :: (b.toNat % 16) :: nibbles bs

/-- `HEX_CHARS[n]` (`crypto.c:31`). -/
def hexChar (n : Nat) : UInt8 := if n < 10 then UInt8.ofNat (48 + n) else UInt8.ofNat (87 + n)

/-- `is_alphabetic` (`crypto.c:316`). -/
def isAlpha (c : UInt8) : Bool := (0x61 ≤ c && c ≤ 0x7A) || (0x41 ≤ c && c ≤ 0x5A)

/-- `to_uppercase` (external zxlib macro): clears bit 5 of a letter. -/
def toUpper (c : UInt8) : UInt8 := if 0x61 ≤ c ∧ c ≤ 0x7A then c - 32 else c

/-- `get_next_hash_bit` (`crypto.c:305-314`): bit `offset` of byte `index`. -/
def hashBit (h : Bytes) (index offset : Nat) : Bool := ((h.getD index 0).toNat / 2 ^ offset) % 2 = 1

/-- The loop shared by `encode` and `encode_hex` (`crypto.c:263-275,290-302`), over the nibbles, drawing case bits
from `h` with cursor (`index`, `offset`). -/
def encLoop (h : Bytes) : List Nat → Nat → Nat → Bytes
  | [], _, _ => []
  | n :: ns, index, offset =>
    let c := hexChar n
    if isAlpha c then
      let c' := if hashBit h index offset then toUpper c else c
      if offset + 1 ≥ 8 then c' :: encLoop h ns (index + 1) 0 else c' :: encLoop h ns index (offset + 1)
    else c :: encLoop h ns index offset

/-- `encode` (`crypto.c:250-277`) on at most 50 bytes: case bits from BLAKE2b of the bytes. -/
def encodeChecksum (H : Hash) (xs : Bytes) : Bytes := encLoop (H xs) (nibbles xs) 0 0

/-- `encode_hex` (`crypto.c:279-303`) on at most 32 bytes: case bits from the bytes themselves. -/
def encodeHex (xs : Bytes) : Bytes := encLoop xs (nibbles xs) 0 0

/-- `encode_addr` (`crypto.c:241-248`): the two nibbles of the prefix plus `'0'`, then `encode` of the rest. -/
def encodeAddr (H : Hash) : Bytes → Bytes
  | [] => []
  | p :: xs => UInt8.ofNat (p.toNat / 16 + 48) :: UInt8.ofNat (p.toNat % 16 + 48) :: encodeChecksum H xs

/-- Plain lowercase hex: contract of the external `pageStringHex`. -/
def lowerHex (xs : Bytes) : Bytes := (nibbles xs).map hexChar

/-- `parser_printBytes` (`parser_utils.c:240-247`) with `encode` (`crypto.c:250-277`) on the received bytes at
`off`: the length is truncated to 16 and then 8 bits, twice the length again to 8 bits; a refused encoding leaves
the text empty; 50 bytes fill the array without terminator; from 128 on the nibble array is overrun. -/
def printBytes (e : Env) (off len : Nat) : P Bytes :=
  let n := u8 (u16 len)
  if u8 (2 * n) > 100 then pure []
  else if n > 50 then abort .oobWrite
  else do
    let xs ← slice e off n
    if n = 50 then abort .unterminated else pure (encodeChecksum e.blake xs)

/-- `parser_printAddress` (`parser_utils.c:249-258`); callers pass 33 or 34. -/
def printAddress (e : Env) (off len : Nat) : P Bytes := do
  let xs ← slice e off len
  pure (encodeAddr e.blake xs)

/-- The loop of `parser_printByHashAddress` (`parser_utils.c:231-235`): decimal numbers appended with `strncat` to
a string of at most 99 characters. -/
def byHashLoop : Bytes → Bytes → Bytes
  | [], acc => acc
  | b :: bs, acc => byHashLoop bs (acc ++ (decimal b.toNat).take (99 - acc.length))

/-- `parser_printByHashAddress` (`parser_utils.c:227-238`). -/
def printByHash (e : Env) (off len : Nat) : P Bytes := do
  let xs ← slice e off len
  pure (byHashLoop xs [])

/-- `pageString` of a `char[cap]` into which `xs` was copied after clearing: needs a terminator. -/
def showArray (cap : Nat) (xs : Bytes) : P Bytes :=
  if xs.length < cap ∨ xs.contains 0 then pure (cstr xs) else abort .unterminated

/-- `DISPLAY_STRING` (`parser_utils.h:17-28`) on the received bytes at `off`. -/
def displayString (e : Env) (off len : Nat) : P Bytes := do
  if len > 100 then fail eBufferEnd
  else
    let xs ← slice e off len
    showArray 100 xs

end Casper
