import Verif.Model.Basic
import Mathlib.Data.Nat.Digits.Defs
/-
Independent specification of the texts shown: decimal numbers, digit groups, durations, hexadecimal.
-/
namespace Casper

/-- Decimal text of a number (most significant digit first, no leading zeros). -/
def decText (n : Nat) : Bytes :=
  if n = 0 then b!"0" else (Nat.digits 10 n).reverse.map (fun d => UInt8.ofNat (48 + d))

/-- A digit string separated by spaces into groups of three, counted from the right. -/
def group3 (ds : Bytes) : Bytes :=
  if ds.length ≤ 3 then ds
  else group3 (ds.take (ds.length - 3)) ++ 0x20 :: ds.drop (ds.length - 3)
termination_by ds.length
decreasing_by simp; omega

/-- Reading a duration text: seconds added up so far, and the number being read.  `d`, `h`, `m`, `s` close a number
with their unit; other characters (blanks, the rest of "days") are skipped.  The final `s` of "days" closes the number 0. -/
def durStep (acc : Nat × Nat) (c : UInt8) : Nat × Nat :=
  if 0x30 ≤ c ∧ c ≤ 0x39 then (acc.1, acc.2 * 10 + (c.toNat - 48))
  else if c = 0x64 then (acc.1 + acc.2 * 86400, 0)
  else if c = 0x68 then (acc.1 + acc.2 * 3600, 0)
  else if c = 0x6d then (acc.1 + acc.2 * 60, 0)
  else if c = 0x73 then (acc.1 + acc.2, 0)
  else acc

/-- The number of seconds a duration text denotes. -/
def duration (text : Bytes) : Nat := (text.foldl durStep (0, 0)).1

/-- Hexadecimal digit, lowercase. -/
def hexDigit (n : Nat) : UInt8 := (b!"0123456789abcdef").getD n 0

/-- Hexadecimal digit, uppercase. -/
def hexDigitUpper (n : Nat) : UInt8 := (b!"0123456789ABCDEF").getD n 0

/-- The half-bytes of a byte string, high half first. -/
def halves (xs : Bytes) : List Nat := xs.flatMap (fun b => [b.toNat / 16, b.toNat % 16])

/-- Lowercase hexadecimal text. -/
def hexText (xs : Bytes) : Bytes := (halves xs).map hexDigit

/-- Letter to lowercase. -/
def lowerCase (c : UInt8) : UInt8 := if 0x41 ≤ c ∧ c ≤ 0x5A then c + 32 else c

/-- Bit `k` of a byte string, least significant bit of the first byte first. -/
def bitOf (h : Bytes) (k : Nat) : Bool := (h.getD (k / 8) 0).toNat.testBit (k % 8)

/-- Hexadecimal text whose `k`-th letter (counting only letters a..f, from 0) is uppercase exactly when bit `k` of
`h` is set. -/
def casedHex (h xs : Bytes) : Bytes :=
  (halves xs).zipIdx.map (fun p =>
    let rank := ((halves xs).take p.2).countP (10 ≤ ·)
    if bitOf h rank then hexDigitUpper p.1 else hexDigit p.1)

end Casper
