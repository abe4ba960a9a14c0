import Verif.Model.Basic
/-
Independent specification of the Casper serialization (`bytesrepr`): integers, strings, type descriptors, named
arguments.  Written from the Casper serialization standard, not from the app; nothing here refers to the model's
parsers.
-/
namespace Casper

/-- The `n` little-endian bytes of a number. -/
def le (n v : Nat) : Bytes :=
  match n with
  | 0 => []
  | n + 1 => UInt8.ofNat (v % 256) :: le n (v / 256)

@[simp] theorem le_length (n v : Nat) : (le n v).length = n := by
  induction n generalizing v with
  | zero => rfl
  | succ n ih => simp [le, ih]

/-- A string or byte vector: 32-bit length, then the bytes. -/
def pfx (xs : Bytes) : Bytes := le 4 xs.length ++ xs

@[simp] theorem pfx_length (xs : Bytes) : (pfx xs).length = 4 + xs.length := by simp [pfx]

/-- Casper value types (`CLType`). -/
inductive CLType where
  | bool | i32 | i64 | u8 | u32 | u64 | u128 | u256 | u512 | unit | string | key | uref
  | option (t : CLType)
  | list (t : CLType)
  | byteArray (n : Nat)
  | result (ok err : CLType)
  | map (k v : CLType)
  | tuple1 (a : CLType)
  | tuple2 (a b : CLType)
  | tuple3 (a b c : CLType)
  | any
  | publicKey
  deriving DecidableEq, Repr

namespace CLType

/-- First byte of the serialization. -/
def tag : CLType → Nat
  | bool => 0 | i32 => 1 | i64 => 2 | u8 => 3 | u32 => 4 | u64 => 5 | u128 => 6 | u256 => 7 | u512 => 8
  | unit => 9 | string => 10 | key => 11 | uref => 12
  | option _ => 13 | list _ => 14 | byteArray _ => 15 | result _ _ => 16 | map _ _ => 17
  | tuple1 _ => 18 | tuple2 _ _ => 19 | tuple3 _ _ _ => 20 | any => 21 | publicKey => 22

/-- Serialization: the tag, then the components one after the other (depth first); a byte array is followed by its
32-bit size. -/
def encode : CLType → Bytes
  | option t => 13 :: t.encode
  | list t => 14 :: t.encode
  | byteArray n => 15 :: le 4 n
  | result a b => 16 :: (a.encode ++ b.encode)
  | map k v => 17 :: (k.encode ++ v.encode)
  | tuple1 a => 18 :: a.encode
  | tuple2 a b => 19 :: (a.encode ++ b.encode)
  | tuple3 a b c => 20 :: (a.encode ++ (b.encode ++ c.encode))
  | t => [UInt8.ofNat t.tag]

/-- What follows the tag. -/
def tail (t : CLType) : Bytes := t.encode.tail

theorem encode_eq (t : CLType) : t.encode = UInt8.ofNat t.tag :: t.tail := by
  cases t <;> rfl

theorem tag_le (t : CLType) : t.tag ≤ 22 := by cases t <;> simp [tag]

end CLType

/-- A named argument: its name, the serialized value, the type of the value. -/
structure Arg where
  name : Bytes
  value : Bytes
  ty : CLType
  deriving DecidableEq, Repr

/-- Serialization of one named argument. -/
def Arg.encode (a : Arg) : Bytes := pfx a.name ++ (pfx a.value ++ a.ty.encode)

/-- Serialization of several named arguments, one after the other (without the count). -/
def encodeArgs : List Arg → Bytes
  | [] => []
  | a :: as => a.encode ++ encodeArgs as

theorem encodeArgs_append (as bs : List Arg) : encodeArgs (as ++ bs) = encodeArgs as ++ encodeArgs bs := by
  induction as with
  | nil => rfl
  | cons a as ih => simp [encodeArgs, ih]

/-- `RuntimeArgs`: count, then the arguments. -/
def encodeRuntimeArgs (as : List Arg) : Bytes := le 4 as.length ++ encodeArgs as

end Casper
