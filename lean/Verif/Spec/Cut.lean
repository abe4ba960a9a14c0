import Verif.Spec.Bytesrepr
/-
Argument lists of which only the first bytes are there.
-/
namespace Casper

/-- The first `m` bytes of the serialization of an argument (less than all of them) end within its name or its value: what is there of that name
or value.  Empty if they end within the length of the name or of the value, or within the type. -/
def Arg.broken (a : Arg) (m : Nat) : Bytes :=
  if m < 4 then []
  else if m < 4 + a.name.length then a.name.take (m - 4)
  else if m < 8 + a.name.length then []
  else if m < 8 + a.name.length + a.value.length then a.value.take (m - 8 - a.name.length)
  else []

/-- The same for the first `m` bytes of a list of arguments. -/
def brokenPart : List Arg → Nat → Bytes
  | [], _ => []
  | a :: as, m => if m < a.encode.length then a.broken m else brokenPart as (m - a.encode.length)

/-- The arguments of which all bytes are among the first `m` bytes of the list. -/
def wholeArgs : List Arg → Nat → List Arg
  | [], _ => []
  | a :: as, m => if m < a.encode.length then [] else a :: wholeArgs as (m - a.encode.length)

/-- Data that cannot be taken for an argument list: fewer than four bytes, or a length in front that is larger than 300 or than what follows. -/
def Unlike (xs : Bytes) : Prop := ∀ n ys, n < 2 ^ 32 → xs = le 4 n ++ ys → 300 < n ∨ ys.length < n

end Casper
