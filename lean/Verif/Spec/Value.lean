import Verif.Spec.Bytesrepr
import Verif.Spec.Text
/-
Independent specification of how argument values are to be shown: for each type, the serialization of a value next to
its text.
-/
namespace Casper

/-- The text of an amount of motes. -/
def motesOf (n : Nat) : Bytes := group3 (decText n) ++ b!" motes"

/-- Checksummed hexadecimal. -/
def checksumHex (H : Bytes → Bytes) (xs : Bytes) : Bytes := casedHex (H xs) xs

/-- `Shown H t v s`: the bytes `v` are a value of type `t`, to be shown as `s`.
Numbers in decimal, U512 as motes, byte strings and keys in checksummed hexadecimal (keys without their tag, URefs without
their access rights), public keys as addresses (algorithm number, then checksummed hexadecimal). -/
inductive Shown (H : Bytes → Bytes) : CLType → Bytes → Bytes → Prop
  | u8 (n : Nat) : n < 256 → Shown H .u8 (le 1 n) (decText n)
  | u32 (n : Nat) : n < 2 ^ 32 → Shown H .u32 (le 4 n) (decText n)
  | u64 (n : Nat) : n < 2 ^ 64 → Shown H .u64 (le 8 n) (decText n)
  | u512 (k n : Nat) : k ≤ 64 → n < 256 ^ k → Shown H .u512 (UInt8.ofNat k :: le k n) (motesOf n)
  | key (tag : UInt8) (xs : Bytes) : xs.length ≤ 49 → Shown H .key (tag :: xs) (checksumHex H xs)
  | uref (xs : Bytes) (rights : UInt8) : xs.length ≤ 49 → Shown H .uref (xs ++ [rights]) (checksumHex H xs)
  | none (t : CLType) : Shown H (.option t) [0] b!"Null"
  | someU32 (n : Nat) : n < 2 ^ 32 → Shown H (.option .u32) (1 :: le 4 n) (decText n)
  | someU64 (n : Nat) : n < 2 ^ 64 → Shown H (.option .u64) (1 :: le 8 n) (decText n)
  | someURef (xs : Bytes) (rights : UInt8) : xs.length ≤ 49 →
      Shown H (.option .uref) (1 :: (xs ++ [rights])) (checksumHex H xs)
  | byteArray (xs : Bytes) : 0 < xs.length → xs.length ≤ 49 → Shown H (.byteArray xs.length) xs (checksumHex H xs)
  | ed25519 (k : Bytes) : k.length = 32 → Shown H .publicKey (1 :: k) (b!"01" ++ checksumHex H k)
  | secp256k1 (k : Bytes) : k.length = 33 → Shown H .publicKey (2 :: k) (b!"02" ++ checksumHex H k)

/-- Amounts that are shown as motes. -/
inductive ShownMotes : CLType → Bytes → Bytes → Prop
  | u32 (n : Nat) : n < 2 ^ 32 → ShownMotes .u32 (le 4 n) (motesOf n)
  | u64 (n : Nat) : n < 2 ^ 64 → ShownMotes .u64 (le 8 n) (motesOf n)
  | u512 (k n : Nat) : k ≤ 64 → n < 256 ^ k → ShownMotes .u512 (UInt8.ofNat k :: le k n) (motesOf n)

end Casper
