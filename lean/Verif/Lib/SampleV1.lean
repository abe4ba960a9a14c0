import Verif.Lib.Sample
import Verif.Spec.V1
/-
Concrete version 1 transactions, written with the specification's serializer.
-/
namespace Casper

/-- A public key. -/
def sampleKey : Initiator := .secp256k1 (List.replicate 33 0xab)

/-- A U512 value: length byte, then the bytes. -/
def bigNum (n v : Nat) : Bytes := UInt8.ofNat n :: le n v

/-- Transfer of 2.5 CSPR. -/
def sampleTransfer : TxPayload where
  initiator := sampleKey
  timestamp := 1620137435000
  ttl := 1800000
  chain := b!"casper"
  pricing := .fixed 1 0
  args := .named [⟨b!"amount", bigNum 4 2500000000, .u512⟩, ⟨b!"target", List.replicate 32 0x11, .byteArray 32⟩,
    ⟨b!"id", 1 :: le 8 7, .option .u64⟩]
  target := .native
  entry := .op 2

/-- One approval: key and signature. -/
def sampleApproval : Bytes := 2 :: (List.replicate 33 0xab ++ 2 :: List.replicate 64 0x5a)

/-- Pieces of 250 bytes. -/
def pieces : Nat → Bytes → List Bytes
  | 0, _ => []
  | k + 1, xs => xs.take 250 :: pieces k (xs.drop 250)

/-- The commands uploading `xs` for signing: INIT, `k` chunks of 250 bytes, the last chunk. -/
def sampleUpload (xs : Bytes) (k : Nat := 2) : List Event :=
  [.apdu (apdu 2 0 (samplePath 0)) true] ++ (pieces k xs).map (fun c => .apdu (apdu 2 1 c) true) ++
    [.apdu (apdu 2 2 (xs.drop (250 * k))) true]

end Casper
