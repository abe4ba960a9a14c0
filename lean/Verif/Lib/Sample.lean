import Verif.Spec.Blake2b
import Verif.Model.Device
/-
Concrete data for non-vacuity examples and counterexamples.
-/
namespace Casper

/-- Received data `xs`, real BLAKE2b-256, a fixed text for every timestamp. -/
def sampleEnv (xs : Bytes) (expert : Bool := false) : Env :=
  { buf := xs, expert := expert, blake := Blake.H, fmtTime := fun _ => some b!"2021-05-04 14:20:35 UTC" }

/-- A device with the capacity of a Nano S whose "signature" is the path followed by the digest, and whose
"SHA-256" puts a mark in front of its input, so that an answer shows what was signed and with which key. -/
def samplePl : Platform where
  sha256 := fun x => 0x53 :: x
  sign := fun p x => some (p ++ x)
  pubKey := fun p => some (3 :: (p ++ List.replicate 12 7))
  blake := Blake.H
  fmtTime := fun _ => some b!"2021-05-04 14:20:35 UTC"
  overlong := fun _ _ => []
  pathText := fun _ => b!"m/44'/506'/0'/0/0"
  cap := 8192
  targetId := [0x31, 0x10, 0, 4]

/-- A command: class, instruction, P1, P2 = 0, length, data. -/
def apdu (ins p1 : UInt8) (xs : Bytes) : Bytes := [0x11, ins, p1, 0, UInt8.ofNat xs.length] ++ xs

/-- Five path words, little endian: 44'/506'/0'/0/`k`. -/
def samplePath (k : UInt8) : Bytes :=
  [0x2c, 0, 0, 0x80, 0xfa, 1, 0, 0x80, 0, 0, 0, 0x80, 0, 0, 0, 0, k, 0, 0, 0]

/-- 44'/60'/0'/0/0, not a Casper path. -/
def otherPath : Bytes := [0x2c, 0, 0, 0x80, 60, 0, 0, 0x80, 0, 0, 0, 0x80, 0, 0, 0, 0, 0, 0, 0, 0]

end Casper
