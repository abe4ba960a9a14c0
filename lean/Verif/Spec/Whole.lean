import Verif.Spec.Deploy
import Verif.Spec.Lines
/-
A transaction of either format, and when its parts fit the fields they are serialized into.  Written from the Casper serialization standard, not from the app.
-/
namespace Casper

/-- Sizes of byte arrays fit 32 bits. -/
def CLType.Fit : CLType → Prop
  | byteArray n => n < 2 ^ 32
  | option t | list t | tuple1 t => t.Fit
  | result a b | map a b | tuple2 a b => a.Fit ∧ b.Fit
  | tuple3 a b c => a.Fit ∧ b.Fit ∧ c.Fit
  | _ => True

/-- The version of a versioned item. -/
def ExecItem.version : ExecItem → Option Nat
  | versionedByHash _ v _ _ | versionedByName _ v _ _ => v
  | _ => none

/-- Hashes have 32 bytes, versions 32 bits, types fit. -/
structure ExecItem.Fit (it : ExecItem) : Prop where
  sized : it.Sized
  version : ∀ v, it.version = some v → v < 2 ^ 32
  types : ∀ a ∈ it.args, a.ty.Fit

/-- Keys and hashes have their proper lengths, numbers fit their fields. -/
structure DeploySpec.Fit (x : DeploySpec) : Prop where
  account : x.account.Ok
  timestamp : x.timestamp < 2 ^ 64
  ttl : x.ttl < 2 ^ 64
  gasPrice : x.gasPrice < 2 ^ 64
  deps : ∀ d ∈ x.deps, d.length = 32
  payment : x.payment.Fit
  session : x.session.Fit

def Initiator.Fit : Initiator → Prop
  | ed25519 k => k.length = 32
  | secp256k1 k => k.length = 33
  | account h => h.length = 32

def Pricing.Fit : Pricing → Prop
  | limited amount gas _ => amount < 2 ^ 64 ∧ gas < 2 ^ 8
  | fixed gas extra => gas < 2 ^ 8 ∧ extra < 2 ^ 8
  | prepaid _ => True

def VmRuntime.Fit : VmRuntime → Prop
  | v1 => True
  | v2 value _ => value < 2 ^ 64

def V1Target.Fit : V1Target → Prop
  | native => True
  | byHash _ rt | byName _ rt | session _ rt _ => rt.Fit
  | byPackageHash _ v rt | byPackageName _ v rt => (∀ x, v = some x → x < 2 ^ 32) ∧ rt.Fit

def V1Entry.Fit : V1Entry → Prop
  | custom _ => True
  | op t => t < 2 ^ 8

def V1Args.Fit : V1Args → Prop
  | named as => ∀ a ∈ as, a.ty.Fit
  | bytes _ => True

/-- Numbers fit their fields, keys have their proper lengths. -/
structure TxPayload.Fit (p : TxPayload) : Prop where
  initiator : p.initiator.Fit
  timestamp : p.timestamp < 2 ^ 64
  ttl : p.ttl < 2 ^ 64
  pricing : p.pricing.Fit
  args : p.args.Fit
  target : p.target.Fit
  entry : p.entry.Fit

/-- A transaction of either format. -/
inductive Txn where
  | deploy (x : DeploySpec)
  | v1 (p : TxPayload)
  deriving DecidableEq

namespace Txn

def Fit : Txn → Prop
  | deploy x => x.Fit
  | v1 p => p.Fit

/-- What is uploaded: the number of the format, and the transaction with its approvals. -/
def data (H : Bytes → Bytes) (ap : List Bytes) : Txn → Bytes
  | deploy x => 0 :: x.tx H ap
  | v1 p => 1 :: p.tx H ap

/-- The hash the network gives it. -/
def hash (H : Bytes → Bytes) : Txn → Bytes
  | deploy x => H (x.header H).encode
  | v1 p => H p.encode

/-- The byte strings that are hashed. -/
def hashed (H : Bytes → Bytes) : Txn → List Bytes
  | deploy x => [(x.header H).encode, x.body]
  | v1 p => [p.encode]

end Txn

end Casper
