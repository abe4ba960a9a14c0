import Verif.Spec.Bytesrepr
/-
Independent specification of the serialization of version 1 transactions: calltables (`CalltableSerializationEnvelope`)
and the fields of `TransactionV1`.  Written from the Casper serialization standard, not from the app.
-/
namespace Casper

/-- The offsets table of a calltable: for each field its index and where it starts. -/
def tableEntries (i start : Nat) : List Bytes → Bytes
  | [] => []
  | f :: fs => le 2 i ++ le 4 start ++ tableEntries (i + 1) (start + f.length) fs

/-- A calltable: number of fields, table, total size, the fields. -/
def callTable (fs : List Bytes) : Bytes :=
  le 4 fs.length ++ tableEntries 0 0 fs ++ le 4 fs.flatten.length ++ fs.flatten

/-- Who pays: an Ed25519 or Secp256k1 public key, or an account hash. -/
inductive Initiator where
  | ed25519 (key : Bytes)
  | secp256k1 (key : Bytes)
  | account (hash : Bytes)
  deriving DecidableEq, Repr

/-- The bytes of the address itself. -/
def Initiator.addr : Initiator → Bytes
  | ed25519 k => 1 :: k
  | secp256k1 k => 2 :: k
  | account h => h

def Initiator.encode : Initiator → Bytes
  | account h => callTable [[1], h]
  | a => callTable [[0], a.addr]

/-- Pricing modes. -/
inductive Pricing where
  | limited (amount gas : Nat) (standard : Bool)
  | fixed (gas extra : Nat)
  | prepaid (receipt : Bytes)
  deriving DecidableEq, Repr

def Pricing.encode : Pricing → Bytes
  | limited amount gas standard => callTable [[0], le 8 amount, le 1 gas, [if standard then 1 else 0]]
  | fixed gas extra => callTable [[1], le 1 gas, le 1 extra]
  | prepaid r => callTable [[2], r]

/-- Runtimes. -/
inductive VmRuntime where
  | v1
  | v2 (value : Nat) (seed : Option Bytes)
  deriving DecidableEq, Repr

/-- An optional value. -/
def optional {α : Type} (f : α → Bytes) : Option α → Bytes
  | none => [0]
  | some x => 1 :: f x

def VmRuntime.encode : VmRuntime → Bytes
  | v1 => callTable [[0]]
  | v2 value seed => callTable [[1], le 8 value, optional id seed]

/-- What is called. -/
inductive V1Target where
  | native
  | byHash (hash : Bytes) (rt : VmRuntime)
  | byName (name : Bytes) (rt : VmRuntime)
  | byPackageHash (hash : Bytes) (version : Option Nat) (rt : VmRuntime)
  | byPackageName (name : Bytes) (version : Option Nat) (rt : VmRuntime)
  | session (install : Bool) (rt : VmRuntime) (module : Bytes)
  deriving DecidableEq, Repr

def V1Target.encode : V1Target → Bytes
  | native => callTable [[0]]
  | byHash h rt => callTable [[1], callTable [[0], h], rt.encode]
  | byName n rt => callTable [[1], callTable [[1], pfx n], rt.encode]
  | byPackageHash h v rt => callTable [[1], callTable [[2], h, optional (le 4) v], rt.encode]
  | byPackageName n v rt => callTable [[1], callTable [[3], pfx n, optional (le 4) v], rt.encode]
  | session i rt m => callTable [[2], [if i then 1 else 0], rt.encode, pfx m]

/-- Entry points: `custom` with its name, the others by their tag (0 call, 2 transfer, 3 add bid, ... 12 burn). -/
inductive V1Entry where
  | custom (name : Bytes)
  | op (tag : Nat)
  deriving DecidableEq, Repr

def V1Entry.encode : V1Entry → Bytes
  | custom n => callTable [[1], pfx n]
  | op t => callTable [le 1 t]

/-- Arguments. -/
inductive V1Args where
  | named (args : List Arg)
  | bytes (xs : Bytes)
  deriving DecidableEq, Repr

def V1Args.encode : V1Args → Bytes
  | named as => 0 :: encodeRuntimeArgs as
  | bytes xs => 1 :: pfx xs

/-- The payload of a transaction. -/
structure TxPayload where
  initiator : Initiator
  timestamp : Nat
  ttl : Nat
  chain : Bytes
  pricing : Pricing
  args : V1Args
  target : V1Target
  entry : V1Entry
  deriving DecidableEq, Repr

/-- The four body fields; only the standard scheduling is supported. -/
def TxPayload.body (p : TxPayload) : Bytes :=
  le 4 4 ++ (le 2 0 ++ pfx p.args.encode) ++ (le 2 1 ++ pfx p.target.encode) ++ (le 2 2 ++ pfx p.entry.encode) ++
    (le 2 3 ++ pfx (callTable [[0]]))

def TxPayload.encode (p : TxPayload) : Bytes :=
  callTable [p.initiator.encode, le 8 p.timestamp, le 8 p.ttl, pfx p.chain, p.pricing.encode, p.body]

/-- The transaction: hash of the payload, payload, approvals (already serialized public keys and signatures). -/
def TxPayload.tx (H : Bytes → Bytes) (p : TxPayload) (approvals : List Bytes) : Bytes :=
  callTable [H p.encode, p.encode, le 4 approvals.length ++ approvals.flatten]

end Casper
