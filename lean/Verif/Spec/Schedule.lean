import Verif.Spec.V1
/-
When a version 1 transaction may be executed.  Written from the Casper serialization standard, not from the app.
-/
namespace Casper

/-- At once, not before an era, not before a time. -/
inductive Scheduling where
  | standard
  | futureEra (era : Nat)
  | futureTimestamp (time : Nat)
  deriving DecidableEq, Repr

def Scheduling.encode : Scheduling → Bytes
  | standard => callTable [[0]]
  | futureEra n => callTable [[1], le 8 n]
  | futureTimestamp n => callTable [[2], le 8 n]

/-- The body of a payload with any scheduling. -/
def TxPayload.bodyOn (p : TxPayload) (s : Bytes) : Bytes :=
  le 4 4 ++ (le 2 0 ++ pfx p.args.encode) ++ (le 2 1 ++ pfx p.target.encode) ++ (le 2 2 ++ pfx p.entry.encode) ++ (le 2 3 ++ pfx s)

/-- The payload with any scheduling. -/
def TxPayload.encodeOn (p : TxPayload) (s : Bytes) : Bytes :=
  callTable [p.initiator.encode, le 8 p.timestamp, le 8 p.ttl, pfx p.chain, p.pricing.encode, p.bodyOn s]

/-- The transaction with any scheduling. -/
def TxPayload.txOn (H : Bytes → Bytes) (p : TxPayload) (s : Bytes) (approvals : List Bytes) : Bytes :=
  callTable [H (p.encodeOn s), p.encodeOn s, le 4 approvals.length ++ approvals.flatten]

end Casper
