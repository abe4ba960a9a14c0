import Verif.Spec.V1
import Verif.Spec.Value
/-
Independent specification of the review of a version 1 transaction: which lines a user is to see, in which order.
-/
namespace Casper

/-- Names of the operations, by tag. -/
def opTitles : List Bytes :=
  [b!"Call", b!"Contract Execution", b!"Transfer", b!"Add Bid", b!"Withdraw Bid", b!"Delegate", b!"Undelegate",
   b!"Redelegate", b!"Activate Bid", b!"Change Bid PK", b!"Add Reservations", b!"Cancel Reservations", b!"Burn"]

def V1Entry.title : V1Entry → Bytes
  | custom _ => b!"Contract Execution"
  | op t => opTitles.getD t b!"Unknown"

/-- How prices are shown. -/
def Pricing.lines (H : Bytes → Bytes) : Pricing → List (Bytes × Bytes)
  | limited amount gas _ => [(b!"Payment", group3 (decText amount)), (b!"Max gs prce", decText gas)]
  | fixed gas _ => [(b!"Payment", b!"Fixed"), (b!"Max gs prce", decText gas)]
  | prepaid r => [(b!"Payment", b!"Prepaid"), (b!"Receipt", checksumHex H r)]

/-- An argument to be shown: label, name of the argument, and whether it is an amount of motes. -/
structure ArgLine where
  label : Bytes
  name : Bytes
  motes : Bool
  deriving DecidableEq, Repr

/-- The argument of this name, if there is one. -/
def argNamed (as : List Arg) (name : Bytes) : Option Arg := as.find? (fun a => a.name == name)

/-- The arguments shown for a native operation, in order.  A transfer shows its source and id in expert mode only; the
source of a transfer and the reserved slots of a bid are optional. -/
def opLines (expert : Bool) (as : List Arg) : Nat → List ArgLine
  | 2 => (if expert ∧ (argNamed as b!"source").isSome then [⟨b!"From", b!"source", false⟩] else []) ++
      [⟨b!"Target", b!"target", false⟩, ⟨b!"Amount", b!"amount", true⟩] ++
      (if expert then [⟨b!"ID", b!"id", false⟩] else [])
  | 3 => [⟨b!"Pk", b!"public_key", false⟩, ⟨b!"Deleg. rate", b!"delegation_rate", false⟩,
      ⟨b!"Amount", b!"amount", true⟩, ⟨b!"Min. amount", b!"minimum_delegation_amount", false⟩,
      ⟨b!"Max. amount", b!"maximum_delegation_amount", false⟩] ++
      (if (argNamed as b!"reserved_slots").isSome then [⟨b!"Rsrvd slots", b!"reserved_slots", false⟩] else [])
  | 4 => [⟨b!"Pk", b!"public_key", false⟩, ⟨b!"Amount", b!"amount", true⟩]
  | 5 | 6 => [⟨b!"Delegator", b!"delegator", false⟩, ⟨b!"Validator", b!"validator", false⟩,
      ⟨b!"Amount", b!"amount", true⟩]
  | 7 => [⟨b!"Delegator", b!"delegator", false⟩, ⟨b!"Old", b!"validator", false⟩,
      ⟨b!"New", b!"new_validator", false⟩, ⟨b!"Amount", b!"amount", true⟩]
  | 8 => [⟨b!"Validtr pk", b!"validator_public_key", false⟩]
  | 9 => [⟨b!"Pk", b!"public_key", false⟩, ⟨b!"New pk", b!"new_public_key", false⟩]
  | 12 => [⟨b!"Source", b!"source", false⟩, ⟨b!"Amount", b!"amount", true⟩]
  | _ => []

/-- The arguments an operation needs, and whether each has to be a U512. -/
def opRequired : Nat → List (Bytes × Bool)
  | 2 => [(b!"amount", true), (b!"target", false), (b!"id", false)]
  | 3 => [(b!"public_key", false), (b!"delegation_rate", false), (b!"amount", true),
      (b!"minimum_delegation_amount", false), (b!"maximum_delegation_amount", false)]
  | 4 => [(b!"public_key", false), (b!"amount", true)]
  | 5 | 6 => [(b!"delegator", false), (b!"validator", false), (b!"amount", true)]
  | 7 => [(b!"new_validator", false)]
  | 8 => [(b!"validator_public_key", false)]
  | 9 => [(b!"public_key", false), (b!"new_public_key", false)]
  | 10 => [(b!"reservations", false)]
  | 11 => [(b!"validator", false), (b!"delegators", false)]
  | 12 => [(b!"source", false), (b!"amount", true)]
  | _ => []

/-- A line with the text of its argument. -/
inductive ArgLine.Shows (H : Bytes → Bytes) (as : List Arg) : ArgLine → Bytes × Bytes → Prop
  | value {l a text} : l.motes = false → argNamed as l.name = some a → Shown H a.ty a.value text → Shows H as l (l.label, text)
  | motes {l a text} : l.motes = true → argNamed as l.name = some a → a.ty = .u512 → ShownMotes a.ty a.value text →
      Shows H as l (l.label, text)

/-- What is shown for the arguments an operation does not know: question marks; a burn repeats its amount; a transfer shows
nothing of them in normal mode. -/
def opExtra (expert : Bool) (args t : Nat) (lines : List (Bytes × Bytes)) : List (Bytes × Bytes) :=
  if t = 2 ∧ expert = false then []
  else List.replicate (args - lines.length) (if t = 12 then lines.getD 1 (b!"?", b!"?") else (b!"?", b!"?"))

/-- The lines of a review: `time` and `ttl` are the texts of the timestamp and of the time to live, `lines` those of the
operation. -/
def TxPayload.screens (H : Bytes → Bytes) (p : TxPayload) (expert : Bool) (approvals : Nat) (time ttl : Bytes)
    (lines : List (Bytes × Bytes)) : List (Bytes × Bytes) :=
  [(b!"Txn hash", checksumHex H (H p.encode)), (b!"Type", p.entry.title), (b!"Chain ID", p.chain),
   (b!"Account", checksumHex H p.initiator.addr)] ++
  (if expert then [(b!"Timestamp", time), (b!"Ttl", ttl)] ++ p.pricing.lines H else []) ++ lines ++
  (if expert then [(b!"Approvals #", decText approvals)] else [])

/-- Where the serialized arguments start in the transaction: behind the transaction's and the payload's tables, the hash,
the header, and 15 bytes of lengths and tags. -/
def TxPayload.argsPos (p : TxPayload) : Nat :=
  26 + 32 + 44 + p.initiator.encode.length + 8 + 8 + (4 + p.chain.length) + p.pricing.encode.length + 15

/-- The bytes an "Args hash" is to be taken of. -/
def V1Args.blob : V1Args → Bytes
  | named as => encodeRuntimeArgs as
  | bytes xs => xs

/-- The text of a contract's address: its bytes in decimal, one after the other. -/
def decimalAddress (h : Bytes) : Bytes := h.flatMap fun b => decText b.toNat

/-- The line with the version of a contract, in expert mode. -/
def versionLine (expert : Bool) (v : Option Nat) : List (Bytes × Bytes) :=
  match expert, v with
  | true, some v => [(b!"Version", decText v)]
  | _, _ => []

/-- What is shown of a contract call: how the contract is found, its address or name, the entry point `name`, and the hash of the
arguments; of session code only the hash. -/
def TxPayload.callLines (H : Bytes → Bytes) (p : TxPayload) (expert : Bool) (name : Bytes) : List (Bytes × Bytes) :=
  (match p.target with
    | .native | .session .. => []
    | .byHash h _ => [(b!"Execution", b!"by-hash"), (b!"Address", decimalAddress h), (b!"Entry-point", name)]
    | .byName n _ => [(b!"Execution", b!"by-name"), (b!"Name", n), (b!"Entry-point", name)]
    | .byPackageHash h v _ => [(b!"Execution", b!"by-hash-versioned"), (b!"Address", decimalAddress h)] ++ versionLine expert v ++
        [(b!"Entry-point", name)]
    | .byPackageName n v _ => [(b!"Execution", b!"by-name-versioned"), (b!"Name", n)] ++ versionLine expert v ++
        [(b!"Entry-point", name)]) ++
  [(b!"Args hash", checksumHex H (H p.args.blob))]

end Casper
