import Verif.Spec.Schedule
/-
Kinds that the Casper serialization standard leaves free.  Every part of a version 1 transaction that comes in several kinds is a table whose first field is the
number of the kind (the arguments start with it).  Later versions of Casper may use further numbers; what is then in the other fields cannot be known.
-/
namespace Casper

/-- A version 1 transaction whose parts are any bytes. -/
structure Parts where
  initiator : Bytes
  timestamp : Nat
  ttl : Nat
  chain : Bytes
  pricing : Bytes
  args : Bytes
  target : Bytes
  entry : Bytes
  scheduling : Bytes
  deriving DecidableEq, Repr

def Parts.body (q : Parts) : Bytes :=
  le 4 4 ++ (le 2 0 ++ pfx q.args) ++ (le 2 1 ++ pfx q.target) ++ (le 2 2 ++ pfx q.entry) ++ (le 2 3 ++ pfx q.scheduling)

def Parts.encode (q : Parts) : Bytes :=
  callTable [q.initiator, le 8 q.timestamp, le 8 q.ttl, pfx q.chain, q.pricing, q.body]

def Parts.tx (H : Bytes → Bytes) (q : Parts) (approvals : List Bytes) : Bytes :=
  callTable [H q.encode, q.encode, le 4 approvals.length ++ approvals.flatten]

/-- The parts of a transaction of known kinds. -/
def TxPayload.parts (p : TxPayload) : Parts :=
  ⟨p.initiator.encode, p.timestamp, p.ttl, p.chain, p.pricing.encode, p.args.encode, p.target.encode, p.entry.encode, Scheduling.standard.encode⟩

/-- A part of kind `k`, with at most nine other fields. -/
structure OfKind (k : UInt8) (xs : Bytes) : Prop where
  fields : ∃ fs, fs.length ≤ 9 ∧ xs = callTable ([k] :: fs)

/-- A virtual machine that the standard does not name, or the second one with a seed that is neither absent (0) nor present (1). -/
inductive StrangeRuntime : Bytes → Prop
  | kind {k xs} (hk : 1 < k) (h : OfKind k xs) : StrangeRuntime xs
  | seed {o : UInt8} (ho : 1 < o) {value : Nat} (hv : value < 2 ^ 64) (ys : Bytes) (fs : List Bytes) (hf : fs.length ≤ 7) :
      StrangeRuntime (callTable ([1] :: le 8 value :: (o :: ys) :: fs))

/-- How a stored contract is addressed: by hash, by name, by package hash or by package name, the latter two with a version. -/
inductive StoredId where
  | byHash (hash : Bytes)
  | byName (name : Bytes)
  | byPackageHash (hash : Bytes) (version : Option Nat)
  | byPackageName (name : Bytes) (version : Option Nat)

def StoredId.encode : StoredId → Bytes
  | byHash h => callTable [[0], h]
  | byName n => callTable [[1], pfx n]
  | byPackageHash h v => callTable [[2], h, optional (le 4) v]
  | byPackageName n v => callTable [[3], pfx n, optional (le 4) v]

/-- Hashes have 32 bytes and versions fit in their field. -/
def StoredId.Ok : StoredId → Prop
  | byHash h => h.length = 32
  | byName _ => True
  | byPackageHash h v => h.length = 32 ∧ ∀ x, v = some x → x < 2 ^ 32
  | byPackageName _ v => ∀ x, v = some x → x < 2 ^ 32

/-- The address of a package with a version that is neither absent (0) nor present (1). -/
inductive StrangeVersion : Bytes → Prop
  | byHash {o : UInt8} (ho : 1 < o) {hash : Bytes} (h : hash.length = 32) (ys : Bytes) (fs : List Bytes) (hf : fs.length ≤ 7) :
      StrangeVersion (callTable ([2] :: hash :: (o :: ys) :: fs))
  | byName {o : UInt8} (ho : 1 < o) (name ys : Bytes) (fs : List Bytes) (hf : fs.length ≤ 7) :
      StrangeVersion (callTable ([3] :: pfx name :: (o :: ys) :: fs))

/-- A target in which something is of an unknown kind: the target itself, the way a stored contract is addressed, the option of a version, the virtual machine, or the
flag of an installation. -/
inductive StrangeTarget : Bytes → Prop
  | kind {k xs} (hk : 2 < k) (h : OfKind k xs) : StrangeTarget xs
  | stored {k id} (fs : List Bytes) (hk : 3 < k) (h : OfKind k id) (hf : fs.length ≤ 8) : StrangeTarget (callTable ([1] :: id :: fs))
  | storedRuntime (id : StoredId) (hid : id.Ok) {rt} (fs : List Bytes) (h : StrangeRuntime rt) (hf : fs.length ≤ 7) :
      StrangeTarget (callTable ([1] :: id.encode :: rt :: fs))
  | version {id} (fs : List Bytes) (h : StrangeVersion id) (hf : fs.length ≤ 8) : StrangeTarget (callTable ([1] :: id :: fs))
  | sessionFlag {b : UInt8} (hb : 1 < b) (fs : List Bytes) (hf : fs.length ≤ 8) : StrangeTarget (callTable ([2] :: [b] :: fs))
  | sessionRuntime (install : Bool) {rt} (fs : List Bytes) (h : StrangeRuntime rt) (hf : fs.length ≤ 7) :
      StrangeTarget (callTable ([2] :: [if install then 1 else 0] :: rt :: fs))

/-- `q` is `p`, but one part is of an unknown kind. -/
inductive Strange (p : TxPayload) : Parts → Prop
  | initiator {k xs} (hk : 1 < k) (h : OfKind k xs) : Strange p { p.parts with initiator := xs }
  | key {k : UInt8} (hk : 2 < k) (xs : Bytes) : Strange p { p.parts with initiator := callTable [[0], k :: xs] }
  | pricing {k xs} (hk : 2 < k) (h : OfKind k xs) : Strange p { p.parts with pricing := xs }
  | args {k : UInt8} (hk : 1 < k) (xs : Bytes) : Strange p { p.parts with args := k :: xs }
  | target {xs} (h : StrangeTarget xs) : Strange p { p.parts with target := xs }
  | entry {k xs} (hk : 12 < k) (h : OfKind k xs) : Strange p { p.parts with entry := xs }
  | scheduling {k xs} (hk : 2 < k) (h : OfKind k xs) : Strange p { p.parts with scheduling := xs }

end Casper
