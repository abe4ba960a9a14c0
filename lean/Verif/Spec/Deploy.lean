import Verif.Spec.Screens
/-
Independent specification of the serialization of Deploys, and of the lines their review is to show.  Written from the Casper
serialization standard, not from the app.
-/
namespace Casper

/-- Public keys. -/
inductive PubKey where
  | ed25519 (key : Bytes)
  | secp256k1 (key : Bytes)
  deriving DecidableEq, Repr

def PubKey.encode : PubKey → Bytes
  | ed25519 k => 1 :: k
  | secp256k1 k => 2 :: k

/-- Keys have their proper lengths. -/
def PubKey.Ok : PubKey → Prop
  | ed25519 k => k.length = 32
  | secp256k1 k => k.length = 33

/-- A public key as an address: the number of the algorithm, then the key in checksummed hexadecimal. -/
def PubKey.address (H : Bytes → Bytes) : PubKey → Bytes
  | ed25519 k => b!"01" ++ checksumHex H k
  | secp256k1 k => b!"02" ++ checksumHex H k

/-- Header of a Deploy. -/
structure DeployHeader where
  account : PubKey
  timestamp : Nat
  ttl : Nat
  gasPrice : Nat
  bodyHash : Bytes
  deps : List Bytes
  chain : Bytes
  deriving DecidableEq, Repr

def DeployHeader.encode (h : DeployHeader) : Bytes :=
  h.account.encode ++ le 8 h.timestamp ++ le 8 h.ttl ++ le 8 h.gasPrice ++ h.bodyHash ++
    (le 4 h.deps.length ++ h.deps.flatten) ++ pfx h.chain

/-- Keys and hashes have their proper lengths, numbers fit their fields. -/
structure DeployHeader.Ok (h : DeployHeader) : Prop where
  account : h.account.Ok
  timestamp : h.timestamp < 2 ^ 64
  ttl : h.ttl < 2 ^ 64
  gasPrice : h.gasPrice < 2 ^ 64
  bodyHash : h.bodyHash.length = 32
  deps : ∀ d ∈ h.deps, d.length = 32

/-- Executable items: payment and session code. -/
inductive ExecItem where
  | moduleBytes (code : Bytes) (args : List Arg)
  | byHash (hash entry : Bytes) (args : List Arg)
  | byName (name entry : Bytes) (args : List Arg)
  | versionedByHash (hash : Bytes) (version : Option Nat) (entry : Bytes) (args : List Arg)
  | versionedByName (name : Bytes) (version : Option Nat) (entry : Bytes) (args : List Arg)
  | transfer (args : List Arg)
  deriving DecidableEq, Repr

def ExecItem.encode : ExecItem → Bytes
  | moduleBytes code args => 0 :: (pfx code ++ encodeRuntimeArgs args)
  | byHash h entry args => 1 :: (h ++ (pfx entry ++ encodeRuntimeArgs args))
  | byName n entry args => 2 :: (pfx n ++ (pfx entry ++ encodeRuntimeArgs args))
  | versionedByHash h v entry args => 3 :: (h ++ (optional (le 4) v ++ (pfx entry ++ encodeRuntimeArgs args)))
  | versionedByName n v entry args => 4 :: (pfx n ++ (optional (le 4) v ++ (pfx entry ++ encodeRuntimeArgs args)))
  | transfer args => 5 :: encodeRuntimeArgs args

/-- The arguments of an item. -/
def ExecItem.args : ExecItem → List Arg
  | moduleBytes _ as | byHash _ _ as | byName _ _ as | versionedByHash _ _ _ as | versionedByName _ _ _ as | transfer as => as

/-- A call of a stored contract, addressed by hash or by name, perhaps with a version. -/
def storedCall (byHash : Bool) (x : Bytes) (version : Option (Option Nat)) (entry : Bytes) (args : List Arg) : ExecItem :=
  match byHash, version with
  | true, none => .byHash x entry args
  | true, some v => .versionedByHash x v entry args
  | false, none => .byName x entry args
  | false, some v => .versionedByName x v entry args

/-- How a stored contract is shown: the kind of address, the address, in expert mode the version (0 if the latest is meant). -/
def storedLines (H : Bytes → Bytes) (expert byHash : Bool) (x : Bytes) (version : Option (Option Nat)) : List (Bytes × Bytes) :=
  [(b!"Execution", (if byHash then b!"by-hash" else b!"by-name") ++ (if version.isSome then b!"-versioned" else [])),
   if byHash then (b!"Address", checksumHex H x) else (b!"Name", x)] ++
  (match version with
    | some v => if expert then [(b!"Version", decText (v.getD 0))] else []
    | none => [])

/-- The text of an arguments hash. -/
def argsHashText (H : Bytes → Bytes) (as : List Arg) : Bytes :=
  b!"execution-" ++ casedHex (H (encodeRuntimeArgs as)) (H (encodeRuntimeArgs as))

/-- A Deploy without its hashes and approvals. -/
structure DeploySpec where
  account : PubKey
  timestamp : Nat
  ttl : Nat
  gasPrice : Nat
  deps : List Bytes
  chain : Bytes
  payment : ExecItem
  session : ExecItem
  deriving DecidableEq, Repr

def DeploySpec.body (d : DeploySpec) : Bytes := d.payment.encode ++ d.session.encode

/-- The header, with the hash of the body. -/
def DeploySpec.header (H : Bytes → Bytes) (d : DeploySpec) : DeployHeader :=
  { account := d.account, timestamp := d.timestamp, ttl := d.ttl, gasPrice := d.gasPrice, bodyHash := H d.body,
    deps := d.deps, chain := d.chain }

/-- Header, its hash, body: what is signed. -/
def DeploySpec.signedPart (H : Bytes → Bytes) (d : DeploySpec) : Bytes := (d.header H).encode ++ H (d.header H).encode ++ d.body

/-- Header, its hash, body, approvals (already serialized public keys and signatures). -/
def DeploySpec.tx (H : Bytes → Bytes) (d : DeploySpec) (approvals : List Bytes) : Bytes :=
  (d.header H).encode ++ H (d.header H).encode ++ d.body ++ (le 4 approvals.length ++ approvals.flatten)

/-- The lines of a review: `time` and `ttl` are the texts of the timestamp and of the time to live, `type` names the operation,
`fee` is the text of the payment, `lines` are those of the session. -/
def DeploySpec.screens (H : Bytes → Bytes) (d : DeploySpec) (expert : Bool) (approvals : Nat) (type time ttl fee : Bytes)
    (lines : List (Bytes × Bytes)) : List (Bytes × Bytes) :=
  [(b!"Txn hash", checksumHex H (H (d.header H).encode)), (b!"Type", type), (b!"Chain ID", d.chain),
   (b!"Account", d.account.address H)] ++
  (if expert then [(b!"Timestamp", time), (b!"Ttl", ttl), (b!"Gas price", decText d.gasPrice),
    (b!"Deps #", decText d.deps.length)] else []) ++ [(b!"Fee", fee)] ++ lines ++
  (if expert then [(b!"Approvals #", decText approvals)] else [])

end Casper
