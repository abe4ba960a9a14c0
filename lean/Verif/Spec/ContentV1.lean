import Verif.Spec.Loose
import Verif.Spec.Screens
/-
What a version 1 transaction says, apart from the layout of its bytes: content, and which bytes are a payload with a given content (up to the numbers
of Spec/Loose).  Independent of the model.
-/
namespace Casper

/-- What the payload of a version 1 transaction says. -/
structure Content where
  /-- key or hash of the initiator -/
  addr : Bytes
  time : Nat
  ttl : Nat
  chain : Bytes
  pricing : Pricing
  args : V1Args
  /-- the length that is given for the arguments -/
  argsSize : Nat
  target : V1Target
  entry : V1Entry

/-- `xs` is this runtime; values have 64 bits, seeds 32 bytes. -/
def RuntimeOf (rt : VmRuntime) (xs : Bytes) : Prop :=
  (∀ v s, rt = .v2 v (some s) → s.length = 32) ∧ (∀ v s, rt = .v2 v s → v < 2 ^ 64) ∧ LooseAs 0 false rt.fields xs

/-- `fs` are the fields identifying the stored contract of this target, which runs on `rt`. -/
inductive StoredOf : V1Target → VmRuntime → List Bytes → Prop
  | byHash (h : Bytes) (rt : VmRuntime) (hh : h.length = 32) : StoredOf (.byHash h rt) rt [[0], h]
  | byName (n : Bytes) (rt : VmRuntime) : StoredOf (.byName n rt) rt [[1], pfx n]
  | byPackageHash (h : Bytes) (v : Option Nat) (rt : VmRuntime) (hh : h.length = 32) (hv : ∀ n, v = some n → n < 2 ^ 32) :
      StoredOf (.byPackageHash h v rt) rt [[2], h, optional (le 4) v]
  | byPackageName (n : Bytes) (v : Option Nat) (rt : VmRuntime) (hv : ∀ n, v = some n → n < 2 ^ 32) :
      StoredOf (.byPackageName n v rt) rt [[3], pfx n, optional (le 4) v]

/-- `xs` is this target. -/
inductive TargetOf : V1Target → Bytes → Prop
  | native (xs : Bytes) (h : LooseAs 1 true [[0]] xs) : TargetOf .native xs
  | stored (t : V1Target) (r : VmRuntime) (fs : List Bytes) (who rt xs : Bytes) (h1 : StoredOf t r fs) (h2 : LooseAs 0 false fs who) (h3 : RuntimeOf r rt)
      (h : LooseAs 2 false [[1], who, rt] xs) : TargetOf t xs
  | session (install : Bool) (r : VmRuntime) (rt code xs : Bytes) (h3 : RuntimeOf r rt)
      (h : LooseAs 2 false [[2], [if install then 1 else 0], rt, pfx code] xs) : TargetOf (.session install r code) xs

/-- `xs` is this entry point. -/
inductive EntryOf : V1Entry → Bytes → Prop
  | custom (name xs : Bytes) (h : LooseAs 2 true [[1], pfx name] xs) : EntryOf (.custom name) xs
  | op (t : Nat) (xs : Bytes) (ht : t ≤ 12) (h1 : t ≠ 1) (h : LooseAs 1 true [le 1 t] xs) : EntryOf (.op t) xs

/-- `xs` is a body with these arguments, for which the length `l0` is given, this target and this entry point. -/
def BodyOf (a : V1Args) (l0 : Nat) (t : V1Target) (en : V1Entry) (xs : Bytes) : Prop :=
  ∃ l1 l2 l3 target entry sched, l0 < 2 ^ 32 ∧ TargetOf t target ∧ EntryOf en entry ∧ LooseAs 1 true [[0]] sched ∧
    xs = le 4 4 ++ (le 2 0 ++ (le 4 l0 ++ (a.encode ++ (le 2 1 ++ (le 4 l1 ++ (target ++ (le 2 2 ++ (le 4 l2 ++ (entry ++ (le 2 3 ++ (le 4 l3 ++ sched)))))))))))

/-- `xs` is a payload with this content; its arguments are at position `pos` of it. -/
def PayloadOf (c : Content) (pos : Nat) (xs : Bytes) : Prop :=
  ∃ tb init pricing body, Heads [init, le 8 c.time, le 8 c.ttl, pfx c.chain, pricing, body] 6 true tb ∧
    xs = tb ++ [init, le 8 c.time, le 8 c.ttl, pfx c.chain, pricing, body].flatten ∧
    InitOf c.addr init ∧ PricingOf c.pricing pricing ∧ c.time < 2 ^ 64 ∧ c.ttl < 2 ^ 64 ∧ BodyOf c.args c.argsSize c.target c.entry body ∧
    pos = tb.length + init.length + 8 + 8 + (pfx c.chain).length + pricing.length + 10

/-- `xs` are a transaction with this content and `n` approvals: a table, the hash of the payload, the payload, the approvals, and anything behind them.
Of the last signature up to 64 bytes may be missing.  The arguments are at position `pos` of the transaction. -/
def Says (H : Bytes → Bytes) (c : Content) (pos n : Nat) (payload xs : Bytes) : Prop :=
  ∃ tb aps miss rest p, Heads [H payload, payload, le 4 aps.length ++ aps.flatten] 3 true tb ∧ PayloadOf c p payload ∧ pos = tb.length + 32 + p + 5 ∧
    (∀ a ∈ aps, LooseApproval a) ∧ n = aps.length ∧
    xs ++ miss = tb ++ (H payload ++ (payload ++ ((le 4 aps.length ++ aps.flatten) ++ rest))) ∧ miss.length ≤ 64 ∧ (miss = [] ∨ aps ≠ [])

/-- How the contract of a call is identified in a review, and its entry point `name`. -/
def V1Target.calledLines (t : V1Target) (expert : Bool) (name : Bytes) : List (Bytes × Bytes) :=
  match t with
  | .native | .session .. => []
  | .byHash h _ => [(b!"Execution", b!"by-hash"), (b!"Address", decimalAddress h), (b!"Entry-point", name)]
  | .byName n _ => [(b!"Execution", b!"by-name"), (b!"Name", n), (b!"Entry-point", name)]
  | .byPackageHash h v _ => [(b!"Execution", b!"by-hash-versioned"), (b!"Address", decimalAddress h)] ++ versionLine expert v ++ [(b!"Entry-point", name)]
  | .byPackageName n v _ => [(b!"Execution", b!"by-name-versioned"), (b!"Name", n)] ++ versionLine expert v ++ [(b!"Entry-point", name)]

/-- The review of a transaction with this content: `time` and `ttl` are the texts of the timestamp and of the time to live, `lines` those of the
operation or call. -/
def Content.screens (H : Bytes → Bytes) (c : Content) (payload : Bytes) (expert : Bool) (approvals : Nat) (time ttl : Bytes)
    (lines : List (Bytes × Bytes)) : List (Bytes × Bytes) :=
  [(b!"Txn hash", checksumHex H (H payload)), (b!"Type", c.entry.title), (b!"Chain ID", c.chain.takeWhile (· != 0)), (b!"Account", checksumHex H c.addr)] ++
  (if expert then [(b!"Timestamp", time), (b!"Ttl", ttl)] ++ c.pricing.lines H else []) ++ lines ++
  (if expert then [(b!"Approvals #", decText approvals)] else [])

end Casper
