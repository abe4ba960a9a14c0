import Verif.Spec.V1
/-
Version 1 transactions as Casper serializes them, except for numbers that describe the layout: offsets and sizes in tables, lengths of the four
fields of the body.  Says which of these numbers may differ from what Casper writes.  Independent of the model.
-/
namespace Casper

/-- The entries of a table from number `i` on, with any offsets. -/
def entriesFrom (i : Nat) : List Nat → Bytes
  | [] => []
  | o :: os => le 2 i ++ le 4 o ++ entriesFrom (i + 1) os

/-- A table with a count, offsets and a total size. -/
def looseTable (count : Nat) (os : List Nat) (size : Nat) : Bytes := le 4 count ++ entriesFrom 0 os ++ le 4 size

/-- Where field `j` begins. -/
def startOf (fs : List Bytes) (j : Nat) : Nat := (fs.take j).flatten.length

/-- `t` is a table whose first `n` offsets are those of the fields `fs`, and whose total size is theirs if `whole`.  Free are: further entries (up
to ten in all), the upper bytes of the count, the upper half of the size. -/
def Heads (fs : List Bytes) (n : Nat) (whole : Bool) (t : Bytes) : Prop :=
  ∃ count os size, t = looseTable count os size ∧ count % 256 = os.length ∧ 1 ≤ os.length ∧ os.length ≤ 10 ∧
    (∀ j, j < n → os[j]? = some (startOf fs j)) ∧ (whole = true → size % 65536 = fs.flatten.length)

/-- Fields behind such a table. -/
def LooseAs (n : Nat) (whole : Bool) (fs : List Bytes) (xs : Bytes) : Prop := ∃ t, Heads fs n whole t ∧ xs = t ++ fs.flatten

/-- The fields of a runtime. -/
def VmRuntime.fields : VmRuntime → List Bytes
  | v1 => [[0]]
  | v2 value seed => [[1], le 8 value, optional id seed]

/-- A runtime; seeds have 32 bytes.  Its table may hold any offsets and size. -/
def LooseRuntime (xs : Bytes) : Prop := ∃ rt : VmRuntime, (∀ v s, rt = .v2 v (some s) → s.length = 32) ∧ LooseAs 0 false rt.fields xs

/-- Who pays: a public key (of one of the two algorithms, or the key of the system, which is empty) or an account hash.  The table has two entries. -/
def LooseInit (xs : Bytes) : Prop :=
  ∃ fs, (fs = [[0], [0]] ∨ (∃ k, k.length = 32 ∧ fs = [[0], 1 :: k]) ∨ (∃ k, k.length = 33 ∧ fs = [[0], 2 :: k]) ∨
    ∃ h, h.length = 32 ∧ fs = [[1], h]) ∧ LooseAs 2 true fs xs ∧ xs.length = 20 + fs.flatten.length

/-- Pricing modes; the mark of the standard payment may be any byte. -/
def LoosePricing (xs : Bytes) : Prop :=
  ∃ fs, ((∃ amount gas standard, amount < 2 ^ 64 ∧ gas < 256 ∧ fs = [[0], le 8 amount, le 1 gas, [standard]]) ∨
    (∃ gas extra, gas < 256 ∧ extra < 256 ∧ fs = [[1], le 1 gas, le 1 extra]) ∨ ∃ r, r.length = 32 ∧ fs = [[2], r]) ∧ LooseAs fs.length true fs xs

/-- `xs` is an initiator with this key or hash. -/
def InitOf (addr xs : Bytes) : Prop :=
  ∃ tag : UInt8, ((tag = 0 ∧ (addr = [0] ∨ (∃ k, k.length = 32 ∧ addr = 1 :: k) ∨ ∃ k, k.length = 33 ∧ addr = 2 :: k)) ∨ (tag = 1 ∧ addr.length = 32)) ∧
    LooseAs 2 true [[tag], addr] xs ∧ xs.length = 21 + addr.length

/-- The fields of a pricing mode; the mark of the standard payment may be any byte, all but 0 say yes. -/
def PricingFields (fs : List Bytes) : Pricing → Prop
  | .limited amount gas standard => amount < 2 ^ 64 ∧ gas < 256 ∧ ∃ mark, standard = (mark != 0) ∧ fs = [[0], le 8 amount, le 1 gas, [mark]]
  | .fixed gas extra => gas < 256 ∧ extra < 256 ∧ fs = [[1], le 1 gas, le 1 extra]
  | .prepaid r => r.length = 32 ∧ fs = [[2], r]

/-- `xs` is this pricing mode. -/
def PricingOf (pm : Pricing) (xs : Bytes) : Prop := ∃ fs, PricingFields fs pm ∧ LooseAs fs.length true fs xs

/-- What identifies a stored contract. -/
inductive StoredFields : List Bytes → Prop
  | byHash (h : Bytes) (hh : h.length = 32) : StoredFields [[0], h]
  | byName (n : Bytes) : StoredFields [[1], pfx n]
  | byPackageHash (h : Bytes) (hh : h.length = 32) (v : Option Nat) (hv : ∀ n, v = some n → n < 2 ^ 32) : StoredFields [[2], h, optional (le 4) v]
  | byPackageName (n : Bytes) (v : Option Nat) (hv : ∀ n, v = some n → n < 2 ^ 32) : StoredFields [[3], pfx n, optional (le 4) v]

/-- Targets.  The table of the identification of a stored contract may hold any offsets and size. -/
inductive LooseTarget : Bytes → Prop
  | native (xs : Bytes) (h : LooseAs 1 true [[0]] xs) : LooseTarget xs
  | stored (fs : List Bytes) (who rt xs : Bytes) (h1 : StoredFields fs) (h2 : LooseAs 0 false fs who) (h3 : LooseRuntime rt)
      (h : LooseAs 2 false [[1], who, rt] xs) : LooseTarget xs
  | session (install : Bool) (rt code xs : Bytes) (h3 : LooseRuntime rt)
      (h : LooseAs 2 false [[2], [if install then 1 else 0], rt, pfx code] xs) : LooseTarget xs

/-- Entry points. -/
inductive LooseEntry : Bytes → Prop
  | custom (name xs : Bytes) (h : LooseAs 2 true [[1], pfx name] xs) : LooseEntry xs
  | op (t : Nat) (xs : Bytes) (ht : t ≤ 12) (h1 : t ≠ 1) (h : LooseAs 1 true [le 1 t] xs) : LooseEntry xs

/-- The body: its fields are arguments, target, entry point and (standard) scheduling; their lengths may be wrong. -/
def LooseBody (args xs : Bytes) : Prop :=
  ∃ l0 l1 l2 l3 target entry sched, LooseTarget target ∧ LooseEntry entry ∧ LooseAs 1 true [[0]] sched ∧
    xs = le 4 4 ++ (le 2 0 ++ (le 4 l0 ++ (args ++ (le 2 1 ++ (le 4 l1 ++ (target ++ (le 2 2 ++ (le 4 l2 ++ (entry ++ (le 2 3 ++ (le 4 l3 ++ sched)))))))))))

/-- The five fields before the body. -/
def LooseHeader (fs : List Bytes) : Prop :=
  ∃ init time ttl chain pricing, LooseInit init ∧ time < 2 ^ 64 ∧ ttl < 2 ^ 64 ∧ LoosePricing pricing ∧
    fs = [init, le 8 time, le 8 ttl, pfx chain, pricing]

/-- A payload with the arguments `args`. -/
def LoosePayload (args xs : Bytes) : Prop :=
  ∃ fs body, LooseHeader fs ∧ LooseBody args body ∧ LooseAs 6 true (fs ++ [body]) xs

/-- An approval: a public key (of one of the two algorithms, or the key of the system, which is empty) and a signature. -/
def LooseApproval (xs : Bytes) : Prop :=
  ∃ key tag sig, (key = [0] ∨ (∃ k, k.length = 32 ∧ key = 1 :: k) ∨ ∃ k, k.length = 33 ∧ key = 2 :: k) ∧ (tag = 1 ∨ tag = 2) ∧ sig.length = 64 ∧
    xs = key ++ tag :: sig

end Casper
