import Verif.Spec.Deploy
/-
Which lines of a Deploy's review are about named arguments of its session, and of which.  Independent of the model.
-/
namespace Casper

/-- The lines of a Deploy's review that are about arguments of its session: label, name of the argument, whether shown as motes. -/
def sessionLabels : List ArgLine :=
  [⟨b!"Target", b!"target", false⟩, ⟨b!"Amount", b!"amount", true⟩, ⟨b!"From", b!"source", false⟩, ⟨b!"ID", b!"id", false⟩,
   ⟨b!"Delegator", b!"delegator", false⟩, ⟨b!"Validator", b!"validator", false⟩, ⟨b!"Old", b!"validator", false⟩,
   ⟨b!"New", b!"new_validator", false⟩]

/-- The text `v` is right for argument `a`: what `Shown` says, or `ShownMotes` for amounts. -/
def ArgLine.Right (H : Bytes → Bytes) (l : ArgLine) (a : Arg) (v : Bytes) : Prop :=
  ∀ text, (if l.motes then ShownMotes a.ty a.value text else Shown H a.ty a.value text) → v = text

/-- Addresses of contracts have 32 bytes. -/
def ExecItem.Sized : ExecItem → Prop
  | byHash h _ _ | versionedByHash h _ _ _ => h.length = 32
  | _ => True

/-- Code with an argument "auction", or a name of more than 300 bytes. -/
def ExecItem.AuctionCode : ExecItem → Prop
  | moduleBytes _ as => (argNamed as b!"auction").isSome ∨ ∃ a ∈ as, 300 < a.name.length
  | _ => False

/-- The labels of lines about what is called. -/
def contractLabels : List Bytes := [b!"Execution", b!"Cntrct hash", b!"Address", b!"Name", b!"Version", b!"Entry-point"]

/-- Versions have 32 bits. -/
def ExecItem.VersionOk : ExecItem → Prop
  | versionedByHash _ v _ _ | versionedByName _ v _ _ => ∀ n, v = some n → n < 2 ^ 32
  | _ => True

/-- No zero bytes in the name of the contract and of the entry point. -/
def ExecItem.Plain : ExecItem → Prop
  | byHash _ entry _ | versionedByHash _ _ entry _ => 0 ∉ entry
  | byName name entry _ | versionedByName name _ entry _ => 0 ∉ name ∧ 0 ∉ entry
  | _ => True

/-- All that can be said about what is called. -/
def ExecItem.callee (H : Bytes → Bytes) : ExecItem → List (Bytes × Bytes)
  | moduleBytes code _ => [(b!"Execution", b!"contract"), (b!"Cntrct hash", checksumHex H (H code))]
  | byHash h entry _ => storedLines H true true h none ++ [(b!"Entry-point", entry)]
  | byName name entry _ => storedLines H true false name none ++ [(b!"Entry-point", entry)]
  | versionedByHash h v entry _ => storedLines H true true h (some v) ++ [(b!"Entry-point", entry)]
  | versionedByName name v entry _ => storedLines H true false name (some v) ++ [(b!"Entry-point", entry)]
  | transfer _ => []

/-- How a stored contract is addressed: the lines every review of a call should have. -/
def ExecItem.address (H : Bytes → Bytes) : ExecItem → List (Bytes × Bytes)
  | byHash h _ _ => storedLines H false true h none
  | byName name _ _ => storedLines H false false name none
  | versionedByHash h v _ _ => storedLines H false true h (some v)
  | versionedByName name v _ _ => storedLines H false false name (some v)
  | _ => []

end Casper
