import Verif.Spec.Lines
/-
What the line "Type" of a Deploy is to say.  Independent of the model.
-/
namespace Casper

/-- The entry point of a stored contract that a session calls. -/
def ExecItem.entryPoint : ExecItem → Option Bytes
  | byHash _ entry _ | byName _ entry _ | versionedByHash _ _ entry _ | versionedByName _ _ entry _ => some entry
  | _ => none

/-- The kinds of calls that have a title of their own, by entry point. -/
def callTitles : List (Bytes × Bytes) :=
  [(b!"delegate", b!"Delegate"), (b!"undelegate", b!"Undelegate"), (b!"redelegate", b!"Redelegate")]

/-- The title `text` is right for a session: transfers are called so and nothing else is; something called a delegation and so on is a call of the entry
point of that name; everything else is a contract execution. -/
def ExecItem.Titled (it : ExecItem) (text : Bytes) : Prop :=
  (text = b!"Token transfer" ∧ ∃ as, it = .transfer as) ∨
  (∃ entry, it.entryPoint = some entry ∧ (entry, text) ∈ callTitles) ∨
  (text = b!"Contract execution" ∧ ∀ as, it ≠ .transfer as)

end Casper
