import Verif.Spec.Screens
/-
What a line of a review may consist of: the labels the app has, and characters a screen can show.
-/
namespace Casper

/-- Characters a screen shows as themselves: the printable ones of ASCII. -/
def Visible (xs : Bytes) : Prop := ∀ c ∈ xs, 32 ≤ c.toNat ∧ c.toNat ≤ 126

instance (xs : Bytes) : Decidable (Visible xs) := inferInstanceAs (Decidable (∀ c ∈ xs, _))

/-- Labels of lines about the transaction as a whole. -/
def headLabels : List Bytes :=
  [b!"Txn hash", b!"Type", b!"Chain ID", b!"Account", b!"Timestamp", b!"Ttl", b!"Gas price", b!"Deps #", b!"Fee", b!"Payment", b!"Max gs prce",
   b!"Receipt", b!"Approvals #"]

/-- Labels of lines about the operation. -/
def operationLabels : List Bytes :=
  [b!"From", b!"Source", b!"Target", b!"Amount", b!"ID", b!"Delegator", b!"Validator", b!"Old", b!"New", b!"Pk", b!"New pk", b!"Validtr pk",
   b!"Deleg. rate", b!"Min. amount", b!"Max. amount", b!"Rsrvd slots", b!"Rsrv len", b!"Rsrv hash", b!"Dlgtrs len", b!"Dlgtrs hash",
   b!"Execution", b!"Cntrct hash", b!"Address", b!"Name", b!"Version", b!"Entry-point", b!"Args hash"]

/-- Labels of the other reviews, and the label of a line the app has no text for. -/
def otherLabels : List Bytes := [b!"Msg hash", b!"DeployHash", b!"BodyHash", b!"Path", b!"?"]

/-- All labels. -/
def appLabels : List Bytes := headLabels ++ operationLabels ++ otherLabels

/-- Labels of the lines that repeat a text of the transaction. -/
def quotingLabels : List Bytes := [b!"Chain ID", b!"Name", b!"Entry-point"]

end Casper
