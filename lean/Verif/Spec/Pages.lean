import Verif.Spec.Shown
/-
How a text is shown on a screen of a given width: in pages, counted with one byte.
-/
namespace Casper

/-- Number of pages of `w` characters a text takes, kept in one byte. -/
def pageCount (w : Nat) (text : Bytes) : Nat := (text.length + (w - 1)) / w % 256

/-- Page `i`. -/
def page (w : Nat) (text : Bytes) (i : Nat) : Bytes := (text.drop (i * w)).take w

/-- What is seen turning all pages. -/
def allPages (w : Nat) (text : Bytes) : Bytes := (List.range (pageCount w text)).flatMap (page w text)

/-- Labels of lines whose text depends on what a transaction contains so that it may be empty: repeated texts, a time to live below one second,
the payment, and arguments. -/
def lackingLabels : List Bytes :=
  quotingLabels ++ [b!"Ttl", b!"Payment"] ++
  [b!"From", b!"Source", b!"Target", b!"ID", b!"Delegator", b!"Validator", b!"Old", b!"New", b!"Pk", b!"New pk", b!"Validtr pk",
   b!"Deleg. rate", b!"Min. amount", b!"Max. amount", b!"Rsrvd slots", b!"Amount"]

/-- Labels of lines whose text is not divided into pages. -/
def singleLabels : List Bytes := [b!"Type", b!"Execution", b!"?"]

end Casper
