import Lean
/-
The simp set of `Lib/Modes`.
-/

/-- Programs that do not depend on expert mode. -/
register_simp_attr modes
