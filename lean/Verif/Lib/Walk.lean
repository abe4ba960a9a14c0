import Lean
import Verif.Model.Basic
/-
`walk Pred`: structural proofs of predicates on programs (`NZ`, ...), driven by the head symbol of the program.

For a goal `Pred .. m ..` with `m : M σ α` the lemma applied is `Pred.f` or `Pred_f` where `f` is the last component of
the name of the head symbol of `m` (`Pred.bind`, `Pred.attemptBind`, `Pred.ite`, `Pred_readU8`, ...); functions without
lemma are unfolded.  Remaining side goals are tried with `decide` and `assumption`.
-/
namespace Casper
open Lean Elab Tactic Meta

/-- The program a goal is about. -/
def walkProgram (ty : Expr) : MetaM (Option Expr) := do
  for a in ty.getAppArgs.reverse do
    let t ← whnfR (← inferType a)
    if t.isAppOfArity ``M 2 then return some a
  return none

/-- One step. -/
elab "walk1 " p:ident : tactic => withMainContext do
  let g ← getMainGoal
  let pred ← realizeGlobalConstNoOverload p
  let ty ← instantiateMVars (← g.getType)
  let ty := ty.consumeMData
  unless ty.getAppFn.isConstOf pred do
    evalTactic (← `(tactic| first | assumption | decide | omega))
    return
  let some m ← walkProgram ty | throwError "no program"
  let m := m.consumeMData
  for d in ← getLCtx do
    if d.isImplementationDetail then continue
    let isPred ← forallTelescope (← instantiateMVars d.type) fun _ t =>
      return t.consumeMData.headBeta.getAppFn.isConstOf pred
    if isPred then
      if let some gs ← observing? (withReducible (g.apply d.toExpr)) then
        replaceMainGoal gs
        return
  let lem (s : Name) : Ident := mkIdent (pred ++ s)
  match m.getAppFn with
  | .const ``Bind.bind _ =>
    let first := m.getAppArgs[4]!
    if first.getAppFn.isConstOf ``M.attempt && (← getEnv).contains (pred ++ `attemptBind) then
      evalTactic (← `(tactic| (refine $(lem `attemptBind) ?_ (fun _ => ?_) (fun _ _ => ?_))))
    else
      evalTactic (← `(tactic| (refine $(lem `bind) ?_ (fun _ => ?_))))
  | .const ``ite _ => evalTactic (← `(tactic| (refine $(lem `ite) (fun _ => ?_) (fun _ => ?_))))
  | .const c _ =>
    let n := pred ++ Name.mkSimple c.getString!
    let n := if (← getEnv).contains n then n else
      pred.getPrefix ++ Name.mkSimple (pred.getString! ++ "_" ++ c.getString!)
    if (← getEnv).contains n then
      evalTactic (← `(tactic| with_reducible apply $(mkIdent n)))
    else if (← getMatcherInfo? c).isSome then
      evalTactic (← `(tactic| first | dsimp only | split))
    else
      evalTactic (← `(tactic| unfold $(mkIdent c):ident))
  | _ => evalTactic (← `(tactic| dsimp only))

/-- All steps. -/
macro "walk " p:ident : tactic => `(tactic| repeat' walk1 $p)

end Casper
