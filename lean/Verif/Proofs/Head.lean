import Verif.Model.ParseFns
import Lean.Elab.Tactic
/-!
# A tactic that dispatches on the shape of a parser method

`head_step "sfx"` looks for the first argument of the goal that is a parser method (a term of type
`P _`).  If it is a `match` or `if`, it is split; otherwise, if its head is the constant `f`, the
lemma `Jsparse.f_sfx` is applied.  It only saves writing; the proofs are checked by the kernel as
usual.
-/

namespace Jsparse

open Lean Elab Tactic Meta

/-- The first argument of the goal that is a parser method. -/
def findMethod (e : Expr) : MetaM (Option Expr) := do
  for a in e.getAppArgs do
    let t ← whnfR (← inferType a)
    if t.isAppOf ``P then return some a
  return none

elab "head_step " sfx:str : tactic => withMainContext do
  let g ← getMainGoal
  let target ← instantiateMVars (← g.getType)
  let target := target.consumeMData
  let some m ← findMethod target | throwError "head_step: no method in the goal"
  let m := m.consumeMData
  if m.isHeadBetaTarget || m.isLet then
    -- beta and zeta reduction of all the methods in the goal
    let args ← target.getAppArgs.mapM fun a => do
      match a.consumeMData with
      | .letE _ _ v b _ => pure (b.instantiate1 v).headBeta
      | a => pure a.headBeta
    let g ← g.change (mkAppN target.getAppFn args)
    replaceMainGoal [g]
  else
    let fn := m.getAppFn
    match fn with
    | .const n _ =>
      if n == ``ite || n == ``dite || (← isMatcher n) then
        evalTactic (← `(tactic| split))
      else
        let s := if n == ``found || n == ``absent then "pure" else match n with
          | .str _ s => s
          | _ => ""
        let lemmaName := Name.mkStr `Jsparse (s ++ "_" ++ sfx.getString)
        let id := mkIdent lemmaName
        evalTactic (← `(tactic| apply $id))
    | .fvar _ => evalTactic (← `(tactic| assumption))
    | _ => throwError "head_step: unexpected method {m}"

/-- Like `head_step`, for judgments in the style of weakest preconditions: redexes and decided
conditions are reduced, and methods without a lemma are unfolded. -/
elab "wp_step " sfx:str : tactic => withMainContext do
  let g ← getMainGoal
  let target ← instantiateMVars (← g.getType)
  let target := target.consumeMData
  if target.isHeadBetaTarget then
    replaceMainGoal [← g.change target.headBeta]
    return
  if let .reduced target' ← reduceMatcher? target then
    replaceMainGoal [← g.change target']
    return
  let args := target.getAppArgs
  let mut idx := none
  for i in [0:args.size] do
    let t ← whnfR (← inferType args[i]!)
    if t.isAppOf ``P then
      idx := some i
      break
  let some i := idx | throwError "wp_step: no method in the goal"
  let m := args[i]!.consumeMData
  let replaceBy (m' : Expr) : TacticM Unit := do
    let g ← g.change (mkAppN target.getAppFn (args.set! i m'))
    replaceMainGoal [g]
  match m with
  | .letE _ _ v b _ => replaceBy (b.instantiate1 v)
  | _ =>
  if m.isHeadBetaTarget then replaceBy m.headBeta
  else
    match m.getAppFn with
    | .const n _ =>
      if n == ``ite then
        let inst ← whnf m.getAppArgs[2]!
        if inst.isAppOf ``Decidable.isTrue then replaceBy m.getAppArgs[3]!
        else if inst.isAppOf ``Decidable.isFalse then replaceBy m.getAppArgs[4]!
        else evalTactic (← `(tactic| split))
      else if ← isMatcher n then
        match ← reduceMatcher? m with
        | .reduced m' => replaceBy m'
        | _ => evalTactic (← `(tactic| split))
      else
        let s := if n == ``found || n == ``absent then "pure" else match n with
          | .str _ s => s
          | _ => ""
        let lemmaName := Name.mkStr `Jsparse (s ++ "_" ++ sfx.getString)
        if (← getEnv).contains lemmaName then
          evalTactic (← `(tactic| apply $(mkIdent lemmaName)))
        else
          match ← unfoldDefinition? m with
          | some m' => replaceBy m'
          | none => throwError "wp_step: cannot unfold {m}"
    | _ => throwError "wp_step: unexpected method {m}"

end Jsparse
