import Verif
open Lean
-- Print, for every constant of the project, the project constants it uses directly.
run_cmd Lean.Elab.Command.liftCoreM do
  let env ← getEnv
  let mine (n : Name) : Bool := match env.getModuleIdxFor? n with
    | none => false
    | some i => (`Verif).isPrefixOf env.header.moduleNames[i.toNat]!
  for (n, c) in env.constants.map₁.toList do
    if mine n then
      let ds := c.type.getUsedConstants ++ (match c.value? (allowOpaque := true) with | some v => v.getUsedConstants | none => #[])
      IO.println s!"{n}: {" ".intercalate ((ds.filter mine).toList.map toString)}"
