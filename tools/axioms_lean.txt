import Verif
import Lean
/-! Lists, for every theorem of the project, the axioms it depends on.
Run:  cd lean && lake env lean ../tools/axioms.lean -/
open Lean Elab Command
run_cmd do
  let env ← getEnv
  let mut names : Array Name := #[]
  for (n, c) in env.constants.map₁.toList do
    if let .thmInfo _ := c then
      if let some i := env.getModuleIdxFor? n then
        let m := env.header.moduleNames[i.toNat]!
        if (`Verif.Props).isPrefixOf m && !n.isInternal && !isPrivateName n then names := names.push n
  for n in names.qsort (fun a b => a.toString < b.toString) do
    let ax ← collectAxioms n
    logInfo m!"{n} : {ax.qsort (fun a b => a.toString < b.toString)}"
