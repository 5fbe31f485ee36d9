import Verif.Model.HdfTable

/-!
# What a lookup in a property table should return

A table variable has a name, a range and possibly a logarithmic scale; a state assigns a number to every name.  The value is the spline at the point
whose coordinates are the values of the table variables, moved into their ranges and scaled.
-/

namespace Nalu.HdfTable.Spec
open Nalu.HdfTable

/-- A table variable. -/
structure Var where
  name : String
  lo : ℝ
  hi : ℝ
  log : Bool

/-- The table file of a list of variables. -/
def file (vars : List Var) (spline : List ℝ → ℝ) : File :=
  ⟨vars.map Var.name, vars.map Var.log, vars.map Var.lo, vars.map Var.hi, spline⟩

/-- A value moved into the range of its variable and put on its scale. -/
noncomputable def coord (v : Var) (x : ℝ) : ℝ :=
  if v.log then Real.log (max (min v.hi (max v.lo x)) (1 / 10 ^ 16)) else min v.hi (max v.lo x)

/-- The value of the table in a state. -/
noncomputable def value (vars : List Var) (spline : List ℝ → ℝ) (env : String → ℝ) : ℝ := spline (vars.map fun v => coord v (env v.name))

/-- The state lies outside the box of the table. -/
def Outside (vars : List Var) (env : String → ℝ) : Prop := ∃ v ∈ vars, env v.name < v.lo ∨ v.hi < env v.name

/-- The state in which the variable a converter produces has the value the converter gives it. -/
def converted (c : Conv) (env : String → ℝ) : String → ℝ := fun s => if s = c.name then c.fn (c.inputs.map env) else env s

/-- The sum of the streams weighted with their mass fractions; the last stream takes the rest. -/
def blend (zs ps : List ℝ) : ℝ := ((zs ++ [1 - zs.sum]).zipWith (· * ·) ps).sum

/-- The two-stream flamelet profile: zero in both pure streams, one at stoichiometry, linear between. -/
noncomputable def tent (zst z : ℝ) : ℝ := if z ≤ zst then z / zst else (1 - z) / (1 - zst)

end Nalu.HdfTable.Spec
