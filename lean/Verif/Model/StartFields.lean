import Mathlib.Analysis.SpecialFunctions.Pow.Real

/-!
# Model of the wetted-wall initialisation and of the subgrid variance of the mixture fraction

Models `VolumeOfFluidEquationSystem::wetted_wall_init` with what happens to the volume fraction before it
(`/repo/src/VolumeOfFluidEquationSystem.C:190-197,276-281,1535-1585`, `/repo/src/TimeIntegrator.C:150-213`,
`/repo/src/Realm.C:3933-3956`) and `MixtureFractionEquationSystem::compute_scalar_var_diss`
(`/repo/src/MixtureFractionEquationSystem.C:1041-1090`). `double` is `ℝ`.
-/

namespace Nalu.StartFields

/-! ### Wetted walls -/

/-- The levels of the volume fraction at a node; `nm1` exists with three states only. -/
structure Levels where
  np1 : ℝ
  n : ℝ
  nm1 : Option ℝ

/-- `wetted_wall_init` at a node (VolumeOfFluidEquationSystem.C:1568-1582): with two states the third pointer is
that of the second level (1547-1549). -/
noncomputable def wet (spec dist : ℝ) (v : Levels) : Levels :=
  if dist < spec then
    let v := { v with np1 := 1 }
    let v := { v with n := 1 }
    match v.nm1 with
    | some _ => { v with nm1 := some 1 }
    | none => { v with n := 1 }
  else
    let v := { v with np1 := 0 }
    let v := { v with n := 0 }
    match v.nm1 with
    | some _ => { v with nm1 := some 0 }
    | none => { v with n := 0 }

/-- The wetted-wall options (SolutionOptions.C:96-97,185-186). -/
structure Options where
  active : Bool := false
  distance : ℝ := -1

/-- What is known about a node when the run starts. `distRestart`: the wall distance is in the restart file and
is a restart variable (only the models SST and LRKSGS make it one, ShearStressTransportEquationSystem.C:118,
TurbKineticEnergyEquationSystem.C:234). -/
structure Inputs where
  initial : Levels
  restarted : Bool
  vofMesh : Option ℝ
  distMesh : Option ℝ
  vofRestart : Levels
  distRestart : Option ℝ
  transferred : Option ℝ

/-- The wall distance used: registered with zeros (VolumeOfFluidEquationSystem.C:277-281), read from the mesh file
unless the run is a restart (Realm.C:3938), or from the restart file. -/
def distance (i : Inputs) : ℝ := if i.restarted then i.distRestart.getD 0 else i.distMesh.getD 0

/-- The volume fraction before `populate_derived_quantities` (TimeIntegrator.C:152-200): initial condition, mesh
file, restart file, transfer. -/
def before (i : Inputs) : Levels :=
  let v := i.initial
  let v := if i.restarted then v else match i.vofMesh with
    | some x => { v with np1 := x }
    | none => v
  let v := if i.restarted then i.vofRestart else v
  match i.transferred with
  | some x => { v with np1 := x }
  | none => v

/-- The volume fraction the first step starts with (TimeIntegrator.C:210-213,
VolumeOfFluidEquationSystem.C:193-197). -/
noncomputable def startVof (o : Options) (i : Inputs) : Levels :=
  if o.active then wet o.distance (distance i) (before i) else before i

/-! ### Variance and dissipation of the mixture fraction -/

/-- The three fields written. -/
structure VarDiss where
  var : ℝ
  scaled : ℝ
  diss : ℝ

/-- The body of the node loop (MixtureFractionEquationSystem.C:1070-1087) for entry `k` of a bucket; `dzdx` is the
array of the bucket. -/
noncomputable def varDiss (cv : ℝ) (nDim : ℕ) (dzdx vol z rho evisc : ℕ → ℝ) (k : ℕ) : VarDiss :=
  let filter := vol k ^ ((1 : ℝ) / nDim)
  let sum := (List.range nDim).foldl (fun s j => s + dzdx (k * nDim + j) * dzdx (k * nDim + j)) 0
  let var := cv * filter * filter * sum
  let maxVar := max (z k * (1 - z k)) 0
  let clipped := min (max 0 var) maxVar
  ⟨var, if maxVar > 1 / 1000000 then clipped / maxVar else 0, 2 * evisc k / rho k * sum⟩

end Nalu.StartFields
