import Mathlib.Data.Real.Basic
import Mathlib.Algebra.Module.Basic
import Mathlib.Data.Fintype.BigOperators
import Mathlib.Algebra.BigOperators.Group.Finset.Basic

/-!
# From the boundary conditions of the input to what is imposed at the nodes

Models `Realm::setup_bc` (Realm.C:838-883), `EquationSystems::register_{wall,inflow,open,symmetry,non_conformal}_bc` (EquationSystems.C:393-645), the
boundary registrations of the momentum (LowMachEquationSystem.C:1537-2180), turbulent kinetic energy (TurbKineticEnergyEquationSystem.C:565-990),
specific dissipation rate (SpecificDissipationRateEquationSystem.C:390-720), turbulent dissipation (TurbDissipationEquationSystem.C:399-700),
mixture fraction (MixtureFractionEquationSystem.C:443-760) and enthalpy (EnthalpyEquationSystem.C:577-1000, 1347-1443) systems, the population of the
boundary data (EquationSystems.C:906-930, Realm.C:4006-4013, AuxFunctionAlgorithm.C:49-97, CopyFieldAlgorithm.C:53-77), and the order in which the
solver algorithms of one system run (SolverAlgorithmDriver.C:103-133, Enums.h:18-43, DirichletBC.C:40-50, TpetraLinearSystem.C:1580-1653).

Simplifications: a part is a set of nodes (the sub-part with its topology, already resolved from the target name); values at a node are
elements of one type `V` (the vector for the velocity, the number for a scalar); the time is fixed; field registration (memory) is not modelled; the
algorithms are named by class; only the non-consolidated solver algorithms are in the map (the consolidated ones live in another map, keyed by name and topology).
-/

namespace Nalu.Registration

/-- `AlgorithmType` (Enums.h:18-43), in the order of its numbers. -/
inductive AlgType
  | interior | inflow | wall | wallFcn | opn | mass | src | symmetry | wallHf | wallCht | wallRad | nonConformal | elemSource | overset
  | wallFcnProj | refPressure
  deriving DecidableEq, Repr

/-- The keys of a `std::map<AlgorithmType, ...>` in iteration order (Enums.h:18-43). -/
def AlgType.all : List AlgType :=
  [.interior, .inflow, .wall, .wallFcn, .opn, .mass, .src, .symmetry, .wallHf, .wallCht, .wallRad, .nonConformal, .elemSource, .overset,
   .wallFcnProj, .refPressure]

/-- `std::map<AlgorithmType, Algorithm *>`: at most one algorithm per type, with its `partVec_`. -/
abbrev AlgMap (A P : Type) := AlgType → Option (A × List P)

variable {A P N V : Type}

/-- The `find` / create / `partVec_.push_back(part)` idiom (e.g. LowMachEquationSystem.C:1646-1672): the algorithm made for the first part of a
type serves all parts of that type. -/
def AlgMap.add (m : AlgMap A P) (t : AlgType) (a : A) (p : P) : AlgMap A P := fun s =>
  if s = t then
    match m t with
    | none => some (a, [p])
    | some (a', ps) => some (a', ps ++ [p])
  else m s

/-- The parts registered for a type (none when there is no algorithm). -/
def AlgMap.parts (m : AlgMap A P) (t : AlgType) : List P := ((m t).map Prod.snd).getD []

/-- One quantity of the user data: the number read (`none`: not given) and the name of its user function (`none`: not given). -/
structure Spec (V : Type) where
  value : Option V
  fn : Option String

/-- `bc_data_specified` (EquationSystem.C:312-323). -/
def Spec.specified (s : Spec V) : Bool := s.value.isSome || s.fn.isSome

/-- The number held by the user data: the default of the member (zero) when not given (NaluParsing.h). -/
def Spec.member [Zero V] (s : Spec V) : V := s.value.getD 0

/-- Nodal values of a quantity that may be a constant or a user function (e.g. LowMachEquationSystem.C:1563-1627; `get_bc_data_type`,
EquationSystem.C:328-339): `none` when the function is not in the list of supported ones. -/
def Spec.eval [Zero V] (lib : String → Option (N → V)) (s : Spec V) : Option (N → V) :=
  match s.fn with
  | none => some fun _ => s.member
  | some f => lib f

/-- User data of a wall (NaluParsing.h: `WallUserData`), the lines used by the systems modelled here.  `V` velocities, `S` numbers. -/
structure WallData (V S : Type) where
  velocity : Spec V
  tke : Spec S
  mixFrac : Spec S
  temperature : Spec S
  heatFlux : Option S
  wallFunction : Bool
  wallFunctionProjected : Bool
  neumann : Bool
  isInterface : Bool
  isFsi : Bool

/-- User data of an inflow. -/
structure InflowData (V S : Type) where
  velocity : Spec V
  tke : Spec S
  sdr : Spec S
  eps : Spec S
  mixFrac : Spec S
  temperature : Spec S
  external : Bool

/-- User data of an open boundary (constants only in the systems modelled; `temperature` may be a function). -/
structure OpenData (V S : Type) where
  velocity : V
  tke : S
  sdr : S
  eps : S
  mixFrac : S
  temperature : Spec S
  tempSpec : Bool
  external : Bool

/-- A boundary condition of the input. -/
inductive BC (V S : Type)
  | wall (d : WallData V S)
  | inflow (d : InflowData V S)
  | opn (d : OpenData V S)
  | symmetry (tempGrad : Option S)
  | nonConformal

/-- Options of the realm seen by the registrations. -/
structure Opts where
  /-- `realmUsesEdges_` -/
  edges : Bool
  /-- `managePNG_` -/
  managePng : Bool
  /-- `edgeNodalGradient_` -/
  edgeGrad : Bool
  /-- `useConsolidatedBcSolverAlg_` -/
  consolidated : Bool
  /-- `turbulenceModel_` is one of the k-sgs models -/
  ksgs : Bool

/-- What one equation system has collected. -/
structure Reg (P N V : Type) where
  /-- `bcDataAlg_`: part, field, values; run every time step -/
  bcData : List (P × String × (N → V)) := []
  /-- `realm_.initCondAlg_` entries writing a boundary field: run once -/
  init : List (P × String × (N → V)) := []
  /-- `bcDataMapAlg_`: copies from the boundary field to the unknown, run once at the start -/
  bcMap : List (P × String) := []
  /-- copies pushed to `realm_.initCondAlg_` -/
  initMap : List (P × String) := []
  /-- `assembleNodalGradAlgDriver_->algMap_`: class and field -/
  grad : AlgMap (String × String) P := fun _ => none
  /-- `solverAlgDriver_->solverAlgMap_` -/
  solver : AlgMap String P := fun _ => none
  /-- `solverAlgDriver_->solverDirichAlgMap_`: field with the values -/
  dirich : AlgMap String P := fun _ => none
  /-- wall models giving the boundary value of turbulence quantities: class and part -/
  wallModel : List (String × P) := []
  /-- `bcEnthalpyFromTemperatureAlg_`: part, from temperature field to enthalpy field -/
  fromT : List (P × String × String) := []

/-- Nodal gradient registration (skipped when the gradient is a separate system). -/
def Reg.addGrad (o : Opts) (t : AlgType) (a : String × String) (p : P) (r : Reg P N V) : Reg P N V :=
  if o.managePng then r else { r with grad := r.grad.add t a p }

/-- Boundary values written at every step, or once when they come from elsewhere. -/
def Reg.addData (ext : Bool) (p : P) (f : String) (v : N → V) (r : Reg P N V) : Reg P N V :=
  if ext then { r with init := r.init ++ [(p, f, v)] } else { r with bcData := r.bcData ++ [(p, f, v)] }

section Momentum
variable [Zero V] {S : Type}

/-- `anyWallFunctionActivated` (LowMachEquationSystem.C:1794). -/
def WallData.anyWf (d : WallData V S) : Bool := d.wallFunction || d.wallFunctionProjected

/-- `MomentumEquationSystem::register_inflow_bc` (LowMachEquationSystem.C:1537-1675). -/
def momentumInflow (o : Opts) (lib : String → Option (N → V)) (p : P) (d : InflowData V S) (r : Reg P N V) : Option (Reg P N V) := do
  let v ← d.velocity.eval lib
  let r := r.addData d.external p "velocity_bc" v
  let r := { r with bcMap := r.bcMap ++ [(p, "velocity_bc")] }
  let r := r.addGrad o .inflow ("AssembleNodalGradUBoundaryAlgorithm", "velocity_bc") p
  pure { r with dirich := r.dirich.add .inflow "velocity_bc" p }

/-- `MomentumEquationSystem::register_open_bc` (LowMachEquationSystem.C:1685-1781). -/
def momentumOpen (o : Opts) (p : P) (d : OpenData V S) (r : Reg P N V) : Reg P N V :=
  let r := { r with bcData := r.bcData ++ [(p, "open_velocity_bc", fun _ => d.velocity)] }
  let r := r.addGrad o .opn ("AssembleNodalGradUBoundaryAlgorithm", "velocity") p
  if o.consolidated then r
  else { r with solver := r.solver.add .opn (if o.edges then "AssembleMomentumEdgeOpenSolverAlgorithm" else "AssembleMomentumElemOpenSolverAlgorithm") p }

/-- `MomentumEquationSystem::register_wall_bc` (LowMachEquationSystem.C:1787-2033); the wall-function algorithm of the projected approach
(lines 1929-1957) is named with the others in `wallModel`. -/
def momentumWall (o : Opts) (wlib : String → Option (N → V)) (p : P) (d : WallData V S) (r : Reg P N V) : Option (Reg P N V) := do
  let bcField := if d.anyWf then "wall_velocity_bc" else "velocity_bc"
  if d.velocity.specified then
    let v ← d.velocity.eval wlib
    let r := r.addData d.isFsi p bcField v
    let r := if d.anyWf then { r with initMap := r.initMap ++ [(p, bcField)] } else { r with bcMap := r.bcMap ++ [(p, bcField)] }
    let r := r.addGrad o (if d.anyWf then .wallFcn else .wall) ("AssembleNodalGradUBoundaryAlgorithm", bcField) p
    if d.anyWf then
      let r := { r with wallModel := r.wallModel ++
        [(if d.wallFunction then "ComputeWallFrictionVelocityAlgorithm" else "ComputeWallFrictionVelocityProjectedAlgorithm", p)] }
      if o.consolidated && !d.wallFunctionProjected then pure r
      else if d.wallFunction then
        pure { r with solver := r.solver.add .wallFcn (if o.edges then "AssembleMomentumEdgeWallFunctionSolverAlgorithm" else "AssembleMomentumElemWallFunctionSolverAlgorithm") p }
      else
        pure { r with solver := r.solver.add .wallFcnProj "AssembleMomentumElemWallFunctionProjectedSolverAlgorithm" p }
    else
      pure { r with dirich := r.dirich.add .wall "velocity_bc" p }
  else none

/-- `MomentumEquationSystem::register_symmetry_bc` (LowMachEquationSystem.C:2039-2110). -/
def momentumSymmetry (o : Opts) (p : P) (r : Reg P N V) : Reg P N V :=
  let r := r.addGrad o .symmetry ("AssembleNodalGradUBoundaryAlgorithm", "velocity") p
  if o.consolidated then r
  else { r with solver := r.solver.add .symmetry (if o.edges then "AssembleMomentumEdgeSymmetrySolverAlgorithm" else "AssembleMomentumElemSymmetrySolverAlgorithm") p }

/-- `MomentumEquationSystem::register_non_conformal_bc` (LowMachEquationSystem.C:2116-2176). -/
def momentumNonConformal (o : Opts) (p : P) (r : Reg P N V) : Reg P N V :=
  let r := r.addGrad o .nonConformal
    (if o.edgeGrad then "AssembleNodalGradUBoundaryAlgorithm" else "AssembleNodalGradUNonConformalAlgorithm", "velocity") p
  { r with solver := r.solver.add .nonConformal "AssembleMomentumNonConformalSolverAlgorithm" p }

/-- The momentum system's answer to one boundary (`none`: the run stops). -/
def momentum (o : Opts) (lib wlib : String → Option (N → V)) (r : Reg P N V) (b : P × BC V S) : Option (Reg P N V) :=
  match b.2 with
  | .inflow d => momentumInflow o lib b.1 d r
  | .wall d => momentumWall o wlib b.1 d r
  | .opn d => some (momentumOpen o b.1 d r)
  | .symmetry _ => some (momentumSymmetry o b.1 r)
  | .nonConformal => some (momentumNonConformal o b.1 r)

end Momentum

section Scalars
variable {U S : Type} [Zero S]

/-- Inflow of a scalar (MixtureFractionEquationSystem.C:488-536, TurbKineticEnergyEquationSystem.C:614-668,
SpecificDissipationRateEquationSystem.C:424-485, TurbDissipationEquationSystem.C:427-476): values, start-up copy, gradient, Dirichlet. -/
def scalarInflow (o : Opts) (field bc : String) (p : P) (ext : Bool) (v : N → S) (r : Reg P N S) : Reg P N S :=
  let r := r.addData ext p bc v
  let r := { r with bcMap := r.bcMap ++ [(p, bc)] }
  let r := r.addGrad o .inflow ("AssembleNodalGradBoundaryAlgorithm", field) p
  { r with dirich := r.dirich.add .inflow bc p }

/-- Open boundary of a scalar (SpecificDissipationRateEquationSystem.C:489-548 and the same lines of the other systems). -/
def scalarOpen (o : Opts) (field bc : String) (p : P) (v : S) (r : Reg P N S) : Reg P N S :=
  let r := { r with bcData := r.bcData ++ [(p, bc, fun _ => v)] }
  let r := r.addGrad o .opn ("AssembleNodalGradBoundaryAlgorithm", field) p
  if o.consolidated then r
  else { r with solver := r.solver.add .opn (if o.edges then "AssembleScalarEdgeOpenSolverAlgorithm" else "AssembleScalarElemOpenSolverAlgorithm") p }

/-- Symmetry of a scalar: only the gradient (e.g. SpecificDissipationRateEquationSystem.C:623-652). -/
def scalarSymmetry (o : Opts) (field : String) (p : P) (r : Reg P N S) : Reg P N S :=
  r.addGrad o .symmetry ("AssembleNodalGradBoundaryAlgorithm", field) p

/-- Non-conformal boundary of a scalar (e.g. SpecificDissipationRateEquationSystem.C:657-712). -/
def scalarNonConformal (o : Opts) (field : String) (p : P) (r : Reg P N S) : Reg P N S :=
  let r := r.addGrad o .nonConformal
    (if o.edgeGrad then "AssembleNodalGradBoundaryAlgorithm" else "AssembleNodalGradNonConformalAlgorithm", field) p
  { r with solver := r.solver.add .nonConformal "AssembleScalarNonConformalSolverAlgorithm" p }

/-- `MixtureFractionEquationSystem::register_wall_bc` (MixtureFractionEquationSystem.C:640-715): a specified value is imposed; the number is the
member of the user data, whether or not a function was named. -/
def mixFracWall (o : Opts) (p : P) (d : WallData U S) (r : Reg P N S) : Reg P N S :=
  let r := if d.mixFrac.specified then
      let r := { r with bcData := r.bcData ++ [(p, "mixFrac_bc", fun _ => d.mixFrac.member)] }
      let r := { r with bcMap := r.bcMap ++ [(p, "mixFrac_bc")] }
      { r with dirich := r.dirich.add .wall "mixFrac_bc" p }
    else r
  r.addGrad o .wall ("AssembleNodalGradBoundaryAlgorithm", "mixture_fraction") p

/-- The mixture fraction system. -/
def mixFrac (o : Opts) (lib : String → Option (N → S)) (r : Reg P N S) (b : P × BC U S) : Option (Reg P N S) :=
  match b.2 with
  | .inflow d => do
    let v ← d.mixFrac.eval lib
    pure (scalarInflow o "mixture_fraction" "mixFrac_bc" b.1 d.external v r)
  | .wall d => some (mixFracWall o b.1 d r)
  | .opn d => some (scalarOpen o "mixture_fraction" "open_mixFrac_bc" b.1 d.mixFrac r)
  | .symmetry _ => some (scalarSymmetry o "mixture_fraction" b.1 r)
  | .nonConformal => some (scalarNonConformal o "mixture_fraction" b.1 r)

/-- `TurbKineticEnergyEquationSystem::register_wall_bc` (TurbKineticEnergyEquationSystem.C:765-898). -/
def tkeWall (o : Opts) (p : P) (d : WallData U S) (r : Reg P N S) : Option (Reg P N S) := do
  let any := d.wallFunction || d.wallFunctionProjected
  let any := if d.tke.specified && any then false else any
  if d.neumann && !o.ksgs then none else
  let (r, dirichlet) ←
    if any then
      if d.neumann then some (r, false)
      else some ({ r with wallModel := r.wallModel ++ [("ComputeTurbKineticEnergyWallFunctionAlgorithm", p)] }, true)
    else if d.tke.specified then
      some ({ r with bcData := r.bcData ++ [(p, "tke_bc", fun _ => d.tke.member)], bcMap := r.bcMap ++ [(p, "tke_bc")] }, true)
    else none
  let r := if dirichlet then { r with dirich := r.dirich.add .wall "tke_bc" p } else r
  pure (r.addGrad o .wall ("AssembleNodalGradBoundaryAlgorithm", "turbulent_ke") p)

/-- The turbulent kinetic energy system (inflow: TurbKineticEnergyEquationSystem.C:565-668). -/
def tke (o : Opts) (lib : String → Option (N → S)) (r : Reg P N S) (b : P × BC U S) : Option (Reg P N S) :=
  match b.2 with
  | .inflow d => do
    let v ← d.tke.eval lib
    pure (scalarInflow o "turbulent_ke" "tke_bc" b.1 d.external v r)
  | .wall d => tkeWall o b.1 d r
  | .opn d => some (scalarOpen o "turbulent_ke" "open_tke_bc" b.1 d.tke r)
  | .symmetry _ => some (scalarSymmetry o "turbulent_ke" b.1 r)
  | .nonConformal => some (scalarNonConformal o "turbulent_ke" b.1 r)

/-- `SpecificDissipationRateEquationSystem::register_wall_bc` (SpecificDissipationRateEquationSystem.C:557-618). -/
def sdrWall (o : Opts) (p : P) (d : WallData U S) (r : Reg P N S) : Reg P N S :=
  let r := { r with wallModel := r.wallModel ++
    [(if d.wallFunction then "ComputeWallModelSDRWallAlgorithm" else "ComputeLowReynoldsSDRWallAlgorithm", p)] }
  let r := { r with dirich := r.dirich.add .wall "sdr_bc" p }
  r.addGrad { o with managePng := false } .wall ("AssembleNodalGradBoundaryAlgorithm", "specific_dissipation_rate") p

/-- The specific dissipation rate system (inflow: SpecificDissipationRateEquationSystem.C:393-485; the number only). -/
def sdr (o : Opts) (r : Reg P N S) (b : P × BC U S) : Option (Reg P N S) :=
  let o := { o with managePng := false, consolidated := false }
  match b.2 with
  | .inflow d => some (scalarInflow o "specific_dissipation_rate" "sdr_bc" b.1 d.external (fun _ => d.sdr.member) r)
  | .wall d => some (sdrWall o b.1 d r)
  | .opn d => some (scalarOpen o "specific_dissipation_rate" "open_sdr_bc" b.1 d.sdr r)
  | .symmetry _ => some (scalarSymmetry o "specific_dissipation_rate" b.1 r)
  | .nonConformal => some (scalarNonConformal o "specific_dissipation_rate" b.1 r)

/-- `TurbDissipationEquationSystem::register_wall_bc` (TurbDissipationEquationSystem.C:550-610). -/
def epsWall (o : Opts) (p : P) (d : WallData U S) (r : Reg P N S) : Option (Reg P N S) :=
  if d.wallFunction || d.wallFunctionProjected then
    let r := { r with wallModel := r.wallModel ++ [("ComputeWallModelTurbDissipationWallAlgorithm", p)] }
    let r := { r with dirich := r.dirich.add .wall "eps_bc" p }
    some (r.addGrad { o with managePng := false } .wall ("AssembleNodalGradBoundaryAlgorithm", "turbulent_dissipation") p)
  else none

/-- The turbulent dissipation system; the inflow field is not the wall field (TurbDissipationEquationSystem.C:416, 566). -/
def eps (o : Opts) (r : Reg P N S) (b : P × BC U S) : Option (Reg P N S) :=
  let o := { o with managePng := false, consolidated := false }
  match b.2 with
  | .inflow d => some (scalarInflow o "turbulent_dissipation" "turbulent_dissipation_bc" b.1 d.external (fun _ => d.eps.member) r)
  | .wall d => epsWall o b.1 d r
  | .opn d => some (scalarOpen o "turbulent_dissipation" "open_eps_bc" b.1 d.eps r)
  | .symmetry _ => some (scalarSymmetry o "turbulent_dissipation" b.1 r)
  | .nonConformal => some (scalarNonConformal o "turbulent_dissipation" b.1 r)

/-- `EnthalpyEquationSystem::temperature_bc_setup` (EnthalpyEquationSystem.C:1347-1443) without the start-up copies of the temperature. -/
def temperatureSetup (lib : String → Option (N → S)) (p : P) (s : Spec S) (tField hField : String) (ext : Bool) (r : Reg P N S) :
    Option (Reg P N S) := do
  let v ← s.eval lib
  let r := r.addData ext p tField v
  pure { r with fromT := r.fromT ++ [(p, tField, hField)] }

/-- `EnthalpyEquationSystem::register_wall_bc` (EnthalpyEquationSystem.C:726-864): temperature, else heat flux, else nothing. -/
def enthalpyWall (o : Opts) (lib : String → Option (N → S)) (p : P) (d : WallData U S) (r : Reg P N S) : Option (Reg P N S) := do
  let r ←
    if d.temperature.specified then do
      let r ← temperatureSetup lib p d.temperature "temperature_bc" "enthalpy_bc" d.isInterface r
      some { r with dirich := r.dirich.add .wall "enthalpy_bc" p }
    else match d.heatFlux with
      | some q =>
        let r := { r with bcData := r.bcData ++ [(p, "heat_flux_bc", fun _ => q)] }
        some { r with solver := r.solver.add .wall "AssembleScalarFluxBCSolverAlgorithm" p }
      | none => some r
  pure (r.addGrad o .wall ("AssembleNodalGradBoundaryAlgorithm", "enthalpy") p)

/-- The enthalpy system (inflow: EnthalpyEquationSystem.C:577-627, open: 633-724, symmetry: 870-942). -/
def enthalpy (o : Opts) (lib : String → Option (N → S)) (r : Reg P N S) (b : P × BC U S) : Option (Reg P N S) :=
  match b.2 with
  | .inflow d => do
    let r ← temperatureSetup lib b.1 d.temperature "temperature_bc" "enthalpy_bc" d.external r
    let r := r.addGrad o .inflow ("AssembleNodalGradBoundaryAlgorithm", "enthalpy") b.1
    pure { r with dirich := r.dirich.add .inflow "enthalpy_bc" b.1 }
  | .wall d => enthalpyWall o lib b.1 d r
  | .opn d =>
    if d.tempSpec then do
      let r ← temperatureSetup lib b.1 d.temperature "open_temperature_bc" "open_enthalpy_bc" d.external r
      let r := r.addGrad o .opn ("AssembleNodalGradBoundaryAlgorithm", "enthalpy") b.1
      if o.consolidated then pure r
      else pure { r with solver := r.solver.add .opn (if o.edges then "AssembleScalarEdgeOpenSolverAlgorithm" else "AssembleScalarElemOpenSolverAlgorithm") b.1 }
    else none
  | .symmetry g =>
    let r := match g with
      | some q =>
        let r := { r with bcData := r.bcData ++ [(b.1, "temperature_gradient_bc", fun _ => q)] }
        { r with solver := r.solver.add .symmetry "AssembleTemperatureNormalGradientBCSolverAlgorithm" b.1 }
      | none => r
    some (r.addGrad o .symmetry ("AssembleNodalGradBoundaryAlgorithm", "enthalpy") b.1)
  | .nonConformal => some (scalarNonConformal o "enthalpy" b.1 r)

end Scalars

/-- All boundaries, in the order of the input (Realm.C:841-878): stops at the first refusal. -/
def registerAll {B : Type} (step : Reg P N V → B → Option (Reg P N V)) (l : List B) (r : Reg P N V) : Option (Reg P N V) :=
  l.foldlM step r

/-! ### From target names to parts -/

/-- Outcome of resolving one block's target (EquationSystems.C:394-537): the face sub-parts, in order.  `mesh name` are the sub-parts of the
named part with their being of face rank. -/
def resolve (mesh : String → Option (List (P × Bool))) (strict : Bool) (name : String) : Option (List P) :=
  match mesh name with
  | none => if strict then none else some []
  | some ps => if strict && ps.any (fun q => !q.2) then none else some ((ps.filter Prod.snd).map Prod.fst)

/-- Whether a block with a bad target stops the run: symmetry (EquationSystems.C:509-533) does, wall, inflow and open
(EquationSystems.C:400-403, 437-440, 473-476) only print a message.  Non-conformal blocks are resolved elsewhere (a missing part is dereferenced,
EquationSystems.C:590-617): not modelled. -/
def BC.strict {V S : Type} : BC V S → Bool
  | .symmetry _ => true
  | .nonConformal => true
  | _ => false

/-- `Realm::setup_bc` (Realm.C:838-883): the boundaries handed to each equation system. -/
def setupBc {S : Type} (mesh : String → Option (List (P × Bool))) : List (String × BC V S) → Option (List (P × BC V S))
  | [] => some []
  | (name, bc) :: l => do
    let ps ← resolve mesh bc.strict name
    let rest ← setupBc mesh l
    pure (ps.map (fun p => (p, bc)) ++ rest)

/-! ### Running what was registered -/

/-- One `AuxFunctionAlgorithm` / `CopyFieldAlgorithm`: writes at the nodes of its part. -/
def writeField (mem : P → N → Bool) (f : String → N → V) (e : P × String × (N → V)) : String → N → V := fun g n =>
  if g = e.2.1 ∧ mem e.1 n = true then e.2.2 n else f g n

/-- `EquationSystems::populate_boundary_data` for one system (EquationSystems.C:906-915). -/
def populate (mem : P → N → Bool) (r : Reg P N V) (f : String → N → V) : String → N → V :=
  r.bcData.foldl (writeField mem) f

/-- The wall models overwrite the boundary field at the nodes of their parts (SpecificDissipationRateEquationSystem.C:845-860,
TurbDissipationEquationSystem.C, ComputeTurbKineticEnergyWallFunctionAlgorithm.C): `w` are the area-averaged values. -/
def wallModels (mem : P → N → Bool) (field : String) (w : N → V) (r : Reg P N V) (f : String → N → V) : String → N → V :=
  r.wallModel.foldl (fun f e => writeField mem f (e.2, field, w)) f

/-- `bcEnthalpyFromTemperatureAlg_` (EnthalpyEquationSystem.C:1109-1110): `h` is the enthalpy evaluator. -/
def enthalpyFromT (mem : P → N → Bool) (h : N → V → V) (r : Reg P N V) (f : String → N → V) : String → N → V :=
  r.fromT.foldl (fun f e => writeField mem f (e.1, e.2.2, fun n => h n (f e.2.1 n))) f

/-- A row of the linear system: coefficients and right-hand side. -/
structure Row (N V : Type) where
  coeff : N → ℝ
  rhs : V

/-- An assembly contribution adds to a row (TpetraLinearSystem.C sumInto). -/
def addRow [AddCommGroup V] (m : N → Row N V) (c : N → Row N V) : N → Row N V := fun n =>
  ⟨fun k => (m n).coeff k + (c n).coeff k, (m n).rhs + (c n).rhs⟩

/-- `applyDirichletBCs` at the nodes of one part (TpetraLinearSystem.C:1599-1651) on one process: the row becomes the identity, its
right-hand side the wanted value minus the actual one. -/
def dirichletPart [DecidableEq N] [AddCommGroup V] (mem : P → N → Bool) (bc dof : N → V) (m : N → Row N V) (p : P) : N → Row N V := fun n =>
  if mem p n = true then ⟨fun k => if k = n then 1 else 0, bc n - dof n⟩ else m n

/-- The Dirichlet algorithm of one type, over its parts (DirichletBC.C:40-50). -/
def dirichletType [DecidableEq N] [AddCommGroup V] (mem : P → N → Bool) (f : String → N → V) (dof : N → V) (d : AlgMap String P)
    (m : N → Row N V) (t : AlgType) : N → Row N V :=
  match d t with
  | none => m
  | some (field, ps) => ps.foldl (dirichletPart mem (f field) dof) m

/-- The Dirichlet algorithms, in the order of the map (SolverAlgorithmDriver.C:127-129). -/
def dirichletAll [DecidableEq N] [AddCommGroup V] (mem : P → N → Bool) (f : String → N → V) (dof : N → V) (d : AlgMap String P)
    (m : N → Row N V) : N → Row N V :=
  AlgType.all.foldl (dirichletType mem f dof d) m

/-- `SolverAlgorithmDriver::execute` (SolverAlgorithmDriver.C:103-133) for a system without constraints: all contributions, then Dirichlet. -/
def assemble [DecidableEq N] [AddCommGroup V] (mem : P → N → Bool) (f : String → N → V) (dof : N → V) (d : AlgMap String P)
    (contribs : List (N → Row N V)) : N → Row N V :=
  dirichletAll mem f dof d (contribs.foldl addRow fun _ => ⟨fun _ => 0, 0⟩)

/-- The linear solver's answer. -/
def Solves [Fintype N] [AddCommGroup V] [Module ℝ V] (m : N → Row N V) (δ : N → V) : Prop :=
  ∀ n, ∑ k, (m n).coeff k • δ k = (m n).rhs

end Nalu.Registration
