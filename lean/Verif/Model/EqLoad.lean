import Verif.Model.Parsing

/-!
# Model of the reading of equation systems, of the input/output realm and of the IO group size

Models `EquationSystems::load` and `get_solver_block_name` (`/repo/src/EquationSystems.C:84-308`),
`EquationSystem::load` (`/repo/include/EquationSystem.h:217-222`), `InputOutputRealm::load` and
`register_io_fields` (`/repo/src/InputOutputRealm.C:73-165`) and `Simulation::setSerializedIOGroupSize`
(`/repo/src/Simulation.C:123-138`). Exceptions are `none`; yaml-cpp is trusted as in `Parsing.lean`.
-/

namespace Nalu.EqLoad

open Nalu.Parse

/-- Values of options of equation systems; the type of an option is that of its default. -/
inductive OVal
  | num (r : ℝ)
  | int (z : ℤ)
  | bool (b : Bool)

section
variable (num : String → Option ℝ) (intOf : String → Option ℤ) (boolOf : String → Option Bool)

/-- `as<T>()` for the type of the default. -/
def decode : OVal → Yaml → Option OVal
  | .num _, .scalar s => (num s).map .num
  | .int _, .scalar s => (intOf s).map .int
  | .bool _, .scalar s => (boolOf s).map .bool
  | _, _ => none

/-- Solution options read and written while loading a volume-of-fluid system. -/
structure VofOpts where
  cAlpha : ℝ
  rhoOne : ℝ
  rhoTwo : ℝ

/-- The known systems in the order of the `else if` chain, each with the options it reads and their
defaults (EquationSystems.C:102-276). -/
noncomputable def systems (usesEdges : Bool) (v : VofOpts) : List (String × List (String × OVal)) := [
  ("VolumeOfFluid", [("output_clipping_diagnostic", .bool false), ("clipping_delta", .num 0), ("fourier_number", .num (1 / 4)),
    ("compression_constant", .num v.cAlpha), ("activate_smoothing", .bool false), ("smoothing_iterations", .int 5),
    ("stand_alone_equation_system", .bool false), ("vof_density_phase_one", .num v.rhoOne),
    ("vof_density_phase_two", .num v.rhoTwo)]),
  ("LowMachEOM", [("element_continuity_eqs", .bool (!usesEdges))]),
  ("LowMachFemEOM", []),
  ("LowMachMonoEOM", []),
  ("ShearStressTransport", []),
  ("KEpsilon", [("output_clipping_diagnostic", .bool false)]),
  ("TurbKineticEnergy", []),
  ("MassFraction", [("number_of_species", .int 1)]),
  ("MixtureFraction", [("output_clipping_diagnostic", .bool false), ("clipping_delta", .num 0)]),
  ("MixtureFractionFEM", [("output_clipping_diagnostic", .bool false), ("clipping_delta", .num 0), ("compute_png", .bool false)]),
  ("Enthalpy", [("minimum_temperature", .num 250), ("maximum_temperature", .num 3000), ("output_clipping_diagnostic", .bool true)]),
  ("HeatConduction", []),
  ("RadiativeTransport", [("quadrature_order", .int 2), ("activate_scattering", .bool false), ("activate_upwind", .bool false),
    ("deactivate_sucv", .bool false), ("external_coupling", .bool false)]),
  ("MeshDisplacement", [("deform_wrt_model_coordinates", .bool false)]),
  ("GasDynamics", [("debug_output", .bool false)])]

/-- The `else if` chain (EquationSystems.C:102-283): the first system whose key is present; a key whose value
is not a map stops the program (`expect_map`), no key at all as well. -/
def pick (item : Yaml) : List (String × List (String × OVal)) → Option (String × List (String × OVal) × List (String × Yaml))
  | [] => none
  | (k, opts) :: rest => match expectMap item k with
    | none => none
    | some (some body) => some (k, opts, body)
    | some none => pick item rest

/-- `get_if_present_no_default` for one option: the user's value, converted, or the default. -/
def readOpt (body : List (String × Yaml)) (o : String × OVal) : Option (String × OVal) :=
  match lookup o.1 body with
  | none => some o
  | some y => (decode num intOf boolOf o.2 y).map fun v => (o.1, v)

/-- `get_required`. -/
def required {α : Type} (conv : Yaml → Option α) (body : List (String × Yaml)) (k : String) : Option α :=
  (lookup k body).bind conv

/-- What a loaded system is: its kind, its options, and the members common to all systems. -/
structure Sys where
  kind : String
  opts : List (String × OVal)
  name : String
  maxIterations : ℤ
  tolerance : ℝ

def asInt : Yaml → Option ℤ
  | .scalar s => intOf s
  | _ => none

/-- One item of the list `systems` (EquationSystems.C:98-288). -/
noncomputable def loadItem (usesEdges : Bool) (v : VofOpts) (item : Yaml) : Option Sys := do
  let (kind, table, body) ← pick item (systems usesEdges v)
  let opts ← table.mapM (readOpt num intOf boolOf body)
  let name ← required asStr body "name"
  let maxIt ← required (asInt intOf) body "max_iterations"
  let tol ← required (asNum num) body "convergence_tolerance"
  some ⟨kind, opts, name, maxIt, tol⟩

/-- The value of an option of a loaded system. -/
def Sys.opt (s : Sys) (k : String) : Option OVal := (s.opts.find? (fun o => o.1 = k)).map Prod.snd

/-- Solution options after an item (lines 125-127): the values used by a volume-of-fluid system are kept. -/
def nextVof (v : VofOpts) (s : Sys) : VofOpts :=
  if s.kind = "VolumeOfFluid" then
    match s.opt "compression_constant", s.opt "vof_density_phase_one", s.opt "vof_density_phase_two" with
    | some (.num a), some (.num b), some (.num c) => ⟨a, b, c⟩
    | _, _, _ => v
  else v

/-- The loop over the list. -/
noncomputable def loadList (usesEdges : Bool) : VofOpts → List Yaml → Option (List Sys × VofOpts)
  | v, [] => some ([], v)
  | v, item :: rest => do
    let s ← loadItem num intOf boolOf usesEdges v item
    let (ss, v') ← loadList usesEdges (nextVof v s) rest
    some (s :: ss, v')

/-- `get_solver_block_name` (lines 293-308): `solverSpecMap_` is a map. -/
def solverBlock (specs : List (String × String)) (eq : String) : Option String :=
  (specs.find? (fun p => p.1 = eq)).map Prod.snd

/-! ### Input/output realm -/

/-- One entry of `field_registration: specifications` after reading. -/
structure IoField where
  name : String
  size : ℤ
  type : String
  targets : List String

/-- `targets`: a scalar or a list (InputOutputRealm.C:151-160). -/
def readTargets : Yaml → Option (List String)
  | .scalar s => some [s]
  | .seq l => l.mapM asStr
  | .null => some []
  | .map _ => none

/-- The loop body of `InputOutputRealm::load` (lines 127-163). A missing `target_name` raises. -/
def loadIoField (spec : List (String × Yaml)) : Option IoField := do
  let n ← required asStr spec "field_name"
  let s ← required (asInt intOf) spec "field_size"
  let t ← required asStr spec "field_type"
  let ts ← (lookup "target_name" spec).bind readTargets
  some ⟨n, s, t, ts⟩

/-- A field registered on a part by the IO realm; `vector` tells whether it is output as a vector. -/
structure IoReg where
  field : String
  part : String
  size : ℤ
  vector : Bool
  deriving DecidableEq

/-- `fieldName.find("velocity") != npos`. -/
def hasVelocity (name : String) : Bool := name.toList.tails.any fun t => "velocity".toList.isPrefixOf t

/-- `register_io_fields` (InputOutputRealm.C:74-109). -/
def registerIo (parts : List String) (fields : List IoField) : Option (List IoReg) :=
  (fields.mapM fun f =>
    if f.type ≠ "node_rank" then none
    else f.targets.mapM fun t => if t ∈ parts then some (⟨f.name, t, f.size, hasVelocity f.name⟩ : IoReg) else none).map List.flatten

end

/-! ### Serialized IO -/

/-- `setSerializedIOGroupSize` (Simulation.C:123-138): the stored group size, or shutdown. C's `%` on ints. -/
def setIoGroup (procs : ℤ) (stored siogs : ℤ) : Option ℤ :=
  if siogs ≠ 0 then
    if siogs < 0 ∨ siogs > procs ∨ procs.tmod siogs ≠ 0 then none else some siogs
  else some stored

end Nalu.EqLoad
