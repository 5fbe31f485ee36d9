import Verif.Model.Parsing

/-!
# Solution options: reading and looking up

Models `SolutionOptions::load`, `initialize_turbulence_constants` and the getters of /repo/src/SolutionOptions.C, the map readers
`operator>>` of /repo/src/NaluParsing.C:386-483, and the getters of /repo/src/Realm.C:4228-4475, 4868-4880.

The YAML tree and its conversions are those of `Verif.Model.Parsing` (an exception is `none`).  The per-degree-of-freedom maps are functions from the
name of the map and the name of the degree of freedom; plain members are a function from the member's name to its value.  `int` and `unsigned`
lines are read as numbers.  `std::map` iteration order is not visible here: the maps are only looked up.  Messages are not modelled.
-/

namespace Nalu.SolnOpts

open Nalu.Parse

/-- What an entry of the `options` list is read into. -/
inductive Slot
  | num (m : String)
  | bool (m : String)
  | str (m : String)
  | strs (m : String)
  | nums (m : String)
  | turb
  | user
  | nonConformal
deriving DecidableEq

/-- The chain of `else if (expect_map(y_option, key, optional))`, SolutionOptions.C:243-386, in its order. -/
def optionTable : List (String × Slot) := [
  ("hybrid_factor", .num "hybrid"),
  ("alpha", .num "alpha"),
  ("alpha_upw", .num "alphaUpw"),
  ("upw_factor", .num "upw"),
  ("limiter", .bool "limiter"),
  ("laminar_schmidt", .num "lamSc"),
  ("laminar_prandtl", .num "lamPr"),
  ("turbulent_schmidt", .num "turbSc"),
  ("turbulent_prandtl", .num "turbPr"),
  ("source_terms", .strs "srcTerms"),
  ("element_source_terms", .strs "elemSrcTerms"),
  ("source_term_parameters", .nums "srcTermParam"),
  ("element_source_term_parameters", .nums "elemSrcTermParam"),
  ("projected_nodal_gradient", .str "nodalGrad"),
  ("noc_correction", .bool "noc"),
  ("shifted_gradient_operator", .bool "shiftedGradOp"),
  ("skew_symmetric_advection", .bool "skewSymmetric"),
  ("input_variables_from_file", .str "inputVarFromFile"),
  ("turbulence_model_constants", .turb),
  ("user_constants", .user),
  ("non_conformal", .nonConformal),
  ("peclet_function_form", .str "tanhForm"),
  ("peclet_function_tanh_transition", .num "tanhTrans"),
  ("peclet_function_tanh_width", .num "tanhWidth"),
  ("blending_function_form", .str "tanhForm"),
  ("tanh_transition", .num "tanhTrans"),
  ("tanh_width", .num "tanhWidth"),
  ("consistent_mass_matrix_png", .bool "consistentMassMatrixPng")]

/-- `TurbulenceModelNames`, Enums.h:169-177. -/
def modelNames : List String := ["laminar", "ksgs", "smagorinsky", "wale", "sst", "sst_des", "k_epsilon", "lr_ksgs"]

/-- `TurbulenceModelConstantNames` below `TM_END`, Enums.h:179-238. -/
def constNames : List String := ["cMu", "kappa", "cDESke", "cDESkw", "tkeProdLimitRatio", "cmuEps", "cEps", "betaStar", "aOne", "betaOne",
  "betaTwo", "gammaOne", "gammaTwo", "sigmaKOne", "sigmaKTwo", "sigmaWOne", "sigmaWTwo", "cmuCs", "Cw", "Cb2", "SDRWallFactor", "Z_CV", "ci",
  "Elog", "yplus_crit", "cEpsOne", "cEpsTwo"]

/-- Information of one mesh motion or initial displacement (MeshMotionInfo.C:29-52, the rotation constructor; for six-dof bodies only these
members, SolutionOptions.C:551-556). -/
structure Motion where
  blocks : List String
  omega : ℝ
  centroid : List ℝ
  unitVec : List ℝ
  computeCentroid : Bool
  angle : ℝ
  sixDof : Bool

/-- `FixPressureAtNodeInfo`. -/
structure FixP where
  value : ℝ
  byNode : Option ℝ
  location : List ℝ
  parts : List String

/-- `SolutionOptions`. -/
structure Opts where
  num : String → String → Option ℝ := fun _ _ => none
  bool : String → String → Option Bool := fun _ _ => none
  str : String → String → Option String := fun _ _ => none
  strs : String → String → List String := fun _ _ => []
  nums : String → String → List ℝ := fun _ _ => []
  /-- `turbModelConstantMap_`, by the name of the constant -/
  turb : String → Option ℝ := fun _ => none
  /-- plain members -/
  plain : String → Val
  gravity : List ℝ := [0, 0, 0]
  model : String := "laminar"
  isTurbulent : Bool := false
  meshMotion : Bool := false
  meshMotionIncludesSixDof : Bool := false
  initialMeshDisplacement : Bool := false
  motions : String → Option Motion := fun _ => none
  displacements : String → Option Motion := fun _ => none
  fixPressure : Option FixP := none

section
variable (num : String → Option ℝ) (boolOf : String → Option Bool)

/-- `operator>>(node, std::map<std::string, T>&)`, NaluParsing.C:386-429: every line replaces the value of its key. -/
def readMap {α : Type} (conv : Yaml → Option α) (l : List (String × Yaml)) (m : String → Option α) : Option (String → Option α) :=
  l.foldlM (fun m kv => do
    let v ← conv kv.2
    some (Function.update m kv.1 (some v))) m

/-- `operator>>(node, std::map<std::string, std::vector<T>>&)`, NaluParsing.C:431-483: a scalar or a list, appended to the key's values. -/
def readVecMap {α : Type} (conv : Yaml → Option (List α)) (l : List (String × Yaml)) (m : String → List α) : Option (String → List α) :=
  l.foldlM (fun m kv => do
    let v ← conv kv.2
    some (Function.update m kv.1 (m kv.1 ++ v))) m

/-- Scalar or sequence of numbers, NaluParsing.C:469-481. -/
def asNumOrNums : Yaml → Option (List ℝ)
  | .scalar s => (num s).map fun x => [x]
  | .seq l => l.mapM (asNum num)
  | .null => some []
  | .map _ => none

/-- `get_if_present(node, key, member, default)`, NaluParsing.h:446-456. -/
def getIfPresent (n : Yaml) (key member : String) (k : Kind) (dflt : Val) (o : Opts) : Option Opts := do
  match ← n.get key with
  | none => some { o with plain := Function.update o.plain member dflt }
  | some y =>
    let v ← dec num boolOf k y
    some { o with plain := Function.update o.plain member v }

/-- `turbulence_model_constants`, SolutionOptions.C:301-330: known names replace the default, unknown ones only print. -/
def readTurb (l : List (String × Yaml)) (m : String → Option ℝ) : Option (String → Option ℝ) :=
  l.foldlM (fun m kv => do
    let v ← asNum num kv.2
    some (if kv.1 ∈ constNames then Function.update m kv.1 (some v) else m)) m

/-- Lines of a list of three numbers (`gravity`, `centroid_coordinates`, `unit_vector`: SolutionOptions.C:343-349, 442-448, 461-473): given
components replace the leading ones.  More than three components write out of bounds in the code; the model refuses them. -/
def overlay (y : Yaml) (old : List ℝ) : Option (List ℝ) := do
  let v ← asNums num y
  if v.length ≤ old.length then some (v ++ old.drop v.length) else none

/-- `user_constants`, SolutionOptions.C:336-350. -/
def readUser (l : List (String × Yaml)) (o : Opts) : Option Opts := do
  let n := Yaml.map l
  let o ← getIfPresent num boolOf n "reference_density" "referenceDensity" .num (o.plain "referenceDensity") o
  let o ← getIfPresent num boolOf n "reference_temperature" "referenceTemperature" .num (o.plain "referenceTemperature") o
  let o ← getIfPresent num boolOf n "thermal_expansion_coefficient" "thermalExpansionCoeff" .num (o.plain "thermalExpansionCoeff") o
  let o ← getIfPresent num boolOf n "stefan_boltzmann" "stefanBoltzmann" .num (o.plain "stefanBoltzmann") o
  match lookup "gravity" l with
  | none => some o
  | some (.seq s) => do
    let g ← overlay num (.seq s) o.gravity
    some { o with gravity := g }
  | some _ => none

/-- `non_conformal`, SolutionOptions.C:352-361: key and member. -/
def ncTable : List (String × String) := [
  ("gauss_labatto_quadrature", "ncAlgGaussLabatto"), ("upwind_advection", "ncAlgUpwindAdvection"), ("include_pstab", "ncAlgIncludePstab"),
  ("detailed_output", "ncAlgDetailedOutput"), ("activate_coincident_node_error_check", "ncAlgCoincidentNodesErrorCheck"),
  ("current_normal", "ncAlgCurrentNormal"), ("include_png_penalty", "ncAlgPngPenalty")]

/-- The block of one option. -/
def readSlot (s : Slot) (l : List (String × Yaml)) (o : Opts) : Option Opts :=
  match s with
  | .num m => do let x ← readMap (asNum num) l (o.num m); some { o with num := Function.update o.num m x }
  | .bool m => do let x ← readMap (asBool boolOf) l (o.bool m); some { o with bool := Function.update o.bool m x }
  | .str m => do let x ← readMap asStr l (o.str m); some { o with str := Function.update o.str m x }
  | .strs m => do let x ← readVecMap asNames l (o.strs m); some { o with strs := Function.update o.strs m x }
  | .nums m => do let x ← readVecMap (asNumOrNums num) l (o.nums m); some { o with nums := Function.update o.nums m x }
  | .turb => do let x ← readTurb num l o.turb; some { o with turb := x }
  | .user => readUser num boolOf l o
  | .nonConformal => ncTable.foldlM (fun o e => getIfPresent num boolOf (.map l) e.1 e.2 .bool (o.plain e.2) o) o

/-- One entry of `options`: the first key of the chain that is present decides; none present is refused. -/
def readChain (item : Yaml) (o : Opts) : List (String × Slot) → Option Opts
  | [] => none
  | (k, s) :: t =>
    match expectMap item k with
    | none => none
    | some (some l) => readSlot num boolOf s l o
    | some none => readChain item o t

/-- The loop over `options`, SolutionOptions.C:238-397. -/
def readOptions (items : List Yaml) (o : Opts) : Option Opts :=
  items.foldlM (fun o item => readChain num boolOf item o optionTable) o

/-- `expect_sequence(node, key, optional)`. -/
def expectSeq (n : Yaml) (k : String) : Option (Option (List Yaml)) := do
  match ← n.get k with
  | none => some none
  | some (.seq l) => some (some l)
  | some _ => none

/-- The list, when there is one, SolutionOptions.C:238. -/
def readOptionList (n : Yaml) (o : Opts) : Option Opts := do
  match ← expectSeq n "options" with
  | none => some o
  | some items => readOptions num boolOf items o

/-- The plain lines, SolutionOptions.C:129-236: key, member, kind and what an absent line does (`none`: keeps the member, `some`: writes the
default-constructed value).  `buoyancyPressureStab` and the turbulence model are separate. -/
def plainTable : List (String × String × Kind × Option Val) := [
  ("divU_stress_scaling", "includeDivU", .num, none),
  ("externally_provided_mesh_deformation", "externalMeshDeformation", .bool, none),
  ("shift_cvfem_mdot", "cvfemShiftMdot", .bool, none),
  ("reduced_sens_cvfem_poisson", "cvfemReducedSensPoisson", .bool, none),
  ("use_consolidated_solver_algorithm", "useConsolidatedSolverAlg", .bool, none),
  ("use_consolidated_face_elem_bc_algorithm", "useConsolidatedBcSolverAlg", .bool, none),
  ("eigenvalue_perturbation", "eigenvaluePerturb", .bool, some (.bool false)),
  ("eigenvalue_perturbation_delta", "eigenvaluePerturbDelta", .num, some (.num 0)),
  ("eigenvalue_perturbation_bias_towards", "eigenvaluePerturbBiasTowards", .num, some (.num 0)),
  ("eigenvalue_perturbation_turbulent_ke", "eigenvaluePerturbTurbKe", .num, some (.num 0)),
  ("local_vof_jm", "localVofJm", .num, none),
  ("local_vof_m", "localVofM", .num, none),
  ("local_vof_n", "localVofN", .num, none),
  ("local_vof_c", "localVofC", .num, none),
  ("high_order_quadrature_type", "quadType", .str, some (.str "")),
  ("use_accoustically_compressible_algorithm", "accousticallyCompressible", .bool, some (.bool false)),
  ("activate_balanced_force_algorithm", "balancedForce", .bool, none),
  ("volumetric_source", "volumetricSrc", .num, none),
  ("activate_wetted_wall_initialization", "wettedWallInit", .bool, none),
  ("wetted_wall_initialization_distance", "wettedWallDistance", .num, none),
  ("scale_geometric_properties", "scaleGeometricProps", .bool, none),
  ("activate_dynamic_turbulence_procedure", "dynamicTurbulenceProcedure", .bool, none),
  ("dynamic_turbulence_clipping_factor", "dynamicTurbulenceClippingFac", .num, none),
  ("input_variables_from_file_restoration_time", "inputVariablesRestorationTime", .num, none),
  ("input_variables_interpolate_in_time", "inputVariablesInterpolateInTime", .bool, none),
  ("input_variables_from_file_periodic_time", "inputVariablesPeriodicTime", .num, none)]

/-- The plain lines in order. -/
def readPlain (n : Yaml) (t : List (String × String × Kind × Option Val)) (o : Opts) : Option Opts :=
  t.foldlM (fun o e => getIfPresent num boolOf n e.1 e.2.1 e.2.2.1 (e.2.2.2.getD (o.plain e.2.1)) o) o

/-- `initialize_turbulence_constants`, SolutionOptions.C:729-760. -/
noncomputable def turbDefault (model : String) : String → Option ℝ := fun c =>
  lookup' c [("cMu", 0.09), ("kappa", 0.41), ("cDESke", 0.61), ("cDESkw", 0.78),
    ("tkeProdLimitRatio", if model = "sst" ∨ model = "sst_des" then 10 else 500), ("cmuEps", 0.0856), ("cEps", 0.845), ("betaStar", 0.09),
    ("aOne", 0.31), ("betaOne", 0.075), ("betaTwo", 0.0828), ("gammaOne", 5 / 9), ("gammaTwo", 0.44), ("sigmaKOne", 0.85), ("sigmaKTwo", 1),
    ("sigmaWOne", 0.5), ("sigmaWTwo", 0.856), ("cmuCs", 0.17), ("Cw", 0.325), ("Cb2", 0.35), ("SDRWallFactor", 1), ("Z_CV", 0.5), ("ci", 0.9),
    ("Elog", 9.8), ("yplus_crit", 11.63), ("cEpsOne", 1.44), ("cEpsTwo", 1.92)]
where
  /-- Find in the list of assignments. -/
  lookup' (c : String) : List (String × ℝ) → Option ℝ
    | [] => none
    | (k, v) :: l => if k = c then some v else lookup' c l

/-- The given name, laminar when absent. -/
def readModelName (n : Yaml) : Option String := do
  match ← n.get "turbulence_model" with
  | none => some "laminar"
  | some y => asStr y

/-- The turbulence model, SolutionOptions.C:193-219: first name equal up to case; anything else is refused. -/
noncomputable def readModel (n : Yaml) (o : Opts) : Option Opts := do
  let s ← readModelName n
  let m ← modelNames.find? fun k => caseInsensitiveCompare s k
  some { o with model := m, isTurbulent := m != "laminar", turb := fun c => (turbDefault m c).orElse fun _ => o.turb c }

/-- A boolean member. -/
def Opts.flag (o : Opts) (m : String) : Bool := match o.plain m with | .bool b => b | _ => false

/-- Buoyancy stabilization, SolutionOptions.C:175-179. -/
def readBuoyancy (n : Yaml) (o : Opts) : Option Opts :=
  getIfPresent num boolOf n "activate_buoyancy_pressure_stabilization" "buoyancyPressureStab" .bool (.bool (o.flag "balancedForce")) o

/-- The check of the dynamic procedure, SolutionOptions.C:224-230. -/
def checkDynamic (o : Opts) : Option Opts :=
  if o.flag "dynamicTurbulenceProcedure" && o.model != "ksgs" && o.model != "lr_ksgs" then none else some o

/-- A required number. -/
def reqNum (n : Yaml) (k : String) : Option ℝ := do
  match ← n.get k with
  | none => none
  | some y => asNum num y

/-- An optional boolean, false when absent. -/
def optBool (n : Yaml) (k : String) : Option Bool := do
  match ← n.get k with
  | none => some false
  | some y => asBool boolOf y

/-- Target names, SolutionOptions.C:428-438 (a missing line is an invalid node whose `Type()` throws). -/
def readTargets (n : Yaml) : Option (List String) := do
  match ← n.get "target_name" with
  | none => none
  | some y => asNames y

/-- Coordinates when given, the origin otherwise. -/
def readCoords : Option Yaml → Option (List ℝ)
  | none => some [0, 0, 0]
  | some y => overlay num y [0, 0, 0]

/-- Centroid and its flag, SolutionOptions.C:440-457: `some true` coordinates prevail over the request to compute. -/
def readCentroid (n : Yaml) : Option (List ℝ × Bool) := do
  let given ← n.get "centroid_coordinates"
  let c ← readCoords num given
  let b ← optBool boolOf n "compute_centroid"
  some (c, b && given.isNone)

/-- Axis, SolutionOptions.C:460-473: the third axis when not given. -/
def readAxis (n : Yaml) : Option (List ℝ) := do
  match ← n.get "unit_vector" with
  | none => some [0, 0, 1]
  | some y => overlay num y [0, 0, 0]

/-- Rotation rate, required unless the body is free, SolutionOptions.C:424-426. -/
noncomputable def readOmega (six : Bool) (n : Yaml) : Option ℝ := if six then some 0 else reqNum num n "omega"

/-- Axis of a rotating entry, SolutionOptions.C:460-472; free bodies have none. -/
noncomputable def readRotAxis (six : Bool) (n : Yaml) : Option (List ℝ) := if six then some [] else readAxis num n

/-- One entry of `mesh_motion`, SolutionOptions.C:406-566 (the further lines of six-dof bodies are not modelled here). -/
noncomputable def readMotion (n : Yaml) : Option (String × Motion) := do
  let name ← getStr n "name"
  let six ← optBool boolOf n "include_six_dof"
  let omega ← readOmega num six n
  let blocks ← readTargets n
  let (c, cc) ← readCentroid num boolOf n
  let ax ← readRotAxis num six n
  some (name, ⟨blocks, omega, c, ax, cc, 0, six⟩)

/-- The angle, zero when not given. -/
def readAngle (n : Yaml) : Option ℝ := do
  match ← n.get "angle" with
  | none => some 0
  | some y => asNum num y

/-- One entry of `initial_mesh_displacement`, SolutionOptions.C:576-636. -/
def readDisplacement (n : Yaml) : Option (String × Motion) := do
  let name ← getStr n "name"
  let blocks ← readTargets n
  let (c, cc) ← readCentroid num boolOf n
  let ax ← readAxis num n
  let angle ← readAngle num n
  some (name, ⟨blocks, 0, c, ax, cc, angle, false⟩)

/-- Storing one motion, SolutionOptions.C:417-420, 551-566. -/
noncomputable def addMotion (o : Opts) (e : Yaml) : Option Opts := do
  let (name, m) ← readMotion num boolOf e
  some { o with motions := Function.update o.motions name (some m), meshMotionIncludesSixDof := o.meshMotionIncludesSixDof || m.sixDof }

/-- Storing one displacement, SolutionOptions.C:633-636. -/
def addDisplacement (o : Opts) (e : Yaml) : Option Opts := do
  let (name, m) ← readDisplacement num boolOf e
  some { o with displacements := Function.update o.displacements name (some m) }

/-- The mesh motions, SolutionOptions.C:395-566.  `meshDeformation_` is still false when the options are read (it is set by the constructor of the
mesh displacement system, Realm.C:670, 696), so the branch of line 402 is never taken. -/
noncomputable def readMotions (n : Yaml) (o : Opts) : Option Opts := do
  match ← expectSeq n "mesh_motion" with
  | none => some o
  | some l => l.foldlM (addMotion num boolOf) { o with meshMotion := true }

/-- The initial displacements, SolutionOptions.C:569-637. -/
def readDisplacements (n : Yaml) (o : Opts) : Option Opts := do
  match ← expectSeq n "initial_mesh_displacement" with
  | none => some o
  | some l => l.foldlM (addDisplacement num boolOf) { o with initialMeshDisplacement := true }

/-- `node_lookup_type`, SolutionOptions.C:646-656: true for a node identifier; the default is the location (FixPressureAtNodeInfo). -/
def readLookupType (l : List (String × Yaml)) : Option Bool :=
  match lookup "node_lookup_type" l with
  | none => some false
  | some y => do
    let s ← asStr y
    if s = "stk_node_id" then some true else if s = "spatial_location" then some false else none

/-- `location`, SolutionOptions.C:659. -/
def readLocation (l : List (String × Yaml)) : Option (List ℝ) :=
  match lookup "location" l with
  | none => none
  | some y => asNums num y

/-- `search_target_part`, SolutionOptions.C:660-661. -/
def readSearchParts (l : List (String × Yaml)) : Option (List String) :=
  match lookup "search_target_part" l with
  | some (.seq s) => s.mapM asStr
  | _ => none

/-- `fix_pressure_at_node`, SolutionOptions.C:640-671. -/
def readFixPressure (n : Yaml) (o : Opts) : Option Opts := do
  match ← expectMap n "fix_pressure_at_node" with
  | none => some o
  | some l =>
    let f := Yaml.map l
    let v ← reqNum num f "value"
    let byNode ← readLookupType l
    if byNode then do
      let id ← reqNum num f "node_identifier"
      some { o with fixPressure := some ⟨v, some id, [0, 0, 0], []⟩ }
    else do
      let loc ← readLocation num l
      let ps ← readSearchParts l
      some { o with fixPressure := some ⟨v, none, loc, ps⟩ }

/-- `get_shifted_grad_op`, SolutionOptions.C:816-826 and Realm.C:4389-4400. -/
def Opts.shiftedGradOp (o : Opts) (d : String) : Bool := (o.bool "shiftedGradOp" d).getD false

/-- The sanity check on the pressure operator, SolutionOptions.C:709-715. -/
def finishPoisson (o : Opts) : Opts :=
  if o.shiftedGradOp "pressure" then { o with plain := Function.update o.plain "cvfemReducedSensPoisson" (.bool true) } else o

/-- `SolutionOptions::load`, SolutionOptions.C:117-727, without the error indicator (see `Verif.Model.Diagnostics`). -/
noncomputable def load (root : Yaml) (o : Opts) : Option Opts := do
  match ← expectMap root "solution_options" with
  | none => some o
  | some l =>
    let n := Yaml.map l
    let _ ← getStr n "name"
    if (lookup "shift_cvfem_poisson" l).isSome then none else
    let o ← readPlain num boolOf n plainTable o
    let o ← readBuoyancy num boolOf n o
    let o ← readModel n o
    let o ← checkDynamic o
    let o ← readOptionList num boolOf n o
    let o ← readMotions num boolOf n o
    let o ← readDisplacements num boolOf n o
    let o ← readFixPressure num n o
    some (finishPoisson o)

/-- The constructor, SolutionOptions.C:31-103: the members used here. -/
noncomputable def initial : Opts where
  plain := fun m => match m with
    | "includeDivU" => .num 0
    | "externalMeshDeformation" => .bool false
    | "cvfemShiftMdot" => .bool false
    | "cvfemReducedSensPoisson" => .bool false
    | "useConsolidatedSolverAlg" => .bool false
    | "useConsolidatedBcSolverAlg" => .bool false
    | "eigenvaluePerturb" => .bool false
    | "eigenvaluePerturbDelta" => .num 0
    | "eigenvaluePerturbBiasTowards" => .num 3
    | "eigenvaluePerturbTurbKe" => .num 0
    | "localVofJm" => .num 0.003
    | "localVofM" => .num 0
    | "localVofN" => .num 0
    | "localVofC" => .num 1
    | "quadType" => .str "GaussLegendre"
    | "accousticallyCompressible" => .bool false
    | "balancedForce" => .bool false
    | "volumetricSrc" => .num 0
    | "wettedWallInit" => .bool false
    | "wettedWallDistance" => .num (-1)
    | "scaleGeometricProps" => .bool false
    | "dynamicTurbulenceProcedure" => .bool false
    | "dynamicTurbulenceClippingFac" => .num 0
    | "inputVariablesRestorationTime" => .num 100000000
    | "inputVariablesInterpolateInTime" => .bool false
    | "inputVariablesPeriodicTime" => .num 0
    | "referenceDensity" => .num 0
    | "referenceTemperature" => .num 298
    | "thermalExpansionCoeff" => .num 1
    | "stefanBoltzmann" => .num 5.6704e-8
    | "ncAlgGaussLabatto" => .bool true
    | "ncAlgUpwindAdvection" => .bool true
    | "ncAlgIncludePstab" => .bool true
    | "ncAlgDetailedOutput" => .bool false
    | "ncAlgCoincidentNodesErrorCheck" => .bool false
    | "ncAlgCurrentNormal" => .bool false
    | "ncAlgPngPenalty" => .bool true
    | _ => .unset

end

/-! ### Getters -/

/-- `get_hybrid_factor`, Realm.C:4230-4242, default SolutionOptions.C:32. -/
noncomputable def Opts.getHybrid (o : Opts) (d : String) : ℝ := (o.num "hybrid" d).getD 0
/-- `get_alpha_factor`, Realm.C:4247-4258, SolutionOptions.C:763-773. -/
noncomputable def Opts.getAlpha (o : Opts) (d : String) : ℝ := (o.num "alpha" d).getD 0
/-- `get_alpha_upw_factor`, Realm.C:4263-4274, SolutionOptions.C:775-785. -/
noncomputable def Opts.getAlphaUpw (o : Opts) (d : String) : ℝ := (o.num "alphaUpw" d).getD 1
/-- `get_upw_factor`, Realm.C:4279-4290, SolutionOptions.C:787-797. -/
noncomputable def Opts.getUpw (o : Opts) (d : String) : ℝ := (o.num "upw" d).getD 1
/-- `primitive_uses_limiter`, Realm.C:4295-4306, SolutionOptions.C:799-808. -/
def Opts.usesLimiter (o : Opts) (d : String) : Bool := (o.bool "limiter" d).getD false
/-- `get_lam_schmidt`, Realm.C:4311-4322. -/
noncomputable def Opts.getLamSc (o : Opts) (d : String) : ℝ := (o.num "lamSc" d).getD 1
/-- `get_lam_prandtl`, Realm.C:4327-4342: with whether it was provided. -/
noncomputable def Opts.getLamPr (o : Opts) (d : String) : ℝ × Bool :=
  match o.num "lamPr" d with
  | some x => (x, true)
  | none => (1, false)
/-- `get_turb_schmidt`, Realm.C:4347-4358. -/
noncomputable def Opts.getTurbSc (o : Opts) (d : String) : ℝ := (o.num "turbSc" d).getD 1
/-- `get_turb_prandtl`, Realm.C:4363-4374, SolutionOptions.C:884-894. -/
noncomputable def Opts.getTurbPr (o : Opts) (d : String) : ℝ := (o.num "turbPr" d).getD 1
/-- `get_noc_usage`, SolutionOptions.C:871-881. -/
def Opts.getNoc (o : Opts) (d : String) : Bool := (o.bool "noc" d).getD true
/-- `get_skew_symmetric`, SolutionOptions.C:828-838. -/
def Opts.getSkew (o : Opts) (d : String) : Bool := (o.bool "skewSymmetric" d).getD false
/-- `get_tanh_functional_form`, Realm.C:4416-4427. -/
def Opts.getTanhForm (o : Opts) (d : String) : String := (o.str "tanhForm" d).getD "classic"
/-- `get_tanh_trans`, Realm.C:4432-4443. -/
noncomputable def Opts.getTanhTrans (o : Opts) (d : String) : ℝ := (o.num "tanhTrans" d).getD 2
/-- `get_tanh_width`, Realm.C:4448-4459. -/
noncomputable def Opts.getTanhWidth (o : Opts) (d : String) : ℝ := (o.num "tanhWidth" d).getD 4
/-- `get_consistent_mass_matrix_png`, Realm.C:4464-4475. -/
def Opts.getCmmPng (o : Opts) (d : String) : Bool := (o.bool "consistentMassMatrixPng" d).getD false
/-- `get_turb_model_constant`, Realm.C:4869-4880, SolutionOptions.C:856-869: `none` is the exception. -/
def Opts.getTurb (o : Opts) (c : String) : Option ℝ := o.turb c

end Nalu.SolnOpts
