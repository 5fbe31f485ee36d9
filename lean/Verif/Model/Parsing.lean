import Mathlib.Data.Real.Basic
import Mathlib.Data.List.Perm.Basic
import Mathlib.Data.List.Nodup

/-!
# Reading the input file

Models /repo/src/NaluParsing.C (and the templates of /repo/include/NaluParsing.h), `BoundaryConditions.C/.h`,
`InitialConditions.C/.h`, `MaterialPropertys.C`, `LinearSolvers.C`, `LinearSolverConfig.C`, `Realms.C`, and the lookups of
`EquationSystem.C:310-395`.

The YAML document is a tree.  yaml-cpp itself is trusted; what is used of it: `node[key]` finds the first entry of a
map, gives nothing on sequences and null nodes and throws on scalars; `node.as<T>()` converts scalars (the conversions
text → `double`/`int`/`bool` are the parameters `num`, `boolOf` of the model).  An exception is `none` in the
`Option` monad; messages are not modelled.  `double` is `ℝ`.  The many members of `WallUserData`, `InflowUserData`, … are
modelled as a map from the member's name to its value; each `if (node["key"]) {...}` statement is one table entry.
-/

namespace Nalu.Parse

/-- A YAML node. -/
inductive Yaml
  | null
  | scalar (s : String)
  | seq (l : List Yaml)
  | map (l : List (String × Yaml))

/-- Entries of a map node with a given key: yaml-cpp takes the first. -/
def lookup (k : String) : List (String × Yaml) → Option Yaml
  | [] => none
  | (k', v) :: l => if k' = k then some v else lookup k l

/-- `node[key]`: outer `none` is an exception. -/
def Yaml.get (n : Yaml) (k : String) : Option (Option Yaml) :=
  match n with
  | .map l => some (lookup k l)
  | .scalar _ => none
  | .null => some none
  | .seq _ => some none

/-- How a table entry converts its node. -/
inductive Kind
  | vel       -- `convert<Velocity>::decode`, NaluParsing.C:495-509
  | num       -- the scalar structs (e.g. `Pressure`, lines 527-538) and `as<double>`
  | nums      -- `convert<MassFraction>::decode`, lines 611-627
  | bool      -- `as<bool>`
  | str       -- `as<std::string>`
  | strs      -- scalar or sequence of names (lines 1173-1185)
  | forbidden -- `throw`, lines 907-917
deriving DecidableEq

/-- Values of members. -/
inductive Val
  | unset
  | vec (x y z : ℝ)
  | num (r : ℝ)
  | nums (l : List ℝ)
  | bool (b : Bool)
  | str (s : String)
  | strs (l : List String)

section
variable (num : String → Option ℝ) (boolOf : String → Option Bool)

/-- `as<double>()`. -/
def asNum : Yaml → Option ℝ
  | .scalar s => num s
  | _ => none

/-- `as<std::string>()`. -/
def asStr : Yaml → Option String
  | .scalar s => some s
  | _ => none

/-- `as<bool>()`. -/
def asBool : Yaml → Option Bool
  | .scalar s => boolOf s
  | _ => none

/-- `convert<Velocity>::decode`, NaluParsing.C:495-509: at least two components; the third defaults to zero, further
ones are ignored. -/
def asVel : Yaml → Option (ℝ × ℝ × ℝ)
  | .seq (x :: y :: rest) => do
      let ux ← asNum num x
      let uy ← asNum num y
      match rest with
      | [] => some (ux, uy, 0)
      | z :: _ => do
          let uz ← asNum num z
          some (ux, uy, uz)
  | _ => none

/-- `convert<MassFraction>::decode`, lines 611-627. -/
def asNums : Yaml → Option (List ℝ)
  | .seq l => l.mapM (asNum num)
  | _ => none

/-- Name or sequence of names: lines 245-257, 260-272, 283-295, 1173-1185.  (On a map or null node the code's
`size()`/index access finds nothing or throws; both are `none` here except that a null node gives no names.) -/
def asNames : Yaml → Option (List String)
  | .scalar s => some [s]
  | .seq l => l.mapM asStr
  | .null => some []
  | .map _ => none

/-- The conversion of one entry. -/
def dec : Kind → Yaml → Option Val
  | .vel, y => (asVel num y).map fun v => .vec v.1 v.2.1 v.2.2
  | .num, y => (asNum num y).map .num
  | .nums, y => (asNums num y).map .nums
  | .bool, y => (asBool boolOf y).map .bool
  | .str, y => (asStr y).map .str
  | .strs, y => (asNames y).map .strs
  | .forbidden, _ => none

/-- One statement `if (node[key]) { member = node[vkey].as<..>(); flag = true; ... }` of a `decode` function;
`constant` when it also writes `bcDataSpecifiedMap_[key] = true; bcDataTypeMap_[key] = CONSTANT_UD`; `required` when
its `else` branch throws. -/
structure Entry where
  key : String
  vkey : String
  member : String
  kind : Kind
  constant : Bool
  flag : Option String
  required : Bool

/-- `UserDataType`. -/
inductive UD
  | constant
  | function
deriving DecidableEq

/-- `UserData` and its derived classes, include/NaluParsing.h:160-360. -/
structure Rec where
  val : String → Val
  flag : String → Bool
  spec : String → Bool
  ty : String → Option UD
  fn : String → Option String
  fpar : String → Option (List ℝ)
  fstr : String → Option (List String)

/-- The writes of one statement. -/
def Rec.store (r : Rec) (e : Entry) (v : Val) : Rec :=
  { r with
    val := Function.update r.val e.member v
    flag := match e.flag with
      | none => r.flag
      | some f => Function.update r.flag f true
    spec := if e.constant then Function.update r.spec e.key true else r.spec
    ty := if e.constant then Function.update r.ty e.key (some .constant) else r.ty }

/-- A statement's effect. -/
def Entry.run (n : Yaml) (r : Rec) (e : Entry) : Option Rec :=
  match n.get e.key with
  | none => none
  | some none => if e.required then none else some r
  | some (some _) =>
    match n.get e.vkey with
    | none => none
    | some none => none
    | some (some y) => (dec num boolOf e.kind y).map (r.store e)

/-- The statements in order. -/
def runTable (n : Yaml) (t : List Entry) (r : Rec) : Option Rec := t.foldlM (Entry.run num boolOf n) r

/-- The loop over `user_function_name`, lines 926-937 (wall) and 1031-1043 (inflow). -/
def runFns (l : List (String × Yaml)) (r : Rec) : Option Rec :=
  l.foldlM (fun r kv => do
    let s ← asStr kv.2
    some { r with
      spec := Function.update r.spec kv.1 true
      ty := Function.update r.ty kv.1 (some .function)
      fn := Function.update r.fn kv.1 (some s) }) r

/-- `expect_map(node, key, optional=true)`, `expect_type`, lines 26-70. -/
def expectMap (n : Yaml) (k : String) : Option (Option (List (String × Yaml))) := do
  match ← n.get k with
  | none => some none
  | some (.map l) => some (some l)
  | some _ => none

/-- `as<std::map<std::string, std::vector<double>>>()`: yaml-cpp's map and vector conversions (sequences only). -/
def numParams (l : List (String × Yaml)) (m : String → Option (List ℝ)) : Option (String → Option (List ℝ)) :=
  l.foldlM (fun m kv => do
    let v ← asNums num kv.2
    some (Function.update m kv.1 (some v))) m

/-- `convert<std::map<std::string, std::vector<std::string>>>::decode`, lines 1319-1348: a scalar is a list of one;
values are appended to what the key already holds. -/
def strParams (l : List (String × Yaml)) (m : String → Option (List String)) :
    Option (String → Option (List String)) :=
  l.foldlM (fun m kv => do
    let v ← asNames kv.2
    some (Function.update m kv.1 (some ((m kv.1).getD [] ++ v)))) m

/-- `user_function_parameters`, lines 939-944, 1045-1050. -/
def runParams (n : Yaml) (r : Rec) : Option Rec :=
  (expectMap n "user_function_parameters").bind fun
    | none => some r
    | some l => (numParams num l (fun _ => none)).map fun p => { r with fpar := p }

/-- `user_function_string_parameters`, lines 946-953, 1052-1059. -/
def runStrParams (n : Yaml) (r : Rec) : Option Rec :=
  (expectMap n "user_function_string_parameters").bind fun
    | none => some r
    | some l => (strParams l (fun _ => none)).map fun p => { r with fstr := p }

/-- Function data, lines 919-953 (wall) and 1026-1061 (inflow): parameters are read only when there is a
`user_function_name`. -/
def runFunctions (n : Yaml) (r : Rec) : Option Rec :=
  (expectMap n "user_function_name").bind fun
    | none => some r
    | some l => ((runFns l r).bind (runParams num n)).bind (runStrParams n)

end

/-- Shorthand for an optional statement whose two keys agree. -/
def opt (key member : String) (kind : Kind) (constant : Bool) (flag : Option String) : Entry :=
  ⟨key, key, member, kind, constant, flag, false⟩

/-- Statements of `convert<WallUserData>::decode` before the function data, NaluParsing.C:786-923. -/
def wallTable : List Entry := [
  opt "velocity" "u_" .vel true none,
  opt "mesh_displacement" "dx_" .vel true none,
  opt "turbulent_ke" "tke_" .num true none,
  opt "temperature" "temperature_" .num true (some "tempSpec_"),
  opt "mixture_fraction" "mixFrac_" .num true none,
  opt "mass_fraction" "massFraction_" .nums true none,
  opt "volume_of_fluid" "vof_" .num true none,
  opt "emissivity" "emissivity_" .num false (some "emissSpec_"),
  opt "transmissivity" "transmissivity_" .num false none,
  opt "environmental_temperature" "environmentalT_" .num false none,
  opt "adiabatic" "isAdiabatic_" .bool false none,
  opt "interface" "isInterface_" .bool false none,
  opt "external_data" "externalData_" .bool false none,
  opt "post_process_heat_flux" "ppHeatFlux_" .bool false none,
  opt "reference_temperature" "referenceTemperature_" .num false (some "refTempSpec_"),
  opt "heat_transfer_coefficient" "heatTransferCoefficient_" .num false (some "htcSpec_"),
  opt "irradiation" "irradiation_" .num false (some "irradSpec_"),
  opt "robin_coupling_parameter" "robinCouplingParameter_" .num false (some "robinParameterSpec_"),
  opt "use_wall_function" "wallFunctionApproach_" .bool false none,
  opt "use_wall_function_projected" "wallFunctionProjectedApproach_" .bool false none,
  opt "use_neumann_condition" "neumann_" .bool false none,
  opt "projected_distance" "projectedDistance_" .num false none,
  opt "projected_distance_ode" "projectedDistanceOde_" .bool false none,
  opt "pressure" "pressure_" .num true none,
  opt "fsi_interface" "isFsiInterface_" .bool false none,
  opt "specific_dissipation_rate" "(sdr)" .forbidden false none,
  opt "turbulent_dissipation" "(eps)" .forbidden false none,
  opt "heat_flux" "q_" .num false (some "heatFluxSpec_")]

/-- Statements of `convert<InflowUserData>::decode`, lines 974-1024, 1063-1067 (`external_data` is read after the
function data, which does not matter: it writes another member). -/
def inflowTable : List Entry := [
  opt "velocity" "u_" .vel false (some "uSpec_"),
  opt "turbulent_ke" "tke_" .num false (some "tkeSpec_"),
  opt "specific_dissipation_rate" "sdr_" .num false (some "sdrSpec_"),
  opt "turbulent_dissipation" "eps_" .num false (some "epsSpec_"),
  opt "mixture_fraction" "mixFrac_" .num false (some "mixFracSpec_"),
  opt "mass_fraction" "massFraction_" .nums false (some "massFractionSpec_"),
  opt "volume_of_fluid" "vof_" .num false (some "vofSpec_"),
  opt "temperature" "temperature_" .num false (some "tempSpec_"),
  opt "external_data" "externalData_" .bool false none]

/-- Statements of `convert<OpenUserData>::decode`, lines 1072-1137.  Line 1087 tests the key `turbulent_dissipation_`
(with a trailing underscore) and line 1089 reads `turbulent_dissipation`. -/
def openTable : List Entry := [
  opt "velocity" "u_" .vel false (some "uSpec_"),
  opt "turbulent_ke" "tke_" .num false (some "tkeSpec_"),
  opt "specific_dissipation_rate" "sdr_" .num false (some "sdrSpec_"),
  ⟨"turbulent_dissipation_", "turbulent_dissipation", "eps_", .num, false, some "epsSpec_", false⟩,
  opt "pressure" "p_" .num false (some "pSpec_"),
  opt "mixture_fraction" "mixFrac_" .num false (some "mixFracSpec_"),
  opt "mass_fraction" "massFraction_" .nums false (some "massFractionSpec_"),
  opt "temperature" "temperature_" .num false (some "tempSpec_"),
  opt "volume_of_fluid" "vof_" .num false (some "vofSpec_"),
  opt "use_total_pressure" "useTotalP_" .bool false none]

/-- Shorthand for a required statement. -/
def req (key member : String) (kind : Kind) : Entry := ⟨key, key, member, kind, false, none, true⟩

/-- Statements of `convert<OversetUserData>::decode`, lines 1139-1240 (`as<int>` of `cutting_shape_axial_dir` is
modelled as a number). -/
def oversetTable : List Entry := [
  req "percent_overlap" "percentOverlap_" .num,
  opt "percent_overlap_inner" "percentOverlapInner_" .num false none,
  req "background_block" "backgroundBlock_" .str,
  req "overset_block" "oversetBlockVec_" .strs,
  req "background_cut_block" "backgroundCutBlock_" .str,
  req "background_cut_surface" "backgroundSurface_" .str,
  opt "background_cut_block_inner" "backgroundInnerBlock_" .str false none,
  req "overset_surface" "oversetSurface_" .str,
  opt "clip_isoparametric_coordinates" "clipIsoParametricCoords_" .bool false none,
  opt "detailed_output" "detailedOutput_" .bool false none,
  opt "cutting_shape" "cuttingShape_" .str false none,
  opt "cutting_shape_axial_dir" "cuttingAxis_" .num false none]

/-- Statements of `convert<PeriodicUserData>::decode`, lines 1256-1275. -/
def periodicTable : List Entry := [
  req "search_tolerance" "searchTolerance_" .num,
  opt "search_method" "searchMethodName_" .str false none]

/-- Statements of `convert<NonConformalUserData>::decode`, lines 1277-1309. -/
def nonConformalTable : List Entry := [
  opt "search_method" "searchMethodName_" .str false none,
  opt "expand_box_percentage" "expandBoxPercentage_" .num false none,
  opt "clip_isoparametric_coordinates" "clipIsoParametricCoords_" .bool false none,
  opt "search_tolerance" "searchTolerance_" .num false none,
  opt "activate_dynamic_search_algorithm" "dynamicSearchTolAlg_" .bool false none]

/-- Statements of `convert<SymmetryUserData>::decode`, lines 1242-1254. -/
def symmetryTable : List Entry := [
  opt "normal_temperature_gradient" "normalTemperatureGradient_" .num false (some "normalTemperatureGradientSpec_")]

section
variable (num : String → Option ℝ) (boolOf : String → Option Bool)

/-- `convert<WallUserData>::decode`, lines 782-956; `r0` is the default-constructed `WallUserData`. -/
def decodeWall (r0 : Rec) (n : Yaml) : Option Rec := do
  let r ← runTable num boolOf n wallTable r0
  runFunctions num n r

/-- `convert<InflowUserData>::decode`, lines 971-1070. -/
def decodeInflow (r0 : Rec) (n : Yaml) : Option Rec := do
  let r ← runTable num boolOf n inflowTable r0
  runFunctions num n r

/-- `convert<OpenUserData>::decode`, lines 1072-1137 (no function data). -/
def decodeOpen (r0 : Rec) (n : Yaml) : Option Rec := runTable num boolOf n openTable r0

/-- The remaining decodes. -/
def decodeOverset (r0 : Rec) (n : Yaml) : Option Rec := runTable num boolOf n oversetTable r0
def decodePeriodic (r0 : Rec) (n : Yaml) : Option Rec := runTable num boolOf n periodicTable r0
def decodeNonConformal (r0 : Rec) (n : Yaml) : Option Rec := runTable num boolOf n nonConformalTable r0
def decodeSymmetry (r0 : Rec) (n : Yaml) : Option Rec := runTable num boolOf n symmetryTable r0

/-! ## What the equation systems read, EquationSystem.C:310-395 -/

/-- `get_bc_data_type`, lines 328-339: constant unless the map says otherwise. -/
def bcType (r : Rec) (name : String) : UD := (r.ty name).getD .constant

/-- `get_bc_function_name`, lines 344-359. -/
def bcFunction (r : Rec) (name : String) : Option String := r.fn name

/-! ## Boundary conditions -/

/-- `BoundaryConditionType` with its data. -/
inductive Bc
  | wall (name target : String) (r : Rec)
  | inflow (name target : String) (r : Rec)
  | opened (name target : String) (r : Rec)
  | symmetry (name target : String) (r : Rec)
  | periodic (name monarch subject : String) (r : Rec)
  | nonConformal (name : String) (current opposing : List String) (r : Rec)
  | overset (name : String) (r : Rec)

/-- `node[key].as<std::string>()`; a missing key throws. -/
def getStr (n : Yaml) (k : String) : Option String := do
  match ← n.get k with
  | none => none
  | some y => asStr y

/-- `node[key]` passed to `as<UserData>()`; a missing block throws. -/
def getBlock (n : Yaml) (k : String) : Option Yaml := do
  match ← n.get k with
  | none => none
  | some y => some y

/-- Is the key present. -/
def has (n : Yaml) (k : String) : Option Bool := do
  return (← n.get k).isSome

/-- `convert<MonarchSubject>::decode`, lines 958-969. -/
def asPair : Yaml → Option (String × String)
  | .seq [a, b] => do
      let x ← asStr a
      let y ← asStr b
      some (x, y)
  | _ => none

/-- The current/opposing names of a non-conformal interface, lines 210-274: `target_name: [a, b]` (exactly two), or
`current_target_name` and `opposing_target_name`. -/
def ncTargets (n : Yaml) : Option (List String × List String) := do
  match ← n.get "target_name" with
  | some (.seq [a, b]) => do
      let x ← asStr a
      let y ← asStr b
      some ([x], [y])
  | some _ => none
  | none => do
      match ← n.get "current_target_name", ← n.get "opposing_target_name" with
      | some c, some o => do
          let cs ← asNames c
          let os ← asNames o
          some (cs, os)
      | _, _ => none

/-- The rogue-line check `if (node["user_function_name"]) throw`, lines 101-103, 115-117, 128-130. -/
def noRogue (n : Yaml) : Option Unit := do
  if ← has n "user_function_name" then none else some ()

/-- `operator>>(node, WallBoundaryConditionData&)`, lines 91-104.  `d` is the default-constructed data. -/
def readWall (d : Rec) (n : Yaml) : Option Bc := do
  let name ← getStr n "wall_boundary_condition"
  let target ← getStr n "target_name"
  let b ← getBlock n "wall_user_data"
  let r ← decodeWall num boolOf d b
  noRogue n
  return .wall name target r

/-- `operator>>(node, InflowBoundaryConditionData&)`, lines 106-118. -/
def readInflow (d : Rec) (n : Yaml) : Option Bc := do
  let name ← getStr n "inflow_boundary_condition"
  let target ← getStr n "target_name"
  let b ← getBlock n "inflow_user_data"
  let r ← decodeInflow num boolOf d b
  noRogue n
  return .inflow name target r

/-- `operator>>(node, OpenBoundaryConditionData&)`, lines 120-131. -/
def readOpen (d : Rec) (n : Yaml) : Option Bc := do
  let name ← getStr n "open_boundary_condition"
  let target ← getStr n "target_name"
  let b ← getBlock n "open_user_data"
  let r ← decodeOpen num boolOf d b
  noRogue n
  return .opened name target r

/-- `operator>>(node, SymmetryBoundaryConditionData&)`, lines 174-183. -/
def readSymmetry (d : Rec) (n : Yaml) : Option Bc := do
  let name ← getStr n "symmetry_boundary_condition"
  let target ← getStr n "target_name"
  let b ← getBlock n "symmetry_user_data"
  let r ← decodeSymmetry num boolOf d b
  return .symmetry name target r

/-- `operator>>(node, PeriodicBoundaryConditionData&)`, lines 185-196. -/
def readPeriodic (d : Rec) (n : Yaml) : Option Bc := do
  let name ← getStr n "periodic_boundary_condition"
  let t ← getBlock n "target_name"
  let ms ← asPair t
  let b ← getBlock n "periodic_user_data"
  let r ← decodePeriodic num boolOf d b
  return .periodic name ms.1 ms.2 r

/-- `operator>>(node, NonConformalBoundaryConditionData&)`, lines 198-274. -/
def readNonConformal (d : Rec) (n : Yaml) : Option Bc := do
  let name ← getStr n "non_conformal_boundary_condition"
  let b ← getBlock n "non_conformal_user_data"
  let r ← decodeNonConformal num boolOf d b
  let co ← ncTargets n
  return .nonConformal name co.1 co.2 r

/-- The `overset_connectivity_type` check, lines 141-157. -/
def oversetType (n : Yaml) : Option Unit :=
  (n.get "overset_connectivity_type").bind fun
    | none => some ()
    | some y => (asStr y).bind fun s => if s = "nalu_stk" then some () else none

/-- `operator>>(node, OversetBoundaryConditionData&)`, lines 133-172. -/
def readOverset (d : Rec) (n : Yaml) : Option Bc := do
  let name ← getStr n "overset_boundary_condition"
  oversetType n
  let b ← getBlock n "overset_user_data"
  let r ← decodeOverset num boolOf d b
  return .overset name r

/-- `if (node[key]) a else b`. -/
def ifKey {α : Type*} (n : Yaml) (k : String) (a b : Option α) : Option α :=
  (has n k).bind fun h => if h then a else b

/-- `BoundaryCondition::load`, BoundaryConditions.C:37-96: the chain of `if (node[...])`. -/
def loadBc (d : Rec) (n : Yaml) : Option Bc :=
  ifKey n "wall_boundary_condition" (readWall num boolOf d n) <|
  ifKey n "inflow_boundary_condition" (readInflow num boolOf d n) <|
  ifKey n "open_boundary_condition" (readOpen num boolOf d n) <|
  ifKey n "symmetry_boundary_condition" (readSymmetry num boolOf d n) <|
  ifKey n "periodic_boundary_condition" (readPeriodic num boolOf d n) <|
  ifKey n "non_conformal_boundary_condition" (readNonConformal num boolOf d n) <|
  ifKey n "overset_boundary_condition" (readOverset num boolOf d n) none

/-- `BoundaryConditions::load`, include/BoundaryConditions.h:67-84: a list, in order; the line is required. -/
def loadBcs (d : Rec) (n : Yaml) : Option (List Bc) := do
  match ← n.get "boundary_conditions" with
  | none => none
  | some (.seq l) => l.mapM (loadBc num boolOf d)
  | some .null => some []
  | some _ => none

/-! ## Constant initial conditions -/

/-- One `field: value` of a constant initial condition, NaluParsing.C:351-383: a sequence gives its numbers, anything
of size zero must be a number (an empty sequence throws). -/
def icValue : Yaml → Option (List ℝ)
  | .seq (x :: l) => (x :: l).mapM (asNum num)
  | .scalar s => (num s).map fun r => [r]
  | _ => none

/-- Does a name contain a comma. -/
def hasComma (s : String) : Bool := s.toList.contains ','

/-- `operator>>(node, ConstantInitialConditionData&)`, lines 314-385: targets, field names and values; a scalar target
with a comma is refused. -/
def loadConstantIc (n : Yaml) : Option (List String × List (String × List ℝ)) := do
  let _ ← getStr n "constant"
  let t ← getBlock n "target_name"
  let targets ← match t with
    | .scalar s => if hasComma s then none else some [s]
    | y => asNames y
  let v ← getBlock n "value"
  match v with
  | .map l => do
      let vals ← l.mapM fun kv => do
        let x ← icValue num kv.2
        some (kv.1, x)
      some (targets, vals)
  | .null => some (targets, [])
  | _ => none

/-! ## Solvers -/

/-- A solver block as far as used here: `TpetraLinearSolverConfig::load`, LinearSolverConfig.C:35-61. -/
structure Solver where
  name : String
  method : String
  precond : String
  tolerance : ℝ
  finalTolerance : ℝ

/-- `get_if_present(node, key, result, default)` for strings, include/NaluParsing.h:451-461. -/
def strOr (n : Yaml) (k d : String) : Option String := do
  match ← n.get k with
  | none => some d
  | some y => asStr y

/-- `get_if_present` for numbers. -/
def numOr (n : Yaml) (k : String) (d : ℝ) : Option ℝ := do
  match ← n.get k with
  | none => some d
  | some y => asNum num y

/-- Preconditioners accepted, LinearSolverConfig.C:73-101. -/
def preconds : List String := ["sgs", "mt_sgs", "jacobi", "default", "ilut", "riluk", "muelu"]

/-- `TpetraLinearSolverConfig::load` (iteration counts and output options not modelled). -/
noncomputable def loadSolver (n : Yaml) : Option Solver := do
  let name ← getStr n "name"
  let method ← getStr n "method"
  let p ← strOr n "preconditioner" "default"
  let tol ← numOr num n "tolerance" (1 / 10000)
  let fin ← numOr num n "final_tolerance" tol
  if p ∈ preconds then some ⟨name, method, p, tol, fin⟩ else none

/-- `LinearSolvers::load`, LinearSolvers.C:38-57: `solverTpetraConfig_[name] = config`; the section is optional, the
type must be `tpetra`. -/
noncomputable def loadSolvers (l : List Yaml) : Option (String → Option Solver) :=
  l.foldlM (fun m n => do
    let t ← strOr n "type" "tpetra"
    if t = "tpetra" then do
      let s ← loadSolver num n
      some (Function.update m s.name (some s))
    else none) (fun _ => none)

end

/-! ## Material targets and realms -/

/-- `targetNames_.insert(targetNames_.begin(), ...)` for every block, MaterialPropertys.C:58-72. -/
def materialTargets (blocks : List (List String)) : List String := blocks.foldl (fun acc b => b ++ acc) []

/-- `Realms::load`, Realms.C:37-56: the kind of each realm; anything but `multi_physics` is an input/output realm. -/
def realmKinds (types : List (Option String)) : List Bool :=
  types.map fun t => (t.getD "multi_physics") = "multi_physics"

/-- `case_insensitive_compare`, NaluParsing.C:483-488. -/
def caseInsensitiveCompare (a b : String) : Bool := a.toList.map Char.toLower = b.toList.map Char.toLower

end Nalu.Parse
