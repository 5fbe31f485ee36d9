import Mathlib.Data.List.Basic
import Mathlib.Data.String.Basic

/-!
# Model of the set-up of turbulence averaging

Models `TurbulenceAveragingPostProcessing::load`, `setup`, `register_field_from_primitive`,
`construct_pair` and `register_field` (`/repo/src/TurbulenceAveragingPostProcessing.C:85-525`) and
`AveragingInfo` (`/repo/src/AveragingInfo.C:26-44`).
-/

namespace Nalu.AvgSetup

/-- Why the input is refused. `crash` stands for a null pointer being used. -/
inductive Err
  | badType | noSpecs | noName | noTarget | noPart (name : String) | noPrimitive (name : String)
  | notDouble (name : String) | sfsDim | crash
  deriving DecidableEq, Repr

/-- The switches of one specification, all off unless given (AveragingInfo.C:27-41).
`compute_mean_resolved_ke`, which needs no field, is left out. -/
structure Flags where
  reynoldsStress : Bool := false
  tke : Bool := false
  favreStress : Bool := false
  favreTke : Bool := false
  resolvedStress : Bool := false
  sfsStress : Bool := false
  vorticity : Bool := false
  qCriterion : Bool := false
  lambdaCI : Bool := false
  errorIndicator : Bool := false
  dissipationRate : Bool := false
  production : Bool := false
  temperatureSFS : Bool := false
  temperatureResolved : Bool := false

/-- One entry of `specifications` as the user writes it; absent lists are empty, a scalar
`target_name` is a list of one. -/
structure Spec where
  name : Option String
  targets : Option (List String)
  reynolds : List String := []
  favre : List String := []
  moving : List String := []
  flags : Flags := {}

/-- The block `turbulence_averaging`. -/
structure Input where
  averagingType : Option String := none
  specs : Option (List Spec)

/-- What is stored per specification (`AveragingInfo`). -/
structure Info where
  name : String
  targets : List String
  reynolds : List String
  favre : List String
  resolved : List String
  moving : List String
  flags : Flags

/-- `std::find` followed by `push_back` when not found (lines 187-190, 195-198, 203-206, 211-214). -/
def addIfMissing (x : String) (l : List String) : List String := if x ∈ l then l else l ++ [x]

/-- The loop body of `load` (TurbulenceAveragingPostProcessing.C:109-220). A missing `target_name`
makes `targets.Type()` raise in yaml-cpp (line 125). -/
def loadSpec (s : Spec) : Except Err Info :=
  match s.name with
  | none => .error .noName
  | some name =>
    match s.targets with
    | none => .error .noTarget
    | some targets =>
      let f := s.flags
      let reynolds := s.reynolds.filter (fun x => x ≠ "density")
      let favre := s.favre.filter (fun x => x ≠ "density")
      let reynolds := if f.tke || f.reynoldsStress then addIfMissing "velocity" reynolds else reynolds
      let favre := if f.favreTke || f.favreStress then addIfMissing "velocity" favre else favre
      let resolved := if f.resolvedStress || f.temperatureResolved then addIfMissing "velocity" [] else []
      let resolved := if f.temperatureResolved then addIfMissing "temperature" resolved else resolved
      .ok ⟨name, targets, reynolds, favre, resolved, s.moving, f⟩

/-- All specifications in order; the first faulty one stops. -/
def loadSpecs : List Spec → Except Err (List Info)
  | [] => .ok []
  | s :: t => match loadSpec s with
    | .error e => .error e
    | .ok i => match loadSpecs t with
      | .error e => .error e
      | .ok is => .ok (i :: is)

/-- The averaging type (lines 94-104): absent means the classical one. -/
def kindOf : Option String → Except Err Bool
  | none => .ok false
  | some t => if t = "nalu_classic" then .ok false
    else if t = "moving_exponential" then .ok true else .error .badType

/-- `load` with a `turbulence_averaging` block present (TurbulenceAveragingPostProcessing.C:90-227).
The result is whether the moving exponential is used and the infos. -/
def load (y : Input) : Except Err (Bool × List Info) :=
  match kindOf y.averagingType with
  | .error e => .error e
  | .ok k => match y.specs with
    | none => .error .noSpecs
    | some ss => match loadSpecs ss with
      | .error e => .error e
      | .ok is => .ok (k, is)

/-! ### setup -/

/-- A field registered on a part: name, part, number of components. Element fields are kept in a list
of their own. -/
structure Reg where
  field : String
  part : String
  size : ℕ
  deriving DecidableEq

/-- The parts of the mesh, the fields already present and whether they hold doubles. -/
structure Mesh where
  nDim : ℕ
  parts : List String
  isDouble : String → Bool

/-- What set-up accumulates: registered nodal fields, element fields and restart variables. -/
structure St where
  nodal : List Reg
  elem : List Reg
  restart : List String

/-- `get_field(NODE_RANK, name)` finds something. -/
def St.has (s : St) (name : String) : Prop := ∃ r ∈ s.nodal, r.field = name

instance (s : St) (name : String) : Decidable (s.has name) := by unfold St.has; infer_instance

/-- `max_size()`: the largest number of components over all parts. -/
def St.maxSize (s : St) (name : String) : ℕ :=
  (s.nodal.filter (fun r => r.field = name)).foldl (fun m r => max m r.size) 0

/-- `register_field` (TurbulenceAveragingPostProcessing.C:510-525). -/
def regField (name : String) (size : ℕ) (part : String) (restart : Bool) (s : St) : St :=
  { s with nodal := s.nodal ++ [⟨name, part, size⟩]
           restart := if restart then s.restart ++ [name] else s.restart }

/-- `register_field_from_primitive` (lines 444-478). -/
def regFromPrimitive (m : Mesh) (prim avg part : String) (s : St) : Except Err St :=
  let s1 := { s with restart := s.restart ++ [avg] }
  if ¬ s1.has prim then .error (.noPrimitive prim)
  else if ¬ m.isDouble prim then .error (.notDouble prim)
  else .ok { s1 with nodal := s1.nodal ++ [⟨avg, part, s1.maxSize prim⟩] }

/-- The loops over the names of one kind (lines 345-371). -/
def regAll (m : Mesh) (part : String) : List (String × String) → St → Except Err St
  | [], s => .ok s
  | (p, a) :: t, s => match regFromPrimitive m p a part s with
    | .error e => .error e
    | .ok s' => regAll m part t s'

/-- An element field with its restart entry and two nodal companions that are not restarted (lines
386-406). -/
def regElem (name part : String) (companions : Bool) (s : St) : St :=
  let s1 := { s with elem := s.elem ++ [⟨name, part, 1⟩], restart := s.restart ++ [name] }
  if companions then regField (name ++ "_filter") 1 part false (regField (name ++ "_projected") 1 part false s1) else s1

def reynoldsName (block p : String) : String := p ++ "_ra_" ++ block
def favreName (block p : String) : String := p ++ "_fa_" ++ block
def resolvedName (block p : String) : String := p ++ "_resa_" ++ block
/-- `MovingAveragePostProcessor::filtered_field_name` (src/MovingAveragePostProcessor.C). -/
def movingName (p : String) : String := p ++ "_ma"

/-- All primitive / averaged names of a block in the order of the loops (lines 345-368). -/
def namePairs (i : Info) : List (String × String) :=
  i.reynolds.map (fun p => (p, reynoldsName i.name p)) ++ i.favre.map (fun p => (p, favreName i.name p)) ++
  i.resolved.map (fun p => (p, resolvedName i.name p)) ++ i.moving.map (fun p => (p, movingName p))

/-- The special fields (lines 263-337): name, size and switch, in order; `vorticity` is registered
without a restart entry (lines 275-281). -/
def specials (nDim : ℕ) (f : Flags) : List (Bool × String × ℕ × Bool) :=
  let stress := if nDim = 3 then 6 else 3
  [(f.tke, "resolved_turbulent_ke", 1, true), (f.favreTke, "resolved_favre_turbulent_ke", 1, true),
   (f.vorticity, "vorticity", 3, false), (f.qCriterion, "q_criterion", 1, true), (f.lambdaCI, "lambda_ci", 1, true),
   (f.reynoldsStress, "reynolds_stress", stress, true), (f.favreStress, "favre_stress", stress, true),
   (f.resolvedStress || f.temperatureResolved, "resolved_stress", stress, true),
   (f.temperatureResolved, "temperature_resolved_flux", nDim, true), (f.temperatureResolved, "temperature_variance", 1, true),
   (f.sfsStress || f.temperatureSFS, "sfs_stress", stress, true), (f.temperatureSFS, "temperature_sfs_flux", nDim, true)]

def regSpecials (part : String) (l : List (Bool × String × ℕ × Bool)) (s : St) : St :=
  l.foldl (fun s x => if x.1 then regField x.2.1 x.2.2.1 part x.2.2.2 s else s) s

/-- The body of the target loop (lines 252-407). The dimension check of the sub-filter stress comes in
the middle of the special fields (lines 326-328); since a refusal discards everything it is made
first here, but after the part was found. -/
def setupTarget (m : Mesh) (i : Info) (part : String) (s : St) : Except Err St :=
  if part ∉ m.parts then .error (.noPart part)
  else if (i.flags.sfsStress || i.flags.temperatureSFS) && decide (m.nDim < 3) then .error .sfsDim
  else
    let s := regSpecials part (specials m.nDim i.flags) s
    let s := { s with nodal := s.nodal ++ [⟨reynoldsName i.name "density", part, 1⟩] }
    match regAll m part (namePairs i) s with
    | .error e => .error e
    | .ok s =>
      let s := if i.flags.errorIndicator then regElem "mean_error_indicator" part false s else s
      let s := if i.flags.dissipationRate then regElem "dissipation_rate" part true s else s
      let s := if i.flags.production then regElem "production" part true s else s
      .ok s

def setupTargets (m : Mesh) (i : Info) : List String → St → Except Err St
  | [], s => .ok s
  | t :: ts, s => match setupTarget m i t s with
    | .error e => .error e
    | .ok s' => setupTargets m i ts s'

/-- A primitive field, the field holding its average, and the number of components. -/
structure Pair where
  prim : String
  avg : String
  size : ℕ
  deriving DecidableEq

/-- The pairs of one specification: Reynolds (density first), Favre, resolved. -/
structure Pairs where
  reynolds : List Pair
  favre : List Pair
  resolved : List Pair

/-- `construct_pair` (lines 483-505). -/
def constructPair (s : St) (p a : String) : Pair := ⟨p, a, s.maxSize a⟩

/-- The body of the loop over specifications (lines 244-437): the targets, then the pairs. Without
a target the averaged fields do not exist and without a density field the density pointer is null;
both are used (lines 409, 500, 543). -/
def setupInfo (m : Mesh) (i : Info) (s : St) : Except Err (Pairs × St) :=
  match setupTargets m i i.targets s with
  | .error e => .error e
  | .ok s =>
    if ¬ s.has "density" ∨ ¬ s.has (reynoldsName i.name "density") then .error .crash
    else
      let s := { s with restart := s.restart ++ [reynoldsName i.name "density"] }
      let ra := i.reynolds.map fun p => constructPair s p (reynoldsName i.name p)
      let fa := i.favre.map fun p => constructPair s p (favreName i.name p)
      let rs := i.resolved.map fun p => constructPair s p (resolvedName i.name p)
      let s := { s with restart := s.restart ++ (ra ++ fa ++ rs).map Pair.avg }
      .ok (⟨⟨"density", reynoldsName i.name "density", 1⟩ :: ra, fa, rs⟩, s)

/-- `setup` (lines 240-438). -/
def setup (m : Mesh) : List Info → St → Except Err (List Pairs × St)
  | [], s => .ok ([], s)
  | i :: is, s => match setupInfo m i s with
    | .error e => .error e
    | .ok (p, s') => match setup m is s' with
      | .error e => .error e
      | .ok (ps, s'') => .ok (p :: ps, s'')

end Nalu.AvgSetup
