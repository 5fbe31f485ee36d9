import Mathlib.Data.List.Basic
import Mathlib.Data.PNat.Basic
import Mathlib.Data.Rat.Defs

/-!
# Transfers: reading the input block, hand-over to the realms, search set-up and schedule

Models `Transfer::load`, `Transfer::breadboard`, `Transfers::{load,breadboard,initialize}` (/repo/src/xfer/Transfer.C, Transfers.C),
`Realm::augment_transfer_vector` and the four `Realm::process_*_transfer` (/repo/src/Realm.C:4618-4719), `Realms::find_realm`
(/repo/include/Realms.h:55-63) and the transfer calls of `TimeIntegrator::integrate_realm` (/repo/src/TimeIntegrator.C:183-317).

A YAML scalar is its text together with the number it parses to.  A scalar target name is a list of one name.  Not modelled: the search itself and the
interpolation (`Verif.Model.Transfer`), output, timers, the search options (`search_method`, `search_tolerance`, `search_expansion_factor`: each
replaces its default).
-/

namespace Nalu.XferSetup

/-- A YAML scalar: text, and the `double` it converts to if it does. -/
structure Scalar where
  txt : String
  num : Option ℚ

/-- One item of the `transfers` sequence of the input file; `none` = key absent. -/
structure Block where
  name : Option String
  type : Option String
  objective : Option String
  coupling : Option String
  realmPair : List String
  meshPartPair : Option (List String)
  fromTarget : Option (List String)
  toTarget : Option (List String)
  clips : Option (List (List Scalar))
  vars : Option (List (List String))

/-- What `load` can complain about. -/
inductive Err
  | missing | realms | mix | partPair | noFrom | noTo | clip | pair | both | neither | physics
  deriving DecidableEq

/-- Members of `Transfer` that `load` fills. -/
structure Xfer where
  fromRealm : String
  toRealm : String
  fromParts : List String
  toParts : List String
  objective : String
  clip : String → Option (ℚ × ℚ)
  pairs : List (String × String)

/-- The mesh parts (Transfer.C:94-152). -/
def partsOf (b : Block) : Except Err (List String × List String) :=
  match b.meshPartPair with
  | some l =>
    if b.fromTarget.isSome || b.toTarget.isSome then .error .mix
    else match l with
      | [f, t] => .ok ([f], [t])
      | _ => .error .partPair
  | none =>
    match b.fromTarget, b.toTarget with
    | none, _ => .error .noFrom
    | some _, none => .error .noTo
    | some f, some t => .ok (f, t)

/-- `clipMap_[fieldName] = make_pair(clipMin, clipMax)` for each item in turn (Transfer.C:170-182). -/
def clipsOf : List (List Scalar) → (String → Option (ℚ × ℚ)) → Except Err (String → Option (ℚ × ℚ))
  | [], m => .ok m
  | [n, lo, hi] :: r, m =>
    match lo.num, hi.num with
    | some a, some c => clipsOf r (fun s => if s = n.txt then some (a, c) else m s)
    | _, _ => .error .clip
  | _ :: _, _ => .error .clip

/-- `transferVariablesPairName_.push_back` for each item (Transfer.C:185-197). -/
def pairsOf : List (List String) → Except Err (List (String × String))
  | [] => .ok []
  | [f, t] :: r => match pairsOf r with
    | .ok l => .ok ((f, t) :: l)
    | .error e => .error e
  | _ :: _ => .error .pair

/-- The pre-defined transfers (Transfer.C:213-271). -/
def physics : String → Except Err (List (String × String))
  | "fluids_cht" =>
    .ok [("heat_transfer_coefficient", "heat_transfer_coefficient"), ("reference_temperature", "reference_temperature")]
  | "fluids_robin" =>
    .ok [("normal_heat_flux", "normal_heat_flux"), ("temperature", "reference_temperature"),
         ("robin_coupling_parameter", "robin_coupling_parameter")]
  | "thermal_cht" => .ok [("temperature", "temperature"), ("temperature", "temperature_bc")]
  | "thermal_robin" => .ok [("temperature", "temperature"), ("temperature", "temperature_bc")]
  | _ => .error .physics

/-- The field pairs: read, cross-check, pre-defined sets (Transfer.C:185-271). -/
def fieldsOf (b : Block) : Except Err (List (String × String)) :=
  match b.vars with
  | some l =>
    match pairsOf l with
    | .error e => .error e
    | .ok p => if b.coupling.isSome then .error .both else .ok p
  | none =>
    match b.coupling with
    | none => .error .neither
    | some c => physics c

/-- `Transfer::load` (Transfer.C:78-273), in the order of the file except that the independent checks are grouped. -/
def load (b : Block) : Except Err Xfer :=
  if b.name.isNone || b.type.isNone then .error .missing
  else match b.realmPair with
    | [f, t] =>
      match partsOf b with
      | .error e => .error e
      | .ok p =>
        match clipsOf (b.clips.getD []) (fun _ => none) with
        | .error e => .error e
        | .ok m =>
          match fieldsOf b with
          | .error e => .error e
          | .ok v => .ok ⟨f, t, p.1, p.2, b.objective.getD "multi_physics", m, v⟩
    | _ => .error .realms

/-- A realm as the transfers see it: its name and the parts of its mesh. -/
structure RealmMesh where
  name : String
  parts : List String

/-- `Realms::find_realm` (Realms.h:55-63): the first realm with that name. -/
def findRealm (rs : List RealmMesh) (n : String) : Option ℕ := rs.findIdx? (fun r => r.name = n)

/-- The four queues of a realm (include/Realm.h); a transfer is its position in the input file. -/
structure Queues where
  mp : List ℕ
  ini : List ℕ
  io : List ℕ
  ext : List ℕ

/-- Every realm before the breadboard. -/
def noQueues : ℕ → Queues := fun _ => ⟨[], [], [], []⟩

/-- `Realm::augment_transfer_vector` (Realm.C:4618-4639). -/
def augment (Q : ℕ → Queues) (t : ℕ) (objective : String) (f g : ℕ) : Option (ℕ → Queues) :=
  if objective = "multi_physics" then some fun r => if r = f then { Q r with mp := (Q r).mp ++ [t] } else Q r
  else if objective = "initialization" then some fun r => if r = f then { Q r with ini := (Q r).ini ++ [t] } else Q r
  else if objective = "input_output" then some fun r => if r = g then { Q r with io := (Q r).io ++ [t] } else Q r
  else if objective = "external_data" then some fun r => if r = g then { Q r with ext := (Q r).ext ++ [t] } else Q r
  else none

/-- `get_part` of every name (Transfer.C:301-321). -/
def partsExist (m : RealmMesh) (l : List String) : Bool := l.all fun p => p ∈ m.parts

/-- `Transfer::breadboard` (Transfer.C:278-347); `none` = it throws. -/
def board (rs : List RealmMesh) (Q : ℕ → Queues) (t : ℕ) (x : Xfer) : Option (ℕ → Queues) :=
  match findRealm rs x.fromRealm, findRealm rs x.toRealm with
  | some f, some g =>
    match augment Q t x.objective f g, rs[f]?, rs[g]? with
    | some Q', some mf, some mg => if partsExist mf x.fromParts && partsExist mg x.toParts then some Q' else none
    | _, _, _ => none
  | _, _ => none

/-- `Transfers::breadboard` (Transfers.C:67-72), the first transfer having number `t`. -/
def boardAll (rs : List RealmMesh) : (ℕ → Queues) → ℕ → List Xfer → Option (ℕ → Queues)
  | Q, _, [] => some Q
  | Q, t, x :: r => match board rs Q t x with
    | none => none
    | some Q' => boardAll rs Q' (t + 1) r

/-- What happens during `Transfers::initialize`. -/
inductive Ev
  | coarse (t : ℕ)
  | modBegin (realm : ℕ)
  | ghost (t : ℕ)
  | modEnd (realm : ℕ)
  | localSearch (t : ℕ)
  deriving DecidableEq

/-- `Transfers::initialize` (Transfers.C:75-91); `frm t` is the number of the realm that transfer `t` reads from. -/
def setup (frm : ℕ → ℕ) (n : ℕ) : List Ev :=
  (List.range n).map Ev.coarse ++
  (List.range n).flatMap (fun t => [Ev.modBegin (frm t), Ev.ghost t, Ev.modEnd (frm t)]) ++
  (List.range n).map Ev.localSearch

/-- A realm during the run: its queues, `solveFrequency_`, the output frequency and `restarted_simulation()`.  A frequency of zero is a division by
zero in the code (`Verif.Model.Output`). -/
structure RealmRun where
  q : Queues
  solveFreq : ℕ+
  outFreq : ℕ+
  restarted : Bool

/-- `process_io_transfer` (Realm.C:4684-4700). -/
def ioOf (count : ℕ) (r : RealmRun) : List ℕ := if count % r.outFreq = 0 then r.q.io else []

/-- `process_multi_physics_transfer` (Realm.C:4645-4660). -/
def mpOf (count : ℕ) (forced : Bool) (r : RealmRun) : List ℕ :=
  if count % r.solveFreq = 0 ∨ forced = true then r.q.mp else []

/-- Transfers executed before the time loop (TimeIntegrator.C:183-230); `vec` lists the realms of the integrator. -/
def startup (realm : ℕ → RealmRun) (vec : List ℕ) (count0 : ℕ) : List ℕ :=
  vec.flatMap (fun r => (realm r).q.ini) ++ vec.flatMap (fun r => ioOf count0 (realm r)) ++
  vec.flatMap (fun r => (realm r).q.ext) ++
  vec.flatMap (fun r => if (realm r).restarted then mpOf count0 true (realm r) else [])

/-- Transfers executed by one pass of the time loop with `timeStepCount_ = count` (TimeIntegrator.C:293-317). -/
def pass (realm : ℕ → RealmRun) (vec : List ℕ) (iters count : ℕ) : List ℕ :=
  vec.flatMap (fun r => (realm r).q.ext) ++
  (List.replicate iters (vec.flatMap fun r => mpOf count false (realm r))).flatten ++
  vec.flatMap (fun r => ioOf count (realm r))

/-- Transfers executed by a run of `n` steps, in order. -/
def run (realm : ℕ → RealmRun) (vec : List ℕ) (iters count0 n : ℕ) : List ℕ :=
  startup realm vec count0 ++ (List.range n).flatMap fun k => pass realm vec iters (count0 + k + 1)

end Nalu.XferSetup
