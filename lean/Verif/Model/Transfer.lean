import Mathlib.Algebra.Order.Field.Basic
import Mathlib.Algebra.BigOperators.Fin

/-!
# Transfers between meshes

Models /repo/include/xfer/LinInterp.h (`filter_to_nearest`, `apply`), /repo/src/Realm.C (`process_multi_physics_transfer`) and the
coupling loop of /repo/src/TimeIntegrator.C.

`double` is `K`.  The coarse search is stk's: a candidate list for each receiving point is given.  The multimap `RangeToDomain` is a
list of points, each with its candidates in the sequence of the map.  `isInElement` is a parameter: `none` is a failed search, whose
distance `numeric_limits<double>::max()` (or NaN) is not smaller than the initial `bestX_`.  Field values of the sending mesh are
those after `update_values` (ghosting), receiving points are the nodes owned by a rank.
-/

namespace Nalu.Xfer

variable {K : Type*} [Field K] [LinearOrder K] [IsStrictOrderedRing K]
variable {P A I B C : Type*}

/-! ## Search -/

/-- Loop variables of `filter_to_nearest` for one point: `bestX_` (`none` is the initial maximum), `nearest` with the parametric
coordinates written to `TransferInfo_`, and `maxBestX`, which lives on over the points (`none` is the initial minimum). -/
structure Best (K A I : Type*) where
  best : Option K
  kept : Option (A × I)
  worst : Option K

/-- `nearestDistance < bestX_` (LinInterp.h:119). -/
def closer (d : K) : Option K → Bool
  | none => true
  | some b => decide (d < b)

/-- One candidate (LinInterp.h:86-125). -/
def Best.consider (search : A → Option (K × I)) (s : Best K A I) (a : A) : Best K A I :=
  match search a with
  | none => s
  | some (d, xi) =>
    if closer d s.best then ⟨some d, some (a, xi), some (match s.worst with | none => d | some v => max v d)⟩ else s

/-- The loop over the candidates of one point (LinInterp.h:75-125). -/
def scan (search : A → Option (K × I)) (worst : Option K) (cands : List A) : Best K A I :=
  cands.foldl (Best.consider search) ⟨none, none, worst⟩

/-- One point: the candidate left after the two `erase` (LinInterp.h:128-130): the nearest one, or none if `nearest` is still
`keys.second`. -/
def nearest (search : A → Option (K × I)) (cands : List A) : Option (A × I) := (scan search none cands).kept

/-- `maxBestX` after all points: "Maximum normalized distance found" of the report (LinInterp.h:70, 123, 137-144). -/
def reportedMax (search : P → A → Option (K × I)) (cands : List (P × List A)) : Option K :=
  cands.foldl (fun w pc => (scan (search pc.1) w pc.2).worst) none

/-- `filter_to_nearest` (LinInterp.h:52-144): the map afterwards together with `TransferInfo_`. -/
def filterToNearest (search : P → A → Option (K × I)) (cands : List (P × List A)) : List (P × A × I) :=
  cands.filterMap fun pc => (nearest (search pc.1) pc.2).map fun ax => (pc.1, ax)

/-! ## Interpolation -/

/-- The sending mesh: nodes of an element and its shape functions (`interpolatePoint`). -/
structure From (K A I B : Type*) where
  n : A → ℕ
  node : (a : A) → Fin (n a) → B
  shape : (a : A) → I → Fin (n a) → K

/-- `interpolatePoint` of one component (LinInterp.h:199-218). -/
def From.value (F : From K A I B) (q : B → K) (a : A) (xi : I) : K := ∑ k, F.shape a xi k * q (F.node a k)

/-- Clipping (LinInterp.h:186-194, 220-223); a field that is not listed has no bounds. -/
def clip : Option (K × K) → K → K
  | none, v => v
  | some (lo, hi), v => min hi (max v lo)

/-- One receiving node, all components of all fields (LinInterp.h:177-224); `q c` is the sending field of component `c`. -/
def applyOne [DecidableEq P] (F : From K A I B) (clips : C → Option (K × K)) (q : C → B → K)
    (recv : P → C → K) (t : P × A × I) : P → C → K :=
  fun p c => if p = t.1 then clip (clips c) (F.value (q c) t.2.1 t.2.2) else recv p c

/-- `LinInterp::apply` (LinInterp.h:146-226). -/
def apply [DecidableEq P] (F : From K A I B) (clips : C → Option (K × K)) (q : C → B → K)
    (map : List (P × A × I)) (recv : P → C → K) : P → C → K :=
  map.foldl (applyOne F clips q) recv

/-! ## When transfers between realms take place -/

/-- Events of a run. -/
inductive Ev (R T : Type*)
  | advance (r : R)
  | xfer (t : T)
  deriving DecidableEq

/-- A realm: `solveFrequency_` and `multiPhysicsTransferVec_` (transfers from this realm). -/
structure RealmCfg (R T : Type*) where
  name : R
  solveFreq : ℕ
  xfers : List T

/-- `active_time_step` (Realm.C:1748-1753). -/
def RealmCfg.active {R T : Type*} (r : RealmCfg R T) (step : ℕ) : Bool := step % r.solveFreq = 0

/-- `advance_time_step(); process_multi_physics_transfer()` of one realm (TimeIntegrator.C:303-306, Realm.C:1684-1687, 4645-4660). -/
def realmPass {R T : Type*} (step : ℕ) (r : RealmCfg R T) : List (Ev R T) :=
  if r.active step then Ev.advance r.name :: r.xfers.map Ev.xfer else []

/-- Picard loop of one step (TimeIntegrator.C:299-308). -/
def stepEvents {R T : Type*} (iters : ℕ) (realms : List (RealmCfg R T)) (step : ℕ) : List (Ev R T) :=
  (List.replicate iters (realms.flatMap (realmPass step))).flatten

/-- Transfers before the first step: only restarted realms (TimeIntegrator.C:225-230). -/
def initialEvents {R T : Type*} (restarted : RealmCfg R T → Bool) (realms : List (RealmCfg R T)) : List (Ev R T) :=
  realms.flatMap fun r => if restarted r then r.xfers.map Ev.xfer else []

/-- A run of `n` steps after `count0`. -/
def runEvents {R T : Type*} (iters : ℕ) (realms : List (RealmCfg R T)) (restarted : RealmCfg R T → Bool) (count0 n : ℕ) :
    List (Ev R T) :=
  initialEvents restarted realms ++ (List.range n).flatMap fun k => stepEvents iters realms (count0 + k + 1)

end Nalu.Xfer
