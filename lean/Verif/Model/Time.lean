import Mathlib.Algebra.Order.Field.Basic

/-!
# Model of the time integrator

Models `/repo/src/TimeIntegrator.C` and the time-step part of `/repo/src/Realm.C`.
Doubles are elements of a linearly ordered field `K` (exact arithmetic), `int` is `ℤ`.
-/

namespace Nalu.Time

variable {K : Type*} [Field K] [LinearOrder K]

/-- Options read by `TimeIntegrator::load`, src/TimeIntegrator.C:61-127.  `none` = key absent.
Simplified: only the keys that influence the time loop. -/
structure Deck (K : Type*) where
  terminationTime : Option K := none
  terminationStepCount : Option ℤ := none
  timeStep : K
  startTime : K
  timeStepCount : ℤ := 0
  secondOrder : Bool := false
  adaptive : Bool := false

/-- Members of `TimeIntegrator` that stay fixed during a run
(constructor defaults src/TimeIntegrator.C:33-52, include/TimeIntegrator.h). -/
structure Cfg (K : Type*) where
  terminateBasedOnTime : Bool
  totalSimTime : K
  maxTimeStepCount : ℤ
  secondOrder : Bool
  adaptive : Bool
  timeStepFromFile : K

/-- Members of `TimeIntegrator` that the run changes. -/
@[ext] structure St (K : Type*) where
  currentTime : K
  timeStepCount : ℤ
  timeStepN : K
  timeStepNm1 : K
  gamma1 : K
  gamma2 : K
  gamma3 : K

/-- Largest `int`, default of `maxTimeStepCount_`. -/
def intMax : ℤ := 2147483647

/-- `TimeIntegrator::load`, src/TimeIntegrator.C:73-100: termination time first, then a
termination step count, if present, prevails. -/
def load (d : Deck K) : Cfg K where
  terminateBasedOnTime :=
    match d.terminationStepCount with
    | some _ => false
    | none => d.terminationTime.isSome
  totalSimTime := d.terminationTime.getD 1
  maxTimeStepCount := d.terminationStepCount.getD intMax
  secondOrder := d.secondOrder
  adaptive := d.adaptive
  timeStepFromFile := d.timeStep

/-- Restart record written by `Realm::provide_restart_output` (src/Realm.C:3814-3837) and
read back by `Realm::populate_restart` (src/Realm.C:3890-3930): database time, and the global
parameters `timeStepNm1`, `timeStepCount`. -/
structure RestartRecord (K : Type*) where
  time : K
  timeStepNm1 : K
  timeStepCount : ℤ

/-- `load`, src/TimeIntegrator.C:87-95, on top of the constructor's weights. -/
def loaded (d : Deck K) : St K :=
  { currentTime := d.startTime
    timeStepCount := d.timeStepCount
    timeStepN := d.timeStep
    timeStepNm1 := d.timeStep
    gamma1 := 1, gamma2 := -1, gamma3 := 0 }

/-- One realm in the restart loop, src/TimeIntegrator.C:179-181 with `Realm::populate_restart`
(src/Realm.C:3890-3930): a realm that does not restart returns the current time; a restarting one
overwrites `timeStepNm1_` and `timeStepCount_` and returns the database time.  Not modelled: the
`restart_reset_time` override and records with missing globals. -/
def populateRestart (s : St K) : Option (RestartRecord K) → St K
  | none => { s with currentTime := max s.currentTime s.currentTime }
  | some r => { s with currentTime := max s.currentTime r.time
                       timeStepNm1 := r.timeStepNm1
                       timeStepCount := r.timeStepCount }

/-- State of the integrator when the time loop is entered: `load`, then the start-up part of
`integrate_realm`, src/TimeIntegrator.C:178-208; `recs` lists, per realm, the restart record it
reads (if it restarts).  `populate_variables_from_input` (line 175) is taken not to change
the time (it does so only when an input-field restoration time is requested). -/
def startUp (d : Deck K) (recs : List (Option (RestartRecord K))) : St K :=
  let s := recs.foldl populateRestart (loaded d)
  { s with timeStepN := if d.adaptive then s.timeStepNm1 else d.timeStep }

/-- `TimeIntegrator::simulation_proceeds`, src/TimeIntegrator.C:366-378. -/
def proceeds (c : Cfg K) (s : St K) : Bool :=
  if c.terminateBasedOnTime then decide (s.currentTime < c.totalSimTime)
  else decide (s.timeStepCount < c.maxTimeStepCount)

/-- `TimeIntegrator::compute_gamma`, src/TimeIntegrator.C:408-422. -/
def computeGamma (s : St K) : St K :=
  if 1 < s.timeStepCount then
    let tau := s.timeStepN / s.timeStepNm1
    { s with
      gamma1 := (1 + 2 * tau) / (1 + tau)
      gamma2 := -(1 + tau)
      gamma3 := tau * tau / (1 + tau) }
  else { s with gamma1 := 1, gamma2 := -1, gamma3 := 0 }

/-- What one realm contributes to the time-step negotiation: target and maximum Courant number,
and the user's change factor (`targetCourant_`, `maxCourant_`, `timeStepChangeFactor_`). -/
structure Courant (K : Type*) where
  target : K
  maxC : K
  factor : K

/-- `Realm::compute_adaptive_time_step`, src/Realm.C:1769-1784, given `get_time_step() = dt`.
In C++ `target/max` with `max = 0` and positive target is `+inf`, so that the `std::min` on line
1780 returns the change factor; this IEEE case is made explicit.  (`target = max = 0`, which
yields a NaN, is not given a meaning: the model returns the change factor there too and theorems
assume a positive target.) -/
def adaptiveDt (c : Courant K) (dt : K) : K :=
  let factorOff := c.target / c.maxC
  let scaling :=
    if c.target < c.maxC then max factorOff (1 / c.factor)
    else if c.maxC = 0 then c.factor
    else min factorOff c.factor
  dt * scaling

/-- Time-step negotiation over all realms, src/TimeIntegrator.C:244-250. -/
def negotiate (cs : List (Courant K)) (dt : K) : K :=
  cs.foldl (fun theStep c => min theStep (adaptiveDt c dt)) 100000000

/-- The part of one pass of the time loop that precedes the physics,
src/TimeIntegrator.C:243-257: this is the state the whole step sees. -/
def beginStep (c : Cfg K) (cs : List (Courant K)) (s : St K) : St K :=
  let s1 := if c.adaptive then { s with timeStepN := negotiate cs s.timeStepN } else s
  let s2 := { s1 with currentTime := s1.currentTime + s1.timeStepN
                      timeStepCount := s1.timeStepCount + 1 }
  if c.secondOrder then computeGamma s2 else s2

/-- End of one pass of the loop, src/TimeIntegrator.C:327. -/
def endStep (s : St K) : St K := { s with timeStepNm1 := s.timeStepN }

/-- One pass of the loop body, src/TimeIntegrator.C:241-328. -/
def step (c : Cfg K) (cs : List (Courant K)) (s : St K) : St K := endStep (beginStep c cs s)

/-- State after `n` passes of the loop body; `inp n` are the Courant data the realms report in
pass `n`. -/
def after (c : Cfg K) (inp : ℕ → List (Courant K)) (s0 : St K) : ℕ → St K
  | 0 => s0
  | n + 1 => step c (inp n) (after c inp s0 n)

/-- Big-step semantics of `while (simulation_proceeds()) body`, src/TimeIntegrator.C:241:
`Runs c inp n s k s'`: entered in state `s` at pass number `n`, the loop executes exactly `k`
passes and leaves in state `s'`. -/
inductive Runs (c : Cfg K) (inp : ℕ → List (Courant K)) : ℕ → St K → ℕ → St K → Prop
  | stop {n s} : proceeds c s = false → Runs c inp n s 0 s
  | pass {n s k s'} : proceeds c s = true → Runs c inp (n + 1) (step c (inp n) s) k s' →
      Runs c inp n s (k + 1) s'

/-- Restart record written from the state seen inside a step (before `endStep`),
src/Realm.C:3814-3820: `get_time_step()` is the *current* step. -/
def record (s : St K) : RestartRecord K :=
  { time := s.currentTime, timeStepNm1 := s.timeStepN, timeStepCount := s.timeStepCount }

/-- `TimeIntegrator::get_total_sim_time`, src/TimeIntegrator.C:471-477. -/
def getTotalSimTime (c : Cfg K) : K := if c.terminateBasedOnTime then c.totalSimTime else -1

/-- `TimeIntegrator::get_max_time_step_count`, src/TimeIntegrator.C:480-486. -/
def getMaxTimeStepCount (c : Cfg K) : ℤ := if c.terminateBasedOnTime then -1 else c.maxTimeStepCount

/-- `TimeIntegrator::get_time_step(state)`, src/TimeIntegrator.C:382-397 and
include/Enums.h `NaluState`; an unknown state throws. -/
def getTimeStep (s : St K) : ℕ → Except String K
  | 0 => .ok s.timeStepN
  | 1 => .ok s.timeStepNm1
  | _ => .error "unknown state"

end Nalu.Time
