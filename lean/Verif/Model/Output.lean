import Verif.Model.Time

/-!
# Model of results output, restart output and IO transfers

Models `/repo/src/Realm.C` (`provide_output`, `provide_restart_output`, `process_io_transfer`,
`output_converged_results`) and `/repo/src/OutputInfo.C`.
-/

namespace Nalu.Output

open Nalu.Time

variable {K : Type*} [Field K] [LinearOrder K]

/-- The `output:` block of the input deck, src/OutputInfo.C:76-142 (keys that influence the
schedule); `none` = key absent. -/
structure OutputBlock (K : Type*) where
  frequency : Option ℤ := none
  start : Option ℤ := none
  forcedWallTime : Option K := none

/-- The `restart:` block of the input deck, src/OutputInfo.C:145-213. -/
structure RestartBlock (K : Type*) where
  frequency : Option ℤ := none
  start : Option ℤ := none
  forcedWallTime : Option K := none
  restartTime : Option K := none

/-- Members of `OutputInfo` used by the schedule, include/OutputInfo.h. -/
structure OutputInfo (K : Type*) where
  hasOutputBlock : Bool
  outputFreq : ℤ
  outputStart : ℤ
  /-- `userWallTimeResults_.first` -/
  wallResultsArmed : Bool
  /-- `userWallTimeResults_.second`, hours -/
  wallResultsLimit : K
  hasRestartBlock : Bool
  restartFreq : ℤ
  restartStart : ℤ
  wallRestartArmed : Bool
  wallRestartLimit : K
  activateRestart : Bool
  restartTime : K

/-- Constructor `OutputInfo::OutputInfo`, src/OutputInfo.C:33-60 (defaults). -/
def OutputInfo.default : OutputInfo K where
  hasOutputBlock := false
  outputFreq := 1
  outputStart := 0
  wallResultsArmed := false
  wallResultsLimit := 1000000
  hasRestartBlock := false
  restartFreq := 500
  restartStart := 500
  wallRestartArmed := false
  wallRestartLimit := 1000000
  activateRestart := false
  restartTime := 0

/-- `OutputInfo::load`, src/OutputInfo.C:75-214. -/
def OutputInfo.load (o : Option (OutputBlock K)) (r : Option (RestartBlock K)) : OutputInfo K :=
  let d : OutputInfo K := OutputInfo.default
  let d1 : OutputInfo K := match o with
    | none => d
    | some b =>
      { d with
        hasOutputBlock := true
        outputFreq := b.frequency.getD d.outputFreq
        outputStart := b.start.getD d.outputStart
        wallResultsArmed := b.forcedWallTime.isSome || d.wallResultsArmed
        wallResultsLimit := b.forcedWallTime.getD d.wallResultsLimit }
  match r with
  | none => d1
  | some b =>
    { d1 with
      hasRestartBlock := true
      restartFreq := b.frequency.getD d1.restartFreq
      restartStart := b.start.getD d1.restartStart
      wallRestartArmed := b.forcedWallTime.isSome || d1.wallRestartArmed
      wallRestartLimit := b.forcedWallTime.getD d1.wallRestartLimit
      activateRestart := b.restartTime.isSome || d1.activateRestart
      restartTime := b.restartTime.getD d1.restartTime }

/-- `stk::all_reduce_max` over all processes: process 0 and the others. -/
def allReduceMax (w0 : K) (ws : List K) : K := ws.foldl max w0

/-- Elapsed wall times in seconds of all processes at one call: process 0 and the others. -/
structure Clock (K : Type*) where
  p0 : K
  others : List K

/-- src/Realm.C:3722-3730 (= 3789-3797): maximum over the processes converted to hours. -/
def Clock.hours (w : Clock K) : K := allReduceMax w.p0 w.others / 3600

/-- `Realm::provide_output`, src/Realm.C:3702-3764: returns the updated info (the wall clock flag
is disarmed when it fires) and whether a results step is written.  C++ `%` is truncated
division. -/
def provideOutput (info : OutputInfo K) (count : ℤ) (w : Clock K) : OutputInfo K × Bool :=
  if info.hasOutputBlock then
    if info.outputFreq = 0 then (info, false)
    else
      let modStep := count - info.outputStart
      let forced := info.wallResultsArmed && decide (info.wallResultsLimit < w.hours)
      let info' := if forced then { info with wallResultsArmed := false } else info
      (info', (decide (info.outputStart ≤ count) && decide (modStep.tmod info.outputFreq = 0))
                || forced)
  else (info, false)

/-- What a restart step holds besides the fields: `Time.RestartRecord` plus the averaging time
`currentTimeFilter`, if turbulence averaging is active (src/Realm.C:3814-3837). -/
structure Restart (K : Type*) where
  times : RestartRecord K
  timeFilter : Option K

/-- `Realm::provide_restart_output`, src/Realm.C:3770-3846, called while the integrator is in
state `s`; `filter` is `turbulenceAveragingPostProcessing_->currentTimeFilter_`. -/
def provideRestartOutput (info : OutputInfo K) (s : St K) (filter : Option K) (w : Clock K) :
    OutputInfo K × Option (Restart K) :=
  if info.hasRestartBlock then
    if info.restartFreq = 0 then (info, none)
    else
      let modStep := s.timeStepCount - info.restartStart
      let forced := info.wallRestartArmed && decide (info.wallRestartLimit < w.hours)
      let info' := if forced then { info with wallRestartArmed := false } else info
      let write := (decide (info.restartStart ≤ s.timeStepCount) &&
          decide (modStep.tmod info.restartFreq = 0)) || forced
      (info', if write then some ⟨record s, filter⟩ else none)
  else (info, none)

/-- What the realm's environment supplies at one call of `output_converged_results`: wall clock at
the results check and at the restart check, and the averaging time. -/
structure Env (K : Type*) where
  clockOut : Clock K
  clockRst : Clock K
  filter : Option K

/-- Files touched by one call. -/
structure Written (K : Type*) where
  results : Option (K × ℤ)
  restart : Option (Restart K)

/-- `Realm::output_converged_results`, src/Realm.C:1759-1763. -/
def outputConvergedResults (info : OutputInfo K) (s : St K) (e : Env K) :
    OutputInfo K × Written K :=
  let r := provideOutput info s.timeStepCount e.clockOut
  let q := provideRestartOutput r.1 s e.filter e.clockRst
  (q.1, ⟨if r.2 then some (s.currentTime, s.timeStepCount) else none, q.2⟩)

/-- State of the integrator seen by the `i`-th call of `output_converged_results` in a run: call 0
at the end of the start-up (src/TimeIntegrator.C:232-234), call `n+1` at the end of pass `n` before
`timeStepNm1_` is updated (lines 319-322). -/
def seen (c : Cfg K) (inp : ℕ → List (Courant K)) (s0 : St K) : ℕ → St K
  | 0 => s0
  | n + 1 => beginStep c (inp n) (after c inp s0 n)

/-- `OutputInfo` of a realm before its `i`-th call of `output_converged_results`. -/
def infoAt (c : Cfg K) (inp : ℕ → List (Courant K)) (s0 : St K) (env : ℕ → Env K)
    (info0 : OutputInfo K) : ℕ → OutputInfo K
  | 0 => info0
  | n + 1 => (outputConvergedResults (infoAt c inp s0 env info0 n) (seen c inp s0 n) (env n)).1

/-- Files written by the `i`-th call. -/
def writtenAt (c : Cfg K) (inp : ℕ → List (Courant K)) (s0 : St K) (env : ℕ → Env K)
    (info0 : OutputInfo K) (i : ℕ) : Written K :=
  (outputConvergedResults (infoAt c inp s0 env info0 i) (seen c inp s0 i) (env i)).2

/-! ### IO transfers -/

/-- `Realm::process_io_transfer`, src/Realm.C:4684-4700: `none` = integer division by zero
(undefined behaviour; a crash), `some b` = transfers executed iff `b`. -/
def processIoTransfer (hasIo : Bool) (freq count : ℤ) : Option Bool :=
  if !hasIo then some false
  else if freq = 0 then none
  else some (decide (count.tmod freq = 0))

/-- What an observer sees of one realm's IO within a run. -/
inductive Ev (K : Type*)
  | ioTransfer (realm : ℕ) (count : ℤ)
  | results (realm : ℕ) (count : ℤ)
  | restart (realm : ℕ) (r : Restart K)

/-- A realm of the integrator's `realmVec_`: its output info and `hasIoTransfer_`. -/
structure RealmIO (K : Type*) where
  info : OutputInfo K
  hasIo : Bool

/-- IO-transfer loop over the realms, src/TimeIntegrator.C:189-191 and 315-317, starting with
realm number `k`. -/
def ioPhase (count : ℤ) : ℕ → List (RealmIO K) → Option (List (Ev K))
  | _, [] => some []
  | k, r :: rs =>
    match processIoTransfer r.hasIo r.info.outputFreq count, ioPhase count (k + 1) rs with
    | some b, some es => some ((if b then [Ev.ioTransfer k count] else []) ++ es)
    | _, _ => none

/-- Events of one realm's `output_converged_results`. -/
def writtenEvents (k : ℕ) (w : Written K) : List (Ev K) :=
  (match w.results with | some p => [Ev.results k p.2] | none => []) ++
  (match w.restart with | some r => [Ev.restart k r] | none => [])

/-- Output loop over the realms, src/TimeIntegrator.C:232-234 and 319-322.  Simplified: one clock
reading and averaging time `e` is used for all realms of the pass. -/
def outPhase (s : St K) (e : Env K) : ℕ → List (RealmIO K) → List (RealmIO K) × List (Ev K)
  | _, [] => ([], [])
  | k, r :: rs =>
    let w := outputConvergedResults r.info s e
    let q := outPhase s e (k + 1) rs
    ({ r with info := w.1 } :: q.1, writtenEvents k w.2 ++ q.2)

/-- IO part of the start-up or of one pass of the time loop: transfers, then output. -/
def ioPass (s : St K) (e : Env K) (rs : List (RealmIO K)) : Option (List (RealmIO K) × List (Ev K)) :=
  match ioPhase s.timeStepCount 0 rs with
  | none => none
  | some es => let q := outPhase s e 0 rs; some (q.1, es ++ q.2)

/-- Trace of the start-up and of the first `n` passes: `ioTrace … n` has called `ioPass` for the
states `seen 0 … seen n`; `none` = the run crashed. -/
def ioTrace (c : Cfg K) (inp : ℕ → List (Courant K)) (s0 : St K) (env : ℕ → Env K)
    (rs : List (RealmIO K)) : ℕ → Option (List (RealmIO K) × List (Ev K))
  | 0 => ioPass (seen c inp s0 0) (env 0) rs
  | n + 1 =>
    match ioTrace c inp s0 env rs n with
    | none => none
    | some (rs', es) =>
      match ioPass (seen c inp s0 (n + 1)) (env (n + 1)) rs' with
      | none => none
      | some (rs'', es') => some (rs'', es ++ es')

end Nalu.Output
