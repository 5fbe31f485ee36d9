import Mathlib.Algebra.Order.Field.Basic
import Mathlib.Algebra.BigOperators.Group.List.Basic

/-!
# Model of nonlinear-iteration control, convergence checks, statistics and field states

Models parts of `/repo/src/Realm.C`, `/repo/src/EquationSystems.C`, `/repo/src/EquationSystem.C`,
`/repo/src/TimeIntegrator.C`.
-/

namespace Nalu.Control

variable {K : Type*} [Field K] [LinearOrder K]

/-! ### Convergence and norms -/

/-- What the convergence checks see of an equation system, src/EquationSystem.C:130-173:
`linsys = none` models `linsys_ == NULL`, else (scaled nonlinear residual, nonlinear residual). -/
structure EqSys (K : Type*) where
  linsys : Option (K × K)
  tolerance : K

/-- `EquationSystem::system_is_converged`, src/EquationSystem.C:130-137. -/
def EqSys.isConverged (e : EqSys K) : Bool :=
  match e.linsys with
  | none => true
  | some r => decide (r.1 < e.tolerance)

/-- `EquationSystem::provide_scaled_norm`, src/EquationSystem.C:151-154. -/
def EqSys.scaledNorm (e : EqSys K) : K := match e.linsys with | some r => r.1 | none => 0

/-- `EquationSystem::provide_norm`, src/EquationSystem.C:160-163. -/
def EqSys.norm (e : EqSys K) : K := match e.linsys with | some r => r.2 | none => 0

/-- `EquationSystem::provide_norm_increment`, src/EquationSystem.C:169-172. -/
def EqSys.normIncrement (e : EqSys K) : K := match e.linsys with | some _ => 1 | none => 0

/-- Convergence loop at the end of `EquationSystems::solve_and_update`,
src/EquationSystems.C:838-846. -/
def overallConvergence (es : List (EqSys K)) : Bool :=
  es.foldl (fun ok e => if !e.isConverged then false else ok) true

/-- `EquationSystems::provide_system_norm`, src/EquationSystems.C:854-861. -/
def systemNorm (es : List (EqSys K)) : K :=
  es.foldl (fun m e => max m e.scaledNorm) (-10000000000000000)

/-- `EquationSystems::provide_mean_system_norm`, src/EquationSystems.C:867-877; `none` = 0/0 (NaN). -/
def meanSystemNorm (es : List (EqSys K)) : Option K :=
  let s := es.foldl (fun (p : K × K) e => (p.1 + e.norm, p.2 + e.normIncrement)) (0, 0)
  if s.2 = 0 then none else some (s.1 / s.2)

/-- `TimeIntegrator::provide_mean_norm`, src/TimeIntegrator.C:345-362: for each realm whether its type
is "multi_physics", and its mean norm. -/
def reportedMeanNorm (realms : List (Bool × K)) : K :=
  let s := realms.foldl (fun (p : K × ℕ) r => if r.1 then (p.1 + r.2, p.2 + 1) else p) (0, 0)
  s.1 / ((max 1 s.2 : ℕ) : K)

/-! ### Linear-iteration statistics -/

/-- Statistics members of `EquationSystem` (constructor src/EquationSystem.C:36-75). -/
structure Stats (K : Type*) where
  avg : K
  minI : K
  maxI : K
  count : ℕ

/-- Initial and reset values, src/EquationSystem.C:57-61 and 227-230. -/
def Stats.reset : Stats K := ⟨0, 10000000000, 0, 0⟩

/-- `EquationSystem::update_iteration_statistics`, src/EquationSystem.C:237-247. -/
def Stats.update (s : Stats K) (iters : ℤ) : Stats K where
  avg := (s.count * s.avg + (iters : K)) / (s.count + 1)
  maxI := max s.maxI (iters : K)
  minI := min s.minI (iters : K)
  count := s.count + 1

/-- What happens to the statistics during a run: a linear solve (`assemble_and_solve`,
src/EquationSystem.C:302) or a report (`dump_eq_time`, lines 179-231). -/
inductive StatOp
  | solve (iters : ℤ)
  | dump

/-- Effect of one operation. -/
def Stats.op (s : Stats K) : StatOp → Stats K
  | .solve i => s.update i
  | .dump => Stats.reset

/-! ### Nonlinear iteration control -/

/-- `Realm::active_time_step`, src/Realm.C:1748-1753; `none` = modulo by zero (undefined). -/
def activeTimeStep (count solveFrequency : ℤ) : Option Bool :=
  if solveFrequency = 0 then none else some (decide (count.tmod solveFrequency = 0))

/-- One sweep performed: its number (from 1, `currentNonlinearIteration_`), the flag
`isFinalOuterIter_` during the sweep and whether it converged. -/
structure Sweep where
  number : ℕ
  finalOuter : Bool
  converged : Bool
  deriving DecidableEq

/-- Loop `for (i < maxIterations_)` of `Realm::advance_time_step`, src/Realm.C:1720-1740, entered with
loop counter `i`.  `sweep` is `equationSystems_.solve_and_update()` followed by
`evaluate_properties()`: an arbitrary state transformer that reports overall convergence. -/
def sweepLoop {σ : Type*} (sweep : σ → σ × Bool) (maxIt : ℕ) (i : ℕ) (s : σ) : σ × List Sweep :=
  if i < maxIt then
    let r := sweep s
    let sw : Sweep := ⟨i + 1, decide (i + 1 = maxIt), r.2⟩
    if r.2 then (r.1, [sw])
    else
      let q := sweepLoop sweep maxIt (i + 1) r.1
      (q.1, sw :: q.2)
  else (s, [])
  termination_by maxIt - i

/-- `Realm::advance_time_step`, src/Realm.C:1683-1742; `maxIterations_` is an `int`, a negative
value gives no pass.  Not modelled: the geometry, property and actuator updates before the loop
(part of the state transformer's start state). -/
def advanceTimeStep {σ : Type*} (sweep : σ → σ × Bool) (maxIt count solveFrequency : ℤ) (s : σ) :
    Option (σ × List Sweep) :=
  match activeTimeStep count solveFrequency with
  | none => none
  | some false => some (s, [])
  | some true => some (sweepLoop sweep maxIt.toNat 0 s)

/-! ### Multi-state fields -/

/-- Buffers of a field with states, newest first: `[NP1, N]` or `[NP1, N, NM1]`
(`Realm::number_of_states`, src/Realm.C:4599-4603). -/
def numberOfStates (secondOrder : Bool) : ℕ := if secondOrder then 3 else 2

/-- `Realm::swap_states` = `BulkData::update_field_data_states` (src/Realm.C:3852-3855): the buffers
rotate; the oldest one becomes the new NP1. -/
def swapStates {V : Type*} : List V → List V
  | [] => []
  | a :: l => ((a :: l).getLast (by simp)) :: (a :: l).dropLast

/-- `predict_state` of an equation system (e.g. src/LowMachEquationSystem.C:2255-2261): copy state N
into NP1.  `predicted = false` models a state field without a predictor (density:
no `predict_state` copies it). -/
def predictState {V : Type*} (predicted : Bool) : List V → List V
  | p :: n :: l => (if predicted then n else p) :: n :: l
  | l => l

/-- What one time step does to the buffers of a field, src/TimeIntegrator.C:268-321: swap, predict,
then any number of updates of NP1 (boundary data, solver updates, property evaluations of all
nonlinear iterations) in sequence. -/
def fieldStep {V : Type*} (predicted : Bool) (updates : List (V → V)) (b : List V) : List V :=
  match predictState predicted (swapStates b) with
  | [] => []
  | p :: l => updates.foldl (fun v f => f v) p :: l

/-- Buffers after `n` time steps. -/
def fieldAfter {V : Type*} (predicted : Bool) (updates : ℕ → List (V → V)) (b : List V) : ℕ → List V
  | 0 => b
  | n + 1 => fieldStep predicted (updates n) (fieldAfter predicted updates b n)

/-! ### Mass-fraction clipping -/

/-- `MassFractionEquationSystem::compute_nth_mass_fraction`, src/MassFractionEquationSystem.C:784-824,
at one node: `y` are the first n−1 mass fractions; the result are all n.  (`1.0+1.0e-16` is exactly
`1.0` in double arithmetic; here it is exact.) -/
def clipOne (y : K) : K :=
  let lowerBound : K := 1 / 10000000000000000
  let upperBound := 1 + lowerBound
  min upperBound (max lowerBound y)

/-- See `clipOne`. -/
def computeNthMassFraction (y : List K) : List K :=
  let s := y.foldl (fun (p : K × List K) yi => (p.1 + clipOne yi, p.2 ++ [clipOne yi])) (0, [])
  s.2 ++ [1 - s.1]

end Nalu.Control
