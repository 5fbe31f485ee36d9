import Mathlib.Algebra.Order.Field.Basic
import Mathlib.Algebra.BigOperators.Group.List.Basic

/-!
# Model of the averaging post-processors

Models `/repo/src/TurbulenceAveragingPostProcessing.C` and `/repo/src/MovingAveragePostProcessor.C`.
All formulas are for one node; the C++ loops apply them to every node of the selected buckets.
-/

namespace Nalu.Averaging

variable {K : Type*} [Field K] [LinearOrder K]

/-! ### Exponential moving average -/

/-- `ExponentialMovingAverager`, src/MovingAveragePostProcessor.C:35-62. -/
structure Averager (K : Type*) where
  timeScale : K
  isInit : Bool

/-- `compute_and_set_alpha`, src/MovingAveragePostProcessor.C:43-47 (the assertion on the time step
is not modelled; theorems assume a positive step). -/
def Averager.alpha (a : Averager K) (dt : K) : K := if a.isInit then 1 else min 1 (dt / a.timeScale)

/-- `compute_updated_average`, src/MovingAveragePostProcessor.C:49-53. -/
def updatedAverage (alpha oldAvg newVal : K) : K := alpha * newVal + (1 - alpha) * oldAvg

/-- `MovingAveragePostProcessor::execute`, src/MovingAveragePostProcessor.C:96-123, for one value:
new averager state and new average. -/
def Averager.execute (a : Averager K) (dt oldAvg newVal : K) : Averager K × K :=
  ({ a with isInit := false }, updatedAverage (a.alpha dt) oldAvg newVal)

/-- `set_time_scale`, src/MovingAveragePostProcessor.C:89-92. -/
def Averager.make (timeScale : K) (isRestarted : Bool) : Averager K := ⟨timeScale, !isRestarted⟩

/-- A history of executes. -/
def Averager.run (p : Averager K × K) (h : List (K × K)) : Averager K × K :=
  h.foldl (fun p s => p.1.execute s.1 p.2 s.2) p

/-! ### Turbulence averaging: the filter clock -/

/-- `averagingType_`, include/TurbulenceAveragingPostProcessing.h. -/
inductive AvgType
  | classic
  | movingExponential

/-- Filter members of the class (constructor src/TurbulenceAveragingPostProcessing.C:54-66). -/
structure Filter (K : Type*) where
  current : K
  forcedReset : Bool

/-- What a pass through `execute` hands to the accumulations: `oldTimeFilter`, `zeroCurrent`,
`currentTimeFilter_`, `dt`. -/
structure Weights (K : Type*) where
  old : K
  zero : K
  cur : K
  dt : K

/-- Filter update, src/TurbulenceAveragingPostProcessing.C:643-665. -/
def Filter.advance (ty : AvgType) (interval dt : K) (f : Filter K) : Filter K × Weights K :=
  match ty with
  | .classic =>
    let reset := decide (interval < f.current + dt) || f.forcedReset
    let zero : K := if reset then 0 else 1
    let cur := if reset then dt else f.current + dt
    (⟨cur, false⟩, ⟨f.current, zero, cur, dt⟩)
  | .movingExponential =>
    let timeFilter := f.current + dt
    let cur := if interval < timeFilter then interval else timeFilter
    let old := if interval < timeFilter then interval - dt else f.current
    let zero : K := if f.forcedReset then 0 else 1
    (⟨cur, false⟩, ⟨old, zero, cur, dt⟩)

/-! ### Accumulations at one node -/

/-- Reynolds average, src/TurbulenceAveragingPostProcessing.C:716-720 (also
`compute_mean_error_indicator`, line 1557). -/
def reynolds (w : Weights K) (avg prim : K) : K := (avg * w.old * w.zero + prim * w.dt) / w.cur

/-- Favre average, src/TurbulenceAveragingPostProcessing.C:735-738; `oldRhoRA` is the Reynolds
averaged density before, `rhoRA` after this pass. -/
def favre (w : Weights K) (oldRhoRA rhoRA rho avg prim : K) : K :=
  (avg * oldRhoRA * w.old * w.zero + prim * rho * w.dt) / w.cur / rhoRA

/-- "Resolved" average, src/TurbulenceAveragingPostProcessing.C:749-752; also the update of
`temperature_resolved_flux` (line 1052, with `prim = ui*T`) and of `resolved_stress`
(lines 1109-1111, `prim = ui*uj`). -/
def resolved (w : Weights K) (rho avg prim : K) : K :=
  (avg * w.old * w.zero + rho * prim * w.dt) / w.cur

/-- `compute_tke`, src/TurbulenceAveragingPostProcessing.C:868-874. -/
def tke (u uA : List K) : K :=
  (List.zip u uA).foldl (fun s p => s + 1 / 2 * (p.1 - p.2) * (p.1 - p.2)) 0

/-- `compute_reynolds_stress`, src/TurbulenceAveragingPostProcessing.C:919-934, one component;
`uiA`, `ujA` are the already updated Reynolds averages. -/
def reynoldsStress (w : Weights K) (stress ui uj uiA ujA : K) : K :=
  let uiAOld := (w.cur * uiA - ui * w.dt) / w.old
  let ujAOld := (w.cur * ujA - uj * w.dt) / w.old
  ((stress + uiAOld * ujAOld) * w.old * w.zero + ui * uj * w.dt) / w.cur - uiA * ujA

/-- `compute_favre_stress`, src/TurbulenceAveragingPostProcessing.C:984-1011, one component.  The
stored value is `none` when it is a NaN: line 998 divides by `rhoAOld`, and once NaN the value stays
NaN because it is multiplied by `zeroCurrent`, also when that is zero. -/
def favreStress (w : Weights K) (stress : Option K) (rho rhoA ui uj uiA ujA : K) : Option K :=
  let rhoAOld := (w.cur * rhoA - rho * w.dt) / w.old
  if rhoAOld = 0 then none
  else stress.map fun s =>
    let rhoAOldByRhoA := rhoAOld / rhoA
    let rhoByRhoA := rho / rhoA
    let uiAOld := (w.cur * rhoA * uiA - rho * ui * w.dt) / w.old / rhoAOld
    let ujAOld := (w.cur * rhoA * ujA - rho * uj * w.dt) / w.old / rhoAOld
    ((s + uiAOld * ujAOld) * rhoAOldByRhoA * w.old * w.zero + rhoByRhoA * ui * uj * w.dt) / w.cur
      - uiA * ujA

/-- `compute_temperature_resolved_flux`, src/TurbulenceAveragingPostProcessing.C:1049-1056: the
variance update sits inside the loop over the `nDim` velocity components. -/
def tempVariance (nDim : ℕ) (w : Weights K) (rho T var : K) : K :=
  (List.range nDim).foldl (fun v _ => (v * w.old * w.zero + rho * T * T * w.dt) / w.cur) var

/-- The temperature-variance part of `execute` (src/TurbulenceAveragingPostProcessing.C:643-665 and
810-812) over one sample `(dt, rho, T)`, classic filter. -/
def executeTemp (nDim : ℕ) (interval : K) (st : Filter K × K) (s : K × K × K) : Filter K × K :=
  let r := st.1.advance .classic interval s.1
  (r.1, if 0 < r.2.old then tempVariance nDim r.2 s.2.1 s.2.2 st.2 else st.2)

/-- Index of the (i,j) entry, i ≤ j, in the packed symmetric storage: value of `componentCount` in
the double loops, e.g. src/TurbulenceAveragingPostProcessing.C:917-935. -/
def packedPairs (nDim : ℕ) : List (ℕ × ℕ) :=
  (List.range nDim).flatMap fun i => (List.range' i (nDim - i)).map fun j => (i, j)

/-- One pass of `execute` at one node, what is sampled: time, step, density and primitives. -/
structure Sample (ι K : Type*) where
  time : K
  dt : K
  rho : K
  q : ι → K

/-- Averages kept at one node. -/
structure Node (ι K : Type*) where
  rhoRA : K
  ra : ι → K
  fa : ι → K
  resolvedAvg : ι → K
  rStress : ι → ι → K
  fStress : ι → ι → Option K
  resStress : ι → ι → K

/-- All fields zero, as allocated (STK zero-initialises registered fields). -/
def Node.init {ι : Type*} : Node ι K := ⟨0, fun _ => 0, fun _ => 0, fun _ => 0, fun _ _ => 0, fun _ _ => some 0,
  fun _ _ => 0⟩

/-- `TurbulenceAveragingPostProcessing::execute`, src/TurbulenceAveragingPostProcessing.C:634-826, at
one node: nothing before the start time; filter update; Reynolds, Favre and resolved averages; and,
if `oldTimeFilter > 0`, the stresses (computed with the updated averages).
Simplified: symmetric stresses are kept as functions of (i,j) instead of packed storage. -/
def execute {ι : Type*} (ty : AvgType) (start interval : K) (st : Filter K × Node ι K) (s : Sample ι K) :
    Filter K × Node ι K :=
  if start ≤ s.time then
    let r := st.1.advance ty interval s.dt
    let w := r.2
    let n := st.2
    let rhoRA := reynolds w n.rhoRA s.rho
    let ra := fun i => reynolds w (n.ra i) (s.q i)
    let fa := fun i => favre w n.rhoRA rhoRA s.rho (n.fa i) (s.q i)
    let res := fun i => resolved w s.rho (n.resolvedAvg i) (s.q i)
    let doStress := decide (0 < w.old)
    (r.1,
      { rhoRA := rhoRA
        ra := ra
        fa := fa
        resolvedAvg := res
        rStress := fun i j => if doStress then
          reynoldsStress w (n.rStress i j) (s.q i) (s.q j) (ra i) (ra j) else n.rStress i j
        fStress := fun i j => if doStress then
          favreStress w (n.fStress i j) s.rho rhoRA (s.q i) (s.q j) (fa i) (fa j) else n.fStress i j
        resStress := fun i j => if doStress then
          resolved w s.rho (n.resStress i j) (s.q i * s.q j) else n.resStress i j })
  else st

/-- A whole history of executes. -/
def run {ι : Type*} (ty : AvgType) (start interval : K) (st : Filter K × Node ι K) (h : List (Sample ι K)) :
    Filter K × Node ι K := h.foldl (execute ty start interval) st

/-! ### Subfilter stress -/

/-- `compute_sfs_stress`, src/TurbulenceAveragingPostProcessing.C:1167-1196, entry (i,j) of bucket-local
node `k`, from the bucket's flat arrays: the stride used to address the velocity gradient of node `k` is
`offSet = 6` although a node holds `nDim*nDim` entries. `sfstke` is the subfilter kinetic energy
(`turbulent_ke`). -/
def sfsStress (nDim : ℕ) (w : Weights K) (old : K) (turbNu density sfstke : ℕ → K) (dudx : ℕ → K)
    (k i j : ℕ) : K :=
  let offSet := 6
  let divU := (List.range nDim).foldl (fun s j => s + dudx (k * offSet + (nDim * j + j))) 0
  let divUTerm := if i = j then 2 / 3 * divU else 0
  let sfsTKEterm := if i = j then 2 / 3 * density k * sfstke k else 0
  (old * w.old * w.zero - w.dt * (turbNu k * (dudx (k * offSet + (nDim * i + j)) +
    dudx (k * offSet + (nDim * j + i)) - divUTerm) - sfsTKEterm)) / w.cur

/-! ### Vortex identification -/

/-- `compute_vorticity`, src/TurbulenceAveragingPostProcessing.C:1279-1294 (three dimensions);
`a i j` is `dudx[i][j] = ∂u_i/∂x_j`. -/
def vorticity (a : Fin 3 → Fin 3 → K) : Fin 3 → K
  | 0 => a 2 1 - a 1 2
  | 1 => a 0 2 - a 2 0
  | 2 => a 1 0 - a 0 1

/-- `compute_q_criterion`, src/TurbulenceAveragingPostProcessing.C:1327-1351 (three dimensions). -/
def qCriterion3 (a : Fin 3 → Fin 3 → K) : K :=
  let l : List (Fin 3) := [0, 1, 2]
  let s := l.foldl (fun (p : K × K) i => l.foldl (fun (p : K × K) j =>
    let rateOfStrain := 1 / 2 * (a i j + a j i)
    let vort := 1 / 2 * (a i j - a j i)
    (p.1 + rateOfStrain * rateOfStrain, p.2 + vort * vort)) p) (0, 0)
  let divergence := a 0 0 + a 1 1 + a 2 2
  1 / 2 * (s.2 - s.1) + 1 / 2 * (divergence * divergence)

/-- `compute_q_criterion`, two dimensions. -/
def qCriterion2 (a : Fin 2 → Fin 2 → K) : K :=
  let l : List (Fin 2) := [0, 1]
  let s := l.foldl (fun (p : K × K) i => l.foldl (fun (p : K × K) j =>
    let rateOfStrain := 1 / 2 * (a i j + a j i)
    let vort := 1 / 2 * (a i j - a j i)
    (p.1 + rateOfStrain * rateOfStrain, p.2 + vort * vort)) p) (0, 0)
  let divergence := a 0 0 + a 1 1
  1 / 2 * (s.2 - s.1) + 1 / 2 * (divergence * divergence)

end Nalu.Averaging
