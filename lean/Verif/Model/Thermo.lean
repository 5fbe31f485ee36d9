import Mathlib.Algebra.Order.Field.Basic
import Mathlib.Algebra.BigOperators.Fin
import Mathlib.Analysis.SpecialFunctions.Pow.Real

/-!
# Model of the property evaluators and of the temperature extraction

`double` is a linearly ordered field `K` (or `ℝ` where `std::pow(.,1.5)`/`std::sqrt` occur).  A
species loop `for k` accumulating `sum += f k` from `0.0` is `sumLoop`, the left fold over
`List.finRange n`; `std::map` containers are already flattened to vectors indexed by `Fin n`, in
the iteration order of the constructors.
-/

namespace Verif.Thermo

/-- `double sum = 0.0; for (k = 0; k < n; ++k) sum += f(k);` — the species loop used by every
evaluator of this file. -/
def sumLoop {K : Type*} [Zero K] [Add K] {n : ℕ} (f : Fin n → K) : K :=
  (List.finRange n).foldl (fun s k => s + f k) 0

section Field
variable {K : Type*} [Field K] [LinearOrder K]

/-- src/property_evaluator/IdealGasPropertyEvaluator.C:126-137 (`compute_mw`), same loop in the
constructors :31-46, :149-168, :279-295 and in `compute_mw` :250-261. -/
def computeMw {n : ℕ} (mw Y : Fin n → K) : K :=
  1 / sumLoop fun k => Y k / mw k

/-- src/property_evaluator/IdealGasPropertyEvaluator.C: the five `execute` bodies (:59-66
`pRef_*mwRef_/R_/T`, :112-121, :180-188, :237-245, :302-308) all return `P*mw/R/T`; they differ in
where `P`, `T`, `Y` come from (field, reference data, independent variable). -/
def idealGasDensity {n : ℕ} (P R T : K) (mw Y : Fin n → K) : K :=
  P * computeMw mw Y / R / T

/-- src/property_evaluator/SutherlandsPropertyEvaluator.C:109-121
`mole_fraction_from_mass_fraction`. -/
def moleFraction {n : ℕ} (mw Y : Fin n → K) : Fin n → K :=
  let totalMole := sumLoop fun k => Y k / mw k
  fun k => Y k / mw k / totalMole

/-- src/property_evaluator/SpecificHeatPropertyEvaluator.C:90-101, :165-175 `compute_cp_r`. -/
def computeCpR (T : K) (p : Fin 6 → K) : K :=
  p 0 + p 1 * T + p 2 * T * T + p 3 * T * T * T + p 4 * T * T * T * T

/-- src/property_evaluator/EnthalpyPropertyEvaluator.C:88-101, :163-176 `compute_h_rt`. -/
def computeHRt (T : K) (p : Fin 6 → K) : K :=
  p 0 + p 1 * T / 2 + p 2 * T * T / 3 + p 3 * T * T * T / 4 + p 4 * T * T * T * T / 5 + p 5 / T

/-- Data of `PolynomialPropertyEvaluator` (PolynomialPropertyEvaluator.C:27-80): `TlowHigh_` is
`1000.0`, kept as a parameter. -/
structure PolyEval (K : Type*) (n : ℕ) where
  universalR : K
  tLowHigh : K
  mw : Fin n → K
  low : Fin n → Fin 6 → K
  high : Fin n → Fin 6 → K

/-- src/property_evaluator/SpecificHeatPropertyEvaluator.C:64-85, :137-160 `execute`
(`Y` is the reference mass fraction or the nodal one). -/
def specificHeat {n : ℕ} (e : PolyEval K n) (Y : Fin n → K) (T : K) : K :=
  (if T < e.tLowHigh then sumLoop fun k => Y k * computeCpR T (e.low k) / e.mw k
   else sumLoop fun k => Y k * computeCpR T (e.high k) / e.mw k) * e.universalR

/-- src/property_evaluator/EnthalpyPropertyEvaluator.C:65-83, :137-158 `execute`. -/
def enthalpy {n : ℕ} (e : PolyEval K n) (Y : Fin n → K) (T : K) : K :=
  (if T < e.tLowHigh then sumLoop fun k => Y k * computeHRt T (e.low k) / e.mw k
   else sumLoop fun k => Y k * computeHRt T (e.high k) / e.mw k) * e.universalR * T

/-- src/property_evaluator/EnthalpyPropertyEvaluator.C:205-212
`EnthalpyConstSpecHeatPropertyEvaluator::execute`. -/
def enthalpyConstCp (cp tRef T : K) : K := cp * (T - tRef)

/-- src/property_evaluator/EnthalpyPropertyEvaluator.C:266-282
`EnthalpyConstCpkPropertyEvaluator::execute`. -/
def enthalpyConstCpk {n : ℕ} (cp hf Y : Fin n → K) (tRef T : K) : K :=
  sumLoop fun k => Y k * (cp k * (T - tRef) + hf k)

/-- src/property_evaluator/SpecificHeatPropertyEvaluator.C:217-232
`SpecificHeatConstCpkPropertyEvaluator::execute`. -/
def specificHeatConstCpk {n : ℕ} (cp Y : Fin n → K) : K := sumLoop fun k => Y k * cp k

/-- src/property_evaluator/WaterPropertyEvaluator.C:50-58 density correlation (constants :33-35). -/
def waterDensity (T : K) : K := 765.33 + T * (1.8142 + T * (-3.5e-3))

/-- src/property_evaluator/WaterPropertyEvaluator.C:93-101 viscosity correlation. -/
def waterViscosity (T : K) : K :=
  9.67e-2 + T * (-8.207e-4 + T * (2.344e-6 + T * (-2.244e-9)))

/-- src/property_evaluator/WaterPropertyEvaluator.C:134-142 specific heat correlation. -/
def waterCp (T : K) : K :=
  (28.07 + T * (-2.817e-1 + T * (1.25e-3 + T * (-2.48e-6 + T * 1.857e-9)))) * 1000

/-- src/property_evaluator/WaterPropertyEvaluator.C:190-196 `compute_h`. -/
def waterComputeH (T : K) : K :=
  T * (28.07 + T * (-2.817e-1 / 2 + T * (1.25e-3 / 3 + T * (-2.48e-6 / 4 + T * 1.857e-9 / 5)))) * 1000

/-- src/property_evaluator/WaterPropertyEvaluator.C:176-186 `execute`; `hRef_` from the
constructor :152-160 with `Tref_ = 300`. -/
def waterEnthalpy (T : K) : K :=
  waterComputeH T - waterComputeH 300
    + (28.07 + 300 * (-2.817e-1 + 300 * (1.25e-3 + 300 * (-2.48e-6 + 300 * 1.857e-9)))) * 1000 * 300

/-! ### Temperature extraction -/

/-- The Newton loop of `EnthalpyEquationSystem::extract_temperature`
(src/EnthalpyEquationSystem.C:1232-1254) with `fuel` iterations left; returns `TNp1` and
`convergedT`. -/
def newtonLoop (h cp : K → K) (hNp1 tolerance : K) : ℕ → K → K × Bool
  | 0, T => (T, false)
  | fuel + 1, T =>
    let tDiff := (hNp1 - h T) / cp T
    let T' := T + tDiff
    if |tDiff| < T' * tolerance then (T', true) else newtonLoop h cp hNp1 tolerance fuel T'

/-- Outcome at one node of `extract_temperature`. -/
structure Extracted (K : Type*) where
  /-- stored temperature -/
  T : K
  /-- stored enthalpy -/
  h : K
  notConverged : Bool
  tooLow : Bool
  tooHigh : Bool

/-- src/EnthalpyEquationSystem.C:1219-1286, one node: Newton iteration, clipping, resetting.
`maxIter = 25`, `tolerance = 1.0e-8`, `relax = 1.0` in the code (:1182-1186); the first two are
parameters, and so is `relax`. -/
def extractTemperature (h cp : K → K) (minT maxT tolerance relax : K) (maxIter : ℕ)
    (tSave hNp1 : K) : Extracted K :=
  let r := newtonLoop h cp hNp1 tolerance maxIter tSave
  let low := decide (r.1 < minT)
  let T1 := if low then minT else r.1
  let high := decide (maxT < T1)
  let T2 := if high then maxT else T1
  if !r.2 || low || high then
    let troubleT := T2 * relax + (1 - relax) * tSave
    ⟨troubleT, h troubleT, !r.2, low, high⟩
  else ⟨T2, hNp1, !r.2, low, high⟩

end Field

/-! ### Sutherland viscosity (needs `ℝ`) -/

/-- src/property_evaluator/SutherlandsPropertyEvaluator.C:126-136 `compute_viscosity`. -/
noncomputable def sutherland (muRef TRef SRef T : ℝ) : ℝ :=
  muRef * (T / TRef) ^ (1.5 : ℝ) * (TRef + SRef) / (T + SRef)

/-- The Herning–Zipperer mixing loop shared by the four `execute` bodies
(src/property_evaluator/SutherlandsPropertyEvaluator.C:164-183, :213-234, :267-287, :319-336);
`mu k` is the species viscosity. -/
noncomputable def herningZipperer {n : ℕ} (mw X mu : Fin n → ℝ) : ℝ :=
  (sumLoop fun k => mu k * X k * √(mw k)) / (sumLoop fun k => X k * √(mw k))

/-- src/property_evaluator/SutherlandsPropertyEvaluator.C:164-336: mole fractions followed by the
mixing loop; `T` is the independent variable or the reference temperature, `Y` the nodal or the
reference mass fraction. -/
noncomputable def sutherlandMixture {n : ℕ} (mw Y muRef TRef SRef : Fin n → ℝ) (T : ℝ) : ℝ :=
  herningZipperer mw (moleFraction mw Y) fun k => sutherland (muRef k) (TRef k) (SRef k) T

end Verif.Thermo
