import Mathlib.Analysis.SpecialFunctions.Log.Basic
import Mathlib.Analysis.Real.Sqrt
import Mathlib.Algebra.BigOperators.Fin

/-!
# Wall functions

Models src/ComputeWallFrictionVelocityAlgorithm.C, src/AssembleMomentumEdgeWallFunctionSolverAlgoirthm.C,
src/WallFunctionParamsAlgorithmDriver.C, src/ComputeTurbKineticEnergyWallFunctionAlgorithm.C,
src/Compute{LowReynoldsSDR,WallModelSDR,WallModelTurbDissipation}WallAlgorithm.C and the wall-distance clip of
src/ShearStressTransportEquationSystem.C.  `double` is `ℝ`; one boundary integration point at a time; the
interpolation to the point (shape functions) is the input.
-/

namespace Nalu.Wall

/-- `aMag` of an area vector (ComputeWallFrictionVelocityAlgorithm.C:221-229). -/
noncomputable def aMag {n : ℕ} (a : Fin n → ℝ) : ℝ := Real.sqrt (∑ j, a j * a j)

/-- `p_unitNormal` (ComputeWallFrictionVelocityAlgorithm.C:250, 253). -/
noncomputable def unitNormal {n : ℕ} (a : Fin n → ℝ) : Fin n → ℝ := fun j => a j / aMag a

/-- `ypBip` (ComputeWallFrictionVelocityAlgorithm.C:247-256; the same lines in
ShearStressTransportEquationSystem.C:421-427 and the SDR wall algorithms): `xR` is the wall node, `xL` the
opposing node. -/
noncomputable def wallDistance {n : ℕ} (a xL xR : Fin n → ℝ) : ℝ :=
  Real.sqrt (∑ j, a j / aMag a * (1 / 4 * (xR j - xL j)) * (a j / aMag a) * (1 / 4 * (xR j - xL j)))

/-- `uiTan` (ComputeWallFrictionVelocityAlgorithm.C:268-281, AssembleMomentumEdgeWallFunctionSolverAlgoirthm.C:
206-221), `nrm` the unit normal. -/
def tangential {n : ℕ} (nrm u : Fin n → ℝ) (i : Fin n) : ℝ :=
  ∑ j, if i = j then (1 - nrm i * nrm j) * u j else -(nrm i * nrm j * u j)

/-- `uTangential` (ComputeWallFrictionVelocityAlgorithm.C:265-284). -/
noncomputable def tangentialSpeed {n : ℕ} (nrm u uBc : Fin n → ℝ) : ℝ :=
  Real.sqrt (∑ i, (tangential nrm u i - tangential nrm uBc i) * (tangential nrm u i - tangential nrm uBc i))

/-- `A` of `compute_utau` (ComputeWallFrictionVelocityAlgorithm.C:307). -/
noncomputable def lawA (elog rho yp mu : ℝ) : ℝ := elog * rho * yp / mu

/-- `df` of `compute_utau` (lines 311-321). -/
noncomputable def utauDf (kappa up A utau : ℝ) : ℝ :=
  (kappa * up - utau * Real.log (A * utau)) / (-(1 + Real.log (A * utau)))

/-- The loop of `compute_utau` (lines 309-328): returns the friction velocity and `converged`. -/
noncomputable def utauLoop (kappa up A tol : ℝ) : ℕ → ℝ → ℝ × Bool
  | 0, u => (u, false)
  | k + 1, u =>
    if |utauDf kappa up A u| < tol then (u - utauDf kappa up A u, true)
    else utauLoop kappa up A tol k (u - utauDf kappa up A u)

/-- `utauGuess` (line 287). -/
noncomputable def utauGuess (yplusCrit mu rho yp : ℝ) : ℝ := yplusCrit * mu / rho / yp

/-- `compute_utau` from the guess of `execute` (lines 286-290). -/
noncomputable def frictionVelocity (elog kappa yplusCrit tol : ℝ) (maxIt : ℕ) (up yp rho mu : ℝ) : ℝ × Bool :=
  utauLoop kappa up (lawA elog rho yp mu) tol maxIt (utauGuess yplusCrit mu rho yp)

/-- `lambda` (AssembleMomentumEdgeWallFunctionSolverAlgoirthm.C:189-198). -/
noncomputable def lambda (elog kappa yplusCrit rho mu yp utau area : ℝ) : ℝ :=
  let yplus := rho * yp * utau / mu
  if yplusCrit < yplus then rho * kappa * utau / Real.log (elog * yplus) * area else mu / yp * area

/-- The right-hand side row `i` (lines 200-223). -/
noncomputable def wallRhs {n : ℕ} (lam : ℝ) (nrm u uBc : Fin n → ℝ) (i : Fin n) : ℝ :=
  -(lam * (tangential nrm u i - tangential nrm uBc i))

/-- The left-hand side entry `(i, j)` of the wall node (lines 208-220). -/
def wallLhs {n : ℕ} (lam : ℝ) (nrm : Fin n → ℝ) (i j : Fin n) : ℝ :=
  if i = j then lam * (1 - nrm i * nrm j) else -(lam * (nrm i * nrm j))

/-! ## Nodal boundary values -/

/-- A wall integration point as seen by its nearest node: area magnitude and the value assembled there. -/
structure Pt where
  area : ℝ
  val : ℝ

/-- The assembly `wallArea += aMag; field += aMag*value` over the integration points of a node followed by the
division in the driver (WallFunctionParamsAlgorithmDriver.C:64-72, 103-118;
ComputeTurbKineticEnergyWallFunctionAlgorithm.C:139-146, normalize_nodal_fields). -/
noncomputable def nodalAverage (pts : List Pt) : ℝ :=
  (pts.foldl (fun s p => s + p.area * p.val) 0) / (pts.foldl (fun s p => s + p.area) 0)

/-- `tkeBip` (ComputeTurbKineticEnergyWallFunctionAlgorithm.C:142). -/
noncomputable def tkeWall (cMu utau : ℝ) : ℝ := utau * utau / Real.sqrt cMu

/-- `wallFuncSdr` (ComputeWallModelSDRWallAlgorithm.C:164). -/
noncomputable def sdrWall (betaStar kappa yp utau : ℝ) : ℝ := utau / Real.sqrt betaStar / kappa / yp

/-- `wallFuncEps` (ComputeWallModelTurbDissipationWallAlgorithm.C:149). -/
noncomputable def epsWall (kappa yp utau : ℝ) : ℝ := utau * utau * utau / kappa / yp

/-- `lowReSdr` (ComputeLowReynoldsSDRWallAlgorithm.C:216). -/
noncomputable def sdrLowRe (factor betaOne nu yp : ℝ) : ℝ := factor * 6 * nu / betaOne / yp / yp

/-- `clip_min_distance_to_wall` at a node (ShearStressTransportEquationSystem.C:363-455): maximum of the
distance read with the quarter-edge distances of the adjacent wall faces; skipped on restart. -/
noncomputable def clipWallDistance (restarted : Bool) (d : ℝ) (yps : List ℝ) : ℝ :=
  if restarted then d else yps.foldl max d

end Nalu.Wall
