import Verif.Model.Averaging
import Mathlib.Analysis.SpecialFunctions.Pow.Real
import Mathlib.Analysis.SpecialFunctions.Pow.Complex

/-!
# Model of the derived turbulence quantities

Models the parts of `/repo/src/TurbulenceAveragingPostProcessing.C` that are not in
`Verif.Model.Averaging` (swirling strength, mean resolved kinetic energy, dissipation rate, production)
and the dynamic procedure and low-Reynolds source of `/repo/src/TurbKineticEnergyEquationSystem.C`.

Doubles are reals and `std::complex<double>` is `ℂ`; a division by zero that makes a stored value NaN is
`none`.  The accumulation loops `x += ...` over nodes, integration points and directions are sums.  The
geometry returned by the master element (`shape_fcn`, `grad_op`, `determinant`, `ipNodeMap`) is an input.
-/

namespace Nalu.TurbPost

open Nalu.Averaging

/-! ### Swirling strength -/

/-- `std::sqrt(std::complex)`: principal square root. -/
noncomputable def csqrt (z : ℂ) : ℂ := z ^ (1 / 2 : ℂ)

/-- Two-dimensional branch of `compute_lambda_ci`,
src/TurbulenceAveragingPostProcessing.C:1386-1418; `a i j` is `dudx[i*nDim+j]`. -/
noncomputable def lambdaCi2 (a : Fin 2 → Fin 2 → ℝ) : ℝ :=
  let trace := a 0 0 + a 1 1
  let det := a 0 0 * a 1 1 - a 0 1 * a 1 0
  let Br := -trace
  let Cr := det
  let Discrim := Br * Br - 4 * 1 * Cr
  if 0 ≤ Discrim then 0
  else
    let A : ℂ := 1
    let B : ℂ := Br
    let C : ℂ := Cr
    let EIG1 := -B / 2 + csqrt (B * B - A * C * 4) / 2
    let EIG2 := -B / 2 - csqrt (B * B - A * C * 4) / 2
    max EIG1.im EIG2.im

/-- Coefficients `Br`, `Cr`, `Dr` of the cubic,
src/TurbulenceAveragingPostProcessing.C:1433-1444. -/
noncomputable def cubic (a : Fin 3 → Fin 3 → ℝ) : ℝ × ℝ × ℝ :=
  let trace := a 0 0 + a 1 1 + a 2 2
  let trace2 := (a 0 0 * a 0 0 + a 0 1 * a 1 0 + a 0 2 * a 2 0)
    + (a 0 1 * a 1 0 + a 1 1 * a 1 1 + a 1 2 * a 2 1)
    + (a 0 2 * a 2 0 + a 1 2 * a 2 1 + a 2 2 * a 2 2)
  let det := a 0 0 * (a 1 1 * a 2 2 - a 1 2 * a 2 1) - a 0 1 * (a 1 0 * a 2 2 - a 1 2 * a 2 0)
    + a 0 2 * (a 1 0 * a 2 1 - a 1 1 * a 2 0)
  (-trace, -(1 / 2) * (trace2 - trace * trace), -det)

/-- The cube root `CC` with the sign switch of `Q`,
src/TurbulenceAveragingPostProcessing.C:1454-1461 (`A = 1` written out). -/
noncomputable def cubeRoot (Br Cr Dr : ℝ) : ℂ :=
  let B : ℂ := Br
  let C : ℂ := Cr
  let D : ℂ := Dr
  let Q := csqrt ((B * B * B * 2 - B * C * 9 + D * 27) ^ 2 - 4 * (B * B - C * 3) ^ 3)
  if Br * Br - 3 * Cr = 0 then
    ((1 / 2) * (-Q + 2 * B * B * B - 9 * B * C + 27 * D)) ^ (1 / 3 : ℂ)
  else ((1 / 2) * (Q + 2 * B * B * B - 9 * B * C + 27 * D)) ^ (1 / 3 : ℂ)

/-- The discriminant, src/TurbulenceAveragingPostProcessing.C:1445. -/
noncomputable def disc3 (Br Cr Dr : ℝ) : ℝ :=
  18 * Br * Cr * Dr - 4 * Br * Br * Br * Dr + Br * Br * Cr * Cr - 4 * Cr * Cr * Cr - 27 * Dr * Dr

/-- Three-dimensional branch of `compute_lambda_ci`,
src/TurbulenceAveragingPostProcessing.C:1420-1472.  `none`: `CC` is zero and lines 1464-1468 divide by it. -/
noncomputable def lambdaCi3 (a : Fin 3 → Fin 3 → ℝ) : Option ℝ :=
  let Br := (cubic a).1
  let Cr := (cubic a).2.1
  let Dr := (cubic a).2.2
  if 0 ≤ disc3 Br Cr Dr then some 0
  else
    let B : ℂ := Br
    let C : ℂ := Cr
    let CC := cubeRoot Br Cr Dr
    if CC = 0 then none
    else
      let II : ℂ := -Complex.I
      let s3 : ℂ := (Real.sqrt 3 : ℝ)
      let EIG1 := -B / 3 - CC / 3 - (B * B - 3 * C) / (3 * CC)
      let EIG2 := -B / 3 + CC * (1 + II * s3) / 6 + (1 - II * s3) * (B * B - 3 * C) / (6 * CC)
      let EIG3 := -B / 3 + CC * (1 - II * s3) / 6 + (1 + II * s3) * (B * B - 3 * C) / (6 * CC)
      some (max (max EIG1.im EIG2.im) EIG3.im)

/-! ### Mean resolved kinetic energy -/

/-- Local sums of `compute_mean_resolved_ke` on one rank,
src/TurbulenceAveragingPostProcessing.C:1494-1514: `(sum of volumes, sum of ke*volume)` over the
selected nodes, each given by its dual volume and velocity. -/
noncomputable def localKe {n : ℕ} (nodes : List (ℝ × (Fin n → ℝ))) : ℝ × ℝ :=
  nodes.foldl (fun s p => (s.1 + p.1, s.2 + (∑ i, p.2 i * p.2 i) * p.1 * (1 / 2))) (0, 0)

/-- The global reduction and the printed mean, src/TurbulenceAveragingPostProcessing.C:1518-1526. -/
noncomputable def meanKe {n : ℕ} (ranks : List (List (ℝ × (Fin n → ℝ)))) : ℝ :=
  let g := (ranks.map localKe).foldl (fun s p => (s.1 + p.1, s.2 + p.2)) (0, 0)
  g.2 / g.1

/-! ### Element data -/

/-- What the master element hands to the loops, and the gathered nodal values of one element:
src/TurbulenceAveragingPostProcessing.C:1680-1713 and
src/TurbKineticEnergyEquationSystem.C:1333-1358. -/
structure El (n : ℕ) where
  numIp : ℕ
  npe : ℕ
  shp : Fin numIp → Fin npe → ℝ
  dndx : Fin numIp → Fin npe → Fin n → ℝ
  scv : Fin numIp → ℝ
  ipNode : Fin numIp → Fin npe
  rho : Fin npe → ℝ
  mu : Fin npe → ℝ
  u : Fin npe → Fin n → ℝ
  um : Fin npe → Fin n → ℝ
  stress : Fin npe → List ℝ
  k : Fin npe → ℝ
  dualVol : Fin npe → ℝ

namespace El
variable {n : ℕ} (e : El n)

/-- Interpolation to an integration point, e.g. src/TurbulenceAveragingPostProcessing.C:1726-1731. -/
noncomputable def ip (q : Fin e.numIp) (f : Fin e.npe → ℝ) : ℝ := ∑ ic, e.shp q ic * f ic

/-- Gradient of a vector field at an integration point, `ws_dudx[i*nDim+j]`, e.g.
src/TurbulenceAveragingPostProcessing.C:1732-1741. -/
noncomputable def grad (q : Fin e.numIp) (v : Fin e.npe → Fin n → ℝ) (i j : Fin n) : ℝ :=
  ∑ ic, v ic i * e.dndx q ic j

/-- `sumVolume`, src/TurbulenceAveragingPostProcessing.C:1761. -/
noncomputable def vol : ℝ := ∑ q, e.scv q

end El

/-! ### Dissipation rate -/

/-- `tauDu` from the gradient of the fluctuation, src/TurbulenceAveragingPostProcessing.C:1744-1758;
`fav` says whether the mean velocity is the Favre one (`includeDivU`). -/
noncomputable def tauDu {n : ℕ} (fav : Bool) (muIp : ℝ) (g : Fin n → Fin n → ℝ) : ℝ :=
  let divU := ∑ i, g i i
  let includeDivU : ℝ := if fav then 1 else 0
  ∑ i, ∑ j, 2 * muIp * (1 / 2 * (g i j + g j i) - 1 / 3 * divU * (if i = j then 1 else 0) * includeDivU)
    * g i j

/-- Element average of `tauDu/rho`, src/TurbulenceAveragingPostProcessing.C:1715-1765; the fluctuation is
`uip = uiM - ui` (line 1736). -/
noncomputable def elemDissipation {n : ℕ} (fav : Bool) (e : El n) : ℝ :=
  (∑ q, e.scv q * tauDu fav (e.ip q e.mu) (e.grad q fun ic i => e.um ic i - e.u ic i) / e.ip q e.rho)
    / e.vol

/-- One pass at an element, src/TurbulenceAveragingPostProcessing.C:1765-1766, with the guard of the
caller (lines 796, 819-821). -/
noncomputable def dissipationPass {n : ℕ} (fav : Bool) (w : Weights ℝ) (dRate : ℝ) (e : El n) : ℝ :=
  if 0 < w.old then (dRate * w.old * w.zero + elemDissipation fav e * w.dt) / w.cur else dRate

/-- Projection to a node: zeroing, scatter, parallel and periodic assembly, normalisation
(src/TurbulenceAveragingPostProcessing.C:1584-1596, 1768-1778, 1782-1801).  The list has one
`(volume, element value)` for each element that contains the node or one of its periodic images. -/
noncomputable def project (els : List (ℝ × ℝ)) : ℝ :=
  (els.foldl (fun s p => s + p.2 * p.1) 0) / (els.foldl (fun s p => s + p.1) 0)

/-! ### Production -/

/-- `stressMap`, src/TurbulenceAveragingPostProcessing.C:1891-1901. -/
def stressMap (nDim : ℕ) (i j : ℕ) : ℕ :=
  let m3 : List (List ℕ) := [[0, 1, 2], [1, 3, 4], [2, 4, 5]]
  let m2 : List (List ℕ) := [[0, 1, 0], [1, 2, 0], [0, 0, 0]]
  (((if nDim = 2 then m2 else m3).getD i []).getD j 0)

/-- `Pk` at an integration point, src/TurbulenceAveragingPostProcessing.C:1972-2018. -/
noncomputable def prodIp {n : ℕ} (e : El n) (q : Fin e.numIp) : ℝ :=
  (0 - ∑ i : Fin n, ∑ j : Fin n, (e.stress (e.ipNode q)).getD (stressMap n i j) 0 * e.grad q e.um i j)
    * e.ip q e.rho

/-- `(sumVolume, sumProduction)` of an element, src/TurbulenceAveragingPostProcessing.C:2020-2022. -/
noncomputable def elemProduction {n : ℕ} (e : El n) : ℝ × ℝ :=
  (e.vol, ∑ q, e.scv q * prodIp e q)

/-- Outcome of `compute_production`: which averages it reads, or the exception. -/
inductive ProdSource
  | favre
  | reynolds
  | refused
  deriving DecidableEq

/-- Choice of mean velocity and stress, src/TurbulenceAveragingPostProcessing.C:1852-1866. -/
def prodSource (favreFields : List String) (reynoldsActive favreActive : Bool) : ProdSource :=
  if "velocity" ∈ favreFields then (if favreActive then .favre else .refused)
  else (if reynoldsActive then .reynolds else .refused)

/-- `production` at the element and the projected nodal production,
src/TurbulenceAveragingPostProcessing.C:2025-2061. -/
noncomputable def nodeProduction {n : ℕ} (els : List (El n)) : ℝ :=
  ((els.map elemProduction).foldl (fun s p => s + p.2) 0)
    / ((els.map elemProduction).foldl (fun s p => s + p.1) 0)

/-! ### Dynamic procedure -/

/-- One filtered quantity at a node: zeroing, `elemX += xIp*scv`, scatter to every node of the element,
assembly and division by the filtered volume (src/TurbKineticEnergyEquationSystem.C:1246-1272,
1423-1442, 1445-1474, 1479-1536).  `els` are the elements that contain the node or a periodic image. -/
noncomputable def filtered {n : ℕ} (els : List (El n)) (x : (e : El n) → Fin e.numIp → ℝ) : ℝ :=
  (els.map fun e => ∑ q, x e q * e.scv q).sum / (els.map El.vol).sum

/-- `Sij` at an integration point, src/TurbKineticEnergyEquationSystem.C:1413-1418, 1433 (with `includeDivU = 1`). -/
noncomputable def sij {n : ℕ} (g : Fin n → Fin n → ℝ) (i j : Fin n) : ℝ :=
  1 / 2 * (g i j + g j i) - 1 / 3 * (∑ l, g l l) * (if i = j then 1 else 0)

/-- `Dij` at an integration point, src/TurbKineticEnergyEquationSystem.C:1434. -/
noncomputable def dij {n : ℕ} (g : Fin n → Fin n → ℝ) (i j : Fin n) : ℝ :=
  g i j - 1 / 3 * (∑ l, g l l) * (if i = j then 1 else 0)

section Dynamic
variable {n : ℕ} (els : List (El n))

/-- `fVolume`, src/TurbKineticEnergyEquationSystem.C:1423, 1460. -/
noncomputable def fVolume : ℝ := (els.map El.vol).sum
/-- `fDensity`, src/TurbKineticEnergyEquationSystem.C:1396-1400, 1424. -/
noncomputable def fDensity : ℝ := filtered els fun e q => e.ip q e.rho
/-- `fKineticEnergy`, src/TurbKineticEnergyEquationSystem.C:1428, 1441. -/
noncomputable def fKinetic : ℝ :=
  filtered els fun e q => ∑ i, 1 / 2 * (e.ip q fun ic => e.u ic i) * (e.ip q fun ic => e.u ic i)
/-- `fSijDij`, src/TurbKineticEnergyEquationSystem.C:1435, 1442. -/
noncomputable def fSijDij : ℝ :=
  filtered els fun e q => ∑ i, ∑ j, sij (e.grad q e.u) i j * dij (e.grad q e.u) i j
/-- `fVelocity`, src/TurbKineticEnergyEquationSystem.C:1404, 1429. -/
noncomputable def fVelocity (i : Fin n) : ℝ := filtered els fun e q => e.ip q fun ic => e.u ic i
/-- `fDensityVelocity`, src/TurbKineticEnergyEquationSystem.C:1405, 1430. -/
noncomputable def fRhoU (i : Fin n) : ℝ := filtered els fun e q => e.ip q fun ic => e.rho ic * e.u ic i
/-- `fStrainRate`, src/TurbKineticEnergyEquationSystem.C:1436. -/
noncomputable def fStrain (i j : Fin n) : ℝ := filtered els fun e q => sij (e.grad q e.u) i j
/-- `fVelocityGradient`, src/TurbKineticEnergyEquationSystem.C:1437. -/
noncomputable def fGrad (i j : Fin n) : ℝ := filtered els fun e q => dij (e.grad q e.u) i j
/-- `fDensityStress`, src/TurbKineticEnergyEquationSystem.C:1409, 1438. -/
noncomputable def fRhoUU (i j : Fin n) : ℝ :=
  filtered els fun e q => e.ip q fun ic => e.rho ic * e.u ic i * e.u ic j

/-- `ktest` before clipping, src/TurbKineticEnergyEquationSystem.C:1575-1579. -/
noncomputable def ktestRaw : ℝ := fKinetic els - ∑ i, 1 / 2 * fVelocity els i * fVelocity els i
/-- `ktest`, src/TurbKineticEnergyEquationSystem.C:1581. -/
noncomputable def ktest : ℝ := max (1 / 10 ^ 16) (ktestRaw els)
/-- `fFilter`, src/TurbKineticEnergyEquationSystem.C:1572. -/
noncomputable def fFilter : ℝ := fVolume els ^ (1 / (n : ℝ))
/-- `L`, src/TurbKineticEnergyEquationSystem.C:1591-1592. -/
noncomputable def leonard (i j : Fin n) : ℝ :=
  -(fRhoUU els i j - fRhoU els i * fRhoU els j / fDensity els)
/-- `M`, src/TurbKineticEnergyEquationSystem.C:1593. -/
noncomputable def modelM (i j : Fin n) : ℝ :=
  2 * fDensity els * fFilter els * Real.sqrt (ktest els) * fStrain els i j
/-- `cEps` before clipping, src/TurbKineticEnergyEquationSystem.C:1590, 1600. -/
noncomputable def cEpsRaw (evisc : ℝ) : ℝ :=
  2 * evisc * (fSijDij els - ∑ i, ∑ j, fStrain els i j * fGrad els i j)
    / (fDensity els * ktest els ^ (1.5 : ℝ) / fFilter els)
/-- `dcEps`, src/TurbKineticEnergyEquationSystem.C:1601. -/
noncomputable def cEps (evisc : ℝ) : ℝ := max (1 / 10 ^ 16) (cEpsRaw els evisc)
/-- `cmuEps` before clipping, src/TurbKineticEnergyEquationSystem.C:1594-1595, 1604. -/
noncomputable def cmuRaw : ℝ :=
  (∑ i, ∑ j, leonard els i j * modelM els i j) / max (∑ i, ∑ j, modelM els i j * modelM els i j) (1 / 10 ^ 16)
/-- `dcmuEps`, src/TurbKineticEnergyEquationSystem.C:1571, 1606-1609. -/
noncomputable def cmu (lamFraction dualVol rho visc tke : ℝ) : ℝ :=
  max (-visc * lamFraction / (rho * dualVol ^ (1 / (n : ℝ)) * Real.sqrt (max tke (1 / 10 ^ 16)))) (cmuRaw els)

end Dynamic

/-- `TurbViscKsgsAlgorithm::execute`, src/TurbViscKsgsAlgorithm.C:121, with the damping factor `fmu` given. -/
noncomputable def tviscKsgs (n : ℕ) (fmu cmuEps rho tke dualVol : ℝ) : ℝ :=
  fmu * cmuEps * rho * Real.sqrt tke * dualVol ^ (1 / (n : ℝ))

/-! ### Low-Reynolds source -/

/-- `dsqrtksq` at an integration point, src/TurbKineticEnergyEquationSystem.C:1817-1836. -/
noncomputable def dsqIp {n : ℕ} (e : El n) (q : Fin e.numIp) : ℝ :=
  ∑ j : Fin n, (∑ ic, e.dndx q ic j * Real.sqrt (e.k ic)) * (∑ ic, e.dndx q ic j * Real.sqrt (e.k ic))

/-- `compute_dsqrtk_dx_sq` at a node, src/TurbKineticEnergyEquationSystem.C:1730, 1838-1857: `els` lists
the elements that contain the node (or a periodic image) with its local number in that element.  The
overset update is not modelled. -/
noncomputable def dsqNode {n : ℕ} (els : List ((e : El n) × Fin e.npe)) : ℝ :=
  (els.map fun p => ∑ q, if p.1.ipNode q = p.2 then
    dsqIp p.1 q * p.1.scv q / p.1.dualVol (p.1.ipNode q) else 0).sum

end Nalu.TurbPost
