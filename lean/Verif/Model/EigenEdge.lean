import Verif.Model.Eigen
import Verif.Model.Edge

/-!
Model of `AssembleScalarEigenEdgeSolverAlgorithm::execute`
(`src/AssembleScalarEigenEdgeSolverAlgorithm.C:131-478`): edge-based enthalpy transport with a
generalised-gradient-diffusion heat flux built from the eigenvalue-perturbed Reynolds stress.

Three dimensions only: in 2D the code fills the upper-left block of the 3x3 member arrays and
decomposes whatever the rest contains.  When the strain rate vanishes the code divides by zero
(`timeScaleIp = 1.0/sijMag`, infinite in floating point, zero in the model).
-/

namespace Nalu.Eigen

open Edge Matrix

noncomputable section

/-- Nodal data gathered at lines 226-261.  `s.diff` stands for `thermalCond/specHeat`, which is the
only way in which conductivity and specific heat enter; `turbKe` is the raw field. -/
structure EigNode where
  s : ScalarNode 3 ℝ
  u : Fin 3 → ℝ
  dudx : M3
  turbKe : ℝ
  turbVisc : ℝ

/-- User constants and switches (constructor, lines 38-115, and lines 143-160). -/
structure EigOpts where
  adv : Opts ℝ
  nocFacVel : ℝ
  includeDivU : ℝ
  turbSigma : ℝ
  cMu : ℝ
  delta : ℝ
  bias : ℤ
  pert : ℝ

/-- `cGGDH_` (line 66). -/
def EigOpts.cGGDH (o : EigOpts) : ℝ := 3 / 2 * o.cMu / o.turbSigma

/-- `rhoIp` (line 277). -/
def rhoIp (L R : EigNode) : ℝ := 1 / 2 * (L.s.rho + R.s.rho)

/-- `lamEffectiveViscIp` (line 278). -/
def lamIp (L R : EigNode) : ℝ := 1 / 2 * (L.s.diff + R.s.diff)

/-- `turbNuIp` (lines 280-281). -/
def turbNuIp (o : EigOpts) (L R : EigNode) : ℝ :=
  1 / 2 * (L.turbVisc + R.turbVisc) / o.turbSigma / rhoIp L R

/-- `turbKeIp` (lines 257-258, 282). -/
def turbKeIp (L R : EigNode) : ℝ := 1 / 2 * (max L.turbKe (1/10^16) + max R.turbKe (1/10^16))

/-- Integration point gradient with non-orthogonal correction (lines 285-308 for a velocity
component, lines 328-343 for the scalar): `G` at the nodes, difference `diff` over the edge. -/
def ipGrad (noc : ℝ) (a : Fin 3 → ℝ) (xL xR : Fin 3 → ℝ) (diff : ℝ) (gL gR : Fin 3 → ℝ) (j : Fin 3) : ℝ :=
  1 / 2 * (gL j + gR j) * noc +
    (diff - (∑ l, 1 / 2 * (gL l + gR l) * (xR l - xL l)) * noc) * a j * (1 / axdx a xL xR)

/-- `duidxj_` (lines 285-308). -/
def ipDudx (o : EigOpts) (a : Fin 3 → ℝ) (L R : EigNode) : M3 :=
  Matrix.of fun i j => ipGrad o.nocFacVel a L.s.x R.s.x (R.u i - L.u i) (L.dudx i) (R.dudx i) j

/-- `sijMag` (lines 316-324). -/
def sijMag (G : M3) : ℝ :=
  Real.sqrt (2 * ∑ i, ∑ j, (1 / 2 * (G i j + G j i)) * (1 / 2 * (G i j + G j i)))

/-- `timeScaleIp` (line 325). -/
def timeScale (G : M3) : ℝ := 1 / sijMag G

/-- `dqdxj_` (lines 327-343). -/
def ipDqdx (o : EigOpts) (a : Fin 3 → ℝ) (L R : EigNode) : Fin 3 → ℝ :=
  ipGrad o.adv.nocFac a L.s.x R.s.x (R.s.q - L.s.q) L.s.dqdx R.s.dqdx

/-- `R_` of the edge (lines 345-372). -/
def edgeStress (o : EigOpts) (a : Fin 3 → ℝ) (L R : EigNode) (old : Out M3) : M3 :=
  reynoldsStress o.delta o.bias o.pert (turbNuIp o L R) o.includeDivU (turbKeIp L R)
    (ipDudx o a L R) old

/-- `ggFac` (line 418). -/
def ggFac (o : EigOpts) (a : Fin 3 → ℝ) (L R : EigNode) (old : Out M3) (i j : Fin 3) : ℝ :=
  -o.cGGDH * timeScale (ipDudx o a L R) * rhoIp L R * edgeStress o a L R old i j * a j

/-- `lhsfac` (lines 412, 420). -/
def eigLhs (o : EigOpts) (a : Fin 3 → ℝ) (L R : EigNode) (old : Out M3) : ℝ :=
  -lamIp L R * asq a * (1 / axdx a L.s.x R.s.x) +
    ∑ i, ∑ j, ggFac o a L R old i j * a i * (1 / axdx a L.s.x R.s.x)

/-- `diffFlux` (lines 388-392, 413, 419): the laminar non-orthogonal correction is added whatever the
user chose for `noc`. -/
def eigDiffFlux (o : EigOpts) (a : Fin 3 → ℝ) (L R : EigNode) (old : Out M3) : ℝ :=
  (-lamIp L R * asq a * (1 / axdx a L.s.x R.s.x)) * (R.s.q - L.s.q) + nonOrth a L.s R.s +
    ∑ i, ∑ j, ggFac o a L R old i j * ipDqdx o a L R i

/-- `pecfac` (line 376): laminar Peclet number with the mean density. -/
def eigPecfac (o : EigOpts) (L R : EigNode) : ℝ :=
  o.adv.peclet (|∑ j, 1 / 2 * (R.s.x j - L.s.x j) * (L.s.vrtm j + R.s.vrtm j)| /
    (lamIp L R / rhoIp L R + o.adv.small))

/-- `aflux` (lines 438-451). -/
def eigAdvFlux (o : EigOpts) (mdot : ℝ) (L R : EigNode) : ℝ :=
  mdot * interfaceValue o.adv (eigPecfac o L R) mdot (qIpL o.adv L.s R.s) (qIpR o.adv L.s R.s)
    (1 / 2 * (L.s.q + R.s.q))

/-- Local matrix and residual of one edge (lines 424-476). -/
def eigEdge (o : EigOpts) (a : Fin 3 → ℝ) (mdot : ℝ) (L R : EigNode) (old : Out M3) :
    LocalSys (Fin 2) ℝ :=
  let lf := eigLhs o a L R old
  let df := eigDiffFlux o a L R old
  let pec := eigPecfac o L R
  let af := eigAdvFlux o mdot L R
  let aL := lhsAdvL o.adv pec mdot
  let aR := lhsAdvR o.adv pec mdot
  let aC := lhsAdvC o.adv pec mdot
  { lhs := ![![-lf + aL + aC, lf + aR + aC], ![lf - aL - aC, -lf - aR - aC]]
    rhs := ![-df - af, df + af] }

/-- The loop over the locally owned edges; the member arrays `D_`, `Q_` keep the values of the
previous edge, which is why `old` is part of the edge record here. -/
def assembleEig {N : Type} [DecidableEq N] (o : EigOpts) (nd : N → EigNode)
    (edges : List (EdgeRec N 3 ℝ × Out M3)) (s : Sys N ℝ) : Sys N ℝ :=
  edges.foldl (fun s e => s.applyCoeff e.1.node
    (eigEdge o e.1.area e.1.mdot (nd e.1.left) (nd e.1.right) e.2)) s

end

end Nalu.Eigen
