import Verif.Model.ElemContinuity

/-!
# Node supplemental algorithms

Models `AssembleNodeSolverAlgorithm.C` and the supplemental algorithms it runs at every node: the lumped time terms
(`ScalarMassBackwardEuler`, `ScalarMassBDF2`, `MomentumMassBackwardEuler`, `MomentumMassBDF2`, `ContinuityMassBackwardEuler`,
`ContinuityMassBDF2`, `HeatCondMassBackwardEuler`, `HeatCondMassBDF2` `NodeSuppAlg.C`), the geometric conservation law terms (`ScalarGcl`,
`ContinuityGcl`, `MomentumGclSrc`), low-speed compressibility (`ContinuityLowSpeedCompressible`, `EnthalpyLowSpeedCompressible`), work and
dissipation (`EnthalpyPressureWork`, `EnthalpyViscousWork`) and forces (`MomentumBodyForceSrc`, `MomentumBuoyancySrc`,
`MomentumBoussinesqSrc`, `MomentumActuatorSrc`).  The radiation sources are in `Model/Radiation.lean`.

`double` is a linearly ordered field `K`; stk selectors are Boolean predicates on nodes.
-/

namespace Nalu.Node
open Nalu.Edge Nalu.Kernel

variable {K : Type*} [Field K] [LinearOrder K] [IsStrictOrderedRing K] {nd : ℕ}

/-- A nodal quantity at the time levels `np1`, `n`, `nm1` (`field_of_state`). -/
structure Lv (V : Type*) where
  np1 : V
  n : V
  nm1 : V

/-! ## Time terms -/

/-- `ScalarMassBackwardEulerNodeSuppAlg::node_execute` (ScalarMassBackwardEulerNodeSuppAlg.C:66-82). -/
def scalarMassBE (dt : K) (q rho : Lv K) (vol : K) (s : LocalSys (Fin 1) K) : LocalSys (Fin 1) K :=
  addL (addR s 0 (-((rho.np1 * q.np1 - q.n * rho.n) * vol / dt))) 0 0 (rho.np1 * vol / dt)

/-- `ScalarMassBDF2NodeSuppAlg::node_execute` (ScalarMassBDF2NodeSuppAlg.C:75-94). -/
def scalarMassBdf2 (b : Bdf K) (q rho : Lv K) (vol : K) (s : LocalSys (Fin 1) K) : LocalSys (Fin 1) K :=
  addL (addR s 0 (-((b.g1 * rho.np1 * q.np1 + b.g2 * q.n * rho.n + b.g3 * q.nm1 * rho.nm1) * vol / b.dt))) 0 0
    (b.g1 * rho.np1 * vol / b.dt)

/-- `MomentumMassBackwardEulerNodeSuppAlg::node_execute` (MomentumMassBackwardEulerNodeSuppAlg.C:73-96). -/
def momentumMassBE (dt : K) (u : Lv (Fin nd → K)) (rho : Lv K) (dpdx : Fin nd → K) (vol : K) (s : LocalSys (Fin nd) K) :
    LocalSys (Fin nd) K :=
  loop nd (fun i s => addL (addR s i (-(rho.np1 * u.np1 i - rho.n * u.n i) * vol / dt - dpdx i * vol)) i i (rho.np1 * vol / dt)) s

/-- `MomentumMassBDF2NodeSuppAlg::node_execute` (MomentumMassBDF2NodeSuppAlg.C:83-109). -/
def momentumMassBdf2 (b : Bdf K) (u : Lv (Fin nd → K)) (rho : Lv K) (dpdx : Fin nd → K) (vol : K) (s : LocalSys (Fin nd) K) :
    LocalSys (Fin nd) K :=
  loop nd (fun i s => addL (addR s i (-(b.g1 * rho.np1 * u.np1 i + b.g2 * rho.n * u.n i + b.g3 * rho.nm1 * u.nm1 i) * vol / b.dt
    - dpdx i * vol)) i i (b.g1 * rho.np1 * vol / b.dt)) s

/-- `ContinuityMassBackwardEulerNodeSuppAlg::node_execute` (ContinuityMassBackwardEulerNodeSuppAlg.C:62-77). -/
def continuityMassBE (dt : K) (rho : Lv K) (vol : K) (s : LocalSys (Fin 1) K) : LocalSys (Fin 1) K :=
  addL (addR s 0 (-((rho.np1 - rho.n) * vol / dt / dt))) 0 0 0

/-- `ContinuityMassBDF2NodeSuppAlg::node_execute` (ContinuityMassBDF2NodeSuppAlg.C:69-86). -/
def continuityMassBdf2 (b : Bdf K) (rho : Lv K) (vol : K) (s : LocalSys (Fin 1) K) : LocalSys (Fin 1) K :=
  addL (addR s 0 (-((b.g1 * rho.np1 + b.g2 * rho.n + b.g3 * rho.nm1) * vol / b.dt / (b.dt / b.g1)))) 0 0 0

/-- `HeatCondMassBackwardEulerNodeSuppAlg::node_execute` (HeatCondMassBackwardEulerNodeSuppAlg.C:64-80). -/
def heatCondMassBE (dt : K) (T : Lv K) (rho cp vol : K) (s : LocalSys (Fin 1) K) : LocalSys (Fin 1) K :=
  let lhsTime := rho * cp * vol / dt
  addL (addR s 0 (-(lhsTime * (T.np1 - T.n)))) 0 0 lhsTime

/-- `HeatCondMassBDF2NodeSuppAlg::node_execute` (HeatCondMassBDF2NodeSuppAlg.C:72-89); the matrix entry has no `gamma1`. -/
def heatCondMassBdf2 (b : Bdf K) (T : Lv K) (rho cp vol : K) (s : LocalSys (Fin 1) K) : LocalSys (Fin 1) K :=
  let lhsTime := rho * cp * vol / b.dt
  addL (addR s 0 (-(lhsTime * (b.g1 * T.np1 + b.g2 * T.n + b.g3 * T.nm1)))) 0 0 lhsTime

/-- Choice of the time term by the number of states (EnthalpyEquationSystem.C:497-507 and alike): two states give backward Euler. -/
def scalarMassAlg (numStates : ℕ) (b : Bdf K) (q rho : Lv K) (vol : K) (s : LocalSys (Fin 1) K) : LocalSys (Fin 1) K :=
  if numStates = 2 then scalarMassBE b.dt q rho vol s else scalarMassBdf2 b q rho vol s

/-- The same choice for the momentum equation (LowMachEquationSystem.C:1421-1431). -/
def momentumMassAlg (numStates : ℕ) (b : Bdf K) (u : Lv (Fin nd → K)) (rho : Lv K) (dpdx : Fin nd → K) (vol : K) (s : LocalSys (Fin nd) K) :
    LocalSys (Fin nd) K :=
  if numStates = 2 then momentumMassBE b.dt u rho dpdx vol s else momentumMassBdf2 b u rho dpdx vol s

/-- The same choice for the continuity equation (LowMachEquationSystem.C:2690-2697). -/
def continuityMassAlg (numStates : ℕ) (b : Bdf K) (rho : Lv K) (vol : K) (s : LocalSys (Fin 1) K) : LocalSys (Fin 1) K :=
  if numStates = 2 then continuityMassBE b.dt rho vol s else continuityMassBdf2 b rho vol s

/-- The same choice for heat conduction (HeatCondEquationSystem.C:464-474). -/
def heatCondMassAlg (numStates : ℕ) (b : Bdf K) (T : Lv K) (rho cp vol : K) (s : LocalSys (Fin 1) K) : LocalSys (Fin 1) K :=
  if numStates = 2 then heatCondMassBE b.dt T rho cp vol s else heatCondMassBdf2 b T rho cp vol s

/-! ## Geometric conservation law -/

/-- `ScalarGclNodeSuppAlg::node_execute` (ScalarGclNodeSuppAlg.C:62-77). -/
def scalarGcl (q rho divV vol : K) (s : LocalSys (Fin 1) K) : LocalSys (Fin 1) K :=
  addL (addR s 0 (-(rho * q * divV * vol))) 0 0 0

/-- `ContinuityGclNodeSuppAlg::node_execute` (ContinuityGclNodeSuppAlg.C:63-79). -/
def continuityGcl (b : Bdf K) (rho divV vol : K) (s : LocalSys (Fin 1) K) : LocalSys (Fin 1) K :=
  addL (addR s 0 (-(rho * divV * vol / (b.dt / b.g1)))) 0 0 0

/-- `MomentumGclSrcNodeSuppAlg::node_execute` (MomentumGclSrcNodeSuppAlg.C:65-82). -/
def momentumGcl (u : Fin nd → K) (rho divV vol : K) (s : LocalSys (Fin nd) K) : LocalSys (Fin nd) K :=
  let fac := rho * divV * vol
  loop nd (fun i s => addR s i (-(fac * u i))) s

/-! ## Low-speed compressibility, work and dissipation -/

/-- `ContinuityLowSpeedCompressibleNodeSuppAlg::node_execute` (ContinuityLowSpeedCompressibleNodeSuppAlg.C:64-79). -/
def continuityLowSpeed (b : Bdf K) (rho p vol : K) (s : LocalSys (Fin 1) K) : LocalSys (Fin 1) K :=
  addL (addR s 0 0) 0 0 (rho / p * vol / b.dt / (b.dt / b.g1))

/-- `EnthalpyLowSpeedCompressibleNodeSuppAlg::node_execute` (EnthalpyLowSpeedCompressibleNodeSuppAlg.C:61-75). -/
def enthalpyLowSpeed (dt pN pNp1 vol : K) (s : LocalSys (Fin 1) K) : LocalSys (Fin 1) K :=
  addL (addR s 0 ((pNp1 - pN) * vol / dt)) 0 0 0

/-- `EnthalpyPressureWorkNodeSuppAlg::node_execute` (EnthalpyPressureWorkNodeSuppAlg.C:51-70). -/
def pressureWork (u dpdx : Fin nd → K) (vol : K) (s : LocalSys (Fin 1) K) : LocalSys (Fin 1) K :=
  addL (addR s 0 ((∑ j, u j * dpdx j) * vol)) 0 0 0

/-- The loops of `EnthalpyViscousWorkNodeSuppAlg::node_execute` (EnthalpyViscousWorkNodeSuppAlg.C:73-88), one term per `(i,j)`. -/
def viscousTerm (inc : K) (g : Fin nd → Fin nd → K) (i j : Fin nd) : K :=
  g i j * (g i j + g j i) - if i = j then g i j * 2 / 3 * (∑ k, g k k) * inc else 0

/-- `EnthalpyViscousWorkNodeSuppAlg::node_execute` (EnthalpyViscousWorkNodeSuppAlg.C:58-94). -/
def viscousWork (inc : K) (g : Fin nd → Fin nd → K) (mu vol : K) (s : LocalSys (Fin 1) K) : LocalSys (Fin 1) K :=
  addL (addR s 0 ((∑ i, ∑ j, viscousTerm inc g i j) * mu * vol)) 0 0 0

/-! ## Forces -/

/-- `MomentumBodyForceSrcNodeSuppAlg::node_execute` (MomentumBodyForceSrcNodeSuppAlg.C:57-68). -/
def bodyForce (params : Fin nd → K) (vol : K) (s : LocalSys (Fin nd) K) : LocalSys (Fin nd) K :=
  loop nd (fun i s => addR s i (vol * params i)) s

/-- `MomentumBuoyancySrcNodeSuppAlg::node_execute` (MomentumBuoyancySrcNodeSuppAlg.C:64-80). -/
def buoyancy (rhoRef : K) (grav : Fin nd → K) (rho vol : K) (s : LocalSys (Fin nd) K) : LocalSys (Fin nd) K :=
  let fac := (rho - rhoRef) * vol
  loop nd (fun i s => addR s i (fac * grav i)) s

/-- `MomentumBoussinesqSrcNodeSuppAlg::node_execute` (MomentumBoussinesqSrcNodeSuppAlg.C:69-83). -/
def boussinesq (rhoRef beta tRef : K) (grav : Fin nd → K) (T vol : K) (s : LocalSys (Fin nd) K) : LocalSys (Fin nd) K :=
  let fac := -rhoRef * beta * (T - tRef) * vol
  loop nd (fun i s => addR s i (fac * grav i)) s

/-- `MomentumActuatorSrcNodeSuppAlg::node_execute` (MomentumActuatorSrcNodeSuppAlg.C:60-79). -/
def actuator (src : Fin nd → K) (srcLhs vol : K) (s : LocalSys (Fin nd) K) : LocalSys (Fin nd) K :=
  loop nd (fun i s => addL (addR s i (src i * vol)) i i (srcLhs * vol)) s

/-! ## Assembly -/

/-- Parts of the mesh a rank uses to select nodes. -/
structure Parts (N : Type*) where
  owned : N → Bool
  inPart : N → Bool
  subject : N → Bool
  inactive : N → Bool

/-- `s_locally_owned_union` (AssembleNodeSolverAlgorithm.C:82-85). -/
def Parts.selected {N : Type*} (p : Parts N) (n : N) : Bool := p.owned n && p.inPart n && !p.subject n && !p.inactive n

/-- Local arrays of one node: zeroed, then all supplemental algorithms in order (AssembleNodeSolverAlgorithm.C:98-105). -/
def nodeLocal {N ι : Type*} (algs : List (N → LocalSys ι K → LocalSys ι K)) (n : N) : LocalSys ι K :=
  algs.foldl (fun l f => f n l) ⟨fun _ _ => 0, fun _ => 0⟩

/-- `AssembleNodeSolverAlgorithm::execute` on one rank (lines 57-110): for every selected node of the rank's mesh the local arrays are
zeroed, all supplemental algorithms run in order, and `apply_coeff` sums into the system.  `rows n a` is the global row of component `a`. -/
def assembleNodes {N M ι : Type*} [DecidableEq M] [Fintype ι] (p : Parts N) (rows : N → ι → M)
    (algs : List (N → LocalSys ι K → LocalSys ι K)) (mesh : List N) (s : Sys M K) : Sys M K :=
  (mesh.filter fun n => p.selected n).foldl (fun s n => s.applyCoeff (rows n) (nodeLocal algs n)) s

end Nalu.Node
