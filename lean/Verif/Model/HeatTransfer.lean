import Mathlib.Analysis.Real.Sqrt
import Verif.Model.ElemKernel

/-!
# Conjugate heat transfer

Models the data a fluid realm provides at a wall for a solid realm — `ComputeHeatTransferEdgeWallAlgorithm.C`,
`ComputeHeatTransferElemWallAlgorithm.C`, `AssembleWallHeatTransferAlgorithmDriver.C` — and the boundary condition of the solid that uses
them, `AssembleHeatCondWallSolverAlgorithm.C`, with the fields chosen in `HeatCondEquationSystem::register_wall_bc`.

`double` is `ℝ`.  A mesh is a list of visits (face, integration point) per rank; `parallel_sum` is the sum over the ranks.  The periodic
update between assembly and normalisation is not modelled here (C38).
-/

namespace Nalu.Cht
open Nalu.Edge Nalu.Kernel

variable {N : Type*} [DecidableEq N] {nd nn nf nip : ℕ}

/-! ## Coupling parameter -/

/-- `compute_coupling_parameter` (ComputeHeatTransferEdgeWallAlgorithm.C:214-222, ComputeHeatTransferElemWallAlgorithm.C:308-316). -/
noncomputable def couplingParameter (kappa h chi : ℝ) : ℝ :=
  let A := 1 + chi - 1 / (1 + chi + Real.sqrt (chi * (chi + 2)))
  A * kappa / h

/-! ## Assembly at the wall nodes -/

/-- The nodal fields assembled at the wall: `assembled_wall_area_ht`, `reference_temperature`, `heat_transfer_coefficient`,
`normal_heat_flux`, `robin_coupling_parameter`. -/
structure Wall (N : Type*) where
  area : N → ℝ
  tRef : N → ℝ
  htc : N → ℝ
  q : N → ℝ
  robin : N → ℝ

/-- `pre_work` (AssembleWallHeatTransferAlgorithmDriver.C:65-105). -/
def Wall.zero : Wall N := ⟨fun _ => 0, fun _ => 0, fun _ => 0, fun _ => 0, fun _ => 0⟩

/-- The five `+=` of an integration point to its nearest node. -/
def Wall.add (s : Wall N) (n : N) (area tRef htc q robin : ℝ) : Wall N :=
  ⟨Function.update s.area n (s.area n + area), Function.update s.tRef n (s.tRef n + tRef), Function.update s.htc n (s.htc n + htc),
   Function.update s.q n (s.q n + q), Function.update s.robin n (s.robin n + robin)⟩

/-- `parallel_sum` (AssembleWallHeatTransferAlgorithmDriver.C:117-125). -/
def Wall.parallelSum {R : Type*} [Fintype R] (s : R → Wall N) : Wall N :=
  ⟨fun n => ∑ k, (s k).area n, fun n => ∑ k, (s k).tRef n, fun n => ∑ k, (s k).htc n, fun n => ∑ k, (s k).q n, fun n => ∑ k, (s k).robin n⟩

/-- The normalisation in `post_work` (AssembleWallHeatTransferAlgorithmDriver.C:138-166). -/
noncomputable def Wall.normalize (s : Wall N) (temperature : N → ℝ) : Wall N :=
  let htc : N → ℝ := fun n => -(s.htc n) / s.area n / temperature n
  ⟨s.area, fun n => s.tRef n / (s.area n * htc n), htc, fun n => s.q n / s.area n, fun n => s.robin n / s.area n⟩

/-! ### Edge scheme -/

/-- One integration point of a wall face with the node on the face and the opposing node. -/
structure EdgeIp (nd : ℕ) (N : Type*) where
  nodeL : N
  nodeR : N
  area : Fin nd → ℝ

/-- Nodal fields and constants read by the edge algorithm. -/
structure Fluid (nd : ℕ) (N : Type*) where
  x : N → Fin nd → ℝ
  temp : N → ℝ
  rho : N → ℝ
  cond : N → ℝ
  cp : N → ℝ
  dhdx : N → Fin nd → ℝ
  dt : ℝ
  nocFac : ℝ

/-- `axdx` (ComputeHeatTransferEdgeWallAlgorithm.C:158-167). -/
def EdgeIp.axdx (v : EdgeIp nd N) (f : Fluid nd N) : ℝ := ∑ j, v.area j * (f.x v.nodeR j - f.x v.nodeL j)

/-- `asq` (ComputeHeatTransferEdgeWallAlgorithm.C:158-167). -/
def EdgeIp.asq (v : EdgeIp nd N) : ℝ := ∑ j, v.area j * v.area j

/-- `edgeLen` (ComputeHeatTransferEdgeWallAlgorithm.C:169-171). -/
noncomputable def EdgeIp.edgeLen (v : EdgeIp nd N) (f : Fluid nd N) : ℝ := v.axdx f / Real.sqrt v.asq

/-- `nonOrth` (ComputeHeatTransferEdgeWallAlgorithm.C:173-181). -/
noncomputable def EdgeIp.nonOrth (v : EdgeIp nd N) (f : Fluid nd N) : ℝ :=
  ∑ j, -(f.cond v.nodeR) * (v.area j - v.asq * (1 / v.axdx f) * (f.x v.nodeR j - f.x v.nodeL j)) * (f.dhdx v.nodeR j / f.cp v.nodeR)

/-- `alpha` (ComputeHeatTransferEdgeWallAlgorithm.C:183-186). -/
noncomputable def EdgeIp.alpha (v : EdgeIp nd N) (f : Fluid nd N) : ℝ :=
  couplingParameter (f.cond v.nodeR) (v.edgeLen f)
    (f.rho v.nodeR * f.cp v.nodeR * v.edgeLen f * v.edgeLen f / (2 * f.cond v.nodeR * f.dt))

/-- One integration point of `ComputeHeatTransferEdgeWallAlgorithm::execute` (lines 122-198). -/
noncomputable def EdgeIp.assemble (f : Fluid nd N) (s : Wall N) (v : EdgeIp nd N) : Wall N :=
  s.add v.nodeR (Real.sqrt v.asq)
    (f.cond v.nodeR * f.temp v.nodeL * v.asq * (1 / v.axdx f) - v.nonOrth f * f.nocFac)
    (-(f.cond v.nodeR) * f.temp v.nodeR * v.asq * (1 / v.axdx f))
    (f.cond v.nodeR * (f.temp v.nodeL - f.temp v.nodeR) * v.asq * (1 / v.axdx f) - v.nonOrth f * f.nocFac)
    (v.alpha f * Real.sqrt v.asq)

/-- The fields after the driver ran, edge scheme: every rank visits its faces. -/
noncomputable def edgeWall {R : Type*} [Fintype R] (f : Fluid nd N) (ips : R → List (EdgeIp nd N)) : Wall N :=
  (Wall.parallelSum fun k => (ips k).foldl (EdgeIp.assemble f) Wall.zero).normalize f.temp

/-! ### Element scheme -/

/-- One integration point of a wall face with its element: nodes of the element, `face_grad_op` at the point, area vector, shape functions
of the face with its nodes, and the element's nearest node; `onFace` is the set of nodes hit by `ipNodeMap` of the face. -/
structure ElemIp (nn nf nd : ℕ) (N : Type*) where
  node : Fin nn → N
  near : Fin nn
  onFace : Fin nn → Bool
  dndx : Fin nn → Fin nd → ℝ
  area : Fin nd → ℝ
  shape : Fin nf → ℝ
  faceNode : Fin nf → N

/-- `p_nodesOnFace` (ComputeHeatTransferElemWallAlgorithm.C:184-214): zeroed, then one at the nearest node of every integration point of
the face. -/
def nodesOnFace (ipNodeMap : List (Fin nn)) (ic : Fin nn) : Bool :=
  ipNodeMap.foldl (fun w n => Function.update w n true) (fun _ => false) ic

/-- `dndx` (ComputeHeatTransferElemWallAlgorithm.C:248-268). -/
def ElemIp.dTdA (v : ElemIp nn nf nd N) (T : N → ℝ) : ℝ := ∑ ic, ∑ j, v.dndx ic j * v.area j * T (v.node ic)

/-- `dndxOn`. -/
def ElemIp.dTdAOn (v : ElemIp nn nf nd N) (T : N → ℝ) : ℝ :=
  ∑ ic, ∑ j, v.dndx ic j * v.area j * T (v.node ic) * (if v.onFace ic then 1 else 0)

/-- `dndxOff`. -/
def ElemIp.dTdAOff (v : ElemIp nn nf nd N) (T : N → ℝ) : ℝ :=
  ∑ ic, ∑ j, v.dndx ic j * v.area j * T (v.node ic) * (if v.onFace ic then 0 else 1)

/-- `invEltLen`. -/
def ElemIp.invLen (v : ElemIp nn nf nd N) : ℝ := ∑ ic, ∑ j, v.dndx ic j * v.area j * (if v.onFace ic then 1 else 0)

/-- `aMag` (ComputeHeatTransferElemWallAlgorithm.C:270-276). -/
noncomputable def ElemIp.aMag (v : ElemIp nn nf nd N) : ℝ := Real.sqrt (∑ j, v.area j * v.area j)

/-- `eltLen` (ComputeHeatTransferElemWallAlgorithm.C:277). -/
noncomputable def ElemIp.eltLen (v : ElemIp nn nf nd N) : ℝ := v.aMag / v.invLen

/-- Interpolation to the boundary point (ComputeHeatTransferElemWallAlgorithm.C:233-242). -/
def ElemIp.bip (v : ElemIp nn nf nd N) (q : N → ℝ) : ℝ := ∑ ic, v.shape ic * q (v.faceNode ic)

/-- `alpha` (ComputeHeatTransferElemWallAlgorithm.C:279-282). -/
noncomputable def ElemIp.alpha (v : ElemIp nn nf nd N) (f : Fluid nd N) : ℝ :=
  couplingParameter (v.bip f.cond) v.eltLen (v.bip f.rho * v.bip f.cp * v.eltLen * v.eltLen / (2 * v.bip f.cond * f.dt))

/-- One integration point of `ComputeHeatTransferElemWallAlgorithm::execute` (lines 217-290). -/
noncomputable def ElemIp.assemble (f : Fluid nd N) (s : Wall N) (v : ElemIp nn nf nd N) : Wall N :=
  s.add (v.node v.near) v.aMag (-(v.bip f.cond * v.dTdAOff f.temp)) (-(v.bip f.cond * v.dTdAOn f.temp))
    (-(v.bip f.cond * v.dTdA f.temp)) (v.alpha f * v.aMag)

/-- The fields after the driver ran, element scheme. -/
noncomputable def elemWall {R : Type*} [Fintype R] (f : Fluid nd N) (ips : R → List (ElemIp nn nf nd N)) : Wall N :=
  (Wall.parallelSum fun k => (ips k).foldl (ElemIp.assemble f) Wall.zero).normalize f.temp

/-! ## The solid's wall -/

/-- A face of the solid: shape functions, `ipNodeMap`, area vectors. -/
structure SolidFace (nf nip nd : ℕ) where
  shape : Fin nip → Fin nf → ℝ
  node : Fin nip → Fin nf
  area : Fin nip → Fin nd → ℝ

/-- `magA` (AssembleHeatCondWallSolverAlgorithm.C:161-165). -/
noncomputable def SolidFace.magA (e : SolidFace nf nip nd) (ip : Fin nip) : ℝ := Real.sqrt (∑ j, e.area ip j * e.area ip j)

/-- `AssembleHeatCondWallSolverAlgorithm::execute` for one face (lines 130-203); `alpha`, `q`, `tRef` are nodal boundary data, `T` is the
unknown. -/
noncomputable def solidWall (e : SolidFace nf nip nd) (alpha q tRef T : Fin nf → ℝ) (s : LocalSys (Fin nf) ℝ) : LocalSys (Fin nf) ℝ :=
  loop nip (fun ip s =>
    let nn := e.node ip
    let alphaBip := interp (e.shape ip) alpha
    let qBip := interp (e.shape ip) q
    let tRefBip := interp (e.shape ip) tRef
    let tBip := interp (e.shape ip) T
    let flux := (qBip + alphaBip * (tRefBip - tBip)) * e.magA ip
    let s := addR s nn flux
    let lhsFac := alphaBip * e.magA ip
    loop nf (fun ic s => addL s nn ic (e.shape ip ic * lhsFac)) s) s

/-- The three fields of `AssembleHeatCondWallSolverAlgorithm` chosen by `register_wall_bc` (HeatCondEquationSystem.C:810-944): coupling
parameter, heat flux, reference temperature.  With a Robin parameter the solid takes that parameter and the heat flux; otherwise it takes
the heat transfer coefficient and a heat flux of zero. -/
structure SolidData (N : Type*) where
  alpha : N → ℝ
  q : N → ℝ
  tRef : N → ℝ

/-- Convection coupling: coefficient and reference temperature come from the fluid's wall. -/
def convection (w : Wall N) : SolidData N := ⟨w.htc, fun _ => 0, w.tRef⟩

/-- Robin coupling: parameter and heat flux come from the fluid's wall, the reference temperature is the fluid's wall temperature. -/
def robinCoupling (w : Wall N) (temperature : N → ℝ) : SolidData N := ⟨w.robin, w.q, temperature⟩

end Nalu.Cht
