import Verif.Spec.ElemKernel

/-!
# Element-based continuity (pressure Poisson) system on a mesh

Models the continuity system of the element scheme as `ContinuityEquationSystem` registers it
(LowMachEquationSystem.C:2300-2760): on every element block `ContinuityAdvElemKernel` followed by
`ContinuityMassElemKernel`, on every open boundary `ContinuityOpenElemKernel`, on every inflow boundary
`ContinuityInflowElemKernel`.  The mass flow rates are recomputed after the pressure update by
`ComputeMdotElemAlgorithm` and `ComputeMdotElemOpenAlgorithm`.  Elements may be of different types.
-/

namespace Nalu.Kernel
open Nalu.Edge

variable {K : Type*} [Field K] [LinearOrder K] [IsStrictOrderedRing K]

/-- One element of the mesh: its master element data and its nodes. -/
structure ElemRec (M : Type*) (nd : ℕ) (K : Type*) where
  nn : ℕ
  nipS : ℕ
  nipV : ℕ
  scs : Scs nn nipS nd K
  scv : Scv nn nipV K
  node : Fin nn → M

/-- One exposed boundary face with its element. -/
structure FaceRec (M : Type*) (nd : ℕ) (K : Type*) where
  nn : ℕ
  nf : ℕ
  nip : ℕ
  face : Face nn nf nip nd K
  node : Fin nn → M
  dynP : Fin nip → K

/-- Nodal fields of the mesh: density at three levels, velocity relative to the mesh, projected nodal pressure
gradient, open-boundary pressure, inflow velocity. -/
structure FlowFields (M : Type*) (nd : ℕ) (K : Type*) where
  rho : M → K
  rhoN : M → K
  rhoNm1 : M → K
  vrtm : M → Fin nd → K
  Gp : M → Fin nd → K
  pbc : M → K
  ubc : M → Fin nd → K

variable {M : Type*} {nd : ℕ}

/-- Gather of the nodal fields for an element or a face element (ContinuityAdvElemKernel.C:96-107). -/
def FlowFields.gather (F : FlowFields M nd K) {nn : ℕ} (node : Fin nn → M) (p : Fin nn → K) :
    FlowNodes nn nd K :=
  ⟨fun a => F.rho (node a), fun a => F.vrtm (node a), p, fun a => F.Gp (node a)⟩

/-- The density at three time levels at the nodes of an element (ContinuityMassElemKernel.C:88-93). -/
def FlowFields.levels (F : FlowFields M nd K) {nn : ℕ} (node : Fin nn → M) : Levels nn K :=
  ⟨fun a => F.rho (node a), fun a => F.rhoN (node a), fun a => F.rhoNm1 (node a)⟩

/-- Projection time scale used by every continuity kernel: `dt / gamma1` (ContinuityAdvElemKernel.C:83,
ContinuityMassElemKernel.C:89 `projTimeScale`). -/
def Bdf.pts (b : Bdf K) : K := b.dt / b.g1

/-- The kernels run on one element. -/
def elemWork (b : Bdf K) (F : FlowFields M nd K) (e : ElemRec M nd K) : Work M K :=
  ⟨Fin e.nn, e.node, fun p s => continuityMass b e.scv (F.levels e.node)
    (continuityAdv b.pts e.scs e.scs.dndx (F.gather e.node p) s)⟩

/-- The kernel run on one open face. -/
def openWork (b : Bdf K) (pen : K) (F : FlowFields M nd K) (f : FaceRec M nd K) : Work M K :=
  ⟨Fin f.nn, f.node, fun p s => continuityOpenElem b.pts pen f.face f.face.dndx (F.gather f.node p)
    (fun a => F.pbc (f.node a)) f.dynP s⟩

/-- The kernel run on one inflow face; its rows are the nodes of the face. -/
def inflowWork (b : Bdf K) (F : FlowFields M nd K) (f : FaceRec M nd K) : Work M K :=
  ⟨Fin f.nf, fun a => f.node (f.face.node a), fun _ s =>
    continuityInflowElem b.pts f.face (fun a => F.rho (f.node a)) (fun a => F.ubc (f.node a)) s⟩

/-- The assembled continuity system at pressure `p`. -/
def elemContinuity [DecidableEq M] (b : Bdf K) (pen : K) (F : FlowFields M nd K)
    (elems : List (ElemRec M nd K)) (opens inflows : List (FaceRec M nd K)) (p : M → K) : Sys M K :=
  assembleWorks (elems.map (elemWork b F) ++ opens.map (openWork b pen F) ++
    inflows.map (inflowWork b F)) p

/-- `mass_flow_rate_scs` of element `e` at integration point `ip` recomputed at pressure `p`
(ComputeMdotElemAlgorithm.C:212-245). -/
def elemMdot (b : Bdf K) (F : FlowFields M nd K) (p : M → K) (e : ElemRec M nd K) (ip : Fin e.nipS) : K :=
  scsMdot b.pts (e.scs.shape ip) (e.scs.dndx ip) (e.scs.area ip) (F.gather e.node fun a => p (e.node a))

/-- `open_mass_flow_rate` at pressure `p` (ComputeMdotElemOpenAlgorithm.C:277-312). -/
def openMdotAt (b : Bdf K) (pen : K) (F : FlowFields M nd K) (p : M → K) (f : FaceRec M nd K)
    (ip : Fin f.nip) : K :=
  openMdotIp b.pts pen f.face (F.gather f.node fun a => p (f.node a)) (fun a => F.pbc (f.node a)) f.dynP ip

/-- Inflow rate (ComputeMdotInflowAlgorithm.C). -/
def inflowMdotAt (F : FlowFields M nd K) (f : FaceRec M nd K) (ip : Fin f.nip) : K :=
  inflowMdotIp f.face (fun a => F.rho (f.node a)) (fun a => F.ubc (f.node a)) ip

/-- Density accumulation of one sub-control volume, as `ComputeMdotElemAlgorithm`'s mass balance review
accumulates it (ContinuityMassElemKernel.C:111-116 without the division by the time scale). -/
def accumAt (b : Bdf K) (F : FlowFields M nd K) (e : ElemRec M nd K) (ip : Fin e.nipV) : K :=
  (b.g1 * interp (e.scv.shape ip) (F.levels e.node).np1 + b.g2 * interp (e.scv.shape ip) (F.levels e.node).n +
    b.g3 * interp (e.scv.shape ip) (F.levels e.node).nm1) * e.scv.vol ip / b.dt

end Nalu.Kernel
