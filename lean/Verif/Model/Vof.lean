import Verif.Model.ElemContinuity
import Verif.Model.NonConformal

/-!
# Volume of fluid with balanced force

Models the kernels and algorithms of the two-phase (volume of fluid) path of the low-Mach solver:
`ContinuityVofAdvElemKernel.C`, `ContinuityVofOpenElemKernel.C`, `ContinuityVofInflowElemKernel.C`,
`ContinuityVofEvaporationElemKernel.C`, `ComputeMdotVofElemAlgorithm.C`, `ComputeMdotVofElemOpenAlgorithm.C`,
`ComputeMdotVofInflowAlgorithm.C`, `AssembleNodalGradPAWElemAlgorithm.C`,
`AssembleNodalGradPAWBoundaryAlgorithm.C`, `AssembleNodalGradAlgorithmDriver.C`,
`VolumeOfFluidScsAdvElemKernel.C`, `VolumeOfFluidScsNoPstabAdvElemKernel.C`,
`VolumeOfFluidScsUpwAdvElemKernel.C`, `VolumeOfFluidScsNoPstabUpwAdvElemKernel.C`,
`VolumeOfFluidMassElemKernel.C`, `VolumeOfFluidGclElemKernel.C`, `VolumeOfFluidDivElemKernel.C`,
`VolumeOfFluidScvAdvElemKernel.C`, `VolumeOfFluidOpenAdvElemKernel.C`, `VolumeOfFluidSucvNsoElemKernel.C`,
`VolumeOfFluidSharpenElemKernel.C`, `VolumeOfFluidEvaporationElemKernel.C`, `MomentumVofCapillaryElemKernel.C`,
`MomentumVofSharpenElemKernel.C` and the functions `update_and_clip`, `smooth_vof`, `smooth_vof_execute`,
`compute_interface_normal` and `compute_interface_curvature` of `VolumeOfFluidEquationSystem.C`.

Simplifications as in `Verif.Model.ElemKernel`: doubles are a linearly ordered field `K`, accumulators that start
at `0.0` are finite sums, a row index `node*nDim+i` is a pair.  `pow` and `sqrt` are arbitrary functions passed as
arguments (the localisation `c*pow(vof,n)*pow(1-vof,m)` is `VofOpts.loc`).  One rank: the parallel, periodic and
overset updates of the nodal sums are not repeated here.
-/

namespace Nalu.Vof
open Nalu.Edge Nalu.Kernel
open Nalu.NC (VofOpts)

variable {K : Type*} [Field K] [LinearOrder K] [IsStrictOrderedRing K]
variable {nn nip nf nd : ℕ}

/-! ## Volume flow rate and continuity -/

/-- Nodal fields gathered by `ContinuityVofAdvElemKernel` (ContinuityVofAdvElemKernel.C:114-124): density,
velocity relative to the mesh, pressure, projected nodal gradient, surface tension, curvature, volume
fraction. -/
structure VofNodes (nn nd : ℕ) (K : Type*) where
  rho : Fin nn → K
  vrtm : Fin nn → Fin nd → K
  p : Fin nn → K
  Gp : Fin nn → Fin nd → K
  sigma : Fin nn → K
  kappa : Fin nn → K
  vof : Fin nn → K

/-- `sigmaKappaIp` after the correction for the localized approach (ContinuityVofAdvElemKernel.C:154, 174,
ComputeMdotVofElemAlgorithm.C:246, 266, AssembleNodalGradPAWElemAlgorithm.C:218, 231). -/
def sigmaKappa (vo : VofOpts nd K) (N : Fin nn → K) (v : VofNodes nn nd K) : K :=
  (∑ ic, N ic * v.sigma ic * v.kappa ic) * vo.loc (∑ ic, N ic * v.vof ic)

/-- The volume flow rate through one sub-control surface: ContinuityVofAdvElemKernel.C:133-181, the same
expression as ComputeMdotVofElemAlgorithm.C:227-273. -/
def scsVdot (pts : K) (vo : VofOpts nd K) (N : Fin nn → K) (g : Fin nn → Fin nd → K) (a : Fin nd → K)
    (v : VofNodes nn nd K) : K :=
  let rhoIp := interp N v.rho
  let dvofda := ∑ ic, ∑ j, g ic j * v.vof ic * a j
  pts * sigmaKappa vo N v * dvofda / rhoIp +
    ∑ j, ((∑ ic, N ic * v.vrtm ic j) -
      pts * (((∑ ic, g ic j * v.p ic) - vo.buoy * rhoIp * vo.gravity j) / rhoIp - ∑ ic, N ic * v.Gp ic j)) * a j

/-- `ContinuityVofAdvElemKernel::execute` (ContinuityVofAdvElemKernel.C:103-187); `dndxLhs` is `v_dndx_lhs`. -/
def continuityVofAdv (pts : K) (vo : VofOpts nd K) (e : Scs nn nip nd K)
    (dndxLhs : Fin nip → Fin nn → Fin nd → K) (v : VofNodes nn nd K) (s : LocalSys (Fin nn) K) :
    LocalSys (Fin nn) K :=
  loop nip (fun ip s =>
    let rhoIp := interp (e.shape ip) v.rho
    let s := loop nn (fun ic s =>
      let f := ∑ j, -(dndxLhs ip ic j) * e.area ip j
      addL (addL s (e.il ip) ic (f / rhoIp)) (e.ir ip) ic (-(f / rhoIp))) s
    let vdot := scsVdot pts vo (e.shape ip) (e.dndx ip) (e.area ip) v
    addR (addR s (e.il ip) (-(vdot / pts))) (e.ir ip) (vdot / pts)) s

/-- `volume_flow_rate_scs` and `mass_flow_rate_scs` stored by `ComputeMdotVofElemAlgorithm`
(ComputeMdotVofElemAlgorithm.C:276-277). -/
def storedVdot (pts : K) (vo : VofOpts nd K) (e : Scs nn nip nd K) (v : VofNodes nn nd K) (ip : Fin nip) : K :=
  scsVdot pts vo (e.shape ip) (e.dndx ip) (e.area ip) v
@[inherit_doc storedVdot]
def storedMdot (pts : K) (vo : VofOpts nd K) (e : Scs nn nip nd K) (v : VofNodes nn nd K) (ip : Fin nip) : K :=
  interp (e.shape ip) v.rho * scsVdot pts vo (e.shape ip) (e.dndx ip) (e.area ip) v

/-- The open-boundary volume flow rate as a function of the value `vofBip` used in the localisation:
ContinuityVofOpenElemKernel.C:171-215 and ComputeMdotVofElemOpenAlgorithm.C:299-346. -/
def openVdotWith (pts pen : K) (vo : VofOpts nd K) (f : Face nn nf nip nd K) (v : VofNodes nn nd K)
    (pbc : Fin nn → K) (dynP : Fin nip → K) (ip : Fin nip) (vofBip : K) : K :=
  let N := f.shape ip
  let pBip := ∑ ic, N ic * v.p (f.node ic)
  let pbcBip := -(dynP ip) + ∑ ic, N ic * pbc (f.node ic)
  let rhoBip := ∑ ic, N ic * v.rho (f.node ic)
  let sk := (∑ ic, N ic * v.sigma (f.node ic) * v.kappa (f.node ic)) * vo.loc vofBip
  let dvofda := ∑ ic, ∑ j, f.dndx ip ic j * v.vof ic * f.area ip j
  pen * pts / rhoBip * invLength f ip * (pBip - pbcBip) * f.aMag ip + pts * sk * dvofda / rhoBip +
    ∑ j, ((∑ ic, N ic * v.vrtm (f.node ic) j) -
      pts * (((∑ ic, f.dndx ip ic j * v.p ic) - vo.buoy * rhoBip * vo.gravity j) / rhoBip -
        ∑ ic, N ic * v.Gp (f.node ic) j)) * f.area ip j

/-- Open-boundary rate in the kernel: the volume fraction is interpolated from the nodes of the face
(ContinuityVofOpenElemKernel.C:178-186, `vf_vof(ic)`). -/
def openVdotKernel (pts pen : K) (vo : VofOpts nd K) (f : Face nn nf nip nd K) (v : VofNodes nn nd K)
    (pbc : Fin nn → K) (dynP : Fin nip → K) (ip : Fin nip) : K :=
  openVdotWith pts pen vo f v pbc dynP ip (∑ ic, f.shape ip ic * v.vof (f.node ic))

/-- Reading the element array at a face node index: `p_vof[ic]` with `ic < nodesPerFace`. -/
def elemIndex (q : Fin nn → K) (ic : Fin nf) : K := if h : ic.val < nn then q ⟨ic.val, h⟩ else 0

/-- Open-boundary rate stored by `ComputeMdotVofElemOpenAlgorithm`: the volume fraction is interpolated with the face
shape functions from the *first* nodes of the element, `p_vof[ic]`, not from the nodes of the face
(ComputeMdotVofElemOpenAlgorithm.C:253, 313). -/
def openVdotStored (pts pen : K) (vo : VofOpts nd K) (f : Face nn nf nip nd K) (v : VofNodes nn nd K)
    (pbc : Fin nn → K) (dynP : Fin nip → K) (ip : Fin nip) : K :=
  openVdotWith pts pen vo f v pbc dynP ip (∑ ic, f.shape ip ic * elemIndex v.vof ic)

/-- `ContinuityVofOpenElemKernel::execute` (ContinuityVofOpenElemKernel.C:113-238). -/
def continuityVofOpen (pts pen : K) (vo : VofOpts nd K) (f : Face nn nf nip nd K)
    (dndxLhs : Fin nip → Fin nn → Fin nd → K) (v : VofNodes nn nd K) (pbc : Fin nn → K)
    (dynP : Fin nip → K) (s : LocalSys (Fin nn) K) : LocalSys (Fin nn) K :=
  loop nip (fun ip s =>
    let rhoBip := ∑ ic, f.shape ip ic * v.rho (f.node ic)
    let s := loop nf (fun ic s =>
      addL s (f.near ip) (f.node ic) (f.shape ip ic * pen / rhoBip * invLength f ip * f.aMag ip)) s
    let s := loop nn (fun ic s =>
      addL s (f.near ip) ic ((∑ j, -(dndxLhs ip ic j) * f.area ip j) / rhoBip)) s
    addR s (f.near ip) (-(openVdotKernel pts pen vo f v pbc dynP ip / pts))) s

/-- Prescribed volume inflow rate at a boundary integration point (ContinuityVofInflowElemKernel.C:88-104). -/
def inflowVdotIp (f : Face nn nf nip nd K) (ubc : Fin nn → Fin nd → K) (ip : Fin nip) : K :=
  ∑ j, (∑ ic, f.shape ip ic * ubc (f.node ic) j) * f.area ip j

/-- `ContinuityVofInflowElemKernel::execute` (ContinuityVofInflowElemKernel.C:70-108). -/
def continuityVofInflow (pts : K) (f : Face nn nf nip nd K) (ubc : Fin nn → Fin nd → K)
    (s : LocalSys (Fin nf) K) : LocalSys (Fin nf) K :=
  loop nip (fun ip s => addR s (f.loc ip) (-(inflowVdotIp f ubc ip / pts))) s

/-! ## The system on a mesh -/

/-- Nodal fields of the mesh. -/
structure VofFields (M : Type*) (nd : ℕ) (K : Type*) where
  rho : M → K
  vrtm : M → Fin nd → K
  Gp : M → Fin nd → K
  sigma : M → K
  kappa : M → K
  vof : M → K
  pbc : M → K
  ubc : M → Fin nd → K

variable {M : Type*}

/-- Gather of the nodal fields (ContinuityVofAdvElemKernel.C:114-124, ComputeMdotVofElemAlgorithm.C:199-221). -/
def VofFields.gather (F : VofFields M nd K) (node : Fin nn → M) (p : Fin nn → K) : VofNodes nn nd K :=
  ⟨fun a => F.rho (node a), fun a => F.vrtm (node a), p, fun a => F.Gp (node a), fun a => F.sigma (node a),
    fun a => F.kappa (node a), fun a => F.vof (node a)⟩

/-- The kernel run on one element (`projTimeScale_ = dt/gamma1`, ContinuityVofAdvElemKernel.C:96-101). -/
def vofElemWork (b : Bdf K) (vo : VofOpts nd K) (F : VofFields M nd K) (e : ElemRec M nd K) : Work M K :=
  ⟨Fin e.nn, e.node, fun p s => continuityVofAdv b.pts vo e.scs e.scs.dndx (F.gather e.node p) s⟩

/-- The kernel run on one open face. -/
def vofOpenWork (b : Bdf K) (pen : K) (vo : VofOpts nd K) (F : VofFields M nd K) (f : FaceRec M nd K) :
    Work M K :=
  ⟨Fin f.nn, f.node, fun p s => continuityVofOpen b.pts pen vo f.face f.face.dndx (F.gather f.node p)
    (fun a => F.pbc (f.node a)) f.dynP s⟩

/-- The kernel run on one inflow face. -/
def vofInflowWork (b : Bdf K) (F : VofFields M nd K) (f : FaceRec M nd K) : Work M K :=
  ⟨Fin f.nf, fun a => f.node (f.face.node a), fun _ s =>
    continuityVofInflow b.pts f.face (fun a => F.ubc (f.node a)) s⟩

/-- The assembled balanced-force continuity system at pressure `p` (registration LowMachEquationSystem.C, the
`balancedForce_` branches: one interior kernel, one open kernel, one inflow kernel). -/
def vofContinuity [DecidableEq M] (b : Bdf K) (pen : K) (vo : VofOpts nd K) (F : VofFields M nd K)
    (elems : List (ElemRec M nd K)) (opens inflows : List (FaceRec M nd K)) (p : M → K) : Sys M K :=
  assembleWorks (elems.map (vofElemWork b vo F) ++ opens.map (vofOpenWork b pen vo F) ++
    inflows.map (vofInflowWork b F)) p

/-! ## Projected nodal gradient with area weighting -/

/-- `*field_data(f, m) += v`. -/
def addAt {M : Type*} [DecidableEq M] (f : M → K) (m : M) (v : K) : M → K :=
  fun i => if i = m then f i + v else f i

/-- The two nodal vector fields assembled by the PAW algorithms. -/
structure Paw (M : Type*) (nd : ℕ) (K : Type*) where
  grad : M → Fin nd → K
  wt : M → Fin nd → K

/-- `gradP[j] += x; areaWeight[j] += w` at a node. -/
def Paw.add [DecidableEq M] (s : Paw M nd K) (m : M) (j : Fin nd) (x w : K) : Paw M nd K :=
  ⟨fun i k => if i = m ∧ k = j then s.grad i k + x else s.grad i k,
   fun i k => if i = m ∧ k = j then s.wt i k + w else s.wt i k⟩

/-- The weighted integrand of the interior at an integration point
(AssembleNodalGradPAWElemAlgorithm.C:205-238). -/
def pawTerm (vo : VofOpts nd K) (N : Fin nn → K) (g : Fin nn → Fin nd → K) (a : Fin nd → K)
    (v : VofNodes nn nd K) (j : Fin nd) : K :=
  let rhoIp := ∑ ic, N ic * v.rho ic
  |a j| / rhoIp * ((∑ ic, g ic j * v.p ic) - rhoIp * vo.gravity j * vo.buoy -
    sigmaKappa vo N v * ∑ ic, g ic j * v.vof ic)

/-- `AssembleNodalGradPAWElemAlgorithm::execute` on one element (AssembleNodalGradPAWElemAlgorithm.C:190-244). -/
def pawElem [DecidableEq M] (vo : VofOpts nd K) (F : VofFields M nd K) (p : M → K) (e : ElemRec M nd K)
    (s : Paw M nd K) : Paw M nd K :=
  loop e.nipS (fun ip s =>
    loop nd (fun j s =>
      let x := pawTerm vo (e.scs.shape ip) (e.scs.dndx ip) (e.scs.area ip) (F.gather e.node fun a => p (e.node a)) j
      let w := |e.scs.area ip j|
      (s.add (e.node (e.scs.il ip)) j x w).add (e.node (e.scs.ir ip)) j x w) s) s

/-- Element pressures of the boundary algorithm: with `overrideFacePressure_` those of the nodes of the face are
replaced by the boundary pressure (AssembleNodalGradPAWBoundaryAlgorithm.C:218-224). -/
def overridden (ovr : Bool) (f : Face nn nf nip nd K) (p pbc : Fin nn → K) (a : Fin nn) : K :=
  if ovr = true ∧ ∃ ic, f.node ic = a then pbc a else p a

/-- `AssembleNodalGradPAWBoundaryAlgorithm::execute` on one face
(AssembleNodalGradPAWBoundaryAlgorithm.C:234-289); the volume fraction in the localisation is read from the first
nodes of the element, as in `openVdotStored`. -/
def pawFace [DecidableEq M] (ovr : Bool) (vo : VofOpts nd K) (F : VofFields M nd K) (p : M → K)
    (f : FaceRec M nd K) (s : Paw M nd K) : Paw M nd K :=
  loop f.nip (fun ip s =>
    let N := f.face.shape ip
    let pe := overridden ovr f.face (fun a => p (f.node a)) (fun a => F.pbc (f.node a))
    let rhoBip := ∑ ic, N ic * F.rho (f.node (f.face.node ic))
    let vofBip := ∑ ic, N ic * elemIndex (fun a => F.vof (f.node a)) ic
    let sk := (∑ ic, N ic * F.sigma (f.node (f.face.node ic)) * F.kappa (f.node (f.face.node ic))) * vo.loc vofBip
    loop nd (fun j s =>
      let w := |f.face.area ip j|
      s.add (f.node (f.face.node (f.face.loc ip))) j
        (w / rhoBip * ((∑ ic, f.face.dndx ip ic j * pe ic) - vo.buoy * rhoBip * vo.gravity j -
          sk * ∑ ic, f.face.dndx ip ic j * F.vof (f.node ic))) w) s) s

/-- The two nodal sums before normalisation: `pre_work` (zero) and the supplemental algorithms
(AssembleNodalGradAlgorithmDriver.C:64-110); the boundary faces come with their override flag. -/
def pawSums [DecidableEq M] (vo : VofOpts nd K) (F : VofFields M nd K) (elems : List (ElemRec M nd K))
    (bnd : List (Bool × FaceRec M nd K)) (p : M → K) : Paw M nd K :=
  let s : Paw M nd K := ⟨fun _ _ => 0, fun _ _ => 0⟩
  let s := elems.foldl (fun s e => pawElem vo F p e s) s
  bnd.foldl (fun s f => pawFace f.1 vo F p f.2 s) s

/-- `AssembleNodalGradAlgorithmDriver`: assemble, then `normalize_by_area`
(AssembleNodalGradAlgorithmDriver.C:64-180). -/
def pawGradient [DecidableEq M] (vo : VofOpts nd K) (F : VofFields M nd K) (elems : List (ElemRec M nd K))
    (bnd : List (Bool × FaceRec M nd K)) (p : M → K) : M → Fin nd → K :=
  fun i j => (pawSums vo F elems bnd p).grad i j / (pawSums vo F elems bnd p).wt i j

/-- `project_nodal_velocity`, one component at a node that is not in a `notProjectedPart_`: `gOld` is the gradient
saved to `uTmp`, `gNew` the recomputed one, `densFac` is 1 with balanced force and 0 without
(LowMachEquationSystem.C:880-970). -/
def projectNode (pts densFac rho u gOld gNew : K) : K :=
  u - pts / (densFac + (1 - densFac) * rho) * (gNew - gOld)

/-! ## Kernels of the volume-fraction equation -/

/-- `VolumeOfFluidScsAdvElemKernel::execute` (VolumeOfFluidScsAdvElemKernel.C:60-96). -/
def vofScsAdv (e : Scs nn nip nd K) (vdot : Fin nip → K) (q : Fin nn → K)
    (s : LocalSys (Fin nn) K) : LocalSys (Fin nn) K :=
  loop nip (fun ip s =>
    let s := loop nn (fun ic s =>
      addL (addL s (e.il ip) ic (e.shape ip ic * vdot ip)) (e.ir ip) ic (-(e.shape ip ic * vdot ip))) s
    let adv := ∑ ic, e.shape ip ic * vdot ip * q ic
    addR (addR s (e.il ip) (-adv)) (e.ir ip) adv) s

/-- The rate from the interpolated velocity used by the kernels without pressure stabilisation
(VolumeOfFluidScsNoPstabAdvElemKernel.C:84-101, VolumeOfFluidScsNoPstabUpwAdvElemKernel.C:96-114). -/
def noPstabVdot (e : Scs nn nip nd K) (u : Fin nn → Fin nd → K) (ip : Fin nip) : K :=
  ∑ i, (∑ ic, e.shape ip ic * u ic i) * e.area ip i

/-- `VolumeOfFluidScsNoPstabAdvElemKernel::execute` (VolumeOfFluidScsNoPstabAdvElemKernel.C:65-120). -/
def vofScsNoPstab (e : Scs nn nip nd K) (u : Fin nn → Fin nd → K) (q : Fin nn → K)
    (s : LocalSys (Fin nn) K) : LocalSys (Fin nn) K :=
  vofScsAdv e (noPstabVdot e u) q s

/-- `VolumeOfFluidScsUpwAdvElemKernel::execute` (VolumeOfFluidScsUpwAdvElemKernel.C:71-154); of the options only
`hoUpwind`, `useLimiter` and `small` are read.  The right-node coefficient goes to column `il`, as in the code
(lines 150-152). -/
def vofScsUpw (o : Opts K) (e : Scs nn nip nd K) (vdot : Fin nip → K) (x : Fin nn → Fin nd → K)
    (q : Fin nn → K) (G : Fin nn → Fin nd → K) (s : LocalSys (Fin nn) K) : LocalSys (Fin nn) K :=
  loop nip (fun ip s =>
    let il := e.il ip
    let ir := e.ir ip
    let ex := extrapolate o (coordIp (e.shape ip) x) (x il) (x ir) (G il) (G ir) (q il) (q ir)
    let adv := vdot ip * (if vdot ip > 0 then ex.1 else ex.2)
    let s := addR (addR s il (-adv)) ir adv
    let fL := 1 / 2 * (vdot ip + |vdot ip|)
    let s := addL (addL s il il fL) ir il (-fL)
    let fR := 1 / 2 * (vdot ip - |vdot ip|)
    addL (addL s il il (-fR)) ir il fR) s

/-- `VolumeOfFluidScsNoPstabUpwAdvElemKernel::execute` (VolumeOfFluidScsNoPstabUpwAdvElemKernel.C:73-163). -/
def vofScsNoPstabUpw (o : Opts K) (e : Scs nn nip nd K) (u : Fin nn → Fin nd → K) (x : Fin nn → Fin nd → K)
    (q : Fin nn → K) (G : Fin nn → Fin nd → K) (s : LocalSys (Fin nn) K) : LocalSys (Fin nn) K :=
  vofScsUpw o e (noPstabVdot e u) x q G s

/-- `VolumeOfFluidMassElemKernel::execute` (VolumeOfFluidMassElemKernel.C:85-130). -/
def vofMass (b : Bdf K) (e : Scv nn nip K) (q : Levels nn K) (s : LocalSys (Fin nn) K) : LocalSys (Fin nn) K :=
  loop nip (fun ip s =>
    let N := e.shape ip
    let s := loop nn (fun ic s => addL s (e.node ip) ic (N ic * b.g1 / b.dt * e.vol ip)) s
    addR s (e.node ip)
      (-((b.g1 * interp N q.np1 + b.g2 * interp N q.n + b.g3 * interp N q.nm1) / b.dt * e.vol ip))) s

/-- `VolumeOfFluidGclElemKernel::execute` (VolumeOfFluidGclElemKernel.C:68-100). -/
def vofGcl (e : Scv nn nip K) (divV q : Fin nn → K) (s : LocalSys (Fin nn) K) : LocalSys (Fin nn) K :=
  loop nip (fun ip s =>
    let N := e.shape ip
    let s := addR s (e.node ip) (-(interp N q * interp N divV * e.vol ip))
    loop nn (fun ic s => addL s (e.node ip) ic (N ic * (interp N divV * e.vol ip))) s) s

/-- `VolumeOfFluidDivElemKernel::execute` (VolumeOfFluidDivElemKernel.C:66-105); `g` is `dndx_scv`. -/
def vofDiv (e : Scv nn nip K) (g : Fin nip → Fin nn → Fin nd → K) (u : Fin nn → Fin nd → K) (q : Fin nn → K)
    (s : LocalSys (Fin nn) K) : LocalSys (Fin nn) K :=
  loop nip (fun ip s =>
    let N := e.shape ip
    let dU := divU (g ip) u
    let s := loop nn (fun ic s => addL s (e.node ip) ic (-(N ic * dU * e.vol ip))) s
    addR s (e.node ip) (interp N q * dU * e.vol ip)) s

/-- `VolumeOfFluidScvAdvElemKernel::execute` (VolumeOfFluidScvAdvElemKernel.C:66-117). -/
def vofScvAdv (e : Scv nn nip K) (g : Fin nip → Fin nn → Fin nd → K) (u : Fin nn → Fin nd → K) (q : Fin nn → K)
    (s : LocalSys (Fin nn) K) : LocalSys (Fin nn) K :=
  loop nip (fun ip s =>
    let lhsAdv : Fin nn → K := fun ic => ∑ j, coordIp (e.shape ip) u j * g ip ic j
    let s := loop nn (fun ic s => addL s (e.node ip) ic (lhsAdv ic * e.vol ip)) s
    addR s (e.node ip) (-((∑ ic, lhsAdv ic * q ic) * e.vol ip))) s

/-- `VolumeOfFluidOpenAdvElemKernel::execute` (VolumeOfFluidOpenAdvElemKernel.C:66-120). -/
def vofOpenAdv (f : Face nn nf nip nd K) (vdot : Fin nip → K) (q qbc : Fin nn → K)
    (s : LocalSys (Fin nn) K) : LocalSys (Fin nn) K :=
  loop nip (fun ip s =>
    let near := f.near ip
    let qIp := ∑ ic, f.adv ip ic * q (f.node ic)
    let qEnt := ∑ ic, f.adv ip ic * qbc (f.node ic)
    let leaving : K := if vdot ip > 0 then 1 else 0
    let s := addR s near (-(vdot ip * qIp * leaving))
    let s := loop nf (fun ic s => addL s near (f.node ic) (f.adv ip ic * (vdot ip * leaving))) s
    addR s near (-(vdot ip * qEnt * (1 - leaving)))) s

/-- Options of `VolumeOfFluidSucvNsoElemKernel` (VolumeOfFluidSucvNsoElemKernel.C:31-60): `small_`, `timeFac_`,
`gijC_`, `Cupw_`, `sucvFac_`, `nsoFac_`, and the library square root. -/
structure SucvOpts (K : Type*) where
  small : K
  timeFac : K
  gijC : K
  cupw : K
  sucv : K
  nso : K
  sqrt : K → K

/-- `VolumeOfFluidSucvNsoElemKernel::execute` (VolumeOfFluidSucvNsoElemKernel.C:102-237). -/
def vofSucvNso (o : SucvOpts K) (b : Bdf K) (e : Scs nn nip nd K) (gU gL : Fin nip → Fin nd → Fin nd → K)
    (u : Fin nn → Fin nd → K) (q : Levels nn K) (s : LocalSys (Fin nn) K) : LocalSys (Fin nn) K :=
  loop nip (fun ip s =>
    let N := e.shape ip
    let uIp : Fin nd → K := fun j => o.small * (1 - o.timeFac) + ∑ ic, N ic * u ic j
    let dq : Fin nd → K := fun j => ∑ ic, q.np1 ic * e.dndx ip ic j
    let ujaj := ∑ i, uIp i * e.area ip i
    let uGu := ∑ i, ∑ j, uIp i * gL ip i j * o.gijC * uIp j
    let gMag := ∑ i, ∑ j, dq i * gU ip i j / o.gijC * dq j
    let tau := 1 / o.sqrt (2 / b.dt * (2 / b.dt) * o.timeFac + uGu)
    let lf : Fin nn → K := fun ic => ∑ i, -(uIp i * e.dndx ip ic i)
    let s := loop nn (fun ic s =>
      addL (addL s (e.il ip) ic (tau * ujaj * lf ic * o.sucv)) (e.ir ip) ic (-(tau * ujaj * lf ic * o.sucv))) s
    let uDq := ∑ ic, ∑ i, uIp i * e.dndx ip ic i * q.np1 ic
    let pde := (b.g1 * interp N q.np1 + b.g2 * interp N q.n + b.g3 * interp N q.nm1) / b.dt + uDq
    let rS := -tau * ujaj * pde * o.sucv
    let s := addR (addR s (e.il ip) (-rS)) (e.ir ip) rS
    let nu := min (o.cupw * o.sqrt uGu) (o.sqrt (pde * pde / (gMag + o.small)))
    let fac : Fin nn → K := fun ic => ∑ i, ∑ j, gU ip i j / o.gijC * e.dndx ip ic j * e.area ip i
    let s := loop nn (fun ic s =>
      addL (addL s (e.il ip) ic (nu * -fac ic * o.nso)) (e.ir ip) ic (-(nu * -fac ic * o.nso))) s
    let rN := -nu * (∑ ic, fac ic * q.np1 ic) * o.nso
    addR (addR s (e.il ip) (-rN)) (e.ir ip) rN) s

/-- Compression velocity `ucj` at a node: `cAlpha_*w_magU[ic]*v_interfaceNormal(ic,j)`; `magU` is the square root of
VolumeOfFluidSharpenElemKernel.C:80-86 (data here). -/
def compression (cAlpha : K) (magU : Fin nn → K) (n : Fin nn → Fin nd → K) (ic : Fin nn) (j : Fin nd) : K :=
  cAlpha * magU ic * n ic j

/-- `VolumeOfFluidSharpenElemKernel::execute` (VolumeOfFluidSharpenElemKernel.C:66-113); `lhsTwo` is multiplied by
`0.0` in the code. -/
def vofSharpen (cAlpha : K) (e : Scv nn nip K) (g : Fin nip → Fin nn → Fin nd → K) (magU : Fin nn → K)
    (n : Fin nn → Fin nd → K) (q : Fin nn → K) (s : LocalSys (Fin nn) K) : LocalSys (Fin nn) K :=
  loop nip (fun ip s =>
    let one : Fin nn → K := fun ic => ∑ j, compression cAlpha magU n ic j * g ip ic j
    let two : Fin nn → K := fun ic => ∑ j, -(2 * compression cAlpha magU n ic j * q ic * g ip ic j)
    let s := loop nn (fun ic s => addL s (e.node ip) ic ((one ic * 1 + two ic * 0) * e.vol ip)) s
    addR s (e.node ip) (-((∑ ic, one ic * (q ic * (1 - q ic))) * e.vol ip))) s

/-- `MomentumVofSharpenElemKernel::execute` (MomentumVofSharpenElemKernel.C:71-151). -/
def momentumVofSharpen (cAlpha densDiff : K) (e : Scs nn nip nd K) (magU : Fin nn → K) (n : Fin nn → Fin nd → K)
    (q : Fin nn → K) (u : Fin nn → Fin nd → K) (s : LocalSys (Fin nn × Fin nd) K) :
    LocalSys (Fin nn × Fin nd) K :=
  loop nip (fun ip s =>
    let sh := (∑ ic, ∑ j, e.shape ip ic * compression cAlpha magU n ic j * q ic * (1 - q ic) * e.area ip j) *
      densDiff
    let s := loop nd (fun i s =>
      addR (addR s (e.il ip, i) (-(coordIp (e.shape ip) u i * sh))) (e.ir ip, i) (coordIp (e.shape ip) u i * sh)) s
    loop nn (fun ic s => loop nd (fun i s =>
      addL (addL s (e.il ip, i) (ic, i) (e.shape ip ic * sh)) (e.ir ip, i) (ic, i) (-(e.shape ip ic * sh))) s) s) s

/-- `MomentumVofCapillaryElemKernel::execute` (MomentumVofCapillaryElemKernel.C:77-177); `sqrt` is the library
function. -/
def momentumCapillary (sqrt : K → K) (dt : K) (e : Scs nn nip nd K) (sigma q : Fin nn → K)
    (n : Fin nn → Fin nd → K) (u : Fin nn → Fin nd → K) (s : LocalSys (Fin nn × Fin nd) K) :
    LocalSys (Fin nn × Fin nd) K :=
  loop nip (fun ip s =>
    let il := e.il ip
    let ir := e.ir ip
    let nx : Fin nd → K := fun j => ∑ ic, e.shape ip ic * n ic j
    let dq : Fin nd → K := fun j => ∑ ic, q ic * e.dndx ip ic j
    let mu := interp (e.shape ip) sigma * dt * sqrt (∑ j, dq j * dq j)
    loop nn (fun ic s => loop nd (fun j s => loop nd (fun i s =>
      let f := -mu * e.dndx ip ic j * e.area ip j * (1 - nx i * nx i)
      let s := addL (addL s (il, i) (ic, i) f) (ir, i) (ic, i) (-f)
      let s := addR (addR s (il, i) (-(f * u ic i))) (ir, i) (f * u ic i)
      loop nd (fun l s =>
        if i ≠ l then
          let f := mu * e.dndx ip ic j * e.area ip j * (nx i * nx l)
          let s := addL (addL s (il, i) (ic, l) f) (ir, i) (ic, l) (-f)
          addR (addR s (il, i) (-(f * u ic l))) (ir, i) (f * u ic l)
        else s) s) s) s) s) s

/-! ## Evaporation -/

/-- The pair (`vofNp1Ip`, `w_gradVof`) of the evaporation kernels: inside the loop over nodes the running value of the
interpolant multiplies the shape function gradient (VolumeOfFluidEvaporationElemKernel.C:94-100,
ContinuityVofEvaporationElemKernel.C:91-97). -/
def evapState (N : Fin nn → K) (g : Fin nn → Fin nd → K) (q : Fin nn → K) : K × (Fin nd → K) :=
  loop nn (fun ic (s : K × (Fin nd → K)) =>
    let v := s.1 + N ic * q ic
    (v, fun j => s.2 j + v * g ic j)) (0, fun _ => 0)

/-- Constants of the evaporation kernels: `jm_`, `c_` and `loc = pow(vof,n)*pow(1-vof,m)`, the square root. -/
structure EvapOpts (K : Type*) where
  jm : K
  c : K
  loc : K → K
  sqrt : K → K

/-- `sM` (VolumeOfFluidEvaporationElemKernel.C:102-110). -/
def evapRate (o : EvapOpts K) (N : Fin nn → K) (g : Fin nn → Fin nd → K) (q : Fin nn → K) : K :=
  let st := evapState N g q
  o.c * o.loc st.1 * o.sqrt (∑ j, st.2 j * st.2 j) * o.jm

/-- `VolumeOfFluidEvaporationElemKernel::execute` (VolumeOfFluidEvaporationElemKernel.C:71-115). -/
def vofEvaporation (o : EvapOpts K) (rhoL : K) (e : Scv nn nip K) (g : Fin nip → Fin nn → Fin nd → K)
    (q : Fin nn → K) (s : LocalSys (Fin nn) K) : LocalSys (Fin nn) K :=
  loop nip (fun ip s =>
    addR s (e.node ip) (-(o.c * evapRate o (e.shape ip) (g ip) q / rhoL * e.vol ip))) s

/-- `ContinuityVofEvaporationElemKernel::execute` (ContinuityVofEvaporationElemKernel.C:68-112). -/
def continuityEvaporation (o : EvapOpts K) (rhoL rhoG : K) (e : Scv nn nip K)
    (g : Fin nip → Fin nn → Fin nd → K) (q : Fin nn → K) (s : LocalSys (Fin nn) K) : LocalSys (Fin nn) K :=
  loop nip (fun ip s =>
    addR s (e.node ip)
      (-(o.c * evapRate o (e.shape ip) (g ip) q * (1 / rhoG - 1 / rhoL) * e.vol ip))) s

/-! ## Update, smoothing, interface normal and curvature -/

/-- `update_and_clip` at one node (VolumeOfFluidEquationSystem.C:931-969). -/
def updateAndClip (delta vof vofTmp : K) : K :=
  let v := vof + vofTmp
  if v < 0 - delta then 0 - delta else if v > 1 + delta then 1 + delta else v

/-- `qDiff` (VolumeOfFluidEquationSystem.C:1447-1456). -/
def smoothFlux (e : Scs nn nip nd K) (q : Fin nn → K) (ip : Fin nip) : K :=
  ∑ ic, (∑ j, -(e.dndx ip ic j) * e.area ip j) * q ic

/-- `smooth_vof_execute` on one element (VolumeOfFluidEquationSystem.C:1424-1461). -/
def smoothElem [DecidableEq M] (vol : M → K) (q : M → K) (e : ElemRec M nd K) (r : M → K) : M → K :=
  loop e.nipS (fun ip r =>
    let f := smoothFlux e.scs (fun a => q (e.node a)) ip
    let r := addAt r (e.node (e.scs.il ip)) (-(f / vol (e.node (e.scs.il ip))))
    addAt r (e.node (e.scs.ir ip)) (f / vol (e.node (e.scs.ir ip)))) r

/-- `smooth_vof_execute` (VolumeOfFluidEquationSystem.C:1328-1482). -/
def smoothRhs [DecidableEq M] (vol : M → K) (elems : List (ElemRec M nd K)) (q : M → K) : M → K :=
  elems.foldl (fun r e => smoothElem vol q e r) (fun _ => 0)

/-- `smooth_vof` (VolumeOfFluidEquationSystem.C:1301-1323): `iter` times, starting from the volume fraction;
`fac` is `Fo_*dxMin_*dxMin_`. -/
def smoothVof [DecidableEq M] (fac : K) (vol : M → K) (elems : List (ElemRec M nd K)) : ℕ → (M → K) → M → K
  | 0, q => q
  | k + 1, q => smoothVof fac vol elems k (fun i => fac * smoothRhs vol elems q i + 1 * q i)

/-- An element with the gradient operator at its sub-control volume points (`meSCV->grad_op`). -/
structure ScvRec (M : Type*) (nd : ℕ) (K : Type*) where
  nn : ℕ
  nip : ℕ
  vol : Fin nip → K
  near : Fin nip → Fin nn
  dndx : Fin nip → Fin nn → Fin nd → K
  node : Fin nn → M

/-- Gradient of a nodal field at a sub-control volume point (VolumeOfFluidEquationSystem.C:1107-1115). -/
def ScvRec.grad (e : ScvRec M nd K) (q : M → K) (ip : Fin e.nip) (j : Fin nd) : K :=
  ∑ ic, e.dndx ip ic j * q (e.node ic)

/-- What one point adds to the normal of its nearest node (VolumeOfFluidEquationSystem.C:1117-1134); `small` is
`1.0e-16`. -/
def normalTerm (sqrt : K → K) (small : K) (vol : M → K) (q : M → K) (e : ScvRec M nd K) (ip : Fin e.nip)
    (j : Fin nd) : K :=
  e.grad q ip j / sqrt (small + ∑ k, e.grad q ip k * e.grad q ip k) *
    (e.vol ip / vol (e.node (e.near ip)))

/-- `compute_interface_normal`, component `j` (VolumeOfFluidEquationSystem.C:1002-1137). -/
def interfaceNormal [DecidableEq M] (sqrt : K → K) (small : K) (vol : M → K) (elems : List (ScvRec M nd K))
    (q : M → K) (j : Fin nd) : M → K :=
  elems.foldl (fun r e => loop e.nip (fun ip r =>
    addAt r (e.node (e.near ip)) (normalTerm sqrt small vol q e ip j)) r) (fun _ => 0)

/-- `compute_interface_curvature` (VolumeOfFluidEquationSystem.C:1162-1280). -/
def interfaceCurvature [DecidableEq M] (vol : M → K) (elems : List (ScvRec M nd K))
    (n : M → Fin nd → K) : M → K :=
  elems.foldl (fun r e => loop e.nip (fun ip r =>
    let divN := ∑ ic, ∑ j, e.dndx ip ic j * n (e.node ic) j
    addAt r (e.node (e.near ip)) (-divN * e.vol ip / vol (e.node (e.near ip)))) r) (fun _ => 0)

end Nalu.Vof
