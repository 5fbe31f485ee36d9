import Verif.Model.ElemKernel

/-!
# Finite-element (Galerkin) kernels

Models the `*FemKernel.C` files of /repo/src/kernel: `ScalarDiffFemKernel.C`, `ScalarAdvFemKernel.C`,
`ScalarMassFemKernel.C`, `HeatCondMassFemKernel.C`, `ScalarPngFemKernel.C`, `ScalarPngBcFemKernel.C`,
`ContinuityAdvFemKernel.C`, `ContinuityInflowFemKernel.C`, `ContinuityOpenFemKernel.C`,
`ScalarOpenAdvFemKernel.C`, `ScalarFluxPenaltyFemKernel.C`, `MomentumAdvFemKernel.C`,
`MomentumDiffFemKernel.C`, `MomentumMassFemKernel.C`, `MomentumBodyForceFemKernel.C` and
`MomentumOpenAdvDiffFemKernel.C`.

Simplifications: as in `Verif.Model.ElemKernel` (one SIMD lane, an ordered field in place of doubles, the
flat row `node*nDim + i` is the pair `(node, i)`, accumulators are finite sums).  The choice between
`dndx_fem` and its shifted variant is made by the caller, who passes the gradient operator.  Loops over
rows, columns and components that write `lhs` or `rhs` are loops in the order of the code.
-/

namespace Nalu.Fem
open Nalu.Edge Nalu.Kernel

variable {K : Type*} [Field K] [LinearOrder K] [IsStrictOrderedRing K]
variable {nn nip nf nd : ℕ}

/-- What a FEM kernel knows of its element: `v_shape_function_`, `dndx_fem`, `det_j_fem`, `v_ip_weight_`
(e.g. ScalarDiffFemKernel.C:83-84, 97). -/
structure Elem (nn nip nd : ℕ) (K : Type*) where
  shape : Fin nip → Fin nn → K
  dndx : Fin nip → Fin nn → Fin nd → K
  detJ : Fin nip → K
  weight : Fin nip → K

/-- `const DoubleType ipFactor = v_det_j(ip)*v_ip_weight_(ip);` -/
def Elem.fac (e : Elem nn nip nd K) (ip : Fin nip) : K := e.detJ ip * e.weight ip

/-- `ScalarDiffFemKernel::execute` (ScalarDiffFemKernel.C:76-115). -/
def scalarDiff (e : Elem nn nip nd K) (mu q : Fin nn → K) (s : LocalSys (Fin nn) K) :
    LocalSys (Fin nn) K :=
  loop nip (fun ip s =>
    let muIp := interp (e.shape ip) mu
    loop nn (fun ir s =>
      let s := loop nn (fun ic s =>
        addL s ir ic ((∑ j, e.dndx ip ir j * e.dndx ip ic j) * muIp * e.fac ip)) s
      addR s ir (-((∑ ic, ∑ j, e.dndx ip ir j * e.dndx ip ic j * q ic) * muIp * e.fac ip))) s) s

/-- `w_rhoUIp[j]` of the advection kernels (ScalarAdvFemKernel.C:99-105, MomentumAdvFemKernel.C:124-132,
ContinuityAdvFemKernel.C:134-143): density times velocity at the nodes, interpolated. -/
def rhoU (N : Fin nn → K) (rho : Fin nn → K) (u : Fin nn → Fin nd → K) (j : Fin nd) : K :=
  ∑ ic, N ic * rho ic * u ic j

/-- `ScalarAdvFemKernel::execute` (ScalarAdvFemKernel.C:77-124). -/
def scalarAdv (e : Elem nn nip nd K) (rho : Fin nn → K) (u : Fin nn → Fin nd → K) (q : Fin nn → K)
    (s : LocalSys (Fin nn) K) : LocalSys (Fin nn) K :=
  loop nip (fun ip s =>
    let qIp := interp (e.shape ip) q
    loop nn (fun ir s =>
      let massFlux := ∑ j, -(rhoU (e.shape ip) rho u j * e.dndx ip ir j)
      let s := loop nn (fun ic s => addL s ir ic (massFlux * e.shape ip ic * e.fac ip)) s
      addR s ir (-(massFlux * qIp * e.fac ip))) s) s

/-- `ScalarMassFemKernel::execute` (ScalarMassFemKernel.C:98-147). -/
def scalarMass (b : Bdf K) (e : Elem nn nip nd K) (rho q : Levels nn K) (s : LocalSys (Fin nn) K) :
    LocalSys (Fin nn) K :=
  loop nip (fun ip s =>
    let N := e.shape ip
    loop nn (fun ir s =>
      let s := loop nn (fun ic s =>
        addL s ir ic (b.g1 * interp N rho.np1 * N ir * N ic / b.dt * e.fac ip)) s
      addR s ir (-(N ir * (b.g1 * interp N q.np1 * interp N rho.np1 + b.g2 * interp N q.n * interp N rho.n +
        b.g3 * interp N q.nm1 * interp N rho.nm1) / b.dt * e.fac ip))) s) s

/-- `HeatCondMassFemKernel::execute` (HeatCondMassFemKernel.C:93-138). -/
def heatMass (b : Bdf K) (e : Elem nn nip nd K) (rho cp : Fin nn → K) (t : Levels nn K)
    (s : LocalSys (Fin nn) K) : LocalSys (Fin nn) K :=
  loop nip (fun ip s =>
    let N := e.shape ip
    let f := interp N rho * interp N cp * e.detJ ip * e.weight ip
    loop nn (fun ir s =>
      let s := loop nn (fun ic s => addL s ir ic (b.g1 * f * (N ir * N ic) / b.dt)) s
      addR s ir (-((∑ ic, N ir * N ic * ((b.g1 * t.np1 ic + b.g2 * t.n ic + b.g3 * t.nm1 ic) / b.dt)) * f))) s) s

/-- `ScalarPngFemKernel::execute` (ScalarPngFemKernel.C:76-122): projected nodal gradient, volume part. -/
def png (e : Elem nn nip nd K) (q : Fin nn → K) (G : Fin nn → Fin nd → K)
    (s : LocalSys (Fin nn × Fin nd) K) : LocalSys (Fin nn × Fin nd) K :=
  loop nip (fun ip s =>
    let N := e.shape ip
    loop nn (fun ir s => loop nd (fun j s =>
      let s := loop nn (fun ic s => addL s (ir, j) (ic, j) (N ir * N ic * e.fac ip)) s
      addR s (ir, j) (-((N ir * (∑ ic, N ic * G ic j) + e.dndx ip ir j * interp N q) * e.fac ip))) s) s) s

/-- A boundary face for the kernels that assemble on the face alone: shape functions, `normal_fem`,
`det_j_fem`, weights (ScalarPngBcFemKernel.C:70-74). -/
structure BFace (nf nip nd : ℕ) (K : Type*) where
  shape : Fin nip → Fin nf → K
  normal : Fin nip → Fin nd → K
  detJ : Fin nip → K
  weight : Fin nip → K

/-- `ipFactor` on a face. -/
def BFace.fac (f : BFace nf nip nd K) (ip : Fin nip) : K := f.detJ ip * f.weight ip

/-- `ScalarPngBcFemKernel::execute` (ScalarPngBcFemKernel.C:66-99); for a face `nodesPerElement_` is
`nodesPerFace_` (AlgTraits.h:140-146). -/
def pngBc (f : BFace nf nip nd K) (q : Fin nf → K) (s : LocalSys (Fin nf × Fin nd) K) :
    LocalSys (Fin nf × Fin nd) K :=
  loop nip (fun ip s =>
    let qBip := interp (f.shape ip) q
    loop nf (fun ir s => loop nd (fun j s =>
      addR s (ir, j) (f.shape ip ir * qBip * f.fac ip * f.normal ip j)) s) s) s

/-- Mass flux through the boundary computed from the boundary data (ContinuityInflowFemKernel.C:95-114). -/
def inflowFlux (f : BFace nf nip nd K) (rho : Fin nf → K) (ubc : Fin nf → Fin nd → K) (ip : Fin nip) : K :=
  ∑ j, rhoU (f.shape ip) rho ubc j * f.normal ip j

/-- `ContinuityInflowFemKernel::execute` (ContinuityInflowFemKernel.C:82-127). -/
def continuityInflow (pts : K) (f : BFace nf nip nd K) (rho : Fin nf → K) (ubc : Fin nf → Fin nd → K)
    (s : LocalSys (Fin nf) K) : LocalSys (Fin nf) K :=
  loop nip (fun ip s =>
    loop nf (fun ir s => addR s ir (-(f.shape ip ir * inflowFlux f rho ubc ip / pts * f.fac ip))) s) s

/-- The stabilized mass flux vector at an integration point: `w_rhoUip[j] - c*(w_dpdxIp[j] - w_GpIp[j])`
(ContinuityAdvFemKernel.C:150-153 with `c` the projection time scale, MomentumAdvFemKernel.C:149-152 with
`c = includePstab_*projTimeScale_`). -/
def stabFlux (c : K) (N : Fin nn → K) (g : Fin nn → Fin nd → K) (v : FlowNodes nn nd K) (j : Fin nd) : K :=
  rhoU N v.rho v.vrtm j - c * ((∑ ic, g ic j * v.p ic) - ∑ ic, N ic * v.Gp ic j)

/-- `ContinuityAdvFemKernel::execute` (ContinuityAdvFemKernel.C:102-170). -/
def continuityAdv (pts : K) (e : Elem nn nip nd K) (v : FlowNodes nn nd K) (s : LocalSys (Fin nn) K) :
    LocalSys (Fin nn) K :=
  loop nip (fun ip s =>
    loop nn (fun ir s =>
      let rhsSum := ∑ j, -(stabFlux pts (e.shape ip) (e.dndx ip) v j * e.dndx ip ir j)
      let s := loop nn (fun ic s => addL s ir ic ((∑ j, e.dndx ip ir j * e.dndx ip ic j) * e.fac ip)) s
      addR s ir (-(rhsSum * e.fac ip / pts))) s) s

/-- `MomentumAdvFemKernel::execute` (MomentumAdvFemKernel.C:97-186).  `skew` is `skewFac_`, hard-wired to
1.0 in the constructor, and `om_skewFac_ = 1.0 - skewFac_` (:36-37); `incP` is `includePstab_` (1.0). -/
def momentumAdv (pts incP skew : K) (e : Elem nn nip nd K) (v : FlowNodes nn nd K) (u : Fin nn → Fin nd → K)
    (s : LocalSys (Fin nn × Fin nd) K) : LocalSys (Fin nn × Fin nd) K :=
  loop nip (fun ip s =>
    let N := e.shape ip
    loop nn (fun ir s =>
      let massFlux := ∑ j, -(stabFlux (incP * pts) N (e.dndx ip) v j * e.dndx ip ir j)
      loop nn (fun ic s => loop nd (fun i s =>
        let t1 := skew * massFlux * N ic * e.fac ip
        let s := addL s (ir, i) (ic, i) t1
        let s := addR s (ir, i) (-(t1 * u ic i))
        let t2 := ∑ j, (1 - skew) * N ir * rhoU N v.rho v.vrtm j * e.dndx ip ic j * e.fac ip
        let s := loop nd (fun j s =>
          let t3 := (1 - skew) * N ir * rhoU N v.rho v.vrtm j * e.dndx ip ic i * e.fac ip
          let s := addL s (ir, i) (ic, j) (t3 * 0)
          addR s (ir, i) (-(t3 * u ic j))) s
        let s := addL s (ir, i) (ic, i) t2
        addR s (ir, i) (-(t2 * u ic i))) s) s) s) s

/-- `divU` at an integration point (MomentumDiffFemKernel.C:95-100). -/
def divIp (g u : Fin nn → Fin nd → K) : K := ∑ ic, ∑ j, g ic j * u ic j

/-- `MomentumDiffFemKernel::execute` (MomentumDiffFemKernel.C:76-143).  The explicit dilatational term is
written inside the loop over the columns `ic` (:119-125), once per column. -/
def momentumDiff (incDivU : K) (e : Elem nn nip nd K) (mu : Fin nn → K) (u : Fin nn → Fin nd → K)
    (s : LocalSys (Fin nn × Fin nd) K) : LocalSys (Fin nn × Fin nd) K :=
  loop nip (fun ip s =>
    let muIp := ∑ ic, mu ic * e.shape ip ic
    let divUstress := 2 / 3 * muIp * divIp (e.dndx ip) u * incDivU
    loop nn (fun ir s => loop nn (fun ic s => loop nd (fun i s =>
      let s := addR s (ir, i) (-(-divUstress * e.dndx ip ir i * e.fac ip))
      let lhsSum := ∑ j, muIp * e.dndx ip ir j * e.dndx ip ic j * e.fac ip
      let s := loop nd (fun j s =>
        let f := muIp * e.dndx ip ir j * e.dndx ip ic i * e.fac ip
        let s := addL s (ir, i) (ic, j) f
        addR s (ir, i) (-(f * u ic j))) s
      let s := addL s (ir, i) (ic, i) lhsSum
      addR s (ir, i) (-(lhsSum * u ic i))) s) s) s) s

/-- `MomentumMassFemKernel::execute` (MomentumMassFemKernel.C:98-155); `Gp` is the nodal pressure
gradient. -/
def momentumMass (b : Bdf K) (e : Elem nn nip nd K) (rho : Levels nn K) (u : VLevels nn nd K)
    (Gp : Fin nn → Fin nd → K) (s : LocalSys (Fin nn × Fin nd) K) : LocalSys (Fin nn × Fin nd) K :=
  loop nip (fun ip s =>
    let N := e.shape ip
    loop nn (fun ir s => loop nn (fun ic s => loop nd (fun i s =>
      let s := addL s (ir, i) (ic, i) (N ir * b.g1 * interp N rho.np1 * N ic / b.dt * e.fac ip)
      addR s (ir, i) (-(N ir * ((b.g1 * interp N rho.np1 * u.np1 ic i + b.g2 * interp N rho.n * u.n ic i +
        b.g3 * interp N rho.nm1 * u.nm1 ic i) / b.dt + Gp ic i) * N ic * e.fac ip))) s) s) s) s

/-- `MomentumBodyForceFemKernel::execute` (MomentumBodyForceFemKernel.C:79-105). -/
def bodyForce (e : Elem nn nip nd K) (f : Fin nd → K) (s : LocalSys (Fin nn × Fin nd) K) :
    LocalSys (Fin nn × Fin nd) K :=
  loop nip (fun ip s => loop nn (fun ir s => loop nd (fun i s =>
    addR s (ir, i) (e.shape ip ir * f i * e.fac ip)) s) s) s

/-! ## Exposed faces with the element behind them -/

/-- What a FEM face/element kernel knows: `vf_shape_function_`, `normal_fc_fem`, `det_j_fc`,
`vf_ip_weight_`, `dndx_fc_elem`, `face_node_ordinals` (ContinuityOpenFemKernel.C:104-127).  As in
`Verif.Model.ElemKernel`, a face field is the nodal field at `face_node_ordinals[ic]`. -/
structure Face (nn nf nip nd : ℕ) (K : Type*) where
  shape : Fin nip → Fin nf → K
  normal : Fin nip → Fin nd → K
  detJ : Fin nip → K
  weight : Fin nip → K
  dndx : Fin nip → Fin nn → Fin nd → K
  node : Fin nf → Fin nn

/-- `ipFactor`. -/
def Face.fac (f : Face nn nf nip nd K) (ip : Fin nip) : K := f.detJ ip * f.weight ip

/-- `inverseLengthScale` (ContinuityOpenFemKernel.C:140-147). -/
def invLength (f : Face nn nf nip nd K) (ip : Fin nip) : K :=
  ∑ ic, ∑ j, f.dndx ip (f.node ic) j * f.normal ip j

/-- A nodal field interpolated on the face. -/
def onFace (f : Face nn nf nip nd K) (ip : Fin nip) (q : Fin nn → K) : K :=
  ∑ ic, f.shape ip ic * q (f.node ic)

/-- `massFlux` of the open kernels (ContinuityOpenFemKernel.C:149-179, the same lines in
ScalarOpenAdvFemKernel.C:152-189 and MomentumOpenAdvDiffFemKernel.C:174-217). -/
def openFlux (pts pen : K) (f : Face nn nf nip nd K) (v : FlowNodes nn nd K) (pbc : Fin nn → K)
    (dynP : Fin nip → K) (ip : Fin nip) : K :=
  let pbcBip := -(dynP ip) + onFace f ip pbc
  pen * pts * invLength f ip * (onFace f ip v.p - pbcBip) +
    ∑ j, ((∑ ic, f.shape ip ic * v.rho (f.node ic) * v.vrtm (f.node ic) j) -
      pts * ((∑ ic, f.dndx ip ic j * v.p ic) - onFace f ip fun n => v.Gp n j)) * f.normal ip j

/-- `ContinuityOpenFemKernel::execute` (ContinuityOpenFemKernel.C:98-201). -/
def continuityOpen (pts pen : K) (f : Face nn nf nip nd K) (v : FlowNodes nn nd K) (pbc : Fin nn → K)
    (dynP : Fin nip → K) (s : LocalSys (Fin nn) K) : LocalSys (Fin nn) K :=
  loop nip (fun ip s => loop nf (fun ir s =>
    let w := f.shape ip ir
    let s := loop nf (fun ic s =>
      addL s (f.node ir) (f.node ic) (w * f.shape ip ic * pen * invLength f ip * f.fac ip)) s
    let s := loop nn (fun ic s =>
      addL s (f.node ir) ic (w * (∑ j, -(f.dndx ip ic j) * f.normal ip j) * f.fac ip)) s
    addR s (f.node ir) (-(w * openFlux pts pen f v pbc dynP ip / pts * f.fac ip))) s) s

/-- `ScalarOpenAdvFemKernel::execute` after the mass flux (ScalarOpenAdvFemKernel.C:191-226). -/
def scalarOpen (m : Fin nip → K) (f : Face nn nf nip nd K) (q qbc : Fin nn → K)
    (s : LocalSys (Fin nn) K) : LocalSys (Fin nn) K :=
  loop nip (fun ip s =>
    let leaving : K := if m ip > 0 then 1 else 0
    loop nf (fun ir s =>
      let w := f.shape ip ir
      let s := addR s (f.node ir) (-(w * (m ip * onFace f ip q * f.fac ip) * leaving))
      let s := loop nf (fun ic s =>
        addL s (f.node ir) (f.node ic) (w * f.shape ip ic * (m ip * f.fac ip * leaving))) s
      addR s (f.node ir) (-(w * (m ip * onFace f ip qbc * f.fac ip) * (1 - leaving)))) s) s

/-- `flux` of the penalty kernel (ScalarFluxPenaltyFemKernel.C:109-145). -/
def penaltyFlux (pen : K) (f : Face nn nf nip nd K) (mu q qbc : Fin nn → K) (ip : Fin nip) : K :=
  pen * onFace f ip mu * invLength f ip * (onFace f ip q - onFace f ip qbc) -
    ∑ j, onFace f ip mu * (∑ ic, f.dndx ip ic j * q ic) * f.normal ip j

/-- `ScalarFluxPenaltyFemKernel::execute` (ScalarFluxPenaltyFemKernel.C:81-174). -/
def fluxPenalty (pen : K) (f : Face nn nf nip nd K) (mu q qbc : Fin nn → K) (s : LocalSys (Fin nn) K) :
    LocalSys (Fin nn) K :=
  loop nip (fun ip s =>
    let muBip := onFace f ip mu
    loop nf (fun ir s =>
      let w := f.shape ip ir
      let s := addR s (f.node ir) (-(w * penaltyFlux pen f mu q qbc ip * f.fac ip))
      let s := loop nf (fun ic s => addL s (f.node ir) (f.node ic)
        (w * f.shape ip ic * pen * muBip * invLength f ip * f.fac ip)) s
      loop nn (fun ic s => addL s (f.node ir) ic
        (w * muBip * (∑ j, -(f.dndx ip ic j) * f.normal ip j) * f.fac ip)) s) s) s

/-- What is advected through an open face, per unit mass (MomentumOpenAdvDiffFemKernel.C:228-290): the
interpolated velocity when leaving; when entering, the normal part from the mass flux (corrected for mesh
motion) and the tangential part of the specified velocity. -/
def openVel (m : K) (f : Face nn nf nip nd K) (rho : Fin nn → K) (o : OpenMom nn nd K) (ip : Fin nip)
    (i : Fin nd) : K × K :=
  let rhoBip := onFace f ip rho
  let mvc := ∑ j, (∑ ic, f.shape ip ic * rho (f.node ic) * o.vmesh (f.node ic) j) * f.normal ip j
  let uEntrain := m / rhoBip + mvc / rhoBip * o.meshCorr
  let uspec : Fin nd → K := fun j => onFace f ip fun n => o.ubc n j
  let uspecn := ∑ j, uspec j * f.normal ip j
  (onFace f ip fun n => o.u n i, uEntrain * f.normal ip i + (uspec i - uspecn * f.normal ip i))

/-- `MomentumOpenAdvDiffFemKernel::execute` after the mass flux (MomentumOpenAdvDiffFemKernel.C:219-344).
The diffusion part is the loop of the CVFEM kernel (`Kernel.openViscous`) with the area vector replaced by
`wIr*ipFactor*n_j`, once per face node. -/
def momentumOpen (m : Fin nip → K) (f : Face nn nf nip nd K) (rho mu : Fin nn → K) (o : OpenMom nn nd K)
    (s : LocalSys (Fin nn × Fin nd) K) : LocalSys (Fin nn × Fin nd) K :=
  loop nip (fun ip s =>
    let leaving : K := if m ip > 0 then 1 else 0
    let s := loop nd (fun i s => loop nf (fun ir s =>
      let w := f.shape ip ir
      let s := addR s (f.node ir, i) (-(w * (m ip * (openVel (m ip) f rho o ip i).1 * f.fac ip) * leaving))
      let s := loop nf (fun ic s => addL s (f.node ir, i) (f.node ic, i)
        (w * f.shape ip ic * (m ip * f.fac ip * leaving))) s
      addR s (f.node ir, i)
        (-(w * (m ip * (openVel (m ip) f rho o ip i).2 * f.fac ip) * (1 - leaving)))) s) s
    loop nf (fun ir s => openViscous (onFace f ip mu) o.incDivU (f.dndx ip)
      (fun j => f.shape ip ir * f.fac ip * f.normal ip j) (f.normal ip) (f.node ir) o.u s) s) s

end Nalu.Fem
