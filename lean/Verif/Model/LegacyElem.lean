import Verif.Model.Boundary

/-!
# The element solver algorithms with flat arrays

Models `AssembleScalarElemSolverAlgorithm.C`, `AssembleScalarElemDiffSolverAlgorithm.C`, `AssembleMomentumElemSolverAlgorithm.C`,
`AssembleContinuityElemSolverAlgorithm.C`, `AssembleScalarElemOpenSolverAlgorithm.C`, `AssembleMomentumElemOpenSolverAlgorithm.C`,
`AssembleMomentumElemSymmetrySolverAlgorithm.C`, `AssembleContinuityElemOpenSolverAlgorithm.C` and `AssembleContinuityInflowSolverAlgorithm.C`
on one element (face) between zeroing the arrays and the supplemental algorithms.

These algorithms keep every workspace and the local matrix in flat vectors and compute the offsets by hand (`ip*nodesPerElement+ic`,
`nDim*nodesPerElement*ip + ic*nDim + j`, `rowL = indexL*nodesPerElement*nDim`, ...).  Here a vector is a function from offsets; the offsets are
those of the code.  Simplifications: numbers are a linearly ordered field; an accumulator that starts at zero and is only added to is a finite sum;
`amag` is data; the output of the master element is data.
-/

namespace Nalu.Legacy
open Nalu.Edge Nalu.Kernel

variable {K : Type*} [Field K] [LinearOrder K] [IsStrictOrderedRing K]

/-- `lhs` and `rhs`. -/
structure Flat (K : Type*) where
  lhs : ℕ → K
  rhs : ℕ → K

/-- `p_lhs[p] += v`. -/
def Flat.bumpL (s : Flat K) (p : ℕ) (v : K) : Flat K := { s with lhs := fun k => if k = p then s.lhs k + v else s.lhs k }

/-- `p_rhs[p] += v`. -/
def Flat.bumpR (s : Flat K) (p : ℕ) (v : K) : Flat K := { s with rhs := fun k => if k = p then s.rhs k + v else s.rhs k }

/-- `p[k] = v`. -/
def put (a : ℕ → K) (k : ℕ) (v : K) : ℕ → K := fun i => if i = k then v else a i

/-- Zeroing `lhs` and `rhs` (`for p < lhsSize: p_lhs[p] = 0.0`); what lies beyond keeps its value. -/
def Flat.zeroed (s : Flat K) (lhsSize rhsSize : ℕ) : Flat K where
  lhs := fun p => if p < lhsSize then 0 else s.lhs p
  rhs := fun p => if p < rhsSize then 0 else s.rhs p

/-! ## Gathering -/

/-- `for ni: p_q[ni] = q(node)` (e.g. AssembleScalarElemSolverAlgorithm.C:268-270). -/
def gather1 (n : ℕ) (q : Fin n → K) (a : ℕ → K) : ℕ → K := loop n (fun ni a => put a ni (q ni)) a

/-- `for ni, i: p_v[ni*nDim+i] = v[i]` (e.g. AssembleMomentumElemSolverAlgorithm.C:289-299). -/
def gather2 (n d : ℕ) (v : Fin n → Fin d → K) (a : ℕ → K) : ℕ → K :=
  loop n (fun ni a => loop d (fun i a => put a (ni * d + i) (v ni i)) a) a

/-- `for ni, i, j: p_dudx[row_p_dudx+row_dudx+j] = du[row_dudx+j]` with `row_p_dudx = niNdim*nDim` and `row_dudx = i*nDim`
(AssembleMomentumElemSolverAlgorithm.C:291-305). -/
def gather3 (n d : ℕ) (v : Fin n → Fin d → Fin d → K) (a : ℕ → K) : ℕ → K :=
  loop n (fun ni a => loop d (fun i a => loop d (fun j a => put a (ni * d * d + i * d + j) (v ni i j)) a) a) a

/-! ## Interior algorithms -/

/-- The flat output of the master element on the sub-control surfaces: `p_shape_function`, `p_adv_shape_function`, `p_dndx` (or the shifted one),
`p_scs_areav` and `lrscv`. -/
structure ScsWs (K : Type*) where
  shape : ℕ → K
  adv : ℕ → K
  dndx : ℕ → K
  areav : ℕ → K
  lrscv : ℕ → ℕ

/-- `van_leer` (AssembleScalarElemSolverAlgorithm.C, AssembleMomentumElemSolverAlgorithm.C, last function). -/
def vanLeerL (dqm dqp small : K) : K := (2 * (dqm * dqp + |dqm * dqp|)) / ((dqm + dqp) * (dqm + dqp) + small)

/-- `AssembleScalarElemDiffSolverAlgorithm::execute` (AssembleScalarElemDiffSolverAlgorithm.C:196-245). -/
def scalarDiff (nn nip nd : ℕ) (w : ScsWs K) (mu q : ℕ → K) (s : Flat K) : Flat K :=
  loop nip (fun ip s =>
    let il := w.lrscv (2 * ip)
    let ir := w.lrscv (2 * ip + 1)
    let rowL := il * nn
    let rowR := ir * nn
    let offSetSF := ip * nn
    let muIp := ∑ ic : Fin nn, w.shape (offSetSF + ic) * mu ic
    let lhsfacDiff := fun ic : Fin nn =>
      let offSetDnDx := nd * nn * ip + ic * nd
      ∑ j : Fin nd, -muIp * w.dndx (offSetDnDx + j) * w.areav (ip * nd + j)
    let qDiff := ∑ ic : Fin nn, lhsfacDiff ic * q ic
    let s := loop nn (fun ic s => (s.bumpL (rowL + ic) (lhsfacDiff ic)).bumpL (rowR + ic) (-lhsfacDiff ic)) s
    (s.bumpR il (-qDiff)).bumpR ir qDiff) s

/-- Nodal workspaces of the advection-diffusion algorithms: `p_coordinates`, `p_vrtm`, `p_density`, `p_diffFluxCoeff` (`p_viscosity`). -/
structure NodeWs (K : Type*) where
  x : ℕ → K
  vrtm : ℕ → K
  rho : ℕ → K
  mu : ℕ → K

/-- `AssembleScalarElemSolverAlgorithm::execute` (AssembleScalarElemSolverAlgorithm.C:290-425). -/
def scalarElem (nn nip nd : ℕ) (o : Opts K) (w : ScsWs K) (mdot : ℕ → K) (v : NodeWs K) (q dqdx : ℕ → K) (s : Flat K) : Flat K :=
  loop nip (fun ip s =>
    let il := w.lrscv (2 * ip)
    let ir := w.lrscv (2 * ip + 1)
    let rowL := il * nn
    let rowR := ir * nn
    let rLiL := rowL + il
    let rLiR := rowL + ir
    let rRiL := rowR + il
    let rRiR := rowR + ir
    let tmdot := mdot ip
    let offSetSF := ip * nn
    let qIp := ∑ ic : Fin nn, w.adv (offSetSF + ic) * q ic
    let muIp := ∑ ic : Fin nn, w.shape (offSetSF + ic) * v.mu ic
    let coordIp := fun j : Fin nd => ∑ ic : Fin nn, w.adv (offSetSF + ic) * v.x (ic * nd + j)
    let diffIp := 1 / 2 * (v.mu il / v.rho il + v.mu ir / v.rho ir)
    let udotx := ∑ j : Fin nd, 1 / 2 * (v.vrtm (il * nd + j) + v.vrtm (ir * nd + j)) * (v.x (ir * nd + j) - v.x (il * nd + j))
    let dqL := ∑ j : Fin nd, (coordIp j - v.x (il * nd + j)) * dqdx (nd * il + j)
    let dqR := ∑ j : Fin nd, (v.x (ir * nd + j) - coordIp j) * dqdx (nd * ir + j)
    let pecfac := o.peclet (|udotx| / (diffIp + o.small))
    let om_pecfac := 1 - pecfac
    let dq := q ir - q il
    let limitL := if o.useLimiter then vanLeerL (2 * 2 * dqL - dq) dq o.small else 1
    let limitR := if o.useLimiter then vanLeerL (2 * 2 * dqR - dq) dq o.small else 1
    let qIpL := q il + dqL * o.hoUpwind * limitL
    let qIpR := q ir - dqR * o.hoUpwind * limitR
    let qUpwind := if tmdot > 0 then o.alphaUpw * qIpL + (1 - o.alphaUpw) * qIp else o.alphaUpw * qIpR + (1 - o.alphaUpw) * qIp
    let qHatL := o.alpha * qIpL + (1 - o.alpha) * qIp
    let qHatR := o.alpha * qIpR + (1 - o.alpha) * qIp
    let qCds := 1 / 2 * (qHatL + qHatR)
    let aflux := tmdot * (pecfac * qUpwind + om_pecfac * qCds)
    let s := (s.bumpR il (-aflux)).bumpR ir aflux
    let alhsfacL := 1 / 2 * (tmdot + |tmdot|) * pecfac * o.alphaUpw + 1 / 2 * o.alpha * om_pecfac * tmdot
    let s := (s.bumpL rLiL alhsfacL).bumpL rRiL (-alhsfacL)
    let alhsfacR := 1 / 2 * (tmdot - |tmdot|) * pecfac * o.alphaUpw + 1 / 2 * o.alpha * om_pecfac * tmdot
    let s := (s.bumpL rRiR (-alhsfacR)).bumpL rLiR alhsfacR
    let lhsfacDiff := fun ic : Fin nn =>
      let offSetDnDx := nd * nn * ip + ic * nd
      ∑ j : Fin nd, -muIp * w.dndx (offSetDnDx + j) * w.areav (ip * nd + j)
    let qDiff := ∑ ic : Fin nn, lhsfacDiff ic * q ic
    let s := loop nn (fun ic s =>
      let lhsfacAdv := w.adv (offSetSF + ic) * tmdot * (pecfac * (1 - o.alphaUpw) + om_pecfac * (1 - o.alpha))
      let s := (s.bumpL (rowL + ic) lhsfacAdv).bumpL (rowR + ic) (-lhsfacAdv)
      (s.bumpL (rowL + ic) (lhsfacDiff ic)).bumpL (rowR + ic) (-lhsfacDiff ic)) s
    (s.bumpR il (-qDiff)).bumpR ir qDiff) s

/-- `AssembleMomentumElemSolverAlgorithm::execute` (AssembleMomentumElemSolverAlgorithm.C:322-513). -/
def momentumElem (nn nip nd : ℕ) (o : Opts K) (includeDivU : K) (w : ScsWs K) (mdot : ℕ → K) (v : NodeWs K) (u dudx : ℕ → K)
    (s : Flat K) : Flat K :=
  loop nip (fun ip s =>
    let ipNdim := ip * nd
    let offSetSF := ip * nn
    let il := w.lrscv (2 * ip)
    let ir := w.lrscv (2 * ip + 1)
    let tmdot := mdot ip
    let ilNdim := il * nd
    let irNdim := ir * nd
    let muIp := ∑ ic : Fin nn, w.shape (offSetSF + ic) * v.mu ic
    let coordIp := fun j : Fin nd => ∑ ic : Fin nn, w.adv (offSetSF + ic) * v.x (ic * nd + j)
    let uIp := fun j : Fin nd => ∑ ic : Fin nn, w.adv (offSetSF + ic) * u (ic * nd + j)
    let divU := ∑ ic : Fin nn, ∑ j : Fin nd, u (ic * nd + j) * w.dndx (nd * nn * ip + ic * nd + j)
    let row_p_dudxL := il * nd * nd
    let row_p_dudxR := ir * nd * nd
    let udotx := ∑ i : Fin nd, 1 / 2 * (v.vrtm (ilNdim + i) + v.vrtm (irNdim + i)) * (v.x (irNdim + i) - v.x (ilNdim + i))
    let duL := fun i : Fin nd => ∑ j : Fin nd, (coordIp j - v.x (ilNdim + j)) * dudx (row_p_dudxL + i * nd + j)
    let duR := fun i : Fin nd => ∑ j : Fin nd, (v.x (irNdim + j) - coordIp j) * dudx (row_p_dudxR + i * nd + j)
    let diffIp := 1 / 2 * (v.mu il / v.rho il + v.mu ir / v.rho ir)
    let pecfac := o.peclet (|udotx| / (diffIp + o.small))
    let om_pecfac := 1 - pecfac
    let dq := fun i : Fin nd => u (irNdim + i) - u (ilNdim + i)
    let limitL := fun i : Fin nd => if o.useLimiter then vanLeerL (2 * 2 * duL i - dq i) (dq i) o.small else 1
    let limitR := fun i : Fin nd => if o.useLimiter then vanLeerL (2 * 2 * duR i - dq i) (dq i) o.small else 1
    let uIpL := fun i : Fin nd => u (ilNdim + i) + duL i * o.hoUpwind * limitL i
    let uIpR := fun i : Fin nd => u (irNdim + i) - duR i * o.hoUpwind * limitR i
    let s := loop nd (fun i s =>
      let uiIp := uIp i
      let uiUpwind := if tmdot > 0 then o.alphaUpw * uIpL i + (1 - o.alphaUpw) * uiIp else o.alphaUpw * uIpR i + (1 - o.alphaUpw) * uiIp
      let uiHatL := o.alpha * uIpL i + (1 - o.alpha) * uiIp
      let uiHatR := o.alpha * uIpR i + (1 - o.alpha) * uiIp
      let uiCds := 1 / 2 * (uiHatL + uiHatR)
      let aflux := tmdot * (pecfac * uiUpwind + om_pecfac * uiCds)
      let divUstress := 2 / 3 * muIp * divU * w.areav (ipNdim + i) * includeDivU
      let indexL := ilNdim + i
      let indexR := irNdim + i
      let rowL := indexL * nn * nd
      let rowR := indexR * nn * nd
      let rLiL_i := rowL + ilNdim + i
      let rLiR_i := rowL + irNdim + i
      let rRiR_i := rowR + irNdim + i
      let rRiL_i := rowR + ilNdim + i
      let s := (s.bumpR indexL (-(aflux + divUstress))).bumpR indexR (aflux + divUstress)
      let alhsfacL := 1 / 2 * (tmdot + |tmdot|) * pecfac * o.alphaUpw + 1 / 2 * o.alpha * om_pecfac * tmdot
      let s := (s.bumpL rLiL_i alhsfacL).bumpL rRiL_i (-alhsfacL)
      let alhsfacR := 1 / 2 * (tmdot - |tmdot|) * pecfac * o.alphaUpw + 1 / 2 * o.alpha * om_pecfac * tmdot
      (s.bumpL rRiR_i (-alhsfacR)).bumpL rLiR_i alhsfacR) s
    loop nn (fun ic s =>
      let icNdim := ic * nd
      let lhsfacAdv := w.adv (offSetSF + ic) * tmdot * (pecfac * (1 - o.alphaUpw) + om_pecfac * (1 - o.alpha))
      loop nd (fun i s =>
        let indexL := ilNdim + i
        let indexR := irNdim + i
        let rowL := indexL * nn * nd
        let rowR := indexR * nn * nd
        let rLiC_i := rowL + icNdim + i
        let rRiC_i := rowR + icNdim + i
        let s := (s.bumpL rLiC_i lhsfacAdv).bumpL rRiC_i (-lhsfacAdv)
        let offSetDnDx := nd * nn * ip + icNdim
        let lhs_riC_i := ∑ j : Fin nd, -muIp * w.dndx (offSetDnDx + j) * w.areav (ipNdim + j)
        let s := loop nd (fun j s =>
          let axj := w.areav (ipNdim + j)
          let uj := u (icNdim + j)
          let lhsfacDiff_j := -muIp * w.dndx (offSetDnDx + i) * axj
          let s := (s.bumpL (rowL + icNdim + j) lhsfacDiff_j).bumpL (rowR + icNdim + j) (-lhsfacDiff_j)
          (s.bumpR indexL (-(lhsfacDiff_j * uj))).bumpR indexR (lhsfacDiff_j * uj)) s
        let s := (s.bumpL rLiC_i lhs_riC_i).bumpL rRiC_i (-lhs_riC_i)
        let ui := u (icNdim + i)
        (s.bumpR indexL (-(lhs_riC_i * ui))).bumpR indexR (lhs_riC_i * ui)) s) s) s

/-- Nodal workspaces of the continuity algorithms: `p_density`, `p_vrtm`, `p_pressure`, `p_Gpdx`. -/
structure FlowWs (K : Type*) where
  rho : ℕ → K
  vrtm : ℕ → K
  p : ℕ → K
  Gp : ℕ → K

/-- `AssembleContinuityElemSolverAlgorithm::execute` (AssembleContinuityElemSolverAlgorithm.C:240-305); `w.dndx` is what `grad_op` writes, `shifted` what
`shifted_grad_op` writes; the pointers `p_dndx`, `p_dndx_lhs` are chosen by `shiftPoisson_` and `reducedSensitivities_` (lines 178-180, 240-249). -/
def continuityElem (nn nip nd : ℕ) (pts : K) (shiftPoisson reduced : Bool) (w : ScsWs K) (shifted : ℕ → K) (v : FlowWs K) (s : Flat K) : Flat K :=
  let dndx := if shiftPoisson then shifted else w.dndx
  let dndxLhs := if shiftPoisson then dndx else if reduced then shifted else dndx
  loop nip (fun ip s =>
    let il := w.lrscv (2 * ip)
    let ir := w.lrscv (2 * ip + 1)
    let rowL := il * nn
    let rowR := ir * nn
    let offSet := ip * nn
    let GpdxIp := fun j : Fin nd => ∑ ic : Fin nn, w.shape (offSet + ic) * v.Gp (nd * ic + j)
    let rho_uIp := fun j : Fin nd => ∑ ic : Fin nn, w.shape (offSet + ic) * v.rho ic * v.vrtm (nd * ic + j)
    let dpdxIp := fun j : Fin nd => ∑ ic : Fin nn, dndx (nd * nn * ip + ic * nd + j) * v.p ic
    let s := loop nn (fun ic s =>
      let offSetDnDx := nd * nn * ip + ic * nd
      let lhsfac := ∑ j : Fin nd, -dndxLhs (offSetDnDx + j) * w.areav (ip * nd + j)
      (s.bumpL (rowL + ic) lhsfac).bumpL (rowR + ic) (-lhsfac)) s
    let mdot := ∑ j : Fin nd, (rho_uIp j - pts * (dpdxIp j - GpdxIp j)) * w.areav (ip * nd + j)
    (s.bumpR il (-(mdot / pts))).bumpR ir (mdot / pts)) s

/-! ## Boundary algorithms -/

/-- Flat data of an exposed face: `p_face_shape_function`, `p_adv_face_shape_function`, `areaVec`, `amag` per point, `p_dndx` of `face_grad_op`,
`face_node_ordinals`, `ipNodeMap`, `opposingNodes`, `faceIpNodeMap`. -/
structure FaceWs (K : Type*) where
  shape : ℕ → K
  adv : ℕ → K
  areav : ℕ → K
  amag : ℕ → K
  dndx : ℕ → K
  ord : ℕ → ℕ
  near : ℕ → ℕ
  opp : ℕ → ℕ
  loc : ℕ → ℕ

/-- `AssembleContinuityInflowSolverAlgorithm::execute` (AssembleContinuityInflowSolverAlgorithm.C:167-200). -/
def continuityInflow (nf nip nd : ℕ) (pts : K) (w : FaceWs K) (rho ubc : ℕ → K) (s : Flat K) : Flat K :=
  loop nip (fun ip s =>
    let offSet := ip * nf
    let rho_uIp := fun j : Fin nd => ∑ ic : Fin nf, w.shape (offSet + ic) * rho ic * ubc (ic * nd + j)
    let mdot := ∑ j : Fin nd, rho_uIp j * w.areav (ip * nd + j)
    s.bumpR (w.loc ip) (-mdot / pts)) s

/-- `AssembleContinuityElemOpenSolverAlgorithm::execute` (AssembleContinuityElemOpenSolverAlgorithm.C:266-370).  `rho`, `vrtm`, `Gp`, `pbc` are gathered
from the nodes of the face, `p` from those of the element. -/
def continuityOpen (nn nf nip nd : ℕ) (pts pen : K) (shiftPoisson reduced : Bool) (w : FaceWs K) (shifted : ℕ → K) (v : FlowWs K)
    (pbc dynP : ℕ → K) (s : Flat K) : Flat K :=
  let dndx := if shiftPoisson then shifted else w.dndx
  let dndxLhs := if shiftPoisson then dndx else if reduced then shifted else dndx
  loop nip (fun ip s =>
    let nearestNode := w.near ip
    let aMag := w.amag ip
    let invL := (∑ ic : Fin nf, ∑ j : Fin nd, dndx (nd * nn * ip + w.ord ic * nd + j) * w.areav (ip * nd + j)) / aMag
    let offSetSF_face := ip * nf
    let pBip := ∑ ic : Fin nf, w.shape (offSetSF_face + ic) * v.p (w.ord ic)
    let pbcBip := -dynP ip + ∑ ic : Fin nf, w.shape (offSetSF_face + ic) * pbc ic
    let rho_uBip := fun j : Fin nd => ∑ ic : Fin nf, w.shape (offSetSF_face + ic) * v.rho ic * v.vrtm (ic * nd + j)
    let GpdxBip := fun j : Fin nd => ∑ ic : Fin nf, w.shape (offSetSF_face + ic) * v.Gp (ic * nd + j)
    let dpdxBip := fun j : Fin nd => ∑ ic : Fin nn, dndx (nd * nn * ip + ic * nd + j) * v.p ic
    let mdot := pen * pts * invL * (pBip - pbcBip) * aMag +
      ∑ j : Fin nd, (rho_uBip j - pts * (dpdxBip j - GpdxBip j)) * w.areav (ip * nd + j)
    let rowR := nearestNode * nn
    let s := loop nf (fun ic s => s.bumpL (rowR + w.ord ic) (w.shape (offSetSF_face + ic) * pen * invL * aMag)) s
    let s := loop nn (fun ic s =>
      s.bumpL (rowR + ic) (∑ j : Fin nd, -dndxLhs (nd * nn * ip + ic * nd + j) * w.areav (ip * nd + j))) s
    s.bumpR nearestNode (-(mdot / pts))) s

/-- `AssembleScalarElemOpenSolverAlgorithm::execute` (AssembleScalarElemOpenSolverAlgorithm.C:257-350).  `qF`, `qbcF`, `xF` are gathered from the nodes of
the face; the fields at the left and right node are read from the mesh (`e`, `q`, `G`). -/
def scalarOpen {nn : ℕ} (nf nip nd : ℕ) (o : Opts K) (w : FaceWs K) (mdot : ℕ → K) (qF qbcF xF : ℕ → K)
    (e : UpwNodes nn nd K) (q : Fin nn → K) (G : Fin nn → Fin nd → K) (oppN nearN : ℕ → Fin nn) (s : Flat K) : Flat K :=
  loop nip (fun ip s =>
    let nodeL := oppN ip
    let nodeR := nearN ip
    let nearestNode := w.near ip
    let offSetSF_face := ip * nf
    let qIp := ∑ ic : Fin nf, w.adv (offSetSF_face + ic) * qF ic
    let qIpEntrain := ∑ ic : Fin nf, w.adv (offSetSF_face + ic) * qbcF ic
    let coordBip := fun j : Fin nd => ∑ ic : Fin nf, w.adv (offSetSF_face + ic) * xF (ic * nd + j)
    let udotx := ∑ i, 1 / 2 * (e.x nodeR i - e.x nodeL i) * (e.vrtm nodeL i + e.vrtm nodeR i)
    let dqR := ∑ i, (coordBip i - e.x nodeR i) * G nodeR i * o.hoUpwind
    let qIpUpw := q nodeR + dqR
    let diffIp := 1 / 2 * (e.mu nodeL / e.rho nodeL + e.mu nodeR / e.rho nodeR)
    let pecfac := o.peclet (|udotx| / (diffIp + o.small))
    let om_pecfac := 1 - pecfac
    let tmdot := mdot ip
    let rowR := nearestNode * nn
    if tmdot > 0 then
      let qUpwind := o.alphaUpw * qIpUpw + (1 - o.alphaUpw) * qIp
      let aflux := tmdot * (pecfac * qUpwind + om_pecfac * qIp)
      let s := s.bumpR nearestNode (-aflux)
      let s := s.bumpL (rowR + nearestNode) (tmdot * pecfac * o.alphaUpw)
      let fac := tmdot * (pecfac * (1 - o.alphaUpw) + om_pecfac)
      loop nf (fun ic s => s.bumpL (rowR + w.ord ic) (w.adv (offSetSF_face + ic) * fac)) s
    else s.bumpR nearestNode (-(tmdot * qIpEntrain))) s

/-- The viscous loops common to the open and symmetry algorithms (AssembleMomentumElemOpenSolverAlgorithm.C:473-530,
AssembleMomentumElemSymmetrySolverAlgorithm.C:255-312), which differ in: `pr i`, the factor of the component `i` (`om_nxinxi` or `nxinxi`), and `fac`,
the sensitivity of the other components (`viscBip*dndxj*axj*nxinxl` or its opposite). -/
def viscousFace (nn nd : ℕ) (nearestNode ip : ℕ) (viscBip includeDivU : K) (w : FaceWs K) (u : ℕ → K) (pr : Fin nd → K)
    (fac : K → Fin nd → Fin nd → K) (nxinxl : Fin nd → Fin nd → K) (s : Flat K) : Flat K :=
  loop nn (fun ic s =>
    let offSetDnDx := nd * nn * ip + ic * nd
    loop nd (fun j s =>
      let axj := w.areav (ip * nd + j)
      let dndxj := w.dndx (offSetDnDx + j)
      let uxj := u (ic * nd + j)
      let divUstress := 2 / 3 * viscBip * dndxj * uxj * axj * includeDivU
      loop nd (fun i s =>
        let indexR := nearestNode * nd + i
        let rowR := indexR * nn * nd
        let dndxi := w.dndx (offSetDnDx + i)
        let uxi := u (ic * nd + i)
        let lhsfac := -viscBip * dndxj * axj * pr i
        let s := s.bumpL (rowR + ic * nd + i) lhsfac
        let s := s.bumpR indexR (-(lhsfac * uxi + divUstress * pr i))
        let lhsfac := -viscBip * dndxi * axj * pr i
        let s := s.bumpL (rowR + ic * nd + j) lhsfac
        let s := s.bumpR indexR (-(lhsfac * uxj))
        loop nd (fun l s =>
          if i ≠ l then
            let uxl := u (ic * nd + l)
            let dndxl := w.dndx (offSetDnDx + l)
            let lhsfac := fac (viscBip * dndxj * axj) i l
            let s := s.bumpL (rowR + ic * nd + l) lhsfac
            let s := s.bumpR indexR (-(lhsfac * uxl + divUstress * nxinxl i l))
            let lhsfac := fac (viscBip * dndxl * axj) i l
            let s := s.bumpL (rowR + ic * nd + j) lhsfac
            s.bumpR indexR (-(lhsfac * uxj))
          else s) s) s) s) s

/-- `AssembleMomentumElemSymmetrySolverAlgorithm::execute` (AssembleMomentumElemSymmetrySolverAlgorithm.C:230-315); `muF` is gathered from the face. -/
def momentumSymmetry (nn nf nip nd : ℕ) (includeDivU : K) (w : FaceWs K) (muF u : ℕ → K) (s : Flat K) : Flat K :=
  loop nip (fun ip s =>
    let viscBip := ∑ ic : Fin nf, w.shape (ip * nf + ic) * muF ic
    let nx := fun i : Fin nd => w.areav (ip * nd + i) / w.amag ip
    viscousFace nn nd (w.near ip) ip viscBip includeDivU w u (fun i => nx i * nx i) (fun c i l => -c * (nx i * nx l)) (fun i l => nx i * nx l) s) s

/-- `AssembleMomentumElemOpenSolverAlgorithm::execute` (AssembleMomentumElemOpenSolverAlgorithm.C:330-530).  `rhoF`, `muF`, `ubcF`, `vmeshF`, `dudxF` are
gathered from the face, `u`, `x` from the element; `e` and `uM` are the fields read from the mesh at the left and right node. -/
def momentumOpen {nn : ℕ} (nf nip nd : ℕ) (o : Opts K) (includeDivU meshCorr : K) (w : FaceWs K) (mdot : ℕ → K)
    (rhoF muF ubcF vmeshF dudxF u x : ℕ → K) (e : UpwNodes nn nd K) (uM : Fin nn → Fin nd → K) (oppN nearN : ℕ → Fin nn) (s : Flat K) : Flat K :=
  loop nip (fun ip s =>
    let nodeL := oppN ip
    let nodeR := nearN ip
    let nearestNode := w.near ip
    let localFaceNode := w.loc ip
    let faceOffSet := ip * nd
    let offSetSF_face := ip * nf
    let amag := w.amag ip
    let rhoBip := ∑ ic : Fin nf, w.shape (offSetSF_face + ic) * rhoF ic
    let viscBip := ∑ ic : Fin nf, w.shape (offSetSF_face + ic) * muF ic
    let uspecBip := fun j : Fin nd => ∑ ic : Fin nf, w.adv (offSetSF_face + ic) * ubcF (ic * nd + j)
    let uBip := fun j : Fin nd => ∑ ic : Fin nf, w.adv (offSetSF_face + ic) * u (w.ord ic * nd + j)
    let coordBip := fun j : Fin nd => ∑ ic : Fin nf, w.adv (offSetSF_face + ic) * x (w.ord ic * nd + j)
    let rho_vBip := fun j : Fin nd => ∑ ic : Fin nf, w.shape (offSetSF_face + ic) * rhoF ic * vmeshF (ic * nd + j)
    let udotx := ∑ i, 1 / 2 * (e.x nodeR i - e.x nodeL i) * (e.vrtm nodeL i + e.vrtm nodeR i)
    let row_p_dudxR := localFaceNode * nd * nd
    let nx := fun i : Fin nd => w.areav (faceOffSet + i) / amag
    let uBipExtrap := fun i : Fin nd =>
      uM nodeR i + ∑ j : Fin nd, (coordBip j - e.x nodeR j) * dudxF (row_p_dudxR + i * nd + j) * o.hoUpwind
    let diffIp := 1 / 2 * (e.mu nodeL / e.rho nodeL + e.mu nodeR / e.rho nodeR)
    let pecfac := o.peclet (|udotx| / (diffIp + o.small))
    let om_pecfac := 1 - pecfac
    let tmdot := mdot ip
    let s :=
      if tmdot > 0 then
        loop nd (fun i s =>
          let indexR := nearestNode * nd + i
          let rowR := indexR * nn * nd
          let uiIp := uBip i
          let uiUpwind := o.alphaUpw * uBipExtrap i + (1 - o.alphaUpw) * uiIp
          let aflux := tmdot * (pecfac * uiUpwind + om_pecfac * uiIp)
          let s := s.bumpR indexR (-aflux)
          let s := s.bumpL (rowR + indexR) (tmdot * pecfac * o.alphaUpw)
          let fac := tmdot * (pecfac * (1 - o.alphaUpw) + om_pecfac)
          loop nf (fun ic s => s.bumpL (rowR + w.ord ic * nd + i) (w.adv (offSetSF_face + ic) * fac)) s) s
      else
        let mvc := ∑ j, rho_vBip j * w.areav (faceOffSet + j)
        let uEntrain := tmdot / (rhoBip * amag) + mvc / (rhoBip * amag) * meshCorr
        let uspecbipnx := ∑ j, uspecBip j * nx j
        loop nd (fun i s =>
          let indexR := nearestNode * nd + i
          let aflux := tmdot * uEntrain * nx i + tmdot * (uspecBip i - uspecbipnx * nx i)
          s.bumpR indexR (-aflux)) s
    viscousFace nn nd nearestNode ip viscBip includeDivU w u (fun i => 1 - nx i * nx i) (fun c i l => c * (nx i * nx l)) (fun i l => nx i * nx l) s) s

end Nalu.Legacy
