import Verif.Model.Edge

/-!
# Element (CVFEM) kernels

Models the kernels of /repo/src/kernel that assemble the element-based ("element schemes") transport
equations, together with `ComputeMdotElemAlgorithm.C` and `ComputeMdotElemOpenAlgorithm.C`:
`ScalarAdvDiffElemKernel.C`, `ScalarUpwAdvDiffElemKernel.C`, `ScalarDiffElemKernel.C`,
`ScalarMassElemKernel.C`, `ScalarGclElemKernel.C`, `MomentumAdvDiffElemKernel.C`,
`MomentumUpwAdvDiffElemKernel.C`, `MomentumMassElemKernel.C`, `MomentumGclElemKernel.C`,
`MomentumBuoyancySrcElemKernel.C`, `MomentumBuoyancyBoussinesqSrcElemKernel.C`,
`ContinuityAdvElemKernel.C`, `ContinuityMassElemKernel.C`, `ContinuityGclElemKernel.C`,
`ContinuityInflowElemKernel.C`, `ContinuityOpenElemKernel.C`, `ScalarOpenAdvElemKernel.C`,
`ScalarFluxPenaltyElemKernel.C`, `MomentumOpenAdvDiffElemKernel.C`.

Simplifications: `DoubleType` (a SIMD pack of doubles) is a linearly ordered field `K`, one lane at a time;
a scalar accumulator that starts at `0.0` and is only added to is a finite sum; the flat row index
`node*nDim + i` of the momentum system is the pair `(node, i)` (the map is injective); `aMag`, a square
root in the code, is part of the data.  The element is any element: `nn` nodes, `nip` integration
points, `nd` space dimensions, and arbitrary shape functions, gradient operators, areas and volumes.
The updates of `lhs` and `rhs` are kept as loops in the order of the code.
-/

namespace Nalu.Kernel
open Nalu.Edge

variable {K : Type*} [Field K] [LinearOrder K] [IsStrictOrderedRing K]
variable {nn nip nf nd : ℕ}

/-! ## The local arrays -/

/-- `lhs(r,c) += v`. -/
def addL {ι : Type*} [DecidableEq ι] (s : LocalSys ι K) (r c : ι) (v : K) : LocalSys ι K :=
  { s with lhs := fun a b => if a = r ∧ b = c then s.lhs a b + v else s.lhs a b }

/-- `rhs(r) += v`. -/
def addR {ι : Type*} [DecidableEq ι] (s : LocalSys ι K) (r : ι) (v : K) : LocalSys ι K :=
  { s with rhs := fun a => if a = r then s.rhs a + v else s.rhs a }

/-- `for ( int k = 0; k < n; ++k ) body`. -/
def loop {S : Type*} (n : ℕ) (body : Fin n → S → S) (s : S) : S :=
  (List.finRange n).foldl (fun s k => body k s) s

/-- What a kernel knows of the sub-control surfaces of its element: `v_shape_function_`,
`v_adv_shape_function_`, `dndx` (or `dndx_shifted`), `scs_areav`, `lrscv_[2*ip]` and `lrscv_[2*ip+1]`. -/
structure Scs (nn nip nd : ℕ) (K : Type*) where
  shape : Fin nip → Fin nn → K
  adv : Fin nip → Fin nn → K
  dndx : Fin nip → Fin nn → Fin nd → K
  area : Fin nip → Fin nd → K
  il : Fin nip → Fin nn
  ir : Fin nip → Fin nn

/-- Sub-control volumes: `v_shape_function_`, `scv_volume`, `ipNodeMap_`. -/
structure Scv (nn nip : ℕ) (K : Type*) where
  shape : Fin nip → Fin nn → K
  vol : Fin nip → K
  node : Fin nip → Fin nn

/-- Interpolation of a nodal field to an integration point (`for ic: q += r*v_q(ic)`). -/
def interp (r : Fin nn → K) (q : Fin nn → K) : K := ∑ ic, r ic * q ic

/-- `for j: lhsfacDiff += -coeff*dndx(ip,ic,j)*areav(ip,j)`. -/
def diffFac (coeff : K) (g a : Fin nd → K) : K := ∑ j, -coeff * g j * a j

/-! ## Scalar kernels -/

/-- `ScalarAdvDiffElemKernel::execute` (ScalarAdvDiffElemKernel.C:71-128). -/
def scalarAdvDiff (e : Scs nn nip nd K) (mdot : Fin nip → K) (mu q : Fin nn → K)
    (s : LocalSys (Fin nn) K) : LocalSys (Fin nn) K :=
  loop nip (fun ip s =>
    let muIp := interp (e.shape ip) mu
    let facAdv : Fin nn → K := fun ic => e.adv ip ic * mdot ip
    let facDiff : Fin nn → K := fun ic => diffFac muIp (e.dndx ip ic) (e.area ip)
    let qAdv := ∑ ic, facAdv ic * q ic
    let qDiff := ∑ ic, facDiff ic * q ic
    let s := loop nn (fun ic s =>
      addL (addL s (e.il ip) ic (facAdv ic + facDiff ic)) (e.ir ip) ic (-(facAdv ic + facDiff ic))) s
    addR (addR s (e.il ip) (-(qAdv + qDiff))) (e.ir ip) (qAdv + qDiff)) s

/-- `ScalarDiffElemKernel::execute` (ScalarDiffElemKernel.C:66-110). -/
def scalarDiff (e : Scs nn nip nd K) (mu q : Fin nn → K)
    (s : LocalSys (Fin nn) K) : LocalSys (Fin nn) K :=
  loop nip (fun ip s =>
    let muIp := interp (e.shape ip) mu
    let facDiff : Fin nn → K := fun ic => diffFac muIp (e.dndx ip ic) (e.area ip)
    let qDiff := ∑ ic, facDiff ic * q ic
    let s := loop nn (fun ic s =>
      addL (addL s (e.il ip) ic (facDiff ic)) (e.ir ip) ic (-(facDiff ic))) s
    addR (addR s (e.il ip) (-qDiff)) (e.ir ip) qDiff) s

/-- Nodal fields gathered by the upwind scalar kernel (ScalarUpwAdvDiffElemKernel.C:119-126). -/
structure UpwNodes (nn nd : ℕ) (K : Type*) where
  x : Fin nn → Fin nd → K
  vrtm : Fin nn → Fin nd → K
  rho : Fin nn → K
  mu : Fin nn → K

/-- Peclet factor along the line joining two nodes (ScalarUpwAdvDiffElemKernel.C:162-171,
MomentumUpwAdvDiffElemKernel.C:174-199; the open kernels use the same expression,
ScalarOpenAdvElemKernel.C:139-154). -/
def pecFac (o : Opts K) (v : UpwNodes nn nd K) (il ir : Fin nn) : K :=
  let diffIp := 1 / 2 * (v.mu il / v.rho il + v.mu ir / v.rho ir)
  let udotx := ∑ j, 1 / 2 * (v.vrtm il j + v.vrtm ir j) * (v.x ir j - v.x il j)
  o.peclet (|udotx| / (diffIp + o.small))

/-- `w_coordIp` (ScalarUpwAdvDiffElemKernel.C:142-158). -/
def coordIp (r : Fin nn → K) (x : Fin nn → Fin nd → K) (j : Fin nd) : K := ∑ ic, r ic * x ic j

/-- Left and right extrapolated values `qIpL`, `qIpR` (ScalarUpwAdvDiffElemKernel.C:173-196,
MomentumUpwAdvDiffElemKernel.C:181-219 for each component). -/
def extrapolate (o : Opts K) (xip xl xr : Fin nd → K) (gl gr : Fin nd → K) (ql qr : K) : K × K :=
  let dqL := ∑ j, (xip j - xl j) * gl j
  let dqR := ∑ j, (xr j - xip j) * gr j
  let dq := qr - ql
  let limitL := if o.useLimiter then vanLeer (2 * 2 * dqL - dq) dq o.small else 1
  let limitR := if o.useLimiter then vanLeer (2 * 2 * dqR - dq) dq o.small else 1
  (ql + dqL * o.hoUpwind * limitL, qr - dqR * o.hoUpwind * limitR)

/-- `aflux` (ScalarUpwAdvDiffElemKernel.C:198-209, MomentumUpwAdvDiffElemKernel.C:227-241). -/
def upwFlux (o : Opts K) (mdot pec qIpL qIpR qIp : K) : K :=
  let qUpwind := if mdot > 0 then o.alphaUpw * qIpL + (1 - o.alphaUpw) * qIp
    else o.alphaUpw * qIpR + (1 - o.alphaUpw) * qIp
  let qHatL := o.alpha * qIpL + (1 - o.alpha) * qIp
  let qHatR := o.alpha * qIpR + (1 - o.alpha) * qIp
  let qCds := 1 / 2 * (qHatL + qHatR)
  mdot * (pec * qUpwind + (1 - pec) * qCds)

/-- `alhsfacL` (ScalarUpwAdvDiffElemKernel.C:216-217). -/
def alhsfacL (o : Opts K) (mdot pec : K) : K :=
  1 / 2 * (mdot + |mdot|) * pec * o.alphaUpw + 1 / 2 * o.alpha * (1 - pec) * mdot
/-- `alhsfacR` (ScalarUpwAdvDiffElemKernel.C:222-223). -/
def alhsfacR (o : Opts K) (mdot pec : K) : K :=
  1 / 2 * (mdot - |mdot|) * pec * o.alphaUpw + 1 / 2 * o.alpha * (1 - pec) * mdot
/-- `tmdot*(pecfac*om_alphaUpw_ + om_pecfac*om_alpha_)` (ScalarUpwAdvDiffElemKernel.C:232-233). -/
def cenFac (o : Opts K) (mdot pec : K) : K :=
  mdot * (pec * (1 - o.alphaUpw) + (1 - pec) * (1 - o.alpha))

/-- `ScalarUpwAdvDiffElemKernel::execute` (ScalarUpwAdvDiffElemKernel.C:111-254). -/
def scalarUpw (o : Opts K) (e : Scs nn nip nd K) (mdot : Fin nip → K) (v : UpwNodes nn nd K)
    (q : Fin nn → K) (G : Fin nn → Fin nd → K) (s : LocalSys (Fin nn) K) : LocalSys (Fin nn) K :=
  loop nip (fun ip s =>
    let il := e.il ip
    let ir := e.ir ip
    let qIp := interp (e.adv ip) q
    let muIp := interp (e.shape ip) v.mu
    let pec := pecFac o v il ir
    let ex := extrapolate o (coordIp (e.adv ip) v.x) (v.x il) (v.x ir) (G il) (G ir) (q il) (q ir)
    let aflux := upwFlux o (mdot ip) pec ex.1 ex.2 qIp
    let s := addR (addR s il (-aflux)) ir aflux
    let s := addL (addL s il il (alhsfacL o (mdot ip) pec)) ir il (-(alhsfacL o (mdot ip) pec))
    let s := addL (addL s ir ir (-(alhsfacR o (mdot ip) pec))) il ir (alhsfacR o (mdot ip) pec)
    let facDiff : Fin nn → K := fun ic => diffFac muIp (e.dndx ip ic) (e.area ip)
    let qDiff := ∑ ic, facDiff ic * q ic
    let s := loop nn (fun ic s =>
      let facAdv := e.adv ip ic * cenFac o (mdot ip) pec
      let s := addL (addL s il ic facAdv) ir ic (-facAdv)
      addL (addL s il ic (facDiff ic)) ir ic (-(facDiff ic))) s
    addR (addR s il (-qDiff)) ir qDiff) s

/-- Time-integration data of the mass kernels (ScalarMassElemKernel.C:85-92). -/
structure Bdf (K : Type*) where
  dt : K
  g1 : K
  g2 : K
  g3 : K

/-- A nodal field at the three time levels. -/
structure Levels (nn : ℕ) (K : Type*) where
  np1 : Fin nn → K
  n : Fin nn → K
  nm1 : Fin nn → K

/-- `ScalarMassElemKernel::execute` (ScalarMassElemKernel.C:96-157). -/
def scalarMass (b : Bdf K) (e : Scv nn nip K) (rho q : Levels nn K)
    (s : LocalSys (Fin nn) K) : LocalSys (Fin nn) K :=
  loop nip (fun ip s =>
    let N := e.shape ip
    let s := addR s (e.node ip)
      (-(b.g1 * interp N rho.np1 * interp N q.np1 + b.g2 * interp N rho.n * interp N q.n +
        b.g3 * interp N rho.nm1 * interp N q.nm1) * e.vol ip / b.dt)
    loop nn (fun ic s => addL s (e.node ip) ic (N ic * b.g1 * interp N rho.np1 * e.vol ip / b.dt)) s) s

/-- `ScalarGclElemKernel::execute` (ScalarGclElemKernel.C:70-107). -/
def scalarGcl (e : Scv nn nip K) (rho divV q : Fin nn → K)
    (s : LocalSys (Fin nn) K) : LocalSys (Fin nn) K :=
  loop nip (fun ip s =>
    let N := e.shape ip
    let s := addR s (e.node ip) (-(interp N rho * interp N q * interp N divV * e.vol ip))
    loop nn (fun ic s => addL s (e.node ip) ic (N ic * (interp N rho * interp N divV * e.vol ip))) s) s

/-! ## Momentum kernels -/

/-- The viscous part common to both momentum kernels: the loop over `ic` (MomentumAdvDiffElemKernel.C:138-185,
MomentumUpwAdvDiffElemKernel.C:266-317); `cen ic` is `lhsfacAdv`. -/
def viscousLoop (cen : Fin nn → K) (mu : K) (g : Fin nn → Fin nd → K) (a : Fin nd → K) (il ir : Fin nn)
    (u : Fin nn → Fin nd → K) (s : LocalSys (Fin nn × Fin nd) K) : LocalSys (Fin nn × Fin nd) K :=
  loop nn (fun ic s =>
    loop nd (fun i s =>
      let s := addL (addL s (il, i) (ic, i) (cen ic)) (ir, i) (ic, i) (-(cen ic))
      let lhs_riC_i := ∑ j, -mu * g ic j * a j
      let s := loop nd (fun j s =>
        let f := -mu * g ic i * a j
        let s := addL (addL s (il, i) (ic, j) f) (ir, i) (ic, j) (-f)
        addR (addR s (il, i) (-(f * u ic j))) (ir, i) (f * u ic j)) s
      let s := addL (addL s (il, i) (ic, i) lhs_riC_i) (ir, i) (ic, i) (-lhs_riC_i)
      addR (addR s (il, i) (-(lhs_riC_i * u ic i))) (ir, i) (lhs_riC_i * u ic i)) s) s

/-- `divU` at an integration point (MomentumAdvDiffElemKernel.C:112-118). -/
def divU (g : Fin nn → Fin nd → K) (u : Fin nn → Fin nd → K) : K := ∑ ic, ∑ j, u ic j * g ic j

/-- `MomentumAdvDiffElemKernel::execute` (MomentumAdvDiffElemKernel.C:72-186). -/
def momentumAdvDiff (incDivU : K) (e : Scs nn nip nd K) (mdot : Fin nip → K) (mu : Fin nn → K)
    (u : Fin nn → Fin nd → K) (s : LocalSys (Fin nn × Fin nd) K) : LocalSys (Fin nn × Fin nd) K :=
  loop nip (fun ip s =>
    let il := e.il ip
    let ir := e.ir ip
    let muIp := interp (e.shape ip) mu
    let s := loop nd (fun i s =>
      let aflux := mdot ip * coordIp (e.adv ip) u i
      let divUstress := 2 / 3 * muIp * divU (e.dndx ip) u * e.area ip i * incDivU
      addR (addR s (il, i) (-(aflux + divUstress))) (ir, i) (aflux + divUstress)) s
    viscousLoop (fun ic => e.adv ip ic * mdot ip) muIp (e.dndx ip) (e.area ip) il ir u s) s

/-- `MomentumUpwAdvDiffElemKernel::execute` (MomentumUpwAdvDiffElemKernel.C:109-318); `G ic i j` is
`v_Gju(ic,i,j)`. -/
def momentumUpw (o : Opts K) (incDivU : K) (e : Scs nn nip nd K) (mdot : Fin nip → K)
    (v : UpwNodes nn nd K) (u : Fin nn → Fin nd → K) (G : Fin nn → Fin nd → Fin nd → K)
    (s : LocalSys (Fin nn × Fin nd) K) : LocalSys (Fin nn × Fin nd) K :=
  loop nip (fun ip s =>
    let il := e.il ip
    let ir := e.ir ip
    let muIp := interp (e.shape ip) v.mu
    let pec := pecFac o v il ir
    let s := loop nd (fun i s =>
      let ex := extrapolate o (coordIp (e.adv ip) v.x) (v.x il) (v.x ir) (G il i) (G ir i) (u il i) (u ir i)
      let aflux := upwFlux o (mdot ip) pec ex.1 ex.2 (coordIp (e.adv ip) u i)
      let divUstress := 2 / 3 * muIp * divU (e.dndx ip) u * e.area ip i * incDivU
      let s := addR (addR s (il, i) (-(aflux + divUstress))) (ir, i) (aflux + divUstress)
      let s := addL (addL s (il, i) (il, i) (alhsfacL o (mdot ip) pec)) (ir, i) (il, i)
        (-(alhsfacL o (mdot ip) pec))
      addL (addL s (ir, i) (ir, i) (-(alhsfacR o (mdot ip) pec))) (il, i) (ir, i)
        (alhsfacR o (mdot ip) pec)) s
    viscousLoop (fun ic => e.adv ip ic * cenFac o (mdot ip) pec) muIp (e.dndx ip) (e.area ip) il ir u s) s

/-- A vector field at the three time levels. -/
structure VLevels (nn nd : ℕ) (K : Type*) where
  np1 : Fin nn → Fin nd → K
  n : Fin nn → Fin nd → K
  nm1 : Fin nn → Fin nd → K

/-- `MomentumMassElemKernel::execute` (MomentumMassElemKernel.C:98-172); `densFac` is 0 or 1, `Gp` the
nodal pressure gradient. -/
def momentumMass (b : Bdf K) (densFac : K) (e : Scv nn nip K) (rho : Levels nn K) (u : VLevels nn nd K)
    (Gp : Fin nn → Fin nd → K) (s : LocalSys (Fin nn × Fin nd) K) : LocalSys (Fin nn × Fin nd) K :=
  loop nip (fun ip s =>
    let N := e.shape ip
    let nnode := e.node ip
    let scale := interp N rho.np1 * densFac + (1 - densFac)
    let s := loop nd (fun j s => addR s (nnode, j)
      (-(b.g1 * interp N rho.np1 * coordIp N u.np1 j + b.g2 * interp N rho.n * coordIp N u.n j +
        b.g3 * interp N rho.nm1 * coordIp N u.nm1 j) * e.vol ip / b.dt -
        coordIp N Gp j * e.vol ip * scale)) s
    loop nn (fun ic s => loop nd (fun j s =>
      addL s (nnode, j) (ic, j) (N ic * b.g1 * interp N rho.np1 * e.vol ip / b.dt)) s) s) s

/-- `MomentumGclElemKernel::execute` (MomentumGclElemKernel.C:78-124). -/
def momentumGcl (e : Scv nn nip K) (rho divV : Fin nn → K) (u : Fin nn → Fin nd → K)
    (s : LocalSys (Fin nn × Fin nd) K) : LocalSys (Fin nn × Fin nd) K :=
  loop nip (fun ip s =>
    let N := e.shape ip
    let s := loop nd (fun i s => addR s (e.node ip, i)
      (-(interp N rho * coordIp N u i * interp N divV * e.vol ip))) s
    loop nn (fun ic s => loop nd (fun j s =>
      addL s (e.node ip, j) (ic, j) (N ic * interp N rho * interp N divV * e.vol ip)) s) s) s

/-- `MomentumBuoyancySrcElemKernel::execute` (MomentumBuoyancySrcElemKernel.C:64-90). -/
def buoyancy (rhoRef : K) (grav : Fin nd → K) (e : Scv nn nip K) (rho : Fin nn → K)
    (s : LocalSys (Fin nn × Fin nd) K) : LocalSys (Fin nn × Fin nd) K :=
  loop nip (fun ip s =>
    let fac := (interp (e.shape ip) rho - rhoRef) * e.vol ip
    loop nd (fun j s => addR s (e.node ip, j) (fac * grav j)) s) s

/-- `MomentumBuoyancyBoussinesqSrcElemKernel::execute`
(MomentumBuoyancyBoussinesqSrcElemKernel.C:67-94). -/
def boussinesq (rhoRef beta tRef : K) (grav : Fin nd → K) (e : Scv nn nip K) (T : Fin nn → K)
    (s : LocalSys (Fin nn × Fin nd) K) : LocalSys (Fin nn × Fin nd) K :=
  loop nip (fun ip s =>
    let fac := -rhoRef * beta * (interp (e.shape ip) T - tRef) * e.vol ip
    loop nd (fun j s => addR s (e.node ip, j) (fac * grav j)) s) s

/-! ## Continuity -/

/-- Nodal fields of the continuity kernel and of `ComputeMdotElemAlgorithm`. -/
structure FlowNodes (nn nd : ℕ) (K : Type*) where
  rho : Fin nn → K
  vrtm : Fin nn → Fin nd → K
  p : Fin nn → K
  Gp : Fin nn → Fin nd → K

/-- The mass flow rate through one sub-control surface: ContinuityAdvElemKernel.C:116-143, the same
expression as ComputeMdotElemAlgorithm.C:212-245. -/
def scsMdot (pts : K) (N : Fin nn → K) (g : Fin nn → Fin nd → K) (a : Fin nd → K)
    (v : FlowNodes nn nd K) : K :=
  ∑ j, ((∑ ic, N ic * v.rho ic * v.vrtm ic j) -
    pts * ((∑ ic, g ic j * v.p ic) - ∑ ic, N ic * v.Gp ic j)) * a j

/-- `ContinuityAdvElemKernel::execute` (ContinuityAdvElemKernel.C:89-148); `dndxLhs` is `v_dndx_lhs`. -/
def continuityAdv (pts : K) (e : Scs nn nip nd K) (dndxLhs : Fin nip → Fin nn → Fin nd → K)
    (v : FlowNodes nn nd K) (s : LocalSys (Fin nn) K) : LocalSys (Fin nn) K :=
  loop nip (fun ip s =>
    let s := loop nn (fun ic s =>
      let f := ∑ j, -(dndxLhs ip ic j) * e.area ip j
      addL (addL s (e.il ip) ic f) (e.ir ip) ic (-f)) s
    let mdot := scsMdot pts (e.shape ip) (e.dndx ip) (e.area ip) v
    addR (addR s (e.il ip) (-(mdot / pts))) (e.ir ip) (mdot / pts)) s

/-- `ContinuityMassElemKernel::execute` (ContinuityMassElemKernel.C:84-120); the density is interpolated. -/
def continuityMass (b : Bdf K) (e : Scv nn nip K) (rho : Levels nn K)
    (s : LocalSys (Fin nn) K) : LocalSys (Fin nn) K :=
  loop nip (fun ip s =>
    let N := e.shape ip
    addR s (e.node ip) (-(b.g1 * interp N rho.np1 + b.g2 * interp N rho.n + b.g3 * interp N rho.nm1) *
      e.vol ip / b.dt / (b.dt / b.g1))) s

/-- `ContinuityGclElemKernel::execute` (ContinuityGclElemKernel.C:77-108). -/
def continuityGcl (pts densFac : K) (e : Scv nn nip K) (rho divV : Fin nn → K)
    (s : LocalSys (Fin nn) K) : LocalSys (Fin nn) K :=
  loop nip (fun ip s =>
    let N := e.shape ip
    addR s (e.node ip) (-((densFac * interp N rho + (1 - densFac)) * interp N divV * e.vol ip / pts))) s

/-! ## Boundary kernels -/

/-- What a face/element kernel knows of an exposed face: `vf_shape_function_`, `vf_adv_shape_function_`,
`exposed_area_vector`, its magnitude, `dndx_fc_elem`, `face_node_ordinals` (the element's nodes that are
the nodes of the face, in the order of the face), `ipNodeMap(elemFaceOrdinal)[ip]`,
`opposingNodes(elemFaceOrdinal,ip)` and `faceIpNodeMap_[ip]`.  A face field `vf_q(ic)` is the nodal field
at `face_node_ordinals[ic]` (simplification: face and element fields are gathered from the same mesh
nodes). -/
structure Face (nn nf nip nd : ℕ) (K : Type*) where
  shape : Fin nip → Fin nf → K
  adv : Fin nip → Fin nf → K
  area : Fin nip → Fin nd → K
  aMag : Fin nip → K
  dndx : Fin nip → Fin nn → Fin nd → K
  node : Fin nf → Fin nn
  near : Fin nip → Fin nn
  opp : Fin nip → Fin nn
  loc : Fin nip → Fin nf

/-- `inverseLengthScale` (ContinuityOpenElemKernel.C:142-150, ScalarFluxPenaltyElemKernel.C:112-120). -/
def invLength (f : Face nn nf nip nd K) (ip : Fin nip) : K :=
  (∑ ic, ∑ j, f.dndx ip (f.node ic) j * f.area ip j) / f.aMag ip

/-- Open-boundary mass flow rate: ContinuityOpenElemKernel.C:152-181, the same expression as
ComputeMdotElemOpenAlgorithm.C:277-311. -/
def openMdotIp (pts pen : K) (f : Face nn nf nip nd K) (v : FlowNodes nn nd K) (pbc : Fin nn → K)
    (dynP : Fin nip → K) (ip : Fin nip) : K :=
  let pBip := ∑ ic, f.shape ip ic * v.p (f.node ic)
  let pbcBip := -(dynP ip) + ∑ ic, f.shape ip ic * pbc (f.node ic)
  pen * pts * invLength f ip * (pBip - pbcBip) * f.aMag ip +
    ∑ j, ((∑ ic, f.shape ip ic * v.rho (f.node ic) * v.vrtm (f.node ic) j) -
      pts * ((∑ ic, f.dndx ip ic j * v.p ic) - ∑ ic, f.shape ip ic * v.Gp (f.node ic) j)) * f.area ip j

/-- `ContinuityOpenElemKernel::execute` (ContinuityOpenElemKernel.C:94-201). -/
def continuityOpenElem (pts pen : K) (f : Face nn nf nip nd K)
    (dndxLhs : Fin nip → Fin nn → Fin nd → K) (v : FlowNodes nn nd K) (pbc : Fin nn → K)
    (dynP : Fin nip → K) (s : LocalSys (Fin nn) K) : LocalSys (Fin nn) K :=
  loop nip (fun ip s =>
    let s := loop nf (fun ic s =>
      addL s (f.near ip) (f.node ic) (f.shape ip ic * pen * invLength f ip * f.aMag ip)) s
    let s := loop nn (fun ic s =>
      addL s (f.near ip) ic (∑ j, -(dndxLhs ip ic j) * f.area ip j)) s
    addR s (f.near ip) (-(openMdotIp pts pen f v pbc dynP ip / pts))) s

/-- Prescribed inflow rate at one boundary integration point (ContinuityInflowElemKernel.C:88-103, the same
expression as ComputeMdotInflowAlgorithm.C). -/
def inflowMdotIp (f : Face nn nf nip nd K) (rho : Fin nn → K) (ubc : Fin nn → Fin nd → K)
    (ip : Fin nip) : K :=
  ∑ j, (∑ ic, f.shape ip ic * rho (f.node ic) * ubc (f.node ic) j) * f.area ip j

/-- `ContinuityInflowElemKernel::execute` (ContinuityInflowElemKernel.C:70-107); the local system of a face
kernel has the face's nodes as rows, `loc` is `ipNodeMap_`. -/
def continuityInflowElem (pts : K) (f : Face nn nf nip nd K) (rho : Fin nn → K)
    (ubc : Fin nn → Fin nd → K) (s : LocalSys (Fin nf) K) : LocalSys (Fin nf) K :=
  loop nip (fun ip s => addR s (f.loc ip) (-(inflowMdotIp f rho ubc ip / pts))) s

/-- `ScalarOpenAdvElemKernel::execute` (ScalarOpenAdvElemKernel.C:91-195). -/
def scalarOpenElem (o : Opts K) (f : Face nn nf nip nd K) (mdot : Fin nip → K) (v : UpwNodes nn nd K)
    (q qbc : Fin nn → K) (G : Fin nn → Fin nd → K) (s : LocalSys (Fin nn) K) : LocalSys (Fin nn) K :=
  loop nip (fun ip s =>
    let near := f.near ip
    let qIp := ∑ ic, f.adv ip ic * q (f.node ic)
    let qIpEntrain := ∑ ic, f.adv ip ic * qbc (f.node ic)
    let xBip : Fin nd → K := fun j => ∑ ic, f.adv ip ic * v.x (f.node ic) j
    let dqR := ∑ i, (xBip i - v.x near i) * G (f.node (f.loc ip)) i * o.hoUpwind
    let qIpUpw := q (f.node (f.loc ip)) + dqR
    let pec := pecFac o v (f.opp ip) near
    let leaving : K := if mdot ip > 0 then 1 else 0
    let qUpwind := o.alphaUpw * qIpUpw + (1 - o.alphaUpw) * qIp
    let afluxLeaving := mdot ip * (pec * qUpwind + (1 - pec) * qIp)
    let s := addR s near (-(afluxLeaving * leaving))
    let s := addL s near near (mdot ip * pec * o.alphaUpw * leaving)
    let fac := mdot ip * (pec * (1 - o.alphaUpw) + (1 - pec)) * leaving
    let s := loop nf (fun ic s => addL s near (f.node ic) (f.adv ip ic * fac)) s
    addR s near (-(mdot ip * qIpEntrain * (1 - leaving)))) s

/-- `ScalarFluxPenaltyElemKernel::execute` (ScalarFluxPenaltyElemKernel.C:73-167). -/
def scalarFluxPenalty (pen : K) (f : Face nn nf nip nd K) (mu q qbc : Fin nn → K)
    (s : LocalSys (Fin nn) K) : LocalSys (Fin nn) K :=
  loop nip (fun ip s =>
    let qBip := ∑ ic, f.shape ip ic * q (f.node ic)
    let qbcBip := ∑ ic, f.shape ip ic * qbc (f.node ic)
    let muBip := ∑ ic, f.shape ip ic * mu (f.node ic)
    let intFlux := pen * muBip * invLength f ip * (qBip - qbcBip) * f.aMag ip -
      ∑ j, muBip * (∑ ic, f.dndx ip ic j * q ic) * f.area ip j
    let s := addR s (f.near ip) (-intFlux)
    let s := loop nf (fun ic s => addL s (f.near ip) (f.node ic)
      (f.shape ip ic * pen * muBip * invLength f ip * f.aMag ip)) s
    loop nn (fun ic s => addL s (f.near ip) ic (muBip * ∑ j, -(f.dndx ip ic j) * f.area ip j)) s) s

/-- Data of the momentum open kernel beyond the face: advected field, specified field, mesh velocity, nodal
gradient, and `meshVelocityCorrection_`, `includeDivU_`. -/
structure OpenMom (nn nd : ℕ) (K : Type*) where
  u : Fin nn → Fin nd → K
  ubc : Fin nn → Fin nd → K
  vmesh : Fin nn → Fin nd → K
  G : Fin nn → Fin nd → Fin nd → K
  meshCorr : K
  incDivU : K

/-- Advection of the open momentum kernel at one integration point and component
(MomentumOpenAdvDiffElemKernel.C:171-266): `(afluxLeaving, afluxEntraining)`. -/
def openMomFlux (o : Opts K) (f : Face nn nf nip nd K) (mdot : Fin nip → K) (v : UpwNodes nn nd K)
    (m : OpenMom nn nd K) (ip : Fin nip) (i : Fin nd) : K × K :=
  let near := f.near ip
  let uBip : Fin nd → K := fun j => ∑ ic, f.adv ip ic * m.u (f.node ic) j
  let uspec : Fin nd → K := fun j => ∑ ic, f.adv ip ic * m.ubc (f.node ic) j
  let xBip : Fin nd → K := fun j => ∑ ic, f.adv ip ic * v.x (f.node ic) j
  let rhoV : Fin nd → K := fun j => ∑ ic, f.shape ip ic * v.rho (f.node ic) * m.vmesh (f.node ic) j
  let rhoBip := ∑ ic, f.shape ip ic * v.rho (f.node ic)
  let nx : Fin nd → K := fun j => f.area ip j / f.aMag ip
  let duR := ∑ j, (xBip j - v.x near j) * m.G (f.node (f.loc ip)) i j * o.hoUpwind
  let uExtrap := m.u near i + duR
  let pec := pecFac o v (f.opp ip) near
  let mvc := ∑ j, rhoV j * f.area ip j
  let uEntrain := mdot ip / (rhoBip * f.aMag ip) + mvc / (rhoBip * f.aMag ip) * m.meshCorr
  let uspecbipnx := ∑ j, uspec j * nx j
  let uiUpwind := o.alphaUpw * uExtrap + (1 - o.alphaUpw) * uBip i
  (mdot ip * (pec * uiUpwind + (1 - pec) * uBip i),
    mdot ip * uEntrain * nx i + mdot ip * (uspec i - uspecbipnx * nx i))

/-- Diffusion of the open momentum kernel (MomentumOpenAdvDiffElemKernel.C:268-326), the loop over `ic`,
`j`, `i`, `l` at one integration point. -/
def openViscous (mu incDivU : K) (g : Fin nn → Fin nd → K) (a nx : Fin nd → K) (near : Fin nn)
    (u : Fin nn → Fin nd → K) (s : LocalSys (Fin nn × Fin nd) K) : LocalSys (Fin nn × Fin nd) K :=
  loop nn (fun ic s => loop nd (fun j s =>
    let divUstress := 2 / 3 * mu * g ic j * u ic j * a j * incDivU
    loop nd (fun i s =>
      let om := 1 - nx i * nx i
      let f1 := -mu * g ic j * a j * om
      let s := addL s (near, i) (ic, i) f1
      let s := addR s (near, i) (-(f1 * u ic i + divUstress * om))
      let f2 := -mu * g ic i * a j * om
      let s := addL s (near, i) (ic, j) f2
      let s := addR s (near, i) (-(f2 * u ic j))
      loop nd (fun l s =>
        if i ≠ l then
          let nn' := nx i * nx l
          let f3 := mu * g ic j * a j * nn'
          let s := addL s (near, i) (ic, l) f3
          let s := addR s (near, i) (-(f3 * u ic l + divUstress * nn'))
          let f4 := mu * g ic l * a j * nn'
          let s := addL s (near, i) (ic, j) f4
          addR s (near, i) (-(f4 * u ic j))
        else s) s) s) s) s

/-- `MomentumOpenAdvDiffElemKernel::execute` (MomentumOpenAdvDiffElemKernel.C:111-328). -/
def momentumOpenElem (o : Opts K) (f : Face nn nf nip nd K) (mdot : Fin nip → K) (v : UpwNodes nn nd K)
    (m : OpenMom nn nd K) (s : LocalSys (Fin nn × Fin nd) K) : LocalSys (Fin nn × Fin nd) K :=
  loop nip (fun ip s =>
    let near := f.near ip
    let pec := pecFac o v (f.opp ip) near
    let leaving : K := if mdot ip > 0 then 1 else 0
    let muBip := ∑ ic, f.shape ip ic * v.mu (f.node ic)
    let s := loop nd (fun i s =>
      let s := addR s (near, i) (-((openMomFlux o f mdot v m ip i).1 * leaving))
      let s := addL s (near, i) (near, i) (mdot ip * pec * o.alphaUpw * leaving)
      let fac := mdot ip * (pec * (1 - o.alphaUpw) + (1 - pec)) * leaving
      let s := loop nf (fun ic s => addL s (near, i) (f.node ic, i) (f.adv ip ic * fac)) s
      addR s (near, i) (-((openMomFlux o f mdot v m ip i).2 * (1 - leaving)))) s
    openViscous muBip m.incDivU (f.dndx ip) (f.area ip) (fun j => f.area ip j / f.aMag ip) near m.u s) s

end Nalu.Kernel
