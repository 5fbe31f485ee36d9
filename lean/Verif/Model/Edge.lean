import Mathlib.Algebra.Order.Field.Basic
import Mathlib.Algebra.Order.AbsoluteValue.Basic
import Mathlib.Algebra.BigOperators.Fin
import Mathlib.Algebra.BigOperators.Group.Finset.Piecewise

/-!
# Edge-based algorithms

Models (all in /repo/src):
`AssembleScalarEdgeSolverAlgorithm.C`, `AssembleScalarEdgeDiffSolverAlgorithm.C`,
`AssembleMomentumEdgeSolverAlgorithm.C`, `AssembleContinuityEdgeSolverAlgorithm.C`,
`AssembleContinuityEdgeOpenSolverAlgorithm.C`, `AssembleScalarEdgeOpenSolverAlgorithm.C`,
`ComputeMdotEdgeAlgorithm.C`, `ComputeMdotEdgeOpenAlgorithm.C`, `AssembleNodalGradEdgeAlgorithm.C`,
`AssembleNodalGradUEdgeAlgorithm.C`, `AssembleNodalGradBoundaryAlgorithm.C`, `PecletFunction.C`,
`ComputeMdotAlgorithmDriver.C`.

Simplifications: `double` is a linearly ordered field `K`; a loop `for j < nDim` accumulating from
`0.0` is a finite sum over `Fin n`; division by zero (`axdx = 0`, `vol = 0`) is excluded by hypotheses
in the theorems.  The bucket loops over locally owned edges are folds over a list of edges.
`apply_coeff`/`sumInto` is the ideal dense accumulation here (its correctness is C19).
-/

namespace Nalu.Edge

variable {K : Type*} [Field K] [LinearOrder K] [IsStrictOrderedRing K]

/-! ## Local and global systems -/

/-- `lhs`/`rhs` scratch arrays of one work item; `ι` indexes the local rows (C++ `p_lhs[row*size+col]`). -/
structure LocalSys (ι K : Type*) where
  lhs : ι → ι → K
  rhs : ι → K

/-- Global matrix and right-hand side over degrees of freedom `M`. -/
structure Sys (M K : Type*) where
  mat : M → M → K
  rhs : M → K

/-- `zeroSystem`: TpetraLinearSystem.C:1082-1110. -/
def Sys.zero (M K : Type*) [Zero K] : Sys M K := ⟨fun _ _ => 0, fun _ => 0⟩

/-- `SolverAlgorithm::apply_coeff` → `sumInto` (SolverAlgorithm.C:60-80), ideal version: local row `a`
is added to global row `dof a`. -/
def Sys.applyCoeff {M ι : Type*} [DecidableEq M] [Fintype ι] (s : Sys M K) (dof : ι → M)
    (c : LocalSys ι K) : Sys M K where
  mat := fun i j => s.mat i j + ∑ a, ∑ b, if i = dof a ∧ j = dof b then c.lhs a b else 0
  rhs := fun i => s.rhs i + ∑ a, if i = dof a then c.rhs a else 0

/-! ## Limiter and Peclet blending -/

/-- `van_leer`: AssembleScalarEdgeSolverAlgorithm.C:332-341, AssembleMomentumEdgeSolverAlgorithm.C:423-432. -/
def vanLeer (dqm dqp small : K) : K :=
  (2 * (dqm * dqp + |dqm * dqp|)) / ((dqm + dqp) * (dqm + dqp) + small)

/-- `ClassicPecletFunction::execute`: PecletFunction.C:69-74 (the parameter `A_` is stored but not used). -/
def classicPeclet (hf pe : K) : K :=
  let modPeclet := hf * pe
  modPeclet * modPeclet / (5 + modPeclet * modPeclet)

/-! ## Edge data -/

/-- An edge of the mesh with its two nodes (`edge_node_rels[0/1]`), area vector and mass flow rate. -/
structure EdgeRec (N : Type*) (n : ℕ) (K : Type*) where
  left : N
  right : N
  area : Fin n → K
  mdot : K

/-- `asq` (AssembleScalarEdgeSolverAlgorithm.C:199-209). -/
def asq {n : ℕ} (a : Fin n → K) : K := ∑ j, a j * a j

/-- `axdx` (AssembleScalarEdgeSolverAlgorithm.C:199-209). -/
def axdx {n : ℕ} (a xL xR : Fin n → K) : K := ∑ j, a j * (xR j - xL j)

/-- Options read at AssembleScalarEdgeSolverAlgorithm.C:103-119 and the Peclet function object. -/
structure Opts (K : Type*) where
  alpha : K
  alphaUpw : K
  hoUpwind : K
  useLimiter : Bool
  nocFac : K
  small : K
  peclet : K → K

/-- Nodal data gathered by the scalar edge algorithm (AssembleScalarEdgeSolverAlgorithm.C:180-197). -/
structure ScalarNode (n : ℕ) (K : Type*) where
  x : Fin n → K
  dqdx : Fin n → K
  vrtm : Fin n → K
  q : K
  rho : K
  diff : K

/-! ## Scalar advection–diffusion -/

/-- Diffusive coefficient `lhsfac = -viscIp*asq*inv_axdx` (AssembleScalarEdgeSolverAlgorithm.C:259). -/
def diffFac {n : ℕ} (a : Fin n → K) (L R : ScalarNode n K) : K :=
  -(1 / 2 * (L.diff + R.diff)) * asq a * (1 / axdx a L.x R.x)

/-- `nonOrth` (AssembleScalarEdgeSolverAlgorithm.C:223-236). -/
def nonOrth {n : ℕ} (a : Fin n → K) (L R : ScalarNode n K) : K :=
  ∑ j, -(1 / 2 * (L.diff + R.diff)) *
    (a j - asq a * (1 / axdx a L.x R.x) * (R.x j - L.x j)) * (1 / 2 * (L.dqdx j + R.dqdx j))

/-- `diffFlux` (AssembleScalarEdgeSolverAlgorithm.C:259-260). -/
def diffFlux {n : ℕ} (o : Opts K) (a : Fin n → K) (L R : ScalarNode n K) : K :=
  diffFac a L R * (R.q - L.q) + nonOrth a L R * o.nocFac

/-- `pecfac` (AssembleScalarEdgeSolverAlgorithm.C:205-217). -/
def pecfac {n : ℕ} (o : Opts K) (L R : ScalarNode n K) : K :=
  o.peclet (|∑ j, 1 / 2 * (R.x j - L.x j) * (L.vrtm j + R.vrtm j)| /
    (1 / 2 * (L.diff / L.rho + R.diff / R.rho) + o.small))

/-- `dqL`/`dqR`: half-edge extrapolation of a node's gradient (lines 219-228). -/
def dqHalf {n : ℕ} (L R : ScalarNode n K) (g : Fin n → K) : K :=
  ∑ j, 1 / 2 * (R.x j - L.x j) * g j

/-- Limiter for the side with half increment `dqh` (lines 238-248). -/
def limiter (o : Opts K) (dqh dq : K) : K :=
  if o.useLimiter then vanLeer (2 * 2 * dqh - dq) dq o.small else 1

/-- `qIpL` (line 251). -/
def qIpL {n : ℕ} (o : Opts K) (L R : ScalarNode n K) : K :=
  L.q + dqHalf L R L.dqdx * o.hoUpwind * limiter o (dqHalf L R L.dqdx) (R.q - L.q)

/-- `qIpR` (line 252). -/
def qIpR {n : ℕ} (o : Opts K) (L R : ScalarNode n K) : K :=
  R.q - dqHalf L R R.dqdx * o.hoUpwind * limiter o (dqHalf L R R.dqdx) (R.q - L.q)

/-- Interface value assembled from left and right extrapolations `ql`, `qr` and the nodal mean `qm`
(AssembleScalarEdgeSolverAlgorithm.C:276-289 and AssembleMomentumEdgeSolverAlgorithm.C:306-318). -/
def interfaceValue (o : Opts K) (pec mdot ql qr qm : K) : K :=
  let upw := if mdot > 0 then o.alphaUpw * ql + (1 - o.alphaUpw) * qm
             else o.alphaUpw * qr + (1 - o.alphaUpw) * qm
  let hatL := o.alpha * ql + (1 - o.alpha) * qm
  let hatR := o.alpha * qr + (1 - o.alpha) * qm
  pec * upw + (1 - pec) * (1 / 2 * (hatL + hatR))

/-- `aflux` (line 289). -/
def advFlux {n : ℕ} (o : Opts K) (mdot : K) (L R : ScalarNode n K) : K :=
  mdot * interfaceValue o (pecfac o L R) mdot (qIpL o L R) (qIpR o L R) (1 / 2 * (L.q + R.q))

/-- First `alhsfac` (lines 292-293): column of the left node. -/
def lhsAdvL (o : Opts K) (pec m : K) : K :=
  1 / 2 * (m + |m|) * pec * o.alphaUpw + 1 / 2 * o.alpha * (1 - pec) * m
/-- Second `alhsfac` (lines 298-299): column of the right node. -/
def lhsAdvR (o : Opts K) (pec m : K) : K :=
  1 / 2 * (m - |m|) * pec * o.alphaUpw + 1 / 2 * o.alpha * (1 - pec) * m
/-- Third `alhsfac` (line 304): central part, both columns. -/
def lhsAdvC (o : Opts K) (pec m : K) : K :=
  1 / 2 * m * (pec * (1 - o.alphaUpw) + (1 - pec) * (1 - o.alpha))

/-- Local matrix and residual of one edge, `AssembleScalarEdgeSolverAlgorithm::execute`, lines 150-318.
Local index 0 is the left, 1 the right node. -/
def scalarEdge {n : ℕ} (o : Opts K) (a : Fin n → K) (mdot : K) (L R : ScalarNode n K) :
    LocalSys (Fin 2) K :=
  let lf := diffFac a L R
  let df := diffFlux o a L R
  let pec := pecfac o L R
  let af := advFlux o mdot L R
  let aL := lhsAdvL o pec mdot
  let aR := lhsAdvR o pec mdot
  let aC := lhsAdvC o pec mdot
  { lhs := ![![-lf + aL + aC, lf + aR + aC], ![lf - aL - aC, -lf - aR - aC]]
    rhs := ![-df - af, df + af] }

/-- `AssembleScalarEdgeDiffSolverAlgorithm::execute`, lines 107-198 (pure diffusion). -/
def scalarDiffEdge {n : ℕ} (o : Opts K) (a : Fin n → K) (L R : ScalarNode n K) :
    LocalSys (Fin 2) K :=
  let lf := diffFac a L R
  let df := diffFlux o a L R
  { lhs := ![![-lf, lf], ![lf, -lf]]
    rhs := ![-df, df] }

/-- Left/right node of a local row. -/
def EdgeRec.node {N : Type*} {n : ℕ} (e : EdgeRec N n K) : Fin 2 → N := ![e.left, e.right]

/-- Bucket loop over all locally owned edges (lines 142-321). -/
def assembleScalar {N : Type*} [DecidableEq N] {n : ℕ} (o : Opts K) (nd : N → ScalarNode n K)
    (edges : List (EdgeRec N n K)) (s : Sys N K) : Sys N K :=
  edges.foldl (fun s e => s.applyCoeff e.node
    (scalarEdge o e.area e.mdot (nd e.left) (nd e.right))) s

/-- An exposed-face integration point of an open boundary: its nearest node, opposing node in the
element, area vector, dynamic pressure and mass flow rate. -/
structure OpenIp (N : Type*) (n : ℕ) (K : Type*) where
  opposing : N
  nearest : N
  area : Fin n → K
  dynP : K
  mdot : K

/-- `AssembleScalarEdgeOpenSolverAlgorithm::execute`, lines 163-196: row of the nearest node only. -/
def scalarOpen (mdot qR qEntrain : K) : LocalSys (Fin 1) K :=
  if mdot > 0 then ⟨fun _ _ => mdot, fun _ => -(mdot * qR)⟩
  else ⟨fun _ _ => 0, fun _ => -(mdot * qEntrain)⟩

/-- Loop over the open faces' integration points. -/
def assembleScalarOpen {N : Type*} [DecidableEq N] {n : ℕ} (q bc : N → K)
    (ips : List (OpenIp N n K)) (s : Sys N K) : Sys N K :=
  ips.foldl (fun s ip => s.applyCoeff (fun _ => ip.nearest)
    (scalarOpen ip.mdot (q ip.nearest) (bc ip.nearest))) s

/-! ## Momentum -/

/-- Nodal data gathered by the momentum edge algorithm (AssembleMomentumEdgeSolverAlgorithm.C:201-219);
`dudx i j` is `dudx[nDim*i+j]`. -/
structure MomNode (n : ℕ) (K : Type*) where
  x : Fin n → K
  dudx : Fin n → Fin n → K
  vrtm : Fin n → K
  u : Fin n → K
  rho : K
  visc : K

/-- The scalar view of component `i`, used for the parts identical to the scalar algorithm. -/
def MomNode.comp {n : ℕ} (m : MomNode n K) (i : Fin n) : ScalarNode n K :=
  ⟨m.x, m.dudx i, m.vrtm, m.u i, m.rho, m.visc⟩

/-- `duidxj` with non-orthogonal correction (AssembleMomentumEdgeSolverAlgorithm.C:281-303). -/
def duidxj {n : ℕ} (o : Opts K) (a : Fin n → K) (L R : MomNode n K) (i j : Fin n) : K :=
  let gl := ∑ l, 1 / 2 * (L.dudx i l + R.dudx i l) * (R.x l - L.x l)
  1 / 2 * (L.dudx i j + R.dudx i j) * o.nocFac +
    ((R.u i - L.u i) - gl * o.nocFac) * a j * (1 / axdx a L.x R.x)

/-- `dflux` for component `i` (lines 322-333). -/
def momDiffFlux {n : ℕ} (o : Opts K) (incDivU : K) (a : Fin n → K) (L R : MomNode n K) (i : Fin n) : K :=
  let viscIp := 1 / 2 * (L.visc + R.visc)
  2 / 3 * viscIp * (∑ j, duidxj o a L R j j) * a i * incDivU +
    ∑ j, -viscIp * (duidxj o a L R i j + duidxj o a L R j i) * a j

/-- `aflux` for component `i` (lines 305-321). -/
def momAdvFlux {n : ℕ} (o : Opts K) (mdot : K) (L R : MomNode n K) (i : Fin n) : K :=
  advFlux o mdot (L.comp i) (R.comp i)

/-- Local system of one edge (lines 173-415); local rows are (node, component). -/
def momentumEdge {n : ℕ} (o : Opts K) (incDivU : K) (a : Fin n → K) (mdot : K) (L R : MomNode n K) :
    LocalSys (Fin 2 × Fin n) K :=
  let viscIp := 1 / 2 * (L.visc + R.visc)
  let inv := 1 / axdx a L.x R.x
  let d := -viscIp * asq a * inv
  { lhs := fun row col =>
      let i := row.2
      let pec := pecfac o (L.comp i) (R.comp i)
      let aL := lhsAdvL o pec mdot
      let aR := lhsAdvR o pec mdot
      let aC := lhsAdvC o pec mdot
      let ns := -viscIp * a i * a col.2 * inv
      let diag : Fin 2 → Fin 2 → K :=
        ![![aL + aC - d, aR + aC + d], ![-aL - aC + d, -aR - aC - d]]
      let cross : Fin 2 → Fin 2 → K := ![![-ns, ns], ![ns, -ns]]
      (if row.2 = col.2 then diag row.1 col.1 else 0) + cross row.1 col.1
    rhs := fun row =>
      let t := momAdvFlux o mdot L R row.2 + momDiffFlux o incDivU a L R row.2
      (![-t, t] : Fin 2 → K) row.1 }

/-- Bucket loop over all locally owned edges. -/
def assembleMomentum {N : Type*} [DecidableEq N] {n : ℕ} (o : Opts K) (incDivU : K)
    (nd : N → MomNode n K) (edges : List (EdgeRec N n K)) (s : Sys (N × Fin n) K) :
    Sys (N × Fin n) K :=
  edges.foldl (fun s e => s.applyCoeff (fun r => (e.node r.1, r.2))
    (momentumEdge o incDivU e.area e.mdot (nd e.left) (nd e.right))) s

/-! ## Mass flow rate and continuity -/

/-- Nodal data of `ComputeMdotEdgeAlgorithm` (lines 112-127). -/
structure MdotNode (n : ℕ) (K : Type*) where
  x : Fin n → K
  dpdx : Fin n → K
  vrtm : Fin n → K
  p : K
  rho : K

/-- `ComputeMdotEdgeAlgorithm::execute`, lines 129-151 (`pts = dt/gamma1`); the same expression as
AssembleContinuityEdgeSolverAlgorithm.C:155-177. -/
def edgeMdot {n : ℕ} (pts noc : K) (a : Fin n → K) (L R : MdotNode n K) : K :=
  -pts * (R.p - L.p) * asq a * (1 / axdx a L.x R.x) +
    ∑ j, ((1 / 2 * (R.rho * R.vrtm j + L.rho * L.vrtm j) + pts * (1 / 2 * (R.dpdx j + L.dpdx j))) * a j
      - pts * (a j - asq a * (1 / axdx a L.x R.x) * (R.x j - L.x j)) *
        (1 / 2 * (R.dpdx j + L.dpdx j)) * noc)

/-- `AssembleContinuityEdgeSolverAlgorithm::execute`, lines 179-195. -/
def continuityEdge {n : ℕ} (pts noc : K) (a : Fin n → K) (L R : MdotNode n K) : LocalSys (Fin 2) K :=
  let m := edgeMdot pts noc a L R
  let lf := -asq a * (1 / axdx a L.x R.x)
  { lhs := ![![-lf, lf], ![lf, -lf]]
    rhs := ![-m / pts, m / pts] }

/-- `axdx` at an open face: half edge from the edge midpoint to the face node
(AssembleContinuityEdgeOpenSolverAlgorithm.C:196-206). -/
def openAxdx {n : ℕ} (a xL xR : Fin n → K) : K := ∑ j, a j * (xR j - 1 / 2 * (xR j + xL j))

/-- Open boundary `mdot` (ComputeMdotEdgeOpenAlgorithm.C:140-190; the same expression in
AssembleContinuityEdgeOpenSolverAlgorithm.C:208-222). `L` opposing, `R` nearest node. -/
def openMdot {n : ℕ} (pts noc : K) (a : Fin n → K) (bcP dynP : K) (L R : MdotNode n K) : K :=
  -pts * ((bcP - dynP) - 1 / 2 * (L.p + R.p)) * asq a * (1 / openAxdx a L.x R.x) +
    ∑ j, ((R.rho * R.vrtm j + pts * R.dpdx j) * a j
      - pts * (a j - asq a * (1 / openAxdx a L.x R.x) * (R.x j - 1 / 2 * (R.x j + L.x j))) *
        R.dpdx j * noc)

/-- AssembleContinuityEdgeOpenSolverAlgorithm.C:224-230; local row 0 = opposing (untouched),
row 1 = nearest. -/
def continuityOpen {n : ℕ} (pts noc : K) (a : Fin n → K) (bcP dynP : K) (L R : MdotNode n K) :
    LocalSys (Fin 2) K :=
  let m := openMdot pts noc a bcP dynP L R
  let lf := asq a * (1 / openAxdx a L.x R.x)
  { lhs := ![![0, 0], ![1 / 2 * lf, 1 / 2 * lf]]
    rhs := ![0, -(m / pts)] }

/-- The continuity linear system: interior edges, open faces, and per node the inflow mass rate
(`AssembleContinuityInflowSolverAlgorithm`: `rhs -= mdot/projTimeScale`) and the lumped density
accumulation (`ContinuityMassBDF2NodeSuppAlg::node_execute`, ContinuityMassBDF2NodeSuppAlg.C:70-85:
`rhs -= (γ1ρ+γ2ρN+γ3ρNm1)*vol/dt/projTimeScale`), the latter two given as totals per node. -/
def assembleContinuity {N : Type*} [DecidableEq N] {n : ℕ} (pts noc : K) (nd : N → MdotNode n K)
    (bcP : N → K) (edges : List (EdgeRec N n K)) (ips : List (OpenIp N n K)) (inflow acc : N → K) :
    Sys N K :=
  let s0 := edges.foldl (fun s e => s.applyCoeff e.node
    (continuityEdge pts noc e.area (nd e.left) (nd e.right))) (Sys.zero N K)
  let s1 := ips.foldl (fun s ip => s.applyCoeff (![ip.opposing, ip.nearest] : Fin 2 → N)
    (continuityOpen pts noc ip.area (bcP ip.nearest) ip.dynP (nd ip.opposing) (nd ip.nearest))) s0
  { mat := s1.mat, rhs := fun i => s1.rhs i - inflow i / pts - acc i / pts }

/-- Pressure update `pressure += pTmp` (LowMachEquationSystem.C:824-830). -/
def updatePressure {N : Type*} {n : ℕ} (nd : N → MdotNode n K) (dp : N → K) : N → MdotNode n K :=
  fun i => { nd i with p := (nd i).p + dp i }

/-! ## Nodal gradients -/

/-- `gradQ[j] += v` at one node. -/
def addAt {N : Type*} [DecidableEq N] {V : Type*} [Add V] (f : N → V) (i : N) (v : V) : N → V :=
  fun k => if k = i then f k + v else f k

/-- `AssembleNodalGradEdgeAlgorithm::execute`, body for one edge, lines 83-113. -/
def gradEdgeStep {N : Type*} [DecidableEq N] {n : ℕ} (vol q : N → K) (g : N → Fin n → K)
    (e : EdgeRec N n K) : N → Fin n → K :=
  let qip := 1 / 2 * (q e.left + q e.right)
  addAt (addAt g e.left (fun j => e.area j * qip * (1 / vol e.left))) e.right
    (fun j => -(e.area j * qip * (1 / vol e.right)))

/-- An exposed-face integration point: its nearest node, the face's nodes with the shape function
values, and its area vector. -/
structure BndIp (N : Type*) (n : ℕ) (K : Type*) where
  nearest : N
  shape : List (N × K)
  area : Fin n → K

/-- `qIp += shape*q` (AssembleNodalGradBoundaryAlgorithm.C:137-142). -/
def BndIp.value {N : Type*} {n : ℕ} (ip : BndIp N n K) (q : N → K) : K :=
  (ip.shape.map (fun p => p.2 * q p.1)).sum

/-- `AssembleNodalGradBoundaryAlgorithm::execute`, body for one integration point, lines 122-152. -/
def gradBndStep {N : Type*} [DecidableEq N] {n : ℕ} (vol q : N → K) (g : N → Fin n → K)
    (ip : BndIp N n K) : N → Fin n → K :=
  addAt g ip.nearest (fun j => ip.value q * ip.area j * (1 / vol ip.nearest))

/-- `AssembleNodalGradAlgorithmDriver`: zero (pre_work), edges, boundary faces. -/
def nodalGrad {N : Type*} [DecidableEq N] {n : ℕ} (vol q : N → K) (edges : List (EdgeRec N n K))
    (bnd : List (BndIp N n K)) : N → Fin n → K :=
  bnd.foldl (gradBndStep vol q) (edges.foldl (gradEdgeStep vol q) (fun _ _ => 0))

/-- `AssembleNodalGradUEdgeAlgorithm::execute`, body for one edge, lines 76-117: `dudx[i*nDim+j]`. -/
def gradUEdgeStep {N : Type*} [DecidableEq N] {n : ℕ} (vol : N → K) (u : N → Fin n → K)
    (g : N → Fin n → Fin n → K) (e : EdgeRec N n K) : N → Fin n → Fin n → K :=
  addAt (addAt g e.left (fun i j => e.area j * (1 / 2 * (u e.left i + u e.right i)) * (1 / vol e.left)))
    e.right (fun i j => -(e.area j * (1 / 2 * (u e.left i + u e.right i)) * (1 / vol e.right)))

/-! ## Velocity projection -/

/-- `project_nodal_velocity` at one node: LowMachEquationSystem.C:884-968.
`dpOld` is the saved gradient, `dpNew` the recomputed one. -/
def projectVelocity {n : ℕ} (balancedForce : Bool) (pts rho : K) (u dpOld dpNew : Fin n → K) :
    Fin n → K :=
  let densFac : K := if balancedForce then 1 else 0
  let omDensFac : K := if balancedForce then 0 else 1
  let denom := densFac + omDensFac * rho
  fun j => u j - pts / denom * (dpNew j - dpOld j)

/-! ## Mass-balance review (ComputeMdotAlgorithmDriver.C) -/

/-- What one process holds: elements visible to `selectField(*density)` — locally owned and ghosted
alike, the selector at ComputeMdotAlgorithmDriver.C:185-186 has no `locally_owned_part()` — given by
their accumulation integrals, and its locally owned inflow and open faces' mass rates. -/
structure Proc (K : Type*) where
  owned : List K
  ghosted : List K
  inflow : List K
  openRates : List K

/-- `pre_work` + `execute` + `post_work` (lines 116-145): local sums, then `all_reduce_sum`.
Result: accumulation, inflow, open. -/
def massReview (hasMass : Bool) (procs : List (Proc K)) : K × K × K :=
  ((procs.map (fun p => if hasMass then (p.owned ++ p.ghosted).foldl (· + ·) 0 else 0)).sum,
   (procs.map (fun p => p.inflow.foldl (· + ·) 0)).sum,
   (procs.map (fun p => p.openRates.foldl (· + ·) 0)).sum)

/-- Element accumulation: lines 232-258, as nested sums over integration points and nodes. -/
def elemAccumulation {m k : ℕ} (g1 g2 g3 dt : K) (shape : Fin k → Fin m → K) (scv : Fin k → K)
    (rhoNp1 rhoN rhoNm1 : Fin m → K) : K :=
  ∑ ip, (g1 * (∑ ic, shape ip ic * rhoNp1 ic) + g2 * (∑ ic, shape ip ic * rhoN ic) +
    g3 * (∑ ic, shape ip ic * rhoNm1 ic)) / dt * scv ip

end Nalu.Edge
