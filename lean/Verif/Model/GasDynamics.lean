import Mathlib.Analysis.Real.Sqrt
import Mathlib.Algebra.BigOperators.Fin
import Mathlib.Algebra.BigOperators.Group.Finset.Piecewise

/-!
# Explicit gas dynamics (AUSM edge scheme)

Models /repo/src/gas_dynamics: `AssembleGasDynamicsFluxAlgorithm.C`, `AssembleGasDynamicsOpenAlgorithm.C`,
`AssembleGasDynamicsSymmetryAlgorithm.C`, `AssembleGasDynamicsAlgorithmDriver.C` and the update and auxiliary
functions of `GasDynamicsEquationSystem.C`.

Simplifications: `double` is `ℝ`; one process (the parallel sum of `post_work` and the periodic update are
C36–C37, the overset update is not modelled); bucket loops are folds over lists of edges / integration points.
-/

namespace Nalu.Gas

/-- Rows of `rhs_gas_dynamics`: momentum components, then continuity (`cOffset`), then energy (`eOffset`);
AssembleGasDynamicsFluxAlgorithm.C:82-84. -/
inductive Dof (n : ℕ)
  | mom (i : Fin n)
  | mass
  | energy

/-- Nodal data read by the flux algorithm, AssembleGasDynamicsFluxAlgorithm.C:123-163. -/
@[ext] structure NodeData (n : ℕ) where
  x : Fin n → ℝ
  rho : ℝ
  mom : Fin n → ℝ
  vel : Fin n → ℝ
  vrtm : Fin n → ℝ
  totalH : ℝ
  p : ℝ
  T : ℝ
  c : ℝ
  visc : ℝ
  cond : ℝ

/-- `scriptMpL`, lines 231-234 (also AssembleGasDynamicsOpenAlgorithm.C:178-181). -/
noncomputable def splitMplus (m : ℝ) : ℝ :=
  if 1 ≤ |m| then 1 / 2 * (m + |m|) else 1 / 4 * (m + 1) ^ 2 + 1 / 8 * (m * m - 1) ^ 2

/-- `scriptMmR`, lines 236-239. -/
noncomputable def splitMminus (m : ℝ) : ℝ :=
  if 1 ≤ |m| then 1 / 2 * (m - |m|) else -(1 / 4) * (m - 1) ^ 2 - 1 / 8 * (m * m - 1) ^ 2

/-- `signML`, lines 227-228. -/
noncomputable def sgn (m : ℝ) : ℝ := if 0 < m then 1 else -1

/-- `scriptPpL`, lines 242-245. -/
noncomputable def splitPplus (m : ℝ) : ℝ :=
  if 1 ≤ |m| then 1 / 2 * (1 + sgn m)
  else 1 / 4 * (m + 1) ^ 2 * (2 - m) + 3 / 16 * m * (m * m - 1) ^ 2

/-- `scriptPmR`, lines 247-250. -/
noncomputable def splitPminus (m : ℝ) : ℝ :=
  if 1 ≤ |m| then 1 / 2 * (1 - sgn m)
  else 1 / 4 * (m - 1) ^ 2 * (2 + m) - 3 / 16 * m * (m * m - 1) ^ 2

/-- `asq`, lines 171-181. -/
def asq {n : ℕ} (a : Fin n → ℝ) : ℝ := ∑ j, a j * a j
/-- `aMag`, line 182. -/
noncomputable def aMag {n : ℕ} (a : Fin n → ℝ) : ℝ := Real.sqrt (asq a)
/-- `axdx`, lines 171-181. -/
def axdx {n : ℕ} (a : Fin n → ℝ) (L R : NodeData n) : ℝ := ∑ j, a j * (R.x j - L.x j)

/-- `machNumberL`/`machNumberR`, lines 215-222: velocity `v` along the edge normal over the mean speed of
sound. -/
noncomputable def edgeMach {n : ℕ} (a : Fin n → ℝ) (L R : NodeData n) (v : Fin n → ℝ) : ℝ :=
  ∑ j, v j * (a j / aMag a) / (1 / 2 * (L.c + R.c))

/-- `mLR`, line 253. -/
noncomputable def mLR {n : ℕ} (a : Fin n → ℝ) (L R : NodeData n) : ℝ :=
  splitMplus (edgeMach a L R L.vrtm) + splitMminus (edgeMach a L R R.vrtm)

/-- `pLR`, line 254. -/
noncomputable def pLR {n : ℕ} (a : Fin n → ℝ) (L R : NodeData n) : ℝ :=
  splitPplus (edgeMach a L R L.vrtm) * L.p + splitPminus (edgeMach a L R R.vrtm) * R.p

/-- The advected flux of a quantity with left and right values `fL`, `fR` (density times speed of sound):
lines 261-263, 282-284, 290-292. -/
noncomputable def advected {n : ℕ} (a : Fin n → ℝ) (L R : NodeData n) (fL fR : ℝ) : ℝ :=
  aMag a * (1 / 2 * mLR a L R * (fL + fR) - 1 / 2 * |mLR a L R| * (fR - fL))

/-- `ws_duidxj`, lines 192-208. -/
noncomputable def duidxj {n : ℕ} (a : Fin n → ℝ) (L R : NodeData n) (i j : Fin n) : ℝ :=
  (R.vel i - L.vel i) * a j * (1 / axdx a L R)

/-- `divU`, lines 210-213. -/
noncomputable def divU {n : ℕ} (a : Fin n → ℝ) (L R : NodeData n) : ℝ := ∑ j, duidxj a L R j j

/-- `tauIp`, lines 267-274. -/
noncomputable def tauIp {n : ℕ} (a : Fin n → ℝ) (L R : NodeData n) (i j : Fin n) : ℝ :=
  (if i = j then -(2 / 3) * (1 / 2 * (L.visc + R.visc)) * divU a L R else 0) +
    (1 / 2 * (L.visc + R.visc)) * (duidxj a L R i j + duidxj a L R j i)

/-- `dfmA`, lines 266-273. -/
noncomputable def viscousFlux {n : ℕ} (a : Fin n → ℝ) (L R : NodeData n) (i : Fin n) : ℝ :=
  2 / 3 * (1 / 2 * (L.visc + R.visc)) * divU a L R * a i +
    ∑ j, -(1 / 2 * (L.visc + R.visc)) * (duidxj a L R i j + duidxj a L R j i) * a j

/-- `dfeA`, lines 295-303. -/
noncomputable def energyDiffFlux {n : ℕ} (a : Fin n → ℝ) (L R : NodeData n) : ℝ :=
  -(1 / 2 * (L.cond + R.cond)) * asq a * (1 / axdx a L R) * (R.T - L.T) +
    ∑ i, ∑ j, -(1 / 2 * (R.vel i + L.vel i)) * tauIp a L R i j * a j

/-- Flux through the edge from the left to the right node: lines 256-306. -/
noncomputable def edgeFlux {n : ℕ} (a : Fin n → ℝ) (L R : NodeData n) : Dof n → ℝ
  | .mom i => advected a L R (L.mom i * L.c) (R.mom i * R.c) + pLR a L R * a i + viscousFlux a L R i
  | .mass => advected a L R (L.rho * L.c) (R.rho * R.c)
  | .energy => advected a L R (L.totalH * L.c) (R.totalH * R.c) + energyDiffFlux a L R

/-- `rhsGasDyn[node][d] += v`. -/
def addAt {N : Type*} [DecidableEq N] {D : Type*} (r : N → D → ℝ) (i : N) (v : D → ℝ) : N → D → ℝ :=
  fun k d => if k = i then r k d + v d else r k d

/-- An edge: nodes and area vector. -/
structure Edge (N : Type*) (n : ℕ) where
  left : N
  right : N
  area : Fin n → ℝ

/-- The edge loop body's assembly: `rhsL -= flux; rhsR += flux` (lines 277-278, 286-287, 305-306). -/
noncomputable def edgeStep {N : Type*} [DecidableEq N] {n : ℕ} (nd : N → NodeData n)
    (r : N → Dof n → ℝ) (e : Edge N n) : N → Dof n → ℝ :=
  addAt (addAt r e.left (fun d => -edgeFlux e.area (nd e.left) (nd e.right) d)) e.right
    (edgeFlux e.area (nd e.left) (nd e.right))

/-- Nodal boundary data of an open face, AssembleGasDynamicsOpenAlgorithm.C:131-150. -/
structure OpenData (n : ℕ) where
  rho : ℝ
  mom : Fin n → ℝ
  vrtm : Fin n → ℝ
  totalH : ℝ
  bcP : ℝ
  bcT : ℝ
  cp : ℝ
  gamma : ℝ

/-- `uSq` as computed at AssembleGasDynamicsOpenAlgorithm.C:157-164: the velocity components are summed, not
squared (`uSq += velocityRTM[j]`). -/
def openUSq {n : ℕ} (o : OpenData n) : ℝ := ∑ j, o.vrtm j

/-- `inOutCheck`, lines 157-164. -/
noncomputable def inOutCheck {n : ℕ} (a : Fin n → ℝ) (o : OpenData n) : ℝ :=
  ∑ j, o.vrtm j * (a j / aMag a)

/-- Static pressure used at the face: `bcPressure` for leaving flow, `bcPressure - 0.5*rho*uSq` for entering
flow (lines 168, 200, 225-228). -/
noncomputable def openPressure {n : ℕ} (a : Fin n → ℝ) (o : OpenData n) : ℝ :=
  if 0 < inOutCheck a o then o.bcP else o.bcP - 1 / 2 * o.rho * openUSq o

/-- `speedOfSound` at the face (lines 168, 200). -/
noncomputable def openSound {n : ℕ} (a : Fin n → ℝ) (o : OpenData n) : ℝ :=
  Real.sqrt (o.gamma * openPressure a o / o.rho)

/-- `machNumber` at the face (lines 170-174, 202-206). -/
noncomputable def openMach {n : ℕ} (a : Fin n → ℝ) (o : OpenData n) : ℝ :=
  ∑ j, o.vrtm j * (a j / aMag a) / openSound a o

/-- `scriptM` of the entering branch, lines 215-218: the comparison is `absM > 1`. -/
noncomputable def splitMminusOpen (m : ℝ) : ℝ :=
  if 1 < |m| then 1 / 2 * (m - |m|) else -(1 / 4) * (m - 1) ^ 2 - 1 / 8 * (m * m - 1) ^ 2

/-- Flux out of the domain through an open integration point,
`AssembleGasDynamicsOpenAlgorithm::execute`, lines 157-236. -/
noncomputable def openFlux {n : ℕ} (a : Fin n → ℝ) (o : OpenData n) : Dof n → ℝ :=
  let c := openSound a o
  let m := openMach a o
  if 0 < inOutCheck a o then fun
    | .mom i => aMag a * splitMplus m * o.mom i * c + splitPplus m * o.bcP * a i
    | .mass => aMag a * splitMplus m * o.rho * c
    | .energy => aMag a * splitMplus m * o.totalH * c
  else
    let correctedT := o.bcT / (1 + o.gamma * m * m)
    let hT := o.rho * (o.cp * correctedT + 1 / 2 * openUSq o)
    fun
    | .mom i => aMag a * splitMminusOpen m * o.mom i * c +
        splitPminus m * (o.bcP - 1 / 2 * o.rho * openUSq o) * a i
    | .mass => aMag a * splitMminusOpen m * o.rho * c
    | .energy => aMag a * splitMminusOpen m * hT * c

/-- Flux through a symmetry integration point, AssembleGasDynamicsSymmetryAlgorithm.C:100-105. -/
def symmFlux {n : ℕ} (a : Fin n → ℝ) (p : ℝ) : Dof n → ℝ
  | .mom i => p * a i
  | .mass => 0
  | .energy => 0

/-- A boundary integration point with the flux leaving through it, already evaluated. -/
structure BndFlux (N : Type*) (n : ℕ) where
  node : N
  flux : Dof n → ℝ

/-- `rhsGasDynNN -= flux`. -/
noncomputable def bndStep {N : Type*} [DecidableEq N] {n : ℕ} (r : N → Dof n → ℝ) (b : BndFlux N n) :
    N → Dof n → ℝ := addAt r b.node (fun d => -b.flux d)

/-- `assemble_gas_dynamics`: zero, then edges, then boundary faces
(AssembleGasDynamicsAlgorithmDriver.C:55-63 and `AlgorithmDriver::execute`). -/
noncomputable def assemble {N : Type*} [DecidableEq N] {n : ℕ} (nd : N → NodeData n)
    (edges : List (Edge N n)) (bnd : List (BndFlux N n)) : N → Dof n → ℝ :=
  bnd.foldl bndStep (edges.foldl (edgeStep nd) (fun _ _ => 0))

/-- `update_gas_dynamics`, GasDynamicsEquationSystem.C:844-876: new state from the *old* state and the
residual; Dirichlet nodes keep their value. -/
noncomputable def update {N : Type*} {n : ℕ} (dirichlet : N → Bool) (dt : ℝ) (vol : N → ℝ)
    (qN qNp1 rhs : N → Dof n → ℝ) : N → Dof n → ℝ :=
  fun i d => if dirichlet i then qNp1 i d else qN i d + dt / vol i * rhs i d

/-- What one nonlinear sweep sees: the auxiliary nodal data (recomputed from the newest state, boundary
values…, here arbitrary) and the boundary fluxes. -/
structure Sweep (N : Type*) (n : ℕ) where
  nd : N → NodeData n
  bnd : List (BndFlux N n)

/-- One time step: `predict_state` (lines 753-769) copies N to NP1, then every sweep assembles and updates
(`solve_and_update`, lines 773-790). -/
noncomputable def timeStep {N : Type*} [DecidableEq N] {n : ℕ} (dirichlet : N → Bool) (vol : N → ℝ)
    (edges : List (Edge N n)) (q : N → Dof n → ℝ) (dt : ℝ) (sweeps : List (Sweep N n)) : N → Dof n → ℝ :=
  sweeps.foldl (fun qNp1 s => update dirichlet dt vol q qNp1 (assemble s.nd edges s.bnd)) q

/-! ## Auxiliary variables (at one node) -/

/-- `uSq`, e.g. GasDynamicsEquationSystem.C:1090-1093. -/
def uSq {n : ℕ} (u : Fin n → ℝ) : ℝ := ∑ j, u j * u j
/-- `compute_velocity`, lines 1135-1162. -/
noncomputable def velocityOf {n : ℕ} (rho : ℝ) (mom : Fin n → ℝ) : Fin n → ℝ := fun j => mom j * (1 / rho)
/-- `compute_momentum`, lines 1037-1064. -/
def momentumOf {n : ℕ} (rho : ℝ) (u : Fin n → ℝ) : Fin n → ℝ := fun j => rho * u j
/-- `compute_total_energy`, lines 1068-1098. -/
noncomputable def totalEnergyOf {n : ℕ} (gamma rho p : ℝ) (u : Fin n → ℝ) : ℝ :=
  p / (gamma - 1) + 1 / 2 * rho * uSq u
/-- `compute_pressure`, lines 1166-1196. -/
noncomputable def pressureOf {n : ℕ} (gamma rho te : ℝ) (u : Fin n → ℝ) : ℝ :=
  (gamma - 1) * (te - 1 / 2 * rho * uSq u)
/-- `compute_temperature`, lines 1200-1231. -/
noncomputable def temperatureOf {n : ℕ} (cv rho te : ℝ) (u : Fin n → ℝ) : ℝ :=
  (te / rho - 1 / 2 * uSq u) / cv
/-- `compute_total_enthalpy`, lines 1102-1131. -/
noncomputable def totalEnthalpyOf {n : ℕ} (rho h : ℝ) (u : Fin n → ℝ) : ℝ := rho * (h + 1 / 2 * uSq u)
/-- `compute_speed_of_sound`, lines 1235-1257. -/
noncomputable def soundOf (gamma rho p : ℝ) : ℝ := Real.sqrt (gamma * p / rho)
/-- `compute_mach_number`, lines 1261-1291. -/
noncomputable def machOf {n : ℕ} (gamma rho p : ℝ) (u : Fin n → ℝ) : ℝ :=
  Real.sqrt (uSq u) / Real.sqrt (gamma * p / rho)

end Nalu.Gas
