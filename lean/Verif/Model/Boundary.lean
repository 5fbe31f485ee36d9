import Verif.Model.ElemContinuity
import Verif.Model.LinSys

/-!
# Boundary algorithms: open and symmetry faces of the momentum equation, imposed fluxes, dynamic pressure, pressure pin

Models `AssembleMomentumEdgeOpenSolverAlgorithm.C`, `AssembleMomentumEdgeSymmetrySolverAlgorithm.C`, `kernel/MomentumSymmetryElemKernel.C`,
`AssembleScalarFluxBCSolverAlgorithm.C`, `AssembleTemperatureNormalGradientBCSolverAlgorithm.C`, `ComputeDynamicPressureAlgorithm.C`,
`FixPressureAtNodeAlgorithm.C` and the phases of `SolverAlgorithmDriver.C`.

`double` is a linearly ordered field `K`; `std::sqrt` of the squared area is part of the data (`amag`), and the theorems assume
`amag * amag = sum a_j a_j`.  The flat row index `node*nDim + i` is the pair `(node, i)`.
-/

namespace Nalu.Bc
open Nalu.Edge Nalu.Kernel

variable {K : Type*} [Field K] [LinearOrder K] [IsStrictOrderedRing K] {nn nip nf nd : ℕ}

/-! ## Momentum at edge-based open and symmetry faces -/

/-- Element and face data gathered by the two edge boundary algorithms (AssembleMomentumEdgeOpenSolverAlgorithm.C:191-214,
AssembleMomentumEdgeSymmetrySolverAlgorithm.C:176-194), for all nodes of the element behind the face. -/
structure BcNodes (nn nd : ℕ) (K : Type*) where
  x : Fin nn → Fin nd → K
  u : Fin nn → Fin nd → K
  dudx : Fin nn → Fin nd → Fin nd → K
  visc : Fin nn → K
  rho : Fin nn → K
  ubc : Fin nn → Fin nd → K
  vmesh : Fin nn → Fin nd → K

/-- One integration point of the face: `opposingNode` (left), `nearestNode` (right), `areaVec`, its length and `mdot`. -/
structure BcIp (nn nd : ℕ) (K : Type*) where
  opp : Fin nn
  near : Fin nn
  area : Fin nd → K
  amag : K
  mdot : K

/-- The options `noc_active`, `include_divu` and the mesh motion switch. -/
structure BcOpts (K : Type*) where
  nocFac : K
  incDivU : K
  meshCorr : K

/-- `axdx` (AssembleMomentumEdgeOpenSolverAlgorithm.C:220-228, AssembleMomentumEdgeSymmetrySolverAlgorithm.C:200-208). -/
def bcAxdx (n : BcNodes nn nd K) (p : BcIp nn nd K) : K := ∑ j, p.area j * (n.x p.near j - n.x p.opp j)

/-- `asq` (same lines). -/
def bcAsq (p : BcIp nn nd K) : K := ∑ j, p.area j * p.area j

/-- `p_duidxj`, the over-relaxed face gradient (AssembleMomentumEdgeOpenSolverAlgorithm.C:233-258, Symmetry 213-238). -/
def bcGrad (o : BcOpts K) (n : BcNodes nn nd K) (p : BcIp nn nd K) (i j : Fin nd) : K :=
  let uidiff := n.u p.near i - n.u p.opp i
  let gl := ∑ l, n.dudx p.near i l * (n.x p.near l - n.x p.opp l)
  n.dudx p.near i j * o.nocFac + (uidiff - gl * o.nocFac) * p.area j * (1 / bcAxdx n p)

/-- `p_fx` (AssembleMomentumEdgeOpenSolverAlgorithm.C:261-277, Symmetry 241-256). -/
def bcForce (o : BcOpts K) (n : BcNodes nn nd K) (p : BcIp nn nd K) (i : Fin nd) : K :=
  let divU := ∑ j, bcGrad o n p j j
  2 / 3 * n.visc p.near * divU * p.area i * o.incDivU +
    ∑ j, -n.visc p.near * (bcGrad o n p i j + bcGrad o n p j i) * p.area j

/-- `p_nx` (AssembleMomentumEdgeOpenSolverAlgorithm.C:270, Symmetry 250). -/
def bcNormal (p : BcIp nn nd K) (i : Fin nd) : K := p.area i / p.amag

/-- `fxnx` (AssembleMomentumEdgeOpenSolverAlgorithm.C:279, Symmetry 258). -/
def bcForceN (o : BcOpts K) (n : BcNodes nn nd K) (p : BcIp nn nd K) : K := ∑ i, bcNormal p i * bcForce o n p i

/-- The stress part of one integration point of an open face (AssembleMomentumEdgeOpenSolverAlgorithm.C:287-343). -/
def openStress (o : BcOpts K) (n : BcNodes nn nd K) (p : BcIp nn nd K) (s : LocalSys (Fin nn × Fin nd) K) :
    LocalSys (Fin nn × Fin nd) K :=
  let mu := n.visc p.near
  let inv := 1 / bcAxdx n p
  let nx := bcNormal p
  loop nd (fun i s =>
    let om := 1 - nx i * nx i
    let s := addR s (p.near, i) (-(bcForce o n p i - nx i * bcForceN o n p))
    let f := -mu * bcAsq p * inv * om
    let s := addL s (p.near, i) (p.opp, i) (-f)
    let s := addL s (p.near, i) (p.near, i) f
    loop nd (fun j s =>
      let f := -mu * p.area i * p.area j * inv * om
      let s := addL s (p.near, i) (p.opp, j) (-f)
      let s := addL s (p.near, i) (p.near, j) f
      if i = j then s
      else
        let nn' := nx i * nx j
        let f := mu * bcAsq p * inv * nn'
        let s := addL s (p.near, i) (p.opp, j) (-f)
        let s := addL s (p.near, i) (p.near, j) f
        let f := mu * p.area j * p.area j * inv * nn'
        let s := addL s (p.near, i) (p.opp, j) (-f)
        let s := addL s (p.near, i) (p.near, j) f
        let f := mu * p.area j * p.area i * inv * nn'
        let s := addL s (p.near, i) (p.opp, i) (-f)
        addL s (p.near, i) (p.near, i) f) s) s

/-- `uEntrain` (AssembleMomentumEdgeOpenSolverAlgorithm.C:361-365). -/
def uEntrain (o : BcOpts K) (n : BcNodes nn nd K) (p : BcIp nn nd K) : K :=
  let rho := n.rho p.near
  let mvc := ∑ j, rho * n.vmesh p.near j * p.area j
  p.mdot / (rho * p.amag) + mvc / (rho * p.amag) * o.meshCorr

/-- `uspecxnx` (AssembleMomentumEdgeOpenSolverAlgorithm.C:280). -/
def uSpecN (n : BcNodes nn nd K) (p : BcIp nn nd K) : K := ∑ i, bcNormal p i * n.ubc p.near i

/-- The advection part of one integration point of an open face (AssembleMomentumEdgeOpenSolverAlgorithm.C:345-382). -/
def openAdvection (o : BcOpts K) (n : BcNodes nn nd K) (p : BcIp nn nd K) (s : LocalSys (Fin nn × Fin nd) K) :
    LocalSys (Fin nn × Fin nd) K :=
  if p.mdot > 0 then
    loop nd (fun i s => addL (addR s (p.near, i) (-(p.mdot * n.u p.near i))) (p.near, i) (p.near, i) p.mdot) s
  else
    loop nd (fun i s =>
      let s := addR s (p.near, i) (-(p.mdot * uEntrain o n p * bcNormal p i))
      addR s (p.near, i) (-(p.mdot * (n.ubc p.near i - uSpecN n p * bcNormal p i)))) s

/-- `AssembleMomentumEdgeOpenSolverAlgorithm::execute` on one face (lines 191-385): local arrays zeroed, then the loop over the face
nodes. -/
def edgeOpen (o : BcOpts K) (n : BcNodes nn nd K) (ips : Fin nip → BcIp nn nd K) (s : LocalSys (Fin nn × Fin nd) K) :
    LocalSys (Fin nn × Fin nd) K :=
  loop nip (fun ip s => openAdvection o n (ips ip) (openStress o n (ips ip) s)) s

/-- One integration point of a symmetry face (AssembleMomentumEdgeSymmetrySolverAlgorithm.C:265-317).  The last two factors of the inner
loop do not contain `inv_axdx` in the code. -/
def symmetryStress (o : BcOpts K) (n : BcNodes nn nd K) (p : BcIp nn nd K) (s : LocalSys (Fin nn × Fin nd) K) :
    LocalSys (Fin nn × Fin nd) K :=
  let mu := n.visc p.near
  let inv := 1 / bcAxdx n p
  let nx := bcNormal p
  loop nd (fun i s =>
    let s := addR s (p.near, i) (-(bcForceN o n p * nx i))
    let f := -mu * bcAsq p * inv * nx i * nx i
    let s := addL s (p.near, i) (p.opp, i) (-f)
    let s := addL s (p.near, i) (p.near, i) f
    loop nd (fun j s =>
      let f := -mu * p.area i * p.area j * inv * (nx i * nx i)
      let s := addL s (p.near, i) (p.opp, j) (-f)
      let s := addL s (p.near, i) (p.near, j) f
      if i = j then s
      else
        let f := -mu * bcAsq p * inv * nx i * nx j
        let s := addL s (p.near, i) (p.opp, j) (-f)
        let s := addL s (p.near, i) (p.near, j) f
        let f := -mu * p.area j * p.area j * nx i * nx j
        let s := addL s (p.near, i) (p.opp, j) (-f)
        let s := addL s (p.near, i) (p.near, j) f
        let f := -mu * p.area j * p.area i * nx i * nx j
        let s := addL s (p.near, i) (p.opp, i) (-f)
        addL s (p.near, i) (p.near, i) f) s) s

/-- `AssembleMomentumEdgeSymmetrySolverAlgorithm::execute` on one face (lines 172-325). -/
def edgeSymmetry (o : BcOpts K) (n : BcNodes nn nd K) (ips : Fin nip → BcIp nn nd K) (s : LocalSys (Fin nn × Fin nd) K) :
    LocalSys (Fin nn × Fin nd) K :=
  loop nip (fun ip s => symmetryStress o n (ips ip) s) s

/-! ## The element symmetry kernel -/

/-- Innermost work of `MomentumSymmetryElemKernel::execute` at one integration point (kernel/MomentumSymmetryElemKernel.C:115-160):
`g` is `v_dndx_fc_elem(ip, ., .)`, `mu` is `viscBip`. -/
def symViscous (mu incDivU : K) (g : Fin nn → Fin nd → K) (a nx : Fin nd → K) (near : Fin nn)
    (u : Fin nn → Fin nd → K) (s : LocalSys (Fin nn × Fin nd) K) : LocalSys (Fin nn × Fin nd) K :=
  loop nn (fun ic s => loop nd (fun j s =>
    let divUstress := 2 / 3 * mu * g ic j * u ic j * a j * incDivU
    loop nd (fun i s =>
      let n2 := nx i * nx i
      let f1 := -mu * g ic j * a j * n2
      let s := addL s (near, i) (ic, i) f1
      let s := addR s (near, i) (-(f1 * u ic i + divUstress * n2))
      let f2 := -mu * g ic i * a j * n2
      let s := addL s (near, i) (ic, j) f2
      let s := addR s (near, i) (-(f2 * u ic j))
      loop nd (fun l s =>
        if i ≠ l then
          let nn' := nx i * nx l
          let f3 := -mu * g ic j * a j * nn'
          let s := addL s (near, i) (ic, l) f3
          let s := addR s (near, i) (-(f3 * u ic l + divUstress * nn'))
          let f4 := -mu * g ic l * a j * nn'
          let s := addL s (near, i) (ic, j) f4
          addR s (near, i) (-(f4 * u ic j))
        else s) s) s) s) s

/-- `MomentumSymmetryElemKernel::execute` (kernel/MomentumSymmetryElemKernel.C:92-162). -/
def symmetryElem (incDivU : K) (f : Face nn nf nip nd K) (mu : Fin nn → K) (u : Fin nn → Fin nd → K)
    (s : LocalSys (Fin nn × Fin nd) K) : LocalSys (Fin nn × Fin nd) K :=
  loop nip (fun ip s =>
    symViscous (∑ ic, f.shape ip ic * mu (f.node ic)) incDivU (f.dndx ip) (f.area ip)
      (fun j => f.area ip j / f.aMag ip) (f.near ip) u s) s

/-! ## Imposed fluxes and dynamic pressure -/

/-- A face on its own: shape functions of the face, `areaNorm` per point, `faceIpNodeMap`. -/
structure FluxFace (nf nip : ℕ) (K : Type*) where
  shape : Fin nip → Fin nf → K
  amag : Fin nip → K
  node : Fin nip → Fin nf

/-- `AssembleScalarFluxBCSolverAlgorithm::execute` on one face (AssembleScalarFluxBCSolverAlgorithm.C:155-178). -/
def scalarFlux (f : FluxFace nf nip K) (q : Fin nf → K) (s : LocalSys (Fin nf) K) : LocalSys (Fin nf) K :=
  loop nip (fun ip s => addR s (f.node ip) ((∑ ic, f.shape ip ic * q ic) * f.amag ip)) s

/-- `AssembleTemperatureNormalGradientBCSolverAlgorithm::execute` on one face
(AssembleTemperatureNormalGradientBCSolverAlgorithm.C:174-206). -/
def normalGradient (f : FluxFace nf nip K) (grad evisc cp : Fin nf → K) (s : LocalSys (Fin nf) K) : LocalSys (Fin nf) K :=
  loop nip (fun ip s =>
    let qn := -(∑ ic, f.shape ip ic * evisc ic) * (∑ ic, f.shape ip ic * cp ic) * (∑ ic, f.shape ip ic * grad ic)
    addR s (f.node ip) (qn * f.amag ip)) s

/-- A boundary face of the mesh, with the global nodes of its local nodes. -/
structure FluxRec (N K : Type*) where
  nf : ℕ
  nip : ℕ
  face : FluxFace nf nip K
  node : Fin nf → N

/-- The bucket loop of `AssembleScalarFluxBCSolverAlgorithm` over the locally owned faces (lines 84-183): gather, zeroed local arrays,
`apply_coeff`. -/
def assembleFlux {N : Type*} [DecidableEq N] (q : N → K) (fs : List (FluxRec N K)) (s : Sys N K) : Sys N K :=
  fs.foldl (fun s f => s.applyCoeff f.node (scalarFlux f.face (fun a => q (f.node a)) ⟨fun _ _ => 0, fun _ => 0⟩)) s

/-- The bucket loop of `AssembleTemperatureNormalGradientBCSolverAlgorithm` (lines 96-211). -/
def assembleGradient {N : Type*} [DecidableEq N] (grad evisc cp : N → K) (fs : List (FluxRec N K)) (s : Sys N K) : Sys N K :=
  fs.foldl (fun s f => s.applyCoeff f.node (normalGradient f.face (fun a => grad (f.node a)) (fun a => evisc (f.node a))
    (fun a => cp (f.node a)) ⟨fun _ _ => 0, fun _ => 0⟩)) s

/-- `ComputeDynamicPressureAlgorithm::execute` at one integration point (ComputeDynamicPressureAlgorithm.C:140-165). -/
def dynamicP (mdot rho amag : K) : K :=
  let u := mdot / (rho * amag)
  if u < 0 then 1 / 2 * rho * u * u else 0

/-! ## Pinning the pressure at one node -/

/-- A node of the search part on its owner: identifier and coordinates. -/
structure PinNode (nd : ℕ) (K : Type*) where
  id : ℕ
  x : Fin nd → K

/-- Squared distance (FixPressureAtNodeAlgorithm.C:137-141). -/
def dist2 (loc : Fin nd → K) (p : PinNode nd K) : K := ∑ j, (loc j - p.x j) * (loc j - p.x j)

/-- One node of the scan (FixPressureAtNodeAlgorithm.C:142-145); `none` while no node has been taken (`distSqr` is still
`numeric_limits::max`). -/
def scanStep (loc : Fin nd → K) (best : Option (PinNode nd K)) (p : PinNode nd K) : Option (PinNode nd K) :=
  match best with
  | none => some p
  | some b => if dist2 loc p < dist2 loc b then some p else some b

/-- The scan of the locally owned nodes of one rank (FixPressureAtNodeAlgorithm.C:126-147). -/
def scanRank (loc : Fin nd → K) (nodes : List (PinNode nd K)) : Option (PinNode nd K) := nodes.foldl (scanStep loc) none

/-- One entry of the scan over the gathered distances (FixPressureAtNodeAlgorithm.C:155-160); a rank without nodes holds
`numeric_limits::max` and is never taken. -/
def rankStep (best : Option (ℕ × K)) (d : Option K × ℕ) : Option (ℕ × K) :=
  match d.1, best with
  | none, best => best
  | some v, none => some (d.2, v)
  | some v, some b => if v < b.2 then some (d.2, v) else some b

/-- `minDistProc` (FixPressureAtNodeAlgorithm.C:150-160): the gathered minimal distances are scanned in rank order with a strict
comparison. -/
def minRank (ds : List (Option K)) : Option ℕ := (ds.zipIdx.foldl rankStep none).map Prod.fst

/-- `determine_nearest_node` (FixPressureAtNodeAlgorithm.C:99-171): the winning rank contributes its node id, all others `0`, and
`all_reduce_max` distributes the maximum. -/
def nearestId (loc : Fin nd → K) (ranks : List (List (PinNode nd K))) : ℕ :=
  let local' := ranks.map (scanRank loc)
  let win := minRank (local'.map (Option.map (dist2 loc)))
  ((local'.zipIdx).map fun r => if win = some r.2 then (r.1.map PinNode.id).getD 0 else 0).foldl max 0

/-- `process_pressure_fix_node` (FixPressureAtNodeAlgorithm.C:173-201) on one rank: is the node put on `refNodeList_`, and the flag
`fixPressureNode_`. -/
def processPin (valid owned shared : Bool) : Bool × Bool :=
  if valid && (owned || shared) then (true, owned) else (false, false)

/-- `FixPressureAtNodeAlgorithm::execute` on one rank (FixPressureAtNodeAlgorithm.C:50-79): `resetRows` of the listed node, then on the
owner `apply_coeff` with a unit diagonal and `refPressure - p`.  `none` is the exception of `resetRows`. -/
def pinExecute {R : Type*} [Field R] (L : Verif.LinSys.Local) (lf : Bool × Bool) (node : ℕ) (refP p : R) (perm : ℕ → ℕ)
    (s : Verif.LinSys.Sys R) : Option (Verif.LinSys.Sys R) :=
  if lf.1 then
    (Verif.LinSys.resetRow L (L.rowLID node) s).map fun t =>
      if lf.2 then Verif.LinSys.sumInto L ⟨[node], fun _ _ => 1, fun _ => refP - p⟩ perm t else t
  else some s

/-- `SolverAlgorithmDriver::execute` (SolverAlgorithmDriver.C:108-139) as the list of algorithms in the order they run: consolidated
and interior/boundary assembly, constraints, Dirichlet conditions; each map is walked in the order of its key. -/
def driverOrder {A : Type*} (consolidated interior constraint dirichlet : List (ℕ × A)) : List A :=
  let sorted := fun l : List (ℕ × A) => (l.mergeSort fun a b => a.1 ≤ b.1).map Prod.snd
  sorted consolidated ++ sorted interior ++ sorted constraint ++ sorted dirichlet

end Nalu.Bc
