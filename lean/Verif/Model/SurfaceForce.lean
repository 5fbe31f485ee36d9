import Verif.Model.WallFunction
import Verif.Model.ElemKernel

/-!
# Surface force and moment post-processing

Models /repo/src/SurfaceForceAndMomentAlgorithm.C, SurfaceForceAndMomentWallFunctionAlgorithm.C,
SurfaceForceAndMomentWallFunctionProjectedAlgorithm.C and SurfaceForceAndMomentAlgorithmDriver.C.

`double` is `ℝ`.  The wall is a list of faces; a face knows shape functions, area vectors and `ipNodeMap` at its points.  The
three algorithms differ in what a point contributes and agree in how it is accumulated.  The sums over ranks are the
`all_reduce_sum` of the code; nodal fields are those after `parallel_sum` (periodic images are not repeated here).  The output
file is the pair returned by `report`.
-/

namespace Nalu.Force
open Nalu.Wall Nalu.Kernel

variable {M : Type*} {nd : ℕ}

/-- `cross_product` (SurfaceForceAndMomentAlgorithm.C:465-472 and twice more). -/
def cross (force rad : Fin 3 → ℝ) : Fin 3 → ℝ :=
  ![rad 1 * force 2 - rad 2 * force 1, -(rad 0 * force 2 - rad 2 * force 0), rad 0 * force 1 - rad 1 * force 0]

/-- The work arrays have three entries initialised with zero of which the first `nDim` are written
(SurfaceForceAndMomentAlgorithm.C:143-149, 265-291). -/
def pad (v : Fin nd → ℝ) : Fin 3 → ℝ := fun i => if h : i.val < nd then v ⟨i.val, h⟩ else 0

/-- A wall face: nodes, integration points, shape functions, exposed area vectors, `ipNodeMap`, and the node of the element
opposing each point. -/
structure Face (M : Type*) (nd : ℕ) where
  nf : ℕ
  nip : ℕ
  shape : Fin nip → Fin nf → ℝ
  area : Fin nip → Fin nd → ℝ
  near : Fin nip → Fin nf
  node : Fin nf → M
  opp : Fin nip → M

/-- Interpolation of a nodal field to a point (SurfaceForceAndMomentAlgorithm.C:233-241). -/
def Face.val (f : Face M nd) (ip : Fin f.nip) (q : M → ℝ) : ℝ := ∑ ic, f.shape ip ic * q (f.node ic)

/-- Nodal fields. -/
structure Fields (M : Type*) (nd : ℕ) where
  x : M → Fin nd → ℝ
  p : M → ℝ
  rho : M → ℝ
  mu : M → ℝ
  dudx : M → Fin nd → Fin nd → ℝ
  u : M → Fin nd → ℝ
  ubc : M → Fin nd → ℝ

/-- What one integration point contributes: its node, area magnitude, pressure and viscous force, `tau` times area, `y+`. -/
structure Contribution (M : Type*) (nd : ℕ) where
  node : M
  aMag : ℝ
  pF : Fin nd → ℝ
  vF : Fin nd → ℝ
  tauA : ℝ
  yplus : ℝ

/-- `tauijNj`: the viscous traction (SurfaceForceAndMomentAlgorithm.C:277-288). -/
def traction (mu : ℝ) (g : Fin nd → Fin nd → ℝ) (n : Fin nd → ℝ) (i : Fin nd) : ℝ :=
  ∑ j, -mu * (g i j + g j i) * n j

/-- `ypBip` of the plain algorithm (SurfaceForceAndMomentAlgorithm.C:327-333). -/
noncomputable def normalDistance (n xL xR : Fin nd → ℝ) : ℝ :=
  Real.sqrt (∑ j, n j * (xR j - xL j) * n j * (xR j - xL j))

/-- `SurfaceForceAndMomentAlgorithm::execute`, one point (SurfaceForceAndMomentAlgorithm.C:225-345); `divFac` is
`includeDivU_`. -/
noncomputable def plainPoint (divFac : ℝ) (F : Fields M nd) (f : Face M nd) (ip : Fin f.nip) : Contribution M nd :=
  let a := f.area ip
  let nrm := unitNormal a
  let m := f.node (f.near ip)
  let g := F.dudx m
  let mu := f.val ip F.mu
  let rho := f.val ip F.rho
  let tauT := Real.sqrt (∑ i, tangential nrm (traction mu g nrm) i * tangential nrm (traction mu g nrm) i)
  { node := m
    aMag := Wall.aMag a
    pF := fun i => f.val ip F.p * a i
    vF := fun i => 2 / 3 * mu * (∑ j, g j j) * divFac * a i + ∑ j, -mu * (g i j + g j i) * a j
    tauA := tauT * Wall.aMag a
    yplus := rho * normalDistance nrm (F.x (f.opp ip)) (F.x m) / mu * Real.sqrt (tauT / rho) }

/-- Data of the wall functions at a point: `wall_normal_distance_bip`, `wall_friction_velocity_bip`, and for the projected form the
velocity at the projected point and `odeFac`. -/
structure WallData (M : Type*) (nd : ℕ) where
  yp : (f : Face M nd) → Fin f.nip → ℝ
  utau : (f : Face M nd) → Fin f.nip → ℝ
  uProj : (f : Face M nd) → Fin f.nip → Fin nd → ℝ
  odeFac : (f : Face M nd) → Fin f.nip → ℝ

/-- Constants: `elog_`, `kappa_`, `yplusCrit_`. -/
structure WallOpts where
  elog : ℝ
  kappa : ℝ
  yplusCrit : ℝ

/-- `SurfaceForceAndMomentWallFunctionAlgorithm::execute`, one point
(SurfaceForceAndMomentWallFunctionAlgorithm.C:256-377). -/
noncomputable def wallFnPoint (o : WallOpts) (W : WallData M nd) (F : Fields M nd) (f : Face M nd) (ip : Fin f.nip) :
    Contribution M nd :=
  let a := f.area ip
  let nrm := unitNormal a
  let mu := f.val ip F.mu
  let rho := f.val ip F.rho
  let uB : Fin nd → ℝ := fun j => f.val ip fun m => F.u m j
  let uBc : Fin nd → ℝ := fun j => f.val ip fun m => F.ubc m j
  let lam := lambda o.elog o.kappa o.yplusCrit rho mu (W.yp f ip) (W.utau f ip) (Wall.aMag a)
  let diff : Fin nd → ℝ := fun i => tangential nrm uB i - tangential nrm uBc i
  { node := f.node (f.near ip)
    aMag := Wall.aMag a
    pF := fun i => f.val ip F.p * a i
    vF := fun i => lam * diff i
    tauA := lam * Real.sqrt (∑ i, diff i * diff i)
    yplus := rho * W.yp f ip * W.utau f ip / mu }

/-- `SurfaceForceAndMomentWallFunctionProjectedAlgorithm::execute`, one point
(SurfaceForceAndMomentWallFunctionProjectedAlgorithm.C:293-437). -/
noncomputable def projectedPoint (o : WallOpts) (W : WallData M nd) (F : Fields M nd) (f : Face M nd) (ip : Fin f.nip) :
    Contribution M nd :=
  let a := f.area ip
  let nrm := unitNormal a
  let mu := f.val ip F.mu
  let rho := f.val ip F.rho
  let uBc : Fin nd → ℝ := fun j => f.val ip fun m => F.ubc m j
  let utau := W.utau f ip
  let ode := W.odeFac f ip
  let uT := tangentialSpeed nrm (W.uProj f ip) uBc
  let lam := lambda o.elog o.kappa o.yplusCrit rho mu (W.yp f ip) utau (Wall.aMag a) * (1 - ode) +
    ode * rho * utau * utau * Wall.aMag a
  { node := f.node (f.near ip)
    aMag := Wall.aMag a
    pF := fun i => f.val ip F.p * a i
    vF := fun i => lam * (tangential nrm (W.uProj f ip) i - tangential nrm uBc i) * (1 / ((1 - ode) + ode * uT))
    tauA := lam * (ode + (1 - ode) * uT)
    yplus := rho * W.yp f ip * utau / mu }

/-- The three algorithms; each has its own `assembled_area_force_moment*` field. -/
inductive Kind | plain | wallFn | projected
  deriving DecidableEq

/-- The point contribution of an algorithm. -/
noncomputable def pointOf (divFac : ℝ) (o : WallOpts) (W : WallData M nd) (F : Fields M nd) :
    Kind → (f : Face M nd) → Fin f.nip → Contribution M nd
  | .plain => plainPoint divFac F
  | .wallFn => wallFnPoint o W F
  | .projected => projectedPoint o W F

/-- All points of a list of faces in the sequence of the loops. -/
def points {C : Type*} (pt : (f : Face M nd) → Fin f.nip → C) (faces : List (Face M nd)) : List C :=
  faces.flatMap fun f => (List.finRange f.nip).map (pt f)

/-- The accumulators of `execute`: `l_force_moment` in three parts, the extreme `y+`. -/
structure Totals where
  fP : Fin 3 → ℝ
  fV : Fin 3 → ℝ
  mo : Fin 3 → ℝ
  ymin : ℝ
  ymax : ℝ

/-- Initial values (SurfaceForceAndMomentAlgorithm.C:121-122, 139). -/
def Totals.init : Totals := ⟨0, 0, 0, 100000000, -100000000⟩

/-- Accumulation of one point (SurfaceForceAndMomentAlgorithm.C:262-265, 292, 305-312, 344-345). -/
noncomputable def Totals.add (x : M → Fin nd → ℝ) (centroid : Fin 3 → ℝ) (t : Totals) (c : Contribution M nd) : Totals :=
  let radius : Fin 3 → ℝ := pad fun i => x c.node i - (if h : i.val < 3 then centroid ⟨i.val, h⟩ else 0)
  let force : Fin 3 → ℝ := pad fun i => c.pF i + c.vF i
  { fP := fun j => t.fP j + pad c.pF j
    fV := fun j => t.fV j + pad c.vF j
    mo := fun j => t.mo j + cross force radius j
    ymin := min t.ymin c.yplus
    ymax := max t.ymax c.yplus }

/-- The totals of one rank. -/
noncomputable def localTotals (x : M → Fin nd → ℝ) (centroid : Fin 3 → ℝ) (cs : List (Contribution M nd)) : Totals :=
  cs.foldl (Totals.add x centroid) Totals.init

/-- `all_reduce_sum`, `all_reduce_min`, `all_reduce_max` over the ranks (SurfaceForceAndMomentAlgorithm.C:352-363): what is
written to the file.  Each rank has the points of the faces it owns. -/
noncomputable def report (x : M → Fin nd → ℝ) (centroid : Fin 3 → ℝ) : List (List (Contribution M nd)) → Totals
  | [] => Totals.init
  | cs :: rest =>
    let t := localTotals x centroid cs
    let r := report x centroid rest
    ⟨fun j => t.fP j + r.fP j, fun j => t.fV j + r.fV j, fun j => t.mo j + r.mo j, min t.ymin r.ymin, max t.ymax r.ymax⟩

/-! ## Nodal fields and the driver -/

/-- Nodal fields written: `pressure_force`, `tau_wall`, `yplus` and the three assembled areas. -/
structure Nodal (M : Type*) (nd : ℕ) where
  pForce : M → Fin nd → ℝ
  tau : M → ℝ
  yplus : M → ℝ
  area : Kind → M → ℝ

/-- `zero_fields` (SurfaceForceAndMomentAlgorithmDriver.C:58-86). -/
def Nodal.zero (_ : Nodal M nd) : Nodal M nd := ⟨fun _ _ => 0, fun _ => 0, fun _ => 0, fun _ _ => 0⟩

/-- `pre_work` of an algorithm, one point: `*assembledArea += aMag` (SurfaceForceAndMomentAlgorithm.C:440-456). -/
def Nodal.addArea [DecidableEq M] (k : Kind) (s : Nodal M nd) (c : Contribution M nd) : Nodal M nd :=
  { s with area := fun k' m => if k' = k ∧ m = c.node then s.area k' m + c.aMag else s.area k' m }

/-- Nodal part of `execute`, one point (SurfaceForceAndMomentAlgorithm.C:270, 302-303, 341). -/
noncomputable def Nodal.addPoint [DecidableEq M] (k : Kind) (s : Nodal M nd) (c : Contribution M nd) : Nodal M nd :=
  { s with
    pForce := fun m i => if m = c.node then s.pForce m i + c.pF i else s.pForce m i
    tau := fun m => if m = c.node then s.tau m + c.tauA / s.area k c.node else s.tau m
    yplus := fun m => if m = c.node then s.yplus m + c.yplus * c.aMag / s.area k c.node else s.yplus m }

/-- `SurfaceForceAndMomentAlgorithmDriver::execute` (SurfaceForceAndMomentAlgorithmDriver.C:152-187): nothing on steps that are not
multiples of the frequency; otherwise zero, all `pre_work`, all `execute`.  An algorithm is its kind and its points. -/
noncomputable def drive [DecidableEq M] (step freq : ℕ) (algs : List (Kind × List (Contribution M nd)))
    (s : Nodal M nd) : Nodal M nd :=
  if step % freq = 0 then
    let s := s.zero
    let s := algs.foldl (fun s a => a.2.foldl (Nodal.addArea a.1) s) s
    algs.foldl (fun s a => a.2.foldl (Nodal.addPoint a.1) s) s
  else s

end Nalu.Force
