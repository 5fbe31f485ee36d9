import Mathlib.Analysis.SpecialFunctions.Pow.Real
import Mathlib.Algebra.BigOperators.Fin

/-!
# The one-dimensional wall model of the projected wall function

Models `PointInfo.C` (the grid, the tridiagonal system and its solution, the iteration on the wall shear stress) and
`ComputeWallFrictionVelocityProjectedAlgorithm.C` (the projected points, the search for the owning element and the friction velocity of a point).

`double` is `ℝ`.  A vector is a function from offsets.  The code fixes `numPoints_ = 50`, `bias_ = 200`, `Aplus = 17`, `MAX_ITER = 1000`,
`TOLERANCE = 1e-6`; here they are parameters.  Not modelled: the term `diffFlux = ... * 0.0` of `assemble` (it is zero), the debug output, the
coarse search itself (its result, the list of pairs, is data), ghosting of elements.
-/

namespace Nalu.WallOde

/-- `v[k] = x`. -/
def put {T : Type*} (v : ℕ → T) (k : ℕ) (x : T) : ℕ → T := fun i => if i = k then x else v i

/-! ## The grid -/

/-- `Ltotal` (PointInfo.C:78-82). -/
noncomputable def lTotal {nd : ℕ} (ip pt : Fin nd → ℝ) : ℝ := Real.sqrt (∑ i, (pt i - ip i) * (pt i - ip i))

/-- `L1` (line 85), `n` segments. -/
noncomputable def firstLength (bias L : ℝ) (n : ℕ) : ℝ :=
  L * (1 - bias ^ (1 / ((n : ℝ) - 1))) / (1 - bias ^ ((n : ℝ) / ((n : ℝ) - 1)))

/-- `dyVec` (lines 94-100): `dyVec[k] = dyVec[k-1]*r`. -/
noncomputable def dy (r L1 : ℝ) : ℕ → ℝ
  | 0 => L1
  | k + 1 => dy r L1 k * r

/-- `coordsVec_` (lines 102-108). -/
noncomputable def coord (d : ℕ → ℝ) : ℕ → ℝ
  | 0 => 0
  | k + 1 => coord d k + d k

/-- `coordsVec_` after `initialize_ode_points` (lines 66-126) with `numPoints` points. -/
noncomputable def odeGrid (bias L : ℝ) (numPoints : ℕ) : ℕ → ℝ :=
  let n := numPoints - 1
  coord (dy (bias ^ (1 / ((n : ℝ) - 1))) (firstLength bias L n))

/-! ## The tridiagonal system -/

/-- `NaluOneDMatrixSystem` (include/PointInfo.h:42-52). -/
@[ext] structure Row where
  Aw : ℝ
  Ap : ℝ
  Ae : ℝ
  rhs : ℝ

/-- `zero` (include/PointInfo.h:51). -/
def Row.zero : Row := ⟨0, 0, 0, 0⟩

/-- `scatter` (PointInfo.C:131-140) with left and right row `il`, `ir`. -/
def scatter (ns : ℕ → Row) (il ir : ℕ) (a0 a1 a2 a3 r0 r1 : ℝ) : ℕ → Row :=
  let ns := put ns il { ns il with Ap := (ns il).Ap + a0 }
  let ns := put ns il { ns il with Ae := (ns il).Ae + a1 }
  let ns := put ns ir { ns ir with Aw := (ns ir).Aw + a2 }
  let ns := put ns ir { ns ir with Ap := (ns ir).Ap + a3 }
  let ns := put ns il { ns il with rhs := (ns il).rhs + r0 }
  put ns ir { ns ir with rhs := (ns ir).rhs + r1 }

/-- `dirichlet` (PointInfo.C:145-151). -/
def dirichlet (ns : ℕ → Row) (k : ℕ) (du : ℝ) : ℕ → Row := put ns k ⟨0, 1, 0, du⟩

/-- `compute_visc` (PointInfo.C:156-172). -/
noncomputable def viscAt (aplus tau rho mu kappa : ℝ) (x : ℕ → ℝ) (k : ℕ) : ℝ :=
  let yk := x k - x 0
  let yplus := yk * Real.sqrt (rho * tau) / mu
  let blend := 1 - Real.exp (-yplus / aplus)
  mu + kappa * rho * Real.sqrt (tau / rho) * yk * blend * blend

/-- `lrscv_` (PointInfo.C:120-123). -/
def lrscv (k : ℕ) : ℕ × ℕ := (k, k + 1)

/-- `assemble` (PointInfo.C:177-224) for `m` rows. -/
noncomputable def assemble (m : ℕ) (x visc : ℕ → ℝ) (ns : ℕ → Row) : ℕ → Row :=
  let ns := fun k => if k < m then Row.zero else ns k
  (List.range (m - 1)).foldl (fun ns k =>
    let il := (lrscv k).1
    let ir := (lrscv k).2
    let dx := x ir - x il
    let lhsfac := -(1 / 2) * (visc ir + visc il) / dx
    scatter ns il ir (-lhsfac) lhsfac lhsfac (-lhsfac) 0 0) ns

/-- The forward sweep of `tdma` (PointInfo.C:233-238). -/
noncomputable def forward (m : ℕ) (ns : ℕ → Row) : ℕ → Row :=
  (List.range (m - 1)).foldl (fun ns j =>
    let k := j + 1
    let w := (ns k).Aw / (ns (k - 1)).Ap
    let ns := put ns k { ns k with Ap := (ns k).Ap - w * (ns (k - 1)).Ae }
    put ns k { ns k with rhs := (ns k).rhs - w * (ns (k - 1)).rhs }) ns

/-- The backward sweep (lines 241-244). -/
noncomputable def backward (m : ℕ) (ns : ℕ → Row) (u : ℕ → ℝ) : ℕ → ℝ :=
  (List.range (m - 1)).reverse.foldl (fun u k => put u k (((ns k).rhs - (ns k).Ae * u (k + 1)) / (ns k).Ap))
    (put u (m - 1) ((ns (m - 1)).rhs / (ns (m - 1)).Ap))

/-- `tdma` (PointInfo.C:229-245). -/
noncomputable def tdma (m : ℕ) (ns : ℕ → Row) (u : ℕ → ℝ) : ℕ → ℝ := backward m (forward m ns) u

/-! ## The iteration -/

/-- Constants of the model. -/
structure OdeOpts where
  aplus : ℝ
  kappa : ℝ
  tol : ℝ
  maxIter : ℕ
  numPoints : ℕ
  bias : ℝ

/-- `PointInfo`, the part used by `solve`: `coordsVec_`, `velocityVec_`, `AmatrixSystemVec_`, `tauWall_`, `iterations_`. -/
structure Pt where
  coords : ℕ → ℝ
  vel : ℕ → ℝ
  mat : ℕ → Row
  tauWall : ℝ
  iterations : ℕ

/-- The constructor (PointInfo.C:27-57, with `initialize_ode_points`). -/
noncomputable def Pt.new (o : OdeOpts) {nd : ℕ} (ip pt : Fin nd → ℝ) : Pt where
  coords := odeGrid o.bias (lTotal ip pt) o.numPoints
  vel := fun _ => 0
  mat := fun _ => Row.zero
  tauWall := -1
  iterations := 0

/-- The profile for a given wall shear stress: viscosity, assembly, Dirichlet rows, `tdma` (PointInfo.C:269-279). -/
noncomputable def profile (o : OdeOpts) (uEx uW rho mu tau : ℝ) (p : Pt) : Pt :=
  let ns := assemble o.numPoints p.coords (viscAt o.aplus tau rho mu o.kappa p.coords) p.mat
  let ns := dirichlet ns 0 uW
  let ns := dirichlet ns (o.numPoints - 1) uEx
  { p with mat := forward o.numPoints ns, vel := tdma o.numPoints ns p.vel }

/-- `tauWallC` (lines 282-283). -/
noncomputable def tauOf (mu : ℝ) (p : Pt) : ℝ := mu * (p.vel 1 - p.vel 0) / (p.coords 1 - p.coords 0)

/-- The loop of `solve` (lines 266-294): `k` iterations left; returns the state, `tauWallG` and `converged`. -/
noncomputable def solveLoop (o : OdeOpts) (uEx uW rho mu : ℝ) : ℕ → ℝ → Pt → Pt × ℝ × Bool
  | 0, tau, p => (p, tau, false)
  | k + 1, tau, p =>
    let p := profile o uEx uW rho mu tau p
    let tauC := tauOf mu p
    if Real.sqrt ((tauC - tau) * (tauC - tau)) < o.tol then ({ p with iterations := o.maxIter - k }, tau, true)
    else solveLoop o uEx uW rho mu k tauC p

/-- `PointInfo::solve` (lines 250-305): state, friction velocity, `converged`. -/
noncomputable def solve (o : OdeOpts) (uEx uW rho mu tauProvided : ℝ) (p : Pt) : Pt × ℝ × Bool :=
  let p := { p with iterations := o.maxIter }
  let tauG := if p.tauWall > 0 then p.tauWall else tauProvided
  let r := solveLoop o uEx uW rho mu o.maxIter tauG p
  (r.1, Real.sqrt (r.2.1 / rho), r.2.2)

/-- `compute_utau_ode` from the guess of `execute` (ComputeWallFrictionVelocityProjectedAlgorithm.C:378-386, 459-465). -/
noncomputable def utauOde (o : OdeOpts) (yplusCrit uTan rho mu yp : ℝ) (p : Pt) : Pt × ℝ × Bool :=
  let guess := yplusCrit * mu / rho / yp
  solve o uTan 0 rho mu (rho * guess * guess) p

/-! ## The projected points and their owning elements -/

/-- `pointCoordinates` (ComputeWallFrictionVelocityProjectedAlgorithm.C:648-679): the integration point moved by `pDistance` against the outward
normal. -/
noncomputable def projPoint {nd : ℕ} (ip area : Fin nd → ℝ) (dist : ℝ) : Fin nd → ℝ :=
  fun j => ip j - dist * (area j / Real.sqrt (∑ k, area k * area k))

/-- A pair of the coarse search: point id and rank, element. -/
structure Pair where
  id : ℕ
  proc : ℕ
  box : ℕ

/-- What is kept per point: `owningElement_` (none before the search), `isoParCoords_`, `bestX_`. -/
structure Owner (I : Type*) where
  elem : Option ℕ
  iso : Option I
  best : ℝ

/-- The candidates of point `id`: `std::equal_range` by id of the sorted pairs (lines 885-886).  The order of equal ids is unspecified; here it is
that of the list. -/
def candidates (pairs : List Pair) (id : ℕ) : List Pair := pairs.filter fun q => q.id = id

/-- The loop over the candidates (lines 892-940): on the rank of the point the nearest wins, a tie goes to the first. -/
noncomputable def pick {I : Type*} (rank : ℕ) (isIn : ℕ → ℝ × I) : List Pair → Owner I → Owner I
  | [], w => w
  | q :: l, w => pick rank isIn l
      (if rank = q.proc then (if (isIn q.box).1 < w.best then ⟨some q.box, some (isIn q.box).2, (isIn q.box).1⟩ else w) else w)

/-- `complete_search` for one point (lines 877-940): `none` is the throw at the end, otherwise the owner, from `bestXRef_`. -/
noncomputable def completeSearch {I : Type*} (bestRef : ℝ) (rank : ℕ) (isIn : ℕ → ℝ × I) (pairs : List Pair) (id : ℕ) : Option (Owner I) :=
  if (candidates pairs id).isEmpty then none else some (pick rank isIn (candidates pairs id) ⟨none, none, bestRef⟩)

end Nalu.WallOde
