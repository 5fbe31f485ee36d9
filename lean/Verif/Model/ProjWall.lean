import Verif.Model.WallOde
import Verif.Model.WallFunction

/-!
# The projected wall function: sampling points, exchange velocity, search boxes

Models src/ComputeWallFrictionVelocityProjectedAlgorithm.C (all of it except the debug output) with the registration in
src/LowMachEquationSystem.C:1940-1957 and the reading of the exchange velocity by
src/AssembleMomentumElemWallFunctionProjectedSolverAlgorithm.C:100-135.  `double` is `ℝ`.

Simplifications.  The faces of a part come in the order in which the buckets list them; the ghosting update between the construction of the points
and their use does not change the locally owned faces, so both traversals see the same list.  What the mesh gives at an integration point (location,
area vector, interpolated fluid properties) is data of the face.  `PointInfo` objects are values: nobody else writes them.
-/

namespace Nalu.ProjWall

open Nalu.WallOde

/-! ## The sampling points -/

/-- One integration point of a wall face: `ipCoordinates` and its area vector
(ComputeWallFrictionVelocityProjectedAlgorithm.C:644-669). -/
structure Ip (nd : ℕ) where
  x : Fin nd → ℝ
  area : Fin nd → ℝ

/-- An entry of `partVec_` with its entries in `projectedDistanceVec_` and `projectedDistanceOdeVec_` (set_data, set_data_alt, lines 404-416;
LowMachEquationSystem.C:1940-1957) and its locally owned faces. -/
structure Part (nd : ℕ) where
  name : String
  dist : ℝ
  ode : ℝ
  faces : List (List (Ip nd))

/-- What the constructor of `PointInfo` stores: `localPointId_`, `ipCoordinates_`, `pointCoordinates_`, `odeFac_` (line 681). -/
structure Info (nd : ℕ) where
  id : ℕ
  x : Fin nd → ℝ
  pt : Fin nd → ℝ
  ode : ℝ

/-- `pointInfoMap_`, `boundingPointVec_` (id and location), `localPointId`. -/
structure Store (nd : ℕ) where
  map : String → Option (List (List (Info nd)))
  pts : List (ℕ × (Fin nd → ℝ))
  next : ℕ

/-- `initialize_map` (lines 533-549) and the cleared `boundingPointVec_`: every part name is a key without entries. -/
def start {nd : ℕ} (parts : List (Part nd)) : Store nd where
  map := fun s => if s ∈ parts.map (·.name) then some [] else none
  pts := []
  next := 0

/-- `faceInfoVec` of one face (lines 638-685), ids from `n` on. -/
noncomputable def faceInfos {nd : ℕ} (dist ode : ℝ) : ℕ → List (Ip nd) → List (Info nd)
  | _, [] => []
  | n, ip :: l => ⟨n, ip.x, projPoint ip.x ip.area dist, ode⟩ :: faceInfos dist ode (n + 1) l

/-- The body of the face loop of `construct_bounding_points` (lines 616-689): `pointInfoMap_[partName].push_back(faceInfoVec)`. -/
noncomputable def addFace {nd : ℕ} (p : Part nd) (s : Store nd) (ips : List (Ip nd)) : Store nd :=
  let fi := faceInfos p.dist p.ode s.next ips
  { map := fun k => if k = p.name then some ((s.map k).getD [] ++ [fi]) else s.map k
    pts := s.pts ++ fi.map fun i => (i.id, i.pt)
    next := s.next + ips.length }

/-- `initialize_map` and `construct_bounding_points` (lines 533-691). -/
noncomputable def build {nd : ℕ} (parts : List (Part nd)) : Store nd :=
  parts.foldl (fun s p => p.faces.foldl (addFace p) s) (start parts)

/-- The `PointInfo` that `execute` takes for integration point `ip` of the face number `c` of a part called `name` (lines 163-178, 246-258): the map
entry of the name, the face by the counter of the part, the point by its number.  The outer `none` is the throw of line 171. -/
def lookup {nd : ℕ} (s : Store nd) (name : String) (c i : ℕ) : Option (Option (Info nd)) :=
  (s.map name).map fun v => (v[c]?).bind fun f => f[i]?

/-! ## One integration point -/

/-- Constants of the algorithm. -/
structure Consts where
  elog : ℝ
  kappa : ℝ
  yplusCrit : ℝ
  tol : ℝ
  maxIt : ℕ
  ode : OdeOpts

/-- What one integration point writes: `wallNormalDistanceBip`, the contributions to `assembledWallArea` and `assembledWallNormalDistance`,
`wallFrictionVelocityBip` and `converged` (lines 341-398). -/
structure IpOut where
  dist : ℝ
  area : ℝ
  areaDist : ℝ
  utau : ℝ
  conv : Bool

/-- The body of the loop over the points (lines 248-398), `pDistance` of the part that is being traversed, `info` the `PointInfo` looked up (its ODE
state `p`), `u` the exchange velocity at the sampling point, `uBc`, `rho`, `mu` at the wall. -/
noncomputable def ipOut {nd : ℕ} (c : Consts) (pDistance : ℝ) (info : Info nd) (p : Pt) (area u uBc : Fin nd → ℝ) (rho mu : ℝ) : IpOut :=
  let aMag := Wall.aMag area
  let uTan := Wall.tangentialSpeed (Wall.unitNormal area) u uBc
  let r : ℝ × Bool :=
    if info.ode > 0 then (utauOde c.ode c.yplusCrit uTan rho mu pDistance p).2
    else Wall.frictionVelocity c.elog c.kappa c.yplusCrit c.tol c.maxIt uTan pDistance rho mu
  ⟨pDistance, aMag, aMag * pDistance, r.1, r.2⟩

/-! ## When the points are made -/

/-- `initialize` (lines 469-505) for a sequence of calls of `execute`, `geom k` the parts at call `k`: the store the call works with. -/
noncomputable def stores {nd : ℕ} (moves : Bool) : Option (Store nd) → List (List (Part nd)) → List (Store nd)
  | _, [] => []
  | none, g :: gs => build g :: stores moves (some (build g)) gs
  | some s, g :: gs => if moves then build g :: stores moves (some (build g)) gs else s :: stores moves (some s) gs

/-! ## The exchange velocity over time -/

/-- The velocity at a node, as a list of its states (`StateNP1` first): on the owner and in the copy that the rank of the wall face reads. -/
structure NodeVel (V : Type*) where
  own : List V
  seen : List V

/-- Rotation of the states: `update_field_data_states` (Realm.C:3852-3855), all copies alike; `StateNP1` gets the memory of the oldest state. -/
def rotate {V : Type*} : List V → List V
  | [] => []
  | a :: l => (a :: l).getLast (by simp) :: (a :: l).dropLast

/-- `v[0] = x`. -/
def setNew {V : Type*} (x : V) : List V → List V
  | [] => []
  | _ :: l => x :: l

/-- `v[0] = v[1]`. -/
def copyOld {V : Type*} : List V → List V
  | _ :: b :: l => b :: b :: l
  | l => l

/-- `predict_state` (LowMachEquationSystem.C:2255-2262; `field_copy`, FieldFunctions.C:114-146): runs over owned and shared entities and, with an
active aura, the aura; a node that the rank only holds through the wall-function ghosting (`ghost`) is not visited. -/
def predict {V : Type*} (ghost : Bool) (n : NodeVel V) : NodeVel V :=
  ⟨copyOld n.own, if ghost then n.seen else copyOld n.seen⟩

/-- A new velocity: the momentum correction or the projection (LowMachEquationSystem.C:810-818, 849; same entities as `predict`). -/
def update {V : Type*} (ghost : Bool) (x : V) (n : NodeVel V) : NodeVel V :=
  ⟨setNew x n.own, if ghost then n.seen else setNew x n.seen⟩

/-- `initialize` and the communication at the start of `execute` (ComputeWallFrictionVelocityProjectedAlgorithm.C:153-158): with a moving mesh the
ghosting is destroyed and made again (lines 512-528, 838-842; a new ghost receives all states), otherwise `StateNP1` is communicated. -/
def communicate {V : Type*} (ghost moves : Bool) (n : NodeVel V) : NodeVel V :=
  if ghost then (if moves then ⟨n.own, n.own⟩ else ⟨n.own, match n.own with | [] => n.seen | x :: _ => setNew x n.seen⟩) else n

/-- What reads the exchange velocity: the momentum assembly (AssembleMomentumElemWallFunctionProjectedSolverAlgorithm.C, whose ghosting pointer is a
copy of the null pointer of LowMachEquationSystem.C:1022, so that lines 129-130 communicate nothing), the friction velocity, the reported force
(SurfaceForceAndMomentWallFunctionProjectedAlgorithm.C:180-181, likewise).  The two values are that of the owner and that of the copy. -/
inductive Ev (V : Type*)
  | assembly (own seen : Option V)
  | friction (own seen : Option V)
  | report (own seen : Option V)

/-- One nonlinear iteration of `solve_and_update` (LowMachEquationSystem.C:800-861): momentum assembly, new velocity `q.1`, projected velocity `q.2`,
wall-function parameters. -/
def iteration {V : Type*} (ghost moves : Bool) (n : NodeVel V) (q : V × V) : NodeVel V × List (Ev V) :=
  let e := Ev.assembly n.own.head? n.seen.head?
  let n := update ghost q.1 n
  let n := update ghost q.2 n
  let n := communicate ghost moves n
  (n, [e, Ev.friction n.own.head? n.seen.head?])

/-- The nonlinear iterations of a step (outer and inner ones alike). -/
def iterations {V : Type*} (ghost moves : Bool) : NodeVel V → List (V × V) → NodeVel V × List (Ev V)
  | n, [] => (n, [])
  | n, q :: qs =>
    let r := iteration ghost moves n q
    let r' := iterations ghost moves r.1 qs
    (r'.1, r.2 ++ r'.2)

/-- A time step (TimeIntegrator.C:268-271, then the iterations, then the post processing). -/
def step {V : Type*} (ghost moves : Bool) (n : NodeVel V) (qs : List (V × V)) : NodeVel V × List (Ev V) :=
  let n := predict ghost ⟨rotate n.own, rotate n.seen⟩
  let r := iterations ghost moves n qs
  (r.1, r.2 ++ [Ev.report r.1.own.head? r.1.seen.head?])

/-- A run from the states `init` that the velocity has in `initial_work`, where the ghosting is made for the first time
(LowMachEquationSystem.C:1085); the events of each step. -/
def run {V : Type*} (ghost moves : Bool) (init : List V) (steps : List (List (V × V))) : NodeVel V × List (List (Ev V)) :=
  steps.foldl (fun r qs => ((step ghost moves r.1 qs).1, r.2 ++ [(step ghost moves r.1 qs).2])) (⟨init, init⟩, [])

/-! ## The search -/

/-- `minCorner` and `maxCorner` of an element (lines 726-752). -/
noncomputable def corners {nd : ℕ} (nodes : List (Fin nd → ℝ)) : (Fin nd → ℝ) × (Fin nd → ℝ) :=
  nodes.foldl (fun b x => (fun j => min (b.1 j) (x j), fun j => max (b.2 j) (x j))) (fun _ => 1e16, fun _ => -1e16)

/-- The expanded box (lines 757-764). -/
noncomputable def box {nd : ℕ} (pct : ℝ) (nodes : List (Fin nd → ℝ)) : (Fin nd → ℝ) × (Fin nd → ℝ) :=
  let b := corners nodes
  (fun j => b.1 j - pct * (b.2 j - b.1 j), fun j => b.2 j + pct * (b.2 j - b.1 j))

/-- A pair of `searchKeyPair_`. -/
structure SPair where
  id : ℕ
  ptProc : ℕ
  elem : ℕ
  boxProc : ℕ

/-- A point as it is handed to the search: id, rank, location. -/
structure SPoint (nd : ℕ) where
  id : ℕ
  proc : ℕ
  pt : Fin nd → ℝ

/-- An element as it is handed to the search: its owner and its node coordinates. -/
structure SElem (nd : ℕ) where
  elem : ℕ
  proc : ℕ
  nodes : List (Fin nd → ℝ)

/-- `coarse_search` of STK (line 798): all pairs of a point and a box that contains it. -/
noncomputable def allPairs {nd : ℕ} (pct : ℝ) (pts : List (SPoint nd)) (elems : List (SElem nd)) : List SPair :=
  open Classical in
  pts.flatMap fun p => (elems.filter fun e => ∀ j, (box pct e.nodes).1 j ≤ p.pt j ∧ p.pt j ≤ (box pct e.nodes).2 j).map
    fun e => ⟨p.id, p.proc, e.elem, e.proc⟩

/-- The pairs a rank receives: those of its points and those of its boxes. -/
def pairsOn (r : ℕ) (l : List SPair) : List SPair := l.filter fun q => q.ptProc = r || q.boxProc = r

/-- `elemsToGhost_` (lines 805-826): element and destination. -/
def elemsToGhost (r : ℕ) (l : List SPair) : List (ℕ × ℕ) :=
  ((pairsOn r l).filter fun q => q.boxProc = r && q.ptProc ≠ r).map fun q => (q.elem, q.ptProc)

/-- What `complete_search` sees of the pairs. -/
def toPairs (l : List SPair) : List Pair := l.map fun q => ⟨q.id, q.ptProc, q.elem⟩

end Nalu.ProjWall
