import Verif.Model.ElemKernel
import Mathlib.Analysis.SpecialFunctions.Trigonometric.Basic
import Mathlib.Analysis.SpecialFunctions.Pow.Real
import Mathlib.Analysis.SpecialFunctions.Sqrt

/-!
# Model: point-drag actuator lines

`ActuatorLinePointDrag.C` (distribution over ranks, points of a line, their motion, search for the best
element, point drag, spreading) and the two momentum source terms that use its fields.  `double` is `ℝ`,
where `sqrt`, `cbrt`, `exp`, `sin`, `cos` are exact.
-/

namespace Nalu.Actuator
open Nalu.Edge Nalu.Kernel

/-! ## Input -/

/-- `ActuatorLinePointDragInfo` (ActuatorLinePointDrag.C:54-64 and `load`, 237-318).  In two dimensions the
third coordinates are zero (`dx`, `lineCentroid`, `currentCoords` are zero-initialised, 668-671). -/
structure Line where
  numPoints : ℕ
  radius : ℝ
  omega : ℝ
  decay : ℝ
  tip : Fin 3 → ℝ
  tail : Fin 3 → ℝ

/-- `divProcTower` (ActuatorLinePointDrag.C:271). -/
def divProcTower (numProcs numTowers : ℕ) : ℕ := max (numProcs / numTowers) numProcs

/-- `processorId_` of specification `ispec` (ActuatorLinePointDrag.C:289). -/
def processorId (numProcs numTowers ispec : ℕ) : ℕ :=
  if divProcTower numProcs numTowers > 0 then ispec % divProcTower numProcs numTowers else 0

/-! ## Points -/

/-- `lineCentroid` (ActuatorLinePointDrag.C:690). -/
noncomputable def lineCentroid (l : Line) : Fin 3 → ℝ := fun j => (l.tip j + l.tail j) / 2

/-- `dx` (ActuatorLinePointDrag.C:687-689). -/
noncomputable def spacing (l : Line) : Fin 3 → ℝ := fun j => (l.tip j - l.tail j) / (max (l.numPoints - 1) 1 : ℕ)

/-- Model coordinates of point `np` (ActuatorLinePointDrag.C:699-701). -/
noncomputable def modelCoords (l : Line) (np : ℕ) : Fin 3 → ℝ := fun j => l.tail j + np * spacing l j

/-- `set_current_coordinates` (ActuatorLinePointDrag.C:733-747). -/
noncomputable def setCurrentCoordinates (c x : Fin 3 → ℝ) (omega t : ℝ) : Fin 3 → ℝ :=
  let cY := x 1 - c 1
  let cZ := x 2 - c 2
  let sinOT := Real.sin (omega * t)
  let cosOT := Real.cos (omega * t)
  ![x 0, sinOT * cZ + cosOT * cY + c 1, cosOT * cZ - sinOT * cY + c 2]

/-- `set_current_velocity` (ActuatorLinePointDrag.C:752-764). -/
def setCurrentVelocity (c x : Fin 3 → ℝ) (omega : ℝ) : Fin 3 → ℝ :=
  let cY := x 1 - c 1
  let cZ := x 2 - c 2
  ![0, -omega * cZ, omega * cY]

/-- Position of point `np` at time `t` (ActuatorLinePointDrag.C:698-708). -/
noncomputable def pointCoords (l : Line) (np : ℕ) (t : ℝ) : Fin 3 → ℝ :=
  setCurrentCoordinates (lineCentroid l) (modelCoords l np) l.omega t

/-- Velocity of point `np` at time `t` (ActuatorLinePointDrag.C:705). -/
noncomputable def pointVelocity (l : Line) (np : ℕ) (t : ℝ) : Fin 3 → ℝ :=
  setCurrentVelocity (lineCentroid l) (pointCoords l np t) l.omega

/-- `ActuatorLinePointDragPointInfo` as constructed (ActuatorLinePointDrag.C:83-103). -/
structure Point where
  id : ℕ
  coords : Fin 3 → ℝ
  radius : ℝ
  decay : ℝ
  velocity : Fin 3 → ℝ

/-- The points of one line, numbered from `localPointId_` on (ActuatorLinePointDrag.C:693-724). -/
noncomputable def linePoints (l : Line) (t : ℝ) (nextId : ℕ) : List Point :=
  (List.range l.numPoints).map fun np =>
    { id := nextId + np, coords := pointCoords l np t, radius := l.radius, decay := l.decay,
      velocity := pointVelocity l np t }

/-- One line of `create_actuator_line_point_info_map` on one rank: the map (in id order, its order of
iteration) and the counter `localPointId_`. -/
noncomputable def lineStep (P N rank : ℕ) (t : ℝ) (s : List Point × ℕ) (kl : Line × ℕ) : List Point × ℕ :=
  if processorId P N kl.2 = rank then (s.1 ++ linePoints kl.1 t s.2, s.2 + kl.1.numPoints) else s

/-- `create_actuator_line_point_info_map` (ActuatorLinePointDrag.C:648-728) on rank `rank` of `P`, at time
`t`, when the id counter (never reset, line 696) stands at `nextId`; the map was cleared before
(ActuatorLinePointDrag.C:344-347). -/
noncomputable def createPoints (P : ℕ) (lines : List Line) (rank : ℕ) (t : ℝ) (nextId : ℕ) :
    List Point × ℕ :=
  lines.zipIdx.foldl (lineStep P lines.length rank t) ([], nextId)

/-! ## Search -/

/-- A search hit of a point this rank owns: the element, its nodes, and the result of `isInElement`. -/
structure Hit (E N : Type*) where
  elem : E
  nodes : List N
  dist : ℝ
  isoPar : Fin 3 → ℝ

/-- What the search fills in: `bestX_`, `bestElem_` with `isoParCoords_`, `nodeVec_`. -/
structure Found (E N : Type*) where
  bestX : ℝ
  best : Option (E × (Fin 3 → ℝ))
  nodes : List N

/-- One hit in `complete_search` (ActuatorLinePointDrag.C:836-857): strict improvement replaces the best
element, the nodes join the set (`std::set::insert`). -/
noncomputable def searchStep {E N : Type*} [DecidableEq N] (f : Found E N) (h : Hit E N) : Found E N :=
  let f' := if h.dist < f.bestX then { f with bestX := h.dist, best := some (h.elem, h.isoPar) } else f
  { f' with nodes := h.nodes.foldl (fun s n => if n ∈ s then s else s ++ [n]) f'.nodes }

/-- `complete_search` (ActuatorLinePointDrag.C:793-864) for one point, over its sorted hits; `bestX_` starts
at `1.0e16` (ActuatorLinePointDrag.C:95). -/
noncomputable def completeSearch {E N : Type*} [DecidableEq N] (hits : List (Hit E N)) : Found E N :=
  hits.foldl searchStep { bestX := 10 ^ 16, best := none, nodes := [] }

/-! ## Point drag -/

/-- `std::cbrt`. -/
noncomputable def cbrt (x : ℝ) : ℝ := (SignType.sign x : ℝ) * |x| ^ (1 / 3 : ℝ)

variable {n : ℕ}

/-- `vRelMag` (ActuatorLinePointDrag.C:187-190). -/
noncomputable def vRelMag (vp vg : Fin n → ℝ) : ℝ := √(∑ j, (vp j - vg j) * (vp j - vg j))

/-- `ReP` (ActuatorLinePointDrag.C:193). -/
noncomputable def reynolds (radius mu rho : ℝ) (vp vg : Fin n → ℝ) : ℝ :=
  2 * rho * radius * vRelMag vp vg / mu

/-- `fD` (ActuatorLinePointDrag.C:194-195). -/
noncomputable def friction (re : ℝ) : ℝ :=
  let cubeRt := if re < 1000 then cbrt re else 0
  if re < 1000 then 1 + cubeRt * cubeRt / 6 else 0.424 / 24 * re

/-- `compute_point_drag` (ActuatorLinePointDrag.C:176-205): `pointForce` and `pointForceLHS`. -/
noncomputable def pointDrag (radius mu rho : ℝ) (vp vg : Fin n → ℝ) : (Fin n → ℝ) × (Fin n → ℝ) :=
  let fD := friction (reynolds radius mu rho vp vg)
  let coef := 6 * Real.pi * mu * radius
  (fun j => coef * fD * (vp j - vg j), fun _ => coef * fD)

/-! ## Spreading -/

/-- `compute_radius` (ActuatorLinePointDrag.C:979-990). -/
noncomputable def distance (x y : Fin n → ℝ) : ℝ := √(∑ j, (x j - y j) ^ 2)

/-- `gaussWeight` (ActuatorLinePointDrag.C:218-225); `-r*r/e*e` parses as `((-r*r)/e)*e`. -/
noncomputable def gaussWeight (nDim : ℕ) (r e : ℝ) : ℝ :=
  if nDim = 2 then 1 / (e * e * Real.pi) * Real.exp (-r * r / e * e)
  else 1 / (e * e * e * Real.pi ^ (1.5 : ℝ)) * Real.exp (-r * r / e * e)

/-- `compute_node_drag_given_radius` (ActuatorLinePointDrag.C:210-229). -/
noncomputable def nodeDrag (r e : ℝ) (force : Fin n → ℝ) : Fin n → ℝ := fun j => force j * gaussWeight n r e

/-- `spread_actuator_force_to_node_vec` (ActuatorLinePointDrag.C:1029-1053): `sourceTerm[j] =`. -/
noncomputable def spread {N : Type*} [DecidableEq N] (nodes : List N) (force xp : Fin n → ℝ) (x : N → Fin n → ℝ) (e : ℝ)
    (src : N → Fin n → ℝ) : N → Fin n → ℝ :=
  nodes.foldl (fun s a => Function.update s a (nodeDrag (distance (x a) xp) e force)) src

/-- `assemble_lhs_to_best_elem_nodes` (ActuatorLinePointDrag.C:995-1026): `nodeOf ip` is the node nearest to
sub-control volume `ip`, `scv` its volume; the element volume is that of `compute_volume` (928-948). -/
noncomputable def assembleLhs {N : Type*} [DecidableEq N] {nip : ℕ} (nodeOf : Fin nip → N) (scv : Fin nip → ℝ) (dragLhs : Fin n → ℝ)
    (lhs : N → Fin n → ℝ) : N → Fin n → ℝ :=
  loop nip (fun ip s => Function.update s (nodeOf ip)
    (fun j => s (nodeOf ip) j + scv ip / (∑ i, scv i) * dragLhs j)) lhs

/-! ## One time step -/

/-- What the loop over the points reads of one point: its data, the nodes of its search hits and its best
element with the interpolation weights there (`interpolate_field`, ActuatorLinePointDrag.C:953-974). -/
structure Active (N : Type*) (n : ℕ) where
  xp : Fin n → ℝ
  vp : Fin n → ℝ
  radius : ℝ
  decay : ℝ
  nodes : List N
  nne : ℕ
  conn : Fin nne → N
  weight : Fin nne → ℝ
  nip : ℕ
  nearest : Fin nip → Fin nne
  scv : Fin nip → ℝ

/-- The nodal fields read: coordinates, velocity, viscosity, density. -/
structure Flow (N : Type*) (n : ℕ) where
  x : N → Fin n → ℝ
  u : N → Fin n → ℝ
  mu : N → ℝ
  rho : N → ℝ

/-- The force and its coefficient for one point (ActuatorLinePointDrag.C:467-493). -/
noncomputable def activeDrag {N : Type*} (f : Flow N n) (p : Active N n) : (Fin n → ℝ) × (Fin n → ℝ) :=
  pointDrag p.radius (∑ i, p.weight i * f.mu (p.conn i)) (∑ i, p.weight i * f.rho (p.conn i)) p.vp
    (fun j => ∑ i, p.weight i * f.u (p.conn i) j)

/-- The two source fields. -/
structure Source (N : Type*) (n : ℕ) where
  src : N → Fin n → ℝ
  lhs : N → Fin n → ℝ

/-- Body of the loop over the points (ActuatorLinePointDrag.C:449-503). -/
noncomputable def pointStep {N : Type*} [DecidableEq N] (f : Flow N n) (s : Source N n) (p : Active N n) : Source N n :=
  { src := spread p.nodes (activeDrag f p).1 p.xp f.x p.decay s.src
    lhs := assembleLhs (fun ip => p.conn (p.nearest ip)) p.scv (activeDrag f p).2 s.lhs }

/-- The fields of one rank before the parallel sum (ActuatorLinePointDrag.C:423-503): zeroed, then the points
of this rank. -/
noncomputable def rankSource {N : Type*} [DecidableEq N] (f : Flow N n) (ps : List (Active N n)) : Source N n :=
  ps.foldl (pointStep f) { src := fun _ _ => 0, lhs := fun _ _ => 0 }

/-- `execute` (ActuatorLinePointDrag.C:387-512): `parallel_sum_including_ghosts` adds the fields of the ranks.
Simplification: all ranks read the same nodal fields (the density is not communicated to ghosts in the code). -/
noncomputable def execute {N : Type*} [DecidableEq N] (f : Flow N n) (ranks : List (List (Active N n))) : Source N n :=
  { src := fun a j => (ranks.map fun ps => (rankSource f ps).src a j).sum
    lhs := fun a j => (ranks.map fun ps => (rankSource f ps).lhs a j).sum }

/-! ## Momentum source terms -/

/-- `MomentumActuatorSrcElemKernel::execute` (MomentumActuatorSrcElemKernel.C:66-107). -/
noncomputable def actuatorElem {nn nip nd : ℕ} (e : Scv nn nip ℝ) (src srcLhs : Fin nn → Fin nd → ℝ)
    (s : LocalSys (Fin nn × Fin nd) ℝ) : LocalSys (Fin nn × Fin nd) ℝ :=
  loop nip (fun ip s => loop nd (fun j s =>
    addL (addR s (e.node ip, j) (interp (e.shape ip) (fun ic => src ic j) * e.vol ip))
      (e.node ip, j) (e.node ip, j) (srcLhs (e.node ip) j * e.vol ip)) s) s

end Nalu.Actuator
