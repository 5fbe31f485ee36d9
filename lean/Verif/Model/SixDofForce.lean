import Verif.Model.SurfaceForce
import Verif.Model.MeshMotion

/-!
# Forces of the fluid and of tethers on a six-degree-of-freedom body

Models `SixDofSurfaceForceAndMomentAlgorithm.C`, `SixDofSurfaceForceAndMomentAlgorithmDriver.C`, the registration of
`EquationSystems::register_surface_six_dof_algorithm` (EquationSystems.C:648-695) and the reading of the tethers (SolutionOptions.C:534-550).

What one wall point contributes (SixDofSurfaceForceAndMomentAlgorithm.C:196-330) is the same text as in `SurfaceForceAndMomentAlgorithm.C` and is the
`plainPoint` of `Verif.Model.SurfaceForce`.  `double` is `ℝ`; a division by a zero distance is a failure (`none`).
-/

namespace Nalu.SixDof
open Nalu.Force Verif.Motion

variable {M : Type*} {nd : ℕ}

/-! ## Tethers -/

/-- One entry of `tetherGeom_` (SixDofSurfaceForceAndMomentAlgorithm.C:340-353). -/
structure Tether where
  slackFlag : ℝ
  relaxed : ℝ
  spring : ℝ
  body : Fin 3 → ℝ
  fixed : Fin 3 → ℝ

/-- Reading of the nine numbers (SixDofSurfaceForceAndMomentAlgorithm.C:340-352). -/
def Tether.ofArray (a : Fin 9 → ℝ) : Tether := ⟨a 0, a 1, a 2, ![a 3, a 4, a 5], ![a 6, a 7, a 8]⟩

/-- `SolutionOptions::load` (SolutionOptions.C:534-550): the list is cut into groups of nine. -/
def readTethers (xs : List ℝ) : Except String (List (Fin 9 → ℝ)) :=
  if xs.length % 9 ≠ 0 then .error "Incorrect tether format!"
  else .ok ((List.range (xs.length / 9)).map fun i => fun j : Fin 9 => xs.getD (9 * i + j) 0)

/-- `moving_cc` (SixDofSurfaceForceAndMomentAlgorithm.C:357-360). -/
noncomputable def Tether.moving (tiny : ℝ) (t : Tether) (centroid disp angle : Fin 3 → ℝ) : Fin 3 → ℝ :=
  fun i => convertVect tiny t.body angle true i + (disp i + centroid i)

/-- `moment_arm` (SixDofSurfaceForceAndMomentAlgorithm.C:362-366). -/
noncomputable def Tether.arm (tiny : ℝ) (t : Tether) (centroid disp angle : Fin 3 → ℝ) : Fin 3 → ℝ :=
  fun i => t.moving tiny centroid disp angle i - (centroid i + disp i)

/-- `dist` (SixDofSurfaceForceAndMomentAlgorithm.C:368-372). -/
noncomputable def distance (a b : Fin 3 → ℝ) : ℝ := Real.sqrt ((a 0 - b 0) ^ 2 + (a 1 - b 1) ^ 2 + (a 2 - b 2) ^ 2)

/-- `force` (SixDofSurfaceForceAndMomentAlgorithm.C:368-384) for an attachment point at `m`; `none` is a division by zero. -/
noncomputable def Tether.forceAt (t : Tether) (m : Fin 3 → ℝ) : Option (Fin 3 → ℝ) :=
  let dist := distance m t.fixed
  let displacement := dist - t.relaxed
  let pull : Option (Fin 3 → ℝ) := if dist = 0 then none else some fun i => t.spring * displacement * (t.fixed i - m i) / dist
  if t.slackFlag > 1 / 2 then
    if displacement > 0 then pull else some fun _ => 0
  else pull

/-! ## Force and moment of the body -/

/-- Centre of the body: `centroid_` and `bodyDispCC_`. -/
def centre (centroid disp : Fin 3 → ℝ) : Fin 3 → ℝ := fun i => centroid i + disp i

/-- The loop over the tethers after the reduction (SixDofSurfaceForceAndMomentAlgorithm.C:337-396): forces go to entries 0-2, moments to 6-8. -/
noncomputable def addTethers (tiny : ℝ) (centroid disp angle : Fin 3 → ℝ) : List Tether → (Fin 3 → ℝ) × (Fin 3 → ℝ) → Option ((Fin 3 → ℝ) × (Fin 3 → ℝ))
  | [], s => some s
  | t :: ts, s =>
    match t.forceAt (t.moving tiny centroid disp angle) with
    | none => none
    | some f => addTethers tiny centroid disp angle ts
        (fun i => s.1 i + f i, fun i => s.2 i + cross f (t.arm tiny centroid disp angle) i)

/-- `execute` (SixDofSurfaceForceAndMomentAlgorithm.C:97-404): the surface integral about the displaced centroid on every rank, the reduction, the tethers,
the assignment of `bodyForce_` and `bodyMom_`.  The points are those of the forcing surfaces of this body. -/
noncomputable def handOver (tiny : ℝ) (x : M → Fin nd → ℝ) (centroid : Fin 3 → ℝ) (tethers : List Tether)
    (ranks : List (List (Contribution M nd))) (b : Body ℝ) : Option (Body ℝ) :=
  let g := report x (centre centroid b.dispCC) ranks
  match addTethers tiny centroid b.dispCC b.angle tethers (g.fP, g.mo) with
  | none => none
  | some s => some { b with force := fun j => s.1 j + g.fV j, moment := s.2 }

/-! ## Nodal fields of the driver -/

/-- Nodal fields on one rank: `pressure_force`, `tau_wall`, `yplus`, `assembled_area_six_dof`. -/
structure Nodal (M : Type*) (nd : ℕ) where
  pForce : M → Fin nd → ℝ
  tau : M → ℝ
  yplus : M → ℝ
  area : M → ℝ

/-- Nodal part of `execute`, one point (SixDofSurfaceForceAndMomentAlgorithm.C:256, 283-284, 328). -/
noncomputable def Nodal.addPoint [DecidableEq M] (s : Nodal M nd) (c : Contribution M nd) : Nodal M nd :=
  { s with
    pForce := fun m i => if m = c.node then s.pForce m i + c.pF i else s.pForce m i
    tau := fun m => if m = c.node then s.tau m + c.tauA / s.area c.node else s.tau m
    yplus := fun m => if m = c.node then s.yplus m + c.yplus * c.aMag / s.area c.node else s.yplus m }

/-- `pre_work`, one point (SixDofSurfaceForceAndMomentAlgorithm.C:455-472). -/
def addArea [DecidableEq M] (a : M → ℝ) (c : Contribution M nd) : M → ℝ := fun m => if m = c.node then a m + c.aMag else a m

/-- `SixDofSurfaceForceAndMomentAlgorithmDriver::execute` (SixDofSurfaceForceAndMomentAlgorithmDriver.C:56-128) on the ranks `ι`: only the area is zeroed
and summed over the ranks.  `pts r` are the points of all algorithms on rank `r`. -/
noncomputable def drive {ι : Type*} [Fintype ι] [DecidableEq M] (pts : ι → List (Contribution M nd)) (s : ι → Nodal M nd) : ι → Nodal M nd :=
  let area : M → ℝ := fun m => ∑ r, ((pts r).foldl addArea (fun _ => 0)) m
  fun r => (pts r).foldl Nodal.addPoint { s r with area := area }

/-! ## Registration -/

/-- `register_surface_six_dof_algorithm` (EquationSystems.C:651-695) for one body: unknown surfaces are reported and skipped; an algorithm exists when at
least one surface was found.  `sub name` are the subsets of a known part. -/
def registerBody {P : Type*} (sub : String → Option (List P)) (forceSurface : List String) : Option (List P) :=
  if 0 < (forceSurface.filterMap sub).length then some (forceSurface.filterMap sub).flatten else none

/-- One call of the driver for a body: without an algorithm nothing happens to it. -/
noncomputable def stepBody (tiny : ℝ) (x : M → Fin nd → ℝ) (centroid : Fin 3 → ℝ) (tethers : List Tether) {P : Type*} (alg : Option (List P))
    (points : List P → List (List (Contribution M nd))) (b : Body ℝ) : Option (Body ℝ) :=
  match alg with
  | none => some b
  | some parts => handOver tiny x centroid tethers (points parts) b

end Nalu.SixDof
