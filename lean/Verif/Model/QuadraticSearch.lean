import Verif.Model.Quadratic
import Verif.Model.FemElem

/-!
# Model of the point search in the quadratic hexahedron and the ten-node tetrahedron

Models `HexahedralP2Element::isInElement` and `parametric_distance` (`/repo/src/master_element/Hex27CVFEM.C:76-90, 115-188`), `solve33` and
`determinant33` (`/repo/include/master_element/TensorOps.h:62-67, 123-146`), and `Tet10FEM::isInElement` and `parametric_distance`
(`/repo/src/master_element/Tet10FEM.C:339-446, 654-666`).  Arithmetic is exact.  `none` stands for the code's answer "largest number in every coordinate
and as the distance": given after the last iteration, and, because every later comparison with a NaN is false, also when a Jacobian determinant is zero.
The debug-only assertion of `solve33` on the sign of the determinant is not modelled.
-/

namespace Nalu.P2

open Finset

/-- `determinant33` (TensorOps.h:62-67); `A i j` is entry `3 * i + j`. -/
def determinant33 (A : Fin 3 → Fin 3 → ℝ) : ℝ :=
  A 0 0 * (A 1 1 * A 2 2 - A 1 2 * A 2 1) - A 0 1 * (A 1 0 * A 2 2 - A 1 2 * A 2 0) + A 0 2 * (A 1 0 * A 2 1 - A 1 1 * A 2 0)

/-- `solve33` (TensorOps.h:123-146); `none`: division by a zero determinant. -/
noncomputable def solve33 (A : Fin 3 → Fin 3 → ℝ) (b : Fin 3 → ℝ) : Option (Fin 3 → ℝ) :=
  let inv := 1 / determinant33 A
  open scoped Classical in
  if determinant33 A = 0 then none else some
    ![((A 1 1 * A 2 2 - A 1 2 * A 2 1) * b 0 + (A 0 2 * A 2 1 - A 0 1 * A 2 2) * b 1 + (A 0 1 * A 1 2 - A 0 2 * A 1 1) * b 2) * inv,
      ((A 1 2 * A 2 0 - A 1 0 * A 2 2) * b 0 + (A 0 0 * A 2 2 - A 0 2 * A 2 0) * b 1 + (A 0 2 * A 1 0 - A 0 0 * A 1 2) * b 2) * inv,
      ((A 1 0 * A 2 1 - A 1 1 * A 2 0) * b 0 + (A 0 1 * A 2 0 - A 0 0 * A 2 1) * b 1 + (A 0 0 * A 1 1 - A 0 1 * A 1 0) * b 2) * inv]

/-- The loop common to both (Hex27CVFEM.C:128-171, Tet10FEM.C:374-431): a step from the last guess, the stopping test on the step, at most `fuel` steps. -/
noncomputable def newton3 (step : (Fin 3 → ℝ) → Option (Fin 3 → ℝ)) (small : (Fin 3 → ℝ) → Prop) : ℕ → (Fin 3 → ℝ) → Option (Fin 3 → ℝ)
  | 0, _ => none
  | fuel + 1, g =>
    match step g with
    | none => none
    | some d =>
      open scoped Classical in
      if small d then some (fun i => g i + d i) else newton3 step small fuel fun i => g i + d i

/-! ## Twenty-seven-node hexahedron -/

/-- One step (Hex27CVFEM.C:129-168): the error of the interpolated position, the Jacobian `jact[3 c + r]`, `solve33`. -/
noncomputable def hex27Step (x : ℕ → Fin 3 → ℝ) (p g : Fin 3 → ℝ) : Option (Fin 3 → ℝ) :=
  solve33 (fun c r => ∑ j ∈ range 27, hex27Deriv (g 0) (g 1) (g 2) j r * x j c)
    fun c => p c - ∑ j ∈ range 27, hex27Shape (g 0) (g 1) (g 2) j * x j c

/-- `HexahedralP2Element::parametric_distance` (Hex27CVFEM.C:76-90). -/
noncomputable def hex27Dist (g : Fin 3 → ℝ) : ℝ :=
  let upd := fun d y : ℝ => if d < y then y else d
  upd (upd (upd 0 |g 0|) |g 1|) |g 2|

/-- `HexahedralP2Element::isInElement` (Hex27CVFEM.C:115-188): start at the centre, 100 iterations, `within_tolerance` on the squared step
(TensorOps.h:32-34). `tol` is `1.0e-16`. -/
noncomputable def hex27InElement (tol : ℝ) (x : ℕ → Fin 3 → ℝ) (p : Fin 3 → ℝ) : Option ((Fin 3 → ℝ) × ℝ) :=
  (newton3 (hex27Step x p) (fun d => |d 0 * d 0 + d 1 * d 1 + d 2 * d 2| < tol) 100 ![0, 0, 0]).map fun g => (g, hex27Dist g)

/-! ## Ten-node tetrahedron -/

/-- One step (Tet10FEM.C:379-427): element and point are moved so that node 0 is at the origin; residual, Jacobian, its inverse by cofactors, the step
`- inverse * residual`. -/
noncomputable def tet10Step (x : Fin 10 → Fin 3 → ℝ) (p g : Fin 3 → ℝ) : Option (Fin 3 → ℝ) :=
  let xn := fun i j => x j i - x 0 i
  let xp := fun i => p i - x 0 i
  let f := fun i => -xp i + ∑ k, xn i k * Verif.Shape.tet10Shape g k
  let J := fun j i => ∑ k, Verif.Shape.tet10Deriv g k i * xn j k
  let det := J 0 0 * (J 1 1 * J 2 2 - J 1 2 * J 2 1) - J 0 1 * (J 1 0 * J 2 2 - J 1 2 * J 2 0) + J 0 2 * (J 1 0 * J 2 1 - J 1 1 * J 2 0)
  let detInv := 1 / det
  let inv : Fin 3 → Fin 3 → ℝ :=
    ![![(J 1 1 * J 2 2 - J 1 2 * J 2 1) * detInv, (J 0 2 * J 2 1 - J 0 1 * J 2 2) * detInv, (J 0 1 * J 1 2 - J 0 2 * J 1 1) * detInv],
      ![(J 1 2 * J 2 0 - J 1 0 * J 2 2) * detInv, (J 0 0 * J 2 2 - J 0 2 * J 2 0) * detInv, (J 0 2 * J 1 0 - J 0 0 * J 1 2) * detInv],
      ![(J 1 0 * J 2 1 - J 1 1 * J 2 0) * detInv, (J 0 1 * J 2 0 - J 0 0 * J 2 1) * detInv, (J 0 0 * J 1 1 - J 0 1 * J 1 0) * detInv]]
  open scoped Classical in
  if det = 0 then none else some fun i => -∑ j, inv i j * f j

/-- `Tet10FEM::parametric_distance` (Tet10FEM.C:654-666). -/
noncomputable def tet10Dist (g : Fin 3 → ℝ) : ℝ :=
  let X := g 0 - 1 / 4
  let Y := g 1 - 1 / 4
  let Z := g 2 - 1 / 4
  max (max (-4 * X) (-4 * Y)) (max (-4 * Z) (4 * (X + Y + Z)))

/-- `Tet10FEM::isInElement` (Tet10FEM.C:339-446): start at node 0, 10 iterations, `d_norm < isInElemConverged`. `tol` is `1.0e-16`. -/
noncomputable def tet10InElement (tol : ℝ) (x : Fin 10 → Fin 3 → ℝ) (p : Fin 3 → ℝ) : Option ((Fin 3 → ℝ) × ℝ) :=
  (newton3 (tet10Step x p) (fun d => 0 + d 0 * d 0 + d 1 * d 1 + d 2 * d 2 < tol) 10 fun _ => 0).map fun g => (g, tet10Dist g)

/-- `Tet10FEM::interpolatePoint` (Tet10FEM.C:451-476), one component. -/
noncomputable def tet10Interp (s : Fin 3 → ℝ) (f : Fin 10 → ℝ) : ℝ :=
  (1 - 2 * s 0 - 2 * s 1 - 2 * s 2) * (1 - s 0 - s 1 - s 2) * f 0 + s 0 * (2 * s 0 - 1) * f 1 + s 1 * (2 * s 1 - 1) * f 2 + s 2 * (2 * s 2 - 1) * f 3
    + 4 * s 0 * (1 - s 0 - s 1 - s 2) * f 4 + 4 * s 0 * s 1 * f 5 + 4 * s 1 * (1 - s 0 - s 1 - s 2) * f 6 + 4 * s 2 * (1 - s 0 - s 1 - s 2) * f 7
    + 4 * s 0 * s 2 * f 8 + 4 * s 2 * s 1 * f 9

end Nalu.P2
