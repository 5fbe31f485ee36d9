import Verif.Model.Quadratic
import Verif.Model.PointSearch

/-!
# Model of the point search on the nine-node face

Models `Quad93DSCS::isInElement`, `interpolatePoint`, `non_unit_face_normal` and `parametric_distance`
(`/repo/src/master_element/Hex27CVFEM.C:2105-2269, 2396-2448`).  Compared token by token, the Jacobian entries, the normal and the update are those of the
four-node face (`Verif.Model.PointSearch`: `quad3dJ0`, `quad3dJ1`, `quad3dJ2`, `quad3dNormal`, `quad3dUpdate`), read from the first four nodes.
Arithmetic is exact; `none` stands for the largest number in every coordinate and as the distance.
-/

namespace Nalu.P2

open Finset

/-- The nodes that the Jacobian and the normal read (Hex27CVFEM.C:2113-2123, 2406-2416). -/
def corners (x : ℕ → Fin 3 → ℝ) (k : Fin 4) : Fin 3 → ℝ := x k

/-- `Quad93DSCS::interpolatePoint`, one component (Hex27CVFEM.C:2235-2269). -/
noncomputable def face9Interp (s t : ℝ) (f : ℕ → ℝ) : ℝ :=
  1 / 4 * s * t * (1 - s) * (1 - t) * f 0 + -(1 / 4) * s * t * (1 + s) * (1 - t) * f 1 + 1 / 4 * s * t * (1 + s) * (1 + t) * f 2 +
    -(1 / 4) * s * t * (1 - s) * (1 + t) * f 3 + -(1 / 2) * t * (1 + s) * (1 - s) * (1 - t) * f 4 + 1 / 2 * s * (1 + t) * (1 - t) * (1 + s) * f 5 +
    1 / 2 * t * (1 + s) * (1 - s) * (1 + t) * f 6 + -(1 / 2) * s * (1 + t) * (1 - t) * (1 - s) * f 7 + (1 - s * s) * (1 - t * t) * f 8

/-- `gn[i]` (Hex27CVFEM.C:2162-2175). -/
noncomputable def face9G (x : ℕ → Fin 3 → ℝ) (p n s : Fin 3 → ℝ) (i : Fin 3) : ℝ :=
  (face9Interp (s 0) (s 1) (fun k => x k i) - x 0 i) - (p i - x 0 i) + s 2 * n i

/-- One iteration (Hex27CVFEM.C:2155-2206): the next `(xi, eta, d)`. -/
noncomputable def face9Step (x : ℕ → Fin 3 → ℝ) (p s : Fin 3 → ℝ) : Option (Fin 3 → ℝ) :=
  let X := Verif.Shape.quad3dX (corners x) 0; let Y := Verif.Shape.quad3dX (corners x) 1; let Z := Verif.Shape.quad3dX (corners x) 2
  let n := Verif.Shape.quad3dNormal X Y Z (s 0) (s 1)
  open scoped Classical in
  Verif.Shape.quad3dUpdate (Verif.Shape.quad3dJ0 X Y Z n s) (Verif.Shape.quad3dJ1 X Y Z n s) (Verif.Shape.quad3dJ2 X Y Z n s)
    (face9G x p n s 0) (face9G x p n s 1) (face9G x p n s 2) s

/-- The result of the loop: the last iterate before its last update, and that update (Hex27CVFEM.C:2146-2206). -/
noncomputable def face9Newton (tol : ℝ) (x : ℕ → Fin 3 → ℝ) (p : Fin 3 → ℝ) : ℕ → (Fin 3 → ℝ) → Option ((Fin 3 → ℝ) × (Fin 3 → ℝ))
  | 0, _ => none
  | fuel + 1, s =>
    match face9Step x p s with
    | none => none
    | some y => if Verif.Shape.converged tol s y then some (s, y) else face9Newton tol x p fuel y

/-- `Quad93DSCS::isInElement` (Hex27CVFEM.C:2105-2229): start (0.5, 0.5, 0.5), 100 iterations; the third coordinate is multiplied by the square root of the
length of the normal of the last evaluation; the distance is that of 2440-2448 with `ELEM_THICK = 0.01`. -/
noncomputable def face9InElement (tol : ℝ) (x : ℕ → Fin 3 → ℝ) (p : Fin 3 → ℝ) : Option ((Fin 3 → ℝ) × ℝ) :=
  (face9Newton tol x p 100 ![1 / 2, 1 / 2, 1 / 2]).map fun (s, y) =>
    let n := Verif.Shape.quad3dNormal (Verif.Shape.quad3dX (corners x) 0) (Verif.Shape.quad3dX (corners x) 1) (Verif.Shape.quad3dX (corners x) 2) (s 0) (s 1)
    let r : Fin 3 → ℝ := ![y 0, y 1, y 2 * Real.sqrt (Real.sqrt (n 0 * n 0 + n 1 * n 1 + n 2 * n 2))]
    (r, Verif.Shape.quad3dDist (1 / 100) r)

end Nalu.P2
