import Verif.Model.ShapeFunctions
import Mathlib.Analysis.SpecialFunctions.Pow.Real

/-!
# Point-in-element search

Models `isInElement` and `parametric_distance` of the linear elements:
src/master_element/{Hex8,Wed6,Pyr5,Tet4,Quad42D,Tri32D,Quad43D}CVFEM.C and MasterElement.C
(Tri3DSCS, Edge2DSCS).  Nodal coordinates are `e : node → direction → K`, `p` is the point.
Arithmetic is exact.  A search that fails in the code returns huge coordinates and distance; here it
returns `none`.
-/

namespace Verif.Shape

/-! ## The iteration -/

/-- The `do { … } while (!converged && ++i < max)` loop of the searches followed by the test
`i < max` (Hex8CVFEM.C:928-1077, Quad42DCVFEM.C:924-982, Wed6CVFEM.C:1028-1117,
Pyr5CVFEM.C:1206-1264, Quad43DCVFEM.C:201-302): the first argument is `max`, the result is the last
iterate if one of the first `max` updates was small enough.  `step` returns `none` when the Jacobian
determinant is zero: the hexahedron breaks out and fails; the others divide by zero, all later
iterates are NaN or infinite, no comparison succeeds, and they fail at the iteration limit. -/
def newton {α : Type*} (step : α → Option α) (conv : α → α → Bool) : ℕ → α → Option α
  | 0, _ => none
  | n + 1, x =>
    match step x with
    | none => none
    | some y => if conv x y then some y else newton step conv n y

section
variable {K : Type*} [Field K] [LinearOrder K]

/-- `vector_norm_sq` of the update compared with `isInElemConverged` (MasterElement.C:66-86). -/
def converged {d : ℕ} (tol : K) (x y : Fin d → K) : Bool :=
  decide (|∑ i, (y i - x i) * (y i - x i)| < tol)

/-- `2x1-x0`-style determinant written out in Hex8CVFEM.C:1014 and Quad43DCVFEM.C:264; the arguments
are `j[0..2]`, `j[3..5]`, `j[6..8]`. -/
def jdet9 (a b c : Fin 3 → K) : K :=
  -(a 2 * b 1 * c 0) + a 1 * b 2 * c 0 + a 2 * b 0 * c 1 - a 0 * b 2 * c 1 - a 1 * b 0 * c 2
    + a 0 * b 1 * c 2

/-! ### Hexahedron -/

/-- One row (`j[0..2]` for `x`, `j[3..5]` for `y`, `j[6..8]` for `z`) of the hexahedron's Jacobian
(Hex8CVFEM.C:930-1012); the three rows have the same formula. -/
def hexJRow (x : Fin 8 → K) (c : Fin 3 → K) : Fin 3 → K
  | 0 => -(1 - c 1) * (1 - c 2) * x 1 - (1 + c 1) * (1 - c 2) * x 2 + (1 + c 1) * (1 - c 2) * x 3
      + (1 - c 1) * (1 + c 2) * x 4 - (1 - c 1) * (1 + c 2) * x 5 - (1 + c 1) * (1 + c 2) * x 6
      + (1 + c 1) * (1 + c 2) * x 7
  | 1 => (1 + c 0) * (1 - c 2) * x 1 - (1 + c 0) * (1 - c 2) * x 2 - (1 - c 0) * (1 - c 2) * x 3
      + (1 - c 0) * (1 + c 2) * x 4 + (1 + c 0) * (1 + c 2) * x 5 - (1 + c 0) * (1 + c 2) * x 6
      - (1 - c 0) * (1 + c 2) * x 7
  | 2 => (1 - c 1) * (1 + c 0) * x 1 + (1 + c 1) * (1 + c 0) * x 2 + (1 + c 1) * (1 - c 0) * x 3
      - (1 - c 1) * (1 - c 0) * x 4 - (1 - c 1) * (1 + c 0) * x 5 - (1 + c 1) * (1 + c 0) * x 6
      - (1 + c 1) * (1 - c 0) * x 7

/-- `f[i]` (Hex8CVFEM.C:1021-1044). -/
def hexF (x : Fin 8 → K) (xp : K) (c : Fin 3 → K) : K :=
  xp - (1 - c 1) * (1 + c 0) * (1 - c 2) * x 1 - (1 + c 1) * (1 + c 0) * (1 - c 2) * x 2
    - (1 + c 1) * (1 - c 0) * (1 - c 2) * x 3 - (1 - c 1) * (1 - c 0) * (1 + c 2) * x 4
    - (1 - c 1) * (1 + c 0) * (1 + c 2) * x 5 - (1 + c 1) * (1 + c 0) * (1 + c 2) * x 6
    - (1 + c 1) * (1 - c 0) * (1 + c 2) * x 7

/-- The update of the hexahedron's iteration (Hex8CVFEM.C:1014-1055), given the rows and `f`. -/
def hexUpdate (a b g : Fin 3 → K) (f0 f1 f2 : K) (c : Fin 3 → K) : Option (Fin 3 → K) :=
  let jdet := jdet9 a b g
  if jdet = 0 then none else
  some ![(jdet * c 0 + f2 * (a 2 * b 1 - a 1 * b 2) - f1 * a 2 * g 1 + f0 * b 2 * g 1
            + f1 * a 1 * g 2 - f0 * b 1 * g 2) / jdet,
         (c 1 * jdet + f2 * (-(a 2 * b 0) + a 0 * b 2) + f1 * a 2 * g 0 - f0 * b 2 * g 0
            - f1 * a 0 * g 2 + f0 * b 0 * g 2) / jdet,
         (jdet * c 2 + f2 * (a 1 * b 0 - a 0 * b 1) - f1 * a 1 * g 0 + f0 * b 1 * g 0
            + f1 * a 0 * g 1 - f0 * b 0 * g 1) / jdet]

/-- Translated, scaled coordinates `x[k] = 0.125*(e_k - e_0)` (Hex8CVFEM.C:884-909). -/
def hexX (e : Fin 8 → Fin 3 → K) (i : Fin 3) : Fin 8 → K := fun k => 1 / 8 * (e k i - e 0 i)

/-- One iteration of `HexSCS::isInElement`. -/
def hexStep (e : Fin 8 → Fin 3 → K) (p : Fin 3 → K) (c : Fin 3 → K) : Option (Fin 3 → K) :=
  hexUpdate (hexJRow (hexX e 0) c) (hexJRow (hexX e 1) c) (hexJRow (hexX e 2) c)
    (hexF (hexX e 0) (p 0 - e 0 0) c) (hexF (hexX e 1) (p 1 - e 0 1) c)
    (hexF (hexX e 2) (p 2 - e 0 2) c) c

/-- `HexSCS::isInElement` (Hex8CVFEM.C:874-1079): initial guess 0.5, 20 iterations; `tol = 1e-16`. -/
def hexSearch (tol : K) (e : Fin 8 → Fin 3 → K) (p : Fin 3 → K) : Option (Fin 3 → K) :=
  newton (hexStep e p) (converged tol) 20 ![1 / 2, 1 / 2, 1 / 2]

/-- `HexSCS::parametric_distance` (Hex8CVFEM.C:1240-1254). -/
def hexDist (x : Fin 3 → K) : K :=
  [|x 0|, |x 1|, |x 2|].foldl (fun d y => if d < y then y else d) 0

/-! ### Quadrilateral in 2D -/

/-- `j[0..1]` / `j[2..3]` (Quad42DCVFEM.C:928-942). -/
def quadJRow (x : Fin 4 → K) (c : Fin 2 → K) : Fin 2 → K
  | 0 => 1 / 4 * (1 - c 1) * x 1 + 1 / 4 * (1 + c 1) * x 2 - 1 / 4 * (1 + c 1) * x 3
  | 1 => -(1 / 4) * (1 + c 0) * x 1 + 1 / 4 * (1 + c 0) * x 2 + 1 / 4 * (1 - c 0) * x 3

/-- `f[i]` (Quad42DCVFEM.C:946-953). -/
def quadF (x : Fin 4 → K) (xp : K) (c : Fin 2 → K) : K :=
  (1 / 4 * (1 - c 1) * (1 + c 0) * x 1 + 1 / 4 * (1 + c 1) * (1 + c 0) * x 2
    + 1 / 4 * (1 + c 1) * (1 - c 0) * x 3) - xp

/-- Quad42DCVFEM.C:944, 955-956. -/
def quadUpdate (a b : Fin 2 → K) (f0 f1 : K) (c : Fin 2 → K) : Option (Fin 2 → K) :=
  let jdet := a 0 * b 1 - a 1 * b 0
  if jdet = 0 then none else
  some ![c 0 - (f0 * b 1 - f1 * a 1) / jdet, c 1 - (-f0 * b 0 + f1 * a 0) / jdet]

/-- One iteration of `Quad42DSCS::isInElement`. -/
def quadStep (e : Fin 4 → Fin 2 → K) (p : Fin 2 → K) (c : Fin 2 → K) : Option (Fin 2 → K) :=
  quadUpdate (quadJRow (fun k => e k 0 - e 0 0) c) (quadJRow (fun k => e k 1 - e 0 1) c)
    (quadF (fun k => e k 0 - e 0 0) (p 0 - e 0 0) c) (quadF (fun k => e k 1 - e 0 1) (p 1 - e 0 1) c) c

/-- `Quad42DSCS::isInElement` (Quad42DCVFEM.C:880-976): guess 0.5, 10 iterations. -/
def quadSearch (tol : K) (e : Fin 4 → Fin 2 → K) (p : Fin 2 → K) : Option (Fin 2 → K) :=
  newton (quadStep e p) (converged tol) 10 ![1 / 2, 1 / 2]

/-- The distance of `Quad42DSCS::isInElement` (Quad42DCVFEM.C:971-972). -/
def quadDist (x : Fin 2 → K) : K := if |x 0| > |x 1| then |x 0| else |x 1|

/-! ### Wedge -/

/-- One row of `j` (Wed6CVFEM.C:1053-1066): minus the sum over nodes 1..5. -/
def wedJRow (x : Fin 6 → K) (c : Fin 3 → K) (j : Fin 3) : K :=
  -wedDeriv c 1 j * x 1 - wedDeriv c 2 j * x 2 - wedDeriv c 3 j * x 3 - wedDeriv c 4 j * x 4
    - wedDeriv c 5 j * x 5

/-- `f[i]` (Wed6CVFEM.C:1084-1098). -/
def wedF (x : Fin 6 → K) (xp : K) (c : Fin 3 → K) : K :=
  xp - (wedShape c 1 * x 1 + wedShape c 2 * x 2 + wedShape c 3 * x 3 + wedShape c 4 * x 4
    + wedShape c 5 * x 5)

/-- Inverse and update (Wed6CVFEM.C:1068-1080, 1100-1102). -/
def wedUpdate (a b g : Fin 3 → K) (f0 f1 f2 : K) (c : Fin 3 → K) : Option (Fin 3 → K) :=
  let jdet := a 0 * (b 1 * g 2 - b 2 * g 1) - a 1 * (b 0 * g 2 - b 2 * g 0)
    + a 2 * (b 0 * g 1 - b 1 * g 0)
  if jdet = 0 then none else
  some ![c 0 - (f0 * ((b 1 * g 2 - b 2 * g 1) / jdet) + f1 * (-(a 1 * g 2 - g 1 * a 2) / jdet)
            + f2 * ((b 2 * a 1 - a 2 * b 1) / jdet)),
         c 1 - (f0 * (-(b 0 * g 2 - g 0 * b 2) / jdet) + f1 * ((a 0 * g 2 - a 2 * g 0) / jdet)
            + f2 * (-(a 0 * b 2 - b 0 * a 2) / jdet)),
         c 2 - (f0 * ((b 0 * g 1 - g 0 * b 1) / jdet) + f1 * (-(a 0 * g 1 - g 0 * a 1) / jdet)
            + f2 * ((a 0 * b 1 - a 1 * b 0) / jdet))]

/-- One iteration of `WedSCS::isInElement`. -/
def wedStep (e : Fin 6 → Fin 3 → K) (p : Fin 3 → K) (c : Fin 3 → K) : Option (Fin 3 → K) :=
  wedUpdate (wedJRow (fun k => e k 0 - e 0 0) c) (wedJRow (fun k => e k 1 - e 0 1) c)
    (wedJRow (fun k => e k 2 - e 0 2) c)
    (wedF (fun k => e k 0 - e 0 0) (p 0 - e 0 0) c) (wedF (fun k => e k 1 - e 0 1) (p 1 - e 0 1) c)
    (wedF (fun k => e k 2 - e 0 2) (p 2 - e 0 2) c) c

/-- `WedSCS::isInElement` (Wed6CVFEM.C:964-1119): guess (1/3,1/3,0), 20 iterations. -/
def wedSearch (tol : K) (e : Fin 6 → Fin 3 → K) (p : Fin 3 → K) : Option (Fin 3 → K) :=
  newton (wedStep e p) (converged tol) 20 ![1 / 3, 1 / 3, 0]

/-- `WedSCS::parametric_distance` (Wed6CVFEM.C:1175-1198). -/
def wedDist (x : Fin 3 → K) : K :=
  let X := x 0 - 1 / 3; let Y := x 1 - 1 / 3
  max |x 2| (max (max (-3 * X) (-3 * Y)) (3 * (X + Y)))

/-! ### Pyramid -/

/-- `solve33` (TensorOps.h:123-146) on the rows of the matrix. -/
def solve33 (a b g : Fin 3 → K) (r : Fin 3 → K) : Option (Fin 3 → K) :=
  let det := a 0 * (b 1 * g 2 - b 2 * g 1) - a 1 * (b 0 * g 2 - b 2 * g 0)
    + a 2 * (b 0 * g 1 - b 1 * g 0)
  if det = 0 then none else
  let inv := 1 / det
  some ![((b 1 * g 2 - b 2 * g 1) * r 0 + (a 2 * g 1 - a 1 * g 2) * r 1
            + (a 1 * b 2 - a 2 * b 1) * r 2) * inv,
         ((b 2 * g 0 - b 0 * g 2) * r 0 + (a 0 * g 2 - a 2 * g 0) * r 1
            + (a 2 * b 0 - a 0 * b 2) * r 2) * inv,
         ((b 0 * g 1 - b 1 * g 0) * r 0 + (a 1 * g 0 - a 0 * g 1) * r 1
            + (a 0 * b 1 - a 1 * b 0) * r 2) * inv]

/-- One iteration of `PyrSCS::isInElement` (Pyr5CVFEM.C:1206-1247). -/
def pyrStep (eps : K) (e : Fin 5 → Fin 3 → K) (p : Fin 3 → K) (c : Fin 3 → K) : Option (Fin 3 → K) :=
  let J := jact (pyrDeriv eps c) e
  (solve33 (J 0) (J 1) (J 2) (fun i => p i - ∑ k, pyrShape eps c k * e k i)).map fun d j => c j + d j

/-- `PyrSCS::isInElement` (Pyr5CVFEM.C:1193-1266): guess (0,0,1/3), 100 iterations. -/
def pyrSearch (eps tol : K) (e : Fin 5 → Fin 3 → K) (p : Fin 3 → K) : Option (Fin 3 → K) :=
  newton (pyrStep eps e p) (converged tol) 100 ![0, 0, 1 / 3]

/-- `PyrSCS::parametric_distance` (Pyr5CVFEM.C:1156-1165). -/
def pyrDist (x : Fin 3 → K) : K :=
  let Z := x 2 - 1 / 3
  max (3 / 2 * (Z + max |x 0| |x 1|)) (-3 * Z)

/-! ### Surface quadrilateral in 3D -/

/-- `non_unit_face_normal` (Quad43DCVFEM.C:304-345); `x y z` are the translated coordinates of nodes
1, 2, 3. -/
def quad3dNormal (x y z : Fin 3 → K) (xi eta : K) : Fin 3 → K
  | 0 => 1 / 8 * (xi * y 2 * z 0 + y 0 * z 1 + xi * y 0 * z 1 - y 2 * z 1 - xi * y 0 * z 2
      + y 1 * (-((1 + xi) * z 0) + (1 + eta) * z 2) + eta * (y 2 * z 0 - y 2 * z 1 - y 0 * z 2))
  | 1 => 1 / 8 * (-(xi * x 2 * z 0) - x 0 * z 1 - xi * x 0 * z 1 + x 2 * z 1 + xi * x 0 * z 2
      + x 1 * ((1 + xi) * z 0 - (1 + eta) * z 2) + eta * (-(x 2 * z 0) + x 2 * z 1 + x 0 * z 2))
  | 2 => 1 / 8 * (xi * x 2 * y 0 + x 0 * y 1 + xi * x 0 * y 1 - x 2 * y 1 - xi * x 0 * y 2
      + x 1 * (-((1 + xi) * y 0) + (1 + eta) * y 2) + eta * (x 2 * y 0 - x 2 * y 1 - x 0 * y 2))

/-- Translated coordinates of nodes 1, 2, 3 in direction `i` (Quad43DCVFEM.C:163-174). -/
def quad3dX (e : Fin 4 → Fin 3 → K) (i : Fin 3) : Fin 3 → K
  | 0 => e 1 i - e 0 i
  | 1 => e 2 i - e 0 i
  | 2 => e 3 i - e 0 i

/-- `j[0..2]` (Quad43DCVFEM.C:231-239). -/
def quad3dJ0 (x y z n s : Fin 3 → K) : Fin 3 → K
  | 0 => 1 / 8 * (-2 * (-1 + s 1) * x 0 + (2 * (1 + s 1) * (x 1 - x 2)
      + s 2 * (-(y 1 * z 0) + y 2 * z 0 + y 0 * z 1 - y 0 * z 2)))
  | 1 => 1 / 8 * (-2 * (1 + s 0) * x 0 + 2 * (1 + s 0) * x 1 - 2 * (-1 + s 0) * x 2
      + (s 2 * (y 2 * (z 0 - z 1) + (-y 0 + y 1) * z 2)))
  | 2 => n 0
/-- `j[3..5]` (Quad43DCVFEM.C:241-250). -/
def quad3dJ1 (x y z n s : Fin 3 → K) : Fin 3 → K
  | 0 => 1 / 8 * (-2 * (-1 + s 1) * y 0 + (2 * (1 + s 1) * (y 1 - y 2)
      + s 2 * (x 1 * z 0 - x 2 * z 0 - x 0 * z 1 + x 0 * z 2)))
  | 1 => 1 / 8 * (-2 * (1 + s 0) * y 0 + 2 * (1 + s 0) * y 1 - 2 * (-1 + s 0) * y 2
      + (s 2 * (x 2 * (-z 0 + z 1) + (x 0 - x 1) * z 2)))
  | 2 => n 1
/-- `j[6..8]` (Quad43DCVFEM.C:252-262). -/
def quad3dJ2 (x y z n s : Fin 3 → K) : Fin 3 → K
  | 0 => 1 / 8 * ((s 2 * (-(x 1 * y 0) + x 2 * y 0 + x 0 * y 1 - x 0 * y 2))
      - 2 * ((-1 + s 1) * z 0 - (1 + s 1) * (z 1 - z 2)))
  | 1 => 1 / 8 * ((s 2 * (x 2 * (y 0 - y 1) + (-x 0 + x 1) * y 2)) - 2 * (1 + s 0) * z 0
      + 2 * (1 + s 0) * z 1 - 2 * (-1 + s 0) * z 2)
  | 2 => n 2

/-- `gn[i]` (Quad43DCVFEM.C:213-227). -/
def quad3dG (e : Fin 4 → Fin 3 → K) (p n s : Fin 3 → K) (i : Fin 3) : K :=
  ((∑ k, quadGeneralShape ![s 0, s 1] k * e k i) - e 0 i) - (p i - e 0 i) + s 2 * n i

/-- `deltasol` (Quad43DCVFEM.C:264-275). -/
def quad3dUpdate (a b g : Fin 3 → K) (f0 f1 f2 : K) (s : Fin 3 → K) : Option (Fin 3 → K) :=
  let jdet := jdet9 a b g
  if jdet = 0 then none else
  some ![s 0 + (f2 * (a 2 * b 1 - a 1 * b 2) + f1 * (-(a 2 * g 1) + a 1 * g 2)
            + f0 * (b 2 * g 1 - b 1 * g 2)) / jdet,
         s 1 + (f2 * (-(a 2 * b 0) + a 0 * b 2) + f1 * (a 2 * g 0 - a 0 * g 2)
            + f0 * (-(b 2 * g 0) + b 0 * g 2)) / jdet,
         s 2 + (f2 * (a 1 * b 0 - a 0 * b 1) + f1 * (-(a 1 * g 0) + a 0 * g 1)
            + f0 * (b 1 * g 0 - b 0 * g 1)) / jdet]

/-- One iteration of `Quad3DSCS::isInElement` on `(xi, eta, d)`. -/
def quad3dStep (e : Fin 4 → Fin 3 → K) (p : Fin 3 → K) (s : Fin 3 → K) : Option (Fin 3 → K) :=
  let x := quad3dX e 0; let y := quad3dX e 1; let z := quad3dX e 2
  let n := quad3dNormal x y z (s 0) (s 1)
  quad3dUpdate (quad3dJ0 x y z n s) (quad3dJ1 x y z n s) (quad3dJ2 x y z n s)
    (quad3dG e p n s 0) (quad3dG e p n s 1) (quad3dG e p n s 2) s

/-- `Quad3DSCS::isInElement` (Quad43DCVFEM.C:153-302) before the rescaling of the third coordinate:
guess (0.5,0.5,0.5) (that is -0.5 plus the initial update 1), 20 iterations. -/
def quad3dSearch (tol : K) (e : Fin 4 → Fin 3 → K) (p : Fin 3 → K) : Option (Fin 3 → K) :=
  newton (quad3dStep e p) (converged tol) 20 ![1 / 2, 1 / 2, 1 / 2]

/-- `Quad3DSCS::parametric_distance` (Quad43DCVFEM.C:347-359); `thick = 0.1`. -/
def quad3dDist (thick : K) (x : Fin 3 → K) : K :=
  let d := |x 0|
  let d := if d < |x 1| then |x 1| else d
  if thick < |x 2| ∧ d < 1 + |x 2| then 1 + |x 2| else d

/-! ## Direct searches -/

/-- `TetSCS::isInElement` (Tet4CVFEM.C:881-943); a zero determinant gives NaN in the code. -/
def tetSearch (e : Fin 4 → Fin 3 → K) (p : Fin 3 → K) : Option (Fin 3 → K) :=
  let x1 := e 0 0; let x2 := e 1 0; let x3 := e 2 0; let x4 := e 3 0
  let y1 := e 0 1; let y2 := e 1 1; let y3 := e 2 1; let y4 := e 3 1
  let z1 := e 0 2; let z2 := e 1 2; let z3 := e 2 2; let z4 := e 3 2
  let det := (x2 - x1) * ((y3 - y1) * (z4 - z1) - (y4 - y1) * (z3 - z1))
    - (x3 - x1) * ((y2 - y1) * (z4 - z1) - (y4 - y1) * (z2 - z1))
    + (x4 - x1) * ((y2 - y1) * (z3 - z1) - (y3 - y1) * (z2 - z1))
  if det = 0 then none else
  let inv := 1 / det
  let m11 := y3 * z4 - y1 * z4 - y4 * z3 + y1 * z3 + y4 * z1 - y3 * z1
  let m12 := -(x3 * z4 - x1 * z4 - x4 * z3 + x1 * z3 + x4 * z1 - x3 * z1)
  let m13 := x3 * y4 - x1 * y4 - x4 * y3 + x1 * y3 + x4 * y1 - x3 * y1
  let m21 := -(y2 * z4 - y1 * z4 - y4 * z2 + y1 * z2 + y4 * z1 - y2 * z1)
  let m22 := x2 * z4 - x1 * z4 - x4 * z2 + x1 * z2 + x4 * z1 - x2 * z1
  let m23 := -(x2 * y4 - x1 * y4 - x4 * y2 + x1 * y2 + x4 * y1 - x2 * y1)
  let m31 := y2 * z3 - y1 * z3 - y3 * z2 + y1 * z2 + y3 * z1 - y2 * z1
  let m32 := -(x2 * z3 - x1 * z3 - x3 * z2 + x1 * z2 + x3 * z1 - x2 * z1)
  let m33 := x2 * y3 - x1 * y3 - x3 * y2 + x1 * y2 + x3 * y1 - x2 * y1
  let xx := p 0 - x1; let yy := p 1 - y1; let zz := p 2 - z1
  some ![inv * (m11 * xx + m12 * yy + m13 * zz), inv * (m21 * xx + m22 * yy + m23 * zz),
    inv * (m31 * xx + m32 * yy + m33 * zz)]

/-- `TetSCS::parametric_distance` (Tet4CVFEM.C:1065-1077). -/
def tetDist (x : Fin 3 → K) : K :=
  let X := x 0 - 1 / 4; let Y := x 1 - 1 / 4; let Z := x 2 - 1 / 4
  max (max (-4 * X) (-4 * Y)) (max (-4 * Z) (4 * (X + Y + Z)))

/-- `tri_parametric_distance` (Tri32DCVFEM.C:959-970); its argument is `w`, the first two of the three
area coordinates. -/
def triDist (w0 w1 : K) : K :=
  let X := w0 - 1 / 3; let Y := w1 - 1 / 3
  max (max (-3 * X) (-3 * Y)) (3 * (X + Y))

/-- `Tri3DSCS::parametric_distance` (MasterElement.C:812-826); `thick = 0.01`. -/
def tri3dDist (thick w0 w1 w2 : K) : K :=
  let dist := triDist w0 w1
  if thick < |w2| ∧ dist < 1 + |w2| then 1 + |w2| else dist

/-- `Edge2DSCS::isInElement` (MasterElement.C:986-1024): the projection on the line and the distance
from it divided by the length; a zero-length edge gives NaN in the code. -/
def edgeSearch (e : Fin 2 → Fin 2 → K) (p : Fin 2 → K) : Option (K × K) :=
  let X1 := e 1 0 - e 0 0; let X2 := e 1 1 - e 0 1
  let P1 := p 0 - e 0 0; let P2 := p 1 - e 0 1
  let norm2 := X1 * X1 + X2 * X2
  if norm2 = 0 then none else
  some (2 * ((P1 * X1 + P2 * X2) / norm2) - 1, |P1 * X2 - P2 * X1| / norm2)

/-- `Edge2DSCS::parametric_distance` (MasterElement.C:1028-1035); `thick = 0.01`. -/
def edgeDist (thick x0 x1 : K) : K :=
  if thick < x1 ∧ |x0| < 1 + x1 then 1 + x1 else |x0|

end

/-! ### Triangles (square roots: real numbers) -/

/-- `Tri32DSCS::isInElement` (Tri32DCVFEM.C:877-951): the returned parametric coordinates and the
distance. -/
noncomputable def tri2dSearch (e : Fin 3 → Fin 2 → ℝ) (p : Fin 2 → ℝ) : Option ((Fin 2 → ℝ) × ℝ) :=
  let x0 := e 1 0 - e 0 0; let x1 := e 2 0 - e 0 0
  let y0 := e 1 1 - e 0 1; let y1 := e 2 1 - e 0 1
  let xp := p 0 - e 0 0; let yp := p 1 - e 0 1
  let len12 := Real.sqrt (x0 * x0 + y0 * y0)
  let len13 := Real.sqrt (x1 * x1 + y1 * y1)
  let cross := x0 * y1 - x1 * y0
  let area2 := Real.sqrt (cross * cross)
  if area2 = 0 then none else
  let sinT := area2 / (len12 * len13)
  let cosT := (x0 * x1 + y0 * y1) / (len12 * len13)
  let xn0 := len12; let xn1 := len13 * cosT; let yn1 := len13 * sinT
  let xnew0 := x0 / len12; let xnew1 := y0 / len12
  let ynew0 := -xnew1; let ynew1 := xnew0
  let xpnew := xnew0 * xp + xnew1 * yp
  let ypnew := ynew0 * xp + ynew1 * yp
  let w0 := 1 - xpnew / xn0 + ypnew * (xn1 - xn0) / area2
  let w1 := (xpnew * yn1 - ypnew * xn1) / area2
  some (![w1, 1 - w0 - w1], triDist w0 w1)

/-- `Tri3DSCS::isInElement` (MasterElement.C:717-807): the two in-plane parametric coordinates, the
scaled distance from the plane, and the parametric distance (`thick = 0.01`). -/
noncomputable def tri3dSearch (thick : ℝ) (e : Fin 3 → Fin 3 → ℝ) (p : Fin 3 → ℝ) :
    Option ((Fin 3 → ℝ) × ℝ) :=
  let x0 := e 1 0 - e 0 0; let x1 := e 2 0 - e 0 0
  let y0 := e 1 1 - e 0 1; let y1 := e 2 1 - e 0 1
  let z0 := e 1 2 - e 0 2; let z1 := e 2 2 - e 0 2
  let xp := p 0 - e 0 0; let yp := p 1 - e 0 1; let zp := p 2 - e 0 2
  let len12 := Real.sqrt (x0 * x0 + y0 * y0 + z0 * z0)
  let len13 := Real.sqrt (x1 * x1 + y1 * y1 + z1 * z1)
  let n0 := y0 * z1 - y1 * z0; let n1 := x1 * z0 - x0 * z1; let n2 := x0 * y1 - x1 * y0
  let area2 := Real.sqrt (n0 * n0 + n1 * n1 + n2 * n2)
  if area2 = 0 then none else
  let sinT := area2 / (len12 * len13)
  let cosT := (x0 * x1 + y0 * y1 + z0 * z1) / (len12 * len13)
  let xn0 := len12; let xn1 := len13 * cosT; let yn1 := len13 * sinT
  let a0 := x0 / len12; let a1 := y0 / len12; let a2 := z0 / len12
  let c0 := n0 / area2; let c1 := n1 / area2; let c2 := n2 / area2
  let b0 := c1 * a2 - a1 * c2; let b1 := a0 * c2 - c0 * a2; let b2 := c0 * a1 - a0 * c1
  let xpnew := a0 * xp + a1 * yp + a2 * zp
  let ypnew := b0 * xp + b1 * yp + b2 * zp
  let zpnew := c0 * xp + c1 * yp + c2 * zp
  let w0 := 1 - xpnew / xn0 + ypnew * (xn1 - xn0) / area2
  let w1 := (xpnew * yn1 - ypnew * xn1) / area2
  let w2 := zpnew / Real.sqrt area2
  some (![w1, 1 - w0 - w1, w2], tri3dDist thick w0 w1 w2)

end Verif.Shape
