import Mathlib.Algebra.Field.Basic
import Mathlib.Algebra.BigOperators.Fin
import Mathlib.Data.Fin.VecNotation
import Mathlib.Analysis.SpecialFunctions.Sqrt
import Verif.Model.ShapeFunctions
import Verif.Model.Fem

/-!
# Model: the finite-element master elements

Models /repo/src/master_element/Hex8FEM.C, Tet10FEM.C and Tri6FEM.C: shape functions, their derivatives,
quadrature points and weights, the face coordinates of the tetrahedron and the area of the curved triangle.
`AlgTraitsTet10::numGp_` is 16 (AlgTraits.h:106-119), so the 15-point branch of the constructor is dead and is
not modelled.  Decimal constants are exact rationals; `std::sqrt(3.0)/3.0` is a parameter `g` whose
square is 1/3 in the theorems.
-/

namespace Verif.Shape

variable {K : Type*} [Field K]

/-- `Hex8FEM::hex8_fem_shape_fcn` (Hex8FEM.C:270-315; the two overloads have the same expressions). -/
def hexFemShape (p : Fin 3 → K) : Fin 8 → K
  | 0 => 1 / 8 * (1 - p 0) * (1 - p 1) * (1 - p 2)
  | 1 => 1 / 8 * (1 + p 0) * (1 - p 1) * (1 - p 2)
  | 2 => 1 / 8 * (1 + p 0) * (1 + p 1) * (1 - p 2)
  | 3 => 1 / 8 * (1 - p 0) * (1 + p 1) * (1 - p 2)
  | 4 => 1 / 8 * (1 - p 0) * (1 - p 1) * (1 + p 2)
  | 5 => 1 / 8 * (1 + p 0) * (1 - p 1) * (1 + p 2)
  | 6 => 1 / 8 * (1 + p 0) * (1 + p 1) * (1 + p 2)
  | 7 => 1 / 8 * (1 - p 0) * (1 + p 1) * (1 + p 2)

/-- `Hex8FEM::hex8_fem_derivative` (Hex8FEM.C:317-398; both overloads). -/
def hexFemDeriv (p : Fin 3 → K) : Fin 8 → Fin 3 → K
  | 0 => ![-(1 / 8 * (1 - p 1) * (1 - p 2)), -(1 / 8 * (1 - p 0) * (1 - p 2)), -(1 / 8 * (1 - p 0) * (1 - p 1))]
  | 1 => ![(1 / 8 * (1 - p 1) * (1 - p 2)), -(1 / 8 * (1 + p 0) * (1 - p 2)), -(1 / 8 * (1 + p 0) * (1 - p 1))]
  | 2 => ![(1 / 8 * (1 + p 1) * (1 - p 2)), (1 / 8 * (1 + p 0) * (1 - p 2)), -(1 / 8 * (1 + p 0) * (1 + p 1))]
  | 3 => ![-(1 / 8 * (1 + p 1) * (1 - p 2)), (1 / 8 * (1 - p 0) * (1 - p 2)), -(1 / 8 * (1 - p 0) * (1 + p 1))]
  | 4 => ![-(1 / 8 * (1 - p 1) * (1 + p 2)), -(1 / 8 * (1 - p 0) * (1 + p 2)), (1 / 8 * (1 - p 0) * (1 - p 1))]
  | 5 => ![(1 / 8 * (1 - p 1) * (1 + p 2)), -(1 / 8 * (1 + p 0) * (1 + p 2)), (1 / 8 * (1 + p 0) * (1 - p 1))]
  | 6 => ![(1 / 8 * (1 + p 1) * (1 + p 2)), (1 / 8 * (1 + p 0) * (1 + p 2)), (1 / 8 * (1 + p 0) * (1 + p 1))]
  | 7 => ![-(1 / 8 * (1 + p 1) * (1 + p 2)), (1 / 8 * (1 - p 0) * (1 + p 2)), (1 / 8 * (1 - p 0) * (1 + p 1))]

/-- `intgLoc_` of the hexahedron with `g = gIP`, `intgLocShift_` with `g = glIP = 1` (Hex8FEM.C:36-60). -/
def hexFemPts (g : K) : Fin 8 → Fin 3 → K
  | 0 => ![-g, -g, -g]
  | 1 => ![g, -g, -g]
  | 2 => ![g, g, -g]
  | 3 => ![-g, g, -g]
  | 4 => ![-g, -g, g]
  | 5 => ![g, -g, g]
  | 6 => ![g, g, g]
  | 7 => ![-g, g, g]

/-- `weights_[k] = 1.0` (Hex8FEM.C:31-34). -/
def hexFemWeight (_ : Fin 8) : K := 1

/-- `Tet10FEM::tet10_fem_shape_fcn` (Tet10FEM.C:526-580; both overloads). -/
def tet10Shape (p : Fin 3 → K) : Fin 10 → K
  | 0 => (1 - 2 * p 0 - 2 * p 1 - 2 * p 2) * (1 - p 0 - p 1 - p 2)
  | 1 => p 0 * (2 * p 0 - 1)
  | 2 => p 1 * (2 * p 1 - 1)
  | 3 => p 2 * (2 * p 2 - 1)
  | 4 => 4 * p 0 * (1 - p 0 - p 1 - p 2)
  | 5 => 4 * p 0 * p 1
  | 6 => 4 * p 1 * (1 - p 0 - p 1 - p 2)
  | 7 => 4 * p 2 * (1 - p 0 - p 1 - p 2)
  | 8 => 4 * p 0 * p 2
  | 9 => 4 * p 1 * p 2

/-- `tet10_deriv` (Tet10FEM.C:26-70) and `tet10_derivative` (585-650). -/
def tet10Deriv (p : Fin 3 → K) : Fin 10 → Fin 3 → K
  | 0 => ![4 * (p 0 + p 1 + p 2) - 3, 4 * (p 0 + p 1 + p 2) - 3, 4 * (p 0 + p 1 + p 2) - 3]
  | 1 => ![4 * p 0 - 1, 0, 0]
  | 2 => ![0, 4 * p 1 - 1, 0]
  | 3 => ![0, 0, 4 * p 2 - 1]
  | 4 => ![4 * (1 - 2 * p 0 - p 1 - p 2), -4 * p 0, -4 * p 0]
  | 5 => ![4 * p 1, 4 * p 0, 0]
  | 6 => ![-4 * p 1, 4 * (1 - p 0 - 2 * p 1 - p 2), -4 * p 1]
  | 7 => ![-4 * p 2, -4 * p 2, 4 * (1 - p 0 - p 1 - 2 * p 2)]
  | 8 => ![4 * p 2, 0, 4 * p 0]
  | 9 => ![0, 4 * p 2, 4 * p 1]

/-- `weights_` and `intgLoc_` of the 16-point rule (Tet10FEM.C:124-157). -/
def tet10Rule : List (ℚ × (Fin 3 → ℚ)) :=
  let w1 : ℚ := 8395632350020469 / 10 ^ 18
  let w2 : ℚ := 1109034477221540 / 10 ^ 17
  let a : ℚ := 7716429020672371 / 10 ^ 16
  let b : ℚ := 7611903264425430 / 10 ^ 17
  let c : ℚ := 4042339134672644 / 10 ^ 16
  let d : ℚ := 7183164526766925 / 10 ^ 17
  let e : ℚ := 1197005277978019 / 10 ^ 16
  [(w1, ![a, b, b]), (w1, ![b, a, b]), (w1, ![b, b, a]), (w1, ![b, b, b]),
   (w2, ![c, d, e]), (w2, ![c, e, d]), (w2, ![e, d, c]), (w2, ![e, c, d]),
   (w2, ![d, e, c]), (w2, ![d, c, e]), (w2, ![c, d, c]), (w2, ![d, c, c]),
   (w2, ![c, c, d]), (w2, ![e, c, c]), (w2, ![c, e, c]), (w2, ![c, c, e])]

/-- `intgLocShift_` of the tetrahedron: `resize(48)` and nothing else (Tet10FEM.C:121, "n/a"), so every
shifted point is the origin. -/
def tet10ShiftPts (_ : Fin 16) : Fin 3 → K := fun _ => 0

/-- `sideNodeOrdinals_` (Tet10FEM.C:171-174). -/
def tet10SideNodes : Fin 4 → Fin 6 → Fin 10
  | 0 => ![0, 1, 3, 4, 8, 7]
  | 1 => ![1, 2, 3, 5, 9, 8]
  | 2 => ![0, 3, 2, 7, 9, 6]
  | 3 => ![0, 2, 1, 6, 5, 4]

/-- `Tet10FEM::sidePcoords_to_elemPcoords` (Tet10FEM.C:482-522); `none`: the exception. -/
def tet10Side (side : ℕ) (q : Fin 2 → K) : Option (Fin 3 → K) :=
  match side with
  | 0 => some ![q 0, 0, q 1]
  | 1 => some ![1 - q 0 - q 1, q 0, q 1]
  | 2 => some ![0, q 1, q 0]
  | 3 => some ![q 1, q 0, 0]
  | _ => none

/-- `Tri6FEM::tri6_shape_fcn` (Tri6FEM.C:179-222). -/
def tri6Shape (p : Fin 2 → K) : Fin 6 → K
  | 0 => (1 - p 0 - p 1) * (1 - 2 * p 0 - 2 * p 1)
  | 1 => p 0 * (2 * p 0 - 1)
  | 2 => p 1 * (2 * p 1 - 1)
  | 3 => 4 * p 0 * (1 - p 0 - p 1)
  | 4 => 4 * p 0 * p 1
  | 5 => 4 * p 1 * (1 - p 0 - p 1)

/-- `tri6_derivative` (Tri6FEM.C:16-41). -/
def tri6Deriv (p : Fin 2 → K) : Fin 6 → Fin 2 → K
  | 0 => ![-1 * (1 - 2 * p 0 - 2 * p 1) - 2 * (1 - p 0 - p 1), -1 * (1 - 2 * p 0 - 2 * p 1) - 2 * (1 - p 0 - p 1)]
  | 1 => ![(2 * p 0 - 1) + 2 * p 0, 0]
  | 2 => ![0, (2 * p 1 - 1) + 2 * p 1]
  | 3 => ![4 * (1 - p 0 - p 1) - 4 * p 0, -4 * p 0]
  | 4 => ![4 * p 1, 4 * p 0]
  | 5 => ![-4 * p 1, 4 * (1 - p 0 - p 1) - 4 * p 1]

/-- `weights_` and `intgLoc_` of the 7-point rule (Tri6FEM.C:52-72). -/
def tri6Rule : List (ℚ × (Fin 2 → ℚ)) :=
  let w0 : ℚ := 1125 / 10 ^ 4
  let w1 : ℚ := 629695902724135 / 10 ^ 16
  let w2 : ℚ := 66197076394253 / 10 ^ 15
  let t : ℚ := 333333333333333 / 10 ^ 15
  let a : ℚ := 101286507323456 / 10 ^ 15
  let b : ℚ := 797426985353087 / 10 ^ 15
  let c : ℚ := 470142064105115 / 10 ^ 15
  let d : ℚ := 59715871789770 / 10 ^ 15
  [(w0, ![t, t]), (w1, ![a, a]), (w1, ![b, a]), (w1, ![a, b]), (w2, ![c, c]), (w2, ![d, c]), (w2, ![c, d])]

/-- `dxds`, `dxdt` of the triangle in space (Tri6FEM.C:96-111). -/
def tri6Tangent (deriv : Fin 6 → Fin 2 → K) (coords : Fin 6 → Fin 3 → K) (j : Fin 2) (i : Fin 3) : K :=
  ∑ n, deriv n j * coords n i

/-- `detYZ, detXZ, detXY` (Tri6FEM.C:113-115, 145-147), in the order in which `normal_fem` stores them. -/
def tri6Area (deriv : Fin 6 → Fin 2 → K) (coords : Fin 6 → Fin 3 → K) : Fin 3 → K :=
  let dxds := tri6Tangent deriv coords 0
  let dxdt := tri6Tangent deriv coords 1
  ![dxds 1 * dxdt 2 - dxdt 1 * dxds 2, -dxds 0 * dxdt 2 + dxdt 0 * dxds 2, dxds 0 * dxdt 1 - dxdt 0 * dxds 1]

/-- `det_j` of `Tri6FEM::determinant_fem` (Tri6FEM.C:117). -/
noncomputable def tri6Det (deriv : Fin 6 → Fin 2 → ℝ) (coords : Fin 6 → Fin 3 → ℝ) : ℝ :=
  let a := tri6Area deriv coords
  Real.sqrt (a 2 * a 2 + a 0 * a 0 + a 1 * a 1)

/-- `normal` of `Tri6FEM::normal_fem` (Tri6FEM.C:149-153). -/
noncomputable def tri6Normal (deriv : Fin 6 → Fin 2 → ℝ) (coords : Fin 6 → Fin 3 → ℝ) (i : Fin 3) : ℝ :=
  tri6Area deriv coords i / tri6Det deriv coords

/-- What the FEM kernels receive for the hexahedron: `shape_fcn`, `grad_op_fem` (`generic_grad_op_fem`,
MasterElementFunctions.h:108-167), `det_j`, `weights_`. -/
def hexFem (g : K) (coords : Fin 8 → Fin 3 → K) : Nalu.Fem.Elem 8 8 3 K where
  shape ip := hexFemShape (hexFemPts g ip)
  dndx ip := gradOp3 (hexFemDeriv (hexFemPts g ip)) coords
  detJ ip := detOf (by decide) (jact (hexFemDeriv (hexFemPts g ip)) coords)
    (cofactor3 (jact (hexFemDeriv (hexFemPts g ip)) coords))
  weight := hexFemWeight

/-- The point and weight number `ip` of the tetrahedron. -/
def tet10Pt (ip : Fin 16) : Fin 3 → K := fun i => ((tet10Rule.getD ip (0, fun _ => 0)).2 i : ℚ)

/-- What the FEM kernels receive for the ten-node tetrahedron. -/
def tet10Fem (coords : Fin 10 → Fin 3 → K) : Nalu.Fem.Elem 10 16 3 K where
  shape ip := tet10Shape (tet10Pt ip)
  dndx ip := gradOp3 (tet10Deriv (tet10Pt ip)) coords
  detJ ip := detOf (by decide) (jact (tet10Deriv (tet10Pt ip)) coords)
    (cofactor3 (jact (tet10Deriv (tet10Pt ip)) coords))
  weight ip := ((tet10Rule.getD ip (0, fun _ => 0)).1 : ℚ)

end Verif.Shape
