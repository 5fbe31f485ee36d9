import Mathlib.Algebra.Order.Field.Basic
import Mathlib.Algebra.BigOperators.Fin
import Mathlib.Data.Fin.VecNotation

/-!
# Shape functions, their derivatives and gradient operators of the linear elements

Models src/master_element/{Hex8,Tet4,Wed6,Pyr5,Quad42D,Tri32D}CVFEM.C, the linear parts of
MasterElement.C (edge, surface triangle) and Quad43DCVFEM.C, and
include/master_element/MasterElementFunctions.h.  Doubles are elements of an exact (ordered) field;
the loop over points is the quantification over the parametric point `p`.  A parametric point is a
vector `Fin d → K`, shape functions are a vector over the nodes, derivatives a matrix
(node, direction).
-/

namespace Verif.Shape

section
variable {K : Type*} [Field K]

/-! ## Shape functions -/

/-- `HexSCS::hex8_shape_fcn`, `HexSCV::hex8_shape_fcn` (Hex8CVFEM.C:487-518), reference element
`[-1/2,1/2]^3`. -/
def hexShape (p : Fin 3 → K) : Fin 8 → K
  | 0 => 1 / 8 + 1 / 4 * (-p 0 - p 1 - p 2) + 1 / 2 * (p 1 * p 2 + p 2 * p 0 + p 0 * p 1) - p 0 * p 1 * p 2
  | 1 => 1 / 8 + 1 / 4 * (p 0 - p 1 - p 2) + 1 / 2 * (p 1 * p 2 - p 2 * p 0 - p 0 * p 1) + p 0 * p 1 * p 2
  | 2 => 1 / 8 + 1 / 4 * (p 0 + p 1 - p 2) + 1 / 2 * (-p 1 * p 2 - p 2 * p 0 + p 0 * p 1) - p 0 * p 1 * p 2
  | 3 => 1 / 8 + 1 / 4 * (-p 0 + p 1 - p 2) + 1 / 2 * (-p 1 * p 2 + p 2 * p 0 - p 0 * p 1) + p 0 * p 1 * p 2
  | 4 => 1 / 8 + 1 / 4 * (-p 0 - p 1 + p 2) + 1 / 2 * (-p 1 * p 2 - p 2 * p 0 + p 0 * p 1) + p 0 * p 1 * p 2
  | 5 => 1 / 8 + 1 / 4 * (p 0 - p 1 + p 2) + 1 / 2 * (-p 1 * p 2 + p 2 * p 0 - p 0 * p 1) - p 0 * p 1 * p 2
  | 6 => 1 / 8 + 1 / 4 * (p 0 + p 1 + p 2) + 1 / 2 * (p 1 * p 2 + p 2 * p 0 + p 0 * p 1) + p 0 * p 1 * p 2
  | 7 => 1 / 8 + 1 / 4 * (-p 0 + p 1 + p 2) + 1 / 2 * (p 1 * p 2 - p 2 * p 0 - p 0 * p 1) - p 0 * p 1 * p 2

/-- `HexSCS::general_shape_fcn` (Hex8CVFEM.C:1119-1145), reference element `[-1,1]^3`; the weights
of `HexSCS::interpolatePoint` (1084-1115) are the same. -/
def hexGeneralShape (p : Fin 3 → K) : Fin 8 → K
  | 0 => 1 / 8 * (1 - p 0) * (1 - p 1) * (1 - p 2)
  | 1 => 1 / 8 * (1 + p 0) * (1 - p 1) * (1 - p 2)
  | 2 => 1 / 8 * (1 + p 0) * (1 + p 1) * (1 - p 2)
  | 3 => 1 / 8 * (1 - p 0) * (1 + p 1) * (1 - p 2)
  | 4 => 1 / 8 * (1 - p 0) * (1 - p 1) * (1 + p 2)
  | 5 => 1 / 8 * (1 + p 0) * (1 - p 1) * (1 + p 2)
  | 6 => 1 / 8 * (1 + p 0) * (1 + p 1) * (1 + p 2)
  | 7 => 1 / 8 * (1 - p 0) * (1 + p 1) * (1 + p 2)

/-- `tet_shape_fcn` (Tet4CVFEM.C:300-318), `TetSCS::interpolatePoint` (948-970). -/
def tetShape (p : Fin 3 → K) : Fin 4 → K
  | 0 => 1 - p 0 - p 1 - p 2
  | 1 => p 0
  | 2 => p 1
  | 3 => p 2

/-- `wedge_shape_fcn` (Wed6CVFEM.C:1151-1172). -/
def wedShape (p : Fin 3 → K) : Fin 6 → K
  | 0 => 1 / 2 * (1 - p 0 - p 1) * (1 - p 2)
  | 1 => 1 / 2 * p 0 * (1 - p 2)
  | 2 => 1 / 2 * p 1 * (1 - p 2)
  | 3 => 1 / 2 * (1 - p 0 - p 1) * (1 + p 2)
  | 4 => 1 / 2 * p 0 * (1 + p 2)
  | 5 => 1 / 2 * p 1 * (1 + p 2)

/-- `shifted_pyr_shape_fcn` (Pyr5CVFEM.C:613-635). -/
def pyrShiftedShape (p : Fin 3 → K) : Fin 5 → K
  | 0 => 1 / 4 * (1 - p 0) * (1 - p 1) * (1 - p 2)
  | 1 => 1 / 4 * (1 + p 0) * (1 - p 1) * (1 - p 2)
  | 2 => 1 / 4 * (1 + p 0) * (1 + p 1) * (1 - p 2)
  | 3 => 1 / 4 * (1 - p 0) * (1 + p 1) * (1 - p 2)
  | 4 => p 2

/-- `quad_shape_fcn` (Quad42DCVFEM.C:307-325), reference element `[-1/2,1/2]^2`; also
`Quad3DSCS::quad4_shape_fcn`. -/
def quadShape (p : Fin 2 → K) : Fin 4 → K
  | 0 => 1 / 4 + 1 / 2 * (-p 0 - p 1) + p 0 * p 1
  | 1 => 1 / 4 + 1 / 2 * (p 0 - p 1) - p 0 * p 1
  | 2 => 1 / 4 + 1 / 2 * (p 0 + p 1) + p 0 * p 1
  | 3 => 1 / 4 + 1 / 2 * (-p 0 + p 1) - p 0 * p 1

/-- `general_shape_fcn` of the quadrilateral (Quad42DCVFEM.C:1009-1030) and of the surface
quadrilateral (Quad43DCVFEM.C:387-407), reference element `[-1,1]^2`; same weights in their
`interpolatePoint`. -/
def quadGeneralShape (p : Fin 2 → K) : Fin 4 → K
  | 0 => 1 / 4 * (1 - p 0) * (1 - p 1)
  | 1 => 1 / 4 * (1 + p 0) * (1 - p 1)
  | 2 => 1 / 4 * (1 + p 0) * (1 + p 1)
  | 3 => 1 / 4 * (1 - p 0) * (1 + p 1)

/-- `tri_shape_fcn` (Tri32DCVFEM.C:160-177, MasterElement.C:695-712) and the weights of
`interpolatePoint` (Tri32DCVFEM.C:963-979, MasterElement.C:836-852). -/
def triShape (p : Fin 2 → K) : Fin 3 → K
  | 0 => 1 - p 0 - p 1
  | 1 => p 0
  | 2 => p 1

/-- `Edge2DSCS::general_shape_fcn` (MasterElement.C:1056-1072) and `interpolatePoint` (1038-1054). -/
def edgeShape (p : Fin 1 → K) : Fin 2 → K
  | 0 => 1 / 2 * (1 - p 0)
  | 1 => 1 / 2 * (1 + p 0)

/-! ## Parametric derivatives -/

/-- `hex8_derivative` (Hex8CVFEM.C:25-70). -/
def hexDeriv (p : Fin 3 → K) : Fin 8 → Fin 3 → K
  | 0, 0 => 1 / 2 * (p 2 + p 1) - p 1 * p 2 - 1 / 4
  | 0, 1 => 1 / 2 * (p 2 + p 0) - p 0 * p 2 - 1 / 4
  | 0, 2 => 1 / 2 * (p 1 + p 0) - p 0 * p 1 - 1 / 4
  | 1, 0 => 1 / 2 * (-p 2 - p 1) + p 1 * p 2 + 1 / 4
  | 1, 1 => 1 / 2 * (p 2 - p 0) + p 0 * p 2 - 1 / 4
  | 1, 2 => 1 / 2 * (p 1 - p 0) + p 0 * p 1 - 1 / 4
  | 2, 0 => 1 / 2 * (-p 2 + p 1) - p 1 * p 2 + 1 / 4
  | 2, 1 => 1 / 2 * (-p 2 + p 0) - p 0 * p 2 + 1 / 4
  | 2, 2 => 1 / 2 * (-p 1 - p 0) - p 0 * p 1 - 1 / 4
  | 3, 0 => 1 / 2 * (p 2 - p 1) + p 1 * p 2 - 1 / 4
  | 3, 1 => 1 / 2 * (-p 2 - p 0) + p 0 * p 2 + 1 / 4
  | 3, 2 => 1 / 2 * (-p 1 + p 0) + p 0 * p 1 - 1 / 4
  | 4, 0 => 1 / 2 * (-p 2 + p 1) + p 1 * p 2 - 1 / 4
  | 4, 1 => 1 / 2 * (-p 2 + p 0) + p 0 * p 2 - 1 / 4
  | 4, 2 => 1 / 2 * (-p 1 - p 0) + p 0 * p 1 + 1 / 4
  | 5, 0 => 1 / 2 * (p 2 - p 1) - p 1 * p 2 + 1 / 4
  | 5, 1 => 1 / 2 * (-p 2 - p 0) - p 0 * p 2 - 1 / 4
  | 5, 2 => 1 / 2 * (-p 1 + p 0) - p 0 * p 1 + 1 / 4
  | 6, 0 => 1 / 2 * (p 2 + p 1) + p 1 * p 2 + 1 / 4
  | 6, 1 => 1 / 2 * (p 2 + p 0) + p 0 * p 2 + 1 / 4
  | 6, 2 => 1 / 2 * (p 1 + p 0) + p 0 * p 1 + 1 / 4
  | 7, 0 => 1 / 2 * (-p 2 - p 1) - p 1 * p 2 - 1 / 4
  | 7, 1 => 1 / 2 * (p 2 - p 0) - p 0 * p 2 + 1 / 4
  | 7, 2 => 1 / 2 * (p 1 - p 0) - p 0 * p 1 + 1 / 4

/-- `tet_deriv` (Tet4CVFEM.C:35-56). -/
def tetDeriv : Fin 4 → Fin 3 → K
  | 0, 0 => -1
  | 0, 1 => -1
  | 0, 2 => -1
  | 1, 0 => 1
  | 1, 1 => 0
  | 1, 2 => 0
  | 2, 0 => 0
  | 2, 1 => 1
  | 2, 2 => 0
  | 3, 0 => 0
  | 3, 1 => 0
  | 3, 2 => 1

/-- `wed_deriv` (Wed6CVFEM.C:19-57). -/
def wedDeriv (p : Fin 3 → K) : Fin 6 → Fin 3 → K
  | 0, 0 => -(1 / 2) * (1 - p 2)
  | 0, 1 => -(1 / 2) * (1 - p 2)
  | 0, 2 => -(1 / 2) * (1 - p 0 - p 1)
  | 1, 0 => 1 / 2 * (1 - p 2)
  | 1, 1 => 0
  | 1, 2 => -(1 / 2) * p 0
  | 2, 0 => 0
  | 2, 1 => 1 / 2 * (1 - p 2)
  | 2, 2 => -(1 / 2) * p 1
  | 3, 0 => -(1 / 2) * (1 + p 2)
  | 3, 1 => -(1 / 2) * (1 + p 2)
  | 3, 2 => 1 / 2 * (1 - p 0 - p 1)
  | 4, 0 => 1 / 2 * (1 + p 2)
  | 4, 1 => 0
  | 4, 2 => 1 / 2 * p 0
  | 5, 0 => 0
  | 5, 1 => 1 / 2 * (1 + p 2)
  | 5, 2 => 1 / 2 * p 1

/-- `shifted_pyr_deriv` (Pyr5CVFEM.C:83-116). -/
def pyrShiftedDeriv (p : Fin 3 → K) : Fin 5 → Fin 3 → K
  | 0, 0 => -(1 / 4) * (1 - p 1) * (1 - p 2)
  | 0, 1 => -(1 / 4) * (1 - p 0) * (1 - p 2)
  | 0, 2 => -(1 / 4) * (1 - p 0) * (1 - p 1)
  | 1, 0 => 1 / 4 * (1 - p 1) * (1 - p 2)
  | 1, 1 => -(1 / 4) * (1 + p 0) * (1 - p 2)
  | 1, 2 => -(1 / 4) * (1 + p 0) * (1 - p 1)
  | 2, 0 => 1 / 4 * (1 + p 1) * (1 - p 2)
  | 2, 1 => 1 / 4 * (1 + p 0) * (1 - p 2)
  | 2, 2 => -(1 / 4) * (1 + p 0) * (1 + p 1)
  | 3, 0 => -(1 / 4) * (1 + p 1) * (1 - p 2)
  | 3, 1 => 1 / 4 * (1 - p 0) * (1 - p 2)
  | 3, 2 => -(1 / 4) * (1 - p 0) * (1 + p 1)
  | 4, 0 => 0
  | 4, 1 => 0
  | 4, 2 => 1

/-- `quad_derivative` (Quad42DCVFEM.C:33-53). -/
def quadDeriv (p : Fin 2 → K) : Fin 4 → Fin 2 → K
  | 0, 0 => -(1 / 2) + p 1
  | 0, 1 => -(1 / 2) + p 0
  | 1, 0 => 1 / 2 - p 1
  | 1, 1 => -(1 / 2) - p 0
  | 2, 0 => 1 / 2 + p 1
  | 2, 1 => 1 / 2 + p 0
  | 3, 0 => -(1 / 2) - p 1
  | 3, 1 => 1 / 2 - p 0

/-- `tri_derivative` (Tri32DCVFEM.C:32-42). -/
def triDeriv : Fin 3 → Fin 2 → K
  | 0, 0 => -1
  | 0, 1 => -1
  | 1, 0 => 1
  | 1, 1 => 0
  | 2, 0 => 0
  | 2, 1 => 1

/-! ## Gradient operators -/

/-- `jact[i][j] += refGrad[n][j] * coords(n,i)` (MasterElementFunctions.h:76-91). -/
def jact {n d : ℕ} (refGrad coords : Fin n → Fin d → K) : Fin d → Fin d → K :=
  fun i j => ∑ k, refGrad k j * coords k i

/-- `cofactorMatrix` for 3x3 (MasterElementFunctions.h:30-42). -/
def cofactor3 (a : Fin 3 → Fin 3 → K) : Fin 3 → Fin 3 → K :=
  ![![a 1 1 * a 2 2 - a 2 1 * a 1 2, a 1 2 * a 2 0 - a 2 2 * a 1 0, a 1 0 * a 2 1 - a 2 0 * a 1 1],
    ![a 0 2 * a 2 1 - a 2 2 * a 0 1, a 0 0 * a 2 2 - a 2 0 * a 0 2, a 0 1 * a 2 0 - a 2 1 * a 0 0],
    ![a 0 1 * a 1 2 - a 1 1 * a 0 2, a 0 2 * a 1 0 - a 1 2 * a 0 0, a 0 0 * a 1 1 - a 1 0 * a 0 1]]

/-- `cofactorMatrix` for 2x2 (MasterElementFunctions.h:43-48). -/
def cofactor2 (a : Fin 2 → Fin 2 → K) : Fin 2 → Fin 2 → K :=
  ![![a 1 1, -a 1 0], ![-a 0 1, a 0 0]]

/-- `det += jact[i][0]*adjJac[i][0]` (MasterElementFunctions.h:96). -/
def detOf {d : ℕ} (h : 0 < d) (a adj : Fin d → Fin d → K) : K := ∑ i, a i ⟨0, h⟩ * adj i ⟨0, h⟩

/-- `generic_grad_op` in three dimensions, one integration point (MasterElementFunctions.h:51-115). -/
def gradOp3 {n : ℕ} (refGrad coords : Fin n → Fin 3 → K) : Fin n → Fin 3 → K :=
  let adj := cofactor3 (jact refGrad coords)
  let det := detOf (by decide) (jact refGrad coords) adj
  fun k i => (∑ j, adj i j * refGrad k j) * (1 / det)

/-- `generic_grad_op` in two dimensions. -/
def gradOp2 {n : ℕ} (refGrad coords : Fin n → Fin 2 → K) : Fin n → Fin 2 → K :=
  let adj := cofactor2 (jact refGrad coords)
  let det := detOf (by decide) (jact refGrad coords) adj
  fun k i => (∑ j, adj i j * refGrad k j) * (1 / det)

/-- `gup` of `generic_gij_3d` (MasterElementFunctions.h:206-216), `jac = jact`. -/
def gUpper (a : Fin 3 → Fin 3 → K) : Fin 3 → Fin 3 → K :=
  let g00 := a 0 0 * a 0 0 + a 0 1 * a 0 1 + a 0 2 * a 0 2
  let g01 := a 0 0 * a 1 0 + a 0 1 * a 1 1 + a 0 2 * a 1 2
  let g02 := a 0 0 * a 2 0 + a 0 1 * a 2 1 + a 0 2 * a 2 2
  let g11 := a 1 0 * a 1 0 + a 1 1 * a 1 1 + a 1 2 * a 1 2
  let g12 := a 1 0 * a 2 0 + a 1 1 * a 2 1 + a 1 2 * a 2 2
  let g22 := a 2 0 * a 2 0 + a 2 1 * a 2 1 + a 2 2 * a 2 2
  ![![g00, g01, g02], ![g01, g11, g12], ![g02, g12, g22]]

/-- `glo` of `generic_gij_3d` (MasterElementFunctions.h:218-237). -/
def gLower (g : Fin 3 → Fin 3 → K) : Fin 3 → Fin 3 → K :=
  let inv := 1 / (g 0 0 * (g 1 1 * g 2 2 - g 1 2 * g 1 2) - g 0 1 * (g 0 1 * g 2 2 - g 1 2 * g 0 2)
    + g 0 2 * (g 0 1 * g 1 2 - g 1 1 * g 0 2))
  let l00 := inv * (g 1 1 * g 2 2 - g 1 2 * g 1 2)
  let l01 := inv * (g 0 2 * g 1 2 - g 0 1 * g 2 2)
  let l02 := inv * (g 0 1 * g 1 2 - g 0 2 * g 1 1)
  let l11 := inv * (g 0 0 * g 2 2 - g 0 2 * g 0 2)
  let l12 := inv * (g 0 2 * g 0 1 - g 0 0 * g 1 2)
  let l22 := inv * (g 0 0 * g 1 1 - g 0 1 * g 0 1)
  ![![l00, l01, l02], ![l01, l11, l12], ![l02, l12, l22]]

end

section
variable {K : Type*} [Field K] [LinearOrder K]

/-- The protected apex coordinate: `t = (|1-t_tmp| > eps) ? t_tmp : 1 + copysign(eps, 1-t_tmp)`
(Pyr5CVFEM.C:49-50, 596-597); `copysign` of a zero (positive in IEEE for `1.0-1.0`) is `+eps`. -/
def pyrClamp (eps t : K) : K :=
  if eps < |1 - t| then t else 1 + (if 0 ≤ 1 - t then eps else -eps)

/-- `pyr_shape_fcn` (Pyr5CVFEM.C:582-607); `eps` is the machine epsilon. -/
def pyrShape (eps : K) (p : Fin 3 → K) : Fin 5 → K
  | 0 => (let r := p 0; let s := p 1; let t := pyrClamp eps (p 2); let q := 1 / 4 / (1 - t); (1 - r - t) * (1 - s - t) * q)
  | 1 => (let r := p 0; let s := p 1; let t := pyrClamp eps (p 2); let q := 1 / 4 / (1 - t); (1 + r - t) * (1 - s - t) * q)
  | 2 => (let r := p 0; let s := p 1; let t := pyrClamp eps (p 2); let q := 1 / 4 / (1 - t); (1 + r - t) * (1 + s - t) * q)
  | 3 => (let r := p 0; let s := p 1; let t := pyrClamp eps (p 2); let q := 1 / 4 / (1 - t); (1 - r - t) * (1 + s - t) * q)
  | 4 => (let r := p 0; let s := p 1; let t := pyrClamp eps (p 2); let q := 1 / 4 / (1 - t); t)

/-- `pyr_deriv` (Pyr5CVFEM.C:35-80). -/
def pyrDeriv (eps : K) (p : Fin 3 → K) : Fin 5 → Fin 3 → K
  | 0, 0 => (let r := p 0; let s := p 1; let t := pyrClamp eps (p 2); let q := 1 / 4 / (1 - t); let tt := 4 * r * s * q * q; -(1 - s - t) * q)
  | 0, 1 => (let r := p 0; let s := p 1; let t := pyrClamp eps (p 2); let q := 1 / 4 / (1 - t); let tt := 4 * r * s * q * q; -(1 - r - t) * q)
  | 0, 2 => (let r := p 0; let s := p 1; let t := pyrClamp eps (p 2); let q := 1 / 4 / (1 - t); let tt := 4 * r * s * q * q; tt - 1 / 4)
  | 1, 0 => (let r := p 0; let s := p 1; let t := pyrClamp eps (p 2); let q := 1 / 4 / (1 - t); let tt := 4 * r * s * q * q; (1 - s - t) * q)
  | 1, 1 => (let r := p 0; let s := p 1; let t := pyrClamp eps (p 2); let q := 1 / 4 / (1 - t); let tt := 4 * r * s * q * q; -(1 + r - t) * q)
  | 1, 2 => (let r := p 0; let s := p 1; let t := pyrClamp eps (p 2); let q := 1 / 4 / (1 - t); let tt := 4 * r * s * q * q; -tt - 1 / 4)
  | 2, 0 => (let r := p 0; let s := p 1; let t := pyrClamp eps (p 2); let q := 1 / 4 / (1 - t); let tt := 4 * r * s * q * q; (1 + s - t) * q)
  | 2, 1 => (let r := p 0; let s := p 1; let t := pyrClamp eps (p 2); let q := 1 / 4 / (1 - t); let tt := 4 * r * s * q * q; (1 + r - t) * q)
  | 2, 2 => (let r := p 0; let s := p 1; let t := pyrClamp eps (p 2); let q := 1 / 4 / (1 - t); let tt := 4 * r * s * q * q; tt - 1 / 4)
  | 3, 0 => (let r := p 0; let s := p 1; let t := pyrClamp eps (p 2); let q := 1 / 4 / (1 - t); let tt := 4 * r * s * q * q; -(1 + s - t) * q)
  | 3, 1 => (let r := p 0; let s := p 1; let t := pyrClamp eps (p 2); let q := 1 / 4 / (1 - t); let tt := 4 * r * s * q * q; (1 - r - t) * q)
  | 3, 2 => (let r := p 0; let s := p 1; let t := pyrClamp eps (p 2); let q := 1 / 4 / (1 - t); let tt := 4 * r * s * q * q; -tt - 1 / 4)
  | 4, 0 => (let r := p 0; let s := p 1; let t := pyrClamp eps (p 2); let q := 1 / 4 / (1 - t); let tt := 4 * r * s * q * q; 0)
  | 4, 1 => (let r := p 0; let s := p 1; let t := pyrClamp eps (p 2); let q := 1 / 4 / (1 - t); let tt := 4 * r * s * q * q; 0)
  | 4, 2 => (let r := p 0; let s := p 1; let t := pyrClamp eps (p 2); let q := 1 / 4 / (1 - t); let tt := 4 * r * s * q * q; 1)

/-- `quad_gradient_operator` (Quad42DCVFEM.C:57-97), one integration point: the determinant is
replaced by one unless it exceeds `tiny = 1e6*realmin`. -/
def quadGradOp {n : ℕ} (tiny : K) (refGrad coords : Fin n → Fin 2 → K) : Fin n → Fin 2 → K :=
  let dxds1 := ∑ k, refGrad k 0 * coords k 0
  let dxds2 := ∑ k, refGrad k 1 * coords k 0
  let dyds1 := ∑ k, refGrad k 0 * coords k 1
  let dyds2 := ∑ k, refGrad k 1 * coords k 1
  let det := dxds1 * dyds2 - dyds1 * dxds2
  let denom := 1 / (if tiny < det then det else 1)
  fun k => ![refGrad k 0 * (denom * dyds2) + refGrad k 1 * (-denom * dyds1),
             refGrad k 0 * (-denom * dxds2) + refGrad k 1 * (denom * dxds1)]

/-- `tri_gradient_operator` (Tri32DCVFEM.C:45-90). -/
def triGradOp {n : ℕ} (tiny : K) (refGrad coords : Fin n → Fin 2 → K) : Fin n → Fin 2 → K :=
  let dxds1 := ∑ k, refGrad k 0 * coords k 0
  let dxds2 := ∑ k, refGrad k 1 * coords k 0
  let dyds1 := ∑ k, refGrad k 0 * coords k 1
  let dyds2 := ∑ k, refGrad k 1 * coords k 1
  let det := dxds1 * dyds2 - dyds1 * dxds2
  let denom := if det < tiny then 1 else 1 / det
  fun k => ![refGrad k 0 * (denom * dyds2) + refGrad k 1 * (-denom * dyds1),
             refGrad k 0 * (-denom * dxds2) + refGrad k 1 * (denom * dxds1)]

end

/-! ## From side to element coordinates -/
section
variable {K : Type*} [Field K]

/-- `HexSCS::sidePcoords_to_elemPcoords` (Hex8CVFEM.C:1183-1235); `none`: the exception for an
invalid ordinal.  The side coordinates are those of the `[-1,1]^2` quadrilateral, the result is in
`[-1/2,1/2]^3`. -/
def hexSide (side : ℕ) (q : Fin 2 → K) : Option (Fin 3 → K) :=
  let x := q 0; let y := q 1
  match side with
  | 0 => some ![1 / 2 * x, -(1 / 2), 1 / 2 * y]
  | 1 => some ![1 / 2, 1 / 2 * x, 1 / 2 * y]
  | 2 => some ![-(1 / 2) * x, 1 / 2, 1 / 2 * y]
  | 3 => some ![-(1 / 2), 1 / 2 * y, 1 / 2 * x]
  | 4 => some ![1 / 2 * y, 1 / 2 * x, -(1 / 2)]
  | 5 => some ![1 / 2 * x, 1 / 2 * y, 1 / 2]
  | _ => none

/-- `TetSCS::sidePcoords_to_elemPcoords` (Tet4CVFEM.C:1021-1060). -/
def tetSide (side : ℕ) (q : Fin 2 → K) : Option (Fin 3 → K) :=
  let x := q 0; let y := q 1
  match side with
  | 0 => some ![x, 0, y]
  | 1 => some ![1 - x - y, x, y]
  | 2 => some ![0, y, x]
  | 3 => some ![y, x, 0]
  | _ => none

/-- `WedSCS::sidePcoords_to_elemPcoords` (Wed6CVFEM.C:1234-1278). -/
def wedSide (side : ℕ) (q : Fin 2 → K) : Option (Fin 3 → K) :=
  let x := q 0; let y := q 1
  match side with
  | 0 => some ![1 / 2 * (1 + x), 0, y]
  | 1 => some ![1 / 2 * (1 - x), 1 / 2 * (1 + x), y]
  | 2 => some ![0, 1 / 2 * (1 + y), x]
  | 3 => some ![y, x, -1]
  | 4 => some ![x, y, 1]
  | _ => none

/-- `PyrSCS::sidePcoords_to_elemPcoords` (Pyr5CVFEM.C:1454-1506). -/
def pyrSide (side : ℕ) (q : Fin 2 → K) : Option (Fin 3 → K) :=
  let x := q 0; let y := q 1
  match side with
  | 0 => some ![-1 + 2 * x + y, -1 + y, y]
  | 1 => some ![1 - y, -1 + 2 * x + y, y]
  | 2 => some ![1 - 2 * x - y, 1 - y, y]
  | 3 => some ![-1 + x, -1 + x + 2 * y, x]
  | 4 => some ![y, x, 0]
  | _ => none

/-- `Quad42DSCS::sidePcoords_to_elemPcoords` (Quad42DCVFEM.C:1066-1100). -/
def quadSide (side : ℕ) (q : Fin 1 → K) : Option (Fin 2 → K) :=
  match side with
  | 0 => some ![1 / 2 * q 0, -(1 / 2)]
  | 1 => some ![1 / 2, 1 / 2 * q 0]
  | 2 => some ![-(1 / 2) * q 0, 1 / 2]
  | 3 => some ![-(1 / 2), -(1 / 2) * q 0]
  | _ => none

/-- `Tri32DSCS::sidePcoords_to_elemPcoords` (Tri32DCVFEM.C:1030-1058). -/
def triSide (side : ℕ) (q : Fin 1 → K) : Option (Fin 2 → K) :=
  match side with
  | 0 => some ![1 / 2 * (1 + q 0), 0]
  | 1 => some ![1 - 1 / 2 * (q 0 + 1), 1 / 2 * (q 0 + 1)]
  | 2 => some ![0, 1 - 1 / 2 * (q 0 + 1)]
  | _ => none

end

end Verif.Shape
