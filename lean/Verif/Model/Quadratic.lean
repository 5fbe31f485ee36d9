import Mathlib.Analysis.SpecialFunctions.Sqrt
import Mathlib.Algebra.BigOperators.Intervals
import Verif.Model.ShapeFunctions

/-!
# Quadratic elements: Edge32D, Quad92D, Quad93D, Hex27

Models the quadratic part of src/master_element/MasterElement.C, src/master_element/Quad92DCVFEM.C and src/master_element/Hex27CVFEM.C.
Numbers are real.  Nodes are numbered as in the code; a point of the reference element is a vector.  The loops that fill the tables of integration
points are lists in the same order.  The two overloads of each routine (plain and SIMD) do the same arithmetic and are modelled once.
-/

open Finset

namespace Nalu.P2

/-! ## The one-dimensional rule -/

/-- `MasterElement::isoparametric_mapping` (MasterElement.C:55-61). -/
noncomputable def isoMap (b a xi : ℝ) : ℝ := xi * (b - a) / 2 + (a + b) / 2

/-- `scsDist_` (MasterElement.C:91, Hex27CVFEM.C:27). -/
noncomputable def scsDist : ℝ := Real.sqrt 3 / 3

/-- `scsEndLoc_` (MasterElement.C:114, Hex27CVFEM.C:58): the ends of the three sub-intervals. -/
noncomputable def scsEnd : ℕ → ℝ
  | 0 => -1
  | 1 => -scsDist
  | 2 => scsDist
  | _ => 1

/-- `gaussAbscissae_` (MasterElement.C:124). -/
noncomputable def gaussAbs : ℕ → ℝ
  | 0 => -(Real.sqrt 3 / 3)
  | _ => Real.sqrt 3 / 3

/-- `gaussWeight_` (MasterElement.C:125). -/
noncomputable def gaussWt : ℕ → ℝ
  | 0 => 1 / 2
  | _ => 1 / 2

/-- `gauss_point_location` (MasterElement.C:141-149, Hex27CVFEM.C:200-208). -/
noncomputable def gaussLoc (k i : ℕ) : ℝ := isoMap (scsEnd (k + 1)) (scsEnd k) (gaussAbs i)

/-- `shifted_gauss_point_location` with `gaussAbscissaeShift_` (MasterElement.C:153-159, 123). -/
def gaussLocShift (k i : ℕ) : ℝ := [-1, -1, 0, 0, 1, 1].getD (k * 2 + i) 0

/-- `tensor_product_weight`, line (MasterElement.C:182-190). -/
noncomputable def lineWt (k i : ℕ) : ℝ := (scsEnd (k + 1) - scsEnd k) * gaussWt i

/-- `tensor_product_weight`, surface (MasterElement.C:163-177, Hex27CVFEM.C:251-263). -/
noncomputable def areaWt (k l i j : ℕ) : ℝ :=
  (scsEnd (k + 1) - scsEnd k) * (scsEnd (l + 1) - scsEnd l) * gaussWt i * gaussWt j

/-- `tensor_product_weight`, volume (Hex27CVFEM.C:227-246). -/
noncomputable def volWt (k l m i j n : ℕ) : ℝ :=
  (scsEnd (k + 1) - scsEnd k) * (scsEnd (l + 1) - scsEnd l) * (scsEnd (m + 1) - scsEnd m) * gaussWt i * gaussWt j * gaussWt n

/-- `stkNodeMap_` and `tensor_product_node_map` of the quadrilateral (MasterElement.C:100-104, 132-136). -/
def quadNode (i j : ℕ) : ℕ := [0, 4, 1, 7, 8, 5, 3, 6, 2].getD (i + 3 * j) 0

/-- `stkNodeMap_` and `tensor_product_node_map` of the hexahedron (Hex27CVFEM.C:35-45, 191-195). -/
def hexNode (i j k : ℕ) : ℕ :=
  [0, 8, 1, 11, 21, 9, 3, 10, 2, 12, 25, 13, 23, 20, 24, 15, 26, 14, 4, 16, 5, 19, 22, 17, 7, 18, 6].getD (i + 3 * (j + 3 * k)) 0

/-- `sideNodeOrdinals_` of the quadrilateral (MasterElement.C:106-111). -/
def quadSideNodes (side : ℕ) : List ℕ := [[0, 1, 4], [1, 2, 5], [2, 3, 6], [3, 0, 7]].getD side []

/-- `sideNodeOrdinals_` of the hexahedron (Hex27CVFEM.C:47-54). -/
def hexSideNodes (side : ℕ) : List ℕ :=
  [[0, 1, 5, 4, 8, 13, 16, 12, 25], [1, 2, 6, 5, 9, 14, 17, 13, 24], [2, 3, 7, 6, 10, 15, 18, 14, 26], [0, 4, 7, 3, 12, 19, 15, 11, 23],
   [0, 3, 2, 1, 11, 10, 9, 8, 21], [4, 5, 6, 7, 16, 17, 18, 19, 22]].getD side []

/-! ## Shape functions -/

/-- `Edge32DSCS::shape_fcn` and `interpolatePoint` (MasterElement.C:1170-1215). -/
noncomputable def edge3Shape (s : ℝ) : ℕ → ℝ
  | 0 => -s * (1 - s) * (1 / 2)
  | 1 => s * (1 + s) * (1 / 2)
  | 2 => (1 - s) * (1 + s)
  | _ => 0

/-- `QuadrilateralP2Element::quad9_shape_fcn` (MasterElement.C:263-292); node `n` at the point `(s,t)`. -/
noncomputable def quad9Shape (s t : ℝ) : ℕ → ℝ
  | 0 => 1 / 4 * s * t * (1 - s) * (1 - t)
  | 1 => -(1 / 4) * s * t * (1 + s) * (1 - t)
  | 2 => 1 / 4 * s * t * (1 + s) * (1 + t)
  | 3 => -(1 / 4) * s * t * (1 - s) * (1 + t)
  | 4 => -(1 / 2) * t * (1 + s) * (1 - s) * (1 - t)
  | 5 => 1 / 2 * s * (1 + t) * (1 - t) * (1 + s)
  | 6 => 1 / 2 * t * (1 + s) * (1 - s) * (1 + t)
  | 7 => -(1 / 2) * s * (1 + t) * (1 - t) * (1 - s)
  | 8 => (1 - s * s) * (1 - t * t)
  | _ => 0

/-- `QuadrilateralP2Element::quad9_shape_deriv` (MasterElement.C:298-358): the derivatives with respect to `s` and `t`. -/
noncomputable def quad9Deriv (s t : ℝ) : ℕ → Fin 2 → ℝ
  | 0 => ![1 / 4 * (2 * s * (t * t) - 2 * s * t - (t * t) + t), 1 / 4 * (2 * (s * s) * t - 2 * s * t - (s * s) + s)]
  | 1 => ![1 / 4 * (2 * s * (t * t) - 2 * s * t + (t * t) - t), 1 / 4 * (2 * (s * s) * t + 2 * s * t - (s * s) - s)]
  | 2 => ![1 / 4 * (2 * s * (t * t) + 2 * s * t + (t * t) + t), 1 / 4 * (2 * (s * s) * t + 2 * s * t + (s * s) + s)]
  | 3 => ![1 / 4 * (2 * s * (t * t) + 2 * s * t - (t * t) - t), 1 / 4 * (2 * (s * s) * t - 2 * s * t + (s * s) - s)]
  | 4 => ![-(1 / 2) * (2 * s * (t * t) - 2 * s * t), -(1 / 2) * (2 * (s * s) * t - (s * s) - 2 * t + 1)]
  | 5 => ![-(1 / 2) * (2 * s * (t * t) + (t * t) - 2 * s - 1), -(1 / 2) * (2 * (s * s) * t + 2 * s * t)]
  | 6 => ![-(1 / 2) * (2 * s * (t * t) + 2 * s * t), -(1 / 2) * (2 * (s * s) * t + (s * s) - 2 * t - 1)]
  | 7 => ![-(1 / 2) * (2 * s * (t * t) - (t * t) - 2 * s + 1), -(1 / 2) * (2 * (s * s) * t - 2 * s * t)]
  | 8 => ![2 * s * (t * t) - 2 * s, 2 * (s * s) * t - 2 * t]
  | _ => fun _ => 0

/-- `Quad93DSCS::quad9_shape_fcn` (Hex27CVFEM.C:1956-1987): a copy of the two-dimensional one. -/
noncomputable def face9Shape (s t : ℝ) : ℕ → ℝ
  | 0 => 1 / 4 * s * t * (1 - s) * (1 - t)
  | 1 => -(1 / 4) * s * t * (1 + s) * (1 - t)
  | 2 => 1 / 4 * s * t * (1 + s) * (1 + t)
  | 3 => -(1 / 4) * s * t * (1 - s) * (1 + t)
  | 4 => -(1 / 2) * t * (1 + s) * (1 - s) * (1 - t)
  | 5 => 1 / 2 * s * (1 + t) * (1 - t) * (1 + s)
  | 6 => 1 / 2 * t * (1 + s) * (1 - s) * (1 + t)
  | 7 => -(1 / 2) * s * (1 + t) * (1 - t) * (1 - s)
  | 8 => (1 - s * s) * (1 - t * t)
  | _ => 0

/-- `Quad93DSCS::quad9_shape_deriv` (Hex27CVFEM.C:1993-2055). -/
noncomputable def face9Deriv (s t : ℝ) : ℕ → Fin 2 → ℝ
  | 0 => ![1 / 4 * (2 * s * (t * t) - 2 * s * t - (t * t) + t), 1 / 4 * (2 * (s * s) * t - 2 * s * t - (s * s) + s)]
  | 1 => ![1 / 4 * (2 * s * (t * t) - 2 * s * t + (t * t) - t), 1 / 4 * (2 * (s * s) * t + 2 * s * t - (s * s) - s)]
  | 2 => ![1 / 4 * (2 * s * (t * t) + 2 * s * t + (t * t) + t), 1 / 4 * (2 * (s * s) * t + 2 * s * t + (s * s) + s)]
  | 3 => ![1 / 4 * (2 * s * (t * t) + 2 * s * t - (t * t) - t), 1 / 4 * (2 * (s * s) * t - 2 * s * t + (s * s) - s)]
  | 4 => ![-(1 / 2) * (2 * s * (t * t) - 2 * s * t), -(1 / 2) * (2 * (s * s) * t - (s * s) - 2 * t + 1)]
  | 5 => ![-(1 / 2) * (2 * s * (t * t) + (t * t) - 2 * s - 1), -(1 / 2) * (2 * (s * s) * t + 2 * s * t)]
  | 6 => ![-(1 / 2) * (2 * s * (t * t) + 2 * s * t), -(1 / 2) * (2 * (s * s) * t + (s * s) - 2 * t - 1)]
  | 7 => ![-(1 / 2) * (2 * s * (t * t) - (t * t) - 2 * s + 1), -(1 / 2) * (2 * (s * s) * t - 2 * s * t)]
  | 8 => ![2 * s * (t * t) - 2 * s, 2 * (s * s) * t - 2 * t]
  | _ => fun _ => 0

/-- `HexahedralP2Element::hex27_shape_fcn` (Hex27CVFEM.C:355-418). -/
noncomputable def hex27Shape (s t u : ℝ) : ℕ → ℝ
  | 0 => -(1 / 8) * (s * t * u) * (1 - s) * (1 - t) * (1 - u)
  | 1 => 1 / 8 * (s * t * u) * (1 + s) * (1 - t) * (1 - u)
  | 2 => -(1 / 8) * (s * t * u) * (1 + s) * (1 + t) * (1 - u)
  | 3 => 1 / 8 * (s * t * u) * (1 - s) * (1 + t) * (1 - u)
  | 4 => 1 / 8 * (s * t * u) * (1 - s) * (1 - t) * (1 + u)
  | 5 => -(1 / 8) * (s * t * u) * (1 + s) * (1 - t) * (1 + u)
  | 6 => 1 / 8 * (s * t * u) * (1 + s) * (1 + t) * (1 + u)
  | 7 => -(1 / 8) * (s * t * u) * (1 - s) * (1 + t) * (1 + u)
  | 8 => 1 / 4 * (t * u) * (1 - s * s) * (1 - t) * (1 - u)
  | 9 => -(1 / 4) * (s * u) * (1 + s) * (1 - t * t) * (1 - u)
  | 10 => -(1 / 4) * (t * u) * (1 - s * s) * (1 + t) * (1 - u)
  | 11 => 1 / 4 * (s * u) * (1 - s) * (1 - t * t) * (1 - u)
  | 12 => 1 / 4 * (s * t) * (1 - s) * (1 - t) * (1 - u * u)
  | 13 => -(1 / 4) * (s * t) * (1 + s) * (1 - t) * (1 - u * u)
  | 14 => 1 / 4 * (s * t) * (1 + s) * (1 + t) * (1 - u * u)
  | 15 => -(1 / 4) * (s * t) * (1 - s) * (1 + t) * (1 - u * u)
  | 16 => -(1 / 4) * (t * u) * (1 - s * s) * (1 - t) * (1 + u)
  | 17 => 1 / 4 * (s * u) * (1 + s) * (1 - t * t) * (1 + u)
  | 18 => 1 / 4 * (t * u) * (1 - s * s) * (1 + t) * (1 + u)
  | 19 => -(1 / 4) * (s * u) * (1 - s) * (1 - t * t) * (1 + u)
  | 20 => (1 - s * s) * (1 - t * t) * (1 - u * u)
  | 21 => -(1 / 2) * u * (1 - s * s) * (1 - t * t) * (1 - u)
  | 22 => 1 / 2 * u * (1 - s * s) * (1 - t * t) * (1 + u)
  | 23 => -(1 / 2) * s * (1 - s) * (1 - t * t) * (1 - u * u)
  | 24 => 1 / 2 * s * (1 + s) * (1 - t * t) * (1 - u * u)
  | 25 => -(1 / 2) * t * (1 - s * s) * (1 - t) * (1 - u * u)
  | 26 => 1 / 2 * t * (1 - s * s) * (1 + t) * (1 - u * u)
  | _ => 0

/-- `HexahedralP2Element::hex27_shape_deriv` (Hex27CVFEM.C:424-628). -/
noncomputable def hex27Deriv (s t u : ℝ) : ℕ → Fin 3 → ℝ
  | 0 => ![-(1 / 8) * (t * u) * (1 - 2 * s) * (1 - t) * (1 - u), -(1 / 8) * (s * u) * (1 - s) * (1 - 2 * t) * (1 - u), -(1 / 8) * (s * t) * (1 - s) * (1 - t) * (1 - 2 * u)]
  | 1 => ![1 / 8 * (t * u) * (1 + 2 * s) * (1 - t) * (1 - u), 1 / 8 * (s * u) * (1 + s) * (1 - 2 * t) * (1 - u), 1 / 8 * (s * t) * (1 + s) * (1 - t) * (1 - 2 * u)]
  | 2 => ![-(1 / 8) * (t * u) * (1 + 2 * s) * (1 + t) * (1 - u), -(1 / 8) * (s * u) * (1 + s) * (1 + 2 * t) * (1 - u), -(1 / 8) * (s * t) * (1 + s) * (1 + t) * (1 - 2 * u)]
  | 3 => ![1 / 8 * (t * u) * (1 - 2 * s) * (1 + t) * (1 - u), 1 / 8 * (s * u) * (1 - s) * (1 + 2 * t) * (1 - u), 1 / 8 * (s * t) * (1 - s) * (1 + t) * (1 - 2 * u)]
  | 4 => ![1 / 8 * (t * u) * (1 - 2 * s) * (1 - t) * (1 + u), 1 / 8 * (s * u) * (1 - s) * (1 - 2 * t) * (1 + u), 1 / 8 * (s * t) * (1 - s) * (1 - t) * (1 + 2 * u)]
  | 5 => ![-(1 / 8) * (t * u) * (1 + 2 * s) * (1 - t) * (1 + u), -(1 / 8) * (s * u) * (1 + s) * (1 - 2 * t) * (1 + u), -(1 / 8) * (s * t) * (1 + s) * (1 - t) * (1 + 2 * u)]
  | 6 => ![1 / 8 * (t * u) * (1 + 2 * s) * (1 + t) * (1 + u), 1 / 8 * (s * u) * (1 + s) * (1 + 2 * t) * (1 + u), 1 / 8 * (s * t) * (1 + s) * (1 + t) * (1 + 2 * u)]
  | 7 => ![-(1 / 8) * (t * u) * (1 - 2 * s) * (1 + t) * (1 + u), -(1 / 8) * (s * u) * (1 - s) * (1 + 2 * t) * (1 + u), -(1 / 8) * (s * t) * (1 - s) * (1 + t) * (1 + 2 * u)]
  | 8 => ![-(1 / 2) * (s * t * u) * (1 - t) * (1 - u), 1 / 4 * u * (1 - s * s) * (1 - 2 * t) * (1 - u), 1 / 4 * t * (1 - s * s) * (1 - t) * (1 - 2 * u)]
  | 9 => ![-(1 / 4) * u * (1 + 2 * s) * (1 - t * t) * (1 - u), 1 / 2 * (s * t * u) * (1 + s) * (1 - u), -(1 / 4) * s * (1 + s) * (1 - t * t) * (1 - 2 * u)]
  | 10 => ![1 / 2 * (s * t * u) * (1 + t) * (1 - u), -(1 / 4) * u * (1 - s * s) * (1 + 2 * t) * (1 - u), -(1 / 4) * t * (1 - s * s) * (1 + t) * (1 - 2 * u)]
  | 11 => ![1 / 4 * u * (1 - 2 * s) * (1 - t * t) * (1 - u), -(1 / 2) * (s * t * u) * (1 - s) * (1 - u), 1 / 4 * s * (1 - s) * (1 - t * t) * (1 - 2 * u)]
  | 12 => ![1 / 4 * t * (1 - 2 * s) * (1 - t) * (1 - u * u), 1 / 4 * s * (1 - s) * (1 - 2 * t) * (1 - u * u), -(1 / 2) * (s * t * u) * (1 - s) * (1 - t)]
  | 13 => ![-(1 / 4) * t * (1 + 2 * s) * (1 - t) * (1 - u * u), -(1 / 4) * s * (1 + s) * (1 - 2 * t) * (1 - u * u), 1 / 2 * (s * t * u) * (1 + s) * (1 - t)]
  | 14 => ![1 / 4 * t * (1 + 2 * s) * (1 + t) * (1 - u * u), 1 / 4 * s * (1 + s) * (1 + 2 * t) * (1 - u * u), -(1 / 2) * (s * t * u) * (1 + s) * (1 + t)]
  | 15 => ![-(1 / 4) * t * (1 - 2 * s) * (1 + t) * (1 - u * u), -(1 / 4) * s * (1 - s) * (1 + 2 * t) * (1 - u * u), 1 / 2 * (s * t * u) * (1 - s) * (1 + t)]
  | 16 => ![1 / 2 * (s * t * u) * (1 - t) * (1 + u), -(1 / 4) * u * (1 - s * s) * (1 - 2 * t) * (1 + u), -(1 / 4) * t * (1 - s * s) * (1 - t) * (1 + 2 * u)]
  | 17 => ![1 / 4 * u * (1 + 2 * s) * (1 - t * t) * (1 + u), -(1 / 2) * (s * t * u) * (1 + s) * (1 + u), 1 / 4 * s * (1 + s) * (1 - t * t) * (1 + 2 * u)]
  | 18 => ![-(1 / 2) * (s * t * u) * (1 + t) * (1 + u), 1 / 4 * u * (1 - s * s) * (1 + 2 * t) * (1 + u), 1 / 4 * t * (1 - s * s) * (1 + t) * (1 + 2 * u)]
  | 19 => ![-(1 / 4) * u * (1 - 2 * s) * (1 - t * t) * (1 + u), 1 / 2 * (s * t * u) * (1 - s) * (1 + u), -(1 / 4) * s * (1 - s) * (1 - t * t) * (1 + 2 * u)]
  | 20 => ![-2 * s * (1 - t * t) * (1 - u * u), -2 * t * (1 - s * s) * (1 - u * u), -2 * u * (1 - s * s) * (1 - t * t)]
  | 21 => ![(s * u) * (1 - t * t) * (1 - u), (t * u) * (1 - s * s) * (1 - u), -(1 / 2) * (1 - s * s) * (1 - t * t) * (1 - 2 * u)]
  | 22 => ![-(s * u) * (1 - t * t) * (1 + u), -(t * u) * (1 - s * s) * (1 + u), 1 / 2 * (1 - s * s) * (1 - t * t) * (1 + 2 * u)]
  | 23 => ![-(1 / 2) * (1 - 2 * s) * (1 - t * t) * (1 - u * u), (s * t) * (1 - s) * (1 - u * u), (s * u) * (1 - s) * (1 - t * t)]
  | 24 => ![1 / 2 * (1 + 2 * s) * (1 - t * t) * (1 - u * u), -(s * t) * (1 + s) * (1 - u * u), -(s * u) * (1 + s) * (1 - t * t)]
  | 25 => ![(s * t) * (1 - t) * (1 - u * u), -(1 / 2) * (1 - s * s) * (1 - 2 * t) * (1 - u * u), (t * u) * (1 - s * s) * (1 - t)]
  | 26 => ![-(s * t) * (1 + t) * (1 - u * u), 1 / 2 * (1 - s * s) * (1 + 2 * t) * (1 - u * u), -(t * u) * (1 - s * s) * (1 + t)]
  | _ => fun _ => 0

/-- `interpolatePoint` of one component (MasterElement.C:374-388, Hex27CVFEM.C:98-112, 2208-2245). -/
noncomputable def interp (n : ℕ) (shape field : ℕ → ℝ) : ℝ := ∑ k ∈ range n, shape k * field k

/-- `dx_ds += dn_ds * xCoord` over the nodes: the derivative of coordinate `c` in reference direction `r`
(Quad92DCVFEM.C:176-190, Hex27CVFEM.C:1441-1461). -/
noncomputable def tangent {d e : ℕ} (n : ℕ) (deriv : ℕ → Fin d → ℝ) (x : ℕ → Fin e → ℝ) (r : Fin d) (c : Fin e) : ℝ :=
  ∑ k ∈ range n, deriv k r * x k c

/-! ## Edge32D -/

/-- An integration point on a boundary element: location, node, weight. -/
structure SideIp (d : ℕ) where
  loc : Fin d → ℝ
  node : ℕ
  weight : ℝ

/-- The integration points of `Edge32DSCS` (MasterElement.C:1115-1128). -/
noncomputable def edge3Ips : List (SideIp 1) :=
  (List.range 3).flatMap fun k => (List.range 2).map fun i =>
    { loc := ![gaussLoc k i], node := [0, 2, 1].getD k 0, weight := lineWt k i }

/-- `Edge32DSCS::area_vector` (MasterElement.C:1221-1253). -/
noncomputable def edge3Area (x : ℕ → Fin 2 → ℝ) (s : ℝ) : Fin 2 → ℝ :=
  let dxds := 1 / 2 * (x 1 0 - x 0 0) + (x 1 0 - 2 * x 2 0 + x 0 0) * s
  let dyds := 1 / 2 * (x 1 1 - x 0 1) + (x 1 1 - 2 * x 2 1 + x 0 1) * s
  ![dyds, -dxds]

/-- The weighted area vector of an integration point of an edge (MasterElement.C:1151-1163). -/
noncomputable def edge3AreaVec (x : ℕ → Fin 2 → ℝ) (ip : SideIp 1) : Fin 2 → ℝ := fun c => ip.weight * edge3Area x (ip.loc 0) c

/-- `Edge32DSCS::determinant` (MasterElement.C:1141-1167): what is written, in order; an entry is an offset in `areav` (in vectors of two
components) and a vector.  The offset of edge `k` counts nodes, not integration points. -/
noncomputable def edge3Writes (nelem : ℕ) (x : ℕ → ℕ → Fin 2 → ℝ) : List (ℕ × (Fin 2 → ℝ)) :=
  (List.range nelem).flatMap fun k => edge3Ips.zipIdx.map fun e => (e.2 + 3 * k, edge3AreaVec (x k) e.1)

/-- The contents of an array after a sequence of writes. -/
def stored {α : Type*} (w : List (ℕ × α)) (i : ℕ) : Option α := (w.reverse.find? fun e => e.1 = i).map Prod.snd

/-! ## Quad92D -/

/-- Integration points of `Quad92DSCV::set_interior_info` (Quad92DCVFEM.C:98-140). -/
noncomputable def quad9ScvIps : List (SideIp 2) :=
  (List.range 3).flatMap fun l => (List.range 3).flatMap fun k => (List.range 2).flatMap fun j => (List.range 2).map fun i =>
    { loc := ![gaussLoc k i, gaussLoc l j], node := quadNode k l, weight := areaWt k l i j }

/-- The shifted locations of the same points (Quad92DCVFEM.C:124-125). -/
def quad9ScvShift : List (Fin 2 → ℝ) :=
  (List.range 3).flatMap fun l => (List.range 3).flatMap fun k => (List.range 2).flatMap fun j => (List.range 2).map fun i =>
    ![gaussLocShift k i, gaussLocShift l j]

/-- `Quad92DSCV::jacobian_determinant` (Quad92DCVFEM.C:156-182, 276-303). -/
noncomputable def det2 (deriv : ℕ → Fin 2 → ℝ) (x : ℕ → Fin 2 → ℝ) : ℝ :=
  tangent 9 deriv x 0 0 * tangent 9 deriv x 1 1 - tangent 9 deriv x 0 1 * tangent 9 deriv x 1 0

/-- `Quad92DSCV::determinant` (Quad92DCVFEM.C:184-197, 228-249), one point. -/
noncomputable def quad9Vol (x : ℕ → Fin 2 → ℝ) (ip : SideIp 2) : ℝ := ip.weight * det2 (quad9Deriv (ip.loc 0) (ip.loc 1)) x

open scoped Classical in
/-- The error flag of `Quad92DSCV::determinant` (Quad92DCVFEM.C:243-246): it is only ever set, never cleared. -/
noncomputable def quad9VolError (tiny : ℝ) (x : ℕ → Fin 2 → ℝ) (error : Bool) : Bool :=
  quad9ScvIps.foldl (fun e ip => if det2 (quad9Deriv (ip.loc 0) (ip.loc 1)) x < tiny then true else e) error

/-- An integration point of a sub-control surface: location, shifted location, left and right node, weight (with orientation), direction
(0: `S_DIRECTION`, 1: `T_DIRECTION`, 2: `U_DIRECTION`). -/
structure ScsIp (d : ℕ) where
  loc : Fin d → ℝ
  locShift : Fin d → ℝ
  left : ℕ
  right : ℕ
  weight : ℝ
  dir : ℕ

/-- `scsLoc` (Quad92DCVFEM.C:357, Hex27CVFEM.C:917). -/
noncomputable def scsLoc : ℕ → ℝ
  | 0 => -scsDist
  | _ => scsDist

/-- `orientation` (Quad92DCVFEM.C:360, Hex27CVFEM.C:920). -/
def orientation : ℕ → ℝ
  | 0 => -1
  | _ => 1

/-- The points on the lines of constant `t` (Quad92DCVFEM.C:364-402). -/
noncomputable def quad9TIps : List (ScsIp 2) :=
  (List.range 2).flatMap fun m => (List.range 3).flatMap fun l => (List.range 2).map fun j =>
    { loc := ![gaussLoc l j, scsLoc m], locShift := ![gaussLocShift l j, scsLoc m]
      left := if m = 0 then quadNode l m else quadNode l (m + 1)
      right := if m = 0 then quadNode l (m + 1) else quadNode l m
      weight := orientation m * lineWt l j, dir := 1 }

/-- The points on the lines of constant `s` (Quad92DCVFEM.C:404-442). -/
noncomputable def quad9SIps : List (ScsIp 2) :=
  (List.range 2).flatMap fun m => (List.range 3).flatMap fun l => (List.range 2).map fun j =>
    { loc := ![scsLoc m, gaussLoc l j], locShift := ![scsLoc m, gaussLocShift l j]
      left := if m = 0 then quadNode m l else quadNode (m + 1) l
      right := if m = 0 then quadNode (m + 1) l else quadNode m l
      weight := -orientation m * lineWt l j, dir := 0 }

/-- `Quad92DSCS::set_interior_info` (Quad92DCVFEM.C:336-443). -/
noncomputable def quad9ScsIps : List (ScsIp 2) := quad9TIps ++ quad9SIps

/-- `Quad92DSCS::area_vector` and the weighting of `determinant` (Quad92DCVFEM.C:582-620, 902-924): the component of the shape derivative is the
other direction.  `determinant` takes the direction from the position; the assertion there says that it is the one of the point. -/
noncomputable def quad9AreaVec (x : ℕ → Fin 2 → ℝ) (ip : ScsIp 2) : Fin 2 → ℝ :=
  let s1 : Fin 2 := if ip.dir = 0 then 1 else 0
  let D := quad9Deriv (ip.loc 0) (ip.loc 1)
  ![ip.weight * tangent 9 D x s1 1, ip.weight * -tangent 9 D x s1 0]

/-- A point of a face seen from the element: near node, opposing node, opposing sub-control surface point, location. -/
structure FaceIp (d : ℕ) where
  node : ℕ
  oppNode : ℕ
  oppFace : ℕ
  loc : Fin d → ℝ

/-- `stkFaceNodeMap` of `Quad92DSCS::set_boundary_info` (Quad92DCVFEM.C:459-464). -/
def quadFaceNode (k face : ℕ) : ℕ := [0, 4, 1, 1, 5, 2, 2, 6, 3, 3, 7, 0].getD (k + 3 * face) 0

/-- `faceToLine` and `faceLoc` (Quad92DCVFEM.C:471-472). -/
def faceToLine (face : ℕ) : ℕ := [0, 3, 1, 2].getD face 0
/-- see `faceToLine` -/
def quadFaceLoc (face : ℕ) : ℝ := [-1, 1, 1, -1].getD face 0

/-- `intgLoc_[ip*nDim_+c]`. -/
noncomputable def quad9Loc (ip : ℕ) (c : Fin 2) : ℝ := ((quad9ScsIps[ip]?).map fun p => p.loc c).getD 0

/-- `Quad92DSCS::set_boundary_info` (Quad92DCVFEM.C:474-557): faces 0 and 1 in order, 2 and 3 reversed. -/
noncomputable def quad9FaceIps (face : ℕ) : List (FaceIp 2) :=
  match face with
  | 0 => (List.range 3).flatMap fun k => (List.range 2).map fun j =>
      let o := (2 * k + j) + faceToLine 0 * 6
      { node := quadFaceNode k 0, oppNode := quadNode k 1, oppFace := o, loc := ![quad9Loc o 0, quadFaceLoc 0] }
  | 1 => (List.range 3).flatMap fun k => (List.range 2).map fun j =>
      let o := (2 * k + j) + faceToLine 1 * 6
      { node := quadFaceNode k 1, oppNode := quadNode 1 k, oppFace := o, loc := ![quadFaceLoc 1, quad9Loc o 1] }
  | 2 => [2, 1, 0].flatMap fun k => (List.range 2).map fun j =>
      let o := (6 - 1) - (2 * (2 - k) + j) + faceToLine 2 * 6
      { node := quadFaceNode (3 - k - 1) 2, oppNode := quadNode k 1, oppFace := o, loc := ![quad9Loc o 0, quadFaceLoc 2] }
  | 3 => [2, 1, 0].flatMap fun k => (List.range 2).map fun j =>
      let o := (6 - 1) - (2 * (2 - k) + j) + faceToLine 3 * 6
      { node := quadFaceNode (3 - k - 1) 3, oppNode := quadNode 1 k, oppFace := o, loc := ![quadFaceLoc 3, quad9Loc o 1] }
  | _ => []

/-- `QuadrilateralP2Element::sidePcoords_to_elemPcoords` (MasterElement.C:473-510); `none`: the exception. -/
def quadSide (side : ℕ) (q : ℝ) : Option (Fin 2 → ℝ) :=
  match side with
  | 0 => some ![q, -1]
  | 1 => some ![1, q]
  | 2 => some ![-q, 1]
  | 3 => some ![-1, -q]
  | _ => none

/-- `quad_gradient_operator` at a point of the reference element (Quad92DCVFEM.C:30-76, 623-700). -/
noncomputable def quad9GradOp (tiny : ℝ) (x : ℕ → Fin 2 → ℝ) (p : Fin 2 → ℝ) (n : Fin 9) : Fin 2 → ℝ :=
  Verif.Shape.quadGradOp tiny (fun k : Fin 9 => quad9Deriv (p 0) (p 1) k) (fun k : Fin 9 => x k) n

/-- `Quad92DSCV::grad_op` and `shifted_grad_op` (Quad92DCVFEM.C:199-226): the loops run to `numScsIp_` (24), not to `numScvIp_` (36); the entries of
the points beyond keep their value. -/
noncomputable def quad9ScvGradOp (tiny : ℝ) (x : ℕ → Fin 2 → ℝ) (old : ℕ → Fin 9 → Fin 2 → ℝ) (ip : ℕ) : Fin 9 → Fin 2 → ℝ :=
  if ip < quad9ScsIps.length then
    match quad9ScvIps[ip]? with
    | some p => quad9GradOp tiny x p.loc
    | none => old ip
  else old ip

/-! ## Quad93D -/

/-- `Quad93DSCS::set_interior_info` (Hex27CVFEM.C:1863-1912). -/
noncomputable def face9Ips : List (SideIp 2) :=
  (List.range 3).flatMap fun l => (List.range 3).flatMap fun k => (List.range 2).flatMap fun j => (List.range 2).map fun i =>
    { loc := ![gaussLoc k i, gaussLoc l j], node := quadNode k l, weight := areaWt k l i j }

/-- The cross product of the derivatives in the reference directions `a` and `b` (Hex27CVFEM.C:1464-1467, 2484-2487). -/
noncomputable def crossTan {d : ℕ} (n : ℕ) (D : ℕ → Fin d → ℝ) (x : ℕ → Fin 3 → ℝ) (a b : Fin d) : Fin 3 → ℝ :=
  ![tangent n D x a 1 * tangent n D x b 2 - tangent n D x a 2 * tangent n D x b 1,
    tangent n D x a 2 * tangent n D x b 0 - tangent n D x a 0 * tangent n D x b 2,
    tangent n D x a 0 * tangent n D x b 1 - tangent n D x a 1 * tangent n D x b 0]

/-- `Quad93DSCS::area_vector`, weighted (Hex27CVFEM.C:2072-2101, 2447-2488). -/
noncomputable def face9AreaVec (x : ℕ → Fin 3 → ℝ) (ip : SideIp 2) : Fin 3 → ℝ :=
  fun c => ip.weight * crossTan 9 (face9Deriv (ip.loc 0) (ip.loc 1)) x 0 1 c

/-- `Quad93DSCS::determinant` for several faces (Hex27CVFEM.C:2072-2101): the writes in order, as in `edge3Writes`. -/
noncomputable def face9Writes (nelem : ℕ) (x : ℕ → ℕ → Fin 3 → ℝ) : List (ℕ × (Fin 3 → ℝ)) :=
  (List.range nelem).flatMap fun k => face9Ips.zipIdx.map fun e => (e.2 + 36 * k, face9AreaVec (x k) e.1)

/-! ## Hex27 -/

/-- `Hex27SCV::set_interior_info` (Hex27CVFEM.C:659-707). -/
noncomputable def hex27ScvIps : List (SideIp 3) :=
  (List.range 3).flatMap fun n => (List.range 3).flatMap fun m => (List.range 3).flatMap fun l =>
    (List.range 2).flatMap fun k => (List.range 2).flatMap fun j => (List.range 2).map fun i =>
      { loc := ![gaussLoc l i, gaussLoc m j, gaussLoc n k], node := hexNode l m n, weight := volWt l m n i j k }

/-- `Hex27SCV::jacobian_determinant` (Hex27CVFEM.C:805-843). -/
noncomputable def det3 (D : ℕ → Fin 3 → ℝ) (x : ℕ → Fin 3 → ℝ) : ℝ :=
  let t := tangent 27 D x
  t 0 0 * (t 1 1 * t 2 2 - t 1 2 * t 2 1) + t 0 1 * (t 1 2 * t 2 0 - t 1 0 * t 2 2) + t 0 2 * (t 1 0 * t 2 1 - t 1 1 * t 2 0)

/-- `Hex27SCV::determinant` (Hex27CVFEM.C:745-770). -/
noncomputable def hex27Vol (x : ℕ → Fin 3 → ℝ) (ip : SideIp 3) : ℝ := ip.weight * det3 (hex27Deriv (ip.loc 0) (ip.loc 1) (ip.loc 2)) x

/-- The points on the surfaces of constant `u` (Hex27CVFEM.C:924-966). -/
noncomputable def hex27UIps : List (ScsIp 3) :=
  (List.range 2).flatMap fun m => (List.range 3).flatMap fun l => (List.range 3).flatMap fun k =>
    (List.range 2).flatMap fun j => (List.range 2).map fun i =>
      { loc := ![gaussLoc k i, gaussLoc l j, scsLoc m], locShift := ![gaussLocShift k i, gaussLocShift l j, scsLoc m]
        left := if m = 0 then hexNode k l m else hexNode k l (m + 1)
        right := if m = 0 then hexNode k l (m + 1) else hexNode k l m
        weight := orientation m * areaWt k l i j, dir := 2 }

/-- The points on the surfaces of constant `t` (Hex27CVFEM.C:968-1007). -/
noncomputable def hex27TIps : List (ScsIp 3) :=
  (List.range 2).flatMap fun m => (List.range 3).flatMap fun l => (List.range 3).flatMap fun k =>
    (List.range 2).flatMap fun j => (List.range 2).map fun i =>
      { loc := ![gaussLoc k i, scsLoc m, gaussLoc l j], locShift := ![gaussLocShift k i, scsLoc m, gaussLocShift l j]
        left := if m = 0 then hexNode k m l else hexNode k (m + 1) l
        right := if m = 0 then hexNode k (m + 1) l else hexNode k m l
        weight := orientation m * areaWt k l i j, dir := 1 }

/-- The points on the surfaces of constant `s` (Hex27CVFEM.C:1009-1046). -/
noncomputable def hex27SIps : List (ScsIp 3) :=
  (List.range 2).flatMap fun m => (List.range 3).flatMap fun l => (List.range 3).flatMap fun k =>
    (List.range 2).flatMap fun j => (List.range 2).map fun i =>
      { loc := ![scsLoc m, gaussLoc k i, gaussLoc l j], locShift := ![scsLoc m, gaussLocShift k i, gaussLocShift l j]
        left := if m = 0 then hexNode m k l else hexNode (m + 1) k l
        right := if m = 0 then hexNode (m + 1) k l else hexNode m k l
        weight := -orientation m * areaWt k l i j, dir := 0 }

/-- `Hex27SCS::set_interior_info` (Hex27CVFEM.C:887-1047). -/
noncomputable def hex27ScsIps : List (ScsIp 3) := hex27UIps ++ hex27TIps ++ hex27SIps

/-- `Hex27SCS::area_vector`, weighted (Hex27CVFEM.C:1372-1468; Hex27CVFEM.h:379-415). -/
noncomputable def hex27AreaVec (x : ℕ → Fin 3 → ℝ) (ip : ScsIp 3) : Fin 3 → ℝ :=
  let s1 : Fin 3 := if ip.dir = 1 then 0 else 1
  let s2 : Fin 3 := if ip.dir = 2 then 0 else 2
  fun c => ip.weight * crossTan 27 (hex27Deriv (ip.loc 0) (ip.loc 1) (ip.loc 2)) x s1 s2 c

/-- `stkFaceNodeMap` of `Hex27SCS::set_boundary_info` (Hex27CVFEM.C:1067-1074). -/
def hexFaceNode (i j face : ℕ) : ℕ :=
  [0, 8, 1, 12, 25, 13, 4, 16, 5, 1, 9, 2, 13, 24, 14, 5, 17, 6, 3, 10, 2, 15, 26, 14, 7, 18, 6, 0, 11, 3, 12, 23, 15, 4, 19, 7,
   0, 8, 1, 11, 21, 9, 3, 10, 2, 4, 16, 5, 19, 22, 17, 7, 18, 6].getD (i + 3 * j + 9 * face) 0

/-- `opp_face_map` with `faceToSurface` (Hex27CVFEM.C:1085-1097). -/
def oppFaceMap (k l i j face : ℕ) : ℕ := [2, 5, 3, 4, 0, 1].getD face 0 * 36 + (k + 3 * l) * 4 + i + 2 * j

/-- `faceLoc` (Hex27CVFEM.C:1100). -/
def hexFaceLoc (face : ℕ) : ℝ := [-1, 1, 1, -1, -1, 1].getD face 0

/-- `intgLoc_[ip*nDim_+c]`. -/
noncomputable def hex27Loc (ip : ℕ) (c : Fin 3) : ℝ := ((hex27ScsIps[ip]?).map fun p => p.loc c).getD 0

/-- `Hex27SCS::set_boundary_info` (Hex27CVFEM.C:1105-1292). -/
noncomputable def hex27FaceIps (face : ℕ) : List (FaceIp 3) :=
  match face with
  | 0 => (List.range 3).flatMap fun l => (List.range 3).flatMap fun k => (List.range 2).flatMap fun j => (List.range 2).map fun i =>
      let o := oppFaceMap k l i j 0
      { node := hexFaceNode k l 0, oppNode := hexNode k 1 l, oppFace := o, loc := ![hex27Loc o 0, hexFaceLoc 0, hex27Loc o 2] }
  | 1 => (List.range 3).flatMap fun l => (List.range 3).flatMap fun k => (List.range 2).flatMap fun j => (List.range 2).map fun i =>
      let o := oppFaceMap k l i j 1
      { node := hexFaceNode k l 1, oppNode := hexNode 1 k l, oppFace := o, loc := ![hexFaceLoc 1, hex27Loc o 1, hex27Loc o 2] }
  | 2 => (List.range 3).flatMap fun l => [2, 1, 0].flatMap fun k => (List.range 2).flatMap fun j => [1, 0].map fun i =>
      let o := oppFaceMap k l i j 2
      { node := hexFaceNode k l 2, oppNode := hexNode k 1 l, oppFace := o, loc := ![hex27Loc o 0, hexFaceLoc 2, hex27Loc o 2] }
  | 3 => (List.range 3).flatMap fun l => (List.range 3).flatMap fun k => (List.range 2).flatMap fun j => (List.range 2).map fun i =>
      let o := oppFaceMap l k j i 3
      { node := hexFaceNode l k 3, oppNode := hexNode 1 l k, oppFace := o, loc := ![hexFaceLoc 3, hex27Loc o 1, hex27Loc o 2] }
  | 4 => (List.range 3).flatMap fun l => (List.range 3).flatMap fun k => (List.range 2).flatMap fun j => (List.range 2).map fun i =>
      let o := oppFaceMap l k j i 4
      { node := hexFaceNode l k 4, oppNode := hexNode l k 1, oppFace := o, loc := ![hex27Loc o 0, hex27Loc o 1, hexFaceLoc 4] }
  | 5 => (List.range 3).flatMap fun l => (List.range 3).flatMap fun k => (List.range 2).flatMap fun j => (List.range 2).map fun i =>
      let o := oppFaceMap k l i j 5
      { node := hexFaceNode k l 5, oppNode := hexNode k l 1, oppFace := o, loc := ![hex27Loc o 0, hex27Loc o 1, hexFaceLoc 5] }
  | _ => []

/-- `Hex27SCS::sidePcoords_to_elemPcoords` (Hex27CVFEM.C:1786-1841); `none`: the exception. -/
def hexSide (side : ℕ) (q : Fin 2 → ℝ) : Option (Fin 3 → ℝ) :=
  match side with
  | 0 => some ![q 0, -1, q 1]
  | 1 => some ![1, q 0, q 1]
  | 2 => some ![-q 0, 1, q 1]
  | 3 => some ![-1, q 1, q 0]
  | 4 => some ![q 1, q 0, -1]
  | 5 => some ![q 0, q 1, 1]
  | _ => none

/-- `Hex27SCS::gradient` (Hex27CVFEM.C:1652-1715). -/
noncomputable def hex27GradOp (x : ℕ → Fin 3 → ℝ) (p : Fin 3 → ℝ) (n : ℕ) : Fin 3 → ℝ :=
  let D := hex27Deriv (p 0) (p 1) (p 2)
  let t := tangent 27 D x
  let inv := 1 / det3 D x
  ![D n 0 * (inv * (t 1 1 * t 2 2 - t 1 2 * t 2 1)) + D n 1 * (inv * (t 0 2 * t 2 1 - t 0 1 * t 2 2)) + D n 2 * (inv * (t 0 1 * t 1 2 - t 0 2 * t 1 1)),
    D n 0 * (inv * (t 1 2 * t 2 0 - t 1 0 * t 2 2)) + D n 1 * (inv * (t 0 0 * t 2 2 - t 0 2 * t 2 0)) + D n 2 * (inv * (t 0 2 * t 1 0 - t 0 0 * t 1 2)),
    D n 0 * (inv * (t 1 0 * t 2 1 - t 1 1 * t 2 0)) + D n 1 * (inv * (t 0 1 * t 2 0 - t 0 0 * t 2 1)) + D n 2 * (inv * (t 0 0 * t 1 1 - t 0 1 * t 1 0))]

/-! ## Point in element -/

/-- One iteration of `QuadrilateralP2Element::isInElement` (MasterElement.C:400-440): `solve22` on the Jacobian; `none` stands for the division by a
zero determinant. -/
noncomputable def quad9Delta (x : ℕ → Fin 2 → ℝ) (p g : Fin 2 → ℝ) : Option (Fin 2 → ℝ) :=
  let D := quad9Deriv (g 0) (g 1)
  let e := fun c => p c - interp 9 (quad9Shape (g 0) (g 1)) fun k => x k c
  let a := tangent 9 D x 0 0; let b := tangent 9 D x 1 0; let c := tangent 9 D x 0 1; let d := tangent 9 D x 1 1
  let det := a * d - b * c
  open scoped Classical in
  if det = 0 then none else some ![(d * e 0 - b * e 1) / det, (a * e 1 - c * e 0) / det]

/-- The Newton loop of `QuadrilateralP2Element::isInElement` (MasterElement.C:394-462): starts at the centre; `fuel` iterations are left.  `none`: not
converged within the limit (or a zero determinant); the code then returns the largest number. -/
noncomputable def quad9Newton (tol : ℝ) (x : ℕ → Fin 2 → ℝ) (p : Fin 2 → ℝ) : ℕ → (Fin 2 → ℝ) → Option (Fin 2 → ℝ)
  | 0, _ => none
  | fuel + 1, g =>
    match quad9Delta x p g with
    | none => none
    | some d =>
      let g' : Fin 2 → ℝ := ![g 0 + d 0, g 1 + d 1]
      open scoped Classical in
      if |d 0 * d 0 + d 1 * d 1| < tol then some g' else quad9Newton tol x p fuel g'

/-- `QuadrilateralP2Element::isInElement` with `N_MAX_ITER` iterations (MasterElement.C:390-462): reference coordinates and
`parametric_distance` (MasterElement.C:363-368). -/
noncomputable def quad9InElement (tol : ℝ) (x : ℕ → Fin 2 → ℝ) (p : Fin 2 → ℝ) : Option ((Fin 2 → ℝ) × ℝ) :=
  (quad9Newton tol x p 100 ![0, 0]).map fun g => (g, if |g 0| > |g 1| then |g 0| else |g 1|)

end Nalu.P2
