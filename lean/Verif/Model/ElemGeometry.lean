import Mathlib.Algebra.Field.Basic
import Mathlib.Algebra.Module.Prod
import Mathlib.Algebra.BigOperators.Group.List.Basic
import Mathlib.Tactic.Ring
import Mathlib.Tactic.FieldSimp

/-!
# Element geometry: sub-control surfaces, sub-control volumes, exposed faces

Models the `determinant` functions of the linear CVFEM master elements (C++ versions and the
identical Fortran ones in src/master_element/MasterElementWork.F) and the geometry helpers of
include/master_element/Hex8GeometryFunctions.h, over an exact field `K` (floating-point
rounding is not modelled).
-/

namespace Verif.ElemGeom

/-- A point or vector of three coordinates (`double[3]`). -/
abbrev V3 (K : Type*) := K × K × K

section
variable {K : Type*} [Field K]

/-- Cross product, the component formulas used everywhere in the geometry code
(e.g. Hex8GeometryFunctions.h:66-68). -/
def cross (a b : V3 K) : V3 K :=
  (a.2.1 * b.2.2 - b.2.1 * a.2.2, a.2.2 * b.1 - b.2.2 * a.1, a.1 * b.2.1 - b.1 * a.2.1)

/-- Dot product (Hex8GeometryFunctions.h:152). -/
def dot (a b : V3 K) : K := a.1 * b.1 + a.2.1 * b.2.1 + a.2.2 * b.2.2

/-- Average of two points, `half*(a+b)` (e.g. Hex8GeometryFunctions.h:280). -/
def mid2 (a b : V3 K) : V3 K := (1 / 2 : K) • (a + b)
/-- Average of three points, `one3rd*(a+b+c)` (e.g. Tet4CVFEM.C:147). -/
def mid3 (a b c : V3 K) : V3 K := (1 / 3 : K) • (a + b + c)
/-- Average of four points, `0.25*(..)` (e.g. Hex8GeometryFunctions.h:285). -/
def mid4 (a b c d : V3 K) : V3 K := (1 / 4 : K) • (a + b + c + d)

/-- `quad_area_by_triangulation` (Hex8GeometryFunctions.h:30-74): area vector of a
(possibly non-planar) quadrilateral as the sum of the four triangles to its midpoint. -/
def quadArea (p0 p1 p2 p3 : V3 K) : V3 K :=
  let m := mid4 p0 p1 p2 p3
  (1 / 2 : K) • (cross (p0 - m) (p1 - m) + cross (p1 - m) (p2 - m)
    + cross (p2 - m) (p3 - m) + cross (p3 - m) (p0 - m))

/-- Contribution of one triangular facet in `hex_volume_grandy` / `polyhedral_volume_by_faces`
(Hex8GeometryFunctions.h:127-153, Pyr5CVFEM.C:268-289): `(p+q+r) . ((q-p) x (r-p))`. -/
def facetTerm (p q r : V3 K) : K := dot (p + q + r) (cross (q - p) (r - p))

/-- The facet loop and the final division by 18 (Hex8GeometryFunctions.h:122-157,
Pyr5CVFEM.C:259-297). -/
def polyVolume (P : ℕ → V3 K) (tri : List (ℕ × ℕ × ℕ)) : K :=
  (tri.map fun t => facetTerm (P t.1) (P t.2.1) (P t.2.2)).sum / 18

/-- `triangular_facets` of `hex_volume_grandy` and `bhex_volume_grandy`
(Hex8GeometryFunctions.h:111-120 and 213-222). -/
def hexFacets : List (ℕ × ℕ × ℕ) :=
  [(0, 8, 1), (8, 2, 1), (3, 2, 8), (3, 8, 0), (6, 9, 5), (7, 9, 6), (4, 9, 7), (4, 5, 9),
   (10, 0, 1), (5, 10, 1), (4, 10, 5), (4, 0, 10), (7, 6, 11), (6, 2, 11), (2, 3, 11), (3, 7, 11),
   (6, 12, 2), (5, 12, 6), (5, 1, 12), (1, 2, 12), (0, 4, 13), (4, 7, 13), (7, 3, 13), (3, 0, 13)]

/-- The 14 points of `hex_volume_grandy` (Hex8GeometryFunctions.h:86-109): 8 vertices and the
6 face midpoints from `face_nodes`. -/
def grandyPts (v : ℕ → V3 K) : ℕ → V3 K
  | 8 => mid4 (v 0) (v 3) (v 2) (v 1)
  | 9 => mid4 (v 4) (v 5) (v 6) (v 7)
  | 10 => mid4 (v 0) (v 1) (v 5) (v 4)
  | 11 => mid4 (v 2) (v 3) (v 7) (v 6)
  | 12 => mid4 (v 1) (v 2) (v 6) (v 5)
  | 13 => mid4 (v 0) (v 4) (v 3) (v 7)
  | n => v n

/-- `hex_volume_grandy` (Hex8GeometryFunctions.h:76-158). -/
def hexVolumeGrandy (v : ℕ → V3 K) : K := polyVolume (grandyPts v) hexFacets

/-- The 14 points of `bhex_volume_grandy` (Hex8GeometryFunctions.h:171-211): as
`hex_volume_grandy`, but the midpoint of the bent top face is the midpoint of diagonal 5-7. -/
def bgrandyPts (v : ℕ → V3 K) : ℕ → V3 K
  | 8 => mid4 (v 0) (v 1) (v 2) (v 3)
  | 9 => mid2 (v 5) (v 7)
  | 10 => mid4 (v 0) (v 1) (v 5) (v 4)
  | 11 => mid4 (v 3) (v 2) (v 6) (v 7)
  | 12 => mid4 (v 1) (v 2) (v 6) (v 5)
  | 13 => mid4 (v 0) (v 3) (v 7) (v 4)
  | n => v n

/-- `bhex_volume_grandy` (Hex8GeometryFunctions.h:160-259). -/
def bhexVolumeGrandy (v : ℕ → V3 K) : K := polyVolume (bgrandyPts v) hexFacets

/-- `triangularFacetTable` of `octohedron_volume_by_triangle_facets` (Pyr5CVFEM.C:302-327). -/
def octFacets : List (ℕ × ℕ × ℕ) :=
  [(1, 3, 10), (2, 10, 3), (2, 9, 10), (10, 9, 1), (4, 3, 11), (3, 1, 11), (11, 1, 5), (4, 11, 5),
   (1, 12, 5), (1, 7, 12), (12, 7, 6), (5, 12, 6), (9, 8, 13), (13, 8, 7), (13, 7, 1), (9, 13, 1),
   (4, 5, 0), (5, 6, 0), (6, 7, 0), (7, 8, 0), (0, 8, 9), (0, 9, 2), (0, 2, 3), (0, 3, 4)]

/-- The 14 points of `octohedron_volume_by_triangle_facets` (Pyr5CVFEM.C:329-348). -/
def octPts (v : ℕ → V3 K) : ℕ → V3 K
  | 10 => mid2 (v 3) (v 9)
  | 11 => mid2 (v 3) (v 5)
  | 12 => mid2 (v 5) (v 7)
  | 13 => mid2 (v 7) (v 9)
  | n => v n

/-- `octohedron_volume_by_triangle_facets` (Pyr5CVFEM.C:299-355). -/
def octVolume (v : ℕ → V3 K) : K := polyVolume (octPts v) octFacets

/-- Selecting the vertices of a sub-control volume by a row of the node table, e.g.
Hex8CVFEM.C:169-175. -/
def pick (P : ℕ → V3 K) (row : List ℕ) : ℕ → V3 K := fun n => P (row.getD n 0)

/-- The sub-control-surface loop, e.g. Hex8CVFEM.C:569-582: rows of the facet table are the
vertices of each sub-control surface. -/
def scsAreas (P : ℕ → V3 K) (table : List (ℕ × ℕ × ℕ × ℕ)) : List (V3 K) :=
  table.map fun t => quadArea (P t.1) (P t.2.1) (P t.2.2.1) (P t.2.2.2)

/-! ## Exposed faces -/

/-- One sub-face of `quad3d_scs_det` / `tri3d_scs_det` (MasterElementWork.F:1527-1575,
1648-1685): `half*(c-p) x (eprev-enext)`. -/
def subFaceArea (c p eprev enext : V3 K) : V3 K := (1 / 2 : K) • cross (c - p) (eprev - enext)

/-- `quad3d_scs_det` (MasterElementWork.F:1467-1586): area vectors of the 4 sub-faces. -/
def quad3dAreas (p1 p2 p3 p4 : V3 K) : List (V3 K) :=
  let e1 := mid2 p1 p2; let e2 := mid2 p2 p3; let e3 := mid2 p3 p4; let e4 := mid2 p4 p1
  let c := mid4 p1 p2 p3 p4
  [subFaceArea c p1 e4 e1, subFaceArea c p2 e1 e2, subFaceArea c p3 e2 e3, subFaceArea c p4 e3 e4]

/-- `tri3d_scs_det` (MasterElementWork.F:1589-1697): area vectors of the 3 sub-faces. -/
def tri3dAreas (p1 p2 p3 : V3 K) : List (V3 K) :=
  let e1 := mid2 p1 p2; let e2 := mid2 p2 p3; let e3 := mid2 p3 p1
  let c := mid3 p1 p2 p3
  [subFaceArea c p1 e3 e1, subFaceArea c p2 e1 e2, subFaceArea c p3 e2 e3]

/-- Area vectors of an exposed face given by its node list: `Tri3DSCS::determinant` for three
nodes and `Quad3DSCS::determinant` (Quad43DCVFEM.C) for four. -/
def faceAreas (c : ℕ → V3 K) : List ℕ → List (V3 K)
  | [a, b, d] => tri3dAreas (c a) (c b) (c d)
  | [a, b, d, e] => quad3dAreas (c a) (c b) (c d) (c e)
  | _ => []

/-! ## Hexahedron -/

/-- `subdivide_hex_8` (Hex8GeometryFunctions.h:261-320): vertices, edge, face and volume
midpoints. -/
def hexPts (c : ℕ → V3 K) : ℕ → V3 K
  | 8 => mid2 (c 0) (c 1)
  | 9 => mid2 (c 1) (c 2)
  | 10 => mid2 (c 2) (c 3)
  | 11 => mid2 (c 3) (c 0)
  | 12 => mid4 (c 0) (c 1) (c 2) (c 3)
  | 13 => mid2 (c 4) (c 5)
  | 14 => mid2 (c 5) (c 6)
  | 15 => mid2 (c 6) (c 7)
  | 16 => mid2 (c 7) (c 4)
  | 17 => mid4 (c 4) (c 5) (c 6) (c 7)
  | 18 => mid2 (c 1) (c 5)
  | 19 => mid2 (c 0) (c 4)
  | 20 => mid4 (c 0) (c 1) (c 4) (c 5)
  | 21 => mid2 (c 3) (c 7)
  | 22 => mid2 (c 2) (c 6)
  | 23 => mid4 (c 2) (c 3) (c 6) (c 7)
  | 24 => mid4 (c 1) (c 2) (c 5) (c 6)
  | 25 => mid4 (c 0) (c 3) (c 4) (c 7)
  | 26 => (1 / 8 : K) • (c 0 + c 1 + c 2 + c 3 + c 4 + c 5 + c 6 + c 7)
  | n => c n

/-- `hex_edge_facet_table` (Hex8CVFEM.C:551-564). -/
def hexScsTable : List (ℕ × ℕ × ℕ × ℕ) :=
  [(20, 8, 12, 26), (24, 9, 12, 26), (10, 12, 26, 23), (11, 25, 26, 12), (13, 20, 26, 17),
   (17, 14, 24, 26), (17, 15, 23, 26), (16, 17, 26, 25), (19, 20, 26, 25), (20, 18, 24, 26),
   (22, 23, 26, 24), (21, 25, 26, 23)]

/-- `HexSCS::lrscv_` (Hex8CVFEM.C:265-276): left and right node of each surface. -/
def hexLr : List (ℕ × ℕ) :=
  [(0, 1), (1, 2), (2, 3), (0, 3), (4, 5), (5, 6), (6, 7), (4, 7), (0, 4), (1, 5), (2, 6), (3, 7)]

/-- `subDivisionTable` (Hex8CVFEM.C:153-162). -/
def hexScvTable : List (List ℕ) :=
  [[0, 8, 12, 11, 19, 20, 26, 25], [8, 1, 9, 12, 20, 18, 24, 26], [12, 9, 2, 10, 26, 24, 22, 23],
   [11, 12, 10, 3, 25, 26, 23, 21], [19, 20, 26, 25, 4, 13, 17, 16],
   [20, 18, 24, 26, 13, 5, 14, 17], [26, 24, 22, 23, 17, 14, 6, 15],
   [25, 26, 23, 21, 16, 17, 15, 7]]

/-- `HexSCS::sideNodeOrdinals_` (Hex8CVFEM.C:415-422). -/
def hexSides : List (List ℕ) :=
  [[0, 1, 5, 4], [1, 2, 6, 5], [2, 3, 7, 6], [0, 4, 7, 3], [0, 3, 2, 1], [4, 5, 6, 7]]

/-- `HexSCS::ipNodeMap_` (Hex8CVFEM.C:383-393): nearest node of each exposed-face point. -/
def hexIpNode : List (List ℕ) :=
  [[0, 1, 5, 4], [1, 2, 6, 5], [2, 3, 7, 6], [0, 4, 7, 3], [0, 3, 2, 1], [4, 5, 6, 7]]

/-- `HexSCS::determinant` (Hex8CVFEM.C:547-583; MasterElementWork.F:1-231). -/
def hexScs (c : ℕ → V3 K) : List (V3 K) := scsAreas (hexPts c) hexScsTable

/-- `HexSCV::determinant` (Hex8CVFEM.C:149-179; MasterElementWork.F:233-457). -/
def hexScv (c : ℕ → V3 K) : List K :=
  hexScvTable.map fun row => hexVolumeGrandy (pick (hexPts c) row)

/-! ## Tetrahedron -/

/-- Derived points of the tetrahedron (Tet4CVFEM.C:124-184, 500-560). -/
def tetPts (c : ℕ → V3 K) : ℕ → V3 K
  | 4 => mid2 (c 0) (c 1)
  | 5 => mid2 (c 1) (c 2)
  | 6 => mid2 (c 2) (c 0)
  | 7 => mid3 (c 0) (c 1) (c 2)
  | 8 => mid2 (c 2) (c 3)
  | 9 => mid2 (c 3) (c 1)
  | 10 => mid3 (c 1) (c 2) (c 3)
  | 11 => mid2 (c 0) (c 3)
  | 12 => mid3 (c 0) (c 2) (c 3)
  | 13 => mid3 (c 0) (c 1) (c 3)
  | 14 => mid4 (c 0) (c 1) (c 2) (c 3)
  | n => c n

/-- `tetEdgeFacetTable` (Tet4CVFEM.C:480-487). -/
def tetScsTable : List (ℕ × ℕ × ℕ × ℕ) :=
  [(4, 7, 14, 13), (7, 14, 10, 5), (6, 12, 14, 7), (11, 13, 14, 12), (13, 9, 10, 14),
   (10, 8, 12, 14)]
/-- `TetSCS::lrscv_` (Tet4CVFEM.C:330-335). -/
def tetLr : List (ℕ × ℕ) := [(0, 1), (1, 2), (0, 2), (0, 3), (1, 3), (2, 3)]
/-- `tetSubcontrolNodeTable` (Tet4CVFEM.C:113-118). -/
def tetScvTable : List (List ℕ) :=
  [[0, 4, 7, 6, 11, 13, 14, 12], [1, 5, 7, 4, 9, 10, 14, 13], [2, 6, 7, 5, 8, 12, 14, 10],
   [3, 9, 13, 11, 8, 10, 14, 12]]
/-- `TetSCS::sideNodeOrdinals_` (Tet4CVFEM.C:416-421). -/
def tetSides : List (List ℕ) := [[0, 1, 3], [1, 2, 3], [0, 3, 2], [0, 2, 1]]
/-- `TetSCS::ipNodeMap_` (Tet4CVFEM.C:408-414). -/
def tetIpNode : List (List ℕ) := [[0, 1, 3], [1, 2, 3], [0, 3, 2], [0, 2, 1]]
/-- `TetSCS::determinant` (Tet4CVFEM.C:476-575; MasterElementWork.F:608-752). -/
def tetScs (c : ℕ → V3 K) : List (V3 K) := scsAreas (tetPts c) tetScsTable
/-- `TetSCV::determinant` (Tet4CVFEM.C:109-202; MasterElementWork.F:459-606). -/
def tetScv (c : ℕ → V3 K) : List K :=
  tetScvTable.map fun row => hexVolumeGrandy (pick (tetPts c) row)

/-! ## Wedge -/

/-- Derived points of the wedge (Wed6CVFEM.C:171-253, 571-653). -/
def wedPts (c : ℕ → V3 K) : ℕ → V3 K
  | 6 => mid2 (c 0) (c 1)
  | 7 => mid2 (c 1) (c 2)
  | 8 => mid2 (c 2) (c 0)
  | 9 => mid3 (c 0) (c 1) (c 2)
  | 10 => mid2 (c 3) (c 4)
  | 11 => mid2 (c 4) (c 5)
  | 12 => mid2 (c 5) (c 3)
  | 13 => mid3 (c 3) (c 4) (c 5)
  | 14 => mid2 (c 1) (c 4)
  | 15 => mid2 (c 0) (c 3)
  | 16 => mid4 (c 0) (c 1) (c 4) (c 3)
  | 17 => mid2 (c 2) (c 5)
  | 18 => mid4 (c 1) (c 4) (c 5) (c 2)
  | 19 => mid4 (c 5) (c 3) (c 0) (c 2)
  | 20 => (1 / 6 : K) • (c 0 + c 1 + c 2 + c 3 + c 4 + c 5)
  | n => c n

/-- `wedEdgeFacetTable` (Wed6CVFEM.C:560-570). -/
def wedScsTable : List (ℕ × ℕ × ℕ × ℕ) :=
  [(6, 9, 20, 16), (7, 9, 20, 18), (9, 8, 19, 20), (10, 16, 20, 13), (13, 11, 18, 20),
   (12, 13, 20, 19), (15, 16, 20, 19), (16, 14, 18, 20), (19, 20, 18, 17)]
/-- `WedSCS::lrscv_` (Wed6CVFEM.C:387-395). -/
def wedLr : List (ℕ × ℕ) :=
  [(0, 1), (1, 2), (0, 2), (3, 4), (4, 5), (3, 5), (0, 3), (1, 4), (2, 5)]
/-- `wedSubControlNodeTable` (Wed6CVFEM.C:162-169). -/
def wedScvTable : List (List ℕ) :=
  [[0, 15, 16, 6, 8, 19, 20, 9], [9, 6, 1, 7, 20, 16, 14, 18], [8, 9, 7, 2, 19, 20, 18, 17],
   [19, 15, 16, 20, 12, 3, 10, 13], [20, 16, 14, 18, 13, 10, 4, 11],
   [19, 20, 18, 17, 12, 13, 11, 5]]
/-- `WedSCS::sideNodeOrdinals_` (Wed6CVFEM.C:494-500). -/
def wedSides : List (List ℕ) := [[0, 1, 4, 3], [1, 2, 5, 4], [0, 3, 5, 2], [0, 2, 1], [3, 4, 5]]
/-- `WedSCS::ipNodeMap_` (Wed6CVFEM.C:484-492), without the two unused padding entries. -/
def wedIpNode : List (List ℕ) := [[0, 1, 4, 3], [1, 2, 5, 4], [0, 3, 5, 2], [0, 2, 1], [3, 4, 5]]
/-- `WedSCS::determinant` (Wed6CVFEM.C:556-662; MasterElementWork.F:1124-1292). -/
def wedScs (c : ℕ → V3 K) : List (V3 K) := scsAreas (wedPts c) wedScsTable
/-- `WedSCV::determinant` (Wed6CVFEM.C:158-265; MasterElementWork.F:1294-1465). -/
def wedScv (c : ℕ → V3 K) : List K :=
  wedScvTable.map fun row => hexVolumeGrandy (pick (wedPts c) row)

/-! ## Pyramid -/

/-- Derived points of the pyramid (Pyr5CVFEM.C:378-465, 843-931). -/
def pyrPts (c : ℕ → V3 K) : ℕ → V3 K
  | 5 => mid2 (c 0) (c 1)
  | 6 => mid2 (c 1) (c 2)
  | 7 => mid2 (c 2) (c 3)
  | 8 => mid2 (c 3) (c 0)
  | 9 => mid4 (c 0) (c 1) (c 2) (c 3)
  | 10 => mid2 (c 1) (c 4)
  | 11 => mid2 (c 4) (c 0)
  | 12 => mid3 (c 0) (c 1) (c 4)
  | 13 => mid2 (c 2) (c 4)
  | 14 => mid3 (c 1) (c 2) (c 4)
  | 15 => mid2 (c 3) (c 4)
  | 16 => mid3 (c 3) (c 4) (c 2)
  | 17 => mid3 (c 0) (c 4) (c 3)
  | 18 => (1 / 5 : K) • (c 0 + c 1 + c 2 + c 3 + c 4)
  | n => c n

/-- `pyramidEdgeFacetTable` (Pyr5CVFEM.C:826-839). -/
def pyrScsTable : List (ℕ × ℕ × ℕ × ℕ) :=
  [(5, 9, 18, 12), (6, 9, 18, 14), (7, 9, 18, 16), (8, 17, 18, 9), (12, 12, 18, 17),
   (11, 12, 12, 17), (14, 14, 18, 12), (10, 14, 14, 12), (16, 16, 18, 14), (13, 16, 16, 14),
   (17, 17, 18, 16), (15, 17, 17, 16)]
/-- `PyrSCS::lrscv_` (Pyr5CVFEM.C:646-657). -/
def pyrLr : List (ℕ × ℕ) :=
  [(0, 1), (1, 2), (2, 3), (0, 3), (0, 4), (0, 4), (1, 4), (1, 4), (2, 4), (2, 4), (3, 4), (3, 4)]
/-- Rows 0-3 of `pyramidSubcontrolNodeTable` (Pyr5CVFEM.C:370-376). -/
def pyrScvTable : List (List ℕ) :=
  [[0, 5, 9, 8, 11, 12, 18, 17], [1, 6, 9, 5, 10, 14, 18, 12], [2, 7, 9, 6, 13, 16, 18, 14],
   [3, 8, 9, 7, 15, 17, 18, 16]]
/-- Row 4 of `pyramidSubcontrolNodeTable`, the octahedron at the apex (Pyr5CVFEM.C:375). -/
def pyrTipRow : List ℕ := [4, 18, 15, 17, 11, 12, 10, 14, 13, 16]
/-- `PyrSCS::sideNodeOrdinals_` (Pyr5CVFEM.C:759-765). -/
def pyrSides : List (List ℕ) := [[0, 1, 4], [1, 2, 4], [2, 3, 4], [0, 4, 3], [0, 3, 2, 1]]
/-- `PyrSCS::ipNodeMap_` (Pyr5CVFEM.C:767-777). -/
def pyrIpNode : List (List ℕ) := [[0, 1, 4], [1, 2, 4], [2, 3, 4], [0, 4, 3], [0, 3, 2, 1]]
/-- `PyrSCS::determinant` (Pyr5CVFEM.C:822-948; MasterElementWork.F:754-929). -/
def pyrScs (c : ℕ → V3 K) : List (V3 K) := scsAreas (pyrPts c) pyrScsTable
/-- `PyrSCV::determinant` (Pyr5CVFEM.C:360-496; MasterElementWork.F:931-1122). -/
def pyrScv (c : ℕ → V3 K) : List K :=
  (pyrScvTable.map fun row => bhexVolumeGrandy (pick (pyrPts c) row))
    ++ [octVolume (pick (pyrPts c) pyrTipRow)]

/-! ## Assembly of surface quantities to nodes -/

/-- What every sub-control-surface loop does with `lrscv`, e.g. AssembleNodalGradElemAlgorithm.C:
add the surface quantity to the left node, subtract it from the right node.  The value
collected at local node `n`. -/
def scatterScs {M : Type*} [AddCommGroup M] (q : List M) (lr : List (ℕ × ℕ)) (n : ℕ) : M :=
  ((q.zip lr).map fun p =>
    (if p.2.1 = n then p.1 else 0) - (if p.2.2 = n then p.1 else 0)).sum

/-- What every exposed-face loop does with `ipNodeMap`, e.g. AssembleNodalGradBoundaryAlgorithm.C:
add the point's quantity to its nearest node. -/
def scatterFace {M : Type*} [AddCommGroup M] (q : List M) (ipNode : List ℕ) (n : ℕ) : M :=
  ((q.zip ipNode).map fun p => if p.2 = n then p.1 else 0).sum

/-! ## Two dimensions -/

/-- Quadrilateral in 2D, `Quad42DSCS::determinant` (Quad42DCVFEM.C:469-530;
MasterElementWork.F:1943-2049).  The axisymmetric factor `rr = a1+a2*..+a3*..` is 1 there. -/
def quad2dScs (c : ℕ → K × K) : List (K × K) :=
  let m : K × K := (1 / 4 : K) • (c 0 + c 1 + c 2 + c 3)
  let f0 : K × K := (1 / 2 : K) • (c 0 + c 1)
  let f1 : K × K := (1 / 2 : K) • (c 1 + c 2)
  let f2 : K × K := (1 / 2 : K) • (c 2 + c 3)
  let f3 : K × K := (1 / 2 : K) • (c 3 + c 0)
  [(-(f0.2 - m.2), f0.1 - m.1), (-(f1.2 - m.2), f1.1 - m.1), (-(f2.2 - m.2), f2.1 - m.1),
   (f3.2 - m.2, -(f3.1 - m.1))]
/-- `Quad42DSCS::lrscv_` (Quad42DCVFEM.C:336-340). -/
def quad2dLr : List (ℕ × ℕ) := [(0, 1), (1, 2), (2, 3), (0, 3)]
/-- `Quad42DSCS::sideNodeOrdinals_` (Quad42DCVFEM.C:405-410). -/
def quad2dSides : List (List ℕ) := [[0, 1], [1, 2], [2, 3], [3, 0]]

/-- Triangle in 2D, `Tri32DSCS::determinant` (Tri32DCVFEM.C:480-538; MasterElementWork.F:2051-2150). -/
def tri2dScs (c : ℕ → K × K) : List (K × K) :=
  let m : K × K := (1 / 3 : K) • (c 0 + c 1 + c 2)
  let f0 : K × K := (1 / 2 : K) • (c 0 + c 1)
  let f1 : K × K := (1 / 2 : K) • (c 1 + c 2)
  let f2 : K × K := (1 / 2 : K) • (c 2 + c 0)
  [(-(f0.2 - m.2), f0.1 - m.1), (-(f1.2 - m.2), f1.1 - m.1), (f2.2 - m.2, -(f2.1 - m.1))]
/-- `Tri32DSCS::lrscv_` (Tri32DCVFEM.C:360-363). -/
def tri2dLr : List (ℕ × ℕ) := [(0, 1), (1, 2), (0, 2)]
/-- `Tri32DSCS::sideNodeOrdinals_` (Tri32DCVFEM.C:419-423). -/
def tri2dSides : List (List ℕ) := [[0, 1], [1, 2], [2, 0]]

/-- `edge2d_scs_det` (MasterElementWork.F:1700-1778): the two half-edge area vectors. -/
def edge2dAreas (p1 p2 : K × K) : List (K × K) :=
  let c : K × K := (1 / 2 : K) • (p1 + p2)
  [(-(p1.2 - c.2), p1.1 - c.1), (p2.2 - c.2, -(p2.1 - c.1))]

/-- Area vectors of a 2D side. -/
def sideAreas (c : ℕ → K × K) : List ℕ → List (K × K)
  | [a, b] => edge2dAreas (c a) (c b)
  | _ => []

/-- Jacobian determinant of the bilinear quadrilateral map at `(xi, eta)` in [-1/2,1/2]^2
(the `deriv` and `det_j` lines Quad42DCVFEM.C:189-214, Tri32DCVFEM.C:249-279). -/
def quadDetJ (c : ℕ → K × K) (xi eta : K) : K :=
  let h : K := 1 / 2
  let dxs1 := -(h - eta) * (c 0).1 + (h - eta) * (c 1).1 + (h + eta) * (c 2).1 + -(h + eta) * (c 3).1
  let dxs2 := -(h - xi) * (c 0).1 + -(h + xi) * (c 1).1 + (h + xi) * (c 2).1 + (h - xi) * (c 3).1
  let dys1 := -(h - eta) * (c 0).2 + (h - eta) * (c 1).2 + (h + eta) * (c 2).2 + -(h + eta) * (c 3).2
  let dys2 := -(h - xi) * (c 0).2 + -(h + xi) * (c 1).2 + (h + xi) * (c 2).2 + (h - xi) * (c 3).2
  dxs1 * dys2 - dys1 * dxs2

/-- `Quad42DSCV::determinant` (Quad42DCVFEM.C:149-219; MasterElementWork.F:1786-1941): 2x2
Gauss points `xi[ki] + xigp[kq]` of each quarter, weight 1/16.  `g` is the literal
0.144337567. -/
def quad2dScv (g : K) (c : ℕ → K × K) : List K :=
  let q : K := 1 / 4
  let cells : List (K × K) := [(-q, -q), (q, -q), (q, q), (-q, q)]
  let gps : List (K × K) := [(-g, -g), (g, -g), (g, g), (-g, g)]
  cells.map fun x => (gps.map fun p => quadDetJ c (x.1 + p.1) (x.2 + p.2) * (1 / 16)).sum

/-- `Tri32DSCV::determinant` (Tri32DCVFEM.C:179-284; MasterElementWork.F:2152-2310): each corner
quadrilateral (vertex, edge midpoint, centroid, edge midpoint) integrated with 2x2 Gauss points
and weight 1/4.  `g` is the literal 0.288675134. -/
def tri2dScv (g : K) (c : ℕ → K × K) : List K :=
  let m : K × K := (1 / 3 : K) • (c 0 + c 1 + c 2)
  let h01 : K × K := (1 / 2 : K) • (c 0 + c 1)
  let h12 : K × K := (1 / 2 : K) • (c 1 + c 2)
  let h20 : K × K := (1 / 2 : K) • (c 2 + c 0)
  let gps : List (K × K) := [(-g, -g), (g, -g), (g, g), (-g, g)]
  let cell : List (K × K) → K := fun l =>
    (gps.map fun p => quadDetJ (fun i => l.getD i 0) p.1 p.2 * (1 / 4)).sum
  [cell [c 0, h01, m, h20], cell [c 1, h12, m, h01], cell [c 2, h20, m, h12]]

end

end Verif.ElemGeom
