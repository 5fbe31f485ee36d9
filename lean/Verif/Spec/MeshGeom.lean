import Verif.Model.MeshGeom

/-!
# Specification vocabulary for the assembled mesh geometry
-/

namespace Verif.MeshGeom
open Verif.ElemGeom

/-- Edges of the reference cells, as pairs of local nodes (STK's `topology.edge_nodes`). -/
def edgeNodes : Topo → List (ℕ × ℕ)
  | .hex => [(0, 1), (1, 2), (2, 3), (3, 0), (4, 5), (5, 6), (6, 7), (7, 4), (0, 4), (1, 5), (2, 6), (3, 7)]
  | .tet => [(0, 1), (1, 2), (2, 0), (0, 3), (1, 3), (2, 3)]
  | .wed => [(0, 1), (1, 2), (2, 0), (3, 4), (4, 5), (5, 3), (0, 3), (1, 4), (2, 5)]
  | .pyr => [(0, 1), (1, 2), (2, 3), (3, 0), (0, 4), (1, 4), (2, 4), (3, 4)]

/-- Edges of the plane cells. -/
def Topo2.edgeNodes : Topo2 → List (ℕ × ℕ)
  | .quad => [(0, 1), (1, 2), (2, 3), (3, 0)] | .tri => [(0, 1), (1, 2), (2, 0)]

/-- An edge entity joins nodes `a` and `b`, in either order. -/
def Joins (nodes : ℕ → ℕ × ℕ) (k a b : ℕ) : Prop := nodes k = (a, b) ∨ nodes k = (b, a)

/-- STK's mesh invariant: the edge related to an element at ordinal `j` joins the element's nodes at
the ends of its `j`-th edge (in an order STK chooses). -/
def EdgesOK (nodes : ℕ → ℕ × ℕ) (e : SElem) : Prop :=
  ∀ j a b, (edgeNodes e.elem.topo)[j]? = some (a, b) → Joins nodes (e.edgeRel j) (e.elem.conn a) (e.elem.conn b)

/-- The same in the plane. -/
def PEdgesOK (nodes : ℕ → ℕ × ℕ) (e : PElem) : Prop :=
  ∀ j a b, e.topo.edgeNodes[j]? = some (a, b) → Joins nodes (e.edgeRel j) (e.conn a) (e.conn b)

/-- Net edge area out of the control volume of node `N`: edges starting at `N` count with their area
vector, edges ending at `N` with its opposite. -/
def netEdgeArea {V : Type*} [AddCommGroup V] (nodes : ℕ → ℕ × ℕ) (edges : List ℕ) (av : ℕ → V) (N : ℕ) : V :=
  (edges.map fun k => (if (nodes k).1 = N then av k else 0) - (if (nodes k).2 = N then av k else 0)).sum

end Verif.MeshGeom
