import Verif.Model.ElemGeometry
import Mathlib.Data.List.Rotate

/-!
# Specification vocabulary for element geometry

Volume enclosed by a surface: by the divergence theorem the volume of a region is the sum over
its oriented boundary patches of `1/3 * ∫ x . n dA`.  For a flat triangle this is
`det(a,b,c)/6`; for the bilinear patch on four corners it is the average of the two ways of
cutting it into triangles, `(det(a,b,c)+det(b,c,d)+det(c,d,a)+det(d,a,b))/12`.
These do not mention sub-control volumes or any table of the code.
-/

namespace Verif.ElemGeom
variable {K : Type*} [Field K]

/-- `1/3 ∫ x . n dA` over the triangle `a b c`. -/
def triFlux (a b c : V3 K) : K := dot a (cross b c) / 6

/-- `1/3 ∫ x . n dA` over the bilinear patch with corners `a b c d` (in cyclic order). -/
def quadFlux (a b c d : V3 K) : K :=
  (triFlux a b c + triFlux b c d + triFlux c d a + triFlux d a b) / 2

/-- Flux through a face given by the list of its corner nodes. -/
def faceFlux (c : ℕ → V3 K) : List ℕ → K
  | [a, b, d] => triFlux (c a) (c b) (c d)
  | [a, b, d, e] => quadFlux (c a) (c b) (c d) (c e)
  | _ => 0

/-! ## Meshes of mixed elements -/

/-- The four linear solid topologies. -/
inductive Topo | hex | tet | wed | pyr
deriving DecidableEq, Repr

/-- An element of a mesh: topology and the global node of each local node. -/
structure Elem where
  topo : Topo
  conn : ℕ → ℕ

/-- Sub-control-surface area vectors the master element of this topology returns. -/
def Topo.scs : Topo → (ℕ → V3 K) → List (V3 K)
  | .hex => hexScs | .tet => tetScs | .wed => wedScs | .pyr => pyrScs
/-- Sub-control volumes the master element of this topology returns. -/
def Topo.scv : Topo → (ℕ → V3 K) → List K
  | .hex => hexScv | .tet => tetScv | .wed => wedScv | .pyr => pyrScv
/-- Left/right nodes of the sub-control surfaces. -/
def Topo.lr : Topo → List (ℕ × ℕ)
  | .hex => hexLr | .tet => tetLr | .wed => wedLr | .pyr => pyrLr
/-- Node lists of the sides. -/
def Topo.sides : Topo → List (List ℕ)
  | .hex => hexSides | .tet => tetSides | .wed => wedSides | .pyr => pyrSides

/-- Coordinates gathered to the element. -/
def Elem.coords (e : Elem) (X : ℕ → V3 K) : ℕ → V3 K := fun n => X (e.conn n)

/-- The element's faces as lists of global nodes, outward oriented. -/
def Elem.faces (e : Elem) : List (List ℕ) := e.topo.sides.map fun s => s.map e.conn

/-- What an element loop accumulates at global node `N`: sub-control-surface area vectors added
to the left node and subtracted from the right node. -/
def Elem.scsAt (e : Elem) (X : ℕ → V3 K) (N : ℕ) : V3 K :=
  scatterScs (e.topo.scs (e.coords X)) (e.topo.lr.map fun p => (e.conn p.1, e.conn p.2)) N

/-- What a boundary-face loop accumulates at global node `N` for the face with node list `f`. -/
def faceAt (X : ℕ → V3 K) (f : List ℕ) (N : ℕ) : V3 K := scatterFace (faceAreas X f) f N

/-- Two element faces are the two sides of one interior face: the same nodes, traversed in
opposite directions (from any starting node). -/
def Opposite (f g : List ℕ) : Prop := g.IsRotated f.reverse

/-- A conforming mesh: the element faces are the boundary faces together with pairs of
opposite faces. -/
def Conforming (es : List Elem) (bdry : List (List ℕ)) : Prop :=
  ∃ pairs : List (List ℕ × List ℕ), (∀ p ∈ pairs, Opposite p.1 p.2) ∧
    List.Perm (es.flatMap Elem.faces) (bdry ++ pairs.flatMap fun p => [p.1, p.2])

end Verif.ElemGeom
