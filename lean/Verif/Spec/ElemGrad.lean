import Verif.Model.ElemGrad

/-!
# Specification vocabulary for nodal gradients
-/

namespace Verif.ElemGeom

section
variable {K : Type*} [Field K]

/-- The element is the image of its reference element under an affine map (no condition on a tetrahedron). -/
def Affine (t : Topo) (c : ℕ → V3 K) : Prop :=
  match t with
  | .tet => True
  | .hex => c 2 = c 1 + c 3 - c 0 ∧ c 5 = c 1 + c 4 - c 0 ∧ c 7 = c 3 + c 4 - c 0 ∧ c 6 = c 1 + c 3 + c 4 - c 0 - c 0
  | .wed => c 4 = c 1 + c 3 - c 0 ∧ c 5 = c 2 + c 3 - c 0
  | .pyr => c 2 = c 1 + c 3 - c 0

end

/-- Dot product in the plane. -/
def dot2 {K : Type*} [Field K] (a b : K × K) : K := a.1 * b.1 + a.2 * b.2

/-- A conforming plane mesh: the element sides are the boundary sides together with pairs of sides traversed in opposite directions. -/
def Conforming2 (es : List Elem2) (bdry : List (List ℕ)) : Prop :=
  ∃ inner : List (List ℕ), List.Perm (es.flatMap Elem2.faces) (bdry ++ inner.flatMap fun f => [f, f.reverse])

end Verif.ElemGeom
