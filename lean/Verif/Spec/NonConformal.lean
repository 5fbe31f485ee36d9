import Verif.Model.NonConformal

/-!
# What is claimed about non-conformal interfaces

Predicates on the geometry of a Gauss point of the interface, and the assembly of matched interfaces.
-/

namespace Nalu.NC
open Nalu.Edge Nalu.Kernel

variable {K : Type*} [Field K] [LinearOrder K] [IsStrictOrderedRing K]
variable {nc no fc fo nd : ℕ}

/-- `p'` is the Gauss point `p` seen from the other surface: what is current for one is opposing for the
other, the area vector is reversed, and the two surfaces are parallel at the point.  (On an interface whose
two surface meshes coincide every Gauss point has such a partner.) -/
structure Mirror (p : Point nc fc no fo nd K) (p' : Point no fo nc fc nd K) : Prop where
  cur : p'.cur = p.opp
  opp : p'.opp = p.cur
  area : ∀ j, p'.area j = -p.area j
  amag : p'.amag = p.amag
  normal : ∀ j, p.oN j = -p.cN j
  normal' : ∀ j, p'.oN j = -p'.cN j

/-- The master element data of one side are consistent at the point: the face shape functions sum to one, the
gradient operator annihilates constants and differentiates the coordinates. -/
structure Side.Consistent {nn nf : ℕ} (s : Side nn nf nd K) (x : Fin nn → Fin nd → K) : Prop where
  unity : Unity s.N
  gradConst : GradConst s.dndx
  gradLinear : GradLinear s.dndx x

/-- The position of the Gauss point as one side interpolates it. -/
def Side.pos {nn nf : ℕ} (s : Side nn nf nd K) (x : Fin nn → Fin nd → K) (j : Fin nd) : K :=
  s.val fun a => x a j

/-- Scalar product with the area vector of the current face. -/
def Point.through (p : Point nc fc no fo nd K) (w : Fin nd → K) : K := ∑ j, w j * p.area j

end Nalu.NC
