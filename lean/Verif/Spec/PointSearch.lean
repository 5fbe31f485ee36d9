import Verif.Spec.ShapeFunctions
import Mathlib.LinearAlgebra.Matrix.Determinant.Basic

/-!
# Specification vocabulary for the point search

What it means for a program to perform Newton iterations on the equation "the position interpolated
at the parametric point is `p`".  Nothing here mentions the code.
-/

namespace Verif.Shape
variable {K : Type*} [Field K]

/-- The Jacobian matrix `∂x_i/∂s_j` of the isoparametric map, from the derivatives of the shape
functions. -/
def jacobian {n d : ℕ} (refGrad coords : Fin n → Fin d → K) : Matrix (Fin d) (Fin d) K :=
  Matrix.of fun i j => ∑ k, refGrad k j * coords k i

/-- `step` is Newton's method for `∑_k N_k(c) e_k = p`: where the Jacobian is not singular the next
iterate `y` solves the linearised equation at `c`; where it is singular the step fails. -/
def IsNewton {n d : ℕ} (N : (Fin d → K) → Fin n → K) (dN : (Fin d → K) → Fin n → Fin d → K)
    (e : Fin n → Fin d → K) (p : Fin d → K) (step : (Fin d → K) → Option (Fin d → K)) : Prop :=
  ∀ c, ((jacobian (dN c) e).det = 0 → step c = none) ∧
    ((jacobian (dN c) e).det ≠ 0 → ∃ y, step c = some y ∧
      ∀ i, ∑ j, jacobian (dN c) e i j * (y j - c j) = p i - interp (N c) (fun k => e k i))

/-- The nodes are the image of the reference nodes under the affine map `x ↦ b + A x`. -/
def AffineElement {n d : ℕ} (node e : Fin n → Fin d → K) (b : Fin d → K)
    (A : Matrix (Fin d) (Fin d) K) : Prop := ∀ k i, e k i = b i + ∑ j, A i j * node k j

end Verif.Shape
