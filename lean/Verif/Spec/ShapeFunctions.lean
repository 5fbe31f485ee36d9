import Mathlib.Algebra.Field.Basic
import Mathlib.Algebra.BigOperators.Fin
import Mathlib.Data.Fin.VecNotation
import Mathlib.Analysis.Calculus.Deriv.Basic

/-!
# Specification vocabulary for shape functions

Reference coordinates of the nodes of the element topologies (the standard Exodus node ordering)
and the standard notions: partition of unity, Kronecker property, linear completeness,
interpolation, partial derivative.  Nothing here mentions the code.
-/

namespace Verif.Shape

section
variable {K : Type*} [Field K]

/-- Value at a point of the field with nodal values `f`, given the shape functions there. -/
def interp {n : ℕ} (N : Fin n → K) (f : Fin n → K) : K := ∑ k, N k * f k

/-- The shape functions sum to one everywhere. -/
def PartitionOfUnity {n d : ℕ} (N : (Fin d → K) → Fin n → K) : Prop := ∀ p, ∑ k, N p k = 1

/-- Each shape function is one at its node and zero at the others. -/
def Kronecker {n d : ℕ} (N : (Fin d → K) → Fin n → K) (node : Fin n → Fin d → K) : Prop :=
  ∀ i k, N (node i) k = if k = i then 1 else 0

/-- Fields that are affine in the parametric coordinates are reproduced at `p`. -/
def LinearAt {n d : ℕ} (N : (Fin d → K) → Fin n → K) (node : Fin n → Fin d → K) (p : Fin d → K) :
    Prop :=
  ∀ (a : K) (b : Fin d → K), interp (N p) (fun k => a + ∑ j, b j * node k j) = a + ∑ j, b j * p j

/-- Hexahedron, `[-h,h]^3` (`h = 1/2` or `1`). -/
def hexNodes (h : K) : Fin 8 → Fin 3 → K
  | 0 => ![-h, -h, -h]
  | 1 => ![h, -h, -h]
  | 2 => ![h, h, -h]
  | 3 => ![-h, h, -h]
  | 4 => ![-h, -h, h]
  | 5 => ![h, -h, h]
  | 6 => ![h, h, h]
  | 7 => ![-h, h, h]
/-- Tetrahedron. -/
def tetNodes : Fin 4 → Fin 3 → K
  | 0 => ![0, 0, 0]
  | 1 => ![1, 0, 0]
  | 2 => ![0, 1, 0]
  | 3 => ![0, 0, 1]
/-- Wedge: triangle times `[-1,1]`. -/
def wedNodes : Fin 6 → Fin 3 → K
  | 0 => ![0, 0, -1]
  | 1 => ![1, 0, -1]
  | 2 => ![0, 1, -1]
  | 3 => ![0, 0, 1]
  | 4 => ![1, 0, 1]
  | 5 => ![0, 1, 1]
/-- Pyramid: square `[-1,1]^2` at `t = 0`, apex at `t = 1`. -/
def pyrNodes : Fin 5 → Fin 3 → K
  | 0 => ![-1, -1, 0]
  | 1 => ![1, -1, 0]
  | 2 => ![1, 1, 0]
  | 3 => ![-1, 1, 0]
  | 4 => ![0, 0, 1]
/-- Quadrilateral, `[-h,h]^2`. -/
def quadNodes (h : K) : Fin 4 → Fin 2 → K
  | 0 => ![-h, -h]
  | 1 => ![h, -h]
  | 2 => ![h, h]
  | 3 => ![-h, h]
/-- Triangle. -/
def triNodes : Fin 3 → Fin 2 → K
  | 0 => ![0, 0]
  | 1 => ![1, 0]
  | 2 => ![0, 1]
/-- Line, `[-1,1]`. -/
def edgeNodes : Fin 2 → Fin 1 → K
  | 0 => ![-1]
  | 1 => ![1]

end

/-- `dN p` is the matrix of partial derivatives of the shape functions at `p`. -/
def DerivAt {n d : ℕ} (N : (Fin d → ℝ) → Fin n → ℝ) (dN : Fin n → Fin d → ℝ) (p : Fin d → ℝ) : Prop :=
  ∀ k j, HasDerivAt (fun x => N (Function.update p j x) k) (dN k j) (p j)

end Verif.Shape
