import Verif.Spec.ShapeFunctions
import Mathlib.Algebra.MvPolynomial.Degrees
import Mathlib.MeasureTheory.Integral.IntervalIntegral.Basic

/-!
# Specification vocabulary for the finite-element master elements

Node positions of the quadratic simplices in the standard ordering (corners first, then the midpoints of
the edges), and the integrals that quadrature rules approximate, as iterated integrals.
-/

namespace Verif.Shape

section
variable {K : Type*} [Field K]

/-- The point halfway between two points. -/
def mid {d : ℕ} (a b : Fin d → K) : Fin d → K := fun i => (a i + b i) / 2

/-- Ten-node tetrahedron: corners, then midpoints of the edges 01, 12, 20, 03, 13, 23. -/
def tet10Nodes : Fin 10 → Fin 3 → K
  | 0 => tetNodes 0
  | 1 => tetNodes 1
  | 2 => tetNodes 2
  | 3 => tetNodes 3
  | 4 => mid (tetNodes 0) (tetNodes 1)
  | 5 => mid (tetNodes 1) (tetNodes 2)
  | 6 => mid (tetNodes 2) (tetNodes 0)
  | 7 => mid (tetNodes 0) (tetNodes 3)
  | 8 => mid (tetNodes 1) (tetNodes 3)
  | 9 => mid (tetNodes 2) (tetNodes 3)

/-- Six-node triangle: corners, then midpoints of the edges 01, 12, 20. -/
def tri6Nodes : Fin 6 → Fin 2 → K
  | 0 => triNodes 0
  | 1 => triNodes 1
  | 2 => triNodes 2
  | 3 => mid (triNodes 0) (triNodes 1)
  | 4 => mid (triNodes 1) (triNodes 2)
  | 5 => mid (triNodes 2) (triNodes 0)

/-- A quadratic function of the parametric coordinates. -/
def quadratic {d : ℕ} (a : K) (b : Fin d → K) (c : Fin d → Fin d → K) (p : Fin d → K) : K :=
  a + ∑ i, b i * p i + ∑ i, ∑ j, c i j * p i * p j

/-- All quadratic functions are reproduced. -/
def QuadraticComplete {n d : ℕ} (N : (Fin d → K) → Fin n → K) (node : Fin n → Fin d → K) : Prop :=
  ∀ a b c p, interp (N p) (fun k => quadratic a b c (node k)) = quadratic a b c p

end

open MeasureTheory

/-- Integral over the cube `[-1,1]^3`. -/
noncomputable def cubeIntegral (f : (Fin 3 → ℝ) → ℝ) : ℝ :=
  ∫ x in (-1 : ℝ)..1, ∫ y in (-1 : ℝ)..1, ∫ z in (-1 : ℝ)..1, f ![x, y, z]

/-- Integral over the reference tetrahedron. -/
noncomputable def tetIntegral (f : (Fin 3 → ℝ) → ℝ) : ℝ :=
  ∫ x in (0 : ℝ)..1, ∫ y in (0 : ℝ)..(1 - x), ∫ z in (0 : ℝ)..(1 - x - y), f ![x, y, z]

/-- Integral over the reference triangle. -/
noncomputable def triIntegral (f : (Fin 2 → ℝ) → ℝ) : ℝ :=
  ∫ x in (0 : ℝ)..1, ∫ y in (0 : ℝ)..(1 - x), f ![x, y]

/-- Sum of the absolute values of the coefficients of a polynomial. -/
noncomputable def coeffSum {d : ℕ} (P : MvPolynomial (Fin d) ℝ) : ℝ := ∑ m ∈ P.support, |P.coeff m|

/-- Outward normals (not normalized) of the sides of the reference tetrahedron, in the order of the sides. -/
def tetSideNormal {K : Type*} [Field K] : Fin 4 → Fin 3 → K
  | 0 => ![0, -1, 0]
  | 1 => ![1, 1, 1]
  | 2 => ![-1, 0, 0]
  | 3 => ![0, 0, -1]

end Verif.Shape
