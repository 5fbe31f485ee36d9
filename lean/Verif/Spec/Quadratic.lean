import Mathlib.MeasureTheory.Integral.IntervalIntegral.Basic
import Mathlib.Analysis.Calculus.Deriv.Basic
import Mathlib.Analysis.SpecialFunctions.Sqrt
import Mathlib.LinearAlgebra.Matrix.Determinant.Basic

/-!
# What is expected of a quadratic element

The reference element is `[-1,1]^d`.  Every node sits at a point with coordinates -1, 0 or 1; the basis function of a node is the product of the
one-dimensional quadratics that are one at its coordinate and zero at the two others.  The dual mesh cuts every direction at `-1/√3` and `1/√3`.
-/

open Finset

namespace Nalu.P2.Spec

/-- The quadratic that is one at `a` and zero at the two others of -1, 0, 1. -/
noncomputable def ell (a : ℤ) (s : ℝ) : ℝ := if a = -1 then s * (s - 1) / 2 else if a = 0 then 1 - s ^ 2 else s * (s + 1) / 2

/-- Where the three nodes of an edge are: the ends, then the middle. -/
def ref1 (n : ℕ) : ℤ := [-1, 1, 0].getD n 0

/-- Where the nine nodes of a quadrilateral are: corners counterclockwise, mid-sides, centre. -/
def ref2 (n : ℕ) : ℤ × ℤ := [(-1, -1), (1, -1), (1, 1), (-1, 1), (0, -1), (1, 0), (0, 1), (-1, 0), (0, 0)].getD n (0, 0)

/-- Where the 27 nodes of a hexahedron are: corners (bottom, then top), edges (bottom, vertical, top), centre, faces (bottom, top, left, right, front,
back). -/
def ref3 (n : ℕ) : ℤ × ℤ × ℤ :=
  [(-1, -1, -1), (1, -1, -1), (1, 1, -1), (-1, 1, -1), (-1, -1, 1), (1, -1, 1), (1, 1, 1), (-1, 1, 1),
   (0, -1, -1), (1, 0, -1), (0, 1, -1), (-1, 0, -1), (-1, -1, 0), (1, -1, 0), (1, 1, 0), (-1, 1, 0),
   (0, -1, 1), (1, 0, 1), (0, 1, 1), (-1, 0, 1), (0, 0, 0), (0, 0, -1), (0, 0, 1), (-1, 0, 0), (1, 0, 0), (0, -1, 0), (0, 1, 0)].getD n (0, 0, 0)

/-- Component `c` of the map from the reference square to the element with nodes `x`. -/
noncomputable def map2 {e : ℕ} (x : ℕ → Fin e → ℝ) (c : Fin e) (s t : ℝ) : ℝ :=
  ∑ n ∈ range 9, ell (ref2 n).1 s * ell (ref2 n).2 t * x n c

/-- Component `c` of the map from the reference cube. -/
noncomputable def map3 (x : ℕ → Fin 3 → ℝ) (c : Fin 3) (s t u : ℝ) : ℝ :=
  ∑ n ∈ range 27, ell (ref3 n).1 s * ell (ref3 n).2.1 t * ell (ref3 n).2.2 u * x n c

/-- The Jacobian of the map of the square. -/
noncomputable def jac2 (x : ℕ → Fin 2 → ℝ) (s t : ℝ) : ℝ :=
  deriv (fun s => map2 x 0 s t) s * deriv (fun t => map2 x 1 s t) t - deriv (fun t => map2 x 0 s t) t * deriv (fun s => map2 x 1 s t) s

/-- The derivative of component `c` of the map of the cube in direction `r`. -/
noncomputable def dmap3 (x : ℕ → Fin 3 → ℝ) (r c : Fin 3) (s t u : ℝ) : ℝ :=
  ![deriv (fun s => map3 x c s t u) s, deriv (fun t => map3 x c s t u) t, deriv (fun u => map3 x c s t u) u] r

/-- The Jacobian of the map of the cube. -/
noncomputable def jac3 (x : ℕ → Fin 3 → ℝ) (s t u : ℝ) : ℝ := Matrix.det (Matrix.of fun r c : Fin 3 => dmap3 x r c s t u)

/-- The part of `[-1,1]` that belongs to a node with coordinate `a`. -/
noncomputable def lo (a : ℤ) : ℝ := if a = -1 then -1 else if a = 0 then -(1 / Real.sqrt 3) else 1 / Real.sqrt 3
/-- see `lo` -/
noncomputable def hi (a : ℤ) : ℝ := if a = -1 then -(1 / Real.sqrt 3) else if a = 0 then 1 / Real.sqrt 3 else 1

/-- A polynomial of degree at most two in each variable. -/
noncomputable def biquad (c : ℕ → ℕ → ℝ) (s t : ℝ) : ℝ := ∑ i ∈ range 3, ∑ j ∈ range 3, c i j * s ^ i * t ^ j
/-- see `biquad` -/
noncomputable def triquad (c : ℕ → ℕ → ℕ → ℝ) (s t u : ℝ) : ℝ :=
  ∑ i ∈ range 3, ∑ j ∈ range 3, ∑ k ∈ range 3, c i j k * s ^ i * t ^ j * u ^ k

/-- A polynomial of degree at most one in each variable. -/
noncomputable def trilin (c : ℕ → ℕ → ℕ → ℝ) (s t u : ℝ) : ℝ := ∑ i ∈ range 2, ∑ j ∈ range 2, ∑ k ∈ range 2, c i j k * s ^ i * t ^ j * u ^ k

/-- A polynomial of degree at most three. -/
noncomputable def cubic (c : ℕ → ℝ) (s : ℝ) : ℝ := ∑ i ∈ range 4, c i * s ^ i

end Nalu.P2.Spec
