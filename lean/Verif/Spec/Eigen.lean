import Mathlib.LinearAlgebra.Matrix.Determinant.Basic
import Mathlib.LinearAlgebra.Matrix.IsDiag
import Mathlib.Data.Real.Basic

/-!
Specification vocabulary for symmetric eigen-decompositions and Reynolds stresses.
Nothing here refers to the code.
-/

namespace Nalu.Eigen.Spec

open Matrix

variable {n : Type} [Fintype n] [DecidableEq n]

/-- `Q` is a rotation: orthogonal with determinant one. -/
def Rotation (Q : Matrix n n ℝ) : Prop := Qᵀ * Q = 1 ∧ Q * Qᵀ = 1 ∧ Q.det = 1

/-- `Q` and `D` are an orthogonal similarity of `A`: `A = Q D Qᵀ`, `Q` orthogonal. -/
def Similar (A Q D : Matrix n n ℝ) : Prop := Qᵀ * Q = 1 ∧ Q * Qᵀ = 1 ∧ A = Q * D * Qᵀ

/-- Column `i` of `Q` is a unit eigenvector of `A` with eigenvalue `D i i`. -/
def EigenPair (A Q D : Matrix n n ℝ) (i : n) : Prop :=
  (∀ r, ∑ k, A r k * Q k i = D i i * Q r i) ∧ ∑ k, Q k i * Q k i = 1

/-- A symmetric, positive semi-definite matrix (a realizable stress). -/
def Realizable (R : Matrix n n ℝ) : Prop :=
  (∀ i j, R i j = R j i) ∧ ∀ v : n → ℝ, 0 ≤ ∑ i, ∑ j, v i * R i j * v j

/-- Sum of the squares of all entries. -/
def frob (A : Matrix n n ℝ) : ℝ := ∑ i, ∑ j, A i j * A i j

end Nalu.Eigen.Spec
