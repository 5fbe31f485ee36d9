import Mathlib.Data.Real.Basic
import Mathlib.Algebra.BigOperators.Fin
import Mathlib.LinearAlgebra.Matrix.Trace

/-!
# What the stabilization operators are measured against

An anisotropic diffusion flux, symmetric stress and quadratic forms; nothing here mentions the code.
-/

namespace Nalu.Nso.Spec

variable {nd : ℕ}

/-- The quadratic form `v · g v`. -/
noncomputable def form (g : Fin nd → Fin nd → ℝ) (v : Fin nd → ℝ) : ℝ := ∑ i, ∑ j, v i * g i j * v j

/-- Positive semidefinite. -/
def Psd (g : Fin nd → Fin nd → ℝ) : Prop := ∀ v, 0 ≤ form g v

/-- Symmetric. -/
def Symm (g : Fin nd → Fin nd → ℝ) : Prop := ∀ i j, g i j = g j i

/-- The flux `-ν (g w) · a` through a surface with area vector `a` for the driving gradient `w`. -/
noncomputable def flux (nu : ℝ) (g : Fin nd → Fin nd → ℝ) (w a : Fin nd → ℝ) : ℝ := -nu * ∑ i, a i * ∑ j, g i j * w j

/-- Component `i` of `-ν g∘(H + Hᵀ - 2/3 (m tr H) I) · a` with the entrywise product `∘`, `H i j = du_i/dx_j`, `m` being
how often the dilatation is counted (1 for the deviatoric stress, 0 when it is not included). -/
noncomputable def stressFlux (nu : ℝ) (g : Fin nd → Fin nd → ℝ) (H : Matrix (Fin nd) (Fin nd) ℝ) (m : ℝ) (a : Fin nd → ℝ)
    (i : Fin nd) : ℝ :=
  -nu * ∑ j, g i j * (H i j + H j i - 2 / 3 * (m * H.trace) * if i = j then 1 else 0) * a j

end Nalu.Nso.Spec
