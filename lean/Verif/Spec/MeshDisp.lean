import Mathlib.LinearAlgebra.Matrix.Adjugate
import Mathlib.LinearAlgebra.Matrix.Trace

/-!
# Continuum mechanics the mesh displacement kernels are measured against

Textbook stresses in terms of the displacement gradient; nothing here mentions the code.
-/

namespace Nalu.MeshDisp.Spec
open Matrix

variable {K : Type*} [Field K] {nd : ℕ}

/-- The displacement gradient at an integration point: `H i j = du_i/dx_j`. -/
def dispGrad {nn : ℕ} (g : Fin nn → Fin nd → K) (u : Fin nn → Fin nd → K) : Matrix (Fin nd) (Fin nd) K :=
  Matrix.of fun i j => ∑ ic, g ic j * u ic i

/-- Stress of a linear elastic body: `μ (H + Hᵀ) + λ tr(H) I`. -/
def elasticStress (mu lambda : K) (H : Matrix (Fin nd) (Fin nd) K) : Matrix (Fin nd) (Fin nd) K :=
  mu • (H + Hᵀ) + (lambda * H.trace) • 1

/-- First Piola-Kirchhoff stress of the stable neo-Hookean solid (Smith, de Goes, Kim 2018): the gradient of
`μ/2 (I_C - 3) + λ/2 (J - α)² - μ/2 log (I_C + 1)` with `α = 1 + 3/4 μ/λ`. -/
def neoPiola (mu lambda : K) (F : Matrix (Fin nd) (Fin nd) K) : Matrix (Fin nd) (Fin nd) K :=
  (mu * (1 - 1 / ((Fᵀ * F).trace + 1))) • F + (lambda * (F.det - (1 + 3 / 4 * (mu / lambda)))) • (F.adjugate)ᵀ

/-- Its Cauchy stress `P Fᵀ / J`. -/
def neoCauchy (mu lambda : K) (F : Matrix (Fin nd) (Fin nd) K) : Matrix (Fin nd) (Fin nd) K :=
  (1 / F.det) • (neoPiola mu lambda F * Fᵀ)

/-- Traction on a surface with area vector `a`. -/
def traction (σ : Matrix (Fin nd) (Fin nd) K) (a : Fin nd → K) (i : Fin nd) : K := ∑ j, σ i j * a j

end Nalu.MeshDisp.Spec
