import Mathlib.Analysis.Calculus.Deriv.Basic
import Mathlib.Analysis.SpecialFunctions.Trigonometric.Basic

/-!
# Specification vocabulary for exact solutions

Partial derivatives of functions of position and time, and the equations of motion in conservation form.
Nothing here mentions the code.
-/

namespace Verif.Pde

/-- A point of space-time: `x, y, z, t`. -/
abbrev Pt := Fin 4 → ℝ

/-- Partial derivative with respect to coordinate `i`. -/
noncomputable def pd (i : Fin 4) (f : Pt → ℝ) (p : Pt) : ℝ := deriv (fun s => f (Function.update p i s)) (p i)

/-- The spatial directions as coordinates. -/
def dir : Fin 3 → Fin 4 := ![0, 1, 2]

/-- Divergence of a vector field. -/
noncomputable def div (F : Fin 3 → Pt → ℝ) (p : Pt) : ℝ := ∑ i, pd (dir i) (F i) p

/-- Laplacian. -/
noncomputable def lap (f : Pt → ℝ) (p : Pt) : ℝ := div (fun i => pd (dir i) f) p

/-- Left-hand side of the steady continuity equation, `div (rho u)`. -/
noncomputable def continuity (rho : Pt → ℝ) (u : Fin 3 → Pt → ℝ) (p : Pt) : ℝ := div (fun i p => rho p * u i p) p

/-- Left-hand side of the steady scalar transport equation, `div (rho u f - D grad f)`. -/
noncomputable def transport (rho : Pt → ℝ) (u : Fin 3 → Pt → ℝ) (f : Pt → ℝ) (D : ℝ) (p : Pt) : ℝ :=
  div (fun i p => rho p * u i p * f p - D * pd (dir i) f p) p

/-- Viscous stress `mu (du_k/dx_i + du_i/dx_k) - c mu div u delta_ik`; `c = 2/3` for a Stokes fluid. -/
noncomputable def stress (mu c : ℝ) (u : Fin 3 → Pt → ℝ) (i k : Fin 3) (p : Pt) : ℝ :=
  mu * (pd (dir i) (u k) p + pd (dir k) (u i) p) - (if i = k then c * mu * div u p else 0)

/-- Left-hand side of the steady momentum equation for component `k`:
`div (rho u u_k) + dP/dx_k - div (stress) - (rho - rhoRef) g_k`. -/
noncomputable def momentum (rho : Pt → ℝ) (u : Fin 3 → Pt → ℝ) (P : Pt → ℝ) (mu c rhoRef : ℝ) (g : Fin 3 → ℝ) (k : Fin 3)
    (p : Pt) : ℝ :=
  div (fun i p => rho p * u i p * u k p - stress mu c u i k p) p + pd (dir k) P p - (rho p - rhoRef) * g k

/-- Constant-density Navier-Stokes residual (conservative variables divided out): `u_t + u . grad u + grad P / rho - nu lap u`. -/
noncomputable def navierStokes (rho nu : ℝ) (u : Fin 3 → Pt → ℝ) (P : Pt → ℝ) (k : Fin 3) (p : Pt) : ℝ :=
  pd 3 (u k) p + (∑ i, u i p * pd (dir i) (u k) p) + pd (dir k) P p / rho - nu * lap (u k) p

end Verif.Pde
