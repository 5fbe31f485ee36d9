import Mathlib.Analysis.SpecialFunctions.Trigonometric.Basic
import Mathlib.LinearAlgebra.Matrix.Notation

/-!
# Specification vocabulary for rigid motion

Textbook notions: dot product, cross product, Rodrigues' rotation formula, elementary rotation
matrices, the classical Runge-Kutta step.  Nothing here mentions the code.
-/

namespace Verif.Motion
variable {K : Type*} [Field K]

/-- Dot product. -/
def dot {n : ℕ} (u v : Fin n → K) : K := ∑ i, u i * v i

/-- Squared Euclidean distance. -/
def dist2 {n : ℕ} (u v : Fin n → K) : K := ∑ i, (u i - v i) ^ 2

/-- Cross product. -/
def vcross (u v : Fin 3 → K) : Fin 3 → K :=
  ![u 1 * v 2 - u 2 * v 1, u 2 * v 0 - u 0 * v 2, u 0 * v 1 - u 1 * v 0]

/-- Rodrigues' formula: rotation of `r` by the angle `θ` about the unit axis `a`. -/
noncomputable def rodrigues (a : Fin 3 → ℝ) (θ : ℝ) (r : Fin 3 → ℝ) : Fin 3 → ℝ := fun i =>
  Real.cos θ * r i + Real.sin θ * vcross a r i + (1 - Real.cos θ) * dot a r * a i

/-- Rotation about the first axis. -/
noncomputable def rotX (t : ℝ) : Matrix (Fin 3) (Fin 3) ℝ :=
  !![1, 0, 0; 0, Real.cos t, -Real.sin t; 0, Real.sin t, Real.cos t]
/-- Rotation about the second axis. -/
noncomputable def rotY (t : ℝ) : Matrix (Fin 3) (Fin 3) ℝ :=
  !![Real.cos t, 0, Real.sin t; 0, 1, 0; -Real.sin t, 0, Real.cos t]
/-- Rotation about the third axis. -/
noncomputable def rotZ (t : ℝ) : Matrix (Fin 3) (Fin 3) ℝ :=
  !![Real.cos t, -Real.sin t, 0; Real.sin t, Real.cos t, 0; 0, 0, 1]

/-- One step of the classical fourth-order Runge-Kutta method for `y' = f y`. -/
def rk4 {n : ℕ} (f : (Fin n → K) → Fin n → K) (y : Fin n → K) (h : K) : Fin n → K :=
  let k1 := f y
  let k2 := f (fun i => y i + h / 2 * k1 i)
  let k3 := f (fun i => y i + h / 2 * k2 i)
  let k4 := f (fun i => y i + h * k3 i)
  fun i => y i + h / 6 * (k1 i + 2 * k2 i + 2 * k3 i + k4 i)

end Verif.Motion
