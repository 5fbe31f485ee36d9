import Verif.Spec.MeshMotion
import Mathlib.Analysis.SpecialFunctions.Pow.Real

/-!
# What is claimed about actuator lines

Textbook drag of a sphere and the superposition of point loads; nothing here mentions the code.
-/

namespace Nalu.Actuator.Spec

/-- Schiller and Naumann's drag coefficient of a sphere, constant above Reynolds number 1000. -/
noncomputable def dragCoefficient (re : ℝ) : ℝ :=
  if re < 1000 then 24 / re * (1 + re ^ (2 / 3 : ℝ) / 6) else 0.424

/-- Euclidean length. -/
noncomputable def len {n : ℕ} (v : Fin n → ℝ) : ℝ := √(∑ j, v j ^ 2)

/-- Drag of a sphere of radius `r` moving with velocity `w` relative to the gas: half the dynamic pressure
coefficient times the frontal area, along `w`. -/
noncomputable def sphereDrag {n : ℕ} (r mu rho : ℝ) (w : Fin n → ℝ) (j : Fin n) : ℝ :=
  1 / 2 * rho * dragCoefficient (2 * rho * r * len w / mu) * (Real.pi * r ^ 2) * len w * w j

/-- Superposition of point loads: at node `a` the sum of the loads of the points that reach `a`. -/
noncomputable def superposition {P N : Type*} {n : ℕ} (reach : P → List N) [DecidableEq N]
    (load : P → N → Fin n → ℝ) (ps : List P) (a : N) (j : Fin n) : ℝ :=
  (ps.map fun p => if a ∈ reach p then load p a j else 0).sum

end Nalu.Actuator.Spec
