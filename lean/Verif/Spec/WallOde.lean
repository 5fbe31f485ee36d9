import Verif.Model.WallOde

/-!
# Specifications for the one-dimensional wall model
-/

namespace Nalu.WallOde

/-- `u` solves the tridiagonal system of `m` rows. -/
def SolvesTri (m : ℕ) (ns : ℕ → Row) (u : ℕ → ℝ) : Prop :=
  ∀ k < m, (if k = 0 then 0 else (ns k).Aw * u (k - 1)) + (ns k).Ap * u k + (if k + 1 = m then 0 else (ns k).Ae * u (k + 1)) = (ns k).rhs

/-- Row-wise diagonal dominance: weak everywhere, strict in the first row and in every row that does not couple to its predecessor. -/
def Dominant (m : ℕ) (ns : ℕ → Row) : Prop :=
  (∀ k < m, |(ns k).Aw| + |(ns k).Ae| ≤ |(ns k).Ap|) ∧ |(ns 0).Ae| < |(ns 0).Ap| ∧
    ∀ k < m, (ns k).Aw = 0 → |(ns k).Ae| < |(ns k).Ap|

/-- The stress carried through the segment between points `k` and `k+1`: mean viscosity times the difference quotient of the velocity. -/
noncomputable def stress (x mu u : ℕ → ℝ) (k : ℕ) : ℝ := (mu k + mu (k + 1)) / 2 * ((u (k + 1) - u k) / (x (k + 1) - x k))

/-- The velocity difference per unit stress over the first `n` segments. -/
noncomputable def resistance (x mu : ℕ → ℝ) (n : ℕ) : ℝ := ∑ k ∈ Finset.range n, (x (k + 1) - x k) / ((mu k + mu (k + 1)) / 2)

/-- The wall shear stress read off the profile that the viscosity at stress `tau` produces, in closed form: laminar viscosity times the velocity
gradient in the first segment. -/
noncomputable def wallStress (o : OdeOpts) (x : ℕ → ℝ) (U rho mu tau : ℝ) : ℝ :=
  let v := viscAt o.aplus tau rho mu o.kappa x
  mu * (U / resistance x v (o.numPoints - 1) / ((v 0 + v 1) / 2))

/-- States of a point after any number of calls of `solve`. -/
inductive Reach (o : OdeOpts) {nd : ℕ} (ip pt : Fin nd → ℝ) : Pt → Prop
  | new : Reach o ip pt (Pt.new o ip pt)
  | solve {p : Pt} (uEx uW rho mu tauP : ℝ) : Reach o ip pt p → Reach o ip pt (solve o uEx uW rho mu tauP p).1

end Nalu.WallOde
