import Verif.Model.Edge
import Mathlib.Analysis.SpecialFunctions.Pow.Real

/-!
# What the turbulence source kernels are measured against

Strain rate, production, volume integrals over sub-control volumes, vectors in space; nothing here mentions the code.
-/

namespace Nalu.TurbElem.Spec
open Nalu.Edge

variable {nn nip nd : ℕ}

/-- The strain rate of a velocity gradient `g i j = du_i/dx_j`. -/
noncomputable def strain (g : Fin nd → Fin nd → ℝ) (i j : Fin nd) : ℝ := (g i j + g j i) / 2

/-- Shear production `2 μ_t S:S`. -/
noncomputable def production (tvisc : ℝ) (g : Fin nd → Fin nd → ℝ) : ℝ := 2 * tvisc * ∑ i, ∑ j, strain g i j * strain g i j

/-- Production in a compressible flow, `τ:∇u` with `τ = 2 μ_t (S - (1/3) tr S I) - (2/3) ρ k I`, never negative. -/
noncomputable def productionDilatation (tvisc rho k : ℝ) (g : Fin nd → Fin nd → ℝ) : ℝ :=
  max 0 (∑ i, ∑ j, (2 * tvisc * (strain g i j - if i = j then (∑ l, g l l) / 3 else 0) - if i = j then 2 / 3 * rho * k else 0) * g i j)

/-- A kernel integrates `src` over the sub-control volumes into the rows of their nodes, and `coef` times the shape functions
into the matrix; it changes nothing else. -/
def Integrates (k : LocalSys (Fin nn) ℝ → LocalSys (Fin nn) ℝ) (node : Fin nip → Fin nn) (vol : Fin nip → ℝ)
    (N : Fin nip → Fin nn → ℝ) (src coef : Fin nip → ℝ) : Prop :=
  ∀ s a, (k s).rhs a = s.rhs a + ∑ ip ∈ Finset.univ.filter (fun ip => node ip = a), src ip * vol ip ∧
    ∀ b, (k s).lhs a b = s.lhs a b + ∑ ip ∈ Finset.univ.filter (fun ip => node ip = a), N ip b * coef ip * vol ip

/-- The part of node `a`'s control volume that lies in the element. -/
def nodeVol (node : Fin nip → Fin nn) (vol : Fin nip → ℝ) (a : Fin nn) : ℝ :=
  ∑ ip ∈ Finset.univ.filter (fun ip => node ip = a), vol ip

/-- A system whose matrix is diagonal and whose destruction is treated implicitly enough: solving it cannot make `q`
negative. -/
def KeepsSign {M : Type*} (s : Sys M ℝ) (q : M → ℝ) : Prop :=
  ∀ a, 0 ≤ s.mat a a ∧ (∀ b, b ≠ a → s.mat a b = 0) ∧ -(s.mat a a * q a) ≤ s.rhs a

/-- Dot product and length. -/
def dot (a b : Fin 3 → ℝ) : ℝ := ∑ i, a i * b i
noncomputable def len (a : Fin 3 → ℝ) : ℝ := Real.sqrt (dot a a)

end Nalu.TurbElem.Spec
