import Verif.Model.GasDynamics
import Verif.Model.MeshMotion
import Mathlib.Tactic.Ring
import Mathlib.Tactic.FieldSimp
import Mathlib.Tactic.Linarith
import Mathlib.Tactic.NormNum
import Mathlib.Tactic.FinCases
import Mathlib.Tactic.Positivity
import Mathlib.Algebra.BigOperators.Ring.Finset
import Mathlib.Algebra.BigOperators.Field

/-!
# Theorems added because a seeded wrong program survived (batch 7)
-/

namespace Nalu.Gas

/-- Specification: the Newtonian stress of a velocity gradient `G` (Stokes' hypothesis). -/
noncomputable def newtonStress {n : ℕ} (mu : ℝ) (G : Fin n → Fin n → ℝ) (i j : Fin n) : ℝ :=
  mu * (G i j + G j i) - if i = j then 2 / 3 * mu * ∑ k, G k k else 0

/-- Specification: the value at `x` of the field `f0 + w * (a . x)`, which varies along the face normal. -/
def alongNormal {n : ℕ} (a : Fin n → ℝ) (f0 w : ℝ) (x : Fin n → ℝ) : ℝ := f0 + w * ∑ j, a j * x j

private lemma axdx_eq {n : ℕ} (a : Fin n → ℝ) (L R : NodeData n) :
    axdx a L R = ∑ j, a j * R.x j - ∑ j, a j * L.x j := by
  unfold axdx
  rw [← Finset.sum_sub_distrib]
  exact Finset.sum_congr rfl fun j _ => by ring

private lemma duidxj_exact {n : ℕ} (a : Fin n → ℝ) (L R : NodeData n) (u0 w : Fin n → ℝ) (hx : axdx a L R ≠ 0)
    (hL : ∀ i, L.vel i = alongNormal a (u0 i) (w i) L.x) (hR : ∀ i, R.vel i = alongNormal a (u0 i) (w i) R.x)
    (i j : Fin n) : duidxj a L R i j = w i * a j := by
  unfold duidxj
  rw [hL, hR]
  unfold alongNormal
  have := axdx_eq a L R
  field_simp
  rw [this]; ring

/-- C63. On a velocity field that varies along the face normal, the viscous part of the edge flux is exactly minus
the Newtonian traction with the mean viscosity. -/
theorem c63_viscous_flux_exact {n : ℕ} (a : Fin n → ℝ) (L R : NodeData n) (u0 w : Fin n → ℝ)
    (hx : axdx a L R ≠ 0) (hL : ∀ i, L.vel i = alongNormal a (u0 i) (w i) L.x)
    (hR : ∀ i, R.vel i = alongNormal a (u0 i) (w i) R.x) (i : Fin n) :
    viscousFlux a L R i
      = -∑ j, newtonStress ((L.visc + R.visc) / 2) (fun k l => w k * a l) i j * a j := by
  have hd := duidxj_exact a L R u0 w hx hL hR
  unfold viscousFlux newtonStress divU
  simp only [hd, sub_mul, Finset.sum_sub_distrib, ite_mul, zero_mul, Finset.sum_ite_eq, Finset.mem_univ, if_true]
  have : ∑ j, -(1 / 2 * (L.visc + R.visc)) * (w i * a j + w j * a i) * a j
      = -∑ j, (L.visc + R.visc) / 2 * (w i * a j + w j * a i) * a j := by
    rw [← Finset.sum_neg_distrib]
    exact Finset.sum_congr rfl fun j _ => by ring
  rw [this]
  ring

/-- C63. For velocity and temperature fields that vary along the face normal, the diffusive energy flux is heat
conduction down the temperature gradient plus the work of the Newtonian traction on the mean velocity. -/
theorem c63_energy_diffusion_exact {n : ℕ} (a : Fin n → ℝ) (L R : NodeData n) (u0 w : Fin n → ℝ) (T0 s : ℝ)
    (hx : axdx a L R ≠ 0) (hL : ∀ i, L.vel i = alongNormal a (u0 i) (w i) L.x)
    (hR : ∀ i, R.vel i = alongNormal a (u0 i) (w i) R.x)
    (hTL : L.T = alongNormal a T0 s L.x) (hTR : R.T = alongNormal a T0 s R.x) :
    energyDiffFlux a L R
      = -((L.cond + R.cond) / 2) * ∑ j, (s * a j) * a j
        - ∑ i, (L.vel i + R.vel i) / 2 *
            ∑ j, newtonStress ((L.visc + R.visc) / 2) (fun k l => w k * a l) i j * a j := by
  have hd := duidxj_exact a L R u0 w hx hL hR
  unfold energyDiffFlux
  have h1 : -(1 / 2 * (L.cond + R.cond)) * asq a * (1 / axdx a L R) * (R.T - L.T)
      = -((L.cond + R.cond) / 2) * ∑ j, (s * a j) * a j := by
    have e : ∑ j, (s * a j) * a j = s * asq a := by
      unfold asq; rw [Finset.mul_sum]; exact Finset.sum_congr rfl fun j _ => by ring
    have := axdx_eq a L R
    rw [e, hTL, hTR]
    unfold alongNormal
    field_simp
    rw [this]; ring
  rw [h1, sub_eq_add_neg, ← Finset.sum_neg_distrib]
  congr 1
  refine Finset.sum_congr rfl fun i _ => ?_
  rw [Finset.mul_sum, ← Finset.sum_neg_distrib]
  refine Finset.sum_congr rfl fun j _ => ?_
  unfold tauIp newtonStress divU
  simp only [hd]
  split_ifs <;> ring

/-- C63. Heat flows from the hotter to the colder node of fluid at rest. -/
theorem c63_heat_flows_down {n : ℕ} (a : Fin n → ℝ) (L R : NodeData n) (hx : 0 < axdx a L R) (ha : a ≠ 0)
    (hk : 0 < L.cond + R.cond) (hL : L.vel = 0) (hR : R.vel = 0) :
    0 < energyDiffFlux a L R ↔ R.T < L.T := by
  have hz : energyDiffFlux a L R = (1 / 2 * (L.cond + R.cond)) * asq a * (1 / axdx a L R) * (L.T - R.T) := by
    unfold energyDiffFlux
    rw [hL, hR]
    simp only [Pi.zero_apply, add_zero, mul_zero, neg_zero, zero_mul, Finset.sum_const_zero]
    ring
  have hq : 0 < asq a := by
    unfold asq
    obtain ⟨k, hk⟩ := Function.ne_iff.1 ha
    exact Finset.sum_pos' (fun j _ => mul_self_nonneg _) ⟨k, Finset.mem_univ k, mul_self_pos.2 hk⟩
  have hc : 0 < (1 / 2 * (L.cond + R.cond)) * asq a * (1 / axdx a L R) := by positivity
  rw [hz, mul_pos_iff_of_pos_left hc, sub_pos]

/-- C62. The update of a node with a Dirichlet condition returns the value the boundary condition stored in the
new state, whatever the residual and whatever the old state. -/
theorem c62_dirichlet_value_kept {N : Type*} {n : ℕ} (dirichlet : N → Bool) (dt : ℝ) (vol : N → ℝ)
    (qN qNp1 rhs : N → Dof n → ℝ) (i : N) (h : dirichlet i = true) :
    update dirichlet dt vol qN qNp1 rhs i = qNp1 i := by
  funext d; simp [update, h]

/-- The hypotheses of the flux theorems are met by a shear across an oblique edge: the velocity varies along the
face normal `(1,2)` from node `(0,0)` to node `(1,1)`. -/
example :
    let a : Fin 2 → ℝ := ![1, 2]
    let L : NodeData 2 := ⟨![0, 0], 1, ![1, 0], ![1, 0], ![1, 0], 2, 1, 300, 1, 1, 1⟩
    let R : NodeData 2 := ⟨![1, 1], 1, ![7, -3], ![7, -3], ![7, -3], 2, 1, 312, 1, 3, 1⟩
    axdx a L R = 3 ∧ (∀ i, L.vel i = alongNormal a (![1, 0] i) (![2, -1] i) L.x) ∧
      (∀ i, R.vel i = alongNormal a (![1, 0] i) (![2, -1] i) R.x) ∧
      L.T = alongNormal a 300 4 L.x ∧ R.T = alongNormal a 300 4 R.x := by
  refine ⟨by simp [axdx, Fin.sum_univ_two]; norm_num, fun i => ?_, fun i => ?_, ?_, ?_⟩
  · fin_cases i <;> simp [alongNormal, Fin.sum_univ_two]
  · fin_cases i <;> simp [alongNormal, Fin.sum_univ_two] <;> norm_num
  · simp [alongNormal, Fin.sum_univ_two]
  · simp [alongNormal, Fin.sum_univ_two]; norm_num

end Nalu.Gas

namespace Verif.Motion

/-- C46 (translation). A body whose acceleration already is force over mass is integrated exactly: after `n`
steps its velocity is `v0 + n dt F/m`; a body without mass keeps its velocity. -/
theorem c46_velocity_constant_force {K : Type*} [Field K] [LinearOrder K] [IsStrictOrderedRing K] {b : Body K}
    (hm : 0 < b.mass) (ha : ∀ i, b.accel i = (b.force i + b.applied i) / b.mass) (dt : K) (n : ℕ) (i : Fin 3) :
    (Nat.iterate (fun b => updateTranslation b dt) n b).vel i
      = b.vel i + n * dt * ((b.force i + b.applied i) / b.mass) := by
  have inv : ∀ n, (Nat.iterate (fun b => updateTranslation b dt) n b).mass = b.mass ∧
      (Nat.iterate (fun b => updateTranslation b dt) n b).force = b.force ∧
      (Nat.iterate (fun b => updateTranslation b dt) n b).applied = b.applied ∧
      (∀ i, (Nat.iterate (fun b => updateTranslation b dt) n b).accel i = (b.force i + b.applied i) / b.mass) ∧
      (Nat.iterate (fun b => updateTranslation b dt) n b).vel i
        = b.vel i + n * dt * ((b.force i + b.applied i) / b.mass) := by
    intro n
    induction n with
    | zero => exact ⟨rfl, rfl, rfl, ha, by simp⟩
    | succ n ih =>
      obtain ⟨h1, h2, h3, h4, h5⟩ := ih
      rw [Function.iterate_succ_apply']
      generalize Nat.iterate (fun b => updateTranslation b dt) n b = c at *
      have hc : 0 < c.mass := by rw [h1]; exact hm
      unfold updateTranslation
      rw [if_pos hc]
      refine ⟨h1, h2, h3, fun i => ?_, ?_⟩
      · dsimp only
        rw [h1, h2, h3, h4]
        have hm' := hm.ne'
        field_simp
        ring
      · dsimp only
        rw [h1, h2, h3, h4, h5]
        have hm' := hm.ne'
        push_cast
        field_simp
        ring
  exact (inv n).2.2.2.2

end Verif.Motion
