import Verif.Model.Boundary
import Verif.Props.ElemKernel
import Mathlib.Tactic.LinearCombination
import Mathlib.Tactic.FinCases
import Mathlib.Algebra.BigOperators.Field
import Mathlib.Algebra.Order.Ring.Rat

/-!
# C128, C129, C130: momentum at open and symmetry faces
-/

set_option linter.unusedSectionVars false
set_option linter.unusedSimpArgs false

namespace Nalu.Bc
open Nalu.Edge Nalu.Kernel Finset

variable {K : Type*} [Field K] [LinearOrder K] [IsStrictOrderedRing K] {nn nip nf nd : ℕ}

/-- `amag` is the length of the area vector and the face is not degenerate. -/
def UnitFace (p : BcIp nn nd K) : Prop := p.amag * p.amag = ∑ j, p.area j * p.area j ∧ p.amag ≠ 0

theorem unit_normal {p : BcIp nn nd K} (h : UnitFace p) : ∑ j, bcNormal p j * bcNormal p j = 1 := by
  have : ∀ j, bcNormal p j * bcNormal p j = (p.area j * p.area j) / (p.amag * p.amag) := fun j => by
    rw [bcNormal, div_mul_div_comm]
  simp only [this, ← sum_div]
  rw [← h.1]
  exact div_self (mul_ne_zero h.2 h.2)

theorem area_eq {p : BcIp nn nd K} (h : UnitFace p) (j : Fin nd) : p.area j = p.amag * bcNormal p j := by
  rw [bcNormal, mul_div_cancel₀ _ h.2]

/-! ## Closed forms -/

theorem openStress_rhs (o : BcOpts K) (n : BcNodes nn nd K) (p : BcIp nn nd K) (s : LocalSys (Fin nn × Fin nd) K) (a : Fin nn)
    (k : Fin nd) : (openStress o n p s).rhs (a, k) =
      s.rhs (a, k) + if a = p.near then -(bcForce o n p k - bcNormal p k * bcForceN o n p) else 0 := by
  rw [openStress, loop_rhs (a := (a, k)) (δ := fun i => if k = i then
    (if a = p.near then -(bcForce o n p i - bcNormal p i * bcForceN o n p) else 0) else 0)]
  · simp
  · intro i s
    rw [loop_rhs (a := (a, k)) (δ := fun _ => 0)]
    · simp only [addL_rhs, addR_rhs, Prod.mk.injEq, sum_const_zero, add_zero]
      by_cases h1 : k = i <;> by_cases h2 : a = p.near <;> simp [h1, h2]
    · intro j s
      split_ifs <;> simp

/-- What the stress part of an open face adds to row `(near, k)` of the matrix, applied to `d`. -/
def openRow (n : BcNodes nn nd K) (p : BcIp nn nd K) (e : Fin nd → K) (i : Fin nd) : K :=
  let mu := n.visc p.near
  let inv := 1 / bcAxdx n p
  let nx := bcNormal p
  let om := 1 - nx i * nx i
  ∑ j, (-mu * p.area i * p.area j * inv * om * e j + if i = j then 0 else
    mu * bcAsq p * inv * (nx i * nx j) * e j + mu * p.area j * p.area j * inv * (nx i * nx j) * e j +
      mu * p.area j * p.area i * inv * (nx i * nx j) * e i) + -mu * bcAsq p * inv * om * e i

theorem openStress_act (o : BcOpts K) (n : BcNodes nn nd K) (p : BcIp nn nd K) (s : LocalSys (Fin nn × Fin nd) K)
    (d : Fin nn × Fin nd → K) (a : Fin nn) (k : Fin nd) : act (openStress o n p s) d (a, k) =
      act s d (a, k) + if a = p.near then openRow n p (fun j => d (p.near, j) - d (p.opp, j)) k else 0 := by
  rw [openStress, loop_act (a := (a, k)) (δ := fun i => if k = i then
    (if a = p.near then openRow n p (fun j => d (p.near, j) - d (p.opp, j)) i else 0) else 0)]
  · simp
  · intro i s
    rw [loop_act (a := (a, k)) (δ := fun j => if k = i then (if a = p.near then
      (-n.visc p.near * p.area i * p.area j * (1 / bcAxdx n p) * (1 - bcNormal p i * bcNormal p i) * (d (p.near, j) - d (p.opp, j)) +
        if i = j then 0 else
        n.visc p.near * bcAsq p * (1 / bcAxdx n p) * (bcNormal p i * bcNormal p j) * (d (p.near, j) - d (p.opp, j)) +
        n.visc p.near * p.area j * p.area j * (1 / bcAxdx n p) * (bcNormal p i * bcNormal p j) * (d (p.near, j) - d (p.opp, j)) +
        n.visc p.near * p.area j * p.area i * (1 / bcAxdx n p) * (bcNormal p i * bcNormal p j) * (d (p.near, i) - d (p.opp, i)))
        else 0) else 0)]
    · by_cases h1 : k = i <;> by_cases h2 : a = p.near <;> simp [h1, h2, openRow]
      ring
    · intro j s
      by_cases hij : i = j
      · subst hij
        by_cases h1 : k = i <;> by_cases h2 : a = p.near <;> simp [h1, h2]
        ring
      · by_cases h1 : k = i <;> by_cases h2 : a = p.near <;> simp [h1, h2, hij]
        ring

theorem openAdvection_rhs (o : BcOpts K) (n : BcNodes nn nd K) (p : BcIp nn nd K) (s : LocalSys (Fin nn × Fin nd) K) (a : Fin nn)
    (k : Fin nd) : (openAdvection o n p s).rhs (a, k) = s.rhs (a, k) + if a = p.near then
      (if p.mdot > 0 then -(p.mdot * n.u p.near k) else
        -(p.mdot * uEntrain o n p * bcNormal p k) + -(p.mdot * (n.ubc p.near k - uSpecN n p * bcNormal p k))) else 0 := by
  unfold openAdvection
  by_cases hm : p.mdot > 0
  · rw [if_pos hm, if_pos hm, loop_rhs (a := (a, k)) (δ := fun i => if k = i then (if a = p.near then -(p.mdot * n.u p.near i) else 0)
      else 0)]
    · simp
    · intro i s
      by_cases h1 : k = i <;> by_cases h2 : a = p.near <;> simp [h1, h2]
  · rw [if_neg hm, if_neg hm, loop_rhs (a := (a, k)) (δ := fun i => if k = i then (if a = p.near then
      -(p.mdot * uEntrain o n p * bcNormal p i) + -(p.mdot * (n.ubc p.near i - uSpecN n p * bcNormal p i)) else 0) else 0)]
    · simp
    · intro i s
      by_cases h1 : k = i <;> by_cases h2 : a = p.near <;> simp [h1, h2]
      ring

theorem openAdvection_act (o : BcOpts K) (n : BcNodes nn nd K) (p : BcIp nn nd K) (s : LocalSys (Fin nn × Fin nd) K)
    (d : Fin nn × Fin nd → K) (a : Fin nn) (k : Fin nd) : act (openAdvection o n p s) d (a, k) = act s d (a, k) + if a = p.near then
      (if p.mdot > 0 then p.mdot * d (p.near, k) else 0) else 0 := by
  unfold openAdvection
  by_cases hm : p.mdot > 0
  · rw [if_pos hm, if_pos hm, loop_act (a := (a, k)) (δ := fun i => if k = i then (if a = p.near then p.mdot * d (p.near, i) else 0)
      else 0)]
    · simp
    · intro i s
      by_cases h1 : k = i <;> by_cases h2 : a = p.near <;> simp [h1, h2]
  · rw [if_neg hm, if_neg hm, loop_act (a := (a, k)) (δ := fun _ => 0)]
    · simp
    · intro i s
      simp

/-! ## C128 -/

/-- Specification: the viscous force on a face with area vector `A` for the velocity gradient `W` (`W i j = du_i/dx_j`):
`2/3 mu div(u) A - mu (W + W^T) A`, the first term only with the option `include_divu`. -/
def viscousForce (mu inc : K) (W : Fin nd → Fin nd → K) (A : Fin nd → K) (i : Fin nd) : K :=
  inc * (2 / 3 * mu * (∑ l, W l l) * A i) - mu * ∑ j, (W i j + W j i) * A j

theorem bcForce_eq (o : BcOpts K) (n : BcNodes nn nd K) (p : BcIp nn nd K) (i : Fin nd) :
    bcForce o n p i = viscousForce (n.visc p.near) o.incDivU (bcGrad o n p) p.area i := by
  simp only [bcForce, viscousForce, mul_sum, sum_sub_distrib]
  rw [sub_eq_add_neg, ← sum_neg_distrib]
  congr 1
  · ring
  · exact sum_congr rfl fun _ _ => by ring

/-- **C128** For a velocity that varies linearly, with exact nodal gradient and the non-orthogonal correction on, the gradient used at a
boundary face is the exact one, on any (non-degenerate) mesh. -/
theorem c128_gradient_exact (o : BcOpts K) (n : BcNodes nn nd K) (p : BcIp nn nd K) (c : Fin nd → K) (W : Fin nd → Fin nd → K)
    (hnoc : o.nocFac = 1) (hW : n.dudx p.near = W)
    (hR : ∀ i, n.u p.near i = affine (c i) (W i) (n.x p.near)) (hL : ∀ i, n.u p.opp i = affine (c i) (W i) (n.x p.opp)) :
    bcGrad o n p = W := by
  funext i j
  simp only [bcGrad, hnoc, hW, hR, hL, affine, mul_one]
  have : (c i + ∑ k, W i k * n.x p.near k - (c i + ∑ k, W i k * n.x p.opp k) - ∑ l, W i l * (n.x p.near l - n.x p.opp l)) = 0 := by
    simp only [mul_sub, sum_sub_distrib]; ring
  rw [this]; ring

/-- **C128** The viscous force an open face of the edge scheme puts on the residual is the tangential part of the viscous force of the
face gradient: nothing along the normal, and in every tangential direction exactly the viscous force; the divergence option has no
effect on it.  Only the face node's rows change. -/
theorem c128_open_tangential (o : BcOpts K) (n : BcNodes nn nd K) (p : BcIp nn nd K) (hu : UnitFace p)
    (s : LocalSys (Fin nn × Fin nd) K) :
    (∑ k, ((openStress o n p s).rhs (p.near, k) - s.rhs (p.near, k)) * p.area k = 0) ∧
    (∀ t : Fin nd → K, ∑ k, t k * p.area k = 0 →
      ∑ k, ((openStress o n p s).rhs (p.near, k) - s.rhs (p.near, k)) * t k =
        -∑ k, viscousForce (n.visc p.near) o.incDivU (bcGrad o n p) p.area k * t k) ∧
    (∀ t : Fin nd → K, ∑ k, t k * p.area k = 0 →
      ∑ k, ((openStress o n p s).rhs (p.near, k) - s.rhs (p.near, k)) * t k =
        -∑ k, viscousForce (n.visc p.near) 0 (bcGrad o n p) p.area k * t k) ∧
    ∀ a ≠ p.near, ∀ k, (openStress o n p s).rhs (a, k) = s.rhs (a, k) := by
  have h0 : ∀ t : Fin nd → K, ∑ k, ((openStress o n p s).rhs (p.near, k) - s.rhs (p.near, k)) * t k =
      -∑ k, bcForce o n p k * t k + (∑ k, bcNormal p k * t k) * bcForceN o n p := by
    intro t
    simp only [openStress_rhs, if_true, sum_mul, ← sum_neg_distrib, ← sum_add_distrib]
    exact sum_congr rfl fun _ _ => by ring
  have h1 : ∀ t : Fin nd → K, ∑ k, t k * p.area k = 0 → ∑ k, bcNormal p k * t k = 0 := by
    intro t ht
    have : ∀ k, bcNormal p k * t k = (t k * p.area k) / p.amag := fun k => by rw [bcNormal]; ring
    simp only [this, ← sum_div, ht, zero_div]
  refine ⟨?_, fun t ht => ?_, fun t ht => ?_, fun a ha k => ?_⟩
  · rw [h0]
    have e1 : ∑ k, bcNormal p k * p.area k = p.amag := by
      have : ∀ k, bcNormal p k * p.area k = p.amag * (bcNormal p k * bcNormal p k) := fun k => by rw [area_eq hu]; ring
      simp only [this, ← mul_sum, unit_normal hu, mul_one]
    have e2 : ∑ k, bcForce o n p k * p.area k = p.amag * bcForceN o n p := by
      simp only [bcForceN, mul_sum]
      exact sum_congr rfl fun k _ => by rw [area_eq hu]; ring
    rw [e1, e2]; ring
  · rw [h0, h1 t ht]
    simp only [bcForce_eq]; ring
  · rw [h0, h1 t ht]
    simp only [bcForce_eq, viscousForce, sub_mul, sum_sub_distrib]
    have : ∑ k, o.incDivU * (2 / 3 * n.visc p.near * (∑ l, bcGrad o n p l l) * p.area k) * t k = 0 := by
      rw [show (∑ k, o.incDivU * (2 / 3 * n.visc p.near * (∑ l, bcGrad o n p l l) * p.area k) * t k) =
        o.incDivU * (2 / 3 * n.visc p.near * (∑ l, bcGrad o n p l l)) * ∑ k, t k * p.area k by
          generalize (∑ l, bcGrad o n p l l) = S
          rw [mul_sum]; exact sum_congr rfl fun _ _ => by ring]
      rw [ht, mul_zero]
    rw [this]
    simp
  · rw [openStress_rhs, if_neg ha, add_zero]

/-- **C128** What an open face convects.  Outflow: the nodal velocity.  Inflow (entrainment): a velocity `U` whose normal component
carries exactly the mass flow rate (relative to a moving face), and whose tangential components are those the user specified. -/
theorem c128_open_advection (o : BcOpts K) (n : BcNodes nn nd K) (p : BcIp nn nd K) (hu : UnitFace p) (hrho : n.rho p.near ≠ 0)
    (s : LocalSys (Fin nn × Fin nd) K) :
    ∃ U : Fin nd → K, (∀ k, (openAdvection o n p s).rhs (p.near, k) = s.rhs (p.near, k) - p.mdot * U k) ∧
      (p.mdot > 0 → U = n.u p.near) ∧
      (¬ p.mdot > 0 → n.rho p.near * ∑ k, U k * p.area k = p.mdot + o.meshCorr * (n.rho p.near * ∑ k, n.vmesh p.near k * p.area k)) ∧
      (¬ p.mdot > 0 → ∀ t : Fin nd → K, ∑ k, t k * p.area k = 0 → ∑ k, U k * t k = ∑ k, n.ubc p.near k * t k) := by
  by_cases hm : p.mdot > 0
  · refine ⟨n.u p.near, fun k => ?_, fun _ => rfl, fun h => absurd hm h, fun h => absurd hm h⟩
    rw [openAdvection_rhs, if_pos rfl, if_pos hm]; ring
  · refine ⟨fun k => uEntrain o n p * bcNormal p k + (n.ubc p.near k - uSpecN n p * bcNormal p k), fun k => ?_,
      fun h => absurd h hm, fun _ => ?_, fun _ t ht => ?_⟩
    · rw [openAdvection_rhs, if_pos rfl, if_neg hm]; ring
    · have e1 : ∀ k, (uEntrain o n p * bcNormal p k + (n.ubc p.near k - uSpecN n p * bcNormal p k)) * p.area k =
          p.amag * ((uEntrain o n p - uSpecN n p) * (bcNormal p k * bcNormal p k) + bcNormal p k * n.ubc p.near k) := fun k => by
        rw [area_eq hu]; ring
      simp only [e1, ← mul_sum, sum_add_distrib, unit_normal hu, mul_one]
      rw [show (∑ k, bcNormal p k * n.ubc p.near k) = uSpecN n p from rfl]
      simp only [uEntrain, mul_assoc, ← mul_sum]
      have := hu.2
      field_simp
      ring
    · have e1 : ∀ k, (uEntrain o n p * bcNormal p k + (n.ubc p.near k - uSpecN n p * bcNormal p k)) * t k =
          ((uEntrain o n p - uSpecN n p) / p.amag) * (t k * p.area k) + n.ubc p.near k * t k := fun k => by
        rw [bcNormal]; ring
      simp only [e1, sum_add_distrib, ← mul_sum, ht, mul_zero, zero_add]

/-! ## C129 -/

theorem symmetryStress_rhs (o : BcOpts K) (n : BcNodes nn nd K) (p : BcIp nn nd K) (s : LocalSys (Fin nn × Fin nd) K) (a : Fin nn)
    (k : Fin nd) : (symmetryStress o n p s).rhs (a, k) =
      s.rhs (a, k) + if a = p.near then -(bcForceN o n p * bcNormal p k) else 0 := by
  rw [symmetryStress, loop_rhs (a := (a, k)) (δ := fun i => if k = i then
    (if a = p.near then -(bcForceN o n p * bcNormal p i) else 0) else 0)]
  · simp
  · intro i s
    rw [loop_rhs (a := (a, k)) (δ := fun _ => 0)]
    · by_cases h1 : k = i <;> by_cases h2 : a = p.near <;> simp [h1, h2]
    · intro j s
      split_ifs <;> simp

/-- **C129** A symmetry face (edge scheme) exerts no shear: the force on the residual is along the normal, and its normal component is
that of the viscous force.  Only the face node's rows change. -/
theorem c129_symmetry_normal (o : BcOpts K) (n : BcNodes nn nd K) (p : BcIp nn nd K) (hu : UnitFace p)
    (s : LocalSys (Fin nn × Fin nd) K) :
    (∀ t : Fin nd → K, ∑ k, t k * p.area k = 0 →
      ∑ k, ((symmetryStress o n p s).rhs (p.near, k) - s.rhs (p.near, k)) * t k = 0) ∧
    (∑ k, ((symmetryStress o n p s).rhs (p.near, k) - s.rhs (p.near, k)) * p.area k =
      -∑ k, viscousForce (n.visc p.near) o.incDivU (bcGrad o n p) p.area k * p.area k) ∧
    ∀ a ≠ p.near, ∀ k, (symmetryStress o n p s).rhs (a, k) = s.rhs (a, k) := by
  refine ⟨fun t ht => ?_, ?_, fun a ha k => ?_⟩
  · have : ∀ k, ((symmetryStress o n p s).rhs (p.near, k) - s.rhs (p.near, k)) * t k =
        -(bcForceN o n p / p.amag) * (t k * p.area k) := fun k => by
      rw [symmetryStress_rhs, if_pos rfl, bcNormal]; ring
    simp only [this, ← mul_sum, ht, mul_zero]
  · have : ∀ k, ((symmetryStress o n p s).rhs (p.near, k) - s.rhs (p.near, k)) * p.area k =
        -(bcForceN o n p * p.amag) * (bcNormal p k * bcNormal p k) := fun k => by
      rw [symmetryStress_rhs, if_pos rfl]
      rw [area_eq hu]; ring
    simp only [this, ← mul_sum, unit_normal hu, mul_one]
    simp only [← bcForce_eq]
    rw [bcForceN, sum_mul, ← sum_neg_distrib, ← sum_neg_distrib]
    exact sum_congr rfl fun k _ => by rw [area_eq hu]; ring
  · rw [symmetryStress_rhs, if_neg ha, add_zero]

/-! ### The element kernel -/

/-- Viscous row of one node for the gradient operator `g` of that node: `-mu (g_j u_i + g_i u_j) A_j` summed over `j`. -/
def symRow (mu : K) (g a w : Fin nd → K) (i : Fin nd) : K := ∑ j, (-mu * g j * a j * w i + -mu * g i * a j * w j)

theorem symViscous_rhs (mu inc : K) (g : Fin nn → Fin nd → K) (a nx : Fin nd → K) (near : Fin nn) (u : Fin nn → Fin nd → K)
    (s : LocalSys (Fin nn × Fin nd) K) (r : Fin nn) (k : Fin nd) :
    (symViscous mu inc g a nx near u s).rhs (r, k) = s.rhs (r, k) - if r = near then
      nx k * (∑ l, nx l * ∑ ic, symRow mu (g ic) a (u ic) l) +
        (2 / 3 * mu * (∑ ic, ∑ j, g ic j * u ic j * a j) * inc) * (nx k * ∑ l, nx l) else 0 := by
  let T : Fin nn → Fin nd → Fin nd → K := fun ic j i => -mu * g ic j * a j * u ic i + -mu * g ic i * a j * u ic j
  let D : Fin nn → Fin nd → K := fun ic j => 2 / 3 * mu * g ic j * u ic j * a j * inc
  let δ : Fin nn → Fin nd → Fin nd → K := fun ic j i => nx i * ∑ l, nx l * (T ic j l + D ic j)
  rw [symViscous, loop_rhs (a := (r, k)) (δ := fun ic => ∑ j, if r = near then -δ ic j k else 0)]
  · by_cases h : r = near
    · simp only [h, if_true, sub_eq_add_neg]
      congr 1
      simp only [sum_neg_distrib]
      congr 1
      simp only [δ, symRow, T, D]
      have e1 : ∑ ic, ∑ j, nx k * ∑ l, nx l * (-mu * g ic j * a j * u ic l + -mu * g ic l * a j * u ic j +
          2 / 3 * mu * g ic j * u ic j * a j * inc) =
          ∑ ic, ∑ j, nx k * ∑ l, nx l * (-mu * g ic j * a j * u ic l + -mu * g ic l * a j * u ic j) +
          ∑ ic, ∑ j, (nx k * ∑ l, nx l) * (2 / 3 * mu * g ic j * u ic j * a j * inc) := by
        rw [← sum_add_distrib]
        refine sum_congr rfl fun ic _ => ?_
        rw [← sum_add_distrib]
        refine sum_congr rfl fun j _ => ?_
        rw [mul_assoc (nx k), ← mul_add]
        congr 1
        rw [sum_mul, ← sum_add_distrib]
        exact sum_congr rfl fun _ _ => by ring
      rw [e1]
      congr 1
      · have e2 : ∀ ic, ∑ j, nx k * ∑ l, nx l * (-mu * g ic j * a j * u ic l + -mu * g ic l * a j * u ic j) =
            nx k * ∑ l, nx l * ∑ j, (-mu * g ic j * a j * u ic l + -mu * g ic l * a j * u ic j) := fun ic => by
          rw [← mul_sum, sum_comm]
          simp only [← mul_sum]
        simp only [e2, ← mul_sum]
        congr 1
        rw [sum_comm]
        simp only [← mul_sum]
      · generalize nx k * ∑ l, nx l = c
        simp only [mul_sum, sum_mul]
        exact sum_congr rfl fun ic _ => sum_congr rfl fun j _ => by ring
    · simp [h]
  · intro ic s
    rw [loop_rhs (a := (r, k)) (δ := fun j => if r = near then -δ ic j k else 0)]
    intro j s
    rw [loop_rhs (a := (r, k)) (δ := fun i => if k = i then (if r = near then -δ ic j i else 0) else 0)]
    · simp
    · intro i s
      rw [loop_rhs (a := (r, k)) (δ := fun l => if k = i then (if r = near then
        -(if i ≠ l then nx i * nx l * (T ic j l + D ic j) else 0) else 0) else 0)]
      · by_cases h1 : k = i <;> by_cases h2 : r = near <;> simp [h1, h2]
        simp only [δ]
        have : ∑ l, nx l * (T ic j l + D ic j) = nx i * (T ic j i + D ic j) + ∑ l, if i = l then 0 else nx l * (T ic j l + D ic j) := by
          rw [← add_sum_erase univ _ (mem_univ i)]
          congr 1
          rw [← sum_erase univ (a := i) (by simp)]
          exact sum_congr rfl fun l hl => by rw [if_neg (Ne.symm (ne_of_mem_erase hl))]
        rw [this, mul_add, mul_sum]
        have e2 : ∑ l, (if i = l then 0 else nx i * nx l * (T ic j l + D ic j)) =
            ∑ l, nx i * (if i = l then 0 else nx l * (T ic j l + D ic j)) :=
          sum_congr rfl fun l _ => by split_ifs <;> ring
        rw [e2]
        simp only [T, D]
        ring
      · intro l s
        by_cases hil : i = l
        · simp [hil]
        · by_cases h1 : k = i <;> by_cases h2 : r = near <;> simp [h1, h2, hil]
          simp only [T, D]
          ring

theorem symViscous_act (mu inc : K) (g : Fin nn → Fin nd → K) (a nx : Fin nd → K) (near : Fin nn) (u : Fin nn → Fin nd → K)
    (s : LocalSys (Fin nn × Fin nd) K) (d : Fin nn × Fin nd → K) (r : Fin nn) (k : Fin nd) :
    act (symViscous mu inc g a nx near u s) d (r, k) = act s d (r, k) + if r = near then
      nx k * (∑ l, nx l * ∑ ic, symRow mu (g ic) a (fun i => d (ic, i)) l) else 0 := by
  let T : Fin nn → Fin nd → Fin nd → K := fun ic j i => -mu * g ic j * a j * d (ic, i) + -mu * g ic i * a j * d (ic, j)
  let δ : Fin nn → Fin nd → Fin nd → K := fun ic j i => nx i * ∑ l, nx l * T ic j l
  rw [symViscous, loop_act (a := (r, k)) (δ := fun ic => ∑ j, if r = near then δ ic j k else 0)]
  · by_cases h : r = near
    · simp only [h, if_true]
      congr 1
      simp only [δ, symRow, T]
      have e2 : ∀ ic, ∑ j, nx k * ∑ l, nx l * (-mu * g ic j * a j * d (ic, l) + -mu * g ic l * a j * d (ic, j)) =
          nx k * ∑ l, nx l * ∑ j, (-mu * g ic j * a j * d (ic, l) + -mu * g ic l * a j * d (ic, j)) := fun ic => by
        rw [← mul_sum, sum_comm]
        simp only [← mul_sum]
      simp only [e2, ← mul_sum]
      congr 1
      rw [sum_comm]
      simp only [← mul_sum]
    · simp [h]
  · intro ic s
    rw [loop_act (a := (r, k)) (δ := fun j => if r = near then δ ic j k else 0)]
    intro j s
    rw [loop_act (a := (r, k)) (δ := fun i => if k = i then (if r = near then δ ic j i else 0) else 0)]
    · simp
    · intro i s
      rw [loop_act (a := (r, k)) (δ := fun l => if k = i then (if r = near then
        (if i ≠ l then nx i * nx l * T ic j l else 0) else 0) else 0)]
      · by_cases h1 : k = i <;> by_cases h2 : r = near <;> simp [h1, h2]
        simp only [δ]
        have : ∑ l, nx l * T ic j l = nx i * T ic j i + ∑ l, if i = l then 0 else nx l * T ic j l := by
          rw [← add_sum_erase univ _ (mem_univ i)]
          congr 1
          rw [← sum_erase univ (a := i) (by simp)]
          exact sum_congr rfl fun l hl => by rw [if_neg (Ne.symm (ne_of_mem_erase hl))]
        rw [this, mul_add, mul_sum]
        have e2 : ∑ l, (if i = l then 0 else nx i * nx l * T ic j l) = ∑ l, nx i * (if i = l then 0 else nx l * T ic j l) :=
          sum_congr rfl fun l _ => by split_ifs <;> ring
        rw [e2]
        simp only [T]
        ring
      · intro l s
        by_cases hil : i = l
        · simp [hil]
        · by_cases h1 : k = i <;> by_cases h2 : r = near <;> simp [h1, h2, hil]
          simp only [T]
          ring

theorem symmetryElem_rhs (inc : K) (f : Face nn nf nip nd K) (mu : Fin nn → K) (u : Fin nn → Fin nd → K)
    (s : LocalSys (Fin nn × Fin nd) K) (r : Fin nn) (k : Fin nd) :
    (symmetryElem inc f mu u s).rhs (r, k) = s.rhs (r, k) + ∑ ip, -(if r = f.near ip then
      f.area ip k / f.aMag ip * (∑ l, f.area ip l / f.aMag ip *
        ∑ ic, symRow (∑ ic, f.shape ip ic * mu (f.node ic)) (f.dndx ip ic) (f.area ip) (u ic) l) +
      (2 / 3 * (∑ ic, f.shape ip ic * mu (f.node ic)) * (∑ ic, ∑ j, f.dndx ip ic j * u ic j * f.area ip j) * inc) *
        (f.area ip k / f.aMag ip * ∑ l, f.area ip l / f.aMag ip) else 0) := by
  rw [symmetryElem]
  exact loop_rhs _ _ _ _ fun ip s => by rw [symViscous_rhs, sub_eq_add_neg]

theorem symmetryElem_act (inc : K) (f : Face nn nf nip nd K) (mu : Fin nn → K) (u : Fin nn → Fin nd → K)
    (s : LocalSys (Fin nn × Fin nd) K) (d : Fin nn × Fin nd → K) (r : Fin nn) (k : Fin nd) :
    act (symmetryElem inc f mu u s) d (r, k) = act s d (r, k) + ∑ ip, if r = f.near ip then
      f.area ip k / f.aMag ip * (∑ l, f.area ip l / f.aMag ip *
        ∑ ic, symRow (∑ ic, f.shape ip ic * mu (f.node ic)) (f.dndx ip ic) (f.area ip) (fun i => d (ic, i)) l) else 0 := by
  rw [symmetryElem]
  exact loop_act _ _ _ _ _ fun ip s => by rw [symViscous_act]

/-- The velocity gradient of the element at a face point. -/
def faceGrad (f : Face nn nf nip nd K) (u : Fin nn → Fin nd → K) (ip : Fin nip) (i j : Fin nd) : K := ∑ ic, f.dndx ip ic j * u ic i

theorem symRow_force (f : Face nn nf nip nd K) (u : Fin nn → Fin nd → K) (m : K) (ip : Fin nip) (l : Fin nd) :
    ∑ ic, symRow m (f.dndx ip ic) (f.area ip) (u ic) l = viscousForce m 0 (faceGrad f u ip) (f.area ip) l := by
  simp only [symRow, viscousForce, faceGrad, zero_mul, zero_sub]
  rw [sum_comm, mul_sum, ← sum_neg_distrib]
  refine sum_congr rfl fun j _ => ?_
  simp only [add_mul, mul_add, sum_mul, mul_sum, neg_add, ← sum_neg_distrib, ← sum_add_distrib]
  exact sum_congr rfl fun _ _ => by ring

/-- **C129** The symmetry face kernel of the element scheme, without the divergence option, puts on the residual the normal part of the
viscous force of the element gradient, and no shear: at every integration point the force is along the area vector. -/
theorem c129_symmetry_kernel_partial (f : Face nn nf nip nd K) (mu : Fin nn → K) (u : Fin nn → Fin nd → K)
    (hm : ∀ ip, f.aMag ip * f.aMag ip = ∑ j, f.area ip j * f.area ip j) (hne : ∀ ip, f.aMag ip ≠ 0)
    (s : LocalSys (Fin nn × Fin nd) K) :
    ∃ F : Fin nip → Fin nd → K,
      (∀ r k, (symmetryElem 0 f mu u s).rhs (r, k) = s.rhs (r, k) - ∑ ip, if r = f.near ip then F ip k else 0) ∧
      (∀ ip (t : Fin nd → K), ∑ k, t k * f.area ip k = 0 → ∑ k, F ip k * t k = 0) ∧
      ∀ ip, ∑ k, F ip k * f.area ip k =
        ∑ k, viscousForce (∑ ic, f.shape ip ic * mu (f.node ic)) 0 (faceGrad f u ip) (f.area ip) k * f.area ip k := by
  let N : Fin nip → K := fun ip => ∑ l, f.area ip l / f.aMag ip *
    viscousForce (∑ ic, f.shape ip ic * mu (f.node ic)) 0 (faceGrad f u ip) (f.area ip) l
  refine ⟨fun ip k => f.area ip k / f.aMag ip * N ip, fun r k => ?_, fun ip t ht => ?_, fun ip => ?_⟩
  · rw [symmetryElem_rhs, sum_neg_distrib, sub_eq_add_neg]
    congr 2
    refine sum_congr rfl fun ip _ => ?_
    simp only [symRow_force, mul_zero, zero_mul, add_zero, N]
  · have : ∀ k, f.area ip k / f.aMag ip * N ip * t k = (N ip / f.aMag ip) * (t k * f.area ip k) := fun k => by ring
    simp only [this, ← mul_sum, ht, mul_zero]
  · have : ∀ k, f.area ip k / f.aMag ip * N ip * f.area ip k = (N ip / f.aMag ip) * (f.area ip k * f.area ip k) := fun k => by ring
    simp only [this, ← mul_sum, ← hm]
    have e : N ip / f.aMag ip * (f.aMag ip * f.aMag ip) = N ip * f.aMag ip := by
      have := hne ip
      field_simp
    rw [e]
    simp only [N, sum_mul]
    refine sum_congr rfl fun k _ => ?_
    have := hne ip
    field_simp

/-- A face of the plane with normal `(3,4)/5`, and the stream `u = (x, 0)` of a two-node "element". -/
def skewFace : Face 2 1 1 2 ℚ :=
  ⟨fun _ _ => 1, fun _ _ => 1, fun _ => ![3, 4], fun _ => 5, fun _ => ![![-1, 0], ![1, 0]], fun _ => 1, fun _ => 1, fun _ => 0, fun _ => 0⟩

/-- **C129** With the divergence option the kernel does not add the divergence stress `2/3 mu div(u) A`: on a face with area `(3,4)`,
`mu = 1` and `div u = 1` the normal force of that stress is `2/3 * 25`, the kernel's is `2/3 * 21` (it uses `(sum_j du_j/dx_j A_j) n (n_1 +
n_2)` instead). -/
theorem c129_kernel_divU :
    let u : Fin 2 → Fin 2 → ℚ := ![![0, 0], ![1, 0]]
    let extra := fun k => (symmetryElem 0 skewFace (fun _ => 1) u ⟨fun _ _ => 0, fun _ => 0⟩).rhs (1, k) -
      (symmetryElem 1 skewFace (fun _ => 1) u ⟨fun _ _ => 0, fun _ => 0⟩).rhs (1, k)
    ∑ k, extra k * skewFace.area 0 k = 2 / 3 * 21 ∧
    ∑ k, (viscousForce 1 1 (faceGrad skewFace u 0) (skewFace.area 0) k - viscousForce 1 0 (faceGrad skewFace u 0) (skewFace.area 0) k)
      * skewFace.area 0 k = 2 / 3 * 25 := by
  decide +kernel

/-! ## C130 -/

/-- The exact derivative of the tangential (open) viscous force in the direction of the velocity difference `e = d_near - d_opp`:
`-mu |A|^2 / (A.dx) (e - n (n.e))`. -/
def openExact (n : BcNodes nn nd K) (p : BcIp nn nd K) (e : Fin nd → K) (i : Fin nd) : K :=
  -n.visc p.near * bcAsq p * (1 / bcAxdx n p) * (e i - bcNormal p i * ∑ j, bcNormal p j * e j)

theorem asq_eq {p : BcIp nn nd K} (h : UnitFace p) : bcAsq p = p.amag * p.amag := h.1.symm

theorem sum_off (i : Fin nd) (f : Fin nd → K) : (∑ j, if i = j then 0 else f j) = (∑ j, f j) - f i := by
  rw [eq_sub_iff_add_eq, ← sum_erase_add univ f (mem_univ i)]
  congr 1
  rw [← sum_erase univ (a := i) (by simp)]
  exact sum_congr rfl fun l hl => by rw [if_neg (Ne.symm (ne_of_mem_erase hl))]

/-- **C130** The matrix an open face of the edge scheme adds, compared with the exact derivative: they differ, in row `i`, by
`mu |A|^2/(A.dx) n_i sum_{j /= i} n_j (1 - n_i^2 - n_j^2) e_j`. -/
theorem c130_open_matrix_error (n : BcNodes nn nd K) (p : BcIp nn nd K) (hu : UnitFace p) (e : Fin nd → K) (i : Fin nd) :
    openRow n p e i = openExact n p e i - n.visc p.near * bcAsq p * (1 / bcAxdx n p) * (bcNormal p i *
      ∑ j, if i = j then 0 else bcNormal p j * (1 - bcNormal p i * bcNormal p i - bcNormal p j * bcNormal p j) * e j) := by
  have h1 := unit_normal hu
  simp only [openRow, openExact, asq_eq hu, area_eq hu]
  generalize n.visc p.near = mu
  generalize 1 / bcAxdx n p = inv
  generalize p.amag = m
  generalize bcNormal p = x at h1 ⊢
  rw [sum_add_distrib, sum_off, sum_off]
  have e1 : ∑ j, -mu * (m * x i) * (m * x j) * inv * (1 - x i * x i) * e j =
      -mu * m * m * inv * x i * (1 - x i * x i) * ∑ j, x j * e j := by
    rw [mul_sum]; exact sum_congr rfl fun _ _ => by ring
  have e2 : ∑ j, (mu * (m * m) * inv * (x i * x j) * e j + mu * (m * x j) * (m * x j) * inv * (x i * x j) * e j +
      mu * (m * x j) * (m * x i) * inv * (x i * x j) * e i) =
      mu * m * m * inv * x i * (∑ j, x j * e j) + mu * m * m * inv * x i * (∑ j, x j * x j * x j * e j) +
        mu * m * m * inv * x i * x i * e i * ∑ j, x j * x j := by
    simp only [mul_sum, ← sum_add_distrib]
    exact sum_congr rfl fun _ _ => by ring
  have e3 : ∑ j, x j * (1 - x i * x i - x j * x j) * e j = (1 - x i * x i) * (∑ j, x j * e j) - ∑ j, x j * x j * x j * e j := by
    rw [mul_sum, ← sum_sub_distrib]
    exact sum_congr rfl fun _ _ => by ring
  rw [e1, e2, e3, h1]
  ring

/-- The residual of an open face as a function of the element's velocities. -/
def withU (n : BcNodes nn nd K) (u : Fin nn × Fin nd → K) : BcNodes nn nd K := { n with u := fun a i => u (a, i) }

theorem bcGrad_add (o : BcOpts K) (n : BcNodes nn nd K) (p : BcIp nn nd K) (q d : Fin nn × Fin nd → K) (i j : Fin nd) :
    bcGrad o (withU n (q + d)) p i j = bcGrad o (withU n q) p i j + (d (p.near, i) - d (p.opp, i)) * p.area j * (1 / bcAxdx n p) := by
  simp only [bcGrad, withU, bcAxdx, Pi.add_apply]
  ring

theorem bcForce_add (o : BcOpts K) (n : BcNodes nn nd K) (p : BcIp nn nd K) (q d : Fin nn × Fin nd → K) (i : Fin nd) :
    bcForce o (withU n (q + d)) p i = bcForce o (withU n q) p i +
      (-n.visc p.near * (1 / bcAxdx n p) * (bcAsq p * (d (p.near, i) - d (p.opp, i)) +
        p.area i * ∑ j, p.area j * (d (p.near, j) - d (p.opp, j))) +
      2 / 3 * n.visc p.near * (1 / bcAxdx n p) * (∑ j, p.area j * (d (p.near, j) - d (p.opp, j))) * p.area i * o.incDivU) := by
  simp only [bcForce, bcGrad_add]
  have e1 : ∑ j, (bcGrad o (withU n q) p j j + (d (p.near, j) - d (p.opp, j)) * p.area j * (1 / bcAxdx n p)) =
      ∑ j, bcGrad o (withU n q) p j j + (1 / bcAxdx n p) * ∑ j, p.area j * (d (p.near, j) - d (p.opp, j)) := by
    rw [sum_add_distrib, mul_sum]
    congr 1
    exact sum_congr rfl fun _ _ => by ring
  have e2 : ∑ j, -(withU n (q + d)).visc p.near * (bcGrad o (withU n q) p i j + (d (p.near, i) - d (p.opp, i)) * p.area j * (1 / bcAxdx n p) +
      (bcGrad o (withU n q) p j i + (d (p.near, j) - d (p.opp, j)) * p.area i * (1 / bcAxdx n p))) * p.area j =
      ∑ j, -(withU n q).visc p.near * (bcGrad o (withU n q) p i j + bcGrad o (withU n q) p j i) * p.area j +
      -n.visc p.near * (1 / bcAxdx n p) * (bcAsq p * (d (p.near, i) - d (p.opp, i)) +
        p.area i * ∑ j, p.area j * (d (p.near, j) - d (p.opp, j))) := by
    simp only [bcAsq, sum_mul, mul_sum, ← sum_add_distrib]
    exact sum_congr rfl fun _ _ => by simp only [withU]; ring
  rw [e1, e2]
  simp only [withU]
  ring

/-- The change of the normal force. -/
theorem normal_force_add (o : BcOpts K) (n : BcNodes nn nd K) (p : BcIp nn nd K) (hu : UnitFace p) (q d : Fin nn × Fin nd → K) :
    bcForceN o (withU n (q + d)) p = bcForceN o (withU n q) p +
      (-2 + 2 / 3 * o.incDivU) * (n.visc p.near * (p.amag * p.amag) * (1 / bcAxdx n p) *
        ∑ j, bcNormal p j * (d (p.near, j) - d (p.opp, j))) := by
  have h1 := unit_normal hu
  have e1 : ∑ j, p.area j * (d (p.near, j) - d (p.opp, j)) = p.amag * ∑ j, bcNormal p j * (d (p.near, j) - d (p.opp, j)) := by
    rw [mul_sum]; exact sum_congr rfl fun j _ => by rw [area_eq hu]; ring
  simp only [bcForceN, bcForce_add, e1, asq_eq hu]
  generalize hN : ∑ j, bcNormal p j * (d (p.near, j) - d (p.opp, j)) = N
  have e2 : ∀ i, bcNormal p i * (bcForce o (withU n q) p i + (-n.visc p.near * (1 / bcAxdx n p) * (p.amag * p.amag *
      (d (p.near, i) - d (p.opp, i)) + p.area i * (p.amag * N)) +
      2 / 3 * n.visc p.near * (1 / bcAxdx n p) * (p.amag * N) * p.area i * o.incDivU)) =
      bcNormal p i * bcForce o (withU n q) p i + (-n.visc p.near * (1 / bcAxdx n p) * (p.amag * p.amag)) *
        (bcNormal p i * (d (p.near, i) - d (p.opp, i))) +
      ((-n.visc p.near * (1 / bcAxdx n p) + 2 / 3 * n.visc p.near * (1 / bcAxdx n p) * o.incDivU) * (p.amag * p.amag) * N) *
        (bcNormal p i * bcNormal p i) := fun i => by
    rw [area_eq hu]; ring
  simp only [e2, sum_add_distrib, ← mul_sum, hN, h1]
  ring

/-- The change of the force on the residual is the exact derivative `openExact`. -/
theorem open_force_add (o : BcOpts K) (n : BcNodes nn nd K) (p : BcIp nn nd K) (hu : UnitFace p) (q d : Fin nn × Fin nd → K) (i : Fin nd) :
    bcForce o (withU n (q + d)) p i - bcNormal p i * bcForceN o (withU n (q + d)) p =
      bcForce o (withU n q) p i - bcNormal p i * bcForceN o (withU n q) p + openExact n p (fun j => d (p.near, j) - d (p.opp, j)) i := by
  have h1 := unit_normal hu
  have key : bcForceN o (withU n (q + d)) p = bcForceN o (withU n q) p +
      (-2 + 2 / 3 * o.incDivU) * (n.visc p.near * (p.amag * p.amag) * (1 / bcAxdx n p) *
        ∑ j, bcNormal p j * (d (p.near, j) - d (p.opp, j))) := normal_force_add o n p hu q d
  have e1 : ∑ j, p.area j * (d (p.near, j) - d (p.opp, j)) = p.amag * ∑ j, bcNormal p j * (d (p.near, j) - d (p.opp, j)) := by
    rw [mul_sum]; exact sum_congr rfl fun j _ => by rw [area_eq hu]; ring
  rw [key, bcForce_add, e1]
  simp only [openExact, asq_eq hu, area_eq hu]
  ring

theorem edgeOpen_rhs (o : BcOpts K) (n : BcNodes nn nd K) (ips : Fin nip → BcIp nn nd K) (s : LocalSys (Fin nn × Fin nd) K) (a : Fin nn)
    (k : Fin nd) : (edgeOpen o n ips s).rhs (a, k) = s.rhs (a, k) + ∑ ip, if a = (ips ip).near then
      (-(bcForce o n (ips ip) k - bcNormal (ips ip) k * bcForceN o n (ips ip)) +
      (if (ips ip).mdot > 0 then -((ips ip).mdot * n.u (ips ip).near k) else
        -((ips ip).mdot * uEntrain o n (ips ip) * bcNormal (ips ip) k) +
          -((ips ip).mdot * (n.ubc (ips ip).near k - uSpecN n (ips ip) * bcNormal (ips ip) k)))) else 0 := by
  rw [edgeOpen]
  refine loop_rhs _ _ _ _ fun ip s => ?_
  rw [openAdvection_rhs, openStress_rhs]
  by_cases h : a = (ips ip).near <;> simp [h]
  ring

theorem edgeOpen_act (o : BcOpts K) (n : BcNodes nn nd K) (ips : Fin nip → BcIp nn nd K) (s : LocalSys (Fin nn × Fin nd) K)
    (d : Fin nn × Fin nd → K) (a : Fin nn) (k : Fin nd) : act (edgeOpen o n ips s) d (a, k) = act s d (a, k) +
      ∑ ip, if a = (ips ip).near then (openRow n (ips ip) (fun j => d ((ips ip).near, j) - d ((ips ip).opp, j)) k +
        if (ips ip).mdot > 0 then (ips ip).mdot * d ((ips ip).near, k) else 0) else 0 := by
  rw [edgeOpen]
  refine loop_act _ _ _ _ _ fun ip s => ?_
  rw [openAdvection_act, openStress_act]
  by_cases h : a = (ips ip).near <;> simp [h]
  ring

/-- The face normals for which the assembled matrix is the exact derivative: no three components of the normal are nonzero. -/
def NoTriple (p : BcIp nn nd K) : Prop := ∀ i j k : Fin nd, i ≠ j → i ≠ k → j ≠ k → p.area i * p.area j * p.area k = 0

theorem noTriple_two (p : BcIp nn 2 K) : NoTriple p := by
  intro i j k h1 h2 h3
  omega

theorem open_row_exact (n : BcNodes nn nd K) (p : BcIp nn nd K) (hu : UnitFace p) (ht : NoTriple p) (e : Fin nd → K) (i : Fin nd) :
    openRow n p e i = openExact n p e i := by
  rw [c130_open_matrix_error n p hu]
  have : (bcNormal p i * ∑ j, if i = j then 0 else bcNormal p j * (1 - bcNormal p i * bcNormal p i - bcNormal p j * bcNormal p j) * e j)
      = 0 := by
    rw [mul_sum]
    apply sum_eq_zero
    intro j _
    by_cases hij : i = j
    · rw [if_pos hij, mul_zero]
    · rw [if_neg hij]
      have h1 : 1 - bcNormal p i * bcNormal p i - bcNormal p j * bcNormal p j =
          ∑ k ∈ (univ.erase i).erase j, bcNormal p k * bcNormal p k := by
        rw [← unit_normal hu, ← add_sum_erase univ _ (mem_univ i),
          ← add_sum_erase (univ.erase i) _ (mem_erase.2 ⟨Ne.symm hij, mem_univ j⟩)]
        ring
      rw [h1, mul_sum, sum_mul, mul_sum]
      apply sum_eq_zero
      intro k hk
      have hkj := ne_of_mem_erase hk
      have hki := ne_of_mem_erase (mem_of_mem_erase hk)
      have := ht i j k hij (Ne.symm hki) (Ne.symm hkj)
      have h3 : bcNormal p i * bcNormal p j * bcNormal p k = 0 := by
        rw [bcNormal, bcNormal, bcNormal, div_mul_div_comm, div_mul_div_comm, this, zero_div]
      linear_combination (bcNormal p k * e j) * h3
  rw [this, mul_zero, sub_zero]

/-- **C130** The matrix of the open-boundary faces of the edge scheme is the exact derivative of their residual (with the mass flow rates
held fixed) whenever no face normal has three nonzero components; in particular always in two dimensions. -/
theorem c130_open_newton_partial (o : BcOpts K) (n : BcNodes nn nd K) (ips : Fin nip → BcIp nn nd K) (hu : ∀ ip, UnitFace (ips ip))
    (ht : ∀ ip, NoTriple (ips ip)) : ExactNewton (fun u => edgeOpen o (withU n u) ips) := by
  refine newton_of _ (fun u a => ∑ ip, if a.1 = (ips ip).near then
      (-(bcForce o (withU n u) (ips ip) a.2 - bcNormal (ips ip) a.2 * bcForceN o (withU n u) (ips ip)) +
      (if (ips ip).mdot > 0 then -((ips ip).mdot * u ((ips ip).near, a.2)) else
        -((ips ip).mdot * uEntrain o n (ips ip) * bcNormal (ips ip) a.2) +
          -((ips ip).mdot * (n.ubc (ips ip).near a.2 - uSpecN n (ips ip) * bcNormal (ips ip) a.2)))) else 0)
    (fun d a => ∑ ip, if a.1 = (ips ip).near then (openRow n (ips ip) (fun j => d ((ips ip).near, j) - d ((ips ip).opp, j)) a.2 +
        if (ips ip).mdot > 0 then (ips ip).mdot * d ((ips ip).near, a.2) else 0) else 0)
    (fun u s a => edgeOpen_rhs o (withU n u) ips s a.1 a.2) (fun u s d a => edgeOpen_act o (withU n u) ips s d a.1 a.2) ?_
  intro q d a
  rw [← sum_sub_distrib]
  refine sum_congr rfl fun ip _ => ?_
  by_cases h : a.1 = (ips ip).near
  · simp only [if_pos h]
    rw [open_force_add o n (ips ip) (hu ip), open_row_exact n (ips ip) (hu ip) (ht ip)]
    by_cases hm : (ips ip).mdot > 0
    · simp only [if_pos hm, Pi.add_apply]; ring
    · simp only [if_neg hm]; ring
  · simp [if_neg h]

/-- **C130** In two dimensions no condition on the faces is needed. -/
theorem c130_open_newton_2d (o : BcOpts K) (n : BcNodes nn 2 K) (ips : Fin nip → BcIp nn 2 K) (hu : ∀ ip, UnitFace (ips ip)) :
    ExactNewton (fun u => edgeOpen o (withU n u) ips) :=
  c130_open_newton_partial o n ips hu fun ip => noTriple_two (ips ip)

/-- One open face point of space with normal `(1,2,2)/3`. -/
def obliqueIp : BcIp 2 3 ℚ := ⟨0, 1, ![1, 2, 2], 3, 0⟩
/-- Its element. -/
def obliqueNodes : BcNodes 2 3 ℚ :=
  ⟨![![0, 0, 0], ![1, 2, 2]], fun _ _ => 0, fun _ _ _ => 0, fun _ => 1, fun _ => 1, fun _ _ => 0, fun _ _ => 0⟩

/-- **C130** In three dimensions the matrix is not the derivative: on a face with normal `(1,2,2)/3`, changing the second velocity
component of the face node by one changes the first momentum residual by `-2/9`, the matrix predicts `-10/81`. -/
theorem c130_open_3d_fails : ¬ ExactNewton (fun u => edgeOpen ⟨0, 0, 0⟩ (withU obliqueNodes u) (fun _ : Fin 1 => obliqueIp)) := by
  intro h
  have := h (fun _ => 0) (fun a => if a = (1, 1) then 1 else 0) ⟨fun _ _ => 0, fun _ => 0⟩ ⟨fun _ _ => 0, fun _ => 0⟩ (1, 0)
  revert this
  decide +kernel

/-! ### Symmetry -/

/-- What a symmetry face adds to row `(near, i)` of the matrix, applied to the velocity difference `e`. -/
def symEdgeRow (n : BcNodes nn nd K) (p : BcIp nn nd K) (e : Fin nd → K) (i : Fin nd) : K :=
  let mu := n.visc p.near
  let inv := 1 / bcAxdx n p
  let nx := bcNormal p
  ∑ j, (-mu * p.area i * p.area j * inv * (nx i * nx i) * e j + if i = j then 0 else
    -mu * bcAsq p * inv * nx i * nx j * e j + -mu * p.area j * p.area j * nx i * nx j * e j +
      -mu * p.area j * p.area i * nx i * nx j * e i) + -mu * bcAsq p * inv * nx i * nx i * e i

theorem symmetryStress_act (o : BcOpts K) (n : BcNodes nn nd K) (p : BcIp nn nd K) (s : LocalSys (Fin nn × Fin nd) K)
    (d : Fin nn × Fin nd → K) (a : Fin nn) (k : Fin nd) : act (symmetryStress o n p s) d (a, k) =
      act s d (a, k) + if a = p.near then symEdgeRow n p (fun j => d (p.near, j) - d (p.opp, j)) k else 0 := by
  rw [symmetryStress, loop_act (a := (a, k)) (δ := fun i => if k = i then
    (if a = p.near then symEdgeRow n p (fun j => d (p.near, j) - d (p.opp, j)) i else 0) else 0)]
  · simp
  · intro i s
    rw [loop_act (a := (a, k)) (δ := fun j => if k = i then (if a = p.near then
      (-n.visc p.near * p.area i * p.area j * (1 / bcAxdx n p) * (bcNormal p i * bcNormal p i) * (d (p.near, j) - d (p.opp, j)) +
        if i = j then 0 else
        -n.visc p.near * bcAsq p * (1 / bcAxdx n p) * bcNormal p i * bcNormal p j * (d (p.near, j) - d (p.opp, j)) +
        -n.visc p.near * p.area j * p.area j * bcNormal p i * bcNormal p j * (d (p.near, j) - d (p.opp, j)) +
        -n.visc p.near * p.area j * p.area i * bcNormal p i * bcNormal p j * (d (p.near, i) - d (p.opp, i)))
        else 0) else 0)]
    · by_cases h1 : k = i <;> by_cases h2 : a = p.near <;> simp [h1, h2, symEdgeRow]
      ring
    · intro j s
      by_cases hij : i = j
      · subst hij
        by_cases h1 : k = i <;> by_cases h2 : a = p.near <;> simp [h1, h2]
        ring
      · by_cases h1 : k = i <;> by_cases h2 : a = p.near <;> simp [h1, h2, hij]
        ring

theorem edgeSymmetry_rhs (o : BcOpts K) (n : BcNodes nn nd K) (ips : Fin nip → BcIp nn nd K) (s : LocalSys (Fin nn × Fin nd) K)
    (a : Fin nn) (k : Fin nd) : (edgeSymmetry o n ips s).rhs (a, k) = s.rhs (a, k) + ∑ ip, if a = (ips ip).near then
      -(bcForceN o n (ips ip) * bcNormal (ips ip) k) else 0 := by
  rw [edgeSymmetry]
  exact loop_rhs _ _ _ _ fun ip s => symmetryStress_rhs ..

theorem edgeSymmetry_act (o : BcOpts K) (n : BcNodes nn nd K) (ips : Fin nip → BcIp nn nd K) (s : LocalSys (Fin nn × Fin nd) K)
    (d : Fin nn × Fin nd → K) (a : Fin nn) (k : Fin nd) : act (edgeSymmetry o n ips s) d (a, k) = act s d (a, k) +
      ∑ ip, if a = (ips ip).near then symEdgeRow n (ips ip) (fun j => d ((ips ip).near, j) - d ((ips ip).opp, j)) k else 0 := by
  rw [edgeSymmetry]
  exact loop_act _ _ _ _ _ fun ip s => symmetryStress_act ..

/-- The face is aligned with a coordinate plane: only one component of its area vector is nonzero. -/
def Aligned (p : BcIp nn nd K) : Prop := ∃ c, ∀ j ≠ c, p.area j = 0

theorem symEdgeRow_aligned (n : BcNodes nn nd K) (p : BcIp nn nd K) (hu : UnitFace p) (hal : Aligned p) (e : Fin nd → K) (i : Fin nd) :
    symEdgeRow n p e i = -2 * (n.visc p.near * (p.amag * p.amag) * (1 / bcAxdx n p) * ∑ j, bcNormal p j * e j) * bcNormal p i := by
  obtain ⟨c, hc⟩ := hal
  have hx : ∀ j ≠ c, bcNormal p j = 0 := fun j hj => by rw [bcNormal, hc j hj, zero_div]
  have h1 : bcNormal p c * bcNormal p c = 1 := by
    rw [← unit_normal hu, sum_eq_single_of_mem c (mem_univ c)]
    intro j _ hj
    rw [hx j hj, mul_zero]
  have hN : ∑ j, bcNormal p j * e j = bcNormal p c * e c := by
    rw [sum_eq_single_of_mem c (mem_univ c)]
    intro j _ hj
    rw [hx j hj, zero_mul]
  rw [hN]
  simp only [symEdgeRow, asq_eq hu]
  by_cases hi : i = c
  · subst hi
    rw [sum_eq_single_of_mem i (mem_univ i)]
    · simp only [if_true, add_zero, area_eq hu]
      linear_combination (-n.visc p.near * (p.amag * p.amag) * (1 / bcAxdx n p) * e i * bcNormal p i * bcNormal p i) * h1
    · intro j _ hj
      rw [if_neg (Ne.symm hj), hx j hj, hc j hj]
      ring
  · rw [hx i hi, sum_eq_zero]
    · ring
    · intro j _
      split_ifs <;> simp

/-- **C130** The matrix of the symmetry faces of the edge scheme is the exact derivative of their residual for faces aligned with a
coordinate plane, without the divergence option.  Partial: for other faces see `c130_symmetry_skew_fails`. -/
theorem c130_symmetry_newton_partial (o : BcOpts K) (ho : o.incDivU = 0) (n : BcNodes nn nd K) (ips : Fin nip → BcIp nn nd K)
    (hu : ∀ ip, UnitFace (ips ip)) (hal : ∀ ip, Aligned (ips ip)) : ExactNewton (fun u => edgeSymmetry o (withU n u) ips) := by
  refine newton_of _ (fun u a => ∑ ip, if a.1 = (ips ip).near then
      -(bcForceN o (withU n u) (ips ip) * bcNormal (ips ip) a.2) else 0)
    (fun d a => ∑ ip, if a.1 = (ips ip).near then symEdgeRow n (ips ip) (fun j => d ((ips ip).near, j) - d ((ips ip).opp, j)) a.2 else 0)
    (fun u s a => edgeSymmetry_rhs o (withU n u) ips s a.1 a.2) (fun u s d a => edgeSymmetry_act o (withU n u) ips s d a.1 a.2) ?_
  intro q d a
  rw [← sum_sub_distrib]
  refine sum_congr rfl fun ip _ => ?_
  by_cases h : a.1 = (ips ip).near
  · simp only [if_pos h]
    rw [normal_force_add o n (ips ip) (hu ip)]
    have hs : symEdgeRow n (ips ip) (fun j => d ((ips ip).near, j) - d ((ips ip).opp, j)) a.2 =
        -2 * (n.visc (ips ip).near * ((ips ip).amag * (ips ip).amag) * (1 / bcAxdx n (ips ip)) *
          ∑ j, bcNormal (ips ip) j * (d ((ips ip).near, j) - d ((ips ip).opp, j))) * bcNormal (ips ip) a.2 := by
      exact symEdgeRow_aligned n (ips ip) (hu ip) (hal ip) (fun j => d ((ips ip).near, j) - d ((ips ip).opp, j)) a.2
    rw [hs, ho]; ring
  · simp [if_neg h]

/-- One symmetry face point of the plane with area `(3,4)`. -/
def skewIp : BcIp 2 2 ℚ := ⟨0, 1, ![3, 4], 5, 0⟩
/-- Its element: the opposing node is at distance one half along the normal. -/
def skewNodes : BcNodes 2 2 ℚ :=
  ⟨![![0, 0], ![3 / 10, 4 / 10]], fun _ _ => 0, fun _ _ _ => 0, fun _ => 1, fun _ => 1, fun _ _ => 0, fun _ _ => 0⟩

/-- **C130** For a face that is not aligned with a coordinate plane the claim fails, already in two dimensions: two of the factors the code
adds lack the division by `A.dx`. -/
theorem c130_symmetry_skew_fails :
    ¬ ExactNewton (fun u => edgeSymmetry ⟨0, 0, 0⟩ (withU skewNodes u) (fun _ : Fin 1 => skewIp)) := by
  intro h
  have := h (fun _ => 0) (fun a => if a = (1, 1) then 1 else 0) ⟨fun _ _ => 0, fun _ => 0⟩ ⟨fun _ _ => 0, fun _ => 0⟩ (1, 0)
  revert this
  decide +kernel

/-- **C130** The symmetry kernel of the element scheme, without the divergence option, has the exact derivative as its matrix, for every
face and every dimension. -/
theorem c130_symmetry_kernel (f : Face nn nf nip nd K) (mu : Fin nn → K) :
    ExactNewton (fun u => symmetryElem 0 f mu (fun a i => u (a, i))) := by
  refine newton_of _ (fun u a => ∑ ip, -(if a.1 = f.near ip then
      f.area ip a.2 / f.aMag ip * (∑ l, f.area ip l / f.aMag ip *
        ∑ ic, symRow (∑ ic, f.shape ip ic * mu (f.node ic)) (f.dndx ip ic) (f.area ip) (fun i => u (ic, i)) l) else 0))
    (fun d a => ∑ ip, if a.1 = f.near ip then
      f.area ip a.2 / f.aMag ip * (∑ l, f.area ip l / f.aMag ip *
        ∑ ic, symRow (∑ ic, f.shape ip ic * mu (f.node ic)) (f.dndx ip ic) (f.area ip) (fun i => d (ic, i)) l) else 0)
    (fun u s a => ?_) (fun u s d a => symmetryElem_act 0 f mu _ s d a.1 a.2) ?_
  · rw [show a = (a.1, a.2) from rfl, symmetryElem_rhs]
    simp
  · intro q d a
    rw [← sum_sub_distrib]
    refine sum_congr rfl fun ip _ => ?_
    by_cases h : a.1 = f.near ip
    · simp only [if_pos h]
      have e : ∀ ic l, symRow (∑ ic, f.shape ip ic * mu (f.node ic)) (f.dndx ip ic) (f.area ip) (fun i => (q + d) (ic, i)) l =
          symRow (∑ ic, f.shape ip ic * mu (f.node ic)) (f.dndx ip ic) (f.area ip) (fun i => q (ic, i)) l +
          symRow (∑ ic, f.shape ip ic * mu (f.node ic)) (f.dndx ip ic) (f.area ip) (fun i => d (ic, i)) l := fun ic l => by
        simp only [symRow, ← sum_add_distrib, Pi.add_apply]
        exact sum_congr rfl fun _ _ => by ring
      simp only [e, sum_add_distrib, mul_add]
      ring
    · simp [if_neg h]

/-! Non-vacuity: the faces used above satisfy `UnitFace`; an aligned one. -/

example : UnitFace obliqueIp := ⟨by decide +kernel, by decide +kernel⟩
example : UnitFace skewIp := ⟨by decide +kernel, by decide +kernel⟩
example : UnitFace (⟨0, 1, ![0, 3], 3, 1⟩ : BcIp 2 2 ℚ) ∧ Aligned (⟨0, 1, ![0, 3], 3, 1⟩ : BcIp 2 2 ℚ) :=
  ⟨⟨by decide +kernel, by decide +kernel⟩, 1, by decide +kernel⟩
/-- Entrainment through the skew face: `mdot = -5`, no mesh motion, specified velocity `(1, 0)`. -/
example : let n : BcNodes 2 2 ℚ := { skewNodes with ubc := fun _ => ![1, 0] }
    (openAdvection ⟨0, 0, 0⟩ n { skewIp with mdot := -5 } ⟨fun _ _ => 0, fun _ => 0⟩).rhs (1, 0) = 1 / 5 := by decide +kernel

end Nalu.Bc
