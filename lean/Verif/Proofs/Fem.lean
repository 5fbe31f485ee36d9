import Verif.Spec.Fem
import Verif.Proofs.ElemKernel
import Verif.Proofs.ElemOpen
import Mathlib.Tactic.LinearCombination
import Mathlib.Algebra.BigOperators.Field

/-! # Closed forms of the finite-element kernels -/

set_option linter.unusedSectionVars false

namespace Nalu.Fem
open Nalu.Edge Nalu.Kernel

variable {K : Type*} [Field K] [LinearOrder K] [IsStrictOrderedRing K]
variable {nn nip nf nd : ℕ}

/-! ## Loops over rows -/

theorem rows_rhs {ι : Type*} [DecidableEq ι] (body : Fin nn → LocalSys ι K → LocalSys ι K)
    (ρ : Fin nn → ι) (δ : Fin nn → K) (a : ι) (s : LocalSys ι K)
    (h : ∀ ir s, (body ir s).rhs a = s.rhs a + if a = ρ ir then δ ir else 0) :
    (loop nn body s).rhs a = s.rhs a + ∑ ir, if a = ρ ir then δ ir else 0 := by
  rw [loop_rhs (a := a) (h := h)]

theorem row_rhs (body : Fin nn → LocalSys (Fin nn) K → LocalSys (Fin nn) K)
    (δ : Fin nn → K) (a : Fin nn) (s : LocalSys (Fin nn) K)
    (h : ∀ ir s, (body ir s).rhs a = s.rhs a + if a = ir then δ ir else 0) :
    (loop nn body s).rhs a = s.rhs a + δ a := by
  rw [loop_rhs (a := a) (h := h)]; simp

theorem row_act (body : Fin nn → LocalSys (Fin nn) K → LocalSys (Fin nn) K)
    (δ : Fin nn → K) (d : Fin nn → K) (a : Fin nn) (s : LocalSys (Fin nn) K)
    (h : ∀ ir s, act (body ir s) d a = act s d a + if a = ir then δ ir else 0) :
    act (loop nn body s) d a = act s d a + δ a := by
  rw [loop_act (a := a) (h := h)]; simp

/-- columns of one row, matrix part -/
theorem cols_act {ι : Type*} [DecidableEq ι] [Fintype ι] (m : ℕ) (r : ι) (c : Fin m → ι) (v : Fin m → K)
    (d : ι → K) (a : ι) (s : LocalSys ι K) :
    act (loop m (fun ic s => addL s r (c ic) (v ic)) s) d a =
      act s d a + if a = r then ∑ ic, v ic * d (c ic) else 0 := by
  rw [loop_act (a := a) (h := fun ic s => addL_act s r (c ic) a (v ic) d), ite_sum]

theorem cols_rhs {ι : Type*} [DecidableEq ι] (m : ℕ) (r : ι) (c : Fin m → ι) (v : Fin m → K)
    (a : ι) (s : LocalSys ι K) :
    (loop m (fun ic s => addL s r (c ic) (v ic)) s).rhs a = s.rhs a := by
  rw [loop_rhs (a := a) (δ := fun _ => 0) (h := fun ic s => by simp)]; simp

/-! ## Sums -/

theorem grad_swap (g : Fin nn → Fin nd → K) (w : Fin nn → K) (h : Fin nd → K) :
    ∑ a, w a * ∑ j, g a j * h j = dot (grad g w) h := by
  simp only [dot, grad, Finset.mul_sum, Finset.sum_mul]
  rw [Finset.sum_comm]
  exact Finset.sum_congr rfl fun _ _ => Finset.sum_congr rfl fun _ _ => by ring

theorem tested_of {ι : Type*} [Fintype ι] (k : LocalSys ι K → LocalSys ι K) (s : LocalSys ι K) (w : ι → K)
    (R : Fin nip → ι → K) (h : ∀ a, (k s).rhs a = s.rhs a + ∑ ip, R ip a) :
    tested k s w = ∑ ip, ∑ a, w a * R ip a := by
  simp only [tested, h, add_sub_cancel_left, Finset.mul_sum]
  exact Finset.sum_comm

theorem form_of {ι : Type*} [Fintype ι] (k : LocalSys ι K → LocalSys ι K) (s : LocalSys ι K) (w d : ι → K)
    (A : Fin nip → ι → K) (h : ∀ a, act (k s) d a = act s d a + ∑ ip, A ip a) :
    form k s w d = ∑ ip, ∑ a, w a * A ip a := by
  have : ∀ a, ∑ b, w a * ((k s).lhs a b - s.lhs a b) * d b = w a * ∑ ip, A ip a := by
    intro a
    have e : act (k s) d a - act s d a = ∑ ip, A ip a := by rw [h]; ring
    rw [← e, act, act, ← Finset.sum_sub_distrib, Finset.mul_sum]
    exact Finset.sum_congr rfl fun _ _ => by ring
  simp only [form, this, Finset.mul_sum]
  exact Finset.sum_comm

/-! ## Scalar volume kernels -/

theorem scalarDiff_rhs (e : Elem nn nip nd K) (mu q : Fin nn → K) (s : LocalSys (Fin nn) K) (a : Fin nn) :
    (scalarDiff e mu q s).rhs a = s.rhs a +
      ∑ ip, -((∑ j, e.dndx ip a j * grad (e.dndx ip) q j) * interp (e.shape ip) mu * e.fac ip) := by
  rw [scalarDiff, loop_rhs (a := a)]
  intro ip s
  simp only
  rw [row_rhs (h := fun ir s => by rw [addR_rhs, cols_rhs])]
  congr 4
  rw [Finset.sum_comm]
  simp only [grad, Finset.mul_sum, mul_assoc]

theorem scalarDiff_act (e : Elem nn nip nd K) (mu q : Fin nn → K) (s : LocalSys (Fin nn) K)
    (d : Fin nn → K) (a : Fin nn) :
    act (scalarDiff e mu q s) d a = act s d a +
      ∑ ip, (∑ j, e.dndx ip a j * grad (e.dndx ip) d j) * interp (e.shape ip) mu * e.fac ip := by
  rw [scalarDiff, loop_act (a := a)]
  intro ip s
  simp only
  rw [row_act (h := fun ir s => by rw [addR_act, cols_act])]
  congr 1
  simp only [grad, Finset.mul_sum, Finset.sum_mul]
  rw [Finset.sum_comm]
  exact Finset.sum_congr rfl fun _ _ => Finset.sum_congr rfl fun _ _ => by ring

theorem scalarAdv_rhs (e : Elem nn nip nd K) (rho : Fin nn → K) (u : Fin nn → Fin nd → K) (q : Fin nn → K)
    (s : LocalSys (Fin nn) K) (a : Fin nn) :
    (scalarAdv e rho u q s).rhs a = s.rhs a +
      ∑ ip, (∑ j, e.dndx ip a j * rhoU (e.shape ip) rho u j) * interp (e.shape ip) q * e.fac ip := by
  rw [scalarAdv, loop_rhs (a := a)]
  intro ip s
  simp only
  rw [row_rhs (h := fun ir s => by rw [addR_rhs, cols_rhs])]
  simp only [Finset.sum_neg_distrib, neg_mul, neg_neg, mul_comm (rhoU _ _ _ _)]

theorem scalarAdv_act (e : Elem nn nip nd K) (rho : Fin nn → K) (u : Fin nn → Fin nd → K) (q : Fin nn → K)
    (s : LocalSys (Fin nn) K) (d : Fin nn → K) (a : Fin nn) :
    act (scalarAdv e rho u q s) d a = act s d a +
      ∑ ip, -((∑ j, e.dndx ip a j * rhoU (e.shape ip) rho u j) * interp (e.shape ip) d * e.fac ip) := by
  rw [scalarAdv, loop_act (a := a)]
  intro ip s
  simp only
  rw [row_act (h := fun ir s => by rw [addR_act, cols_act])]
  simp only [Finset.sum_neg_distrib, neg_mul, mul_comm (rhoU _ _ _ _), interp, Finset.mul_sum, Finset.sum_mul]
  congr 2
  exact Finset.sum_congr rfl fun _ _ => Finset.sum_congr rfl fun _ _ => by ring

theorem scalarMass_rhs (b : Bdf K) (e : Elem nn nip nd K) (rho q : Levels nn K)
    (s : LocalSys (Fin nn) K) (a : Fin nn) :
    (scalarMass b e rho q s).rhs a = s.rhs a + ∑ ip, -(e.shape ip a *
      (b.g1 * interp (e.shape ip) q.np1 * interp (e.shape ip) rho.np1 +
        b.g2 * interp (e.shape ip) q.n * interp (e.shape ip) rho.n +
        b.g3 * interp (e.shape ip) q.nm1 * interp (e.shape ip) rho.nm1) / b.dt * e.fac ip) := by
  rw [scalarMass, loop_rhs (a := a)]
  intro ip s
  simp only
  rw [row_rhs (h := fun ir s => by rw [addR_rhs, cols_rhs])]

theorem scalarMass_act (b : Bdf K) (e : Elem nn nip nd K) (rho q : Levels nn K)
    (s : LocalSys (Fin nn) K) (d : Fin nn → K) (a : Fin nn) :
    act (scalarMass b e rho q s) d a = act s d a + ∑ ip, e.shape ip a *
      (b.g1 * interp (e.shape ip) d * interp (e.shape ip) rho.np1) / b.dt * e.fac ip := by
  rw [scalarMass, loop_act (a := a)]
  intro ip s
  simp only
  rw [row_act (h := fun ir s => by rw [addR_act, cols_act])]
  congr 1
  generalize interp (e.shape ip) rho.np1 = r
  simp only [interp, Finset.mul_sum, Finset.sum_mul, Finset.sum_div]
  exact Finset.sum_congr rfl fun _ _ => by ring

theorem heatMass_rhs (b : Bdf K) (e : Elem nn nip nd K) (rho cp : Fin nn → K) (t : Levels nn K)
    (s : LocalSys (Fin nn) K) (a : Fin nn) :
    (heatMass b e rho cp t s).rhs a = s.rhs a + ∑ ip, -(e.shape ip a *
      ((b.g1 * interp (e.shape ip) t.np1 + b.g2 * interp (e.shape ip) t.n +
        b.g3 * interp (e.shape ip) t.nm1) / b.dt *
        (interp (e.shape ip) rho * interp (e.shape ip) cp)) * e.fac ip) := by
  rw [heatMass, loop_rhs (a := a)]
  intro ip s
  simp only
  rw [row_rhs (h := fun ir s => by rw [addR_rhs, cols_rhs])]
  congr 2
  generalize interp (e.shape ip) rho = r
  generalize interp (e.shape ip) cp = c
  have : ∑ ic, e.shape ip a * e.shape ip ic * ((b.g1 * t.np1 ic + b.g2 * t.n ic + b.g3 * t.nm1 ic) / b.dt) =
      e.shape ip a * ((b.g1 * interp (e.shape ip) t.np1 + b.g2 * interp (e.shape ip) t.n +
        b.g3 * interp (e.shape ip) t.nm1) / b.dt) := by
    simp only [interp, Finset.mul_sum, ← Finset.sum_add_distrib, Finset.sum_div]
    exact Finset.sum_congr rfl fun _ _ => by ring
  rw [this, Elem.fac]; ring

theorem heatMass_act (b : Bdf K) (e : Elem nn nip nd K) (rho cp : Fin nn → K) (t : Levels nn K)
    (s : LocalSys (Fin nn) K) (d : Fin nn → K) (a : Fin nn) :
    act (heatMass b e rho cp t s) d a = act s d a + ∑ ip, e.shape ip a *
      (b.g1 * interp (e.shape ip) d / b.dt * (interp (e.shape ip) rho * interp (e.shape ip) cp)) *
        e.fac ip := by
  rw [heatMass, loop_act (a := a)]
  intro ip s
  simp only
  rw [row_act (h := fun ir s => by rw [addR_act, cols_act])]
  congr 1
  generalize interp (e.shape ip) rho = r
  generalize interp (e.shape ip) cp = c
  simp only [interp, Finset.mul_sum, Finset.sum_mul, Finset.sum_div, Elem.fac]
  exact Finset.sum_congr rfl fun _ _ => by ring

theorem continuityAdv_rhs (pts : K) (e : Elem nn nip nd K) (v : FlowNodes nn nd K)
    (s : LocalSys (Fin nn) K) (a : Fin nn) :
    (continuityAdv pts e v s).rhs a = s.rhs a + ∑ ip, (∑ j, e.dndx ip a j *
      stabFlux pts (e.shape ip) (e.dndx ip) v j) * e.fac ip / pts := by
  rw [continuityAdv, loop_rhs (a := a)]
  intro ip s
  simp only
  rw [row_rhs (h := fun ir s => by rw [addR_rhs, cols_rhs])]
  simp only [Finset.sum_neg_distrib, neg_mul, neg_div, neg_neg, mul_comm (stabFlux _ _ _ _ _)]

theorem continuityAdv_act (pts : K) (e : Elem nn nip nd K) (v : FlowNodes nn nd K)
    (s : LocalSys (Fin nn) K) (d : Fin nn → K) (a : Fin nn) :
    act (continuityAdv pts e v s) d a = act s d a + ∑ ip, (∑ j, e.dndx ip a j * grad (e.dndx ip) d j) *
      e.fac ip := by
  rw [continuityAdv, loop_act (a := a)]
  intro ip s
  simp only
  rw [row_act (h := fun ir s => by rw [addR_act, cols_act])]
  congr 1
  simp only [grad, Finset.mul_sum, Finset.sum_mul]
  rw [Finset.sum_comm]
  exact Finset.sum_congr rfl fun _ _ => Finset.sum_congr rfl fun _ _ => by ring

/-! ## Vector volume kernels -/

theorem vrow_rhs (body : Fin nn → LocalSys (Fin nn × Fin nd) K → LocalSys (Fin nn × Fin nd) K)
    (δ : Fin nn → K) (n : Fin nn) (k : Fin nd) (s : LocalSys (Fin nn × Fin nd) K)
    (h : ∀ ir s, (body ir s).rhs (n, k) = s.rhs (n, k) + if n = ir then δ ir else 0) :
    (loop nn body s).rhs (n, k) = s.rhs (n, k) + δ n := by
  rw [loop_rhs (a := (n, k)) (h := h)]; simp

theorem vrow_act (body : Fin nn → LocalSys (Fin nn × Fin nd) K → LocalSys (Fin nn × Fin nd) K)
    (δ : Fin nn → K) (d : Fin nn × Fin nd → K) (n : Fin nn) (k : Fin nd) (s : LocalSys (Fin nn × Fin nd) K)
    (h : ∀ ir s, act (body ir s) d (n, k) = act s d (n, k) + if n = ir then δ ir else 0) :
    act (loop nn body s) d (n, k) = act s d (n, k) + δ n := by
  rw [loop_act (a := (n, k)) (h := h)]; simp

/-- loop over components -/
theorem comp_rhs (m : Fin nn) (body : Fin nd → LocalSys (Fin nn × Fin nd) K → LocalSys (Fin nn × Fin nd) K)
    (δ : Fin nd → K) (n : Fin nn) (k : Fin nd) (s : LocalSys (Fin nn × Fin nd) K)
    (h : ∀ i s, (body i s).rhs (n, k) = s.rhs (n, k) + if (n, k) = (m, i) then δ i else 0) :
    (loop nd body s).rhs (n, k) = s.rhs (n, k) + if n = m then δ k else 0 := by
  rw [loop_rhs (a := (n, k)) (h := h), sum_ite_pair]

theorem comp_act (m : Fin nn) (body : Fin nd → LocalSys (Fin nn × Fin nd) K → LocalSys (Fin nn × Fin nd) K)
    (δ : Fin nd → K) (d : Fin nn × Fin nd → K) (n : Fin nn) (k : Fin nd) (s : LocalSys (Fin nn × Fin nd) K)
    (h : ∀ i s, act (body i s) d (n, k) = act s d (n, k) + if (n, k) = (m, i) then δ i else 0) :
    act (loop nd body s) d (n, k) = act s d (n, k) + if n = m then δ k else 0 := by
  rw [loop_act (a := (n, k)) (h := h), sum_ite_pair]

theorem png_rhs (e : Elem nn nip nd K) (q : Fin nn → K) (G : Fin nn → Fin nd → K)
    (s : LocalSys (Fin nn × Fin nd) K) (n : Fin nn) (k : Fin nd) :
    (png e q G s).rhs (n, k) = s.rhs (n, k) + ∑ ip, -((e.shape ip n * (∑ ic, e.shape ip ic * G ic k) +
      e.dndx ip n k * interp (e.shape ip) q) * e.fac ip) := by
  rw [png, loop_rhs (a := (n, k))]
  intro ip s
  simp only
  rw [vrow_rhs]
  intro ir s
  rw [comp_rhs (m := ir) (h := fun j s => by rw [addR_rhs, cols_rhs])]

theorem png_act (e : Elem nn nip nd K) (q : Fin nn → K) (G : Fin nn → Fin nd → K)
    (s : LocalSys (Fin nn × Fin nd) K) (d : Fin nn × Fin nd → K) (n : Fin nn) (k : Fin nd) :
    act (png e q G s) d (n, k) = act s d (n, k) +
      ∑ ip, e.shape ip n * (∑ ic, e.shape ip ic * d (ic, k)) * e.fac ip := by
  rw [png, loop_act (a := (n, k))]
  intro ip s
  simp only
  rw [vrow_act]
  intro ir s
  rw [comp_act (m := ir) (h := fun j s => by
    rw [addR_act, cols_act (c := fun ic => (ic, j))])]
  congr 1
  by_cases h : n = ir
  · simp only [h, if_true, Finset.mul_sum, Finset.sum_mul]
    exact Finset.sum_congr rfl fun _ _ => by ring
  · simp [h]

theorem momentumMass_rhs (b : Bdf K) (e : Elem nn nip nd K) (rho : Levels nn K) (u : VLevels nn nd K)
    (Gp : Fin nn → Fin nd → K) (s : LocalSys (Fin nn × Fin nd) K) (n : Fin nn) (k : Fin nd) :
    (momentumMass b e rho u Gp s).rhs (n, k) = s.rhs (n, k) + ∑ ip, -(e.shape ip n *
      ((b.g1 * interp (e.shape ip) rho.np1 * val (e.shape ip) (fun c => u.np1 c k) +
        b.g2 * interp (e.shape ip) rho.n * val (e.shape ip) (fun c => u.n c k) +
        b.g3 * interp (e.shape ip) rho.nm1 * val (e.shape ip) (fun c => u.nm1 c k)) / b.dt +
        val (e.shape ip) fun c => Gp c k) * e.fac ip) := by
  rw [momentumMass, loop_rhs (a := (n, k))]
  intro ip s
  simp only
  generalize interp (e.shape ip) rho.np1 = r1
  generalize interp (e.shape ip) rho.n = r2
  generalize interp (e.shape ip) rho.nm1 = r3
  rw [vrow_rhs (δ := fun ir => ∑ ic, -(e.shape ip ir * ((b.g1 * r1 * u.np1 ic k + b.g2 * r2 * u.n ic k +
        b.g3 * r3 * u.nm1 ic k) / b.dt + Gp ic k) * e.shape ip ic * e.fac ip))]
  · congr 1
    simp only [val, Finset.mul_sum, ← Finset.sum_add_distrib, Finset.sum_div, Finset.sum_mul,
      ← Finset.sum_neg_distrib]
    exact Finset.sum_congr rfl fun _ _ => by ring
  · intro ir s
    rw [loop_rhs (a := (n, k)) (h := fun ic s => by
      rw [comp_rhs (m := ir) (h := fun i s => by rw [addR_rhs, addL_rhs])]), ite_sum]

theorem momentumMass_act (b : Bdf K) (e : Elem nn nip nd K) (rho : Levels nn K) (u : VLevels nn nd K)
    (Gp : Fin nn → Fin nd → K) (s : LocalSys (Fin nn × Fin nd) K) (d : Fin nn × Fin nd → K)
    (n : Fin nn) (k : Fin nd) :
    act (momentumMass b e rho u Gp s) d (n, k) = act s d (n, k) + ∑ ip, e.shape ip n *
      (b.g1 * interp (e.shape ip) rho.np1 * val (e.shape ip) (fun c => d (c, k)) / b.dt) * e.fac ip := by
  rw [momentumMass, loop_act (a := (n, k))]
  intro ip s
  simp only
  generalize interp (e.shape ip) rho.np1 = r1
  rw [vrow_act (δ := fun ir => ∑ ic, e.shape ip ir * b.g1 * r1 * e.shape ip ic / b.dt * e.fac ip * d (ic, k))]
  · congr 1
    simp only [val, Finset.mul_sum, Finset.sum_div, Finset.sum_mul]
    exact Finset.sum_congr rfl fun _ _ => by ring
  · intro ir s
    rw [loop_act (a := (n, k)) (h := fun ic s => by
      rw [comp_act (m := ir) (δ := fun i => e.shape ip ir * b.g1 * r1 * e.shape ip ic / b.dt * e.fac ip * d (ic, i))
        (h := fun i s => by rw [addR_act, addL_act])]), ite_sum]

theorem bodyForce_rhs (e : Elem nn nip nd K) (f : Fin nd → K) (s : LocalSys (Fin nn × Fin nd) K)
    (n : Fin nn) (k : Fin nd) :
    (bodyForce e f s).rhs (n, k) = s.rhs (n, k) + ∑ ip, e.shape ip n * f k * e.fac ip := by
  rw [bodyForce, loop_rhs (a := (n, k))]
  intro ip s
  rw [vrow_rhs]
  intro ir s
  rw [comp_rhs (m := ir) (h := fun j s => by rw [addR_rhs])]

theorem momentumAdv_rhs (pts incP skew : K) (e : Elem nn nip nd K) (v : FlowNodes nn nd K)
    (u : Fin nn → Fin nd → K) (s : LocalSys (Fin nn × Fin nd) K) (n : Fin nn) (k : Fin nd) :
    (momentumAdv pts incP skew e v u s).rhs (n, k) = s.rhs (n, k) + ∑ ip,
      (skew * (∑ j, e.dndx ip n j * stabFlux (incP * pts) (e.shape ip) (e.dndx ip) v j) *
          val (e.shape ip) (fun c => u c k) -
        (1 - skew) * e.shape ip n * ((∑ j, rhoU (e.shape ip) v.rho v.vrtm j *
          (grad (e.dndx ip) (fun c => u c j) k + grad (e.dndx ip) (fun c => u c k) j)))) * e.fac ip := by
  rw [momentumAdv, loop_rhs (a := (n, k))]
  intro ip s
  simp only
  generalize rhoU (e.shape ip) v.rho v.vrtm = m
  generalize stabFlux (incP * pts) (e.shape ip) (e.dndx ip) v = F
  generalize (1 - skew) = om
  rw [vrow_rhs (δ := fun ir => ∑ ic, (-(skew * (∑ j, -(F j * e.dndx ip ir j)) * e.shape ip ic * e.fac ip * u ic k) +
      (∑ j, -(om * e.shape ip ir * m j * e.dndx ip ic k * e.fac ip * u ic j)) +
      -((∑ j, om * e.shape ip ir * m j * e.dndx ip ic j * e.fac ip) * u ic k)))]
  · congr 1
    simp only [val, grad, Finset.sum_add_distrib, Finset.sum_neg_distrib, Finset.mul_sum, Finset.sum_mul,
      mul_add, sub_mul, add_mul]
    rw [Finset.sum_comm (f := fun ic j => om * e.shape ip n * m j * e.dndx ip ic k * e.fac ip * u ic j),
      Finset.sum_comm (f := fun ic j => om * e.shape ip n * m j * e.dndx ip ic j * e.fac ip * u ic k)]
    simp only [mul_neg, neg_mul, neg_neg]
    rw [sub_eq_add_neg, neg_add, add_assoc]
    refine congrArg₂ (· + ·) ?_ (congrArg₂ (· + ·) ?_ ?_)
    · simp only [Finset.sum_neg_distrib, neg_neg, Finset.mul_sum, Finset.sum_mul]
      exact Finset.sum_congr rfl fun _ _ => Finset.sum_congr rfl fun _ _ => by ring
    · refine congrArg _ (Finset.sum_congr rfl fun _ _ => Finset.sum_congr rfl fun _ _ => by ring)
    · refine congrArg _ (Finset.sum_congr rfl fun _ _ => Finset.sum_congr rfl fun _ _ => by ring)
  · intro ir s
    rw [loop_rhs (a := (n, k)) (δ := fun ic => if n = ir then
      (-(skew * (∑ j, -(F j * e.dndx ip ir j)) * e.shape ip ic * e.fac ip * u ic k) +
      (∑ j, -(om * e.shape ip ir * m j * e.dndx ip ic k * e.fac ip * u ic j)) +
      -((∑ j, om * e.shape ip ir * m j * e.dndx ip ic j * e.fac ip) * u ic k)) else 0), ite_sum]
    intro ic s
    rw [comp_rhs (m := ir)]
    intro i s
    rw [addR_rhs, addL_rhs, loop_rhs (a := (n, k)) (h := fun j s => by rw [addR_rhs, addL_rhs]), addR_rhs, addL_rhs,
      ite_sum]
    by_cases h : (n, k) = (ir, i)
    · simp only [h, if_true]; ring
    · simp [h]

theorem momentumAdv_act (pts incP skew : K) (e : Elem nn nip nd K) (v : FlowNodes nn nd K)
    (u : Fin nn → Fin nd → K) (s : LocalSys (Fin nn × Fin nd) K) (d : Fin nn × Fin nd → K)
    (n : Fin nn) (k : Fin nd) :
    act (momentumAdv pts incP skew e v u s) d (n, k) = act s d (n, k) + ∑ ip,
      -((skew * (∑ j, e.dndx ip n j * stabFlux (incP * pts) (e.shape ip) (e.dndx ip) v j) *
          val (e.shape ip) (fun c => d (c, k)) -
        (1 - skew) * e.shape ip n * ((∑ j, rhoU (e.shape ip) v.rho v.vrtm j *
          (grad (e.dndx ip) (fun c => d (c, k)) j)))) * e.fac ip) := by
  rw [momentumAdv, loop_act (a := (n, k))]
  intro ip s
  simp only
  generalize rhoU (e.shape ip) v.rho v.vrtm = m
  generalize stabFlux (incP * pts) (e.shape ip) (e.dndx ip) v = F
  generalize (1 - skew) = om
  rw [vrow_act (δ := fun ir => ∑ ic, (skew * (∑ j, -(F j * e.dndx ip ir j)) * e.shape ip ic * e.fac ip * d (ic, k) +
      (∑ j, om * e.shape ip ir * m j * e.dndx ip ic j * e.fac ip) * d (ic, k)))]
  · congr 1
    simp only [val, grad, Finset.sum_add_distrib, Finset.sum_neg_distrib, Finset.mul_sum, Finset.sum_mul,
      mul_add, sub_mul, add_mul]
    rw [Finset.sum_comm (f := fun ic j => om * e.shape ip n * m j * e.dndx ip ic j * e.fac ip * d (ic, k))]
    simp only [mul_neg, neg_mul]
    rw [neg_sub, sub_eq_add_neg, add_comm]
    refine congrArg₂ (· + ·) ?_ ?_
    · exact Finset.sum_congr rfl fun _ _ => Finset.sum_congr rfl fun _ _ => by ring
    · simp only [Finset.sum_neg_distrib, Finset.mul_sum, Finset.sum_mul]
      refine congrArg _ (Finset.sum_congr rfl fun _ _ => Finset.sum_congr rfl fun _ _ => by ring)
  · intro ir s
    rw [loop_act (a := (n, k)) (δ := fun ic => if n = ir then
      (skew * (∑ j, -(F j * e.dndx ip ir j)) * e.shape ip ic * e.fac ip * d (ic, k) +
      (∑ j, om * e.shape ip ir * m j * e.dndx ip ic j * e.fac ip) * d (ic, k)) else 0), ite_sum]
    intro ic s
    rw [comp_act (m := ir) (δ := fun i => 
      (skew * (∑ j, -(F j * e.dndx ip ir j)) * e.shape ip ic * e.fac ip * d (ic, i) +
      (∑ j, om * e.shape ip ir * m j * e.dndx ip ic j * e.fac ip) * d (ic, i)))]
    intro i s
    rw [addR_act, addL_act, loop_act (a := (n, k)) (δ := fun _ => 0)
      (h := fun j s => by rw [addR_act, addL_act]; simp), addR_act, addL_act]
    by_cases h : (n, k) = (ir, i)
    · simp only [h, if_true]; simp; ring
    · simp [h]

theorem momentumDiff_rhs (inc : K) (e : Elem nn nip nd K) (mu : Fin nn → K) (u : Fin nn → Fin nd → K)
    (s : LocalSys (Fin nn × Fin nd) K) (n : Fin nn) (k : Fin nd) :
    (momentumDiff inc e mu u s).rhs (n, k) = s.rhs (n, k) + ∑ ip,
      -(((∑ j, e.dndx ip n j * (val (e.shape ip) mu * (grad (e.dndx ip) (fun c => u c k) j +
          grad (e.dndx ip) (fun c => u c j) k))) -
        e.dndx ip n k * (nn * (2 / 3 * val (e.shape ip) mu * divIp (e.dndx ip) u * inc))) * e.fac ip) := by
  rw [momentumDiff, loop_rhs (a := (n, k))]
  intro ip s
  simp only
  have hm : ∑ ic, mu ic * e.shape ip ic = val (e.shape ip) mu := by simp only [val, mul_comm]
  rw [hm]
  generalize val (e.shape ip) mu = m
  generalize 2 / 3 * m * divIp (e.dndx ip) u * inc = D
  rw [vrow_rhs (δ := fun ir => ∑ ic, (-(-D * e.dndx ip ir k * e.fac ip) +
      (∑ j, -(m * e.dndx ip ir j * e.dndx ip ic k * e.fac ip * u ic j)) +
      -((∑ j, m * e.dndx ip ir j * e.dndx ip ic j * e.fac ip) * u ic k)))]
  · congr 1
    simp only [grad, Finset.sum_add_distrib, Finset.sum_neg_distrib, Finset.mul_sum, Finset.sum_mul,
      mul_add, sub_mul, add_mul, Finset.sum_const, Finset.card_univ, Fintype.card_fin, nsmul_eq_mul]
    rw [Finset.sum_comm (f := fun ic j => m * e.dndx ip n j * e.dndx ip ic k * e.fac ip * u ic j),
      Finset.sum_comm (f := fun ic j => m * e.dndx ip n j * e.dndx ip ic j * e.fac ip * u ic k)]
    rw [neg_sub, sub_eq_add_neg, neg_add, add_assoc]
    refine congrArg₂ (· + ·) (by ring) ?_
    rw [add_comm]
    refine congrArg₂ (· + ·) ?_ ?_
    · refine congrArg _ (Finset.sum_congr rfl fun _ _ => Finset.sum_congr rfl fun _ _ => by ring)
    · refine congrArg _ (Finset.sum_congr rfl fun _ _ => Finset.sum_congr rfl fun _ _ => by ring)
  · intro ir s
    rw [loop_rhs (a := (n, k)) (δ := fun ic => if n = ir then (-(-D * e.dndx ip ir k * e.fac ip) +
      (∑ j, -(m * e.dndx ip ir j * e.dndx ip ic k * e.fac ip * u ic j)) +
      -((∑ j, m * e.dndx ip ir j * e.dndx ip ic j * e.fac ip) * u ic k)) else 0), ite_sum]
    intro ic s
    rw [comp_rhs (m := ir)]
    intro i s
    rw [addR_rhs, addL_rhs, loop_rhs (a := (n, k)) (h := fun j s => by rw [addR_rhs, addL_rhs]), addR_rhs,
      ite_sum]
    by_cases h : (n, k) = (ir, i)
    · simp only [h, if_true]; ring
    · simp [h]

theorem momentumDiff_act (inc : K) (e : Elem nn nip nd K) (mu : Fin nn → K) (u : Fin nn → Fin nd → K)
    (s : LocalSys (Fin nn × Fin nd) K) (d : Fin nn × Fin nd → K) (n : Fin nn) (k : Fin nd) :
    act (momentumDiff inc e mu u s) d (n, k) = act s d (n, k) + ∑ ip,
      (∑ j, e.dndx ip n j * (val (e.shape ip) mu * (grad (e.dndx ip) (fun c => d (c, k)) j +
          grad (e.dndx ip) (fun c => d (c, j)) k))) * e.fac ip := by
  rw [momentumDiff, loop_act (a := (n, k))]
  intro ip s
  simp only
  have hm : ∑ ic, mu ic * e.shape ip ic = val (e.shape ip) mu := by simp only [val, mul_comm]
  rw [hm]
  generalize val (e.shape ip) mu = m
  rw [vrow_act (δ := fun ir => ∑ ic,
      ((∑ j, m * e.dndx ip ir j * e.dndx ip ic k * e.fac ip * d (ic, j)) +
      (∑ j, m * e.dndx ip ir j * e.dndx ip ic j * e.fac ip) * d (ic, k)))]
  · congr 1
    simp only [grad, Finset.sum_add_distrib, Finset.mul_sum, Finset.sum_mul, mul_add, add_mul]
    rw [Finset.sum_comm (f := fun ic j => m * e.dndx ip n j * e.dndx ip ic k * e.fac ip * d (ic, j)),
      Finset.sum_comm (f := fun ic j => m * e.dndx ip n j * e.dndx ip ic j * e.fac ip * d (ic, k))]
    rw [add_comm]
    refine congrArg₂ (· + ·) ?_ ?_
    · exact Finset.sum_congr rfl fun _ _ => Finset.sum_congr rfl fun _ _ => by ring
    · exact Finset.sum_congr rfl fun _ _ => Finset.sum_congr rfl fun _ _ => by ring
  · intro ir s
    rw [loop_act (a := (n, k)) (δ := fun ic => if n = ir then 
      ((∑ j, m * e.dndx ip ir j * e.dndx ip ic k * e.fac ip * d (ic, j)) +
      (∑ j, m * e.dndx ip ir j * e.dndx ip ic j * e.fac ip) * d (ic, k)) else 0), ite_sum]
    intro ic s
    rw [comp_act (m := ir) (δ := fun i =>
      ((∑ j, m * e.dndx ip ir j * e.dndx ip ic i * e.fac ip * d (ic, j)) +
      (∑ j, m * e.dndx ip ir j * e.dndx ip ic j * e.fac ip) * d (ic, i)))]
    intro i s
    rw [addR_act, addL_act, loop_act (a := (n, k)) (h := fun j s => by rw [addR_act, addL_act]), addR_act,
      ite_sum]
    by_cases h : (n, k) = (ir, i)
    · simp only [h, if_true]; ring
    · simp [h]

end Nalu.Fem
