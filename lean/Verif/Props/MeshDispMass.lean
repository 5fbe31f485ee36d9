import Verif.Proofs.MeshDisp
import Verif.Props.Time
import Verif.Props.MeshDisp

/-!
# C170, C172 - C174: inertia, material constants, motion and pressure load of the deforming mesh
-/

namespace Nalu.MeshDisp
open Nalu.Edge Nalu.Kernel Nalu.MeshDisp.Spec Polynomial

variable {K : Type*} [Field K] [LinearOrder K] [IsStrictOrderedRing K] {nn nip nf nd : ℕ}

/-! ## C170 -/

theorem mass_rhs (dt dtNm1 : K) (e : Scv nn nip K) (rho : Fin nn → K) (u1 u0 um : Fin nn → Fin nd → K)
    (s : LocalSys (Fin nn × Fin nd) K) (n : Fin nn) (k : Fin nd) :
    (mass dt dtNm1 e rho u1 u0 um s).rhs (n, k) = s.rhs (n, k) + ∑ ip, if n = e.node ip then
      -(interp (e.shape ip) rho * ((massGamma dt dtNm1).1 * coordIp (e.shape ip) u1 k
        + (massGamma dt dtNm1).2.1 * coordIp (e.shape ip) u0 k + (massGamma dt dtNm1).2.2 * coordIp (e.shape ip) um k) * e.vol ip)
      else 0 := by
  rw [mass, loop_rhs (a := (n, k))]
  intro ip s
  simp only
  rw [loop_rhs (a := (n, k)) (δ := fun j => if (n, k) = (e.node ip, j) then
      -(interp (e.shape ip) rho * ((massGamma dt dtNm1).1 * coordIp (e.shape ip) u1 j
        + (massGamma dt dtNm1).2.1 * coordIp (e.shape ip) u0 j + (massGamma dt dtNm1).2.2 * coordIp (e.shape ip) um j) * e.vol ip)
      else 0), sum_ite_pair, loop_rhs (a := (n, k)) (δ := fun _ => 0)]
  · simp
  · intro ic s
    rw [loop_rhs (a := (n, k)) (δ := fun _ => 0)]
    · simp
    · intro j s; simp
  · intro j s
    simp only [addR_rhs]

theorem mass_act (dt dtNm1 : K) (e : Scv nn nip K) (rho : Fin nn → K) (u1 u0 um : Fin nn → Fin nd → K)
    (s : LocalSys (Fin nn × Fin nd) K) (d : Fin nn × Fin nd → K) (n : Fin nn) (k : Fin nd) :
    act (mass dt dtNm1 e rho u1 u0 um s) d (n, k) = act s d (n, k) + ∑ ip, if n = e.node ip then
      interp (e.shape ip) rho * ((massGamma dt dtNm1).1 * coordIp (e.shape ip) (fun n j => d (n, j)) k) * e.vol ip else 0 := by
  rw [mass, loop_act (a := (n, k))]
  intro ip s
  simp only
  rw [loop_act (a := (n, k)) (δ := fun _ => 0), loop_act (a := (n, k)) (δ := fun ic => if n = e.node ip then
      interp (e.shape ip) rho * e.shape ip ic * (massGamma dt dtNm1).1 * e.vol ip * d (ic, k) else 0)]
  · simp only [Finset.sum_const_zero, add_zero]
    congr 1
    split_ifs
    · rw [coordIp, Finset.mul_sum, Finset.mul_sum, Finset.sum_mul]
      exact Finset.sum_congr rfl fun ic _ => by ring
    · simp
  · intro ic s
    rw [loop_act (a := (n, k)) (δ := fun j => if (n, k) = (e.node ip, j) then
      interp (e.shape ip) rho * e.shape ip ic * (massGamma dt dtNm1).1 * e.vol ip * d (ic, j) else 0), sum_ite_pair]
    intro j s
    simp only [addL_act]
  · intro j s; simp

/-- What the kernel takes for the second derivative in time of a function with these three values. -/
def accel (dt dtNm1 q1 q0 qm : K) : K :=
  (massGamma dt dtNm1).1 * q1 + (massGamma dt dtNm1).2.1 * q0 + (massGamma dt dtNm1).2.2 * qm

theorem coordIp_accel (dt dtNm1 : K) (r : Fin nn → K) (u1 u0 um : Fin nn → Fin nd → K) (k : Fin nd) :
    (massGamma dt dtNm1).1 * coordIp r u1 k + (massGamma dt dtNm1).2.1 * coordIp r u0 k + (massGamma dt dtNm1).2.2 * coordIp r um k
      = ∑ ic, r ic * accel dt dtNm1 (u1 ic k) (u0 ic k) (um ic k) := by
  simp only [coordIp, accel, Finset.mul_sum, ← Finset.sum_add_distrib]
  exact Finset.sum_congr rfl fun ic _ => by ring

theorem accel_quadratic (dt dtNm1 t : K) (hdt : 0 < dt) (hm : 0 < dtNm1) (p : K[X]) (hp : p.natDegree ≤ 2) :
    accel dt dtNm1 (p.eval t) (p.eval (t - dt)) (p.eval (t - dt - dtNm1))
      = (dt + dtNm1) / (dt + 2 * dtNm1) * p.derivative.derivative.eval t := by
  have h1 : dt + 2 * dtNm1 ≠ 0 := by positivity
  have h2 : 1 / 2 * dt + dtNm1 ≠ 0 := by positivity
  have h0 := hdt.ne'
  have hm0 := hm.ne'
  have hp3 : p = C (p.coeff 0) + C (p.coeff 1) * X + C (p.coeff 2) * X ^ 2 := by
    ext n
    rcases n with _ | _ | _ | n
    · simp
    · simp
    · simp [coeff_X, coeff_C]
    · have : p.natDegree < n + 3 := by omega
      simp [coeff_eq_zero_of_natDegree_lt this, coeff_X, coeff_C, coeff_X_pow]
  generalize p.coeff 0 = a at hp3
  generalize p.coeff 1 = b at hp3
  generalize p.coeff 2 = c at hp3
  subst hp3
  have hd : (derivative (derivative (C a + C b * X + C c * X ^ 2))).eval t = 2 * c := by
    simp; ring
  rw [hd]
  simp only [accel, massGamma, eval_add, eval_mul, eval_C, eval_X, eval_pow]
  have e1 : (1 / 2 * dt + dtNm1) = (dt + 2 * dtNm1) / 2 := by ring
  rw [e1]
  field_simp
  ring

/-- C170: what inertia contributes when every node moves as a polynomial of degree at most two in time, any density and element:
the density-weighted interpolated acceleration over the sub-control volumes, but times `(Δt + Δt_old) / (Δt + 2 Δt_old)`.  The full
property has the factor one here; it is missing because the code divides by `Δt/2 + Δt_old` in place of `(Δt + Δt_old)/2`. -/
theorem c170_inertia_partial (dt dtNm1 t : K) (hdt : 0 < dt) (hm : 0 < dtNm1) (e : Scv nn nip K) (rho : Fin nn → K)
    (p : Fin nn → Fin nd → K[X]) (hp : ∀ n k, (p n k).natDegree ≤ 2) (s : LocalSys (Fin nn × Fin nd) K) (n : Fin nn) (k : Fin nd) :
    (mass dt dtNm1 e rho (fun n k => (p n k).eval t) (fun n k => (p n k).eval (t - dt)) (fun n k => (p n k).eval (t - dt - dtNm1)) s).rhs
        (n, k)
      = s.rhs (n, k) - (dt + dtNm1) / (dt + 2 * dtNm1) * ∑ ip, if n = e.node ip then
          interp (e.shape ip) rho * interp (e.shape ip) (fun ic => (p ic k).derivative.derivative.eval t) * e.vol ip else 0 := by
  rw [mass_rhs, sub_eq_add_neg (s.rhs (n, k)), Finset.mul_sum, ← Finset.sum_neg_distrib]
  congr 1
  refine Finset.sum_congr rfl fun ip _ => ?_
  rw [coordIp_accel]
  split_ifs
  · simp only [accel_quadratic dt dtNm1 t hdt hm _ (hp _ _), interp, Finset.mul_sum, Finset.sum_mul, ← Finset.sum_neg_distrib]
    refine Finset.sum_congr rfl fun a _ => Finset.sum_congr rfl fun b _ => ?_
    ring
  · simp

/-- C170: uniform motion meets no inertia. -/
theorem c170_uniform (dt dtNm1 t : K) (hdt : 0 < dt) (hm : 0 < dtNm1) (e : Scv nn nip K) (rho : Fin nn → K)
    (a b : Fin nn → Fin nd → K) (s : LocalSys (Fin nn × Fin nd) K) (r : Fin nn × Fin nd) :
    (mass dt dtNm1 e rho (fun n k => a n k + b n k * t) (fun n k => a n k + b n k * (t - dt))
      (fun n k => a n k + b n k * (t - dt - dtNm1)) s).rhs r = s.rhs r := by
  obtain ⟨n, k⟩ := r
  have h := c170_inertia_partial dt dtNm1 t hdt hm e rho (fun n k => C (a n k) + C (b n k) * X) (by
    intro n k
    refine (natDegree_add_le _ _).trans (max_le (by simp) ((natDegree_C_mul_le _ _).trans (by simp)))) s n k
  simp only [eval_add, eval_C, eval_mul, eval_X] at h
  rw [h]
  simp [interp]

/-- C170: the acceleration is never the right one: for every pair of positive steps and every accelerated motion the kernel's value
differs from the second derivative; with equal steps it is two thirds of it. -/
theorem c170_wrong_acceleration (dt dtNm1 t : K) (hdt : 0 < dt) (hm : 0 < dtNm1) (p : K[X]) (hp : p.natDegree ≤ 2)
    (ha : p.derivative.derivative.eval t ≠ 0) :
    accel dt dtNm1 (p.eval t) (p.eval (t - dt)) (p.eval (t - dt - dtNm1)) ≠ p.derivative.derivative.eval t
    ∧ accel dt dt (p.eval t) (p.eval (t - dt)) (p.eval (t - dt - dt)) = 2 / 3 * p.derivative.derivative.eval t := by
  constructor
  · rw [accel_quadratic dt dtNm1 t hdt hm p hp]
    intro h
    have h1 : dt + 2 * dtNm1 ≠ 0 := by positivity
    have h2 : (dt + dtNm1) / (dt + 2 * dtNm1) = 1 := mul_right_cancel₀ ha (by rw [h, one_mul])
    rw [div_eq_one_iff_eq h1] at h2
    linarith
  · rw [accel_quadratic dt dt t hdt hdt p hp]
    congr 1
    field_simp; ring

/-- C170: with two states the kernel reads the displacement at `N` also for `NM1`: a mesh in uniform motion `a + b t` is
decelerated by `b / (Δt/2 + Δt_old)`. -/
theorem c170_two_states (dt dtNm1 t : K) (hdt : 0 < dt) (hm : 0 < dtNm1) (e : Scv nn nip K) (rho : Fin nn → K)
    (a b : Fin nn → Fin nd → K) (uNm1 : Fin nn → Fin nd → K) (s : LocalSys (Fin nn × Fin nd) K) (n : Fin nn) (k : Fin nd) :
    (mass dt dtNm1 e rho (fun n k => a n k + b n k * t) (fun n k => a n k + b n k * (t - dt))
      (oldState 2 (fun n k => a n k + b n k * (t - dt)) uNm1) s).rhs (n, k)
      = s.rhs (n, k) - ∑ ip, if n = e.node ip then
          interp (e.shape ip) rho * interp (e.shape ip) (fun ic => b ic k / (dt / 2 + dtNm1)) * e.vol ip else 0 := by
  have h2 : dt / 2 + dtNm1 ≠ 0 := by positivity
  have h0 := hdt.ne'
  have hm0 := hm.ne'
  have hacc : ∀ ic, accel dt dtNm1 (a ic k + b ic k * t) (a ic k + b ic k * (t - dt)) (a ic k + b ic k * (t - dt))
      = b ic k / (dt / 2 + dtNm1) := by
    intro ic
    have e1 : (1 / 2 * dt + dtNm1) = dt / 2 + dtNm1 := by ring
    simp only [accel, massGamma, e1]
    generalize dt / 2 + dtNm1 = D at h2
    field_simp
    ring
  rw [oldState, if_pos rfl, mass_rhs, sub_eq_add_neg (s.rhs (n, k)), ← Finset.sum_neg_distrib]
  congr 1
  refine Finset.sum_congr rfl fun ip _ => ?_
  rw [coordIp_accel]
  simp only [hacc, interp]
  split_ifs <;> simp

/-- C170: the matrix is the exact derivative with respect to the new displacement. -/
theorem c170_newton (dt dtNm1 : K) (e : Scv nn nip K) (rho : Fin nn → K) (u0 um : Fin nn → Fin nd → K) :
    ExactNewton (fun q : Fin nn × Fin nd → K => mass dt dtNm1 e rho (fun n j => q (n, j)) u0 um) := by
  refine newton_of _ (fun q a => ∑ ip, if a.1 = e.node ip then
      -(interp (e.shape ip) rho * ((massGamma dt dtNm1).1 * coordIp (e.shape ip) (fun n j => q (n, j)) a.2
        + (massGamma dt dtNm1).2.1 * coordIp (e.shape ip) u0 a.2 + (massGamma dt dtNm1).2.2 * coordIp (e.shape ip) um a.2) * e.vol ip)
      else 0)
    (fun d a => ∑ ip, if a.1 = e.node ip then
      interp (e.shape ip) rho * ((massGamma dt dtNm1).1 * coordIp (e.shape ip) (fun n j => d (n, j)) a.2) * e.vol ip else 0) ?_ ?_ ?_
  · rintro q s ⟨n, k⟩; rw [mass_rhs]
  · rintro q s d ⟨n, k⟩; rw [mass_act]
  · rintro q d ⟨n, k⟩
    rw [← Finset.sum_sub_distrib]
    refine Finset.sum_congr rfl fun ip _ => ?_
    split_ifs
    · simp only [coordIp, Pi.add_apply, mul_add, Finset.sum_add_distrib]; ring
    · simp

/-- C170: in total over the nodes, each direction feels minus the volume integral of density times the kernel's acceleration: nothing is
lost or counted twice. -/
theorem c170_total (dt dtNm1 : K) (e : Scv nn nip K) (rho : Fin nn → K) (u1 u0 um : Fin nn → Fin nd → K)
    (s : LocalSys (Fin nn × Fin nd) K) (k : Fin nd) :
    ∑ n, (mass dt dtNm1 e rho u1 u0 um s).rhs (n, k) = (∑ n, s.rhs (n, k))
      - ∑ ip, interp (e.shape ip) rho * interp (e.shape ip) (fun ic => accel dt dtNm1 (u1 ic k) (u0 ic k) (um ic k)) * e.vol ip := by
  simp only [mass_rhs, Finset.sum_add_distrib, coordIp_accel]
  rw [Finset.sum_comm, sub_eq_add_neg, ← Finset.sum_neg_distrib]
  congr 1
  refine Finset.sum_congr rfl fun ip _ => ?_
  rw [Finset.sum_ite_eq' Finset.univ (e.node ip)]
  simp [interp]

/-- C170: the hypotheses are met: a node falling as `t²`, steps `1` and `1`, feels `2/3` of its weight times acceleration. -/
theorem c170_instance : accel (1 : ℚ) 1 (4 ^ 2) (3 ^ 2) (2 ^ 2) = 4 / 3 ∧ (2 : ℚ) ≠ 4 / 3 := by
  constructor
  · simp [accel, massGamma]; norm_num
  · norm_num

/-! ## C172 -/

/-- C172: the density field holds the density given, but `lame_mu` holds the constant the user gave as `lame_lambda` and
`lame_lambda` that given as `lame_mu`.  The full property - every field holds the constant of its name - therefore only holds if the
two are equal. -/
theorem c172_constants_partial (user : PropId → K) (f : FieldName → K) :
    setupProperties propertyMap user f .density = user .density
    ∧ setupProperties propertyMap user f .lame_mu = user .lameLambda
    ∧ setupProperties propertyMap user f .lame_lambda = user .lameMu := by
  refine ⟨?_, ?_, ?_⟩ <;> simp [setupProperties, propertyMap, Function.update]

/-- C172: right exactly when the two constants agree. -/
theorem c172_right_iff (user : PropId → K) (f : FieldName → K) :
    (setupProperties propertyMap user f .lame_mu = user .lameMu ∧ setupProperties propertyMap user f .lame_lambda = user .lameLambda)
      ↔ user .lameMu = user .lameLambda := by
  obtain ⟨_, h2, h3⟩ := c172_constants_partial user f
  rw [h2, h3]
  exact ⟨fun h => h.2, fun h => ⟨h.symm, h⟩⟩

/-- C172: what the user observes: the elastic residual computed from the deck's constants is that of a body with the two constants
exchanged. -/
theorem c172_elastic_exchanged (e : Scs nn nip nd K) (hu : ∀ ip, Unity (e.shape ip)) (user : PropId → K) (f : FieldName → K)
    (u : Fin nn → Fin nd → K) (s : LocalSys (Fin nn × Fin nd) K) (n : Fin nn) (i : Fin nd) :
    (elastic e (fun _ => setupProperties propertyMap user f .lame_mu) (fun _ => setupProperties propertyMap user f .lame_lambda) u s).rhs
        (n, i)
      = s.rhs (n, i) + netOut e.il e.ir (fun ip =>
          traction (elasticStress (user .lameLambda) (user .lameMu) (dispGrad (e.dndx ip) u)) (e.area ip) i) n := by
  obtain ⟨_, h2, h3⟩ := c172_constants_partial user f
  have hc : ∀ ip (c : K), interp (e.shape ip) (fun _ => c) = c := by
    intro ip c
    have h := hu ip
    unfold Unity at h
    rw [interp, ← Finset.sum_mul, h, one_mul]
  rw [c169_residual]
  simp only [h2, h3, hc]

/-- C172: the two differ on a real body: a sheared square with `μ = 1`, `λ = 2`. -/
theorem c172_instance : elasticStress (2 : ℚ) 1 (!![0, 1; 0, 0] : Matrix (Fin 2) (Fin 2) ℚ) 0 1 = 2
    ∧ elasticStress (1 : ℚ) 2 (!![0, 1; 0, 0] : Matrix (Fin 2) (Fin 2) ℚ) 0 1 = 1 := by
  constructor <;> simp [elasticStress]

/-! ## C173 -/

section Motion
variable {N : Type*}

/-- The sum of the increments of the first `k` iterations. -/
def increments (numStates : ℕ) (g1 g2 g3 dt : K) (solve : (N → NodeSt nd K) → N → Fin nd → K) :
    ℕ → (N → NodeSt nd K) → N → Fin nd → K
  | 0, _ => fun _ _ => 0
  | k + 1, s => fun n j => increments numStates g1 g2 g3 dt solve k s n j
      + solve (solveAndUpdate numStates g1 g2 g3 dt solve k s) n j

theorem solveAndUpdate_succ (numStates : ℕ) (g1 g2 g3 dt : K) (solve : (N → NodeSt nd K) → N → Fin nd → K) (k : ℕ)
    (s : N → NodeSt nd K) :
    solveAndUpdate numStates g1 g2 g3 dt solve (k + 1) s = fun n => currentCoordinates numStates g1 g2 g3 dt
      { solveAndUpdate numStates g1 g2 g3 dt solve k s n with
        dNp1 := fun j => 1 * solve (solveAndUpdate numStates g1 g2 g3 dt solve k s) n j
          + 1 * (solveAndUpdate numStates g1 g2 g3 dt solve k s n).dNp1 j } := by
  induction k generalizing s with
  | zero => rfl
  | succ k ih => rw [solveAndUpdate, ih]; rfl

theorem frozen (numStates : ℕ) (g1 g2 g3 dt : K) (solve : (N → NodeSt nd K) → N → Fin nd → K) (k : ℕ) (s : N → NodeSt nd K) (n : N) :
    (solveAndUpdate numStates g1 g2 g3 dt solve k s n).x0 = (s n).x0
    ∧ (solveAndUpdate numStates g1 g2 g3 dt solve k s n).dN = (s n).dN
    ∧ (solveAndUpdate numStates g1 g2 g3 dt solve k s n).dNm1 = (s n).dNm1 := by
  induction k with
  | zero => exact ⟨rfl, rfl, rfl⟩
  | succ k ih => rw [solveAndUpdate_succ]; exact ih

/-- C173: the displacement after any number of iterations is the predicted one plus all increments, whatever the solver returned. -/
theorem c173_increments (numStates : ℕ) (g1 g2 g3 dt : K) (solve : (N → NodeSt nd K) → N → Fin nd → K) (k : ℕ)
    (s : N → NodeSt nd K) (n : N) (j : Fin nd) :
    (solveAndUpdate numStates g1 g2 g3 dt solve k (fun n => predict (s n)) n).dNp1 j
      = (s n).dN j + increments numStates g1 g2 g3 dt solve k (fun n => predict (s n)) n j := by
  induction k with
  | zero => simp [solveAndUpdate, increments, predict]
  | succ k ih =>
    rw [solveAndUpdate_succ, increments]
    simp only [currentCoordinates, ih]
    ring

/-- C173: after every iteration the current coordinates are the model coordinates plus the displacement of that iteration: geometry
and displacement never disagree. -/
theorem c173_coordinates (numStates : ℕ) (g1 g2 g3 dt : K) (solve : (N → NodeSt nd K) → N → Fin nd → K) (k : ℕ)
    (s : N → NodeSt nd K) (n : N) (j : Fin nd) :
    (solveAndUpdate numStates g1 g2 g3 dt solve (k + 1) s n).x j
      = (s n).x0 j + (solveAndUpdate numStates g1 g2 g3 dt solve (k + 1) s n).dNp1 j := by
  have h := (frozen numStates g1 g2 g3 dt solve k s n).1
  rw [solveAndUpdate_succ]
  simp only [currentCoordinates, h]

/-- C173: and the mesh velocity is the backward difference of the displacements, with the displacement of `N` in place of `NM1` when the
field has two states. -/
theorem c173_velocity (numStates : ℕ) (g1 g2 g3 dt : K) (solve : (N → NodeSt nd K) → N → Fin nd → K) (k : ℕ)
    (s : N → NodeSt nd K) (n : N) (j : Fin nd) :
    (solveAndUpdate numStates g1 g2 g3 dt solve (k + 1) s n).v j
      = (g1 * (solveAndUpdate numStates g1 g2 g3 dt solve (k + 1) s n).dNp1 j + g2 * (s n).dN j
          + g3 * (if numStates = 2 then (s n).dN j else (s n).dNm1 j)) / dt := by
  obtain ⟨_, h1, h2⟩ := frozen numStates g1 g2 g3 dt solve k s n
  rw [solveAndUpdate_succ]
  simp only [currentCoordinates, h1, h2, oldState]
  congr 2
  split_ifs <;> rfl

/-- C173: in every run with second-order time integration and any history of step sizes, a mesh whose displacement is a polynomial of
degree at most two in time is given its exact velocity. -/
theorem c173_velocity_exact (numStates : ℕ) (h3 : numStates = 3) (c : Time.Cfg K) (h2 : c.secondOrder = true)
    (inp : ℕ → List (Time.Courant K)) (s0 : Time.St K) (hc : s0.timeStepCount = 0) (m : ℕ)
    (hpos : ∀ i, i ≤ m + 1 → 0 < (Time.beginStep c (inp i) (Time.after c inp s0 i)).timeStepN)
    (p : Fin nd → K[X]) (hp : ∀ j, (p j).natDegree ≤ 2) (s : NodeSt nd K)
    (h1 : ∀ j, s.dNp1 j = (p j).eval (Time.beginStep c (inp (m + 1)) (Time.after c inp s0 (m + 1))).currentTime)
    (hn : ∀ j, s.dN j = (p j).eval (Time.after c inp s0 (m + 1)).currentTime)
    (hm : ∀ j, s.dNm1 j = (p j).eval (Time.after c inp s0 m).currentTime) (j : Fin nd) :
    let t := Time.beginStep c (inp (m + 1)) (Time.after c inp s0 (m + 1))
    (currentCoordinates numStates t.gamma1 t.gamma2 t.gamma3 t.timeStepN s).v j = (p j).derivative.eval t.currentTime := by
  intro t
  have := Time.c04_bdf2_exact c h2 inp s0 hc m hpos (p j) (hp j)
  simp only at this
  subst h3
  simp only [currentCoordinates, oldState]
  rw [if_neg (by decide), h1, hn, hm]
  exact this

/-- C173: a mesh that does not move has velocity zero, with any number of states, since the weights sum to zero. -/
theorem c173_fixed (numStates : ℕ) (g1 g2 g3 dt : K) (hg : g1 + g2 + g3 = 0) (s : NodeSt nd K) (d : Fin nd → K)
    (h1 : s.dNp1 = d) (h2 : s.dN = d) (h3 : s.dNm1 = d) (j : Fin nd) :
    (currentCoordinates numStates g1 g2 g3 dt s).v j = 0 := by
  simp only [currentCoordinates, h1, h2, h3, oldState, ite_self]
  rw [← add_mul, ← add_mul, hg]; simp

/-- C173: the divergence written is the trace of the velocity gradient; zero for rigid rotation, `nd·r` for uniform dilatation at rate `r`. -/
theorem c173_divergence (G : Matrix (Fin nd) (Fin nd) K) :
    divMeshVelocity (fun i j => G i j) = G.trace ∧ (G.transpose = -G → divMeshVelocity (fun i j => G i j) = 0)
    ∧ ∀ r : K, divMeshVelocity (fun i j => (r • (1 : Matrix (Fin nd) (Fin nd) K)) i j) = nd * r := by
  refine ⟨rfl, fun h => ?_, fun r => ?_⟩
  · have h' := congrArg Matrix.trace h
    rw [Matrix.trace_transpose, Matrix.trace_neg] at h'
    have : divMeshVelocity (fun i j => G i j) = G.trace := rfl
    rw [this]; linarith
  · simp [divMeshVelocity]

end Motion

/-! ## C174 -/

theorem pressureFace_rhs (shape : Fin nf → Fin nf → K) (p : Fin nf → K) (area : Fin nf → Fin nd → K) (near : Fin nf → Fin nn)
    (n : Fin nn) (k : Fin nd) :
    (pressureFace shape p area near).rhs (n, k) = ∑ ip, if n = near ip then -(interp (shape ip) p * area ip k) else 0 := by
  rw [pressureFace, loop_rhs (a := (n, k)) (δ := fun ip => if n = near ip then -(interp (shape ip) p * area ip k) else 0)]
  · simp
  · intro ip s
    simp only
    rw [loop_rhs (a := (n, k)) (δ := fun j => if (n, k) = (near ip, j) then -(interp (shape ip) p * area ip j) else 0), sum_ite_pair]
    intro j s
    simp only [addR_rhs]

/-- C174: the matrix is left alone: the load does not depend on the displacement. -/
theorem c174_matrix (shape : Fin nf → Fin nf → K) (p : Fin nf → K) (area : Fin nf → Fin nd → K) (near : Fin nf → Fin nn)
    (a b : Fin nn × Fin nd) : (pressureFace shape p area near).lhs a b = 0 := by
  rw [pressureFace, loop_lhs (a := a) (b := b) (δ := fun _ => 0)]
  · simp
  · intro ip s
    simp only
    rw [loop_lhs (a := a) (b := b) (δ := fun _ => 0)]
    · simp
    · intro j s; simp [addR]

/-- C174: the total force of a face is minus the interpolated pressures times the area vectors of its integration points: the pressure
pushes against the outward normal, and all of it arrives on the nodes of the element. -/
theorem c174_total (shape : Fin nf → Fin nf → K) (p : Fin nf → K) (area : Fin nf → Fin nd → K) (near : Fin nf → Fin nn) (k : Fin nd) :
    ∑ n, (pressureFace shape p area near).rhs (n, k) = -∑ ip, interp (shape ip) p * area ip k := by
  simp only [pressureFace_rhs]
  rw [Finset.sum_comm, ← Finset.sum_neg_distrib]
  refine Finset.sum_congr rfl fun ip _ => ?_
  rw [Finset.sum_ite_eq' Finset.univ (near ip)]
  simp

/-- C174: under a uniform pressure the force on the face is `-p` times its area vector, whatever the face. -/
theorem c174_uniform (shape : Fin nf → Fin nf → K) (hu : ∀ ip, Unity (shape ip)) (p : K) (area : Fin nf → Fin nd → K)
    (near : Fin nf → Fin nn) (k : Fin nd) :
    ∑ n, (pressureFace shape (fun _ => p) area near).rhs (n, k) = -(p * ∑ ip, area ip k) := by
  rw [c174_total, Finset.mul_sum]
  congr 1
  refine Finset.sum_congr rfl fun ip _ => ?_
  have h := hu ip
  unfold Unity at h
  rw [interp, ← Finset.sum_mul, h, one_mul]

/-- C174: a body closed by pressurised faces feels no net force under a uniform pressure. -/
theorem c174_closed {F : Type*} [Fintype F] (shape : F → Fin nf → Fin nf → K) (hu : ∀ f ip, Unity (shape f ip)) (p : K)
    (area : F → Fin nf → Fin nd → K) (near : F → Fin nf → Fin nn) (k : Fin nd) (hcl : ∑ f, ∑ ip, area f ip k = 0) :
    ∑ f, ∑ n, (pressureFace (shape f) (fun _ => p) (area f) (near f)).rhs (n, k) = 0 := by
  simp only [c174_uniform _ (hu _)]
  rw [Finset.sum_neg_distrib, ← Finset.mul_sum, hcl]; simp

/-- C174: a node away from the face gets nothing. -/
theorem c174_local (shape : Fin nf → Fin nf → K) (p : Fin nf → K) (area : Fin nf → Fin nd → K) (near : Fin nf → Fin nn)
    (n : Fin nn) (h : ∀ ip, near ip ≠ n) (k : Fin nd) : (pressureFace shape p area near).rhs (n, k) = 0 := by
  rw [pressureFace_rhs]
  exact Finset.sum_eq_zero fun ip _ => if_neg fun e => h ip e.symm

end Nalu.MeshDisp
