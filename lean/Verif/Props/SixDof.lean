import Verif.Props.MeshMotion

/-!
# C46: six-dof dynamics; C60: centroid of the moving part
-/

set_option linter.unusedSimpArgs false
set_option linter.unusedVariables false
set_option linter.unusedSectionVars false

namespace Verif.Motion

/-! ## Attitude -/

/-- C46: the right-hand side integrated is the attitude kinematics `q' = ½ (0,ω) q` (angular velocity in
the lab frame). -/
theorem c46_kinematics (q : Fin 4 → ℝ) (w : Fin 3 → ℝ) :
    (⟨quatRhs q w 0, quatRhs q w 1, quatRhs q w 2, quatRhs q w 3⟩ : Quaternion ℝ)
      = (1 / 2 : ℝ) • ((⟨0, w 0, w 1, w 2⟩ : Quaternion ℝ) * ⟨q 0, q 1, q 2, q 3⟩) := by
  ext
  · simp [Quaternion.re_mul, quatRhs]; ring
  · simp [Quaternion.imI_mul, quatRhs]; ring
  · simp [Quaternion.imJ_mul, quatRhs]; ring
  · simp [Quaternion.imK_mul, quatRhs]; ring

section
variable {K : Type*} [Field K]

/-- C46: along the kinematics the length of the quaternion is constant: its rate is perpendicular to
it. -/
theorem c46_kinematics_keeps_length (q : Fin 4 → K) (w : Fin 3 → K) : dot q (quatRhs q w) = 0 := by
  simp only [dot, Fin.sum_univ_four, quatRhs]; ring

/-- A quarter of the squared angular velocity. -/
def rate2 (w : Fin 3 → K) : K := (w 0 ^ 2 + w 1 ^ 2 + w 2 ^ 2) / 4

theorem quatRhs_add (q r : Fin 4 → K) (s : K) (w : Fin 3 → K) (j : Fin 4) :
    quatRhs (fun i => q i + s * r i) w j = quatRhs q w j + s * quatRhs r w j := by
  revert j; simp only [all4, quatRhs]; refine ⟨?_, ?_, ?_, ?_⟩ <;> ring

theorem quatRhs_twice [CharZero K] (q : Fin 4 → K) (w : Fin 3 → K) (j : Fin 4) :
    quatRhs (quatRhs q w) w j = -(rate2 w) * q j := by
  revert j; simp only [all4, quatRhs, rate2]; refine ⟨?_, ?_, ?_, ?_⟩ <;> ring

theorem quatRhs_smul (q : Fin 4 → K) (s : K) (w : Fin 3 → K) (j : Fin 4) :
    quatRhs (fun i => s * q i) w j = s * quatRhs q w j := by
  revert j; simp only [all4, quatRhs]; refine ⟨?_, ?_, ?_, ?_⟩ <;> ring

theorem attitudeStep_closed [CharZero K] (q : Fin 4 → K) (w : Fin 3 → K) (dt : K) (j : Fin 4) :
    attitudeStep q w dt j
      = (1 - rate2 w * dt ^ 3 / 2 + rate2 w ^ 2 * dt ^ 7 / 24) * q j
        + (dt - rate2 w * dt ^ 5 / 6) * quatRhs q w j := by
  have h2 : quatRhs (quatRhs q w) w = fun j => -(rate2 w) * q j := funext (quatRhs_twice q w)
  have hk1 : quatRhs (fun j => q j + dt * (1 / 2 * dt) * quatRhs q w j) w
      = fun j => (-(dt * (1 / 2 * dt) * rate2 w)) * q j + 1 * quatRhs q w j := by
    funext j; rw [quatRhs_add, quatRhs_twice]; ring
  have hgen : ∀ (a b s : K), quatRhs (fun j => q j + s * (a * q j + b * quatRhs q w j)) w
      = fun j => (-(s * b * rate2 w)) * q j + (1 + s * a) * quatRhs q w j := by
    intro a b s; funext j
    have : (fun j => q j + s * (a * q j + b * quatRhs q w j))
        = fun j => (fun i => (1 + s * a) * q i) j + (s * b) * quatRhs q w j := by funext i; ring
    rw [this, quatRhs_add, quatRhs_smul, quatRhs_twice]; ring
  simp only [attitudeStep, hk1, hgen]
  field_simp
  ring

theorem rk4_closed [CharZero K] (q : Fin 4 → K) (w : Fin 3 → K) (dt : K) (j : Fin 4) :
    rk4 (fun y => quatRhs y w) q dt j
      = (1 - rate2 w * dt ^ 2 / 2 + rate2 w ^ 2 * dt ^ 4 / 24) * q j
        + (dt - rate2 w * dt ^ 3 / 6) * quatRhs q w j := by
  have hk1 : quatRhs (fun j => q j + dt / 2 * quatRhs q w j) w
      = fun j => (-(dt / 2 * rate2 w)) * q j + 1 * quatRhs q w j := by
    funext j; rw [quatRhs_add, quatRhs_twice]; ring
  have hgen : ∀ (a b s : K), quatRhs (fun j => q j + s * (a * q j + b * quatRhs q w j)) w
      = fun j => (-(s * b * rate2 w)) * q j + (1 + s * a) * quatRhs q w j := by
    intro a b s; funext j
    have : (fun j => q j + s * (a * q j + b * quatRhs q w j))
        = fun j => (fun i => (1 + s * a) * q i) j + (s * b) * quatRhs q w j := by funext i; ring
    rw [this, quatRhs_add, quatRhs_smul, quatRhs_twice]; ring
  simp only [rk4, hk1, hgen]
  field_simp
  ring

end

/-- C46 (negative): the attitude update multiplies by the step twice in the stages, so it is not the
Runge-Kutta step: they differ for every unit quaternion, every non-zero angular velocity and every
positive step other than one. -/
theorem c46_attitude_not_rk4 {q : Fin 4 → ℝ} (hq : IsUnitQuat q) {w : Fin 3 → ℝ} (hw : w ≠ 0) {dt : ℝ}
    (h0 : 0 < dt) (h1 : dt ≠ 1) : attitudeStep q w dt ≠ rk4 (fun y => quatRhs y w) q dt := by
  intro h
  have hr : 0 < rate2 w := by
    rcases (show 0 ≤ rate2 w by unfold rate2; positivity).lt_or_eq with h | h
    · exact h
    · exfalso; apply hw
      unfold rate2 at h
      funext i; revert i
      simp only [all3, Pi.zero_apply]
      refine ⟨?_, ?_, ?_⟩ <;> nlinarith [sq_nonneg (w 0), sq_nonneg (w 1), sq_nonneg (w 2)]
  -- project on the rate, which is perpendicular to `q` and not zero
  have hperp : q 0 * quatRhs q w 0 + q 1 * quatRhs q w 1 + q 2 * quatRhs q w 2 + q 3 * quatRhs q w 3 = 0 := by
    have := c46_kinematics_keeps_length q w
    simpa only [dot, Fin.sum_univ_four] using this
  have hnorm : quatRhs q w 0 ^ 2 + quatRhs q w 1 ^ 2 + quatRhs q w 2 ^ 2 + quatRhs q w 3 ^ 2 = rate2 w := by
    unfold IsUnitQuat at hq
    simp only [quatRhs, rate2]
    linear_combination (w 0 ^ 2 + w 1 ^ 2 + w 2 ^ 2) / 4 * hq
  have hj : ∀ j, (rate2 w * (dt ^ 2 - dt ^ 3) / 2 + rate2 w ^ 2 * (dt ^ 7 - dt ^ 4) / 24) * q j
      + rate2 w * (dt ^ 3 - dt ^ 5) / 6 * quatRhs q w j = 0 := by
    intro j
    have := congrFun h j
    rw [attitudeStep_closed, rk4_closed] at this
    linear_combination this
  have hz : rate2 w * (dt ^ 3 - dt ^ 5) / 6 * rate2 w = 0 := by
    rw [← hnorm]
    have a0 := hj 0; have a1 := hj 1; have a2 := hj 2; have a3 := hj 3
    rw [hnorm]
    generalize rate2 w * (dt ^ 2 - dt ^ 3) / 2 + rate2 w ^ 2 * (dt ^ 7 - dt ^ 4) / 24 = A at *
    generalize hB : rate2 w * (dt ^ 3 - dt ^ 5) / 6 = B at *
    rw [← hnorm]
    linear_combination quatRhs q w 0 * a0 + quatRhs q w 1 * a1 + quatRhs q w 2 * a2 + quatRhs q w 3 * a3 - A * hperp
  have h3 : dt ^ 3 - dt ^ 5 = 0 := by
    have hne : rate2 w * rate2 w ≠ 0 := by positivity
    have : rate2 w * rate2 w * (dt ^ 3 - dt ^ 5) = 0 := by linear_combination 6 * hz
    exact (mul_eq_zero.1 this).resolve_left hne
  have h4 : dt ^ 3 * (1 - dt) * (1 + dt) = 0 := by linear_combination h3
  have : (1 - dt) = 0 := by
    rcases mul_eq_zero.1 h4 with h | h
    · exact (mul_eq_zero.1 h).resolve_left (by positivity)
    · exfalso; linarith
  exact h1 (by linarith)

/-- C46 (what does hold of the attitude update): it is consistent to first order: explicit Euler plus a
remainder of third order in the step, and it agrees with the Runge-Kutta step when the step is one.
Missing: fourth-order accuracy, which is false. -/
theorem c46_attitude_first_order_partial {K : Type*} [Field K] [CharZero K] (q : Fin 4 → K) (w : Fin 3 → K) :
    (∀ dt j, attitudeStep q w dt j = q j + dt * quatRhs q w j
      + dt ^ 3 * ((-(rate2 w) / 2 + rate2 w ^ 2 * dt ^ 4 / 24) * q j - rate2 w * dt ^ 2 / 6 * quatRhs q w j)) ∧
    attitudeStep q w 1 = rk4 (fun y => quatRhs y w) q 1 := by
  constructor
  · intro dt j; rw [attitudeStep_closed]; ring
  · funext j; rw [attitudeStep_closed, rk4_closed]; ring

/-! ## Angular velocity -/

section
variable {K : Type*} [Field K] [LinearOrder K] [IsStrictOrderedRing K]

/-- C46: the right-hand sides are Euler's equations `I ω' + ω × (I ω) = M` in the principal axes, for
inertias above the threshold. -/
theorem c46_euler_equations {tiny : K} (ht : 0 ≤ tiny) (w ine mom : Fin 3 → K) (hI : ∀ i, tiny < ine i) (i : Fin 3) :
    ine i * eulerRhs tiny w ine mom i + vcross w (fun j => ine j * w j) i = mom i := by
  have hne : ∀ i, ine i ≠ 0 := fun i => (lt_of_le_of_lt ht (hI i)).ne'
  have h0 := hne 0; have h1 := hne 1; have h2 := hne 2
  revert i
  simp only [all3, eulerRhs, rigidEulerRhs, hI, if_true, vcross, m0, m1, m2]
  refine ⟨?_, ?_, ?_⟩ <;> rw [mul_div_cancel₀ _ (by assumption)] <;> ring

/-- C46 (what does hold of the angular velocity update): for a body with three equal inertias it is the
Runge-Kutta step, which is exact: `ω + dt M / I`. -/
theorem c46_omega_spherical_partial {tiny I : K} (ht : 0 ≤ tiny) (hI : tiny < I) (w mom : Fin 3 → K) (dt : K) :
    advanceOmega tiny w (fun _ => I) mom dt = rk4 (fun y => eulerRhs tiny y (fun _ => I) mom) w dt ∧
    ∀ i, advanceOmega tiny w (fun _ => I) mom dt i = w i + dt * (mom i / I) := by
  have hrhs : ∀ y, eulerRhs tiny y (fun _ => I) mom = fun i => mom i / I := by
    intro y; funext i; revert i
    simp only [all3, eulerRhs, rigidEulerRhs, hI, if_true, sub_self, zero_mul, sub_zero, and_self]
  constructor
  · funext i; simp only [advanceOmega, rk4, hrhs]
  · intro i; simp only [advanceOmega, hrhs]; field_simp; ring

/-- C46 (negative): the stages of the angular velocity update add `dt^2/2` to the angular velocity
instead of the slope, so a body at rest with no moment acting starts to rotate, for every non-zero
step, whenever two inertias differ. -/
theorem c46_rest_spins_up {tiny : K} (ht : 0 ≤ tiny) {ine : Fin 3 → K} (hI : ∀ i, tiny < ine i)
    (hne : ine 1 ≠ ine 2) {dt : K} (hdt : dt ≠ 0) :
    advanceOmega tiny 0 ine 0 dt ≠ 0 ∧ rk4 (fun y => eulerRhs tiny y ine 0) 0 dt = 0 := by
  have h0 : ine 0 ≠ 0 := (lt_of_le_of_lt ht (hI 0)).ne'
  constructor
  · intro h
    have := congrFun h 0
    simp only [advanceOmega, eulerRhs, rigidEulerRhs, hI, if_true, Pi.zero_apply, zero_add, mul_zero, sub_zero,
      zero_div, zero_sub] at this
    field_simp at this
    have h2 : dt ^ 5 * (ine 2 - ine 1) = 0 := by
      ring_nf at this
      linear_combination (-1 / 4 : K) * this
    rcases mul_eq_zero.1 h2 with h | h
    · exact hdt (pow_eq_zero_iff (by norm_num) |>.1 h)
    · exact hne (sub_eq_zero.1 h).symm
  · have hr : ∀ y : Fin 3 → K, (∀ i, y i = 0) → eulerRhs tiny y ine 0 = fun _ => 0 := by
      intro y hy; funext i; revert i
      simp only [all3, eulerRhs, rigidEulerRhs, hI, if_true, Pi.zero_apply, hy, mul_zero, sub_zero, zero_div, and_self]
    funext i
    simp only [rk4]
    rw [hr 0 (fun i => rfl)]
    rw [hr (fun i => (0 : Fin 3 → K) i + dt / 2 * 0) (by simp)]
    rw [hr (fun i => (0 : Fin 3 → K) i + dt / 2 * 0) (by simp)]
    rw [hr (fun i => (0 : Fin 3 → K) i + dt * 0) (by simp)]
    simp

end

/-- C46 (negative): the moment is applied in the lab frame although the equations are in the body frame:
for a body with equal inertias the angular velocity gains `dt/I` times the moment rotated by the
attitude instead of the moment itself.  It is right exactly when the attitude leaves the moment
alone. -/
theorem c46_moment_in_wrong_frame {tiny I dt : ℝ} (ht : 0 ≤ tiny) (ht1 : tiny ≤ 1) (hI : tiny < I) (hdt : dt ≠ 0)
    (b : Body ℝ) (hb : b.inertia = fun _ => I) :
    (∀ i, (updateBodyVel tiny b dt).omega i
      = b.omega i + dt / I * matVec (rotMat (quatFromEuler b.angle)) b.moment i) ∧
    ((∀ i, (updateBodyVel tiny b dt).omega i = b.omega i + dt / I * b.moment i) ↔
      matVec (rotMat (quatFromEuler b.angle)) b.moment = b.moment) := by
  have hI0 : I ≠ 0 := (lt_of_le_of_lt ht hI).ne'
  have key : ∀ i, (updateBodyVel tiny b dt).omega i
      = b.omega i + dt / I * matVec (rotMat (quatFromEuler b.angle)) b.moment i := by
    intro i
    have h1 := congrFun (c47_frame_round_trip ht1 b.omega b.angle).1 i
    have h2 : advanceOmega tiny (convertVect tiny b.omega b.angle false) b.inertia b.moment dt
        = fun i => convertVect tiny b.omega b.angle false i + dt * (b.moment i / I) := by
      rw [hb]; funext i; exact (c46_omega_spherical_partial ht hI _ _ _).2 i
    have hT : getRotMat tiny (quatFromEuler b.angle) true = rotMat (quatFromEuler b.angle) := by simp [getRotMat]
    simp only [updateBodyVel, h2]
    simp only [convertVect, matVec, hT] at h1 ⊢
    linear_combination h1
  refine ⟨key, ?_⟩
  constructor
  · intro h
    funext i
    have h1 := h i
    rw [key i] at h1
    have hne : dt / I ≠ 0 := div_ne_zero hdt hI0
    exact mul_left_cancel₀ hne (by linear_combination h1)
  · intro h i; rw [key i, h]

/-! ## Translation -/

/-- C46 (translation): under a constant force the acceleration used is under-relaxed: after `n` steps it
is `F/m + (a0 - F/m)/2^n`. -/
theorem c46_acceleration_lag {K : Type*} [Field K] [LinearOrder K] [IsStrictOrderedRing K] {b : Body K} (hm : 0 < b.mass) (dt : K) (n : ℕ) (i : Fin 3) :
    (Nat.iterate (fun b => updateTranslation b dt) n b).accel i
      = (b.force i + b.applied i) / b.mass + (b.accel i - (b.force i + b.applied i) / b.mass) / 2 ^ n := by
  have inv : ∀ n, (Nat.iterate (fun b => updateTranslation b dt) n b).mass = b.mass ∧
      (Nat.iterate (fun b => updateTranslation b dt) n b).force = b.force ∧
      (Nat.iterate (fun b => updateTranslation b dt) n b).applied = b.applied ∧
      (Nat.iterate (fun b => updateTranslation b dt) n b).accel i
        = (b.force i + b.applied i) / b.mass + (b.accel i - (b.force i + b.applied i) / b.mass) / 2 ^ n := by
    intro n
    induction n with
    | zero => simp
    | succ n ih =>
      obtain ⟨h1, h2, h3, h4⟩ := ih
      rw [Function.iterate_succ_apply']
      generalize Nat.iterate (fun b => updateTranslation b dt) n b = c at *
      have hc : 0 < c.mass := by rw [h1]; exact hm
      unfold updateTranslation
      rw [if_pos hc]
      refine ⟨h1, h2, h3, ?_⟩
      dsimp only
      rw [h1, h2, h3, h4, pow_succ]
      have hm' := hm.ne'
      field_simp
      ring
  exact (inv n).2.2.2

theorem updateSixDof_succ (tiny : ℝ) (k : ℕ) (b : Body ℝ) (dt : ℝ) :
    updateSixDof tiny (k + 1) b dt = updateBodyCC (updateBodyVel tiny (updateSixDof tiny k b dt) dt) dt := by
  simp only [updateSixDof, List.range_succ, List.foldl_append, List.foldl_cons, List.foldl_nil]

/-- C46 (negative): the update is inside the loop over the parts of a body, so a body made of `k` parts is
advanced `k` times per time step: with no force its centre moves `k dt v` instead of `dt v`. -/
theorem c46_one_advance_per_part (tiny dt : ℝ) (k : ℕ) (b : Body ℝ) (hf : ∀ i, b.force i + b.applied i = 0)
    (ha : b.accel = 0) (i : Fin 3) :
    (updateSixDof tiny k b dt).dispCC i = b.dispCC i + k * (dt * b.vel i) := by
  have inv : ∀ k, (updateSixDof tiny k b dt).force = b.force ∧ (updateSixDof tiny k b dt).applied = b.applied ∧
      (updateSixDof tiny k b dt).accel = 0 ∧ (updateSixDof tiny k b dt).vel = b.vel ∧
      (updateSixDof tiny k b dt).dispCC i = b.dispCC i + k * (dt * b.vel i) := by
    intro k
    induction k with
    | zero => simp [updateSixDof, ha]
    | succ k ih =>
      obtain ⟨h1, h2, h3, h4, h5⟩ := ih
      rw [updateSixDof_succ]
      generalize updateSixDof tiny k b dt = c at *
      by_cases hm : 0 < c.mass
      · have e1 : (fun i => c.accel i * (1 / 2) + 1 / 2 * (c.force i + c.applied i) / c.mass) = 0 := by
          funext j; rw [h1, h2, hf j, h3]; simp
        simp only [updateBodyCC, updateBodyVel, updateTranslation, hm, if_true]
        refine ⟨h1, h2, e1, ?_, ?_⟩
        · funext j
          have := congrFun e1 j
          simp only [Pi.zero_apply] at this
          rw [this, h4]; ring
        · have := congrFun e1 i
          simp only [Pi.zero_apply] at this
          rw [this, h4, h5]; push_cast; ring
      · simp only [updateBodyCC, updateBodyVel, updateTranslation, hm, if_false]
        refine ⟨h1, h2, h3, h4, ?_⟩
        rw [h4, h5]; push_cast; ring
  exact (inv k).2.2.2.2

/-! ## C60: centroid -/

section
variable {K : Type*} [Field K] [LinearOrder K] [IsStrictOrderedRing K]

theorem localBox_spec (xs : List K) : ∀ (lo hi : K),
    (localBox lo hi xs).1 = xs.foldl min lo ∧ (localBox lo hi xs).2 = xs.foldl max hi := by
  induction xs with
  | nil => intro lo hi; simp [localBox]
  | cons x xs ih => intro lo hi; have := ih (min lo x) (max hi x); simpa [localBox] using this

theorem foldl_min_eq (xs : List K) : ∀ lo, (xs.foldl min lo ≤ lo ∧ ∀ x ∈ xs, xs.foldl min lo ≤ x) ∧
    (xs.foldl min lo = lo ∨ xs.foldl min lo ∈ xs) := by
  induction xs with
  | nil => intro lo; simp
  | cons x xs ih =>
    intro lo
    obtain ⟨⟨h1, h2⟩, h3⟩ := ih (min lo x)
    simp only [List.foldl_cons, List.mem_cons, forall_eq_or_imp]
    refine ⟨⟨h1.trans (min_le_left _ _), h1.trans (min_le_right _ _), h2⟩, ?_⟩
    rcases h3 with h | h
    · rcases min_choice lo x with h' | h' <;> rw [h'] at h
      · left; rw [h']; exact h
      · right; left; rw [h']; exact h
    · right; right; exact h

theorem foldl_max_eq (xs : List K) : ∀ hi, (hi ≤ xs.foldl max hi ∧ ∀ x ∈ xs, x ≤ xs.foldl max hi) ∧
    (xs.foldl max hi = hi ∨ xs.foldl max hi ∈ xs) := by
  induction xs with
  | nil => intro lo; simp
  | cons x xs ih =>
    intro lo
    obtain ⟨⟨h1, h2⟩, h3⟩ := ih (max lo x)
    simp only [List.foldl_cons, List.mem_cons, forall_eq_or_imp]
    refine ⟨⟨(le_max_left _ _).trans h1, (le_max_right _ _).trans h1, h2⟩, ?_⟩
    rcases h3 with h | h
    · rcases max_choice lo x with h' | h' <;> rw [h'] at h
      · left; rw [h']; exact h
      · right; left; rw [h']; exact h
    · right; right; exact h

theorem foldl_min_boxes (large : K) (ranks : List (List K)) : ∀ m ≤ large,
    (ranks.map (localBox large (-large))).foldl (fun m b => min m b.1) m = (ranks.flatten).foldl min m := by
  have hmin : ∀ (xs : List K) (a b : K), min a (xs.foldl min b) = xs.foldl min (min a b) := by
    intro xs
    induction xs with
    | nil => intro a b; rfl
    | cons x xs ih => intro a b; simp only [List.foldl_cons, ih, min_assoc]
  induction ranks with
  | nil => intro m _; rfl
  | cons r rs ih =>
    intro m hm
    simp only [List.map_cons, List.foldl_cons, List.flatten_cons, List.foldl_append]
    rw [(localBox_spec r _ _).1, hmin, min_eq_left hm]
    exact ih _ (((foldl_min_eq r m).1.1).trans hm)

theorem foldl_max_boxes (large : K) (ranks : List (List K)) : ∀ m, -large ≤ m →
    (ranks.map (localBox large (-large))).foldl (fun m b => max m b.2) m = (ranks.flatten).foldl max m := by
  have hmax : ∀ (xs : List K) (a b : K), max a (xs.foldl max b) = xs.foldl max (max a b) := by
    intro xs
    induction xs with
    | nil => intro a b; rfl
    | cons x xs ih => intro a b; simp only [List.foldl_cons, ih, max_assoc]
  induction ranks with
  | nil => intro m _; rfl
  | cons r rs ih =>
    intro m hm
    simp only [List.map_cons, List.foldl_cons, List.flatten_cons, List.foldl_append]
    rw [(localBox_spec r _ _).2, hmax, max_eq_left hm]
    exact ih _ (hm.trans ((foldl_max_eq r m).1.1))

/-- C60: the centre of rotation computed for a part is the midpoint of the smallest and the largest
nodal coordinate over all processes, for every distribution of the nodes (processes without nodes
included), as long as there is a node and the coordinates are below the sentinel in magnitude. -/
theorem c60_centroid_midpoint {large : K} {ranks : List (List K)} {lo hi : K}
    (hlo : lo ∈ ranks.flatten) (hhi : hi ∈ ranks.flatten) (hb : ∀ x ∈ ranks.flatten, lo ≤ x ∧ x ≤ hi)
    (hl1 : lo ≤ large) (hl2 : -large ≤ hi) : centroid large ranks = (lo + hi) / 2 := by
  unfold centroid
  dsimp only
  rw [foldl_min_boxes large ranks large le_rfl, foldl_max_boxes large ranks (-large) le_rfl]
  have e1 : (ranks.flatten).foldl min large = lo := by
    obtain ⟨⟨h1, h2⟩, h3⟩ := foldl_min_eq ranks.flatten large
    refine le_antisymm (h2 _ hlo) ?_
    rcases h3 with h | h
    · rw [h]; exact hl1
    · exact (hb _ h).1
  have e2 : (ranks.flatten).foldl max (-large) = hi := by
    obtain ⟨⟨h1, h2⟩, h3⟩ := foldl_max_eq ranks.flatten (-large)
    refine le_antisymm ?_ (h2 _ hhi)
    rcases h3 with h | h
    · rw [h]; exact hl2
    · exact (hb _ h).2
  rw [e1, e2]; ring

/-- C60: moving the whole part moves the centroid with it. -/
theorem c60_centroid_translation {large s : K} {ranks : List (List K)} {lo hi : K}
    (hlo : lo ∈ ranks.flatten) (hhi : hi ∈ ranks.flatten) (hb : ∀ x ∈ ranks.flatten, lo ≤ x ∧ x ≤ hi)
    (hl1 : lo ≤ large) (hl2 : -large ≤ hi) (hs1 : lo + s ≤ large) (hs2 : -large ≤ hi + s) :
    centroid large (ranks.map (List.map (· + s))) = centroid large ranks + s := by
  have hmem : ∀ x, x ∈ (ranks.map (List.map (· + s))).flatten ↔ ∃ y ∈ ranks.flatten, y + s = x := by
    intro x
    simp only [List.mem_flatten, List.mem_map]
    constructor
    · rintro ⟨l, ⟨r, hr, rfl⟩, hx⟩
      obtain ⟨y, hy, rfl⟩ := List.mem_map.1 hx
      exact ⟨y, ⟨r, hr, hy⟩, rfl⟩
    · rintro ⟨y, ⟨r, hr, hy⟩, rfl⟩
      exact ⟨_, ⟨r, hr, rfl⟩, List.mem_map.2 ⟨y, hy, rfl⟩⟩
  rw [c60_centroid_midpoint hlo hhi hb hl1 hl2,
    c60_centroid_midpoint (lo := lo + s) (hi := hi + s) ((hmem _).2 ⟨_, hlo, rfl⟩) ((hmem _).2 ⟨_, hhi, rfl⟩)
      (by rintro x hx; obtain ⟨y, hy, rfl⟩ := (hmem x).1 hx; exact ⟨by linarith [(hb y hy).1], by linarith [(hb y hy).2]⟩) hs1 hs2]
  ring

end

/-! ## Concrete cases -/

example : IsUnitVec ![0, 3 / 5, 4 / 5] := by simp only [IsUnitVec, m0, m1, m2]; norm_num
example : IsUnitQuat (![1 / 2, 1 / 2, -1 / 2, 1 / 2] : Fin 4 → ℚ) := by unfold IsUnitQuat; decide +kernel
example : advanceOmega (1 / 1000000 : ℚ) 0 (fun i => match i with | 0 => 1 | 1 => 2 | 2 => 3) 0 (1 / 10) ≠ 0 := by
  intro h
  have := congrFun h 0
  revert this; decide +kernel
example : centroid (1000 : ℚ) [[1, 3], [], [2, 7]] = 4 := by decide +kernel

end Verif.Motion
