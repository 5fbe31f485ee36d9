import Verif.Props.ExactSol

/-!
# C141: the wind-energy Taylor vortex
-/

namespace Nalu.Exact
open Verif.Pde Real

/-- A function of time only does not vary in space. -/
theorem time_only {g : ℝ → ℝ} {i : Fin 4} (h : (3 : Fin 4) ≠ i) {p : Pt} : HasPD i (fun p => g (p 3)) 0 p := by
  unfold HasPD
  simp only [Function.update_of_ne h]
  exact hasDerivAt_const _ _

theorem time_deriv {g : ℝ → ℝ} {d : ℝ} {p : Pt} (h : HasDerivAt g d (p 3)) : HasPD 3 (fun p => g (p 3)) d p := by
  unfold HasPD
  simp only [Function.update_self]
  exact h

/-- A decaying, translating vortex with amplitude `A` and inverse area `B`. -/
noncomputable def gaussExp (cx cy U : ℝ) (B : ℝ → ℝ) (p : Pt) : ℝ :=
  exp (1 / 2 - B (p 3) * ((p 0 - (cx + U * p 3)) * (p 0 - (cx + U * p 3)) + (p 1 - cy) * (p 1 - cy)))
noncomputable def gaussU (cx cy U : ℝ) (A B : ℝ → ℝ) (p : Pt) : ℝ := -(A (p 3) * gaussExp cx cy U B p) * (p 1 - cy) + U
noncomputable def gaussV (cx cy U : ℝ) (A B : ℝ → ℝ) (p : Pt) : ℝ := A (p 3) * gaussExp cx cy U B p * (p 0 - (cx + U * p 3))

section gauss
variable (cx cy U : ℝ) (A B : ℝ → ℝ) (p : Pt)

theorem ge_0 : HasPD 0 (gaussExp cx cy U B) (-2 * B (p 3) * (p 0 - (cx + U * p 3)) * gaussExp cx cy U B p) p := by
  have b : HasPD 0 (fun p => B (p 3)) 0 p := time_only (by decide)
  unfold gaussExp; pdr
theorem ge_1 : HasPD 1 (gaussExp cx cy U B) (-2 * B (p 3) * (p 1 - cy) * gaussExp cx cy U B p) p := by
  have b : HasPD 1 (fun p => B (p 3)) 0 p := time_only (by decide)
  unfold gaussExp; pdr
theorem ge_2 : HasPD 2 (gaussExp cx cy U B) 0 p := by
  have b : HasPD 2 (fun p => B (p 3)) 0 p := time_only (by decide)
  unfold gaussExp; pdr
theorem ge_3 {b' : ℝ} (hb : HasDerivAt B b' (p 3)) : HasPD 3 (gaussExp cx cy U B)
    ((-b' * ((p 0 - (cx + U * p 3)) * (p 0 - (cx + U * p 3)) + (p 1 - cy) * (p 1 - cy)) + 2 * B (p 3) * U * (p 0 - (cx + U * p 3)))
      * gaussExp cx cy U B p) p := by
  have b : HasPD 3 (fun p => B (p 3)) b' p := time_deriv hb
  unfold gaussExp; pdr

theorem gu_0 : HasPD 0 (gaussU cx cy U A B) (2 * A (p 3) * B (p 3) * (p 0 - (cx + U * p 3)) * (p 1 - cy) * gaussExp cx cy U B p) p := by
  have a : HasPD 0 (fun p => A (p 3)) 0 p := time_only (by decide)
  have e := ge_0 cx cy U B p
  unfold gaussU; pdr
theorem gu_1 : HasPD 1 (gaussU cx cy U A B) (A (p 3) * gaussExp cx cy U B p * (2 * B (p 3) * (p 1 - cy) ^ 2 - 1)) p := by
  have a : HasPD 1 (fun p => A (p 3)) 0 p := time_only (by decide)
  have e := ge_1 cx cy U B p
  unfold gaussU; pdr
theorem gu_2 : HasPD 2 (gaussU cx cy U A B) 0 p := by
  have a : HasPD 2 (fun p => A (p 3)) 0 p := time_only (by decide)
  have e := ge_2 cx cy U B p
  unfold gaussU; pdr
theorem gu_3 {a' b' : ℝ} (ha : HasDerivAt A a' (p 3)) (hb : HasDerivAt B b' (p 3)) : HasPD 3 (gaussU cx cy U A B)
    (-(a' + A (p 3) * (-b' * ((p 0 - (cx + U * p 3)) * (p 0 - (cx + U * p 3)) + (p 1 - cy) * (p 1 - cy)) + 2 * B (p 3) * U * (p 0 - (cx + U * p 3))))
      * gaussExp cx cy U B p * (p 1 - cy)) p := by
  have a : HasPD 3 (fun p => A (p 3)) a' p := time_deriv ha
  have e := ge_3 cx cy U B p hb
  unfold gaussU; pdr
theorem gu_00 : HasPD 0 (fun p => 2 * A (p 3) * B (p 3) * (p 0 - (cx + U * p 3)) * (p 1 - cy) * gaussExp cx cy U B p)
    (2 * A (p 3) * B (p 3) * (p 1 - cy) * gaussExp cx cy U B p * (1 - 2 * B (p 3) * (p 0 - (cx + U * p 3)) ^ 2)) p := by
  have a : HasPD 0 (fun p => A (p 3)) 0 p := time_only (by decide)
  have b : HasPD 0 (fun p => B (p 3)) 0 p := time_only (by decide)
  have e := ge_0 cx cy U B p
  pdr
theorem gu_11 : HasPD 1 (fun p => A (p 3) * gaussExp cx cy U B p * (2 * B (p 3) * (p 1 - cy) ^ 2 - 1))
    (A (p 3) * gaussExp cx cy U B p * (6 * B (p 3) * (p 1 - cy) - 4 * B (p 3) ^ 2 * (p 1 - cy) ^ 3)) p := by
  have a : HasPD 1 (fun p => A (p 3)) 0 p := time_only (by decide)
  have b : HasPD 1 (fun p => B (p 3)) 0 p := time_only (by decide)
  have e := ge_1 cx cy U B p
  simp only [pow_two]
  pdr

theorem gv_0 : HasPD 0 (gaussV cx cy U A B) (A (p 3) * gaussExp cx cy U B p * (1 - 2 * B (p 3) * (p 0 - (cx + U * p 3)) ^ 2)) p := by
  have a : HasPD 0 (fun p => A (p 3)) 0 p := time_only (by decide)
  have e := ge_0 cx cy U B p
  unfold gaussV; pdr
theorem gv_1 : HasPD 1 (gaussV cx cy U A B) (-2 * A (p 3) * B (p 3) * (p 0 - (cx + U * p 3)) * (p 1 - cy) * gaussExp cx cy U B p) p := by
  have a : HasPD 1 (fun p => A (p 3)) 0 p := time_only (by decide)
  have e := ge_1 cx cy U B p
  unfold gaussV; pdr
theorem gv_2 : HasPD 2 (gaussV cx cy U A B) 0 p := by
  have a : HasPD 2 (fun p => A (p 3)) 0 p := time_only (by decide)
  have e := ge_2 cx cy U B p
  unfold gaussV; pdr
theorem gv_3 {a' b' : ℝ} (ha : HasDerivAt A a' (p 3)) (hb : HasDerivAt B b' (p 3)) : HasPD 3 (gaussV cx cy U A B)
    ((a' + A (p 3) * (-b' * ((p 0 - (cx + U * p 3)) * (p 0 - (cx + U * p 3)) + (p 1 - cy) * (p 1 - cy)) + 2 * B (p 3) * U * (p 0 - (cx + U * p 3))))
      * gaussExp cx cy U B p * (p 0 - (cx + U * p 3)) - A (p 3) * gaussExp cx cy U B p * U) p := by
  have a : HasPD 3 (fun p => A (p 3)) a' p := time_deriv ha
  have e := ge_3 cx cy U B p hb
  unfold gaussV; pdr
theorem gv_00 : HasPD 0 (fun p => A (p 3) * gaussExp cx cy U B p * (1 - 2 * B (p 3) * (p 0 - (cx + U * p 3)) ^ 2))
    (A (p 3) * gaussExp cx cy U B p * (4 * B (p 3) ^ 2 * (p 0 - (cx + U * p 3)) ^ 3 - 6 * B (p 3) * (p 0 - (cx + U * p 3)))) p := by
  have a : HasPD 0 (fun p => A (p 3)) 0 p := time_only (by decide)
  have b : HasPD 0 (fun p => B (p 3)) 0 p := time_only (by decide)
  have e := ge_0 cx cy U B p
  simp only [pow_two]
  pdr
theorem gv_11 : HasPD 1 (fun p => -2 * A (p 3) * B (p 3) * (p 0 - (cx + U * p 3)) * (p 1 - cy) * gaussExp cx cy U B p)
    (-2 * A (p 3) * B (p 3) * (p 0 - (cx + U * p 3)) * gaussExp cx cy U B p * (1 - 2 * B (p 3) * (p 1 - cy) ^ 2)) p := by
  have a : HasPD 1 (fun p => A (p 3)) 0 p := time_only (by decide)
  have b : HasPD 1 (fun p => B (p 3)) 0 p := time_only (by decide)
  have e := ge_1 cx cy U B p
  pdr
end gauss

/-- A Gaussian vortex whose amplitude and width obey the viscous decay law solves the momentum equation. -/
theorem gauss_ns {cx cy U : ℝ} {A B : ℝ → ℝ} {p : Pt} {rho nu : ℝ} (hrho : rho ≠ 0) {Q : Pt → ℝ}
    (ha : HasDerivAt A (-8 * nu * A (p 3) * B (p 3)) (p 3)) (hb : HasDerivAt B (-4 * nu * B (p 3) ^ 2) (p 3))
    (q0 : HasPD 0 Q (rho * (A (p 3) * gaussExp cx cy U B p) ^ 2 * (p 0 - (cx + U * p 3))) p)
    (q1 : HasPD 1 Q (rho * (A (p 3) * gaussExp cx cy U B p) ^ 2 * (p 1 - cy)) p) (q2 : HasPD 2 Q 0 p) (k : Fin 3) :
    navierStokes rho nu ![gaussU cx cy U A B, gaussV cx cy U A B, fun _ => 0] Q k p = 0 := by
  have v0 : (![gaussU cx cy U A B, gaussV cx cy U A B, fun _ => 0] : Fin 3 → Pt → ℝ) 0 = gaussU cx cy U A B := rfl
  have v1 : (![gaussU cx cy U A B, gaussV cx cy U A B, fun _ => 0] : Fin 3 → Pt → ℝ) 1 = gaussV cx cy U A B := rfl
  have v2 : (![gaussU cx cy U A B, gaussV cx cy U A B, fun _ => 0] : Fin 3 → Pt → ℝ) 2 = fun _ => 0 := rfl
  fin_cases k
  · show navierStokes rho nu _ Q 0 p = 0
    rw [ns_of v0 (jet_of (gu_3 cx cy U A B p ha hb) (gu_0 cx cy U A B) (gu_1 cx cy U A B) (gu_2 cx cy U A B) (gu_00 cx cy U A B p)
      (gu_11 cx cy U A B p) (HasPD.const 0)) q0, v0, v1, v2]
    simp only [gaussU, gaussV]
    field_simp
    ring
  · show navierStokes rho nu _ Q 1 p = 0
    rw [ns_of v1 (jet_of (gv_3 cx cy U A B p ha hb) (gv_0 cx cy U A B) (gv_1 cx cy U A B) (gv_2 cx cy U A B) (gv_00 cx cy U A B p)
      (gv_11 cx cy U A B p) (HasPD.const 0)) q1, v0, v1, v2]
    simp only [gaussU, gaussV]
    field_simp
    ring
  · exact ns_zero v2 q2

/-! ### The vortex of the code -/

/-- Time factor of a vortex of radius `R` in a fluid of kinematic viscosity `visc / density`. -/
noncomputable def tf (P : WTV) (t : ℝ) : ℝ := 1 + 2 * (P.visc / P.density) / P.rVortex ^ 2 * t
noncomputable def amp (P : WTV) (t : ℝ) : ℝ := P.beta / P.rVortex * ((tf P t)⁻¹ * (tf P t)⁻¹)
noncomputable def wid (P : WTV) (t : ℝ) : ℝ := 1 / (2 * P.rVortex ^ 2) * (tf P t)⁻¹

/-- Parameters for which the vortex is defined. -/
structure Proper (P : WTV) : Prop where
  visc : P.visc > 1 / 10 ^ 30
  dens : P.density ≠ 0
  beta : P.beta ≠ 0
  rad : P.rVortex ≠ 0

theorem Proper.visc0 {P : WTV} (h : Proper P) : P.visc ≠ 0 := by
  have := h.visc
  intro e
  rw [e] at this
  norm_num at this

theorem tf_eq {P : WTV} (h : Proper P) (t : ℝ) : 1 + 2 * (t * P.beta / P.rVortex) / (P.density * P.beta * P.rVortex / P.visc) = tf P t := by
  have h1 := h.visc0
  have h2 := h.dens
  have h3 := h.beta
  have h4 := h.rad
  unfold tf
  field_simp

theorem wtvTFac_eq {P : WTV} (h : Proper P) (t : ℝ) : wtvTFac P t = some (tf P t) := by
  unfold wtvTFac
  simp only [if_pos h.visc]
  rw [if_neg, tf_eq h]
  exact div_ne_zero (mul_ne_zero (mul_ne_zero h.dens h.beta) h.rad) h.visc0

theorem radius_sq (a b R : ℝ) : √(a * a + b * b) / R * (√(a * a + b * b) / R) = (a * a + b * b) / R ^ 2 := by
  rw [div_mul_div_comm, Real.mul_self_sqrt (by nlinarith [mul_self_nonneg a, mul_self_nonneg b]), pow_two]

theorem factor_eq (P : WTV) (p : Pt) :
    P.beta / (P.rVortex * tf P (p 3) * tf P (p 3)) * exp (1 / 2 * (1 -
      √((p 0 - (P.centroidX + P.uInf * p 3)) * (p 0 - (P.centroidX + P.uInf * p 3)) + (p 1 - P.centroidY) * (p 1 - P.centroidY)) / P.rVortex *
      (√((p 0 - (P.centroidX + P.uInf * p 3)) * (p 0 - (P.centroidX + P.uInf * p 3)) + (p 1 - P.centroidY) * (p 1 - P.centroidY)) / P.rVortex)
        / tf P (p 3)))
    = amp P (p 3) * gaussExp P.centroidX P.centroidY P.uInf (wid P) p := by
  rw [radius_sq, gaussExp, amp, wid]
  congr 1
  · simp only [div_eq_mul_inv, mul_inv]; ring
  · congr 1
    simp only [div_eq_mul_inv, mul_inv]; ring

/-- The velocity offered by the function, as a field (zero where it is not a number). -/
noncomputable def wtvField (P : WTV) : Fin 3 → Pt → ℝ := fun k p => ((wtvVel P p).getD 0) k

theorem wtvField_eq {P : WTV} (h : Proper P) :
    wtvField P = ![gaussU P.centroidX P.centroidY P.uInf (amp P) (wid P), gaussV P.centroidX P.centroidY P.uInf (amp P) (wid P), fun _ => 0] := by
  funext k p
  simp only [wtvField, wtvVel, wtvTFac_eq h, Option.map_some, Option.getD_some, wtvAt, factor_eq]
  fin_cases k <;> rfl

theorem wtvGradP_eq {P : WTV} (h : Proper P) (p : Pt) :
    wtvGradP P p = ![P.density * (amp P (p 3) * gaussExp P.centroidX P.centroidY P.uInf (wid P) p) ^ 2 * (p 0 - (P.centroidX + P.uInf * p 3)),
      P.density * (amp P (p 3) * gaussExp P.centroidX P.centroidY P.uInf (wid P) p) ^ 2 * (p 1 - P.centroidY), 0] := by
  have n (x y : ℝ) : ‖(⟨x, y⟩ : ℂ)‖ = √(x * x + y * y) := by
    rw [Complex.norm_def, Complex.normSq_mk]
  have c (x y : ℝ) : √(x * x + y * y) * cos (Complex.arg ⟨x, y⟩) = x := by rw [← n]; exact Complex.norm_mul_cos_arg _
  have s (x y : ℝ) : √(x * x + y * y) * sin (Complex.arg ⟨x, y⟩) = y := by rw [← n]; exact Complex.norm_mul_sin_arg _
  have hR := h.rad
  simp only [wtvGradP, tf_eq h, factor_eq]
  funext k
  fin_cases k
  · show _ * _ * _ * cos _ = _ * _
    rw [mul_assoc _ (_ / _) _, div_mul_cancel₀ _ hR, mul_assoc, c]; ring
  · show _ * _ * _ * sin _ = _ * _
    rw [mul_assoc _ (_ / _) _, div_mul_cancel₀ _ hR, mul_assoc, s]; ring
  · rfl

theorem tf_deriv (P : WTV) (t : ℝ) : HasDerivAt (tf P) (2 * (P.visc / P.density) / P.rVortex ^ 2) t := by
  have := ((hasDerivAt_id t).const_mul (2 * (P.visc / P.density) / P.rVortex ^ 2)).const_add 1
  exact this.congr_deriv (mul_one _)

theorem tf_inv (P : WTV) {t : ℝ} (ht : tf P t ≠ 0) :
    HasDerivAt (fun t => (tf P t)⁻¹) (-(2 * (P.visc / P.density) / P.rVortex ^ 2) * ((tf P t)⁻¹ * (tf P t)⁻¹)) t := by
  refine ((tf_deriv P t).inv ht).congr_deriv ?_
  rw [div_eq_mul_inv, ← mul_inv, ← pow_two]

/-- C141: for positive viscosity the wind-energy Taylor vortex is defined everywhere, is divergence free, and with the pressure gradient the
code offers for it satisfies the incompressible Navier-Stokes equations at every point and time (`Q` is any pressure that has that gradient). -/
theorem c141_wind_energy_vortex {P : WTV} (h : Proper P) {p : Pt} (ht : tf P (p 3) ≠ 0) :
    (∀ p, (wtvVel P p).isSome) ∧ div (wtvField P) p = 0 ∧
      ∀ Q : Pt → ℝ, (∀ k, HasPD (dir k) Q (wtvGradP P p k) p) → ∀ k, navierStokes P.density (P.visc / P.density) (wtvField P) Q k p = 0 := by
  have hR := h.rad
  refine ⟨fun p => by simp [wtvVel, wtvTFac_eq h], ?_, ?_⟩
  · rw [wtvField_eq h]
    refine (div_of (gu_0 _ _ _ _ _ p) (gv_1 _ _ _ _ _ p) (HasPD.const 0)).trans ?_
    ring
  · intro Q hQ k
    rw [wtvField_eq h]
    rw [wtvGradP_eq h] at hQ
    refine gauss_ns h.dens ?_ ?_ (hQ 0) (hQ 1) (hQ 2) k
    · refine (((tf_inv P ht).mul (tf_inv P ht)).const_mul (P.beta / P.rVortex)).congr_deriv ?_
      simp only [amp, wid]
      generalize (tf P (p 3))⁻¹ = x
      field_simp
      ring
    · refine ((tf_inv P ht).const_mul (1 / (2 * P.rVortex ^ 2))).congr_deriv ?_
      simp only [wid]
      generalize (tf P (p 3))⁻¹ = x
      field_simp
      ring

/-- The time factor does not vanish in forward time, so C141 covers every reachable time. -/
theorem tf_pos {P : WTV} (hv : 0 < P.visc) (hd : 0 < P.density) {t : ℝ} (ht : 0 ≤ t) : tf P t ≠ 0 := by
  unfold tf
  have : 0 ≤ 2 * (P.visc / P.density) / P.rVortex ^ 2 * t := by positivity
  linarith

/-- C141: at time zero the pressure function has the gradient the pressure-gradient function gives. -/
theorem c141_wind_energy_pressure {P : WTV} (h : Proper P) {p : Pt} (h0 : p 3 = 0) (k : Fin 3) :
    HasPD (dir k) (wtvPressure P) (wtvGradP P p k) p := by
  rw [wtvGradP_eq h]
  have hR := h.rad
  have e : wtvPressure P = fun p => -1 / 2 * exp 1 * P.beta * P.beta * P.density *
      exp (-(((p 0 - P.centroidX) * (p 0 - P.centroidX) + (p 1 - P.centroidY) * (p 1 - P.centroidY)) / P.rVortex ^ 2)) := by
    funext p
    simp only [wtvPressure, neg_mul, radius_sq]
  have g : gaussExp P.centroidX P.centroidY P.uInf (wid P) p ^ 2 = exp 1 *
      exp (-(((p 0 - P.centroidX) * (p 0 - P.centroidX) + (p 1 - P.centroidY) * (p 1 - P.centroidY)) / P.rVortex ^ 2)) := by
    rw [gaussExp, h0, wid, tf, pow_two, ← exp_add, ← exp_add]
    congr 1
    simp only [mul_zero, add_zero, inv_one]
    field_simp
    ring
  have a : amp P (p 3) = P.beta / P.rVortex := by simp [amp, tf, h0]
  rw [mul_pow, g, a, h0, e]
  fin_cases k
  · show HasPD 0 _ (_ * _ * _) p
    refine HasPD.congr (by hpd) ?_
    field_simp
    ring
  · show HasPD 1 _ (_ * _ * _) p
    refine HasPD.congr (by hpd) ?_
    field_simp
    ring
  · show HasPD 2 _ 0 p
    refine HasPD.congr (by hpd) ?_
    ring

/-- C141 (finding): below the viscosity threshold, where the code means to drop the viscous terms, the time factor is `0/0` and the vortex
is not a number anywhere. -/
theorem c141_inviscid_undefined (P : WTV) (h : P.visc ≤ 1 / 10 ^ 30) (p : Pt) : wtvVel P p = none := by
  simp only [wtvVel, wtvTFac, if_neg (not_lt.2 h), if_true, Option.map_none]

/-- The defaults of the code are proper. -/
example : Proper WTV.code := by
  constructor <;> norm_num [WTV.code]

end Nalu.Exact
