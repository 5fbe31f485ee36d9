import Verif.Model.WallFunction
import Mathlib.Analysis.SpecialFunctions.Log.NegMulLog
import Mathlib.Analysis.SpecificLimits.Basic
import Mathlib.Algebra.Order.BigOperators.Ring.Finset
import Mathlib.Algebra.Order.Chebyshev
import Mathlib.Algebra.BigOperators.Field
import Mathlib.Analysis.SpecialFunctions.Log.Deriv
import Mathlib.Tactic.Linarith
import Mathlib.Tactic.Positivity
import Mathlib.Tactic.FinCases
import Mathlib.Tactic.FieldSimp
import Mathlib.Tactic.NormNum

/-!
# Wall functions: friction velocity (C66), wall force (C67), wall distance (C68), wall values (C69)
-/

namespace Nalu.Wall

/-! ## C66: the friction velocity solves the law of the wall -/

/-- Specification: `u` is the friction velocity of the logarithmic law of the wall, `up/u = log(E y+)/kappa`
with `y+ = rho*yp*u/mu`, on its physical branch `E y+ ≥ 1`. -/
def LawOfTheWall (elog kappa up yp rho mu u : ℝ) : Prop :=
  0 < u ∧ 1 ≤ elog * (rho * yp * u / mu) ∧ u * Real.log (elog * (rho * yp * u / mu)) = kappa * up

/-- The same equation in terms of `A`. -/
private def Root (A c u : ℝ) : Prop := 0 < u ∧ 1 ≤ A * u ∧ u * Real.log (A * u) = c

private lemma law_iff (elog kappa up yp rho mu u : ℝ) :
    LawOfTheWall elog kappa up yp rho mu u ↔ Root (lawA elog rho yp mu) (kappa * up) u := by
  have h : elog * (rho * yp * u / mu) = lawA elog rho yp mu * u := by unfold lawA; ring
  unfold LawOfTheWall Root; rw [h]

/-- The tangent of `u log(Au)` lies below the graph. -/
private lemma tangent_le {A u v : ℝ} (hA : 0 < A) (hu : 0 < u) (hv : 0 < v) :
    u * Real.log (A * u) + (1 + Real.log (A * u)) * (v - u) ≤ v * Real.log (A * v) := by
  have h1 : Real.log (u / v) ≤ u / v - 1 := Real.log_le_sub_one_of_pos (by positivity)
  rw [Real.log_div hu.ne' hv.ne'] at h1
  have e1 : Real.log (A * u) = Real.log A + Real.log u := Real.log_mul hA.ne' hu.ne'
  have e2 : Real.log (A * v) = Real.log A + Real.log v := Real.log_mul hA.ne' hv.ne'
  rw [e1, e2]
  have h2 : v * (Real.log u - Real.log v) ≤ u - v := by
    calc v * (Real.log u - Real.log v) ≤ v * (u / v - 1) := by
          exact mul_le_mul_of_nonneg_left h1 hv.le
      _ = u - v := by field_simp
  nlinarith [h2]

private lemma root_exists {A c : ℝ} (hA : 0 < A) (hc : 0 ≤ c) : ∃ u, Root A c u := by
  have hcont : Continuous fun u : ℝ => u * Real.log (A * u) := by
    have h := (Real.continuous_mul_log.comp (continuous_const_mul A)).const_smul (1 / A)
    refine h.congr fun u => ?_
    show (1 / A) * (A * u * Real.log (A * u)) = _
    field_simp
  have hle : 1 / A ≤ Real.exp 1 / A + c := by
    have h1 : (1 : ℝ) ≤ Real.exp 1 := by linarith [Real.add_one_le_exp (1 : ℝ)]
    have : 1 / A ≤ Real.exp 1 / A := by gcongr
    linarith
  have hlo : 1 / A * Real.log (A * (1 / A)) ≤ c := by
    rw [mul_one_div_cancel hA.ne', Real.log_one, mul_zero]; exact hc
  have hhi : c ≤ (Real.exp 1 / A + c) * Real.log (A * (Real.exp 1 / A + c)) := by
    have h1 : Real.exp 1 ≤ A * (Real.exp 1 / A + c) := by
      have : A * (Real.exp 1 / A + c) = Real.exp 1 + A * c := by field_simp
      rw [this]; nlinarith [mul_nonneg hA.le hc]
    have h2 : 1 ≤ Real.log (A * (Real.exp 1 / A + c)) := by
      have := Real.log_le_log (Real.exp_pos 1) h1
      rwa [Real.log_exp] at this
    have h3 : 0 < Real.exp 1 / A := by positivity
    nlinarith [mul_nonneg hc (by linarith : (0 : ℝ) ≤ Real.log (A * (Real.exp 1 / A + c)) - 1),
      mul_pos h3 (by linarith : (0 : ℝ) < Real.log (A * (Real.exp 1 / A + c)))]
  obtain ⟨u, hu, hu2⟩ := intermediate_value_Icc hle hcont.continuousOn ⟨hlo, hhi⟩
  have hu0 : 0 < u := lt_of_lt_of_le (by positivity) hu.1
  refine ⟨u, hu0, ?_, hu2⟩
  have := mul_le_mul_of_nonneg_left hu.1 hA.le
  rwa [mul_one_div_cancel hA.ne'] at this

private lemma root_unique {A c u v : ℝ} (hA : 0 < A) (hu : Root A c u) (hv : Root A c v) : u = v := by
  obtain ⟨hu0, hu1, hu2⟩ := hu
  obtain ⟨hv0, hv1, hv2⟩ := hv
  have h1 := tangent_le hA hu0 hv0
  have h2 := tangent_le hA hv0 hu0
  have l1 := Real.log_nonneg hu1
  have l2 := Real.log_nonneg hv1
  rw [hu2, hv2] at h1
  rw [hu2, hv2] at h2
  rcases lt_trichotomy u v with h | h | h
  · nlinarith
  · exact h
  · nlinarith

/-- One update. -/
private noncomputable def nxt (c A u : ℝ) : ℝ := (u + c) / (1 + Real.log (A * u))

private lemma sub_df {kappa up A u : ℝ} (h : 0 < 1 + Real.log (A * u)) :
    u - utauDf kappa up A u = nxt (kappa * up) A u := by
  unfold utauDf nxt
  generalize Real.log (A * u) = w at h ⊢
  have hw := h.ne'
  rw [div_neg, sub_neg_eq_add]
  field_simp
  ring

private lemma nxt_ge {A c u r : ℝ} (hA : 0 < A) (hr : Root A c r) (hu : 0 < u)
    (h : 0 < 1 + Real.log (A * u)) : r ≤ nxt c A u := by
  obtain ⟨h0, h1, h2⟩ := hr
  have ht := tangent_le hA hu h0
  rw [h2] at ht
  unfold nxt
  rw [le_div_iff₀ h]
  nlinarith

private lemma log_le_of_ge {A u r : ℝ} (hA : 0 < A) (hr : 1 ≤ A * r) (hru : r ≤ u) :
    0 ≤ Real.log (A * r) ∧ Real.log (A * r) ≤ Real.log (A * u) := by
  refine ⟨Real.log_nonneg hr, Real.log_le_log (by linarith) ?_⟩
  exact mul_le_mul_of_nonneg_left hru hA.le

/-- From above the root the update decreases, and the error is reduced by a definite factor. -/
private lemma nxt_contract {A c u r : ℝ} (hA : 0 < A) (hr : Root A c r) (hru : r ≤ u) :
    nxt c A u ≤ u ∧
    nxt c A u - r ≤ (1 - (1 + Real.log (A * r)) / (1 + Real.log (A * u))) * (u - r) := by
  obtain ⟨l0, l1⟩ := log_le_of_ge hA hr.2.1 hru
  obtain ⟨h0, h1, h2⟩ := hr
  have hu : 0 < u := lt_of_lt_of_le h0 hru
  have hw : 0 < 1 + Real.log (A * u) := by linarith
  have ht := tangent_le hA h0 hu
  rw [h2] at ht
  constructor
  · unfold nxt
    rw [div_le_iff₀ hw]
    nlinarith
  · have e : (1 - (1 + Real.log (A * r)) / (1 + Real.log (A * u))) * (u - r)
        = ((1 + Real.log (A * u)) * (u - r) - (1 + Real.log (A * r)) * (u - r)) / (1 + Real.log (A * u)) := by
      field_simp
    have e2 : nxt c A u - r = (u + c - r * (1 + Real.log (A * u))) / (1 + Real.log (A * u)) := by
      unfold nxt
      rw [sub_div, mul_div_assoc, div_self hw.ne', mul_one]
    rw [e, e2]
    apply div_le_div_of_nonneg_right _ hw.le
    linarith

/-- Invariant of the loop from an iterate at or above the root. -/
private lemma loop_above {kappa up A tol r : ℝ} (hA : 0 < A) (hr : Root A (kappa * up) r) :
    ∀ (k : ℕ) (u : ℝ), r ≤ u →
      r ≤ (utauLoop kappa up A tol k u).1 ∧ (utauLoop kappa up A tol k u).1 ≤ u ∧
      ((utauLoop kappa up A tol k u).2 = true →
        (utauLoop kappa up A tol k u).1 - r ≤ tol * (Real.log (A * u) - Real.log (A * r))) := by
  intro k
  induction k with
  | zero => intro u hu; exact ⟨hu, le_refl _, by simp [utauLoop]⟩
  | succ k ih =>
    intro u hu
    obtain ⟨l0, l1⟩ := log_le_of_ge hA hr.2.1 hu
    have hu0 : 0 < u := lt_of_lt_of_le hr.1 hu
    have hw : 0 < 1 + Real.log (A * u) := by linarith
    have hs := sub_df (kappa := kappa) (up := up) hw
    have hge := nxt_ge hA hr hu0 hw
    have hco := nxt_contract hA hr hu
    unfold utauLoop
    split_ifs with hc
    · refine ⟨by rw [hs]; exact hge, by rw [hs]; exact hco.1, fun _ => ?_⟩
      simp only
      rw [hs]
      have hdf : utauDf kappa up A u = u - nxt (kappa * up) A u := by linarith [hs]
      have hd : u - nxt (kappa * up) A u < tol := by
        rw [← hdf]; exact lt_of_le_of_lt (le_abs_self _) hc
      -- error at u bounded by the update
      have h3 : (nxt (kappa * up) A u - r) * (1 + Real.log (A * u))
          ≤ (Real.log (A * u) - Real.log (A * r)) * (u - r) := by
        have := mul_le_mul_of_nonneg_right hco.2 hw.le
        calc _ ≤ _ := this
          _ = _ := by field_simp; ring
      have h4 : nxt (kappa * up) A u - r ≤
          (u - nxt (kappa * up) A u) * (Real.log (A * u) - Real.log (A * r)) := by
        nlinarith [mul_nonneg (by linarith : (0:ℝ) ≤ nxt (kappa * up) A u - r) l0]
      have h5 : 0 ≤ Real.log (A * u) - Real.log (A * r) := by linarith
      nlinarith
    · rw [hs]
      obtain ⟨i1, i2, i3⟩ := ih (nxt (kappa * up) A u) hge
      refine ⟨i1, i2.trans hco.1, fun h => (i3 h).trans ?_⟩
      have htol : 0 ≤ tol ∨ tol < 0 := le_or_gt 0 tol
      obtain ⟨m0, m1⟩ := log_le_of_ge hA hr.2.1 hge
      rcases htol with ht | ht
      · have : Real.log (A * nxt (kappa * up) A u) ≤ Real.log (A * u) :=
          Real.log_le_log (by nlinarith [hr.2.1]) (mul_le_mul_of_nonneg_left hco.1 hA.le)
        nlinarith
      · exfalso
        have key : ∀ (k : ℕ) (v : ℝ), (utauLoop kappa up A tol k v).2 = false := by
          intro k
          induction k with
          | zero => intro v; rfl
          | succ k ih2 =>
            intro v
            unfold utauLoop
            rw [if_neg (by have := abs_nonneg (utauDf kappa up A v); linarith)]
            exact ih2 _
        rw [key] at h
        exact absurd h (by simp)

/-- Enough iterations from above always converge. -/
private lemma loop_converges {kappa up A tol r : ℝ} (hA : 0 < A) (hr : Root A (kappa * up) r)
    (htol : 0 < tol) {q : ℝ} :
    ∀ (k : ℕ) (u : ℝ), r ≤ u → 1 - (1 + Real.log (A * r)) / (1 + Real.log (A * u)) ≤ q → 0 ≤ q →
      q ^ k * (u - r) < tol → (utauLoop kappa up A tol (k + 1) u).2 = true := by
  intro k
  induction k with
  | zero =>
    intro u hu hq1 hq0 hk
    obtain ⟨l0, l1⟩ := log_le_of_ge hA hr.2.1 hu
    have hu0 : 0 < u := lt_of_lt_of_le hr.1 hu
    have hw : 0 < 1 + Real.log (A * u) := by linarith
    have hs := sub_df (kappa := kappa) (up := up) hw
    have hge := nxt_ge hA hr hu0 hw
    have hco := nxt_contract hA hr hu
    unfold utauLoop
    rw [if_pos]
    rw [abs_lt]
    constructor <;> nlinarith
  | succ k ih =>
    intro u hu hq1 hq0 hk
    obtain ⟨l0, l1⟩ := log_le_of_ge hA hr.2.1 hu
    have hu0 : 0 < u := lt_of_lt_of_le hr.1 hu
    have hw : 0 < 1 + Real.log (A * u) := by linarith
    have hs := sub_df (kappa := kappa) (up := up) hw
    have hge := nxt_ge hA hr hu0 hw
    have hco := nxt_contract hA hr hu
    unfold utauLoop
    split_ifs with hc
    · rfl
    · rw [hs]
      apply ih _ hge _ hq0
      · have h1 : nxt (kappa * up) A u - r ≤ q * (u - r) :=
          hco.2.trans (mul_le_mul_of_nonneg_right hq1 (by linarith))
        calc q ^ k * (nxt (kappa * up) A u - r) ≤ q ^ k * (q * (u - r)) :=
              mul_le_mul_of_nonneg_left h1 (pow_nonneg hq0 k)
          _ = q ^ (k + 1) * (u - r) := by ring
          _ < tol := hk
      · obtain ⟨m0, m1⟩ := log_le_of_ge hA hr.2.1 hge
        have h2 : Real.log (A * nxt (kappa * up) A u) ≤ Real.log (A * u) :=
          Real.log_le_log (by nlinarith [hr.2.1]) (mul_le_mul_of_nonneg_left hco.1 hA.le)
        refine le_trans ?_ hq1
        have : (1 + Real.log (A * r)) / (1 + Real.log (A * u))
            ≤ (1 + Real.log (A * r)) / (1 + Real.log (A * nxt (kappa * up) A u)) := by
          apply div_le_div_of_nonneg_left <;> linarith
        linarith

section Friction
variable {elog kappa yplusCrit tol up yp rho mu : ℝ}

/-- C66. For a positive distance, density and viscosity and any tangential speed, the law of the wall has one
and only one friction velocity. -/
theorem c66_law_has_unique_solution (hE : 0 < elog) (hk : 0 ≤ kappa) (hup : 0 ≤ up) (hy : 0 < yp)
    (hr : 0 < rho) (hm : 0 < mu) : ∃! u, LawOfTheWall elog kappa up yp rho mu u := by
  have hA : 0 < lawA elog rho yp mu := by unfold lawA; positivity
  obtain ⟨u, hu⟩ := root_exists hA (mul_nonneg hk hup)
  refine ⟨u, (law_iff ..).2 hu, fun v hv => root_unique hA ((law_iff ..).1 hv) hu⟩

private lemma guess_facts (hy : 0 < yp) (hr : 0 < rho) (hm : 0 < mu) :
    lawA elog rho yp mu * utauGuess yplusCrit mu rho yp = elog * yplusCrit := by
  unfold lawA utauGuess; field_simp

/-- C66. Whatever the data and the iteration limit (at least one), the computed friction velocity is never
below the true one, and if the iteration reports convergence its error is at most the tolerance times a
logarithmic factor. -/
theorem c66_friction_velocity (hE : 0 < elog) (hk : 0 ≤ kappa) (hEy : 1 ≤ elog * yplusCrit) (hup : 0 ≤ up)
    (hy : 0 < yp) (hr : 0 < rho) (hm : 0 < mu) (maxIt : ℕ) {u : ℝ}
    (hu : LawOfTheWall elog kappa up yp rho mu u) :
    u ≤ (frictionVelocity elog kappa yplusCrit tol (maxIt + 1) up yp rho mu).1 ∧
    ((frictionVelocity elog kappa yplusCrit tol (maxIt + 1) up yp rho mu).2 = true →
      (frictionVelocity elog kappa yplusCrit tol (maxIt + 1) up yp rho mu).1 - u ≤
        tol * (1 + Real.log (elog * (rho * yp * max (yplusCrit * mu / rho / yp)
          (yplusCrit * mu / rho / yp + kappa * up) / mu)))) := by
  have hA : 0 < lawA elog rho yp mu := by unfold lawA; positivity
  have hroot := (law_iff ..).1 hu
  have hyc : 0 < yplusCrit := by
    by_contra h
    push Not at h
    nlinarith [mul_nonneg hE.le (neg_nonneg.2 h)]
  set u0 := utauGuess yplusCrit mu rho yp with hu0def
  have hu0 : 0 < u0 := by rw [hu0def]; unfold utauGuess; positivity
  have hAu0 : 1 ≤ lawA elog rho yp mu * u0 := by rw [guess_facts hy hr hm]; exact hEy
  have hl0 : 0 ≤ Real.log (lawA elog rho yp mu * u0) := Real.log_nonneg hAu0
  have hw : 0 < 1 + Real.log (lawA elog rho yp mu * u0) := by linarith
  have hc : 0 ≤ kappa * up := mul_nonneg hk hup
  have hs := sub_df (kappa := kappa) (up := up) hw
  have hge := nxt_ge hA hroot hu0 hw
  have hM : max (yplusCrit * mu / rho / yp) (yplusCrit * mu / rho / yp + kappa * up) = u0 + kappa * up := by
    rw [max_eq_right (by linarith)]; rfl
  have hlogM : elog * (rho * yp * (u0 + kappa * up) / mu) = lawA elog rho yp mu * (u0 + kappa * up) := by
    unfold lawA; ring
  rw [hM, hlogM]
  have hnle : nxt (kappa * up) (lawA elog rho yp mu) u0 ≤ u0 + kappa * up := by
    unfold nxt
    apply div_le_self (by linarith) (by linarith)
  have hlM : 0 ≤ Real.log (lawA elog rho yp mu * (u0 + kappa * up)) :=
    Real.log_nonneg (by nlinarith [mul_nonneg hA.le hc])
  have hlr : 0 ≤ Real.log (lawA elog rho yp mu * u) := Real.log_nonneg hroot.2.1
  unfold frictionVelocity
  rw [← hu0def]
  unfold utauLoop
  split_ifs with hcv
  · refine ⟨by simpa only [hs] using hge, fun _ => ?_⟩
    simp only [hs]
    have htol : 0 < tol := lt_of_le_of_lt (abs_nonneg _) hcv
    have hdf : utauDf kappa up (lawA elog rho yp mu) u0
        = u0 - nxt (kappa * up) (lawA elog rho yp mu) u0 := by linarith [hs]
    rw [hdf, abs_lt] at hcv
    rcases le_total u u0 with h | h
    · have hco := nxt_contract hA hroot h
      have h3 : (nxt (kappa * up) (lawA elog rho yp mu) u0 - u) * (1 + Real.log (lawA elog rho yp mu * u0))
          ≤ (Real.log (lawA elog rho yp mu * u0) - Real.log (lawA elog rho yp mu * u)) * (u0 - u) := by
        have := mul_le_mul_of_nonneg_right hco.2 hw.le
        calc _ ≤ _ := this
          _ = _ := by field_simp; ring
      have h4 : nxt (kappa * up) (lawA elog rho yp mu) u0 - u ≤
          (u0 - nxt (kappa * up) (lawA elog rho yp mu) u0)
            * (Real.log (lawA elog rho yp mu * u0) - Real.log (lawA elog rho yp mu * u)) := by
        nlinarith [mul_nonneg (by linarith : (0:ℝ) ≤ nxt (kappa * up) (lawA elog rho yp mu) u0 - u) hlr]
      have h5 : Real.log (lawA elog rho yp mu * u0) ≤ Real.log (lawA elog rho yp mu * (u0 + kappa * up)) :=
        Real.log_le_log (by linarith) (mul_le_mul_of_nonneg_left (by linarith) hA.le)
      have h6 := (log_le_of_ge hA hroot.2.1 h).2
      nlinarith
    · nlinarith
  · rw [hs]
    obtain ⟨i1, i2, i3⟩ := loop_above (tol := tol) hA hroot maxIt _ hge
    refine ⟨i1, fun h => (i3 h).trans ?_⟩
    have htol : 0 ≤ tol := by
      by_contra hneg
      push Not at hneg
      have key : ∀ (k : ℕ) (v : ℝ), (utauLoop kappa up (lawA elog rho yp mu) tol k v).2 = false := by
        intro k
        induction k with
        | zero => intro v; rfl
        | succ k ih2 =>
          intro v
          unfold utauLoop
          rw [if_neg (by have := abs_nonneg (utauDf kappa up (lawA elog rho yp mu) v); linarith)]
          exact ih2 _
      rw [key] at h
      exact absurd h (by simp)
    have h5 : Real.log (lawA elog rho yp mu * nxt (kappa * up) (lawA elog rho yp mu) u0)
        ≤ Real.log (lawA elog rho yp mu * (u0 + kappa * up)) :=
      Real.log_le_log (by nlinarith [hroot.2.1, mul_le_mul_of_nonneg_left hge hA.le])
        (mul_le_mul_of_nonneg_left hnle hA.le)
    nlinarith

/-- C66. With a positive tolerance the iteration converges once the iteration limit is large enough, for every
input. -/
theorem c66_converges_eventually (hE : 0 < elog) (hk : 0 ≤ kappa) (hEy : 1 ≤ elog * yplusCrit)
    (hup : 0 ≤ up) (hy : 0 < yp) (hr : 0 < rho) (hm : 0 < mu) (htol : 0 < tol) :
    ∃ N, ∀ maxIt, N ≤ maxIt →
      (frictionVelocity elog kappa yplusCrit tol maxIt up yp rho mu).2 = true := by
  have hA : 0 < lawA elog rho yp mu := by unfold lawA; positivity
  have hc : 0 ≤ kappa * up := mul_nonneg hk hup
  obtain ⟨r, hroot⟩ := root_exists hA hc
  have hyc : 0 < yplusCrit := by
    by_contra h
    push Not at h
    nlinarith [mul_nonneg hE.le (neg_nonneg.2 h)]
  set u0 := utauGuess yplusCrit mu rho yp with hu0def
  have hu0 : 0 < u0 := by rw [hu0def]; unfold utauGuess; positivity
  have hAu0 : 1 ≤ lawA elog rho yp mu * u0 := by rw [guess_facts hy hr hm]; exact hEy
  have hl0 : 0 ≤ Real.log (lawA elog rho yp mu * u0) := Real.log_nonneg hAu0
  have hw : 0 < 1 + Real.log (lawA elog rho yp mu * u0) := by linarith
  have hs := sub_df (kappa := kappa) (up := up) hw
  have hge := nxt_ge hA hroot hu0 hw
  set u1 := nxt (kappa * up) (lawA elog rho yp mu) u0 with hu1
  obtain ⟨l0, l1⟩ := log_le_of_ge hA hroot.2.1 hge
  set q := 1 - (1 + Real.log (lawA elog rho yp mu * r)) / (1 + Real.log (lawA elog rho yp mu * u1)) with hqdef
  have hq1 : q < 1 := by
    have : 0 < (1 + Real.log (lawA elog rho yp mu * r)) / (1 + Real.log (lawA elog rho yp mu * u1)) := by
      apply div_pos <;> linarith
    rw [hqdef]; linarith
  have hq0 : 0 ≤ q := by
    have : (1 + Real.log (lawA elog rho yp mu * r)) / (1 + Real.log (lawA elog rho yp mu * u1)) ≤ 1 := by
      rw [div_le_one (by linarith)]; linarith
    rw [hqdef]; linarith
  obtain ⟨n, hn⟩ : ∃ n : ℕ, q ^ n * (u1 - r) < tol := by
    rcases eq_or_lt_of_le (sub_nonneg.2 hge) with h | h
    · exact ⟨0, by rw [← h]; simpa using htol⟩
    · obtain ⟨n, hn⟩ := exists_pow_lt_of_lt_one (div_pos htol h) hq1
      exact ⟨n, by rwa [lt_div_iff₀ h] at hn⟩
  refine ⟨n + 2, fun maxIt hN => ?_⟩
  obtain ⟨m, rfl⟩ : ∃ m, maxIt = m + 2 := ⟨maxIt - 2, by omega⟩
  have hnm : n ≤ m := by omega
  unfold frictionVelocity
  rw [← hu0def]
  rw [show m + 2 = (m + 1) + 1 from rfl]
  unfold utauLoop
  split_ifs with hcv
  · rfl
  · rw [hs]
    apply loop_converges hA hroot htol m u1 hge le_rfl hq0
    calc q ^ m * (u1 - r) ≤ q ^ n * (u1 - r) :=
          mul_le_mul_of_nonneg_right (pow_le_pow_of_le_one hq0 hq1.le hnm) (sub_nonneg.2 hge)
      _ < tol := hn

/-- The constants of the code meet the hypotheses. -/
example : (0 : ℝ) < 9.8 ∧ (0 : ℝ) ≤ 0.41 ∧ (1 : ℝ) ≤ 9.8 * 11.63 := by norm_num

/-- A non-trivial solution of the law of the wall: `E=1`, `kappa*up = 2*exp 2`, `rho*yp/mu = 1`, `u = exp 2`. -/
example : LawOfTheWall 1 1 (2 * Real.exp 2) 1 1 1 (Real.exp 2) := by
  refine ⟨Real.exp_pos 2, ?_, ?_⟩
  · have := Real.add_one_le_exp (2 : ℝ); norm_num
  · norm_num [mul_comm]

end Friction

/-! ## C67: the wall force -/

/-- Specification: the part of `u` orthogonal to the unit vector `nrm`. -/
def orthPart {n : ℕ} (nrm u : Fin n → ℝ) (i : Fin n) : ℝ := u i - (∑ j, nrm j * u j) * nrm i

lemma tangential_eq {n : ℕ} (nrm u : Fin n → ℝ) (i : Fin n) : tangential nrm u i = orthPart nrm u i := by
  unfold tangential orthPart
  have h : ∀ j, (if i = j then (1 - nrm i * nrm j) * u j else -(nrm i * nrm j * u j))
      = (if i = j then u j else 0) - nrm j * u j * nrm i := by
    intro j; split_ifs <;> ring
  simp only [h, Finset.sum_sub_distrib, Finset.sum_ite_eq, Finset.mem_univ, if_true, ← Finset.sum_mul]

lemma aMag_sq {n : ℕ} (a : Fin n → ℝ) : aMag a ^ 2 = ∑ j, a j * a j := by
  unfold aMag
  exact Real.sq_sqrt (Finset.sum_nonneg fun j _ => mul_self_nonneg _)

lemma aMag_pos {n : ℕ} (a : Fin n → ℝ) (h : a ≠ 0) : 0 < aMag a := by
  unfold aMag
  apply Real.sqrt_pos.2
  obtain ⟨k, hk⟩ := Function.ne_iff.1 h
  exact Finset.sum_pos' (fun j _ => mul_self_nonneg _) ⟨k, Finset.mem_univ k, mul_self_pos.2 hk⟩

/-- C67. The normal the code forms from a non-zero area vector has unit length. -/
theorem c67_unit_normal {n : ℕ} (a : Fin n → ℝ) (h : a ≠ 0) : ∑ j, unitNormal a j * unitNormal a j = 1 := by
  have h0 := aMag_pos a h
  have h1 := aMag_sq a
  unfold unitNormal
  have : ∀ j, a j / aMag a * (a j / aMag a) = a j * a j / aMag a ^ 2 := by intro j; field_simp
  simp only [this, ← Finset.sum_div]
  rw [← h1, div_self (by positivity)]

/-- C67. The tangential speed handed to the law of the wall is the length of the velocity relative to the wall
with its normal part removed; it is zero exactly when the relative velocity is normal to the wall. -/
theorem c67_tangential_speed {n : ℕ} (nrm u uBc : Fin n → ℝ) (h : ∑ j, nrm j * nrm j = 1) :
    tangentialSpeed nrm u uBc ^ 2
      = ∑ i, (u i - uBc i) ^ 2 - (∑ i, nrm i * (u i - uBc i)) ^ 2 ∧ 0 ≤ tangentialSpeed nrm u uBc ∧
    (tangentialSpeed nrm u uBc = 0 ↔ ∃ c : ℝ, ∀ i, u i - uBc i = c * nrm i) := by
  have hd : ∀ i, tangential nrm u i - tangential nrm uBc i
      = (u i - uBc i) - (∑ j, nrm j * (u j - uBc j)) * nrm i := by
    intro i
    rw [tangential_eq, tangential_eq]
    unfold orthPart
    simp only [mul_sub, Finset.sum_sub_distrib]
    ring
  have hsum0 : 0 ≤ ∑ i, (tangential nrm u i - tangential nrm uBc i)
      * (tangential nrm u i - tangential nrm uBc i) := Finset.sum_nonneg fun i _ => mul_self_nonneg _
  have hsq : ∑ i, (tangential nrm u i - tangential nrm uBc i) * (tangential nrm u i - tangential nrm uBc i)
      = ∑ i, (u i - uBc i) ^ 2 - (∑ i, nrm i * (u i - uBc i)) ^ 2 := by
    simp only [hd]
    set s := ∑ i, nrm i * (u i - uBc i) with hs
    have : ∀ i, (u i - uBc i - s * nrm i) * (u i - uBc i - s * nrm i)
        = (u i - uBc i) ^ 2 - 2 * s * (nrm i * (u i - uBc i)) + s ^ 2 * (nrm i * nrm i) := by intro i; ring
    simp only [this, Finset.sum_add_distrib, Finset.sum_sub_distrib, ← Finset.mul_sum]
    rw [h, ← hs]; ring
  refine ⟨?_, Real.sqrt_nonneg _, ?_⟩
  · unfold tangentialSpeed
    rw [Real.sq_sqrt hsum0, hsq]
  · unfold tangentialSpeed
    rw [Real.sqrt_eq_zero hsum0, Finset.sum_eq_zero_iff_of_nonneg (fun i _ => mul_self_nonneg _)]
    constructor
    · intro hz
      refine ⟨∑ j, nrm j * (u j - uBc j), fun i => ?_⟩
      have := mul_self_eq_zero.1 (hz i (Finset.mem_univ i))
      rw [hd] at this
      linarith
    · rintro ⟨c, hc⟩ i _
      rw [hd, hc]
      have : ∑ j, nrm j * (u j - uBc j) = c := by
        simp only [hc]
        have : ∀ j, nrm j * (c * nrm j) = c * (nrm j * nrm j) := by intro j; ring
        simp only [this, ← Finset.mul_sum, h, mul_one]
      rw [this]; ring

/-- C67. The wall coefficient is positive for physical data. -/
theorem c67_coefficient_pos {elog kappa yplusCrit rho mu yp utau area : ℝ} (hk : 0 < kappa)
    (hE : 0 < elog) (hEy : 1 ≤ elog * yplusCrit) (hr : 0 < rho) (hm : 0 < mu) (hy : 0 < yp) (hu : 0 < utau)
    (ha : 0 < area) : 0 < lambda elog kappa yplusCrit rho mu yp utau area := by
  unfold lambda
  simp only
  split_ifs with h
  · have h1 : 1 < elog * (rho * yp * utau / mu) := lt_of_le_of_lt hEy (mul_lt_mul_of_pos_left h hE)
    have := Real.log_pos h1
    positivity
  · positivity

/-- C67. The wall force is tangential and opposes the motion relative to the wall: it has no component along
the normal, and its power is `-lambda` times the squared tangential speed. -/
theorem c67_force_tangential_and_opposing {n : ℕ} (lam : ℝ) (nrm u uBc : Fin n → ℝ)
    (h : ∑ j, nrm j * nrm j = 1) :
    ∑ i, nrm i * wallRhs lam nrm u uBc i = 0 ∧
    ∑ i, (u i - uBc i) * wallRhs lam nrm u uBc i = -(lam * tangentialSpeed nrm u uBc ^ 2) := by
  have hd : ∀ i, tangential nrm u i - tangential nrm uBc i
      = (u i - uBc i) - (∑ j, nrm j * (u j - uBc j)) * nrm i := by
    intro i
    rw [tangential_eq, tangential_eq]
    unfold orthPart
    simp only [mul_sub, Finset.sum_sub_distrib]
    ring
  rw [(c67_tangential_speed nrm u uBc h).1]
  unfold wallRhs
  simp only [hd]
  set s := ∑ i, nrm i * (u i - uBc i) with hs
  constructor
  · have : ∀ i, nrm i * -(lam * (u i - uBc i - s * nrm i))
        = -lam * (nrm i * (u i - uBc i)) + lam * s * (nrm i * nrm i) := by intro i; ring
    simp only [this, Finset.sum_add_distrib, ← Finset.mul_sum]
    rw [h, ← hs]; ring
  · have : ∀ i, (u i - uBc i) * -(lam * (u i - uBc i - s * nrm i))
        = -lam * (u i - uBc i) ^ 2 + lam * s * (nrm i * (u i - uBc i)) := by intro i; ring
    simp only [this, Finset.sum_add_distrib, ← Finset.mul_sum]
    rw [← hs]; ring

/-- C67. The matrix block is the exact derivative of the force at a frozen coefficient, is symmetric, and is
positive semi-definite. -/
theorem c67_jacobian {n : ℕ} (lam : ℝ) (nrm u uBc d : Fin n → ℝ) :
    (∀ i, wallRhs lam nrm (fun j => u j + d j) uBc i
      = wallRhs lam nrm u uBc i - ∑ j, wallLhs lam nrm i j * d j) ∧
    (∀ i j, wallLhs lam nrm i j = wallLhs lam nrm j i) ∧
    (0 ≤ lam → ∑ j, nrm j * nrm j = 1 → 0 ≤ ∑ i, ∑ j, d i * wallLhs lam nrm i j * d j) := by
  have hl : ∀ i, ∑ j, wallLhs lam nrm i j * d j = lam * orthPart nrm d i := by
    intro i
    have : ∀ j, wallLhs lam nrm i j * d j = (if i = j then lam * d j else 0) - lam * nrm i * (nrm j * d j) := by
      intro j; unfold wallLhs; split_ifs <;> ring
    simp only [this, Finset.sum_sub_distrib, Finset.sum_ite_eq, Finset.mem_univ, if_true, ← Finset.mul_sum]
    unfold orthPart; ring
  refine ⟨fun i => ?_, fun i j => ?_, fun h0 h1 => ?_⟩
  · rw [hl]
    unfold wallRhs
    rw [tangential_eq, tangential_eq, tangential_eq]
    unfold orthPart
    simp only [mul_add, Finset.sum_add_distrib]
    ring
  · unfold wallLhs
    by_cases h : i = j
    · subst h; simp
    · rw [if_neg h, if_neg (Ne.symm h)]; ring
  · have h2 : ∑ i, ∑ j, d i * wallLhs lam nrm i j * d j = ∑ i, d i * (lam * orthPart nrm d i) := by
      refine Finset.sum_congr rfl fun i _ => ?_
      rw [← hl, Finset.mul_sum]
      refine Finset.sum_congr rfl fun j _ => ?_
      ring
    rw [h2]
    have h3 : ∑ i, d i * (lam * orthPart nrm d i) = lam * ∑ i, orthPart nrm d i ^ 2 := by
      set s := ∑ j, nrm j * d j with hs
      have e1 : ∀ i, d i * (lam * orthPart nrm d i) = lam * d i ^ 2 - lam * s * (nrm i * d i) := by
        intro i; unfold orthPart; rw [← hs]; ring
      have e2 : ∀ i, orthPart nrm d i ^ 2 = d i ^ 2 - 2 * s * (nrm i * d i) + s ^ 2 * (nrm i * nrm i) := by
        intro i; unfold orthPart; rw [← hs]; ring
      simp only [e1, e2, Finset.sum_add_distrib, Finset.sum_sub_distrib, ← Finset.mul_sum]
      rw [h1, ← hs]; ring
    rw [h3]
    exact mul_nonneg h0 (Finset.sum_nonneg fun i _ => sq_nonneg _)

/-- C67. Above the critical `y+`, if the friction velocity satisfies the law of the wall for the tangential
speed, the force is the wall shear stress `rho*utau^2` times the area. -/
theorem c67_force_is_wall_shear_stress {n : ℕ} {elog kappa yplusCrit rho mu yp utau area : ℝ}
    (nrm u uBc : Fin n → ℝ) (hk : 0 < kappa) (hE : 0 < elog) (hEy : 1 ≤ elog * yplusCrit)
    (hp : yplusCrit < rho * yp * utau / mu)
    (hlaw : LawOfTheWall elog kappa (tangentialSpeed nrm u uBc) yp rho mu utau) :
    ∑ i, wallRhs (lambda elog kappa yplusCrit rho mu yp utau area) nrm u uBc i ^ 2
      = (rho * utau ^ 2 * area) ^ 2 := by
  have h1 : 1 < elog * (rho * yp * utau / mu) := lt_of_le_of_lt hEy (mul_lt_mul_of_pos_left hp hE)
  have hlog := Real.log_pos h1
  obtain ⟨h0, -, hl⟩ := hlaw
  have hsum0 : 0 ≤ ∑ i, (tangential nrm u i - tangential nrm uBc i)
      * (tangential nrm u i - tangential nrm uBc i) := Finset.sum_nonneg fun i _ => mul_self_nonneg _
  have hts : ∑ i, (tangential nrm u i - tangential nrm uBc i) * (tangential nrm u i - tangential nrm uBc i)
      = tangentialSpeed nrm u uBc ^ 2 := by unfold tangentialSpeed; rw [Real.sq_sqrt hsum0]
  have hlam : lambda elog kappa yplusCrit rho mu yp utau area
      = rho * kappa * utau / Real.log (elog * (rho * yp * utau / mu)) * area := by
    unfold lambda; simp only; rw [if_pos hp]
  rw [hlam]
  generalize hL : Real.log (elog * (rho * yp * utau / mu)) = L at *
  have : ∀ i, wallRhs (rho * kappa * utau / L * area) nrm u uBc i ^ 2
      = (rho * kappa * utau / L * area) ^ 2 * ((tangential nrm u i - tangential nrm uBc i)
        * (tangential nrm u i - tangential nrm uBc i)) := by intro i; unfold wallRhs; ring
  simp only [this, ← Finset.mul_sum, hts]
  rw [← mul_pow]
  congr 1
  have h2 : tangentialSpeed nrm u uBc = utau * L / kappa := by rw [eq_div_iff hk.ne', hl]; ring
  rw [h2]
  field_simp

/-- C67. Below the critical `y+` the force is the viscous stress of the linear profile. -/
theorem c67_force_in_sublayer {n : ℕ} {elog kappa yplusCrit rho mu yp utau area : ℝ}
    (nrm u uBc : Fin n → ℝ) (hp : ¬ yplusCrit < rho * yp * utau / mu) (i : Fin n) :
    wallRhs (lambda elog kappa yplusCrit rho mu yp utau area) nrm u uBc i
      = -(area * (mu * ((orthPart nrm u i - orthPart nrm uBc i) / yp))) := by
  have hlam : lambda elog kappa yplusCrit rho mu yp utau area = mu / yp * area := by
    unfold lambda; simp only; rw [if_neg hp]
  unfold wallRhs
  rw [hlam, tangential_eq, tangential_eq]
  ring

/-- A wall with normal `(3/5, 4/5)` and relative velocity `(1, 0)`: the tangential speed is `4/5`. -/
example : tangentialSpeed ![3 / 5, 4 / 5] ![1, 0] ![0, 0] ^ 2 = (16 / 25 : ℝ) := by
  rw [(c67_tangential_speed _ _ _ (by norm_num [Fin.sum_univ_two])).1]
  norm_num [Fin.sum_univ_two]

/-! ## C68: distance to the wall and averaging to the nodes -/

/-- The distance in the code is at most a quarter of the edge length, and the true normal distance is at most
`sqrt n` times it. -/
theorem c68_wall_distance_bounds_partial {n : ℕ} (a xL xR : Fin n → ℝ) (h : a ≠ 0) :
    wallDistance a xL xR ≤ 1 / 4 * Real.sqrt (∑ j, (xR j - xL j) ^ 2) ∧
    |∑ j, unitNormal a j * (1 / 4 * (xR j - xL j))| ≤ Real.sqrt n * wallDistance a xL xR := by
  have hn := c67_unit_normal a h
  have hle : ∀ j, unitNormal a j * unitNormal a j ≤ 1 := by
    intro j
    rw [← hn]
    exact Finset.single_le_sum (f := fun j => unitNormal a j * unitNormal a j)
      (fun j _ => mul_self_nonneg _) (Finset.mem_univ j)
  have he : ∀ j, a j / aMag a * (1 / 4 * (xR j - xL j)) * (a j / aMag a) * (1 / 4 * (xR j - xL j))
      = (unitNormal a j * (1 / 4 * (xR j - xL j))) ^ 2 := by intro j; unfold unitNormal; ring
  constructor
  · unfold wallDistance
    simp only [he]
    rw [show (1 / 4 : ℝ) * Real.sqrt (∑ j, (xR j - xL j) ^ 2)
        = Real.sqrt (1 / 16 * ∑ j, (xR j - xL j) ^ 2) by
      rw [Real.sqrt_mul (by norm_num), show (1 / 16 : ℝ) = (1 / 4) ^ 2 by norm_num,
        Real.sqrt_sq (by norm_num)]]
    apply Real.sqrt_le_sqrt
    rw [Finset.mul_sum]
    refine Finset.sum_le_sum fun j _ => ?_
    have := mul_le_mul_of_nonneg_right (hle j) (sq_nonneg (1 / 4 * (xR j - xL j)))
    nlinarith
  · unfold wallDistance
    simp only [he]
    rw [← Real.sqrt_sq_eq_abs, ← Real.sqrt_mul (by positivity)]
    apply Real.sqrt_le_sqrt
    have := sq_sum_le_card_mul_sum_sq (s := (Finset.univ : Finset (Fin n)))
      (f := fun j => unitNormal a j * (1 / 4 * (xR j - xL j)))
    simpa using this

/-- C68 (partial). If the normal is along a coordinate axis, the distance is the distance of the quarter point of
the edge from the wall plane. -/
theorem c68_wall_distance_axis_partial {n : ℕ} (k : Fin n) (A : ℝ) (hA : A ≠ 0) (a xL xR : Fin n → ℝ)
    (ha : ∀ j, a j = if j = k then A else 0) :
    wallDistance a xL xR = |∑ j, unitNormal a j * (1 / 4 * (xR j - xL j))| := by
  have hm : aMag a = |A| := by
    unfold aMag
    have : ∀ j, a j * a j = if j = k then A * A else 0 := by intro j; rw [ha]; split_ifs <;> simp
    simp only [this, Finset.sum_ite_eq', Finset.mem_univ, if_true]
    exact Real.sqrt_mul_self_eq_abs A
  have hAne : |A| ≠ 0 := abs_ne_zero.2 hA
  have hn2 : ∀ j, unitNormal a j = if j = k then A / |A| else 0 := by
    intro j; unfold unitNormal; rw [ha, hm]; split_ifs <;> simp
  have h1 : ∑ j, unitNormal a j * (1 / 4 * (xR j - xL j)) = A / |A| * (1 / 4 * (xR k - xL k)) := by
    have : ∀ j, unitNormal a j * (1 / 4 * (xR j - xL j))
        = if j = k then A / |A| * (1 / 4 * (xR j - xL j)) else 0 := by
      intro j; rw [hn2]; split_ifs <;> simp
    simp only [this, Finset.sum_ite_eq', Finset.mem_univ, if_true]
  have h2 : ∑ j, a j / aMag a * (1 / 4 * (xR j - xL j)) * (a j / aMag a) * (1 / 4 * (xR j - xL j))
      = (A / |A| * (1 / 4 * (xR k - xL k))) ^ 2 := by
    have : ∀ j, a j / aMag a * (1 / 4 * (xR j - xL j)) * (a j / aMag a) * (1 / 4 * (xR j - xL j))
        = if j = k then (A / |A| * (1 / 4 * (xR j - xL j))) ^ 2 else 0 := by
      intro j
      have := hn2 j
      unfold unitNormal at this
      rw [this]
      split_ifs
      · ring
      · simp
    simp only [this, Finset.sum_ite_eq', Finset.mem_univ, if_true]
  unfold wallDistance
  rw [h1, h2, Real.sqrt_sq_eq_abs]

/-- C68 fails in general: for a wall at 45 degrees and an edge from `(0,0)` to `(4,4)` along its normal, the quarter
point is at distance `√2` from the wall but the code's distance is 1. -/
theorem c68_wall_distance_wrong_at_angle :
    ∃ a xL xR : Fin 2 → ℝ, a ≠ 0 ∧ |∑ j, unitNormal a j * (1 / 4 * (xR j - xL j))| = Real.sqrt 2 ∧
      wallDistance a xL xR = 1 := by
  refine ⟨![1, 1], ![0, 0], ![4, 4], ?_, ?_, ?_⟩
  · intro h; have := congrFun h 0; norm_num at this
  · have h2 : Real.sqrt 2 * Real.sqrt 2 = 2 := Real.mul_self_sqrt (by norm_num)
    have hs : 0 < Real.sqrt 2 := Real.sqrt_pos.2 (by norm_num)
    have : aMag (![1, 1] : Fin 2 → ℝ) = Real.sqrt 2 := by unfold aMag; norm_num [Fin.sum_univ_two]
    unfold unitNormal
    simp only [this, Fin.sum_univ_two, Matrix.cons_val_zero, Matrix.cons_val_one]
    rw [abs_of_pos (by norm_num)]
    field_simp
    nlinarith
  · have h2 : Real.sqrt 2 ^ 2 = 2 := Real.sq_sqrt (by norm_num)
    have hs : 0 < Real.sqrt 2 := Real.sqrt_pos.2 (by norm_num)
    have : aMag (![1, 1] : Fin 2 → ℝ) = Real.sqrt 2 := by unfold aMag; norm_num [Fin.sum_univ_two]
    unfold wallDistance
    simp only [this, Fin.sum_univ_two, Matrix.cons_val_zero, Matrix.cons_val_one]
    rw [Real.sqrt_eq_one]
    field_simp
    nlinarith

/-- C68. The nodal value is the area-weighted mean of the values at the integration points of the node: it lies
between any bounds of these values. -/
theorem c68_nodal_average_between (pts : List Pt) (lo hi : ℝ) (hne : pts ≠ [])
    (ha : ∀ p ∈ pts, 0 < p.area) (hb : ∀ p ∈ pts, lo ≤ p.val ∧ p.val ≤ hi) :
    lo ≤ nodalAverage pts ∧ nodalAverage pts ≤ hi := by
  have key : ∀ (l : List Pt) (s t : ℝ), (∀ p ∈ l, 0 < p.area) → (∀ p ∈ l, lo ≤ p.val ∧ p.val ≤ hi) →
      lo * t ≤ s → s ≤ hi * t →
      lo * (l.foldl (fun s p => s + p.area) t) ≤ l.foldl (fun s p => s + p.area * p.val) s ∧
      l.foldl (fun s p => s + p.area * p.val) s ≤ hi * (l.foldl (fun s p => s + p.area) t) ∧
      t ≤ l.foldl (fun s p => s + p.area) t := by
    intro l
    induction l with
    | nil => intro s t _ _ h1 h2; exact ⟨h1, h2, le_refl _⟩
    | cons p l ih =>
      intro s t ha hb h1 h2
      simp only [List.foldl_cons]
      have hp := ha p (by simp)
      have hpb := hb p (by simp)
      obtain ⟨i1, i2, i3⟩ := ih (s + p.area * p.val) (t + p.area) (fun q hq => ha q (by simp [hq]))
        (fun q hq => hb q (by simp [hq])) (by nlinarith [mul_le_mul_of_nonneg_left hpb.1 hp.le])
        (by nlinarith [mul_le_mul_of_nonneg_left hpb.2 hp.le])
      exact ⟨i1, i2, by linarith⟩
  cases pts with
  | nil => exact absurd rfl hne
  | cons p l =>
    have hp := ha p (by simp)
    have hpb := hb p (by simp)
    obtain ⟨i1, i2, i3⟩ := key l (0 + p.area * p.val) (0 + p.area) (fun q hq => ha q (by simp [hq]))
      (fun q hq => hb q (by simp [hq])) (by nlinarith [mul_le_mul_of_nonneg_left hpb.1 hp.le])
      (by nlinarith [mul_le_mul_of_nonneg_left hpb.2 hp.le])
    unfold nodalAverage
    simp only [List.foldl_cons]
    have hpos : 0 < l.foldl (fun s p => s + p.area) (0 + p.area) := by linarith
    exact ⟨by rw [le_div_iff₀ hpos]; exact i1, by rw [div_le_iff₀ hpos]; exact i2⟩

/-- C68. The nodal average does not depend on the order in which faces are visited. -/
theorem c68_nodal_average_order {p q : List Pt} (h : p.Perm q) : nodalAverage p = nodalAverage q := by
  unfold nodalAverage
  rw [h.foldl_eq' (fun x _ y _ z => by ring) (0 : ℝ), h.foldl_eq' (fun x _ y _ z => by ring) (0 : ℝ)]

/-- C68. Away from a restart the clipped distance is the smallest value not below the given distance nor any of
the quarter-edge distances of the adjacent wall faces. -/
theorem c68_clip_is_max (d m : ℝ) (yps : List ℝ) :
    clipWallDistance false d yps ≤ m ↔ d ≤ m ∧ ∀ y ∈ yps, y ≤ m := by
  have : ∀ (l : List ℝ) (d : ℝ), l.foldl max d ≤ m ↔ d ≤ m ∧ ∀ y ∈ l, y ≤ m := by
    intro l
    induction l with
    | nil => simp
    | cons y l ih =>
      intro d
      rw [List.foldl_cons, ih, max_le_iff]
      simp only [List.mem_cons, forall_eq_or_imp]
      tauto
  simpa [clipWallDistance] using this yps d

/-- C68. A restarted run does not clip again, and clipping twice is clipping once. -/
theorem c68_clip_restart_idempotent (d : ℝ) (yps : List ℝ) :
    clipWallDistance true (clipWallDistance false d yps) yps = clipWallDistance false d yps ∧
    clipWallDistance false (clipWallDistance false d yps) yps = clipWallDistance false d yps := by
  refine ⟨rfl, le_antisymm ?_ ?_⟩
  · rw [c68_clip_is_max]
    exact ⟨le_refl _, ((c68_clip_is_max d _ yps).1 (le_refl _)).2⟩
  · exact ((c68_clip_is_max _ _ yps).1 (le_refl _)).1

example : nodalAverage [⟨1, 2⟩, ⟨3, 6⟩] = 5 := by norm_num [nodalAverage]

/-! ## C69: wall values of the turbulence quantities -/

/-- C69. The wall values of turbulent kinetic energy and dissipation give the mixing-length eddy viscosity
`rho*kappa*yp*utau` in the k-epsilon model. -/
theorem c69_keps_mixing_length {cMu kappa rho yp utau : ℝ} (hc : 0 < cMu) (hk : 0 < kappa) (hy : 0 < yp)
    (hu : 0 < utau) :
    cMu * rho * tkeWall cMu utau * tkeWall cMu utau / epsWall kappa yp utau = rho * kappa * yp * utau := by
  have h : Real.sqrt cMu * Real.sqrt cMu = cMu := Real.mul_self_sqrt hc.le
  have hs : 0 < Real.sqrt cMu := Real.sqrt_pos.2 hc
  unfold tkeWall epsWall
  generalize Real.sqrt cMu = s at *
  subst h
  field_simp

/-- C69. The same for the k-omega family, when `cMu` and `betaStar` agree (both 0.09 by default); and the
dissipation rates of the two families agree: `eps = betaStar*k*omega`. -/
theorem c69_sst_mixing_length {betaStar kappa rho yp utau : ℝ} (hc : 0 < betaStar) (hk : 0 < kappa)
    (hy : 0 < yp) (hu : 0 < utau) :
    rho * tkeWall betaStar utau / sdrWall betaStar kappa yp utau = rho * kappa * yp * utau ∧
    betaStar * tkeWall betaStar utau * sdrWall betaStar kappa yp utau = epsWall kappa yp utau := by
  have h : Real.sqrt betaStar * Real.sqrt betaStar = betaStar := Real.mul_self_sqrt hc.le
  have hs : 0 < Real.sqrt betaStar := Real.sqrt_pos.2 hc
  unfold tkeWall sdrWall epsWall
  generalize Real.sqrt betaStar = s at *
  subst h
  constructor <;> field_simp

/-- C69. The wall values are positive, and the low-Reynolds specific dissipation rate falls with the square of
the wall distance. -/
theorem c69_positive {cMu kappa factor betaOne nu yp utau : ℝ} (hc : 0 < cMu) (hk : 0 < kappa)
    (hf : 0 < factor) (hb : 0 < betaOne) (hn : 0 < nu) (hy : 0 < yp) (hu : 0 < utau) :
    0 < tkeWall cMu utau ∧ 0 < sdrWall cMu kappa yp utau ∧ 0 < epsWall kappa yp utau ∧
    0 < sdrLowRe factor betaOne nu yp ∧
    sdrLowRe factor betaOne nu yp * (betaOne * yp ^ 2) = 6 * factor * nu := by
  have hs : 0 < Real.sqrt cMu := Real.sqrt_pos.2 hc
  refine ⟨?_, ?_, ?_, ?_, ?_⟩
  · unfold tkeWall; positivity
  · unfold sdrWall; positivity
  · unfold epsWall; positivity
  · unfold sdrLowRe; positivity
  · unfold sdrLowRe; field_simp

example : (0 : ℝ) < 9 / 100 ∧ (0 : ℝ) < 41 / 100 := by norm_num

end Nalu.Wall
