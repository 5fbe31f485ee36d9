import Verif.Model.Thermo
import Mathlib.Algebra.Order.BigOperators.Group.Finset
import Mathlib.Algebra.BigOperators.Field
import Mathlib.Analysis.Calculus.Deriv.Inv
import Mathlib.Analysis.Calculus.Deriv.Pow
import Mathlib.Analysis.Calculus.Deriv.Add
import Mathlib.Analysis.Calculus.Deriv.Mul
import Mathlib.Analysis.Calculus.MeanValue
import Mathlib.Tactic.FieldSimp
import Mathlib.Tactic.Ring
import Mathlib.Tactic.Linarith
import Mathlib.Tactic.Positivity
import Mathlib.Tactic.NormNum

set_option linter.unusedSectionVars false
set_option linter.unusedSimpArgs false

namespace Verif.Thermo

/-- The species loop is the sum over the species. -/
theorem sumLoop_eq {K : Type*} [AddCommMonoid K] {n : ℕ} (f : Fin n → K) :
    sumLoop f = ∑ k, f k := by
  unfold sumLoop
  have h : ∀ (l : List (Fin n)) (a : K), l.foldl (fun s k => s + f k) a = a + (l.map f).sum := by
    intro l
    induction l with
    | nil => simp
    | cons x l ih => intro a; simp [ih, add_assoc]
  rw [h, zero_add, ← List.ofFn_eq_map, List.sum_ofFn]

section Field
variable {K : Type*} [Field K] [LinearOrder K] [IsStrictOrderedRing K]

/-! ## C30 ideal gas -/

theorem moles_pos {n : ℕ} {mw Y : Fin n → K} (hmw : ∀ k, 0 < mw k) (hY : ∀ k, 0 ≤ Y k)
    (hs : 0 < ∑ k, Y k) : 0 < ∑ k, Y k / mw k := by
  obtain ⟨k, -, hk⟩ := Finset.exists_lt_of_sum_lt (s := Finset.univ) (f := fun _ => (0 : K)) (g := Y)
    (by simpa using hs)
  refine Finset.sum_pos' (fun i _ => div_nonneg (hY i) (hmw i).le) ⟨k, Finset.mem_univ _, ?_⟩
  exact div_pos hk (hmw k)

/-- The equation of state `ρ R T = P · MW` with `1/MW = Σ Y_k/MW_k`, positivity, for every mixture. -/
theorem c30_equation_of_state {n : ℕ} (P R T : K) (mw Y : Fin n → K) (hP : 0 < P) (hR : 0 < R)
    (hT : 0 < T) (hmw : ∀ k, 0 < mw k) (hY : ∀ k, 0 ≤ Y k) (hs : ∑ k, Y k = 1) :
    idealGasDensity P R T mw Y * R * T * (∑ k, Y k / mw k) = P ∧
      0 < idealGasDensity P R T mw Y := by
  have hm := moles_pos hmw hY (by rw [hs]; exact one_pos)
  unfold idealGasDensity computeMw
  rw [sumLoop_eq]
  constructor
  · field_simp
  · positivity

/-- The mixture molecular weight lies between any lower and any upper bound of the species
molecular weights. -/
theorem c30_mixture_weight_bounds {n : ℕ} (mw Y : Fin n → K) (a b : K) (ha : 0 < a)
    (hmw : ∀ k, a ≤ mw k ∧ mw k ≤ b) (hY : ∀ k, 0 ≤ Y k) (hs : ∑ k, Y k = 1) :
    a ≤ computeMw mw Y ∧ computeMw mw Y ≤ b := by
  have hpos : ∀ k, 0 < mw k := fun k => ha.trans_le (hmw k).1
  have hm := moles_pos hpos hY (by rw [hs]; exact one_pos)
  unfold computeMw
  rw [sumLoop_eq]
  constructor
  · rw [le_div_iff₀ hm, Finset.mul_sum, ← hs]
    refine Finset.sum_le_sum fun k _ => ?_
    rw [mul_div_assoc', div_le_iff₀ (hpos k), mul_comm]
    exact mul_le_mul_of_nonneg_left (hmw k).1 (hY k)
  · rw [div_le_iff₀ hm, Finset.mul_sum, ← hs]
    refine Finset.sum_le_sum fun k _ => ?_
    rw [mul_div_assoc', le_div_iff₀ (hpos k), mul_comm b]
    exact mul_le_mul_of_nonneg_left (hmw k).2 (hY k)

/-- Density scales linearly with pressure and inversely with temperature. -/
theorem c30_scaling {n : ℕ} (P R T s : K) (mw Y : Fin n → K) :
    idealGasDensity (s * P) R T mw Y = s * idealGasDensity P R T mw Y ∧
      idealGasDensity P R (s * T) mw Y = idealGasDensity P R T mw Y / s := by
  unfold idealGasDensity
  constructor
  · ring
  · rw [div_div, div_div, div_div]; congr 1; ring

example : (0:ℚ) < 101325 ∧ (0:ℚ) < 8314 ∧ (0:ℚ) < 300 ∧ (∀ k, 0 < (![2, 32] : Fin 2 → ℚ) k) ∧
    (∀ k, 0 ≤ (![1/4, 3/4] : Fin 2 → ℚ) k) ∧ ∑ k, (![1/4, 3/4] : Fin 2 → ℚ) k = 1 := by
  decide +kernel
example : (2:ℚ) ≤ computeMw ![2, 32] ![1/4, 3/4] ∧ computeMw ![2, 32] ![1/4, 3/4] < (32:ℚ) := by
  decide +kernel

/-! ## C31 (mole fractions) -/

/-- Mole fractions are nonnegative, sum to one and are proportional to `Y_k/MW_k`. -/
theorem c31_mole_fractions {n : ℕ} (mw Y : Fin n → K) (hmw : ∀ k, 0 < mw k) (hY : ∀ k, 0 ≤ Y k)
    (hs : 0 < ∑ k, Y k) :
    (∀ k, 0 ≤ moleFraction mw Y k) ∧ ∑ k, moleFraction mw Y k = 1 ∧
      ∀ i j, moleFraction mw Y i * (mw i) * Y j = moleFraction mw Y j * (mw j) * Y i := by
  have hm := moles_pos hmw hY hs
  unfold moleFraction
  simp only [sumLoop_eq]
  refine ⟨fun k => div_nonneg (div_nonneg (hY k) (hmw k).le) hm.le, ?_, ?_⟩
  · rw [← Finset.sum_div, div_self hm.ne']
  · intro i j
    have := (hmw i).ne'; have := (hmw j).ne'
    generalize ∑ k, Y k / mw k = S at *
    field_simp

/-! ## C33 temperature extraction -/

/-- What the Newton loop guarantees when it reports convergence: the returned value is one Newton
step from some point, and that last step is smaller than `tolerance` times the returned value. -/
theorem newtonLoop_converged (h cp : K → K) (hN tol : K) :
    ∀ (fuel : ℕ) (T0 : K), (newtonLoop h cp hN tol fuel T0).2 = true →
      ∃ T, (newtonLoop h cp hN tol fuel T0).1 = T + (hN - h T) / cp T ∧
        |(hN - h T) / cp T| < (newtonLoop h cp hN tol fuel T0).1 * tol
  | 0, T0, hc => by simp [newtonLoop] at hc
  | fuel + 1, T0, hc => by
    unfold newtonLoop at hc ⊢
    simp only at hc ⊢
    split_ifs at hc ⊢ with hlt
    · exact ⟨T0, rfl, hlt⟩
    · exact newtonLoop_converged h cp hN tol fuel _ hc

/-- Bounds: with `relax = 1` (the value in the code) the stored temperature is in `[minT, maxT]`,
whatever the evaluators, the stored enthalpy, the starting temperature and the iteration limit. -/
theorem c33_bounds (h cp : K → K) (minT maxT tol : K) (maxIter : ℕ) (tSave hN : K)
    (hb : minT ≤ maxT) :
    minT ≤ (extractTemperature h cp minT maxT tol 1 maxIter tSave hN).T ∧
      (extractTemperature h cp minT maxT tol 1 maxIter tSave hN).T ≤ maxT := by
  unfold extractTemperature
  simp only [decide_eq_true_eq]
  generalize newtonLoop h cp hN tol maxIter tSave = r
  by_cases h1 : r.1 < minT
  · have h2 : ¬ maxT < minT := not_lt.mpr hb
    simp [h1, h2, hb]
  · by_cases h2 : maxT < r.1
    · simp [h1, h2, hb]
    · have h1' := not_lt.mp h1
      have h2' := not_lt.mp h2
      cases hr : r.2 <;> simp [h1, h2, hr, h1', h2']

/-- Consistency: after the extraction, either nothing was flagged, the enthalpy is untouched and the
temperature is a Newton iterate whose last step was below the tolerance; or something was flagged
and the stored enthalpy is exactly the enthalpy of the stored temperature. -/
theorem c33_consistent (h cp : K → K) (minT maxT tol relax : K) (maxIter : ℕ) (tSave hN : K) :
    let r := extractTemperature h cp minT maxT tol relax maxIter tSave hN
    (r.notConverged = false ∧ r.tooLow = false ∧ r.tooHigh = false ∧ r.h = hN ∧
        ∃ T, r.T = T + (hN - h T) / cp T ∧ |r.T - T| < r.T * tol) ∨
      ((r.notConverged = true ∨ r.tooLow = true ∨ r.tooHigh = true) ∧ r.h = h r.T) := by
  intro r
  have hconv := newtonLoop_converged h cp hN tol maxIter tSave
  simp only [r, extractTemperature]
  generalize newtonLoop h cp hN tol maxIter tSave = q at *
  by_cases h1 : q.1 < minT
  · right; simp [h1]
  · by_cases h2 : maxT < q.1
    · right; simp [h1, h2]
    · cases hq : q.2
      · right; simp [h1, h2, hq]
      · left
        obtain ⟨T, e1, e2⟩ := hconv hq
        simp only [h1, h2, hq, decide_false, Bool.not_true, Bool.or_self, Bool.false_eq_true,
          if_false, true_and]
        refine ⟨T, e1, ?_⟩
        rw [e1] at e2 ⊢
        simpa using e2

/-- Constant specific heat: at least two iterations allowed, nonzero `cp`; the exact temperature
`tRef + h/cp` is found from every starting point and stored unchanged when it is positive and
within bounds. -/
theorem c33_const_cp_exact (cp tRef minT maxT tol relax : K) (maxIter : ℕ) (tSave hN : K)
    (hcp : cp ≠ 0) (htol : 0 < tol) (hit : 2 ≤ maxIter)
    (hpos : 0 < tRef + hN / cp) (hlo : minT ≤ tRef + hN / cp) (hhi : tRef + hN / cp ≤ maxT) :
    let r := extractTemperature (enthalpyConstCp cp tRef) (fun _ => cp) minT maxT tol relax maxIter
      tSave hN
    r.T = tRef + hN / cp ∧ r.h = hN ∧ enthalpyConstCp cp tRef r.T = hN ∧ r.notConverged = false := by
  have step : ∀ T : K, T + (hN - enthalpyConstCp cp tRef T) / cp = tRef + hN / cp := by
    intro T; unfold enthalpyConstCp; field_simp; ring
  have zero : (hN - enthalpyConstCp cp tRef (tRef + hN / cp)) / cp = 0 := by
    unfold enthalpyConstCp; field_simp; ring
  have key : newtonLoop (enthalpyConstCp cp tRef) (fun _ => cp) hN tol maxIter tSave
      = (tRef + hN / cp, true) := by
    obtain ⟨m, rfl⟩ : ∃ m, maxIter = m + 2 := ⟨maxIter - 2, by omega⟩
    unfold newtonLoop
    simp only [step]
    split_ifs with hc
    · rfl
    · unfold newtonLoop
      simp only [zero, abs_zero, add_zero]
      rw [if_pos (mul_pos hpos htol)]
  have e : enthalpyConstCp cp tRef (tRef + hN / cp) = hN := by
    unfold enthalpyConstCp; field_simp; ring
  simp only [extractTemperature, key]
  simp [not_lt.mpr hlo, not_lt.mpr hhi, e]

/-- The same for the mixture evaluator with constant species specific heats and heats of formation:
the extraction inverts the enthalpy evaluator exactly. -/
theorem c33_const_cpk_exact {n : ℕ} (cp hf Y : Fin n → K) (tRef minT maxT tol relax : K)
    (maxIter : ℕ) (tSave T : K) (hcp : ∑ k, Y k * cp k ≠ 0) (htol : 0 < tol) (hit : 2 ≤ maxIter)
    (hpos : 0 < T) (hlo : minT ≤ T) (hhi : T ≤ maxT) :
    let r := extractTemperature (enthalpyConstCpk cp hf Y tRef) (fun _ => specificHeatConstCpk cp Y)
      minT maxT tol relax maxIter tSave (enthalpyConstCpk cp hf Y tRef T)
    r.T = T ∧ r.h = enthalpyConstCpk cp hf Y tRef T ∧ r.notConverged = false := by
  have lin : ∀ t : K, enthalpyConstCpk cp hf Y tRef t
      = (∑ k, Y k * cp k) * (t - tRef) + ∑ k, Y k * hf k := by
    intro t
    unfold enthalpyConstCpk
    rw [sumLoop_eq, Finset.sum_mul, ← Finset.sum_add_distrib]
    refine Finset.sum_congr rfl fun k _ => by ring
  have hcpe : specificHeatConstCpk cp Y = ∑ k, Y k * cp k := by
    unfold specificHeatConstCpk; rw [sumLoop_eq]
  generalize hC : ∑ k, Y k * cp k = C at *
  have step : ∀ t : K, t + (enthalpyConstCpk cp hf Y tRef T - enthalpyConstCpk cp hf Y tRef t)
      / specificHeatConstCpk cp Y = T := by
    intro t; rw [hcpe, lin, lin]; field_simp; ring
  have key : newtonLoop (enthalpyConstCpk cp hf Y tRef) (fun _ => specificHeatConstCpk cp Y)
      (enthalpyConstCpk cp hf Y tRef T) tol maxIter tSave = (T, true) := by
    obtain ⟨m, rfl⟩ : ∃ m, maxIter = m + 2 := ⟨maxIter - 2, by omega⟩
    unfold newtonLoop
    simp only [step]
    split_ifs with hc
    · rfl
    · unfold newtonLoop
      simp only [sub_self, zero_div, abs_zero, add_zero]
      rw [if_pos (mul_pos hpos htol)]
  simp only [extractTemperature, key]
  simp [not_lt.mpr hlo, not_lt.mpr hhi]

example : let r := extractTemperature (enthalpyConstCp (1000:ℚ) 300) (fun _ => 1000) 250 3000 (1/10^8) 1 25 300 50000
    r.T = 350 ∧ r.h = 50000 ∧ r.notConverged = false := by decide +kernel
/-- a clipped case: the enthalpy is reset -/
example : let r := extractTemperature (enthalpyConstCp (1000:ℚ) 300) (fun _ => 1000) 250 3000 (1/10^8) 1 25 300 (-100000)
    r.T = 250 ∧ r.h = -50000 ∧ r.tooLow = true := by decide +kernel
/-- an unconverged case with an inconsistent specific heat: the last iterate is kept, `h` is reset -/
example : let r := extractTemperature (fun t : ℚ => t) (fun _ => 1/2) 0 3000 (1/10^8) 1 25 300 301
    r.notConverged = true ∧ r.h = r.T := by decide +kernel

end Field

/-! ## C31 (viscosity) -/

theorem c31_sutherland_at_reference (muRef TRef SRef : ℝ) (hT : TRef ≠ 0) (hS : TRef + SRef ≠ 0) :
    sutherland muRef TRef SRef TRef = muRef := by
  unfold sutherland
  rw [div_self hT, Real.one_rpow, mul_one, mul_div_assoc, div_self hS, mul_one]

theorem c31_sutherland_pos (muRef TRef SRef T : ℝ) (hm : 0 < muRef) (hTr : 0 < TRef)
    (hS : 0 ≤ SRef) (hT : 0 < T) : 0 < sutherland muRef TRef SRef T := by
  unfold sutherland
  have : 0 < (T / TRef) ^ (1.5 : ℝ) := Real.rpow_pos_of_pos (div_pos hT hTr) _
  positivity

/-- Species viscosity increases with temperature (positive reference data, nonnegative Sutherland
constant). -/
theorem c31_sutherland_mono (muRef TRef SRef T1 T2 : ℝ) (hm : 0 < muRef) (hTr : 0 < TRef)
    (hS : 0 ≤ SRef) (hT : 0 < T1) (h12 : T1 ≤ T2) :
    sutherland muRef TRef SRef T1 ≤ sutherland muRef TRef SRef T2 := by
  unfold sutherland
  have hT2 : 0 < T2 := hT.trans_le h12
  have e : ∀ x : ℝ, 0 ≤ x → x ^ (1.5 : ℝ) = x * √x := by
    intro x hx
    rw [show (1.5 : ℝ) = 1 + 1 / 2 by norm_num, Real.rpow_add' hx (by norm_num), Real.rpow_one,
      ← Real.sqrt_eq_rpow]
  rw [e _ (div_pos hT hTr).le, e _ (div_pos hT2 hTr).le]
  have hs : √(T1 / TRef) ≤ √(T2 / TRef) := Real.sqrt_le_sqrt (by gcongr)
  have hf : T1 / (T1 + SRef) ≤ T2 / (T2 + SRef) := by
    rw [div_le_div_iff₀ (by positivity) (by positivity)]
    nlinarith
  have hc : 0 ≤ muRef / TRef * (TRef + SRef) := by positivity
  have h1 : T1 / (T1 + SRef) * √(T1 / TRef) ≤ T2 / (T2 + SRef) * √(T2 / TRef) :=
    mul_le_mul hf hs (Real.sqrt_nonneg _) (by positivity)
  have r : ∀ T : ℝ, muRef * (T / TRef * √(T / TRef)) * (TRef + SRef) / (T + SRef)
      = muRef / TRef * (TRef + SRef) * (T / (T + SRef) * √(T / TRef)) := by
    intro T; rw [div_eq_mul_inv, div_eq_mul_inv muRef, div_eq_mul_inv T (T + SRef)]
    ring
  rw [r, r]
  exact mul_le_mul_of_nonneg_left h1 hc

/-- The mixture value lies between any lower and any upper bound of the species viscosities. -/
theorem c31_mixture_bounds {n : ℕ} (mw Y muRef TRef SRef : Fin n → ℝ) (T a b : ℝ)
    (hmw : ∀ k, 0 < mw k) (hY : ∀ k, 0 ≤ Y k) (hs : 0 < ∑ k, Y k)
    (hab : ∀ k, a ≤ sutherland (muRef k) (TRef k) (SRef k) T ∧
      sutherland (muRef k) (TRef k) (SRef k) T ≤ b) :
    a ≤ sutherlandMixture mw Y muRef TRef SRef T ∧ sutherlandMixture mw Y muRef TRef SRef T ≤ b := by
  obtain ⟨hX, hX1, -⟩ := c31_mole_fractions mw Y hmw hY hs
  unfold sutherlandMixture herningZipperer
  simp only [sumLoop_eq]
  generalize moleFraction mw Y = X at *
  generalize hmu : (fun k => sutherland (muRef k) (TRef k) (SRef k) T) = mu
  have hab' : ∀ k, a ≤ mu k ∧ mu k ≤ b := by intro k; rw [← hmu]; exact hab k
  have hw : ∀ k, 0 ≤ X k * √(mw k) := fun k => mul_nonneg (hX k) (Real.sqrt_nonneg _)
  have hpos : 0 < ∑ k, X k * √(mw k) := by
    obtain ⟨k, -, hk⟩ := Finset.exists_lt_of_sum_lt (s := Finset.univ) (f := fun _ => (0 : ℝ))
      (g := X) (by simp [hX1])
    exact Finset.sum_pos' (fun i _ => hw i)
      ⟨k, Finset.mem_univ _, mul_pos hk (Real.sqrt_pos.mpr (hmw k))⟩
  have hmu' : ∀ k, sutherland (muRef k) (TRef k) (SRef k) T = mu k := fun k => by rw [← hmu]
  simp only [hmu']
  constructor
  · rw [le_div_iff₀ hpos, Finset.mul_sum]
    refine Finset.sum_le_sum fun k _ => ?_
    rw [mul_assoc]
    exact mul_le_mul_of_nonneg_right (hab' k).1 (hw k)
  · rw [div_le_iff₀ hpos, Finset.mul_sum]
    refine Finset.sum_le_sum fun k _ => ?_
    rw [mul_assoc]
    exact mul_le_mul_of_nonneg_right (hab' k).2 (hw k)

example : (∀ k, (0:ℝ) < (![28, 32] : Fin 2 → ℝ) k) ∧ (∀ k, (0:ℝ) ≤ (![3/4, 1/4] : Fin 2 → ℝ) k) ∧
    0 < ∑ k, (![3/4, 1/4] : Fin 2 → ℝ) k := by
  refine ⟨fun k => ?_, fun k => ?_, ?_⟩
  · fin_cases k <;> norm_num
  · fin_cases k <;> norm_num
  · rw [Fin.sum_univ_two]; norm_num

/-! ## C32 specific heat is the derivative of enthalpy -/

/-- `T · h_rt(T)` has derivative `cp_r(T)`. -/
theorem hasDerivAt_hrt (p : Fin 6 → ℝ) (T : ℝ) (hT : T ≠ 0) :
    HasDerivAt (fun t => computeHRt t p * t) (computeCpR T p) T := by
  have e : (fun t => computeHRt t p * t) =ᶠ[nhds T] fun t =>
      p 0 * t ^ 1 + p 1 / 2 * t ^ 2 + p 2 / 3 * t ^ 3 + p 3 / 4 * t ^ 4 + p 4 / 5 * t ^ 5 + p 5 := by
    filter_upwards [eventually_ne_nhds hT] with t ht
    unfold computeHRt
    field_simp
  refine HasDerivAt.congr_of_eventuallyEq ?_ e
  have h := ((((((hasDerivAt_pow 1 T).const_mul (p 0)).add ((hasDerivAt_pow 2 T).const_mul (p 1 / 2))).add
    ((hasDerivAt_pow 3 T).const_mul (p 2 / 3))).add ((hasDerivAt_pow 4 T).const_mul (p 3 / 4))).add
    ((hasDerivAt_pow 5 T).const_mul (p 4 / 5))).add_const (p 5)
  refine h.congr_deriv ?_
  unfold computeCpR
  push_cast
  ring

/-- Polynomial evaluators, any mixture: away from the switch temperature (and `T ≠ 0`) the
derivative of the enthalpy evaluator is the specific-heat evaluator. -/
theorem c32_polynomial {n : ℕ} (e : PolyEval ℝ n) (Y : Fin n → ℝ) (T : ℝ) (hT : T ≠ 0)
    (hsw : T ≠ e.tLowHigh) : HasDerivAt (enthalpy e Y) (specificHeat e Y T) T := by
  have branch : ∀ c : Fin n → Fin 6 → ℝ, HasDerivAt
      (fun t => (sumLoop fun k => Y k * computeHRt t (c k) / e.mw k) * e.universalR * t)
      ((sumLoop fun k => Y k * computeCpR T (c k) / e.mw k) * e.universalR) T := by
    intro c
    have e1 : (fun t => (sumLoop fun k => Y k * computeHRt t (c k) / e.mw k) * e.universalR * t)
        = fun t => (∑ k, (Y k / e.mw k) * (computeHRt t (c k) * t)) * e.universalR := by
      funext t
      rw [sumLoop_eq, mul_right_comm, Finset.sum_mul]
      congr 1
      exact Finset.sum_congr rfl fun k _ => by ring
    rw [e1, sumLoop_eq]
    refine HasDerivAt.mul_const ?_ _
    have := HasDerivAt.fun_sum (u := Finset.univ)
      (A := fun k t => (Y k / e.mw k) * (computeHRt t (c k) * t))
      (A' := fun k => (Y k / e.mw k) * computeCpR T (c k)) (x := T)
      (fun k _ => (hasDerivAt_hrt (c k) T hT).const_mul _)
    refine this.congr_deriv (Finset.sum_congr rfl fun k _ => by ring)
  rcases lt_or_gt_of_ne hsw with h | h
  · have ev : enthalpy e Y =ᶠ[nhds T]
        fun t => (sumLoop fun k => Y k * computeHRt t (e.low k) / e.mw k) * e.universalR * t := by
      filter_upwards [eventually_lt_nhds h] with t ht
      simp [enthalpy, ht]
    have := (branch e.low).congr_of_eventuallyEq ev
    simpa [specificHeat, h] using this
  · have ev : enthalpy e Y =ᶠ[nhds T]
        fun t => (sumLoop fun k => Y k * computeHRt t (e.high k) / e.mw k) * e.universalR * t := by
      filter_upwards [eventually_gt_nhds h] with t ht
      simp [enthalpy, not_lt.mpr ht.le]
    have := (branch e.high).congr_of_eventuallyEq ev
    simpa [specificHeat, not_lt.mpr h.le] using this

/-- Water. -/
theorem c32_water (T : ℝ) : HasDerivAt waterEnthalpy (waterCp T) T := by
  have e : (waterEnthalpy : ℝ → ℝ) = fun t =>
      28070 * t ^ 1 + (-281.7 / 2) * t ^ 2 + (1.25 / 3) * t ^ 3 + (-2.48e-3 / 4) * t ^ 4
        + (1.857e-6 / 5) * t ^ 5 + waterEnthalpy 0 := by
    funext t; unfold waterEnthalpy waterComputeH; ring
  rw [e]
  have h := ((((((hasDerivAt_pow 1 T).const_mul (28070:ℝ)).add ((hasDerivAt_pow 2 T).const_mul (-281.7 / 2))).add
    ((hasDerivAt_pow 3 T).const_mul (1.25 / 3))).add ((hasDerivAt_pow 4 T).const_mul (-2.48e-3 / 4))).add
    ((hasDerivAt_pow 5 T).const_mul (1.857e-6 / 5))).add_const (waterEnthalpy 0)
  refine h.congr_deriv ?_
  unfold waterCp
  push_cast
  ring

/-- Constant specific heat. -/
theorem c32_const_cp (cp tRef T : ℝ) : HasDerivAt (enthalpyConstCp cp tRef) cp T := by
  have := ((hasDerivAt_id T).sub_const tRef).const_mul cp
  have e : enthalpyConstCp cp tRef = fun t => cp * (t - tRef) := rfl
  rw [e]
  simpa using this

/-- Constant species specific heats with heats of formation. -/
theorem c32_const_cpk {n : ℕ} (cp hf Y : Fin n → ℝ) (tRef T : ℝ) :
    HasDerivAt (enthalpyConstCpk cp hf Y tRef) (specificHeatConstCpk cp Y) T := by
  have e : enthalpyConstCpk cp hf Y tRef = fun t => ∑ k, Y k * (cp k * (t - tRef) + hf k) := by
    funext t; unfold enthalpyConstCpk; rw [sumLoop_eq]
  rw [e]
  unfold specificHeatConstCpk
  rw [sumLoop_eq]
  refine HasDerivAt.fun_sum fun k _ => ?_
  have := ((((hasDerivAt_id T).sub_const tRef).const_mul (cp k)).add_const (hf k)).const_mul (Y k)
  simpa using this

/-- A non-trivial instance for `c32_polynomial`: one species, NASA-like coefficients, `T = 300`. -/
example : HasDerivAt
    (enthalpy (K := ℝ) (n := 1) ⟨8314, 1000, ![28], ![![3, 1/1000, 0, 0, 0, -1000]], ![![4, 0, 0, 0, 0, -900]]⟩
      ![1])
    (specificHeat (K := ℝ) (n := 1)
      ⟨8314, 1000, ![28], ![![3, 1/1000, 0, 0, 0, -1000]], ![![4, 0, 0, 0, 0, -900]]⟩ ![1] 300) 300 :=
  c32_polynomial _ _ _ (by norm_num) (by norm_num)

/-! ## C33: accuracy of an accepted temperature -/

/-- If specific heat is the derivative of enthalpy (C32) and is `L`-Lipschitz between the last two
Newton iterates, an unflagged extraction stores a temperature whose enthalpy differs from the
stored one by at most `L · (tolerance · T)²`. -/
theorem c33_accepted_accuracy (h cp : ℝ → ℝ) (minT maxT tol relax L : ℝ) (maxIter : ℕ)
    (tSave hN : ℝ) (hL : 0 ≤ L) (hd : ∀ t, HasDerivAt h (cp t) t)
    (hlip : ∀ s t, |cp s - cp t| ≤ L * |s - t|) (hcp : ∀ t, cp t ≠ 0)
    (hflag : let r := extractTemperature h cp minT maxT tol relax maxIter tSave hN
      r.notConverged = false ∧ r.tooLow = false ∧ r.tooHigh = false) :
    let r := extractTemperature h cp minT maxT tol relax maxIter tSave hN
    |h r.T - r.h| ≤ L * (r.T * tol) ^ 2 := by
  have hc := c33_consistent h cp minT maxT tol relax maxIter tSave hN
  intro r
  simp only at hc hflag
  rcases hc with ⟨-, -, -, e, T, e1, e2⟩ | ⟨h1, -⟩
  · have e' : r.h = hN := e
    have e1' : r.T = T + (hN - h T) / cp T := e1
    have e2' : |r.T - T| < r.T * tol := e2
    have hN' : hN = h T + cp T * (r.T - T) := by
      rw [e1']; have := hcp T; field_simp; ring
    -- mean value on the segment
    have key : |(h r.T - cp T * r.T) - (h T - cp T * T)| ≤ L * |r.T - T| * |r.T - T| := by
      have := Convex.norm_image_sub_le_of_norm_hasDerivWithin_le
        (f := fun t => h t - cp T * t) (f' := fun t => cp t - cp T) (s := Set.uIcc T r.T)
        (x := T) (y := r.T) (C := L * |r.T - T|)
        (fun t _ => ((hd t).sub (by simpa using (hasDerivAt_id t).const_mul (cp T))).hasDerivWithinAt)
        (fun t ht => by
          rw [Real.norm_eq_abs]
          refine (hlip t T).trans (mul_le_mul_of_nonneg_left ?_ hL)
          have := Set.abs_sub_left_of_mem_uIcc ht
          exact this)
        (convex_uIcc T r.T) Set.left_mem_uIcc Set.right_mem_uIcc
      simpa [Real.norm_eq_abs] using this
    rw [e', hN']
    calc |h r.T - (h T + cp T * (r.T - T))|
        = |(h r.T - cp T * r.T) - (h T - cp T * T)| := by congr 1; ring
      _ ≤ L * |r.T - T| * |r.T - T| := key
      _ = L * |r.T - T| ^ 2 := by ring
      _ ≤ L * (r.T * tol) ^ 2 := by
        refine mul_le_mul_of_nonneg_left ?_ hL
        exact pow_le_pow_left₀ (abs_nonneg _) e2'.le 2
  · exfalso
    obtain ⟨a, b, c⟩ := hflag
    rcases h1 with h1 | h1 | h1
    · rw [a] at h1; exact Bool.noConfusion h1
    · rw [b] at h1; exact Bool.noConfusion h1
    · rw [c] at h1; exact Bool.noConfusion h1

/-- The hypotheses hold for the constant specific heat evaluators with `L = 0`, for every
temperature extraction that ends unflagged; here one that does. -/
example : |enthalpyConstCp 1000 300 (extractTemperature (enthalpyConstCp (1000:ℝ) 300)
      (fun _ => 1000) 250 3000 (1/10^8) 1 25 300 50000).T
    - (extractTemperature (enthalpyConstCp (1000:ℝ) 300)
      (fun _ => 1000) 250 3000 (1/10^8) 1 25 300 50000).h| ≤ 0 := by
  obtain ⟨a, b, c, d⟩ := c33_const_cp_exact (1000:ℝ) 300 250 3000 (1/10^8) 1 25 300 50000
    (by norm_num) (by norm_num) (by norm_num) (by norm_num) (by norm_num) (by norm_num)
  rw [c, b]; simp

end Verif.Thermo
