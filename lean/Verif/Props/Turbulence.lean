import Verif.Model.Turbulence
import Mathlib.Analysis.SpecialFunctions.Trigonometric.DerivHyp
import Mathlib.Analysis.SpecialFunctions.Pow.Deriv
import Mathlib.Analysis.SpecialFunctions.Sqrt
import Mathlib.LinearAlgebra.Matrix.Trace
import Mathlib.LinearAlgebra.Matrix.NonsingularInverse
import Mathlib.Algebra.Order.BigOperators.Ring.Finset
import Mathlib.Algebra.Order.BigOperators.Group.List
import Mathlib.Algebra.BigOperators.Field
import Mathlib.Tactic.Linarith
import Mathlib.Tactic.Positivity
import Mathlib.Tactic.FinCases
import Mathlib.Tactic.FieldSimp
import Mathlib.Tactic.NormNum

/-!
# Turbulence closures: eddy viscosity (C70), clipping (C71), source terms (C72), bounded scalars (C73, C75),
mass fractions (C74)
-/

namespace Nalu.Turb

open Matrix

/-! ## C70: eddy viscosities -/

lemma strainMag_sq {n : ℕ} (g : Fin n → Fin n → ℝ) : strainMag g ^ 2 = 2 * strainSq g := by
  unfold strainMag strainSq
  rw [Real.sq_sqrt]
  exact mul_nonneg (by norm_num) (Finset.sum_nonneg fun i _ => Finset.sum_nonneg fun j _ => mul_self_nonneg _)

lemma strainSq_nonneg {n : ℕ} (g : Fin n → Fin n → ℝ) : 0 ≤ strainSq g :=
  Finset.sum_nonneg fun i _ => Finset.sum_nonneg fun j _ => mul_self_nonneg _

lemma waleSdSq_nonneg {n : ℕ} (g : Fin n → Fin n → ℝ) : 0 ≤ waleSdSq g :=
  Finset.sum_nonneg fun i _ => Finset.sum_nonneg fun j _ => mul_self_nonneg _

lemma strainMag_nonneg {n : ℕ} (g : Fin n → Fin n → ℝ) : 0 ≤ strainMag g := Real.sqrt_nonneg _

/-- C70. The gradient product of the turbulence production is the squared strain-rate magnitude; in particular
production is never negative where the eddy viscosity is not. -/
theorem c70_production_is_strain {n : ℕ} (g : Fin n → Fin n → ℝ) : gradProduct g = strainMag g ^ 2 := by
  rw [strainMag_sq]
  unfold gradProduct strainSq
  have h1 : ∑ i, ∑ j, g i j * g j i = ∑ i, ∑ j, g j i * g i j := by
    rw [Finset.sum_comm]
  have h2 : ∑ i, ∑ j, g j i * g j i = ∑ i, ∑ j, g i j * g i j := by rw [Finset.sum_comm]
  have h3 : ∀ i j, 1 / 2 * (g i j + g j i) * (1 / 2 * (g i j + g j i))
      = 1 / 4 * (g i j * g i j) + 1 / 4 * (g j i * g j i) + 1 / 2 * (g i j * g j i) := by
    intro i j; ring
  simp only [h3]
  simp only [mul_add, Finset.sum_add_distrib, ← Finset.mul_sum, h2]
  ring

/-- Specification: the velocity gradient seen from axes turned by the orthogonal matrix `Q`. -/
def turned {n : ℕ} (Q : Matrix (Fin n) (Fin n) ℝ) (g : Fin n → Fin n → ℝ) : Fin n → Fin n → ℝ :=
  Q * (Matrix.of g) * Qᵀ

private lemma sumSq_trace {n : ℕ} (S : Matrix (Fin n) (Fin n) ℝ) :
    ∑ i, ∑ j, S i j * S i j = trace (S * Sᵀ) := by
  simp [trace, Matrix.mul_apply, Matrix.diag]

private lemma trace_turned {n : ℕ} (Q S : Matrix (Fin n) (Fin n) ℝ) (hQ : Qᵀ * Q = 1) :
    trace ((Q * S * Qᵀ) * (Q * S * Qᵀ)ᵀ) = trace (S * Sᵀ) := by
  have h : (Q * S * Qᵀ) * (Q * S * Qᵀ)ᵀ = Q * (S * (Qᵀ * Q) * Sᵀ) * Qᵀ := by
    simp only [Matrix.transpose_mul, Matrix.transpose_transpose, Matrix.mul_assoc]
  rw [h, hQ, Matrix.mul_one, Matrix.trace_mul_comm, ← Matrix.mul_assoc, hQ, Matrix.one_mul]

private lemma strain_mat {n : ℕ} (g : Fin n → Fin n → ℝ) :
    strainSq g = trace (((1 / 2 : ℝ) • (Matrix.of g + (Matrix.of g)ᵀ))
      * ((1 / 2 : ℝ) • (Matrix.of g + (Matrix.of g)ᵀ))ᵀ) := by
  rw [← sumSq_trace]; rfl

private lemma wale_mat {n : ℕ} (g : Fin n → Fin n → ℝ) :
    waleSdSq g = trace (((1 / 2 : ℝ) • (Matrix.of g * Matrix.of g + (Matrix.of g * Matrix.of g)ᵀ)
        - (trace (Matrix.of g * Matrix.of g) / 3) • (1 : Matrix (Fin n) (Fin n) ℝ))
      * ((1 / 2 : ℝ) • (Matrix.of g * Matrix.of g + (Matrix.of g * Matrix.of g)ᵀ)
        - (trace (Matrix.of g * Matrix.of g) / 3) • (1 : Matrix (Fin n) (Fin n) ℝ))ᵀ) := by
  rw [← sumSq_trace]
  unfold waleSdSq
  have : ∀ i j, waleSd g i j = ((1 / 2 : ℝ) • (Matrix.of g * Matrix.of g + (Matrix.of g * Matrix.of g)ᵀ)
        - (trace (Matrix.of g * Matrix.of g) / 3) • (1 : Matrix (Fin n) (Fin n) ℝ)) i j := by
    intro i j
    have ht : gradSqTrace g = trace (Matrix.of g * Matrix.of g) := by
      simp [gradSqTrace, trace, Matrix.mul_apply]
    simp only [waleSd, gradSq, ht, Matrix.sub_apply, Matrix.smul_apply, Matrix.add_apply,
      Matrix.transpose_apply, Matrix.mul_apply, Matrix.of_apply, Matrix.one_apply, smul_eq_mul]
    split_ifs <;> ring
  simp only [this]

private lemma of_turned {n : ℕ} (Q : Matrix (Fin n) (Fin n) ℝ) (g : Fin n → Fin n → ℝ) :
    Matrix.of (turned Q g) = Q * Matrix.of g * Qᵀ := rfl

lemma strainSq_turned {n : ℕ} (Q : Matrix (Fin n) (Fin n) ℝ) (hQ : Qᵀ * Q = 1) (g : Fin n → Fin n → ℝ) :
    strainSq (turned Q g) = strainSq g := by
  rw [strain_mat, strain_mat, of_turned]
  have : (1 / 2 : ℝ) • (Q * Matrix.of g * Qᵀ + (Q * Matrix.of g * Qᵀ)ᵀ)
      = Q * ((1 / 2 : ℝ) • (Matrix.of g + (Matrix.of g)ᵀ)) * Qᵀ := by
    simp only [Matrix.transpose_mul, Matrix.transpose_transpose, Matrix.mul_smul, Matrix.smul_mul,
      Matrix.mul_add, Matrix.add_mul, Matrix.mul_assoc]
  rw [this, trace_turned Q _ hQ]

lemma waleSdSq_turned {n : ℕ} (Q : Matrix (Fin n) (Fin n) ℝ) (hQ : Qᵀ * Q = 1) (g : Fin n → Fin n → ℝ) :
    waleSdSq (turned Q g) = waleSdSq g := by
  rw [wale_mat, wale_mat, of_turned]
  have hQ2 : Q * Qᵀ = 1 := mul_eq_one_comm.1 hQ
  have h1 : Q * Matrix.of g * Qᵀ * (Q * Matrix.of g * Qᵀ) = Q * (Matrix.of g * Matrix.of g) * Qᵀ := by
    have : Q * Matrix.of g * Qᵀ * (Q * Matrix.of g * Qᵀ)
        = Q * Matrix.of g * (Qᵀ * Q) * (Matrix.of g * Qᵀ) := by simp only [Matrix.mul_assoc]
    rw [this, hQ, Matrix.mul_one]; simp only [Matrix.mul_assoc]
  have h2 : trace (Q * (Matrix.of g * Matrix.of g) * Qᵀ) = trace (Matrix.of g * Matrix.of g) := by
    rw [Matrix.trace_mul_comm, ← Matrix.mul_assoc, hQ, Matrix.one_mul]
  rw [h1, h2]
  set S := Matrix.of g * Matrix.of g
  have : (1 / 2 : ℝ) • (Q * S * Qᵀ + (Q * S * Qᵀ)ᵀ) - (trace S / 3) • (1 : Matrix (Fin n) (Fin n) ℝ)
      = Q * ((1 / 2 : ℝ) • (S + Sᵀ) - (trace S / 3) • (1 : Matrix (Fin n) (Fin n) ℝ)) * Qᵀ := by
    simp only [Matrix.transpose_mul, Matrix.transpose_transpose, Matrix.mul_smul, Matrix.smul_mul,
      Matrix.mul_add, Matrix.add_mul, Matrix.mul_sub, Matrix.sub_mul, Matrix.mul_assoc, Matrix.one_mul, hQ2]
  rw [this, trace_turned Q _ hQ]

/-- C70. Every eddy viscosity depends on the flow and not on the choice of axes: turning the axes leaves it
unchanged. -/
theorem c70_frame_indifferent {n : ℕ} (Q : Matrix (Fin n) (Fin n) ℝ) (hQ : Qᵀ * Q = 1)
    (g : Fin n → Fin n → ℝ) (c rho vol small aOne betaStar visc tke sdr d : ℝ) :
    smagorinsky c rho vol (turned Q g) = smagorinsky c rho vol g ∧
    wale c small rho vol (turned Q g) = wale c small rho vol g ∧
    sst aOne betaStar visc rho tke sdr d (turned Q g) = sst aOne betaStar visc rho tke sdr d g := by
  have hs : strainMag (turned Q g) = strainMag g := by
    have := strainSq_turned Q hQ g
    unfold strainSq at this
    unfold strainMag
    rw [this]
  refine ⟨?_, ?_, ?_⟩
  · unfold smagorinsky; rw [hs]
  · unfold wale; rw [strainSq_turned Q hQ, waleSdSq_turned Q hQ]
  · unfold sst; rw [hs]

/-- A proper rotation, not the identity, meets the hypothesis. -/
example : (!![3 / 5, 4 / 5; -4 / 5, 3 / 5] : Matrix (Fin 2) (Fin 2) ℝ)ᵀ * !![3 / 5, 4 / 5; -4 / 5, 3 / 5] = 1 := by
  ext i j; fin_cases i <;> fin_cases j <;> norm_num [Matrix.mul_apply, Fin.sum_univ_two]

/-- C70. The Smagorinsky viscosity is non-negative and vanishes exactly for rigid motion. -/
theorem c70_smagorinsky {n : ℕ} {c rho vol : ℝ} (hc : c ≠ 0) (hr : 0 < rho) (hv : 0 < vol)
    (g : Fin n → Fin n → ℝ) :
    0 ≤ smagorinsky c rho vol g ∧ (smagorinsky c rho vol g = 0 ↔ ∀ i j, g i j = -g j i) := by
  have hf : 0 < vol ^ (1 / (n : ℝ)) := Real.rpow_pos_of_pos hv _
  have hcc : 0 < c * c := mul_self_pos.2 hc
  have hS := strainMag_nonneg g
  refine ⟨by unfold smagorinsky; positivity, ?_⟩
  have h1 : smagorinsky c rho vol g = 0 ↔ strainMag g = 0 := by
    unfold smagorinsky
    constructor
    · intro h
      rcases mul_eq_zero.1 h with h | h
      · exfalso; have : 0 < c * c * rho * vol ^ (1 / (n : ℝ)) * vol ^ (1 / (n : ℝ)) := by positivity
        linarith
      · exact h
    · intro h; rw [h, mul_zero]
  rw [h1]
  have h2 : strainMag g = 0 ↔ strainSq g = 0 := by
    have := strainMag_sq g
    constructor
    · intro h; rw [h] at this; linarith
    · intro h; rw [h] at this; exact pow_eq_zero_iff (two_ne_zero) |>.1 (by linarith)
  rw [h2]
  unfold strainSq
  rw [Finset.sum_eq_zero_iff_of_nonneg (fun i _ => Finset.sum_nonneg fun j _ => mul_self_nonneg _)]
  constructor
  · intro h i j
    have h3 := h i (Finset.mem_univ i)
    rw [Finset.sum_eq_zero_iff_of_nonneg (fun j _ => mul_self_nonneg _)] at h3
    have := mul_self_eq_zero.1 (h3 j (Finset.mem_univ j))
    linarith
  · intro h i _
    refine Finset.sum_eq_zero fun j _ => ?_
    rw [h i j]; ring

/-- C70. The WALE viscosity is non-negative, and in a pure shear flow it is at most `rho*(Cw*filter)^2*small`. -/
theorem c70_wale {n : ℕ} {cw small rho vol : ℝ} (hs : 0 < small) (hr : 0 ≤ rho) (g : Fin n → Fin n → ℝ) :
    0 ≤ wale cw small rho vol g ∧
    ∀ (a b : Fin n) (s : ℝ), a ≠ b → (∀ i j, g i j = if i = a ∧ j = b then s else 0) →
      wale cw small rho vol g ≤ rho * (cw * vol ^ (1 / (n : ℝ))) ^ 2 * small := by
  have h1 := Real.rpow_nonneg (strainSq_nonneg g) (5 / 2)
  have h2 := Real.rpow_nonneg (waleSdSq_nonneg g) (5 / 4)
  have h3 := Real.rpow_nonneg (waleSdSq_nonneg g) (3 / 2)
  have hd : 0 < strainSq g ^ (5 / 2 : ℝ) + waleSdSq g ^ (5 / 4 : ℝ) + small := by linarith
  constructor
  · unfold wale
    apply div_nonneg _ hd.le
    have : rho * (cw * vol ^ (1 / (n : ℝ))) * (cw * vol ^ (1 / (n : ℝ)))
        = rho * (cw * vol ^ (1 / (n : ℝ))) ^ 2 := by ring
    rw [this]
    positivity
  · intro a b s hab hg
    have hq : ∀ i j, gradSq g i j = 0 := by
      intro i j
      unfold gradSq
      refine Finset.sum_eq_zero fun l _ => ?_
      rw [hg, hg]
      by_cases h : i = a ∧ l = b
      · have h' : ¬ (l = a ∧ j = b) := fun h' => hab (h'.1.symm.trans h.2)
        rw [if_neg h']; ring
      · rw [if_neg h]; ring
    have hz : waleSdSq g = 0 := by
      unfold waleSdSq
      refine Finset.sum_eq_zero fun i _ => Finset.sum_eq_zero fun j _ => ?_
      have ht : gradSqTrace g = 0 := by
        have : gradSqTrace g = ∑ m, gradSq g m m := rfl
        rw [this]; exact Finset.sum_eq_zero fun m _ => hq m m
      unfold waleSd
      rw [hq, hq, ht]; ring
    unfold wale
    rw [hz, Real.zero_rpow (by norm_num), Real.zero_rpow (by norm_num)]
    rw [div_le_iff₀ (by rw [hz, Real.zero_rpow (by norm_num)] at hd; exact hd)]
    have h4 : 0 ≤ rho * (cw * vol ^ (1 / (n : ℝ))) ^ 2 := by positivity
    nlinarith [mul_nonneg h4 (mul_nonneg hs.le h1)]

/-- C70. The damping function of the subgrid kinetic-energy model lies in `[0,1]`; it is one in the standard
variant and zero at a wall in the low-Reynolds variant. -/
theorem c70_ksgs_damping {cl ao bo filter cEps nu tke minDist dsqrtkSq : ℝ} (hao : 0 < ao) (hbo : bo ≠ 0)
    (hnu : 0 < nu) (hm : 0 ≤ minDist) :
    ksgsFmu 0 cl ao bo filter cEps nu tke minDist dsqrtkSq = 1 ∧
    ((0 ≤ cEps → 0 ≤ tke → 0 < filter → 0 ≤ dsqrtkSq →
      0 ≤ ksgsFmu 1 cl ao bo filter cEps nu tke minDist dsqrtkSq ∧
      ksgsFmu 1 cl ao bo filter cEps nu tke minDist dsqrtkSq ≤ 1)) ∧
    ksgsFmu 1 cl ao bo filter cEps nu tke 0 dsqrtkSq = 0 := by
  refine ⟨by simp [ksgsFmu], fun hc ht hf hd => ?_, ?_⟩
  · unfold ksgsFmu
    simp only [one_mul, sub_self, add_zero]
    set e := cEps * tke ^ (3 / 2 : ℝ) / filter + 2 * nu * dsqrtkSq with he
    have he0 : 0 ≤ e := by
      have := Real.rpow_nonneg ht (3 / 2); positivity
    have hy : 0 ≤ minDist * ((nu * e) ^ (1 / 4 : ℝ) * Real.sqrt (cl * minDist / filter)) / nu / ao := by
      have h1 := Real.rpow_nonneg (mul_nonneg hnu.le he0) (1 / 4)
      have h2 := Real.sqrt_nonneg (cl * minDist / filter)
      positivity
    have hx := Real.rpow_nonneg (Real.rpow_nonneg hy (2 / 3)) bo
    generalize ((minDist * ((nu * e) ^ (1 / 4 : ℝ) * Real.sqrt (cl * minDist / filter)) / nu / ao)
      ^ (2 / 3 : ℝ)) ^ bo = x at hx
    have h3 := Real.exp_pos (-x)
    have h4 : Real.exp (-x) ≤ 1 := Real.exp_le_one_iff.2 (by linarith)
    constructor <;> linarith
  · unfold ksgsFmu
    simp only [one_mul, mul_zero, zero_mul, zero_div, sub_self, add_zero]
    rw [Real.zero_rpow (by norm_num), Real.zero_rpow hbo]
    simp

/-- C70. The dynamic subgrid model may return energy to the resolved flow, but the effective viscosity never
falls below the fraction `1 - lamFraction` of the molecular one. -/
theorem c70_dynamic_viscosity_bounded_below {visc lam rho filter tke small c : ℝ} (hv : 0 ≤ visc)
    (hl : 0 ≤ lam) (hr : 0 < rho) (hf : 0 < filter) (hs : 0 < small) :
    (1 - lam) * visc ≤ visc + ksgs 1 (dynamicCmu visc lam rho filter tke small c) rho tke filter := by
  have hm : 0 < max tke small := lt_max_of_lt_right hs
  have hsm : 0 < Real.sqrt (max tke small) := Real.sqrt_pos.2 hm
  have hst : Real.sqrt tke ≤ Real.sqrt (max tke small) := Real.sqrt_le_sqrt (le_max_left _ _)
  have hst0 := Real.sqrt_nonneg tke
  have h1 : -visc * lam / (rho * filter * Real.sqrt (max tke small))
      ≤ dynamicCmu visc lam rho filter tke small c := le_max_left _ _
  have h2 : -(visc * lam) ≤ -visc * lam / (rho * filter * Real.sqrt (max tke small))
      * (rho * Real.sqrt tke * filter) := by
    rw [div_mul_eq_mul_div, le_div_iff₀ (by positivity)]
    have := mul_le_mul_of_nonneg_left hst (by positivity : (0:ℝ) ≤ visc * lam * (rho * filter))
    nlinarith
  have h3 := mul_le_mul_of_nonneg_right h1 (by positivity : (0:ℝ) ≤ rho * Real.sqrt tke * filter)
  have h4 : ksgs 1 (dynamicCmu visc lam rho filter tke small c) rho tke filter
      = dynamicCmu visc lam rho filter tke small c * (rho * Real.sqrt tke * filter) := by
    unfold ksgs; ring
  rw [h4]
  linarith

private lemma tanh_nonneg {x : ℝ} (h : 0 ≤ x) : 0 ≤ Real.tanh x := by
  rw [Real.tanh_eq_sinh_div_cosh]
  exact div_nonneg (Real.sinh_nonneg_iff.2 h) (Real.cosh_pos x).le

/-- C70. Both SST blending functions lie in `[0,1)`, for any arguments. -/
theorem c70_blending_range {n : ℕ} (betaStar sigma cd visc rho tke sdr d : ℝ) (dk dw : Fin n → ℝ) :
    (0 ≤ fTwo betaStar visc rho tke sdr d ∧ fTwo betaStar visc rho tke sdr d < 1) ∧
    (0 ≤ fOne betaStar sigma cd visc rho tke sdr d dk dw ∧
      fOne betaStar sigma cd visc rho tke sdr d dk dw < 1) := by
  refine ⟨⟨tanh_nonneg (mul_self_nonneg _), Real.tanh_lt_one _⟩, ⟨tanh_nonneg ?_, Real.tanh_lt_one _⟩⟩
  set a := min (max (trbDiss betaStar tke sdr d) (lamDiss visc rho sdr d))
    (4 * rho * sigma * tke / max (2 * rho * sigma * (∑ j, dk j * dw j) / sdr) cd / (d * d))
  nlinarith [sq_nonneg (a * a)]

/-- C70. A blended constant lies between the two model constants, and the effective diffusivity is at least the
molecular one. -/
theorem c70_blend_between {f one two visc tvisc : ℝ} (h0 : 0 ≤ f) (h1 : f ≤ 1) :
    min one two ≤ blend f one two ∧ blend f one two ≤ max one two ∧
    (0 ≤ tvisc → 0 ≤ one → 0 ≤ two → visc ≤ effectiveVisc visc tvisc f one two) := by
  unfold effectiveVisc blend
  refine ⟨?_, ?_, fun ht ho hw => ?_⟩
  · nlinarith [min_le_left one two, min_le_right one two, mul_nonneg h0 (sub_nonneg.2 (min_le_left one two)),
      mul_nonneg (sub_nonneg.2 h1) (sub_nonneg.2 (min_le_right one two))]
  · nlinarith [mul_nonneg h0 (sub_nonneg.2 (le_max_left one two)),
      mul_nonneg (sub_nonneg.2 h1) (sub_nonneg.2 (le_max_right one two))]
  · have := mul_nonneg ht (add_nonneg (mul_nonneg h0 ho) (mul_nonneg (sub_nonneg.2 h1) hw))
    linarith

/-- C70. The SST viscosity is the smaller of `rho*k/omega` and the one that makes the turbulent shear stress
`a1*rho*k`: it is non-negative, it is at most `rho*k/omega`, the stress `mu_t*S*F2` is at most `a1*rho*k`, and
one of the two bounds is attained. -/
theorem c70_sst {n : ℕ} {aOne betaStar visc rho tke sdr d : ℝ} (ha : 0 < aOne) (hr : 0 < rho) (hk : 0 ≤ tke)
    (hw : 0 < sdr) (g : Fin n → Fin n → ℝ) :
    0 ≤ sst aOne betaStar visc rho tke sdr d g ∧
    sst aOne betaStar visc rho tke sdr d g ≤ rho * tke / sdr ∧
    sst aOne betaStar visc rho tke sdr d g * strainMag g * fTwo betaStar visc rho tke sdr d ≤ aOne * rho * tke ∧
    (sst aOne betaStar visc rho tke sdr d g = rho * tke / sdr ∨
      sst aOne betaStar visc rho tke sdr d g * strainMag g * fTwo betaStar visc rho tke sdr d
        = aOne * rho * tke) := by
  have hm : 0 < max (aOne * sdr) (strainMag g * fTwo betaStar visc rho tke sdr d) :=
    lt_max_of_lt_left (mul_pos ha hw)
  have hn : 0 ≤ aOne * rho * tke := by positivity
  have hf := (c70_blending_range (n := 0) betaStar 0 0 visc rho tke sdr d 0 0).1.1
  have hS := strainMag_nonneg g
  unfold sst
  generalize hX : strainMag g * fTwo betaStar visc rho tke sdr d = X at *
  have hX0 : 0 ≤ X := by rw [← hX]; positivity
  refine ⟨div_nonneg hn hm.le, ?_, ?_, ?_⟩
  · rw [div_le_div_iff₀ hm hw]
    have := mul_le_mul_of_nonneg_left (le_max_left (aOne * sdr) X) (by positivity : 0 ≤ rho * tke)
    nlinarith
  · rw [mul_assoc, hX, div_mul_eq_mul_div, div_le_iff₀ hm]
    exact mul_le_mul_of_nonneg_left (le_max_right _ _) hn
  · rcases le_total (aOne * sdr) X with h | h
    · right
      rw [max_eq_right h] at hm ⊢
      rw [mul_assoc, hX, div_mul_cancel₀ _ hm.ne']
    · left
      rw [max_eq_left h]
      field_simp

/-- C70. The k-epsilon viscosity is non-negative and at most `cMu*rho*k^2/eps`. -/
theorem c70_kepsilon {cmu small rho tke eps : ℝ} (hc : 0 ≤ cmu) (hr : 0 ≤ rho) (hs : 0 ≤ small)
    (he : 0 < eps) :
    0 ≤ kEpsilon cmu small rho tke eps ∧ kEpsilon cmu small rho tke eps ≤ cmu * rho * tke ^ 2 / eps := by
  have hn : 0 ≤ cmu * rho * tke ^ 2 := by positivity
  have e : cmu * rho * tke * tke = cmu * rho * tke ^ 2 := by ring
  unfold kEpsilon
  rw [e]
  exact ⟨div_nonneg hn (by linarith), div_le_div_of_nonneg_left hn he (by linarith)⟩

/-! ## C71: clipping of the turbulence variables -/

/-- C71. The k-epsilon update always leaves positive kinetic energy and dissipation, whatever the solver
returned; and where it clipped, the stored eddy viscosity is the molecular one and is consistent with the new
values.  Values the solver left above the threshold are stored unchanged. -/
theorem c71_keps_update {clip small cmu visc rho : ℝ} (hcl : 0 < clip) (hs : 0 < small) (hc : 0 < cmu)
    (hv : 0 < visc) (hr : 0 < rho) (s : Node) (dk de : ℝ) :
    0 < (kepsUpdate clip small cmu visc rho s dk de).1.tke ∧
    0 < (kepsUpdate clip small cmu visc rho s dk de).1.diss ∧
    (small < s.tke + dk → small < s.diss + de →
      kepsUpdate clip small cmu visc rho s dk de = (⟨s.tke + dk, s.diss + de, s.tvisc⟩, false, false)) ∧
    (¬(small < s.tke + dk ∧ small < s.diss + de) →
      (kepsUpdate clip small cmu visc rho s dk de).1.tvisc = visc ∧
      cmu * rho * (kepsUpdate clip small cmu visc rho s dk de).1.tke ^ 2
        / (kepsUpdate clip small cmu visc rho s dk de).1.diss = visc) := by
  unfold kepsUpdate
  simp only
  split_ifs with h1 h2 h3
  · exact ⟨by simp only; linarith [h1.1], by simp only; linarith [h1.2], fun _ _ => rfl, fun h => absurd h1 h⟩
  · refine ⟨hcl, by simp only; positivity, fun h4 h5 => absurd ⟨h4, h5⟩ h1, fun _ => ⟨rfl, ?_⟩⟩
    simp only
    field_simp
  · have he : small ≤ s.diss + de := by
      by_contra h
      push Not at h
      exact h2 ⟨h3, h⟩
    have he0 : 0 < s.diss + de := lt_of_lt_of_le hs he
    have hq : 0 < visc * (s.diss + de) / (rho * cmu) := by positivity
    refine ⟨Real.sqrt_pos.2 hq, he0, fun h4 h5 => absurd ⟨h4, h5⟩ h1, fun _ => ⟨rfl, ?_⟩⟩
    simp only
    rw [Real.sq_sqrt hq.le]
    field_simp
  · push Not at h3
    have hk0 : 0 < s.tke + dk := lt_of_lt_of_le hs h3
    refine ⟨hk0, by simp only; positivity, fun h4 h5 => absurd ⟨h4, h5⟩ h1, fun _ => ⟨rfl, ?_⟩⟩
    simp only
    field_simp

/-- C71. The SST update never stores negative values. -/
theorem c71_sst_update_nonneg {clip visc rho : ℝ} (hcl : 0 < clip) (hv : 0 < visc) (hr : 0 < rho) (s : Node)
    (dk dw : ℝ) :
    0 ≤ (sstUpdate clip visc rho s dk dw).tke ∧ 0 ≤ (sstUpdate clip visc rho s dk dw).diss := by
  unfold sstUpdate
  simp only
  split_ifs with h1 h2 h3
  · exact ⟨h1.1, h1.2.le⟩
  · exact ⟨hcl.le, by positivity⟩
  · have : 0 ≤ s.diss + dw := by
      by_contra h
      push Not at h
      exact h2 ⟨h3, h⟩
    exact ⟨by positivity, this⟩
  · push Not at h3
    exact ⟨h3, by positivity⟩

/-- C71 (partial: the full claim would be for every outcome of the solve). The specific dissipation rate is
positive, and a clipped node has `rho*k/omega` equal to the molecular viscosity it stores as eddy viscosity,
provided the solver returned no exact zero. -/
theorem c71_sst_update_partial {clip visc rho : ℝ} (hcl : 0 < clip) (hv : 0 < visc) (hr : 0 < rho) (s : Node)
    (dk dw : ℝ) (hk : s.tke + dk ≠ 0) (hw : s.diss + dw ≠ 0) :
    0 < (sstUpdate clip visc rho s dk dw).diss ∧
    (0 < s.tke + dk → 0 < s.diss + dw →
      sstUpdate clip visc rho s dk dw = ⟨s.tke + dk, s.diss + dw, s.tvisc⟩) ∧
    (¬(0 < s.tke + dk ∧ 0 < s.diss + dw) →
      (sstUpdate clip visc rho s dk dw).tvisc = visc ∧
      rho * (sstUpdate clip visc rho s dk dw).tke / (sstUpdate clip visc rho s dk dw).diss = visc) := by
  unfold sstUpdate
  simp only
  split_ifs with h1 h2 h3
  · exact ⟨h1.2, fun _ _ => rfl, fun h => absurd ⟨lt_of_le_of_ne h1.1 (Ne.symm hk), h1.2⟩ h⟩
  · refine ⟨by simp only; positivity, fun h4 h5 => absurd ⟨h4.le, h5⟩ h1, fun _ => ⟨rfl, ?_⟩⟩
    simp only
    field_simp
  · have : 0 < s.diss + dw := by
      rcases lt_or_gt_of_ne hw with h | h
      · exact absurd ⟨h3, h⟩ h2
      · exact h
    refine ⟨this, fun h4 h5 => absurd ⟨h4.le, h5⟩ h1, fun _ => ⟨rfl, ?_⟩⟩
    simp only
    field_simp
  · push Not at h3
    have h4 : 0 < s.tke + dk := lt_of_le_of_ne h3 (Ne.symm hk)
    refine ⟨by simp only; positivity, fun _ h5 => absurd ⟨h3, h5⟩ h1, fun _ => ⟨rfl, ?_⟩⟩
    simp only
    field_simp

/-- C71 fails for exact zeros: a node with zero kinetic energy and a non-positive solver result for the specific
dissipation rate is left with zero specific dissipation rate, by which the next evaluation of the eddy viscosity
divides. -/
theorem c71_sst_zero_dissipation (clip visc rho w t dw : ℝ) (h : w + dw ≤ 0) :
    (sstUpdate clip visc rho ⟨0, w, t⟩ 0 dw).diss = 0 ∧
    (sstUpdate clip visc rho ⟨0, w, t⟩ 0 dw).tke = 0 := by
  unfold sstUpdate
  simp only [add_zero, le_refl, true_and, lt_irrefl, false_and, if_false]
  rw [if_neg (by linarith)]
  simp

/-- C71. The subgrid kinetic energy is never negative after an update; a non-negative value is kept. -/
theorem c71_tke_update {clip : ℝ} (hcl : 0 ≤ clip) (tke dk : ℝ) :
    0 ≤ (tkeUpdate clip tke dk).1 ∧ (0 ≤ tke + dk → tkeUpdate clip tke dk = (tke + dk, false)) ∧
    (tke + dk < 0 → tkeUpdate clip tke dk = (clip, true)) := by
  unfold tkeUpdate
  split_ifs with h
  · exact ⟨hcl, fun h2 => absurd h2 (not_le.2 h), fun _ => rfl⟩
  · push Not at h
    exact ⟨h, fun _ => rfl, fun h2 => absurd h2 (not_lt.2 h)⟩

/-- C71. The initial k-epsilon fields are made non-negative. -/
theorem c71_keps_initial {clip cmu visc rho : ℝ} (hcl : 0 < clip) (hc : 0 < cmu) (hv : 0 < visc)
    (hr : 0 < rho) (tke eps : ℝ) :
    0 ≤ (kepsInitial clip cmu visc rho tke eps).1 ∧ 0 ≤ (kepsInitial clip cmu visc rho tke eps).2 := by
  unfold kepsInitial
  split_ifs with h1 h2 h3
  · exact ⟨h1.1, h1.2.le⟩
  · exact ⟨hcl.le, by simp only; positivity⟩
  · have : 0 ≤ eps := by
      by_contra h
      push Not at h
      exact h2 ⟨h3, h⟩
    exact ⟨Real.sqrt_nonneg _, this⟩
  · push Not at h3
    exact ⟨h3, by simp only; positivity⟩

example : (sstUpdate 1 2 3 ⟨1, 1, 0⟩ (-2) (-2)).tke = 1 := by
  unfold sstUpdate; norm_num

/-! ## C72: source terms -/

/-- Specification of a point-implicit update: the correction `d` of a nodal value `k` that balances the source
`rhs` with the diagonal `lhs` and a non-negative inertia `m`. -/
def PointImplicit (m lhs rhs d : ℝ) : Prop := (m + lhs) * d = rhs

private lemma implicit_keeps {m lhs rhs d k : ℝ} (hm : 0 ≤ m) (hl : 0 ≤ lhs) (hml : 0 < m + lhs) (hk : 0 ≤ k)
    (hr : -(lhs * k) ≤ rhs) (h : PointImplicit m lhs rhs d) : 0 ≤ k + d := by
  unfold PointImplicit at h
  by_contra hneg
  push Not at hneg
  nlinarith [mul_nonneg hm hk]

/-- C72. The production entering the equations is the smaller of the production and the given multiple of the
destruction. -/
theorem c72_limited_production (ratio Pk Dk : ℝ) : limited ratio Pk Dk = min Pk (ratio * Dk) := by
  unfold limited
  split_ifs with h
  · rw [min_eq_right h.le]
  · rw [min_eq_left (not_lt.1 h)]

private lemma limited_nonneg {ratio Pk Dk : ℝ} (hr : 0 ≤ ratio) (hP : 0 ≤ Pk) (hD : 0 ≤ Dk) :
    0 ≤ limited ratio Pk Dk := by
  rw [c72_limited_production]; exact le_min hP (mul_nonneg hr hD)

/-- C72. SST kinetic energy: the diagonal contribution is non-negative and is the derivative of the destruction,
the net source is between `-Dk` and `(ratio-1)*Dk`, and a point-implicit update keeps the kinetic energy
non-negative. -/
theorem c72_tke_sst {n : ℕ} {betaStar ratio rho tke sdr tvisc : ℝ} (hb : 0 ≤ betaStar) (hra : 0 ≤ ratio)
    (hr : 0 ≤ rho) (hk : 0 ≤ tke) (hw : 0 ≤ sdr) (ht : 0 ≤ tvisc) (g : Fin n → Fin n → ℝ) :
    0 ≤ (tkeSST betaStar ratio rho tke sdr tvisc g).2 ∧
    HasDerivAt (fun k => betaStar * rho * sdr * k) (tkeSST betaStar ratio rho tke sdr tvisc g).2 tke ∧
    -(betaStar * rho * sdr * tke) ≤ (tkeSST betaStar ratio rho tke sdr tvisc g).1 ∧
    (tkeSST betaStar ratio rho tke sdr tvisc g).1 ≤ (ratio - 1) * (betaStar * rho * sdr * tke) ∧
    ∀ m d, 0 ≤ m → 0 < m + (tkeSST betaStar ratio rho tke sdr tvisc g).2 →
      PointImplicit m (tkeSST betaStar ratio rho tke sdr tvisc g).2
        (tkeSST betaStar ratio rho tke sdr tvisc g).1 d → 0 ≤ tke + d := by
  have hP : 0 ≤ gradProduct g * tvisc := by
    rw [c70_production_is_strain]; exact mul_nonneg (sq_nonneg _) ht
  have hD : 0 ≤ betaStar * rho * sdr * tke := by positivity
  have hl := limited_nonneg hra hP hD
  have hu : limited ratio (gradProduct g * tvisc) (betaStar * rho * sdr * tke)
      ≤ ratio * (betaStar * rho * sdr * tke) := by rw [c72_limited_production]; exact min_le_right _ _
  have h1 : -(betaStar * rho * sdr * tke) ≤ (tkeSST betaStar ratio rho tke sdr tvisc g).1 := by
    unfold tkeSST; simp only; linarith
  have h2 : 0 ≤ (tkeSST betaStar ratio rho tke sdr tvisc g).2 := by unfold tkeSST; simp only; positivity
  refine ⟨h2, ?_, h1, by unfold tkeSST; simp only; linarith, fun m d hm hml h => ?_⟩
  · unfold tkeSST
    simpa using (hasDerivAt_id tke).const_mul (betaStar * rho * sdr)
  · exact implicit_keeps hm h2 hml hk (by simpa [tkeSST] using h1) h

/-- C72. SST-DES kinetic energy: the length scale is at most both the RANS scale and the grid scale (or the
floor), the diagonal is the derivative of the destruction at a fixed length scale, and a point-implicit update
keeps the kinetic energy non-negative. -/
theorem c72_tke_des {n : ℕ} {ratio rho tke tvisc l : ℝ} (hra : 0 ≤ ratio) (hr : 0 ≤ rho) (hk : 0 < tke)
    (ht : 0 ≤ tvisc) (hl : 0 < l) (g : Fin n → Fin n → ℝ) :
    HasDerivAt (fun k => rho * k * Real.sqrt k / l) (tkeDES ratio rho tke tvisc l g).2 tke ∧
    0 ≤ (tkeDES ratio rho tke tvisc l g).2 ∧
    ∀ m d, 0 ≤ m → 0 < m + (tkeDES ratio rho tke tvisc l g).2 →
      PointImplicit m (tkeDES ratio rho tke tvisc l g).2 (tkeDES ratio rho tke tvisc l g).1 d → 0 ≤ tke + d := by
  have hs := Real.sqrt_pos.2 hk
  have hss := Real.mul_self_sqrt hk.le
  have hP : 0 ≤ gradProduct g * tvisc := by
    rw [c70_production_is_strain]; exact mul_nonneg (sq_nonneg _) ht
  have hD : 0 ≤ rho * tke * Real.sqrt tke / l := by positivity
  have hlim := limited_nonneg hra hP hD
  have h2 : 0 ≤ (tkeDES ratio rho tke tvisc l g).2 := by unfold tkeDES; simp only; positivity
  refine ⟨?_, h2, fun m d hm hml h => implicit_keeps hm h2 hml hk.le ?_ h⟩
  · have h1 := (((hasDerivAt_id tke).const_mul rho).mul (Real.hasDerivAt_sqrt hk.ne')).div_const l
    refine HasDerivAt.congr_deriv h1 ?_
    unfold tkeDES
    simp only [id]
    have hss' : Real.sqrt tke ^ 2 = tke := Real.sq_sqrt hk.le
    field_simp
    linear_combination -rho * hss'
  · unfold tkeDES
    simp only
    have e : 3 / 2 * rho / l * Real.sqrt tke * tke = 3 / 2 * (rho * tke * Real.sqrt tke / l) := by ring
    rw [e]
    linarith

/-- C72. The DES length scale. -/
theorem c72_des_length {betaStar tiny cDES maxLen tke sdr : ℝ} (h : 0 < tiny) :
    0 < lDES betaStar tiny cDES maxLen tke sdr ∧
    (tiny ≤ Real.sqrt tke / betaStar / sdr → tiny ≤ cDES * maxLen →
      lDES betaStar tiny cDES maxLen tke sdr = min (Real.sqrt tke / betaStar / sdr) (cDES * maxLen)) :=
  ⟨lt_of_lt_of_le h (le_max_left _ _), fun h1 h2 => max_eq_right (le_min h1 h2)⟩

/-- C72. Subgrid kinetic energy (standard variant, no low-Reynolds term): the diagonal is the derivative of the
destruction and a point-implicit update keeps the kinetic energy non-negative. -/
theorem c72_tke_ksgs {n : ℕ} {cEps ratio rho tke tvisc filter : ℝ} (hc : 0 ≤ cEps) (hra : 0 ≤ ratio)
    (hr : 0 ≤ rho) (hk : 0 < tke) (ht : 0 ≤ tvisc) (hf : 0 < filter) (g : Fin n → Fin n → ℝ) :
    HasDerivAt (fun k => cEps * rho * k ^ (3 / 2 : ℝ) / filter + 0)
      (tkeKsgs cEps ratio rho tke tvisc filter 0 g).2 tke ∧
    0 ≤ (tkeKsgs cEps ratio rho tke tvisc filter 0 g).2 ∧
    ∀ m d, 0 ≤ m → 0 < m + (tkeKsgs cEps ratio rho tke tvisc filter 0 g).2 →
      PointImplicit m (tkeKsgs cEps ratio rho tke tvisc filter 0 g).2
        (tkeKsgs cEps ratio rho tke tvisc filter 0 g).1 d → 0 ≤ tke + d := by
  have hs := Real.sqrt_pos.2 hk
  have hpow : tke ^ (3 / 2 : ℝ) = tke * Real.sqrt tke := by
    rw [show (3 / 2 : ℝ) = 1 + 1 / 2 by norm_num, Real.rpow_add hk, Real.rpow_one, Real.sqrt_eq_rpow]
  have hP : 0 ≤ gradProduct g * tvisc := by
    rw [c70_production_is_strain]; exact mul_nonneg (sq_nonneg _) ht
  have hD : 0 ≤ cEps * rho * tke ^ (3 / 2 : ℝ) / filter + 0 := by
    have := Real.rpow_nonneg hk.le (3 / 2); positivity
  have hlim := limited_nonneg hra hP hD
  have h2 : 0 ≤ (tkeKsgs cEps ratio rho tke tvisc filter 0 g).2 := by unfold tkeKsgs; simp only; positivity
  refine ⟨?_, h2, fun m d hm hml h => implicit_keeps hm h2 hml hk.le ?_ h⟩
  · have h1 := (((Real.hasDerivAt_rpow_const (x := tke) (p := 3 / 2) (Or.inl hk.ne')).const_mul
      (cEps * rho)).div_const filter).add_const 0
    refine HasDerivAt.congr_deriv h1 ?_
    unfold tkeKsgs
    simp only
    rw [show (3 / 2 - 1 : ℝ) = 1 / 2 by norm_num, ← Real.sqrt_eq_rpow]
    ring
  · unfold tkeKsgs
    simp only
    have e : 3 / 2 * cEps * rho * Real.sqrt tke / filter * tke
        = 3 / 2 * (cEps * rho * tke ^ (3 / 2 : ℝ) / filter + 0) := by rw [hpow]; ring
    rw [e]
    linarith

/-- C72. Specific dissipation rate: the diagonal is non-negative, at least the derivative of the destruction, and
a point-implicit update keeps it non-negative as long as the cross-diffusion is not more negative than twice the
destruction. -/
theorem c72_sdr_sst {n : ℕ} {betaStar beta gamma sigmaD ratio tiny rho tke sdr tvisc : ℝ} (hbs : 0 ≤ betaStar)
    (hb : 0 ≤ beta) (hg : 0 ≤ gamma) (hra : 0 ≤ ratio) (htiny : 0 < tiny) (hr : 0 ≤ rho) (hk : 0 ≤ tke)
    (hw : 0 < sdr) (ht : 0 ≤ tvisc) (g : Fin n → Fin n → ℝ) (dk dw : Fin n → ℝ) :
    2 * beta * rho * sdr ≤ (sdrSST betaStar beta gamma sigmaD ratio tiny rho tke sdr tvisc g dk dw).2 ∧
    HasDerivAt (fun w => beta * rho * w * w) (2 * beta * rho * sdr) sdr ∧
    (-(beta * rho * sdr * sdr) ≤ sigmaD * rho * (∑ i, dk i * dw i) / sdr →
      ∀ m d, 0 ≤ m → 0 < m + (sdrSST betaStar beta gamma sigmaD ratio tiny rho tke sdr tvisc g dk dw).2 →
      PointImplicit m (sdrSST betaStar beta gamma sigmaD ratio tiny rho tke sdr tvisc g dk dw).2
        (sdrSST betaStar beta gamma sigmaD ratio tiny rho tke sdr tvisc g dk dw).1 d → 0 ≤ sdr + d) := by
  have hP : 0 ≤ gradProduct g * tvisc := by
    rw [c70_production_is_strain]; exact mul_nonneg (sq_nonneg _) ht
  have hD : 0 ≤ betaStar * rho * sdr * tke := by positivity
  have hlim := limited_nonneg hra hP hD
  have h1 : 2 * beta * rho * sdr ≤ (sdrSST betaStar beta gamma sigmaD ratio tiny rho tke sdr tvisc g dk dw).2 := by
    unfold sdrSST; simp only
    linarith [le_max_right (sigmaD * rho * (∑ i, dk i * dw i) / sdr / sdr) 0]
  have h0 : 0 ≤ 2 * beta * rho * sdr := by positivity
  refine ⟨h1, ?_, fun hS m d hm hml h => implicit_keeps hm (h0.trans h1) hml hw.le ?_ h⟩
  · have := ((hasDerivAt_id sdr).const_mul (beta * rho)).mul (hasDerivAt_id sdr)
    refine HasDerivAt.congr_deriv this ?_
    simp only [id]; ring
  · unfold sdrSST
    simp only
    set S := sigmaD * rho * (∑ i, dk i * dw i) / sdr with hSdef
    have hPw : 0 ≤ gamma * rho * limited ratio (gradProduct g * tvisc) (betaStar * rho * sdr * tke)
        / max tvisc tiny := by
      have : 0 < max tvisc tiny := lt_max_of_lt_right htiny
      positivity
    have hmx : 0 ≤ max (S / sdr) 0 * sdr := mul_nonneg (le_max_right _ _) hw.le
    nlinarith

/-- C72. k-epsilon: both diagonals are non-negative and point-implicit updates keep both variables non-negative. -/
theorem c72_keps {n : ℕ} {inc c1 c2 ratio tiny rho tke eps tvisc : ℝ} (hc1 : 0 ≤ c1) (hc2 : 0 ≤ c2)
    (hra : 0 ≤ ratio) (htiny : 0 < tiny) (hr : 0 ≤ rho) (hk : tiny ≤ tke) (he : 0 ≤ eps)
    (g : Fin n → Fin n → ℝ) :
    0 ≤ (tkeKeps ratio tiny rho tke eps (kepsPk inc rho tke tvisc g)).2 ∧
    0 ≤ (epsKeps c1 c2 ratio tiny rho tke eps (kepsPk inc rho tke tvisc g)).2 ∧
    (∀ m d, 0 ≤ m → 0 < m + (tkeKeps ratio tiny rho tke eps (kepsPk inc rho tke tvisc g)).2 →
      PointImplicit m (tkeKeps ratio tiny rho tke eps (kepsPk inc rho tke tvisc g)).2
        (tkeKeps ratio tiny rho tke eps (kepsPk inc rho tke tvisc g)).1 d → 0 ≤ tke + d) ∧
    (∀ m d, 0 ≤ m → 0 < m + (epsKeps c1 c2 ratio tiny rho tke eps (kepsPk inc rho tke tvisc g)).2 →
      PointImplicit m (epsKeps c1 c2 ratio tiny rho tke eps (kepsPk inc rho tke tvisc g)).2
        (epsKeps c1 c2 ratio tiny rho tke eps (kepsPk inc rho tke tvisc g)).1 d → 0 ≤ eps + d) := by
  have hk0 : 0 < tke := lt_of_lt_of_le htiny hk
  have hmax : max tiny tke = tke := max_eq_right hk
  have hP : 0 ≤ kepsPk inc rho tke tvisc g := le_max_left _ _
  have hD : 0 ≤ rho * eps := by positivity
  have hlim := limited_nonneg hra hP hD
  have a1 : 0 ≤ (tkeKeps ratio tiny rho tke eps (kepsPk inc rho tke tvisc g)).2 := by
    unfold tkeKeps; simp only; rw [hmax]; positivity
  have a2 : 0 ≤ (epsKeps c1 c2 ratio tiny rho tke eps (kepsPk inc rho tke tvisc g)).2 := by
    unfold epsKeps; simp only; rw [hmax]; positivity
  refine ⟨a1, a2, fun m d hm hml h => implicit_keeps hm a1 hml hk0.le ?_ h,
    fun m d hm hml h => implicit_keeps hm a2 hml he ?_ h⟩
  · unfold tkeKeps
    simp only
    rw [hmax, div_mul_cancel₀ _ hk0.ne']
    linarith
  · unfold epsKeps
    simp only
    rw [hmax]
    have : 0 ≤ eps / tke * (c1 * limited ratio (kepsPk inc rho tke tvisc g) (rho * eps)) := by positivity
    have e : c2 * rho * eps / tke * eps = eps / tke * (c2 * (rho * eps)) := by ring
    rw [e]
    linarith [mul_sub (eps / tke) (c1 * limited ratio (kepsPk inc rho tke tvisc g) (rho * eps))
      (c2 * (rho * eps))]

/-! ## C73: bounded scalars -/

/-- C73. After the update the scalar lies in `[-delta, 1+delta]`; it is the point of this interval closest to the
value the solver returned, and is that value when it was inside. -/
theorem c73_clip_is_projection {delta : ℝ} (h : 0 ≤ delta) (z dz : ℝ) :
    (-delta ≤ (clipUpdate delta z dz).1 ∧ (clipUpdate delta z dz).1 ≤ 1 + delta) ∧
    (-delta ≤ z + dz → z + dz ≤ 1 + delta → clipUpdate delta z dz = (z + dz, false, false)) ∧
    ∀ y, -delta ≤ y → y ≤ 1 + delta → |z + dz - (clipUpdate delta z dz).1| ≤ |z + dz - y| := by
  unfold clipUpdate
  simp only [zero_sub]
  split_ifs with h1 h2
  · refine ⟨⟨le_refl _, by simp only; linarith⟩, fun h3 _ => absurd h3 (not_le.2 h1), fun y hy _ => ?_⟩
    simp only
    rw [abs_of_neg (by linarith), abs_of_neg (by linarith)]; linarith
  · refine ⟨⟨by simp only; linarith, le_refl _⟩, fun _ h3 => absurd h3 (not_le.2 h2), fun y _ hy => ?_⟩
    simp only
    rw [abs_of_pos (by linarith), abs_of_pos (by linarith)]; linarith
  · push Not at h1 h2
    refine ⟨⟨h1, h2⟩, fun _ _ => rfl, fun y _ _ => ?_⟩
    simp only [sub_self, abs_zero]
    exact abs_nonneg _

example : clipUpdate 0 (1 / 2) 1 = (1, false, true) := by
  unfold clipUpdate; norm_num

/-! ## C75: clipping diagnostics -/

/-- The fold over one process. -/
private lemma clipLocal_fold (delta : ℝ) : ∀ (vs : List ℝ) (s : ClipStat),
    (vs.foldl (clipStep delta) s).low = s.low + (vs.filter (fun v => v < 0 - delta)).length ∧
    (vs.foldl (clipStep delta) s).high
      = s.high + (vs.filter (fun v => ¬ v < 0 - delta ∧ 1 + delta < v)).length ∧
    (vs.foldl (clipStep delta) s).minZ = (vs.filter (fun v => v < 0 - delta)).foldl (fun m v => min v m) s.minZ ∧
    (vs.foldl (clipStep delta) s).maxZ
      = (vs.filter (fun v => ¬ v < 0 - delta ∧ 1 + delta < v)).foldl (fun m v => max v m) s.maxZ := by
  intro vs
  induction vs with
  | nil => intro s; simp
  | cons v vs ih =>
    intro s
    rw [List.foldl_cons]
    obtain ⟨i1, i2, i3, i4⟩ := ih (clipStep delta s v)
    by_cases h1 : v < 0 - delta
    · have hs : clipStep delta s v = { s with low := s.low + 1, minZ := min v s.minZ } := by
        unfold clipStep; rw [if_pos h1]
      rw [hs] at i1 i2 i3 i4 ⊢
      have f1 : decide (v < 0 - delta) = true := decide_eq_true h1
      have f2 : decide (¬ v < 0 - delta ∧ 1 + delta < v) = false :=
        decide_eq_false (fun h => h.1 h1)
      simp only [List.filter_cons, f1, f2, if_true, if_false, Bool.false_eq_true]
      refine ⟨by rw [i1]; simp; ring, i2, by rw [i3]; rfl, i4⟩
    · have f1 : decide (v < 0 - delta) = false := decide_eq_false h1
      by_cases h2 : 1 + delta < v
      · have hs : clipStep delta s v = { s with high := s.high + 1, maxZ := max v s.maxZ } := by
          unfold clipStep; rw [if_neg h1, if_pos h2]
        rw [hs] at i1 i2 i3 i4 ⊢
        have f2 : decide (¬ v < 0 - delta ∧ 1 + delta < v) = true := by
          rw [decide_eq_true_iff]; exact ⟨h1, h2⟩
        simp only [List.filter_cons, f1, f2, if_true, if_false, Bool.false_eq_true]
        exact ⟨i1, by rw [i2]; simp; ring, i3, by rw [i4]; rfl⟩
      · have hs : clipStep delta s v = s := by
          unfold clipStep; rw [if_neg h1, if_neg h2]
        rw [hs] at i1 i2 i3 i4 ⊢
        have f2 : decide (¬ v < 0 - delta ∧ 1 + delta < v) = false := decide_eq_false (fun h => h2 h.2)
        simp only [List.filter_cons, f1, f2, if_true, if_false, Bool.false_eq_true]
        exact ⟨i1, i2, i3, i4⟩

private lemma foldl_min_spec : ∀ (l : List ℝ) (m : ℝ),
    (∀ v ∈ l, l.foldl (fun m v => min v m) m ≤ v) ∧ l.foldl (fun m v => min v m) m ≤ m ∧
    (l.foldl (fun m v => min v m) m = m ∨ l.foldl (fun m v => min v m) m ∈ l) := by
  intro l
  induction l with
  | nil => simp
  | cons a l ih =>
    intro m
    obtain ⟨i1, i2, i3⟩ := ih (min a m)
    rw [List.foldl_cons]
    refine ⟨?_, i2.trans (min_le_right _ _), ?_⟩
    · intro v hv
      rcases List.mem_cons.1 hv with rfl | hv
      · exact i2.trans (min_le_left _ _)
      · exact i1 v hv
    · rcases i3 with h | h
      · rcases min_choice a m with h2 | h2
        · right; rw [h, h2]; simp
        · left; rw [h, h2]
      · right; exact List.mem_cons_of_mem _ h

private lemma foldl_min_ranks (delta large : ℝ) : ∀ (ranks : List (List ℝ)) (m : ℝ),
    ((ranks.map (clipLocal delta large)).foldl (fun m s => min m s.minZ) m ≤ m) ∧
    (∀ r ∈ ranks, (ranks.map (clipLocal delta large)).foldl (fun m s => min m s.minZ) m
      ≤ (clipLocal delta large r).minZ) ∧
    ((ranks.map (clipLocal delta large)).foldl (fun m s => min m s.minZ) m = m ∨
      ∃ r ∈ ranks, (ranks.map (clipLocal delta large)).foldl (fun m s => min m s.minZ) m
        = (clipLocal delta large r).minZ) := by
  intro ranks
  induction ranks with
  | nil => simp
  | cons a l ih =>
    intro m
    rw [List.map_cons, List.foldl_cons]
    obtain ⟨i1, i2, i3⟩ := ih (min m (clipLocal delta large a).minZ)
    refine ⟨i1.trans (min_le_left _ _), ?_, ?_⟩
    · intro r hr
      rcases List.mem_cons.1 hr with rfl | hr
      · exact i1.trans (min_le_right _ _)
      · exact i2 r hr
    · rcases i3 with h | ⟨r, hr, h⟩
      · rcases min_choice m (clipLocal delta large a).minZ with h2 | h2
        · left; rw [h, h2]
        · right; exact ⟨a, by simp, by rw [h, h2]⟩
      · right; exact ⟨r, List.mem_cons_of_mem _ hr, h⟩

/-- C75 (partial: nodes shared between processes are counted on each of them). The counts reported are the
numbers of values below and above the bounds over all processes, and when some value was below, the reported
minimum is the least of the values the solver returned below the bound. -/
theorem c75_diagnostics_partial (delta large : ℝ) (ranks : List (List ℝ)) (hlg : -delta ≤ large) :
    (clipGlobal delta large ranks).low = (ranks.flatten.filter (fun v => v < 0 - delta)).length ∧
    (clipGlobal delta large ranks).high
      = (ranks.flatten.filter (fun v => ¬ v < 0 - delta ∧ 1 + delta < v)).length ∧
    (0 < (clipGlobal delta large ranks).low →
      (clipGlobal delta large ranks).minZ ∈ ranks.flatten ∧
      ∀ v ∈ ranks.flatten, v < 0 - delta → (clipGlobal delta large ranks).minZ ≤ v) := by
  have hlow : (clipGlobal delta large ranks).low
      = (ranks.flatten.filter (fun v => v < 0 - delta)).length := by
    unfold clipGlobal
    simp only [List.map_map]
    induction ranks with
    | nil => simp
    | cons r l ih =>
      rw [List.map_cons, List.sum_cons, ih, List.flatten_cons, List.filter_append, List.length_append]
      simp only [Function.comp, clipLocal, (clipLocal_fold delta r _).1, zero_add]
  have hhigh : (clipGlobal delta large ranks).high
      = (ranks.flatten.filter (fun v => ¬ v < 0 - delta ∧ 1 + delta < v)).length := by
    unfold clipGlobal
    simp only [List.map_map]
    clear hlow
    induction ranks with
    | nil => simp
    | cons r l ih =>
      rw [List.map_cons, List.sum_cons, ih, List.flatten_cons, List.filter_append, List.length_append]
      simp only [Function.comp, clipLocal, (clipLocal_fold delta r _).2.1, zero_add]
  refine ⟨hlow, hhigh, fun hpos => ?_⟩
  rw [hlow] at hpos
  obtain ⟨v0, hv0⟩ := List.exists_mem_of_length_pos hpos
  obtain ⟨hv0m, hv0l⟩ := List.mem_filter.1 hv0
  have hv0l : v0 < 0 - delta := by simpa using hv0l
  obtain ⟨f1, f2, f3⟩ := foldl_min_ranks delta large ranks large
  have hle : ∀ v ∈ ranks.flatten, v < 0 - delta → (clipGlobal delta large ranks).minZ ≤ v := by
    intro v hv hvl
    obtain ⟨r, hr, hvr⟩ := List.mem_flatten.1 hv
    refine (f2 r hr).trans ?_
    unfold clipLocal
    rw [(clipLocal_fold delta r _).2.2.1]
    exact (foldl_min_spec _ _).1 v (List.mem_filter.2 ⟨hvr, by simpa using hvl⟩)
  refine ⟨?_, hle⟩
  have hlt : (clipGlobal delta large ranks).minZ < large := by
    have := hle v0 hv0m hv0l
    linarith
  rcases f3 with h | ⟨r, hr, h⟩
  · exact absurd h (ne_of_lt hlt)
  · have hm : (clipGlobal delta large ranks).minZ = (clipLocal delta large r).minZ := h
    rw [hm]
    rw [hm] at hlt
    unfold clipLocal at hlt ⊢
    rw [(clipLocal_fold delta r _).2.2.1] at hlt ⊢
    rcases (foldl_min_spec (r.filter (fun v => v < 0 - delta)) large).2.2 with h2 | h2
    · exact absurd h2 (ne_of_lt hlt)
    · exact List.mem_flatten.2 ⟨r, hr, (List.mem_filter.1 h2).1⟩

/-- C75 fails for shared nodes: one clipped node shared by `n` processes is counted `n` times. -/
theorem c75_shared_node_counted_repeatedly (n : ℕ) :
    (clipGlobal 0 1 (List.replicate n [-1])).low = n := by
  rw [(c75_diagnostics_partial 0 1 _ (by norm_num)).1]
  induction n with
  | zero => simp
  | succ n ih =>
    rw [List.replicate_succ, List.flatten_cons, List.filter_append, List.length_append, ih]
    norm_num
    ring

/-! ## C74: mass fractions -/

/-- C74. After the clip the mass fractions add up to one and the transported ones lie in `[lo, 1+lo]`. -/
theorem c74_sum_is_one {n : ℕ} {lo : ℝ} (hlo : 0 ≤ lo) (y : Fin (n + 1) → ℝ) :
    ∑ i, massFractions lo y i = 1 ∧
    ∀ i : Fin n, lo ≤ massFractions lo y i.castSucc ∧ massFractions lo y i.castSucc ≤ 1 + lo := by
  have hc : ∀ i : Fin n, massFractions lo y i.castSucc = min (1 + lo) (max lo (y i.castSucc)) := by
    intro i; unfold massFractions; rw [if_pos (by simp)]
  have hl : massFractions lo y (Fin.last n) = 1 - ∑ j : Fin n, min (1 + lo) (max lo (y j.castSucc)) := by
    unfold massFractions; rw [if_neg (by simp)]
  constructor
  · rw [Fin.sum_univ_castSucc, hl]
    simp only [hc]
    ring
  · intro i
    rw [hc]
    exact ⟨le_min (by linarith) (le_max_left _ _), min_le_left _ _⟩

/-- C74 (partial: the last mass fraction is non-negative only under a condition). If the transported mass
fractions were within bounds and added up to at most one, they are kept and the last one lies in `[0,1]`. -/
theorem c74_last_partial {n : ℕ} {lo : ℝ} (hlo : 0 ≤ lo) (y : Fin (n + 1) → ℝ)
    (h0 : ∀ i : Fin n, lo ≤ y i.castSucc) (h1 : ∑ i : Fin n, y i.castSucc ≤ 1) :
    (∀ i : Fin n, massFractions lo y i.castSucc = y i.castSucc) ∧
    0 ≤ massFractions lo y (Fin.last n) ∧ massFractions lo y (Fin.last n) ≤ 1 := by
  have hle : ∀ i : Fin n, y i.castSucc ≤ 1 := by
    intro i
    refine le_trans ?_ h1
    exact Finset.single_le_sum (f := fun i : Fin n => y i.castSucc) (fun j _ => hlo.trans (h0 j))
      (Finset.mem_univ i)
  have hc : ∀ i : Fin n, min (1 + lo) (max lo (y i.castSucc)) = y i.castSucc := by
    intro i
    rw [max_eq_right (h0 i), min_eq_right (by linarith [hle i])]
  have hl : massFractions lo y (Fin.last n) = 1 - ∑ j : Fin n, y j.castSucc := by
    unfold massFractions; rw [if_neg (by simp)]; simp only [hc]
  refine ⟨fun i => ?_, by rw [hl]; linarith, ?_⟩
  · unfold massFractions; rw [if_pos (by simp), hc]
  · rw [hl]
    have : 0 ≤ ∑ j : Fin n, y j.castSucc := Finset.sum_nonneg fun j _ => hlo.trans (h0 j)
    linarith

/-- C74 fails in general: two transported mass fractions of 0.8 leave a last one of -0.6. -/
theorem c74_last_negative : massFractions 0 (![4 / 5, 4 / 5, 0] : Fin 3 → ℝ) (Fin.last 2) = -(3 / 5) := by
  unfold massFractions
  rw [if_neg (by simp)]
  simp [Fin.sum_univ_two]
  norm_num

/-- C74. Clipping again changes nothing. -/
theorem c74_idempotent {n : ℕ} {lo : ℝ} (hlo : 0 ≤ lo) (y : Fin (n + 1) → ℝ) :
    massFractions lo (massFractions lo y) = massFractions lo y := by
  have hb := (c74_sum_is_one hlo y).2
  have hc : ∀ i : Fin n, min (1 + lo) (max lo (massFractions lo y i.castSucc)) = massFractions lo y i.castSucc := by
    intro i; rw [max_eq_right (hb i).1, min_eq_right (hb i).2]
  have hc' : ∀ i : Fin n, massFractions lo y i.castSucc = min (1 + lo) (max lo (y i.castSucc)) := by
    intro i; unfold massFractions; rw [if_pos (by simp)]
  funext i
  refine Fin.lastCases ?_ (fun i => ?_) i
  · show (if (Fin.last n).val < n then _ else _) = _
    rw [if_neg (by simp)]
    simp only [hc]
    conv_rhs => unfold massFractions
    rw [if_neg (by simp)]
    simp only [hc']
  · conv_lhs => unfold massFractions
    rw [if_pos (by simp)]
    exact hc i

end Nalu.Turb
