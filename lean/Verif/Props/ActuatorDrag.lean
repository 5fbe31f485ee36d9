import Verif.Model.Actuator
import Verif.Spec.Actuator
import Mathlib.Analysis.SpecialFunctions.Pow.Continuity
import Mathlib.Tactic.LinearCombination
import Mathlib.Tactic.FieldSimp
import Mathlib.Tactic.Linarith
import Mathlib.Tactic.Positivity

/-!
# C165: the drag of a point
-/

namespace Nalu.Actuator
open Nalu.Actuator.Spec

theorem cbrt_mul_self (x : ℝ) : cbrt x * cbrt x = |x| ^ (2 / 3 : ℝ) := by
  unfold cbrt
  rcases eq_or_ne x 0 with rfl | h
  · simp
  · have h1 : (SignType.sign x : ℝ) * (SignType.sign x : ℝ) = 1 := by
      rcases lt_or_gt_of_ne h with h' | h'
      · rw [sign_neg h']; norm_num
      · rw [sign_pos h']; norm_num
    have h2 : |x| ^ (1 / 3 : ℝ) * |x| ^ (1 / 3 : ℝ) = |x| ^ (2 / 3 : ℝ) := by
      rw [← Real.rpow_add (abs_pos.2 h)]; norm_num
    calc _ = ((SignType.sign x : ℝ) * (SignType.sign x : ℝ)) * (|x| ^ (1 / 3 : ℝ) * |x| ^ (1 / 3 : ℝ)) := by ring
      _ = _ := by rw [h1, h2, one_mul]

theorem friction_eq (re : ℝ) :
    friction re = if re < 1000 then 1 + |re| ^ (2 / 3 : ℝ) / 6 else 0.424 / 24 * re := by
  unfold friction
  simp only
  split
  · rw [cbrt_mul_self]
  · rfl

theorem pow_thousand : (1000 : ℝ) ^ (2 / 3 : ℝ) = 100 := by
  rw [show (1000 : ℝ) = 10 ^ (3 : ℝ) by norm_num, ← Real.rpow_mul (by norm_num)]
  norm_num

/-- C165: the friction factor is continuous, also where the two branches of the drag law meet. -/
theorem c165_continuous : Continuous friction := by
  have e : friction = fun re => if re < 1000 then 1 + |re| ^ (2 / 3 : ℝ) / 6 else 0.424 / 24 * re := by
    funext re; exact friction_eq re
  rw [e]
  refine Continuous.if ?_ ?_ ?_
  · intro a ha
    have : a = 1000 := by
      have := frontier_lt_subset_eq (continuous_id) (continuous_const (y := (1000 : ℝ))) ha
      exact this
    rw [this, abs_of_pos (by norm_num), pow_thousand]
    norm_num
  · exact continuous_const.add ((Real.continuous_rpow_const (by norm_num)).comp continuous_abs |>.div_const _)
  · exact continuous_const.mul continuous_id

/-- C165: never below the Stokes value, which is reached at rest. -/
theorem c165_stokes : friction 0 = 1 ∧ ∀ re, 0 ≤ re → 1 ≤ friction re := by
  constructor
  · rw [friction_eq]; norm_num
  · intro re h
    rw [friction_eq]
    split
    · have := Real.rpow_nonneg (abs_nonneg re) (2 / 3 : ℝ)
      linarith
    · rename_i h'
      push Not at h'
      nlinarith

/-- C165: the friction factor grows with the Reynolds number. -/
theorem c165_monotone {a b : ℝ} (ha : 0 ≤ a) (hab : a ≤ b) : friction a ≤ friction b := by
  have hb : 0 ≤ b := ha.trans hab
  rw [friction_eq, friction_eq, abs_of_nonneg ha, abs_of_nonneg hb]
  by_cases h1 : b < 1000
  · rw [if_pos (lt_of_le_of_lt hab h1), if_pos h1]
    have := Real.rpow_le_rpow ha hab (by norm_num : (0 : ℝ) ≤ 2 / 3)
    linarith
  · rw [if_neg h1]
    push Not at h1
    by_cases h2 : a < 1000
    · rw [if_pos h2]
      have := Real.rpow_le_rpow ha h2.le (by norm_num : (0 : ℝ) ≤ 2 / 3)
      rw [pow_thousand] at this
      nlinarith
    · rw [if_neg h2]; nlinarith

variable {n : ℕ}

theorem vRelMag_eq (vp vg : Fin n → ℝ) : vRelMag vp vg = len (fun j => vp j - vg j) := by
  unfold vRelMag len; simp only [pow_two]

theorem len_nonneg (v : Fin n → ℝ) : 0 ≤ len v := Real.sqrt_nonneg _

theorem len_eq_zero {v : Fin n → ℝ} (h : len v = 0) (j : Fin n) : v j = 0 := by
  unfold len at h
  rw [Real.sqrt_eq_zero (Finset.sum_nonneg fun i _ => sq_nonneg _),
    Finset.sum_eq_zero_iff_of_nonneg (fun i _ => sq_nonneg _)] at h
  exact pow_eq_zero_iff (two_ne_zero) |>.1 (h j (Finset.mem_univ _))

/-- C165: the force of a point on the gas is the textbook drag of a sphere moving through it, for every slip and both
branches of the law. -/
theorem c165_sphere_drag {r mu rho : ℝ} (hr : 0 < r) (hmu : 0 < mu) (hrho : 0 < rho) (vp vg : Fin n → ℝ)
    (j : Fin n) : (pointDrag r mu rho vp vg).1 j = sphereDrag r mu rho (fun j => vp j - vg j) j := by
  unfold pointDrag sphereDrag reynolds
  simp only [vRelMag_eq]
  set w : Fin n → ℝ := fun j => vp j - vg j with hw
  set L := len w with hL
  have hLn : 0 ≤ L := len_nonneg w
  rcases hLn.eq_or_lt with h0 | hpos
  · have : vp j - vg j = 0 := len_eq_zero (v := w) (by rw [← hL, ← h0]) j
    rw [this]; simp [hw, this]
  · have hre : 0 < 2 * rho * r * L / mu := by positivity
    rw [friction_eq, dragCoefficient, abs_of_pos hre]
    split
    · generalize (2 * rho * r * L / mu) ^ (2 / 3 : ℝ) = A
      field_simp
      ring
    · field_simp
      ring

/-- C165: in terms of the slip the force is a positive multiple of the velocity of the point relative to the gas, with
the same multiple in the matrix. -/
theorem c165_along_slip {r mu rho : ℝ} (hr : 0 < r) (hmu : 0 < mu) (hrho : 0 < rho) (vp vg : Fin n → ℝ) :
    ∃ k > 0, (∀ j, (pointDrag r mu rho vp vg).1 j = k * (vp j - vg j))
      ∧ ∀ j, (pointDrag r mu rho vp vg).2 j = k := by
  have hre : 0 ≤ reynolds r mu rho vp vg := by
    unfold reynolds; rw [vRelMag_eq]
    have := len_nonneg (fun j => vp j - vg j)
    positivity
  have := c165_stokes.2 _ hre
  refine ⟨6 * Real.pi * mu * r * friction (reynolds r mu rho vp vg), ?_, fun j => rfl, fun j => rfl⟩
  have := Real.pi_pos
  positivity

/-- C165: the line never adds energy to the gas in the frame of the point: the power of the force on the slip is negative
unless there is no slip. -/
theorem c165_dissipative {r mu rho : ℝ} (hr : 0 < r) (hmu : 0 < mu) (hrho : 0 < rho) (vp vg : Fin n → ℝ)
    (h : vp ≠ vg) : ∑ j, (pointDrag r mu rho vp vg).1 j * (vg j - vp j) < 0 := by
  obtain ⟨k, hk, hf, _⟩ := c165_along_slip hr hmu hrho vp vg
  have e : ∑ j, (pointDrag r mu rho vp vg).1 j * (vg j - vp j) = -(k * ∑ j, (vp j - vg j) ^ 2) := by
    rw [Finset.mul_sum, ← Finset.sum_neg_distrib]
    exact Finset.sum_congr rfl fun j _ => by rw [hf]; ring
  rw [e, neg_lt_zero]
  refine mul_pos hk ?_
  obtain ⟨j, hj⟩ := Function.ne_iff.1 h
  exact Finset.sum_pos' (fun _ _ => sq_nonneg _) ⟨j, Finset.mem_univ _, by
    have : vp j - vg j ≠ 0 := sub_ne_zero.2 hj
    positivity⟩

/-- C165: Stokes' law for slow motion: for every slip the force is at least Stokes' drag, and the ratio tends to
one as the slip vanishes (`c165_continuous`, `c165_stokes`). -/
theorem c165_at_least_stokes {r mu rho : ℝ} (hr : 0 < r) (hmu : 0 < mu) (hrho : 0 < rho) (vp vg : Fin n → ℝ)
    (j : Fin n) : |6 * Real.pi * mu * r * (vp j - vg j)| ≤ |(pointDrag r mu rho vp vg).1 j| := by
  have hre : 0 ≤ reynolds r mu rho vp vg := by
    unfold reynolds; rw [vRelMag_eq]
    have := len_nonneg (fun j => vp j - vg j)
    positivity
  have h1 := c165_stokes.2 _ hre
  simp only [pointDrag, abs_mul]
  have h2 : 1 ≤ |friction (reynolds r mu rho vp vg)| := by rw [abs_of_nonneg (by linarith)]; exact h1
  have h3 : 0 ≤ |(6 : ℝ)| * |Real.pi| * |mu| * |r| := by positivity
  have h4 := abs_nonneg (vp j - vg j)
  nlinarith [mul_nonneg h3 h4, mul_nonneg (mul_nonneg h3 h4) (sub_nonneg.2 h2)]

/-- C165: seen from a moving frame the force is the same. -/
theorem c165_galilean (r mu rho : ℝ) (vp vg c : Fin n → ℝ) :
    pointDrag r mu rho (fun j => vp j + c j) (fun j => vg j + c j) = pointDrag r mu rho vp vg := by
  simp only [pointDrag, reynolds, vRelMag, add_sub_add_right_eq_sub]

/-- A point at rest in a gas moving with speed 5 (Reynolds number 10000): drag along the flow, `0.424 · ½ρ|u|² πr²`. -/
example : (pointDrag (n := 3) 1 0.001 1 ![0, 0, 0] ![3, 4, 0]).1 0 = -(0.424 * (1 / 2 * 5 ^ 2) * Real.pi) * (3 / 5) := by
  have e : vRelMag (n := 3) ![0, 0, 0] ![3, 4, 0] = 5 := by
    simp only [vRelMag, Fin.sum_univ_three]
    rw [Real.sqrt_eq_iff_mul_self_eq (by simp; norm_num) (by norm_num)]
    simp; norm_num
  simp only [pointDrag, reynolds, e, friction_eq]
  norm_num
  ring

example : (pointDrag (n := 3) 1 0.001 1 ![0, 0, 0] ![3, 4, 0]).1 0 < 0 := by
  obtain ⟨k, hk, hf, _⟩ := c165_along_slip (r := 1) (mu := 0.001) (rho := 1) (by norm_num) (by norm_num) (by norm_num)
    (![0, 0, 0] : Fin 3 → ℝ) ![3, 4, 0]
  rw [hf]
  simp only [Matrix.cons_val_zero]
  linarith

end Nalu.Actuator
