import Verif.Model.Peclet
import Mathlib.Tactic.Ring
import Mathlib.Tactic.Linarith
import Mathlib.Tactic.FieldSimp
import Mathlib.Tactic.NormNum
import Mathlib.Analysis.SpecialFunctions.Exp
import Mathlib.Topology.Algebra.Order.Field

/-! # C26: Peclet blending is a blending -/

namespace Nalu.Peclet

open Edge Filter

/-- **C26** The classic function has values in [0,1), is 0 (central) at zero Peclet number, is monotone
in the magnitude of the Peclet number, and reaches any value below 1 for large Peclet numbers. -/
theorem c26_classic {K : Type*} [Field K] [LinearOrder K] [IsStrictOrderedRing K] (hf : K) :
    (∀ pe, 0 ≤ classicPeclet hf pe ∧ classicPeclet hf pe < 1) ∧
    classicPeclet hf 0 = 0 ∧
    (∀ p q, |p| ≤ |q| → classicPeclet hf p ≤ classicPeclet hf q) ∧
    (∀ t, t < 1 → hf ≠ 0 → ∃ P, ∀ q, P ≤ |q| → t < classicPeclet hf q) := by
  have pos : ∀ pe : K, 0 < 5 + hf * pe * (hf * pe) := fun pe => by
    nlinarith [mul_self_nonneg (hf * pe)]
  refine ⟨fun pe => ⟨?_, ?_⟩, by simp [classicPeclet], fun p q h => ?_, fun t ht hhf => ?_⟩
  · exact div_nonneg (mul_self_nonneg _) (pos pe).le
  · simp only [classicPeclet]; rw [div_lt_one (pos pe)]; linarith
  · simp only [classicPeclet]
    rw [div_le_div_iff₀ (pos p) (pos q)]
    have h2 : p * p ≤ q * q := abs_le_iff_mul_self_le.1 h
    nlinarith [mul_le_mul_of_nonneg_left h2 (mul_self_nonneg hf)]
  · have hh : 0 < hf * hf := mul_self_pos.2 hhf
    have h1 : 0 < 1 - t := by linarith
    refine ⟨1 + 5 / ((1 - t) * (hf * hf)), fun q hq => ?_⟩
    simp only [classicPeclet]
    rw [lt_div_iff₀ (pos q)]
    have hd : 0 < (1 - t) * (hf * hf) := mul_pos h1 hh
    have hX : 0 < 5 / ((1 - t) * (hf * hf)) := by positivity
    have hq1 : 1 + 5 / ((1 - t) * (hf * hf)) ≤ |q| * |q| := by nlinarith
    rw [abs_mul_abs_self] at hq1
    have h5 : 5 / ((1 - t) * (hf * hf)) * ((1 - t) * (hf * hf)) = 5 := by field_simp
    have : 5 < q * q * ((1 - t) * (hf * hf)) := by nlinarith
    rcases le_or_gt t 0 with h | h
    · nlinarith [mul_self_nonneg (hf * q)]
    · nlinarith [mul_self_nonneg (hf * q)]

theorem tanhFunction_eq (c1 c2 x : ℝ) :
    tanhFunction c1 c2 x = 1 / (1 + Real.exp (-(2 * ((x - c1) / c2)))) := by
  rw [tanhFunction, Real.tanh_eq]
  set y := (x - c1) / c2
  have h1 : Real.exp (-(2 * y)) = Real.exp (-y) * Real.exp (-y) := by rw [← Real.exp_add]; ring_nf
  have h2 : Real.exp y * Real.exp (-y) = 1 := by rw [← Real.exp_add]; simp
  have p1 := Real.exp_pos y
  have p2 := Real.exp_pos (-y)
  rw [h1]
  have h3 : Real.exp y = 1 / Real.exp (-y) := by field_simp; linarith
  rw [h3]
  field_simp
  norm_num

/-- **C26** The tanh function has values in (0,1), is strictly increasing for a positive width, is 1/2
at the transition point, and tends to 0 and 1. -/
theorem c26_tanh (c1 c2 : ℝ) (hc : 0 < c2) :
    (∀ x, 0 < tanhFunction c1 c2 x ∧ tanhFunction c1 c2 x < 1) ∧
    StrictMono (tanhFunction c1 c2) ∧ tanhFunction c1 c2 c1 = 1 / 2 ∧
    Tendsto (tanhFunction c1 c2) atTop (nhds 1) ∧ Tendsto (tanhFunction c1 c2) atBot (nhds 0) := by
  have e := tanhFunction_eq c1 c2
  refine ⟨fun x => ⟨?_, ?_⟩, fun x y hxy => ?_, ?_, ?_, ?_⟩
  · rw [e]; have := Real.exp_pos (-(2 * ((x - c1) / c2))); positivity
  · rw [e, div_lt_one (by have := Real.exp_pos (-(2 * ((x - c1) / c2))); positivity)]
    have := Real.exp_pos (-(2 * ((x - c1) / c2))); linarith
  · rw [e, e]
    have h : (x - c1) / c2 < (y - c1) / c2 := div_lt_div_of_pos_right (by linarith) hc
    have := Real.exp_pos (-(2 * ((y - c1) / c2)))
    have := Real.exp_lt_exp.2 (by linarith : -(2 * ((y - c1) / c2)) < -(2 * ((x - c1) / c2)))
    exact one_div_lt_one_div_of_lt (by linarith) (by linarith)
  · rw [e]; simp; norm_num
  · rw [funext e]
    have h1 : Tendsto (fun x : ℝ => 2 * ((x - c1) / c2)) atTop atTop :=
      (Tendsto.atTop_div_const hc (tendsto_atTop_add_const_right _ _ tendsto_id)).const_mul_atTop
        two_pos
    have h2 := (Real.tendsto_exp_atBot.comp (tendsto_neg_atTop_atBot.comp h1))
    have h3 := (tendsto_const_nhds (x := (1:ℝ))).div
      ((tendsto_const_nhds (x := (1:ℝ))).add h2) (by norm_num)
    simp only [add_zero, div_one] at h3
    exact h3
  · rw [funext e]
    have h1 : Tendsto (fun x : ℝ => 2 * ((x - c1) / c2)) atBot atBot := by
      have : Tendsto (fun x : ℝ => (x - c1) / c2) atBot atBot :=
        Tendsto.atBot_div_const hc (tendsto_atBot_add_const_right _ _ tendsto_id)
      exact this.const_mul_atBot two_pos
    have h2 := Real.tendsto_exp_atTop.comp (tendsto_neg_atBot_atTop.comp h1)
    have h3 := tendsto_inv_atTop_zero.comp (tendsto_atTop_add_const_left _ 1 h2)
    simpa [Function.comp_def, one_div] using h3

example : (1 : ℚ) / 6 = classicPeclet 1 1 := by decide +kernel

end Nalu.Peclet
