import Verif.Model.UserField
import Mathlib.Analysis.SpecialFunctions.ExpDeriv
import Mathlib.MeasureTheory.Integral.IntervalIntegral.FundThmCalculus

set_option linter.unusedSectionVars false

/-!
# C258: further user functions
-/

namespace Nalu.UserField
open Verif.Pde MeasureTheory

/-! ## The error function -/

theorem gauss_cont : Continuous fun t : ℝ => Real.exp (-1 * t ^ 2) := by fun_prop

theorem gauss_ii (a b : ℝ) : IntervalIntegrable (fun t : ℝ => Real.exp (-1 * t ^ 2)) volume a b := gauss_cont.intervalIntegrable a b

theorem twoSqrt : 0 < 2 / Real.sqrt Real.pi := by positivity

theorem erf_zero : erf 0 = 0 := by simp [erf]

theorem erf_neg (x : ℝ) : erf (-x) = -erf x := by
  have := intervalIntegral.integral_comp_neg (f := fun t : ℝ => Real.exp (-1 * t ^ 2)) (a := 0) (b := x)
  simp only [neg_zero, even_two, Even.neg_pow] at this
  rw [erf, erf, intervalIntegral.integral_symm, ← this]
  ring

theorem erf_strictMono : StrictMono erf := by
  intro a b h
  have e : erf b - erf a = 2 / Real.sqrt Real.pi * ∫ t in a..b, Real.exp (-1 * t ^ 2) := by
    rw [erf, erf, ← mul_sub, intervalIntegral.integral_interval_sub_left (gauss_ii 0 b) (gauss_ii 0 a)]
  have hpos : 0 < ∫ t in a..b, Real.exp (-1 * t ^ 2) :=
    intervalIntegral.intervalIntegral_pos_of_pos (gauss_ii a b) (fun t => Real.exp_pos _) h
  have := mul_pos twoSqrt hpos
  linarith

theorem erf_le_one (x : ℝ) : erf x ≤ 1 := by
  have hint : Integrable (fun t : ℝ => Real.exp (-1 * t ^ 2)) := integrable_exp_neg_mul_sq one_pos
  rcases le_total x 0 with h | h
  · have := erf_strictMono.monotone h
    rw [erf_zero] at this; linarith
  · have h1 : ∫ t in (0 : ℝ)..x, Real.exp (-1 * t ^ 2) ≤ ∫ t in Set.Ioi (0 : ℝ), Real.exp (-1 * t ^ 2) := by
      rw [intervalIntegral.integral_of_le h]
      exact setIntegral_mono_set hint.integrableOn (Filter.Eventually.of_forall fun t => (Real.exp_pos _).le)
        (Filter.Eventually.of_forall fun t ht => ht.1)
    rw [integral_gaussian_Ioi 1, div_one] at h1
    have hs : 0 < Real.sqrt Real.pi := by positivity
    calc erf x ≤ 2 / Real.sqrt Real.pi * (Real.sqrt Real.pi / 2) := mul_le_mul_of_nonneg_left h1 twoSqrt.le
      _ = 1 := by field_simp

theorem erf_lt_one (x : ℝ) : erf x < 1 := lt_of_lt_of_le (erf_strictMono (lt_add_one x)) (erf_le_one _)

/-! ## C258 -/

/-- **C258** The mixture fraction of the layer is between zero and one everywhere. -/
theorem c258_height_bounds (c : Height) (x y : ℝ) : 0 < fixedHeight c x y ∧ fixedHeight c x y < 1 := by
  simp only [fixedHeight]
  generalize (if |c.amp| > 1 / 10000000 then y - c.amp * Real.sin (c.freq * x) else y - c.hY) / c.dY = a
  have h1 := erf_lt_one a
  have h2 := erf_lt_one (-a)
  rw [erf_neg] at h2
  constructor <;> linarith

/-- **C258** It is one half exactly on the surface (a sine wave of the given amplitude, flat at the given height when the amplitude is at most 1e-7),
and strictly increasing with height when the thickness is positive. -/
theorem c258_height_surface (c : Height) (hd : 0 < c.dY) (x y : ℝ) :
    (fixedHeight c x y = 1 / 2 ↔ y = if |c.amp| > 1 / 10000000 then c.amp * Real.sin (c.freq * x) else c.hY) ∧
    (∀ y', y < y' → fixedHeight c x y < fixedHeight c x y') := by
  refine ⟨?_, fun y' h => ?_⟩
  · have e : ∀ a, 1 / 2 * (erf a + 1) = 1 / 2 ↔ a = 0 := fun a => by
      rw [← erf_strictMono.injective.eq_iff (a := a), erf_zero]
      constructor <;> intro h <;> linarith
    simp only [fixedHeight, e, div_eq_zero_iff, hd.ne', or_false]
    split <;> exact sub_eq_zero
  · simp only [fixedHeight]
    have : ∀ a b, a < b → 1 / 2 * (erf a + 1) < 1 / 2 * (erf b + 1) := fun a b h => by
      have := erf_strictMono h; linarith
    apply this
    gcongr
    split <;> linarith

/-- **C258** With a wave amplitude above 1e-7 the height given as first parameter has no effect. -/
theorem c258_height_ignored (c : Height) (h : |c.amp| > 1 / 10000000) (hY x y : ℝ) : fixedHeight { c with hY := hY } x y = fixedHeight c x y := by
  simp only [fixedHeight, if_pos h]

/-- **C258** Parameters are taken in order, missing ones have the defaults 0, 0.1, 0, 0. -/
theorem c258_height_params (a b c d : ℝ) (l : List ℝ) :
    Height.ofParams [] = ⟨0, 1 / 10, 0, 0⟩ ∧ Height.ofParams [a] = ⟨a, 1 / 10, 0, 0⟩ ∧ Height.ofParams [a, b] = ⟨a, b, 0, 0⟩ ∧
    Height.ofParams [a, b, c] = ⟨a, b, c, 0⟩ ∧ Height.ofParams (a :: b :: c :: d :: l) = ⟨a, b, c, d⟩ := by
  refine ⟨?_, ?_, ?_, ?_, ?_⟩ <;> simp [Height.ofParams]

/-- **C258** The tornado velocity is defined exactly on the side `z / z1 ≥ 0`; there it is a pure swirl about the vertical axis (no radial velocity) with
an updraft that depends on height only and stands in the given swirl ratio to the swirl: updraft times radius squared is `2 h S` times the circulation
per radian. -/
theorem c258_tornado (c : Tornado) (hr : c.rNot ≠ 0) (x y z : ℝ) :
    (tornado c x y z = none ↔ z / c.z1 < 0) ∧
    ∀ u, tornado c x y z = some u → u 0 * x + u 1 * y = 0 ∧ u 2 * (x ^ 2 + y ^ 2) = 2 * c.hNot * c.swirl * (x * u 1 - y * u 0) ∧
      ∀ x' y', ∃ u', tornado c x' y' z = some u' ∧ u' 2 = u 2 := by
  simp only [tornado]
  by_cases h : z / c.z1 < 0
  · simp [h]
  · simp only [h, if_false, reduceCtorEq, true_and, Option.some.injEq]
    rintro u rfl
    refine ⟨?_, ?_, fun x' y' => ⟨_, rfl, rfl⟩⟩
    · simp only [Matrix.cons_val_zero, Matrix.cons_val_one]; ring
    · simp only [Matrix.cons_val_zero, Matrix.cons_val_one, Matrix.cons_val]
      field_simp
      ring

/-- **C258** The channel profile: magnitudes are bounded by the bulk velocity and a tenth of it; the streamwise velocity changes sign at height one, the
other components vanish where the sine does. -/
theorem c258_channel (um x y z : ℝ) (hu : 0 ≤ um) :
    |sinChannel um x y z 0| ≤ um ∧ |sinChannel um x y z 1| ≤ um / 10 ∧ |sinChannel um x y z 2| ≤ um / 10 ∧
    (∀ y', y ≤ 1 → 1 < y' → sinChannel um x y' z 0 = -sinChannel um x y z 0) := by
  have hb : ∀ s, um * |Real.sin s| ≤ um := fun s => by
    have := Real.abs_sin_le_one s
    nlinarith
  refine ⟨?_, ?_, ?_, fun y' h h' => ?_⟩
  · simp only [sinChannel, Matrix.cons_val_zero]
    rw [abs_mul, abs_mul, abs_of_nonneg hu]
    split <;> simp only [abs_one, abs_neg, mul_one] <;> exact hb x
  · simp only [sinChannel, Matrix.cons_val_one, Matrix.cons_val_zero]
    rw [abs_mul, abs_of_nonneg (by positivity)]
    have := hb y; linarith
  · simp only [sinChannel, Matrix.cons_val]
    rw [abs_mul, abs_of_nonneg (by positivity)]
    have := hb z; linarith
  · simp only [sinChannel, Matrix.cons_val_zero, if_pos h', if_neg (not_lt.2 h)]; ring

theorem workshop_pd (u v sg : ℝ) (p : Pt) :
    pd 0 (workshop u v sg) p = workshop u v sg p * (-(2 * (p 0 - p 3 * u)) / sg / sg) ∧
    pd 1 (workshop u v sg) p = workshop u v sg p * (-(2 * (p 1 - p 3 * v)) / sg / sg) ∧
    pd 3 (workshop u v sg) p = workshop u v sg p * ((2 * (p 0 - p 3 * u) * u + 2 * (p 1 - p 3 * v) * v) / sg / sg) := by
  have key : ∀ (a b : ℝ → ℝ) (a' b' s0 : ℝ), HasDerivAt a a' s0 → HasDerivAt b b' s0 →
      HasDerivAt (fun s => Real.exp (-(a s * a s + b s * b s) / sg / sg)) (Real.exp (-(a s0 * a s0 + b s0 * b s0) / sg / sg)
        * (-(2 * a s0 * a' + 2 * b s0 * b') / sg / sg)) s0 := fun a b a' b' s0 ha hb => by
    have := (((((ha.mul ha).add (hb.mul hb)).neg).div_const sg).div_const sg).exp
    refine this.congr_deriv ?_
    simp only [Pi.add_apply, Pi.mul_apply, Pi.neg_apply]
    ring
  refine ⟨?_, ?_, ?_⟩
  · have := key (fun s => s - p 3 * u) (fun _ => p 1 - p 3 * v) 1 0 (p 0) ((hasDerivAt_id _).sub_const _) (hasDerivAt_const _ _)
    simp only [pd, workshop, Function.update_self, ne_eq, Fin.reduceEq, not_false_eq_true, Function.update_of_ne]
    rw [this.deriv]; ring
  · have := key (fun _ => p 0 - p 3 * u) (fun s => s - p 3 * v) 0 1 (p 1) (hasDerivAt_const _ _) ((hasDerivAt_id _).sub_const _)
    simp only [pd, workshop, Function.update_self, ne_eq, Fin.reduceEq, not_false_eq_true, Function.update_of_ne]
    rw [this.deriv]; ring
  · have h1 : HasDerivAt (fun s => p 0 - s * u) (-u) (p 3) := by simpa using ((hasDerivAt_id (p 3)).mul_const u).const_sub (p 0)
    have h2 : HasDerivAt (fun s => p 1 - s * v) (-v) (p 3) := by simpa using ((hasDerivAt_id (p 3)).mul_const v).const_sub (p 1)
    have := key (fun s => p 0 - s * u) (fun s => p 1 - s * v) (-u) (-v) (p 3) h1 h2
    simp only [pd, workshop, Function.update_self, ne_eq, Fin.reduceEq, not_false_eq_true, Function.update_of_ne]
    rw [this.deriv]; ring

/-- **C258** The workshop mixture fraction is carried with the constant velocity: it satisfies the advection equation at every point and time, and stays in
`(0, 1]`. -/
theorem c258_workshop (u v sg : ℝ) (p : Pt) :
    pd 3 (workshop u v sg) p + u * pd 0 (workshop u v sg) p + v * pd 1 (workshop u v sg) p = 0 ∧
    0 < workshop u v sg p ∧ workshop u v sg p ≤ 1 := by
  obtain ⟨h0, h1, h3⟩ := workshop_pd u v sg p
  refine ⟨by rw [h0, h1, h3]; ring, Real.exp_pos _, ?_⟩
  simp only [workshop, Real.exp_le_one_iff]
  have e : ∀ A : ℝ, -A / sg / sg = -(A / sg ^ 2) := fun A => by
    rw [neg_div, neg_div, div_div, pow_two]
  rw [e, neg_nonpos]
  exact div_nonneg (add_nonneg (mul_self_nonneg _) (mul_self_nonneg _)) (sq_nonneg _)

variable {K : Type*}

theorem inner_fold (g : ℕ → K) (base n : ℕ) (fld : ℕ → K) (k : ℕ) :
    ((List.range n).foldl (fun fld i => fun k => if k = base + i then g i else fld k) fld) k
      = if base ≤ k ∧ k < base + n then g (k - base) else fld k := by
  induction n with
  | zero =>
    rw [if_neg (by omega)]; rfl
  | succ n ih =>
    rw [List.range_succ, List.foldl_append]
    simp only [List.foldl_cons, List.foldl_nil]
    by_cases h : k = base + n
    · rw [if_pos h, if_pos (by omega)]; congr 1; omega
    · rw [if_neg h, ih]
      by_cases h' : base ≤ k ∧ k < base + n
      · rw [if_pos h', if_pos (by omega)]
      · rw [if_neg h', if_neg (by omega)]

/-- **C258** The loop gives every point the values of the function at the coordinates found `stride` entries apart, and writes nothing else, when a point
has at least as many entries as the function has components. -/
theorem c258_points (ncomp stride fieldSize : ℕ) (hn : ncomp ≤ fieldSize) (f : (ℕ → K) → ℕ → K) (coords : ℕ → K) (numPoints : ℕ) (field : ℕ → K) :
    (∀ p i, p < numPoints → i < ncomp →
      evaluate ncomp stride fieldSize f coords numPoints field (p * fieldSize + i) = f (fun j => coords (p * stride + j)) i) ∧
    (∀ k, (∀ p i, p < numPoints → i < ncomp → k ≠ p * fieldSize + i) → evaluate ncomp stride fieldSize f coords numPoints field k = field k) := by
  induction numPoints with
  | zero => exact ⟨by omega, fun k _ => rfl⟩
  | succ m ih =>
    have step : ∀ k, evaluate ncomp stride fieldSize f coords (m + 1) field k = if m * fieldSize ≤ k ∧ k < m * fieldSize + ncomp then
        f (fun j => coords (m * stride + j)) (k - m * fieldSize) else evaluate ncomp stride fieldSize f coords m field k := fun k => by
      simp only [evaluate, List.range_succ, List.foldl_append, List.foldl_cons, List.foldl_nil]
      rw [inner_fold]
    refine ⟨fun p i hp hi => ?_, fun k hk => ?_⟩
    · rw [step]
      rcases Nat.lt_succ_iff_lt_or_eq.1 hp with h | h
      · have : (p + 1) * fieldSize ≤ m * fieldSize := Nat.mul_le_mul_right _ h
        rw [if_neg (by rw [Nat.add_mul] at this; omega)]
        exact ih.1 p i h hi
      · subst h
        rw [if_pos (by omega)]; congr 1; omega
    · rw [step, if_neg, ih.2 k fun p i hp hi => hk p i (by omega) hi]
      rintro ⟨h1, h2⟩
      exact hk m (k - m * fieldSize) (by omega) (by omega) (by omega)

/-! ## Witnesses -/

example : fixedHeight ⟨2, 1 / 10, 0, 0⟩ 5 2 = 1 / 2 := (c258_height_surface ⟨2, 1 / 10, 0, 0⟩ (by norm_num) 5 2).1.2 (by norm_num)
example : ∃ u, tornado Tornado.code 1 0 (25 / 1000) = some u ∧ u 1 = 3 / 4 := by
  refine ⟨_, by rw [tornado, if_neg (by norm_num [Tornado.code])], ?_⟩
  norm_num [Tornado.code]
example : workshop 1 0 (1 / 2) ![3, 0, 0, 3] = 1 := by simp [workshop]

end Nalu.UserField
