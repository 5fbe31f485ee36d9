import Verif.Model.TurbPost
import Mathlib.LinearAlgebra.Matrix.ToLinearEquiv
import Mathlib.LinearAlgebra.Matrix.Determinant.Basic
import Mathlib.Analysis.Complex.Polynomial.Basic
import Mathlib.LinearAlgebra.Eigenspace.Triangularizable
import Mathlib.Tactic.FieldSimp
import Mathlib.Tactic.LinearCombination
import Mathlib.Tactic.NormNum
import Mathlib.Tactic.Linarith
import Mathlib.Tactic.FinCases
import Mathlib.Data.Fin.VecNotation

/-!
# C282: swirling strength
-/

namespace Nalu.TurbPost

/-- Specification: the complex eigenvalues of a real square matrix. -/
def eigenvalues {n : ℕ} (a : Fin n → Fin n → ℝ) : Set ℂ :=
  {l | ∃ v : Fin n → ℂ, v ≠ 0 ∧ ∀ i, ∑ j, (a i j : ℂ) * v j = l * v i}

theorem mem_eigenvalues_iff {n : ℕ} (a : Fin n → Fin n → ℝ) (l : ℂ) :
    l ∈ eigenvalues a ↔ (Matrix.of fun i j => (a i j : ℂ) - if i = j then l else 0).det = 0 := by
  rw [← Matrix.exists_mulVec_eq_zero_iff]
  unfold eigenvalues
  constructor
  · rintro ⟨v, hv, h⟩
    refine ⟨v, hv, ?_⟩
    ext i
    simp only [Matrix.mulVec, dotProduct, Matrix.of_apply, sub_mul, Finset.sum_sub_distrib, ite_mul,
      zero_mul, Finset.sum_ite_eq, Finset.mem_univ, if_true, Pi.zero_apply]
    rw [h i, sub_self]
  · rintro ⟨v, hv, h⟩
    refine ⟨v, hv, fun i => ?_⟩
    have := congrFun h i
    simp only [Matrix.mulVec, dotProduct, Matrix.of_apply, sub_mul, Finset.sum_sub_distrib, ite_mul,
      zero_mul, Finset.sum_ite_eq, Finset.mem_univ, if_true, Pi.zero_apply] at this
    exact sub_eq_zero.1 this

theorem csqrt_sq (z : ℂ) : csqrt z ^ 2 = z := by
  unfold csqrt
  rw [← Complex.cpow_nat_mul]
  norm_num

theorem cbrt_cube (z : ℂ) : (z ^ (1 / 3 : ℂ)) ^ 3 = z := by
  rw [← Complex.cpow_nat_mul]
  norm_num

theorem mem2 (a : Fin 2 → Fin 2 → ℝ) (l : ℂ) :
    l ∈ eigenvalues a ↔ l ^ 2 - ((a 0 0 + a 1 1 : ℝ) : ℂ) * l + ((a 0 0 * a 1 1 - a 0 1 * a 1 0 : ℝ) : ℂ) = 0 := by
  rw [mem_eigenvalues_iff, Matrix.det_fin_two]
  simp only [Matrix.of_apply, if_true]
  norm_num
  constructor <;> intro h <;> linear_combination h

theorem mem3 (a : Fin 3 → Fin 3 → ℝ) (l : ℂ) :
    l ∈ eigenvalues a ↔ l ^ 3 + ((cubic a).1 : ℂ) * l ^ 2 + ((cubic a).2.1 : ℂ) * l + ((cubic a).2.2 : ℂ) = 0 := by
  rw [mem_eigenvalues_iff, Matrix.det_fin_three]
  have h02 : ¬ (0 : Fin 3) = 2 := by decide
  have h12 : ¬ (1 : Fin 3) = 2 := by decide
  have h20 : ¬ (2 : Fin 3) = 0 := by decide
  have h21 : ¬ (2 : Fin 3) = 1 := by decide
  have h01 : ¬ (0 : Fin 3) = 1 := by decide
  have h10 : ¬ (1 : Fin 3) = 0 := by decide
  simp only [Matrix.of_apply, if_true, cubic, h01, h02, h10, h12, h20, h21, if_false, sub_zero]
  push_cast
  constructor <;> intro h <;> linear_combination -h

/-- A real cubic with a nonreal root has negative discriminant. -/
theorem disc3_neg (B C D : ℝ) (z : ℂ) (hz : z ^ 3 + (B : ℂ) * z ^ 2 + (C : ℂ) * z + (D : ℂ) = 0)
    (hy : z.im ≠ 0) : disc3 B C D < 0 := by
  obtain ⟨x, y⟩ := z
  simp only at hy
  have hre := congrArg Complex.re hz
  have him := congrArg Complex.im hz
  simp [pow_succ] at hre him
  have hC : C = -(3 * x ^ 2 - y ^ 2 + 2 * B * x) := by
    have : y * (3 * x ^ 2 - y ^ 2 + 2 * B * x + C) = 0 := by linear_combination him
    have := (mul_eq_zero.1 this).resolve_left hy
    linarith
  subst hC
  have hD : D = -(x ^ 3 - 3 * x * y ^ 2 + B * (x ^ 2 - y ^ 2) - (3 * x ^ 2 - y ^ 2 + 2 * B * x) * x) := by
    linear_combination hre
  subst hD
  have key : disc3 B (-(3 * x ^ 2 - y ^ 2 + 2 * B * x))
      (-(x ^ 3 - 3 * x * y ^ 2 + B * (x ^ 2 - y ^ 2) - (3 * x ^ 2 - y ^ 2 + 2 * B * x) * x))
      = -(4 * y ^ 2 * ((3 * x + B) ^ 2 + y ^ 2) ^ 2) := by
    unfold disc3; ring
  rw [key]
  have : 0 < 4 * y ^ 2 * ((3 * x + B) ^ 2 + y ^ 2) ^ 2 := by positivity
  linarith

theorem exists_eigenvalue3 (a : Fin 3 → Fin 3 → ℝ) : ∃ l, l ∈ eigenvalues a := by
  classical
  obtain ⟨l, hl⟩ := Module.End.exists_eigenvalue (Matrix.toLin' (Matrix.of fun i j => (a i j : ℂ)))
  obtain ⟨v, hv⟩ := hl.exists_hasEigenvector
  refine ⟨l, v, hv.2, fun i => ?_⟩
  have := congrFun hv.apply_eq_smul i
  simpa [Matrix.toLin'_apply, Matrix.mulVec, dotProduct] using this

/-- The exact values computed at 1458-1466. -/
theorem cubeRoot_spec (B C D : ℝ) :
    ∃ q : ℂ, q ^ 2 = ((B : ℂ) * B * B * 2 - B * C * 9 + D * 27) ^ 2 - 4 * ((B : ℂ) * B - C * 3) ^ 3 ∧
      cubeRoot B C D ^ 3 = 1 / 2 * (q + 2 * B * B * B - 9 * B * C + 27 * D) := by
  unfold cubeRoot
  split_ifs with h
  · exact ⟨-csqrt _, by rw [neg_sq, csqrt_sq], cbrt_cube _⟩
  · exact ⟨csqrt _, csqrt_sq _, cbrt_cube _⟩

theorem s3_sq : ((Real.sqrt 3 : ℝ) : ℂ) ^ 2 = 3 := by
  rw [← Complex.ofReal_pow, Real.sq_sqrt (by norm_num)]; norm_num

/-- Factorisation of the cubic by the three values of lines 1464-1468. -/
theorem cubic_factor (B C D : ℝ) (hCC : cubeRoot B C D ≠ 0) (z : ℂ) :
    z ^ 3 + (B : ℂ) * z ^ 2 + (C : ℂ) * z + (D : ℂ) =
      (z - (-(B : ℂ) / 3 - cubeRoot B C D / 3 - ((B : ℂ) * B - 3 * C) / (3 * cubeRoot B C D)))
      * (z - (-(B : ℂ) / 3 + cubeRoot B C D * (1 + -Complex.I * (Real.sqrt 3 : ℝ)) / 6
          + (1 - -Complex.I * (Real.sqrt 3 : ℝ)) * ((B : ℂ) * B - 3 * C) / (6 * cubeRoot B C D)))
      * (z - (-(B : ℂ) / 3 + cubeRoot B C D * (1 - -Complex.I * (Real.sqrt 3 : ℝ)) / 6
          + (1 + -Complex.I * (Real.sqrt 3 : ℝ)) * ((B : ℂ) * B - 3 * C) / (6 * cubeRoot B C D))) := by
  obtain ⟨q, hq, hc⟩ := cubeRoot_spec B C D
  generalize cubeRoot B C D = c at *
  obtain ⟨m, hm⟩ : ∃ m : ℂ, m = ((B : ℂ) * B - 3 * C) / c := ⟨_, rfl⟩
  have hcm : c * m = (B : ℂ) * B - 3 * C := by rw [hm]; field_simp
  have e1 : ((B : ℂ) * B - 3 * C) / (3 * c) = m / 3 := by rw [hm]; field_simp
  have e2 : ∀ t : ℂ, t * ((B : ℂ) * B - 3 * C) / (6 * c) = t * m / 6 := by
    intro t; rw [hm]; field_simp
  rw [e1, e2, e2]
  have hs := s3_sq
  generalize ((Real.sqrt 3 : ℝ) : ℂ) = s at *
  have hI : Complex.I ^ 2 = -1 := Complex.I_sq
  -- m^3 from the other sign of q
  have hq' : c ^ 3 * (c * m) ^ 3 = c ^ 3 * (c ^ 3 * m ^ 3) := by ring
  have hc3 : c ^ 3 ≠ 0 := pow_ne_zero 3 hCC
  have hm3 : m ^ 3 = 1 / 2 * (-q + 2 * B * B * B - 9 * B * C + 27 * D) := by
    apply mul_left_cancel₀ hc3
    rw [← mul_pow, hcm, hc]
    linear_combination (1 / 4 : ℂ) * hq
  obtain ⟨w, hw⟩ : ∃ w : ℂ, w = Complex.I * s := ⟨_, rfl⟩
  have hw2 : w ^ 2 = -3 := by rw [hw, mul_pow, hI, hs]; norm_num
  have r1 : -Complex.I * s = -w := by rw [hw]; ring
  rw [r1]
  have hC : (C : ℂ) = ((B : ℂ) * B - c * m) / 3 := by linear_combination (1 / 3 : ℂ) * hcm
  have hD : (D : ℂ) = (c ^ 3 + m ^ 3 - 2 * B * B * B + 9 * B * C) / 27 := by
    linear_combination (-1 / 27 : ℂ) * hc - (1 / 27 : ℂ) * hm3
  rw [hD, hC]
  linear_combination (z + B / 3 + c / 3 + m / 3) * (c - m) ^ 2 / 36 * hw2


theorem greatest3 (S : Set ℂ) (e1 e2 e3 : ℂ)
    (h : ∀ l, l ∈ S ↔ (l - e1) * (l - e2) * (l - e3) = 0) :
    IsGreatest (Complex.im '' S) (max (max e1.im e2.im) e3.im) := by
  have m1 : e1 ∈ S := (h _).2 (by ring)
  have m2 : e2 ∈ S := (h _).2 (by ring)
  have m3 : e3 ∈ S := (h _).2 (by ring)
  constructor
  · rcases max_choice (max e1.im e2.im) e3.im with hh | hh <;> rw [hh]
    · rcases max_choice e1.im e2.im with hk | hk <;> rw [hk]
      exacts [⟨_, m1, rfl⟩, ⟨_, m2, rfl⟩]
    · exact ⟨_, m3, rfl⟩
  · rintro y ⟨l, hl, rfl⟩
    have := (h l).1 hl
    rcases mul_eq_zero.1 this with h1 | h1
    · rcases mul_eq_zero.1 h1 with h2 | h2
      · rw [sub_eq_zero.1 h2]; exact le_max_of_le_left (le_max_left _ _)
      · rw [sub_eq_zero.1 h2]; exact le_max_of_le_left (le_max_right _ _)
    · rw [sub_eq_zero.1 h1]; exact le_max_right _ _

theorem neg2 (t d : ℝ) (z : ℂ) (hz : z ^ 2 - (t : ℂ) * z + (d : ℂ) = 0) (hy : z.im ≠ 0) :
    -t * -t - 4 * 1 * d < 0 := by
  obtain ⟨x, y⟩ := z
  simp only at hy
  have hre := congrArg Complex.re hz
  have him := congrArg Complex.im hz
  simp [pow_succ] at hre him
  have hx : t = 2 * x := by
    have : y * (2 * x - t) = 0 := by linear_combination him
    have := (mul_eq_zero.1 this).resolve_left hy
    linarith
  subst hx
  have : 0 < y ^ 2 := by positivity
  nlinarith

/-- With negative discriminant the cube root can vanish only in the excluded case. -/
theorem cubeRoot_ne (B C D : ℝ) (hD : disc3 B C D < 0)
    (h : B * B - 3 * C ≠ 0 ∨ 2 * B ^ 3 - 9 * B * C + 27 * D ≤ 0) : cubeRoot B C D ≠ 0 := by
  intro h0
  obtain ⟨q, hq, hc⟩ := cubeRoot_spec B C D
  rw [h0] at hc
  have hq1 : q = -((B : ℂ) * B * B * 2 - B * C * 9 + D * 27) := by linear_combination -2 * hc
  rw [hq1] at hq
  have h4 : ((B : ℂ) * B - C * 3) ^ 3 = 0 := by linear_combination (1 / 4 : ℂ) * hq
  have h5 : (B : ℂ) * B - C * 3 = 0 := pow_eq_zero_iff (by norm_num) |>.1 h4
  have h6 : B * B - 3 * C = 0 := by
    have : ((B * B - 3 * C : ℝ) : ℂ) = 0 := by push_cast; linear_combination h5
    exact_mod_cast this
  have hle := h.resolve_left (fun k => k h6)
  set G := 2 * B ^ 3 - 9 * B * C + 27 * D with hG
  have hdisc : 27 * disc3 B C D = -(G ^ 2) := by
    have e : 27 * disc3 B C D = 4 * (B * B - 3 * C) ^ 3 - G ^ 2 := by rw [hG]; unfold disc3; ring
    rw [e, h6]; ring
  have hG0 : G ≠ 0 := by rintro k; rw [k] at hdisc; simp at hdisc; linarith
  have hGneg : G < 0 := lt_of_le_of_ne hle hG0
  unfold cubeRoot at h0
  simp only [if_pos h6] at h0
  rw [Complex.cpow_eq_zero_iff] at h0
  have h7 := h0.1
  have hcast : ((B : ℂ) * B * B * 2 - B * C * 9 + D * 27) = ((G : ℝ) : ℂ) := by rw [hG]; push_cast; ring
  rw [h5, hcast] at h7
  have hs : csqrt ((G : ℂ) ^ 2 - 4 * 0 ^ 3) = ((-G : ℝ) : ℂ) := by
    have : (G : ℂ) ^ 2 - 4 * 0 ^ 3 = (((-G) ^ 2 : ℝ) : ℂ) := by push_cast; ring
    rw [this]
    unfold csqrt
    have h12 : (1 / 2 : ℂ) = ((1 / 2 : ℝ) : ℂ) := by push_cast; rfl
    rw [h12, ← Complex.ofReal_cpow (sq_nonneg _), ← Real.sqrt_eq_rpow, Real.sqrt_sq (by linarith)]
  rw [hs] at h7
  have h8 : ((G : ℝ) : ℂ) = 0 := by
    rw [hG] at *
    push_cast at *
    linear_combination h7
  exact hG0 (by exact_mod_cast h8)

/-- The sign switch at lines 1458-1461 is unconditional: when `B² = 3C` and `2B³ − 9BC + 27D > 0` it makes
the cube root zero. -/
theorem cubeRoot_zero (B C D : ℝ) (h6 : B * B - 3 * C = 0) (hG : 0 < 2 * B ^ 3 - 9 * B * C + 27 * D) :
    cubeRoot B C D = 0 := by
  set G := 2 * B ^ 3 - 9 * B * C + 27 * D with hGd
  have h5 : (B : ℂ) * B - C * 3 = 0 := by
    have : ((B * B - 3 * C : ℝ) : ℂ) = 0 := by rw [h6]; simp
    push_cast at this; linear_combination this
  have hcast : ((B : ℂ) * B * B * 2 - B * C * 9 + D * 27) = ((G : ℝ) : ℂ) := by rw [hGd]; push_cast; ring
  unfold cubeRoot
  simp only [if_pos h6]
  rw [Complex.cpow_eq_zero_iff]
  refine ⟨?_, by norm_num⟩
  rw [h5, hcast]
  have hs : csqrt ((G : ℂ) ^ 2 - 4 * 0 ^ 3) = ((G : ℝ) : ℂ) := by
    have : (G : ℂ) ^ 2 - 4 * 0 ^ 3 = (((G) ^ 2 : ℝ) : ℂ) := by push_cast; ring
    rw [this]
    unfold csqrt
    have h12 : (1 / 2 : ℂ) = ((1 / 2 : ℝ) : ℂ) := by push_cast; rfl
    rw [h12, ← Complex.ofReal_cpow (sq_nonneg _), ← Real.sqrt_eq_rpow, Real.sqrt_sq hG.le]
  rw [hs]
  linear_combination (1/2 : ℂ) * hcast

/-- **C282** (two dimensions) The swirling strength written at a node is the largest imaginary part among
the complex eigenvalues of the velocity gradient (in particular zero exactly when both are real). -/
theorem c282_swirl_2d (a : Fin 2 → Fin 2 → ℝ) :
    IsGreatest (Complex.im '' eigenvalues a) (lambdaCi2 a) := by
  unfold lambdaCi2
  set t := a 0 0 + a 1 1 with ht
  set d := a 0 0 * a 1 1 - a 0 1 * a 1 0 with hd
  have fac : ∀ l : ℂ, l ∈ eigenvalues a ↔
      (l - (-((-t : ℝ) : ℂ) / 2 + csqrt (((-t : ℝ) : ℂ) * ((-t : ℝ) : ℂ) - 1 * (d : ℂ) * 4) / 2)) *
      (l - (-((-t : ℝ) : ℂ) / 2 - csqrt (((-t : ℝ) : ℂ) * ((-t : ℝ) : ℂ) - 1 * (d : ℂ) * 4) / 2)) = 0 := by
    intro l
    rw [mem2, ← ht, ← hd]
    have h := csqrt_sq (((-t : ℝ) : ℂ) * ((-t : ℝ) : ℂ) - 1 * (d : ℂ) * 4)
    push_cast at h ⊢
    generalize csqrt _ = s at *
    constructor <;> intro hh
    · linear_combination hh - (1 / 4 : ℂ) * h
    · linear_combination hh + (1 / 4 : ℂ) * h
  simp only
  split_ifs with hD
  · constructor
    · refine ⟨_, (fac _).2 (mul_eq_zero_of_left (sub_self _) _), ?_⟩
      by_contra hy
      exact absurd hD (not_le.2 (neg2 _ _ _ ((mem2 a _).1 ((fac _).2 (mul_eq_zero_of_left (sub_self _) _))) hy))
    · rintro y ⟨l, hl, rfl⟩
      by_contra hy
      exact absurd hD (not_le.2 (neg2 _ _ _ ((mem2 a _).1 hl) (by intro h0; rw [h0] at hy; exact hy le_rfl)))
  · have := greatest3 (eigenvalues a)
      (-((-t : ℝ) : ℂ) / 2 + csqrt (((-t : ℝ) : ℂ) * ((-t : ℝ) : ℂ) - 1 * (d : ℂ) * 4) / 2)
      (-((-t : ℝ) : ℂ) / 2 - csqrt (((-t : ℝ) : ℂ) * ((-t : ℝ) : ℂ) - 1 * (d : ℂ) * 4) / 2)
      (-((-t : ℝ) : ℂ) / 2 - csqrt (((-t : ℝ) : ℂ) * ((-t : ℝ) : ℂ) - 1 * (d : ℂ) * 4) / 2)
      (fun l => (fac l).trans (by rw [mul_eq_zero, mul_eq_zero, mul_eq_zero, or_assoc, or_self]))
    rwa [max_assoc, max_self] at this

/-- **C282** (three dimensions, partial) Whenever the code produces a number, it is the largest imaginary
part among the complex eigenvalues of the velocity gradient; and it always produces one when the
discriminant is nonnegative, or when the sum of principal minors differs from a third of the squared
trace, or when `2 tr³ − 9 tr·m + 27 det > 0` (`m` that sum of principal minors).  What is missing is the
remaining case, where the code divides zero by zero (`c282_swirl_3d_nan_wrong`). -/
theorem c282_swirl_3d_partial (a : Fin 3 → Fin 3 → ℝ) :
    (∀ r, lambdaCi3 a = some r → IsGreatest (Complex.im '' eigenvalues a) r) ∧
    ((cubic a).1 * (cubic a).1 - 3 * (cubic a).2.1 ≠ 0 ∨
      2 * (cubic a).1 ^ 3 - 9 * (cubic a).1 * (cubic a).2.1 + 27 * (cubic a).2.2 ≤ 0 →
      ∃ r, lambdaCi3 a = some r) := by
  constructor
  · intro r hr
    unfold lambdaCi3 at hr
    simp only at hr
    split_ifs at hr with hD hC
    · cases hr
      constructor
      · obtain ⟨l, hl⟩ := exists_eigenvalue3 a
        refine ⟨l, hl, ?_⟩
        by_contra hy
        exact absurd hD (not_le.2 (disc3_neg _ _ _ _ ((mem3 a _).1 hl) hy))
      · rintro y ⟨l, hl, rfl⟩
        by_contra hy
        exact absurd hD (not_le.2 (disc3_neg _ _ _ _ ((mem3 a _).1 hl) (by intro h0; rw [h0] at hy; exact hy le_rfl)))
    · cases hr
      exact greatest3 (eigenvalues a) _ _ _ fun l => by rw [mem3, cubic_factor _ _ _ hC]
  · intro h
    unfold lambdaCi3
    simp only
    split_ifs with hD hC
    · exact ⟨_, rfl⟩
    · exact absurd hC (cubeRoot_ne _ _ _ (not_le.1 hD) h)
    · exact ⟨_, rfl⟩


/-- **C282** (finding) The sign switch of the cube root's argument is unconditional, so for a
trace-free gradient with vanishing second invariant and negative determinant — here minus the cyclic
permutation, whose eigenvalues `e^{±iπ/3}` have imaginary part `±√3/2` — the code divides zero by zero and
writes NaN. -/
theorem c282_swirl_3d_nan_wrong :
    lambdaCi3 ![![0, -1, 0], ![0, 0, -1], ![-1, 0, 0]] = none ∧
    ∃ l ∈ eigenvalues ![![0, -1, 0], ![0, 0, -1], ![-1, 0, 0]], 0 < l.im := by
  have hc : cubic ![![0, -1, 0], ![0, 0, -1], ![-1, 0, 0]] = (0, 0, 1) := by
    unfold cubic; simp
  constructor
  · unfold lambdaCi3
    rw [hc]
    simp only
    rw [if_neg (by unfold disc3; norm_num), if_pos (cubeRoot_zero _ _ _ (by norm_num) (by norm_num))]
  · refine ⟨⟨1 / 2, Real.sqrt 3 / 2⟩, ?_, by positivity⟩
    rw [mem3, hc]
    have h3 : Real.sqrt 3 ^ 2 = 3 := Real.sq_sqrt (by norm_num)
    apply Complex.ext
    · simp [pow_succ]; nlinarith
    · simp [pow_succ]; linear_combination (-Real.sqrt 3 / 8) * h3

/-- A pure rotation in the plane, and the same with an axial stretch in space: the strength is the rate of
rotation. -/
theorem c282_example :
    lambdaCi2 ![![0, -2], ![2, 0]] = 2 ∧
    ∃ r, lambdaCi3 ![![1, -2, 0], ![2, 1, 0], ![0, 0, -2]] = some r ∧ 2 ≤ r := by
  constructor
  · refine (c282_swirl_2d _).unique ⟨⟨⟨0, 2⟩, ?_, rfl⟩, ?_⟩
    · rw [mem2]; apply Complex.ext <;> simp [pow_succ]
    · rintro y ⟨l, hl, rfl⟩
      rw [mem2] at hl
      have hre := congrArg Complex.re hl
      have him := congrArg Complex.im hl
      simp [pow_succ] at hre him
      nlinarith [sq_nonneg l.re]
  · have h := c282_swirl_3d_partial ![![1, -2, 0], ![2, 1, 0], ![0, 0, -2]]
    obtain ⟨r, hr⟩ := h.2 (Or.inl (by unfold cubic; simp; norm_num))
    refine ⟨r, hr, (h.1 r hr).2 ⟨⟨1, 2⟩, ?_, rfl⟩⟩
    rw [mem3]
    unfold cubic
    apply Complex.ext <;> simp [pow_succ] <;> norm_num

end Nalu.TurbPost
