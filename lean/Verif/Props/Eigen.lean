import Verif.Model.Eigen
import Verif.Spec.Eigen
import Mathlib.Tactic.LinearCombination
import Mathlib.Tactic.FieldSimp
import Mathlib.Tactic.NormNum
import Mathlib.Tactic.Linarith
import Mathlib.Tactic.Positivity
import Mathlib.Tactic.FinCases

/-!
# C159, C160: symmetric eigen-decompositions
-/

namespace Nalu.Eigen

open Matrix Spec

/-! ## Two dimensions -/

/-- The discriminant under the square root is a sum of squares. -/
theorem disc_eq (a b d : ℝ) :
    (a + d) * (a + d) / 4 - (a * d - b * b) = ((a - d) / 2) ^ 2 + b ^ 2 := by ring

theorem mul2_eq (A B : M2) : mul2 A B = A * B := by
  ext i j; simp [mul2, Matrix.mul_apply, Fin.sum_univ_two]

theorem mul3_eq (A B : M3) : mul3 A B = A * B := by
  ext i j; simp [mul3, Matrix.mul_apply, Fin.sum_univ_three]

theorem reconstruct2_eq (D Q : M2) : reconstruct2 D Q = Q * D * Qᵀ := by
  simp only [reconstruct2, mul2_eq]
  rfl

theorem reconstruct3_eq (D Q : M3) : reconstruct3 D Q = Q * D * Qᵀ := by
  simp only [reconstruct3, mul3_eq]
  rfl

/-- Closed form of the result when the off-diagonal entry does not vanish. -/
theorem symDiag2_offdiag (A : M2) (hs : A 0 1 = A 1 0) (hb : A 1 0 ≠ 0) :
    ∃ s n : ℝ, s * s = ((A 0 0 - A 1 1) / 2) ^ 2 + (A 1 0) ^ 2 ∧ 0 < s ∧ 0 < n ∧
      n * n = (A 1 0) ^ 2 + ((A 0 0 - A 1 1) / 2 - s) ^ 2 ∧
      (symDiag2 A).D = !![(A 0 0 + A 1 1) / 2 + s, 0; 0, (A 0 0 + A 1 1) / 2 - s] ∧
      (symDiag2 A).Q = !![-(A 1 0) / n, ((A 0 0 - A 1 1) / 2 - s) / n;
                          ((A 0 0 - A 1 1) / 2 - s) / n, A 1 0 / n] := by
  have hpos : 0 < ((A 0 0 - A 1 1) / 2) ^ 2 + (A 1 0) ^ 2 := by positivity
  have hdisc := disc_eq (A 0 0) (A 1 0) (A 1 1)
  refine ⟨Real.sqrt (((A 0 0 - A 1 1) / 2) ^ 2 + (A 1 0) ^ 2),
    Real.sqrt ((A 1 0) ^ 2 + ((A 0 0 - A 1 1) / 2 -
      Real.sqrt (((A 0 0 - A 1 1) / 2) ^ 2 + (A 1 0) ^ 2)) ^ 2),
    Real.mul_self_sqrt hpos.le, Real.sqrt_pos.mpr hpos, Real.sqrt_pos.mpr (by positivity),
    Real.mul_self_sqrt (by positivity), ?_, ?_⟩
  · simp only [symDiag2, hs, if_neg hb, hdisc]
  · simp only [symDiag2, hs, if_neg hb, hdisc]
    generalize Real.sqrt (((A 0 0 - A 1 1) / 2) ^ 2 + (A 1 0) ^ 2) = s
    have e1 : A 0 0 - ((A 0 0 + A 1 1) / 2 + s) = (A 0 0 - A 1 1) / 2 - s := by ring
    have e2 : -A 1 1 + ((A 0 0 + A 1 1) / 2 - s) = (A 0 0 - A 1 1) / 2 - s := by ring
    rw [e1, e2]
    generalize (A 0 0 - A 1 1) / 2 - s = e
    have n1 : -A 1 0 * -A 1 0 + e * e = (A 1 0) ^ 2 + e ^ 2 := by ring
    have n2 : e * e + A 1 0 * A 1 0 = (A 1 0) ^ 2 + e ^ 2 := by ring
    rw [n1, n2]

/-- The algebra behind the 2x2 decomposition: mean `m`, half difference `h`, off-diagonal `b`. -/
theorem core2 (m h b s n : ℝ) (hss : s * s = h ^ 2 + b ^ 2) (hn0 : n ≠ 0)
    (hn : n * n = b ^ 2 + (h - s) ^ 2) :
    Similar !![m + h, b; b, m - h] !![-b / n, (h - s) / n; (h - s) / n, b / n]
      !![m + s, 0; 0, m - s] := by
  obtain ⟨p, hp⟩ : ∃ p, b = p * n := ⟨b / n, by field_simp⟩
  obtain ⟨r, hr⟩ : ∃ r, h - s = r * n := ⟨(h - s) / n, by field_simp⟩
  have hpr : p * p + r * r = 1 := by
    have : n * n * (p * p + r * r) = n * n * 1 := by rw [hp, hr] at hn; linarith
    exact mul_left_cancel₀ (mul_ne_zero hn0 hn0) this
  have e1 : -b / n = -p := by rw [hp]; field_simp
  have e2 : (h - s) / n = r := by rw [hr]; field_simp
  have e3 : b / n = p := by rw [hp]; field_simp
  have hh : h = s * (p * p - r * r) := by
    have : n * n * h = n * n * (s * (p * p - r * r)) := by
      have : n * n * (s * (p * p - r * r)) = s * (b ^ 2 - (h - s) ^ 2) := by rw [hr, hp]; ring
      rw [this]; linear_combination h * hn - (h - s) * hss
    exact mul_left_cancel₀ (mul_ne_zero hn0 hn0) this
  have hb : b = -2 * s * p * r := by
    have : n * n * b = n * n * (-2 * s * p * r) := by
      have : n * n * (-2 * s * p * r) = -2 * s * b * (h - s) := by rw [hr, hp]; ring
      rw [this]; linear_combination b * hn - b * hss
    exact mul_left_cancel₀ (mul_ne_zero hn0 hn0) this
  rw [e1, e2, e3]
  refine ⟨?_, ?_, ?_⟩
  · ext i j
    fin_cases i <;> fin_cases j <;>
      simp [Matrix.mul_apply, Fin.sum_univ_two] <;> linarith
  · ext i j
    fin_cases i <;> fin_cases j <;>
      simp [Matrix.mul_apply, Fin.sum_univ_two] <;> linarith
  · ext i j
    fin_cases i <;> fin_cases j <;>
      simp only [Matrix.mul_apply, Fin.sum_univ_two, Fin.zero_eta, Fin.mk_one, Matrix.of_apply,
        Matrix.cons_val', Matrix.cons_val_zero, Matrix.cons_val_one, Matrix.transpose_apply,
        Matrix.cons_val_fin_one]
    · linear_combination hh - m * hpr
    · linear_combination hb
    · linear_combination hb
    · linear_combination -hh - m * hpr

/-- A diagonal orthogonal similarity consists of unit eigenvectors. -/
theorem eigenPair_of {n : Type} [Fintype n] [DecidableEq n] {A Q D : Matrix n n ℝ}
    (h : Similar A Q D) (hd : D.IsDiag) (i : n) : EigenPair A Q D i := by
  obtain ⟨h1, _, h3⟩ := h
  refine ⟨fun r => ?_, ?_⟩
  · have : A * Q = Q * D := by rw [h3, Matrix.mul_assoc, h1, Matrix.mul_one]
    have := congrFun (congrFun this r) i
    rw [Matrix.mul_apply, Matrix.mul_apply] at this
    rw [this, Finset.sum_eq_single i]
    · ring
    · intro k _ hk; rw [hd hk, mul_zero]
    · simp
  · have := congrFun (congrFun h1 i) i
    simpa [Matrix.mul_apply] using this

/-- **C159** For every symmetric 2x2 matrix the routine returns a diagonal `D` and an orthogonal
`Q` with `A = Q D Qᵀ`, the columns of `Q` are unit eigenvectors, and reconstructing from the
result gives back `A`. -/
theorem c159_decomposition (A : M2) (hs : A 0 1 = A 1 0) :
    (symDiag2 A).D.IsDiag ∧ Similar A (symDiag2 A).Q (symDiag2 A).D ∧
    (∀ i, EigenPair A (symDiag2 A).Q (symDiag2 A).D i) ∧
    reconstruct2 (symDiag2 A).D (symDiag2 A).Q = A := by
  have main : (symDiag2 A).D 0 1 = 0 ∧ (symDiag2 A).D 1 0 = 0 ∧
      Similar A (symDiag2 A).Q (symDiag2 A).D := by
    by_cases hb : A 1 0 = 0
    · have hQ : (symDiag2 A).Q = 1 := by
        ext i j; fin_cases i <;> fin_cases j <;> simp [symDiag2, hb]
      have hD : (symDiag2 A).D = A := by
        ext i j; fin_cases i <;> fin_cases j <;> simp [symDiag2, hb, hs]
      rw [hQ, hD]
      exact ⟨by rw [hs, hb], hb, by simp, by simp, by simp⟩
    · obtain ⟨s, n, hss, hs0, hn0, hn, hD, hQ⟩ := symDiag2_offdiag A hs hb
      have hA : A = !![(A 0 0 + A 1 1) / 2 + (A 0 0 - A 1 1) / 2, A 1 0;
                       A 1 0, (A 0 0 + A 1 1) / 2 - (A 0 0 - A 1 1) / 2] := by
        ext i j
        fin_cases i <;> fin_cases j <;> simp [hs] <;> ring
      refine ⟨by rw [hD]; simp, by rw [hD]; simp, ?_⟩
      rw [hD, hQ]
      have := core2 ((A 0 0 + A 1 1) / 2) _ _ s n hss hn0.ne' hn
      rwa [← hA] at this
  obtain ⟨h01, h10, hsim⟩ := main
  have hdiag : (symDiag2 A).D.IsDiag := by
    intro i j hij
    fin_cases i <;> fin_cases j <;> simp_all
  exact ⟨hdiag, hsim, fun i => eigenPair_of hsim hdiag i, by rw [reconstruct2_eq, ← hsim.2.2]⟩

/-- **C159** With a non-zero off-diagonal entry the eigenvalues come out in strictly decreasing
order; a diagonal matrix is returned as it is, with `Q` the identity. -/
theorem c159_order (A : M2) (hs : A 0 1 = A 1 0) :
    (A 1 0 ≠ 0 → (symDiag2 A).D 1 1 < (symDiag2 A).D 0 0) ∧
    (A 1 0 = 0 → (symDiag2 A).Q = 1 ∧ (symDiag2 A).D = A) := by
  constructor
  · intro hb
    obtain ⟨s, n, hss, hs0, hn0, hn, hD, hQ⟩ := symDiag2_offdiag A hs hb
    rw [hD]; simp; linarith
  · intro hb
    constructor <;> (ext i j; fin_cases i <;> fin_cases j <;> simp [symDiag2, hb, hs])

/-- **C159** `reconstruct_matrix_from_decomposition` followed by nothing else is the matrix product
`Q D Qᵀ` for arbitrary `D` and `Q` (in particular for perturbed eigenvalues). -/
theorem c159_reconstruct (D Q : M2) (D' Q' : M3) :
    reconstruct2 D Q = Q * D * Qᵀ ∧ reconstruct3 D' Q' = Q' * D' * Q'ᵀ :=
  ⟨reconstruct2_eq D Q, reconstruct3_eq D' Q'⟩

/-- A concrete case: `[[1,2],[2,-2]]` has eigenvalues 2 and -3. -/
example : (symDiag2 !![1, 2; 2, -2]).D = !![2, 0; 0, -3] := by
  have h : Real.sqrt (((1:ℝ) + -2) * (1 + -2) / 4 - (1 * -2 - 2 * 2)) = 5 / 2 := by
    rw [show ((1:ℝ) + -2) * (1 + -2) / 4 - (1 * -2 - 2 * 2) = (5 / 2) ^ 2 by norm_num]
    exact Real.sqrt_sq (by norm_num)
  simp only [symDiag2]
  ext i j
  fin_cases i <;> fin_cases j <;> simp at h ⊢ <;> rw [h] <;> norm_num

end Nalu.Eigen
