import Verif.Props.Eigen3

/-!
# C161: eigenvalue perturbation of the Reynolds stress
-/

namespace Nalu.Eigen

open Matrix Spec

/-- **C161** The row map is a permutation that lists the eigenvalues from high to low. -/
theorem c161_sort (D : M3) :
    Function.Bijective (rowMap D) ∧
    D (rowMap D 1) (rowMap D 1) ≤ D (rowMap D 0) (rowMap D 0) ∧
    D (rowMap D 2) (rowMap D 2) ≤ D (rowMap D 1) (rowMap D 1) := by
  have key : ∃ f : Fin 3 → Fin 3, rowMap D = f ∧ (f = ![0,1,2] ∨ f = ![0,2,1] ∨ f = ![1,0,2] ∨
      f = ![1,2,0] ∨ f = ![2,1,0] ∨ f = ![2,0,1]) ∧ D (f 1) (f 1) ≤ D (f 0) (f 0) ∧
      D (f 2) (f 2) ≤ D (f 1) (f 1) := by
    have ext3 : ∀ f g : Fin 3 → Fin 3, f 0 = g 0 → f 1 = g 1 → f 2 = g 2 → f = g := by
      intro f g h0 h1 h2; funext i; fin_cases i <;> assumption
    rcases lt_or_ge (D 0 0) (D 1 1) with h01 | h01 <;>
    rcases lt_or_ge (D 0 0) (D 2 2) with h02 | h02 <;>
    rcases lt_or_ge (D 1 1) (D 2 2) with h12 | h12
    · refine ⟨![2,1,0], ext3 _ _ ?_ ?_ ?_, by simp, ?_, ?_⟩ <;>
        simp [rowMap, sortPass, selectMax, exchange, h01, h02, h12, not_lt.mpr h01.le, not_lt.mpr h02.le, not_lt.mpr h12.le, h01.le, h12.le]
    · refine ⟨![1,2,0], ext3 _ _ ?_ ?_ ?_, by simp, ?_, ?_⟩ <;>
        simp [rowMap, sortPass, selectMax, exchange, h01, h02, h12, not_lt.mpr h01.le, not_lt.mpr h02.le, not_lt.mpr h12, h02.le]
    · exact absurd (lt_of_lt_of_le (h01.trans h12) h02) (lt_irrefl _)
    · refine ⟨![1,0,2], ext3 _ _ ?_ ?_ ?_, by simp, ?_, ?_⟩ <;>
        simp [rowMap, sortPass, selectMax, exchange, h01, h02, h12, not_lt.mpr h01.le, not_lt.mpr h02, not_lt.mpr h12, h01.le]
    · rcases h01.lt_or_eq with h10 | h10
      · refine ⟨![2,0,1], ext3 _ _ ?_ ?_ ?_, by simp, ?_, ?_⟩ <;>
          simp [rowMap, sortPass, selectMax, exchange, h02, h12, h10, not_lt.mpr h10.le,
            not_lt.mpr h02.le, not_lt.mpr h12.le, h10.le, h02.le]
      · refine ⟨![2,1,0], ext3 _ _ ?_ ?_ ?_, by simp, ?_, ?_⟩ <;>
          simp [rowMap, sortPass, selectMax, exchange, h02, h10, not_lt.mpr h02.le, h02.le]
    · exact absurd (lt_of_lt_of_le h02 h12) (not_lt.mpr h01)
    · refine ⟨![0,2,1], ext3 _ _ ?_ ?_ ?_, by simp, ?_, ?_⟩ <;>
        simp [rowMap, sortPass, selectMax, exchange, h01, h02, h12, not_lt.mpr h01, not_lt.mpr h02, not_lt.mpr h12.le, h12.le]
    · refine ⟨![0,1,2], ext3 _ _ ?_ ?_ ?_, by simp, ?_, ?_⟩ <;>
        simp [rowMap, sortPass, selectMax, exchange, h01, h02, h12, not_lt.mpr h01, not_lt.mpr h02, not_lt.mpr h12]
  obtain ⟨f, hf, hcase, h1, h2⟩ := key
  rw [hf]
  refine ⟨?_, h1, h2⟩
  rcases hcase with rfl | rfl | rfl | rfl | rfl | rfl <;> decide

/-- **C161** `perturb` moves each eigenvalue, in sorted order, the fraction `delta` of the way to the
limiting state and touches nothing else. -/
theorem c161_perturb_entries (delta : ℝ) (X : Fin 3 → ℝ) (D : M3) :
    (∀ i, perturb delta X (rowMap D) D (rowMap D i) (rowMap D i) =
      (1 - delta) * D (rowMap D i) (rowMap D i) + delta * X i) ∧
    ∀ i j, i ≠ j → perturb delta X (rowMap D) D i j = D i j := by
  have hb := (c161_sort D).1.1
  generalize rowMap D = f at hb
  have n01 : f 0 ≠ f 1 := fun h => absurd (hb h) (by decide)
  have n02 : f 0 ≠ f 2 := fun h => absurd (hb h) (by decide)
  have n12 : f 1 ≠ f 2 := fun h => absurd (hb h) (by decide)
  refine ⟨fun i => ?_, fun i j hij => ?_⟩
  · fin_cases i <;> simp [perturb, setDiag, n01, n02, n12]
  · have h : ∀ r, ¬ (i = r ∧ j = r) := fun r h => hij (h.1.trans h.2.symm)
    simp [perturb, setDiag, h]

/-- The perturbation as a matrix identity. -/
theorem perturb_eq (delta : ℝ) (X : Fin 3 → ℝ) (D : M3) :
    ∃ g : Fin 3 → Fin 3, Function.Bijective g ∧ (∀ i, g (rowMap D i) = i) ∧
      ∀ i j, perturb delta X (rowMap D) D i j =
        (1 - delta) * D i j + delta * (if i = j then X (g i) else D i j) := by
  obtain ⟨h1, h2⟩ := c161_perturb_entries delta X D
  have hb := (c161_sort D).1
  obtain ⟨g, hg1, hg2⟩ := Function.bijective_iff_has_inverse.mp hb
  refine ⟨g, Function.bijective_iff_has_inverse.mpr ⟨_, hg2, hg1⟩, hg1, fun i j => ?_⟩
  by_cases hij : i = j
  · subst hij
    have := h1 (g i)
    rw [hg2 i] at this
    simp [this]
  · simp [hij, h2 i j hij]; ring

theorem target_sum (bias : ℤ) : target bias 0 + target bias 1 + target bias 2 = 0 := by
  unfold target; split_ifs <;> simp <;> norm_num

theorem target_ge (bias : ℤ) (i : Fin 3) : -1/3 ≤ target bias i := by
  unfold target; split_ifs <;> fin_cases i <;> simp <;> norm_num

theorem sum_bij (g : Fin 3 → Fin 3) (hg : Function.Bijective g) (X : Fin 3 → ℝ) :
    X (g 0) + X (g 1) + X (g 2) = X 0 + X 1 + X 2 := by
  have := Equiv.sum_comp (Equiv.ofBijective g hg) X
  simpa [Fin.sum_univ_three] using this

/-- **C161** Anisotropy stays trace free: the trace of the perturbed anisotropy is `1 - delta` times
the trace of the given one, for every delta, every limiting state and however far the
decomposition converged. -/
theorem c161_trace (delta : ℝ) (bias : ℤ) (b : M3) (hb : Sym b) (old : Out M3) :
    (perturbedAnisotropy delta bias b old).trace = (1 - delta) * b.trace := by
  obtain ⟨-, ⟨h1, h2, h3⟩, -, -⟩ := c160_similarity b hb old
  have htr := (c160_invariants b hb old).1
  simp only [perturbedAnisotropy, reconstruct3_eq]
  rw [Matrix.trace_mul_comm, ← Matrix.mul_assoc, h1, Matrix.one_mul, ← htr]
  obtain ⟨g, hg, -, hp⟩ := perturb_eq delta (target bias) (symDiag3 b old).D
  simp only [Matrix.trace, Matrix.diag, Fin.sum_univ_three, hp, if_true]
  have := sum_bij g hg (target bias)
  rw [target_sum] at this
  linear_combination delta * this

theorem anisotropy_sym (nu inc k : ℝ) (G : M3) : Sym (anisotropy nu inc k G) := by
  refine ⟨?_, ?_, ?_⟩ <;> simp [anisotropy] <;> ring

theorem anisotropy_trace (nu k : ℝ) (G : M3) : (anisotropy nu 1 k G).trace = 0 := by
  simp [anisotropy, Matrix.trace, Fin.sum_univ_three]
  ring

/-- **C161** The trace of the perturbed Reynolds stress is twice the (perturbed) turbulence kinetic
energy, if the divergence term is included or the velocity gradient is trace free. -/
theorem c161_kinetic_energy (delta : ℝ) (bias : ℤ) (pert nu inc k : ℝ) (G : M3) (old : Out M3)
    (h : inc = 1 ∨ G.trace = 0) :
    (reynoldsStress delta bias pert nu inc k G old).trace = 2 * turbKePert k pert := by
  have ht : (anisotropy nu inc k G).trace = 0 := by
    rcases h with rfl | h
    · exact anisotropy_trace nu k G
    · simp [Matrix.trace, Fin.sum_univ_three] at h
      simp [anisotropy, Matrix.trace, Fin.sum_univ_three, h]
      rw [← add_div, ← add_div]
      apply div_eq_zero_iff.mpr
      left
      linear_combination (-2 * nu) * h
  have := c161_trace delta bias _ (anisotropy_sym nu inc k G) old
  rw [ht, mul_zero] at this
  simp only [reynoldsStress, Matrix.trace, Matrix.diag, stressOf, Fin.sum_univ_three, Matrix.of_apply,
    if_true] at this ⊢
  linear_combination 2 * turbKePert k pert * this

theorem turbKePert_pos (k pert : ℝ) : 0 < turbKePert k pert :=
  lt_of_lt_of_le (by norm_num) (le_max_right _ _)

/-- Quadratic form of a conjugated matrix. -/
theorem quad_conj (Q M : M3) (v : Fin 3 → ℝ) :
    ∑ i, ∑ j, v i * (Q * M * Qᵀ) i j * v j =
      ∑ i, ∑ j, (∑ k, Q k i * v k) * M i j * (∑ k, Q k j * v k) := by
  simp only [Matrix.mul_apply, Matrix.transpose_apply, Fin.sum_univ_three]
  ring

theorem psd_conj {Q M : M3} (hM : Realizable M) : Realizable (Q * M * Qᵀ) := by
  refine ⟨fun i j => ?_, fun v => ?_⟩
  · have : (Q * M * Qᵀ)ᵀ = Q * M * Qᵀ := by
      have hMt : Mᵀ = M := by ext i j; exact hM.1 j i
      rw [Matrix.transpose_mul, Matrix.transpose_mul, Matrix.transpose_transpose, hMt,
        Matrix.mul_assoc]
    exact (congrFun (congrFun this j) i)
  · rw [quad_conj]; exact hM.2 _

/-- Shifted anisotropy: `b + 1/3`, half the Reynolds stress over the kinetic energy. -/
noncomputable def shifted (b : M3) : M3 := b + (1/3 : ℝ) • (1 : M3)

theorem stressOf_eq (b : M3) (k : ℝ) : stressOf b k = (2 * k) • shifted b := by
  ext i j
  by_cases h : i = j
  · subst h; simp [stressOf, shifted]; ring
  · simp [stressOf, shifted, h, Matrix.one_apply_ne h]; ring

theorem realizable_smul {M : M3} {c : ℝ} (hc : 0 ≤ c) (h : Realizable M) : Realizable (c • M) := by
  refine ⟨fun i j => by simp [h.1 i j], fun v => ?_⟩
  have : ∑ i, ∑ j, v i * (c • M) i j * v j = c * ∑ i, ∑ j, v i * M i j * v j := by
    simp only [Matrix.smul_apply, smul_eq_mul, Finset.mul_sum]
    refine Finset.sum_congr rfl fun i _ => Finset.sum_congr rfl fun j _ => by ring
  rw [this]; exact mul_nonneg hc (h.2 v)

theorem shifted_conj {Q D : M3} (h2 : Q * Qᵀ = 1) : shifted (Q * D * Qᵀ) = Q * shifted D * Qᵀ := by
  unfold shifted
  rw [Matrix.mul_add, Matrix.add_mul]
  congr 1
  rw [Matrix.mul_smul, Matrix.mul_one, Matrix.smul_mul, h2]

/-- Sum of the magnitudes of the off-diagonal entries left by the decomposition. -/
def residue (D : M3) : ℝ := |D 0 1| + |D 0 2| + |D 1 2|

theorem unitary_norm {Q : M3} (h : Q * Qᵀ = 1) (v : Fin 3 → ℝ) :
    ∑ i, (∑ k, Q k i * v k) * (∑ k, Q k i * v k) = ∑ k, v k * v k := by
  have e : ∀ a b, ∑ i, Q a i * Q b i = if a = b then 1 else 0 := by
    intro a b
    have := congrFun (congrFun h a) b
    rw [Matrix.mul_apply] at this
    simpa [Matrix.one_apply] using this
  have e00 := e 0 0; have e01 := e 0 1; have e02 := e 0 2
  have e11 := e 1 1; have e12 := e 1 2; have e22 := e 2 2
  simp [Fin.sum_univ_three] at e00 e01 e02 e11 e12 e22 ⊢
  linear_combination (v 0 * v 0) * e00 + (v 1 * v 1) * e11 + (v 2 * v 2) * e22 +
    2 * v 0 * v 1 * e01 + 2 * v 0 * v 2 * e02 + 2 * v 1 * v 2 * e12

theorem cross_bound (a x y n : ℝ) (h : x * x + y * y ≤ n) : -(|a| * n) ≤ 2 * (a * x * y) := by
  have h1 : |2 * (a * x * y)| ≤ |a| * n := by
    rw [show 2 * (a * x * y) = a * (2 * (x * y)) by ring, abs_mul]
    refine mul_le_mul_of_nonneg_left ?_ (abs_nonneg a)
    rw [abs_le]
    constructor <;> nlinarith [mul_self_nonneg (x - y), mul_self_nonneg (x + y)]
  exact (abs_le.mp h1).1

theorem hsym_of {b : M3} (hb : Realizable (shifted b)) : Sym b := by
  have := hb.1
  refine ⟨?_, ?_, ?_⟩
  · simpa [shifted] using this 0 1
  · simpa [shifted] using this 0 2
  · simpa [shifted] using this 1 2

/-- **C161** Realizability: if the unperturbed anisotropy is realizable (`b + 1/3` positive
semi-definite), then for every `delta` between 0 and 1 and every limiting state the perturbed
Reynolds stress is symmetric and its quadratic form is not below
`- 2 k delta |v|²` times the off-diagonal residue left by the decomposition. -/
theorem c161_realizable_up_to_residue (delta : ℝ) (h0 : 0 ≤ delta) (h1 : delta ≤ 1) (bias : ℤ)
    (b : M3) (hb : Realizable (shifted b)) (old : Out M3) (k pert : ℝ) :
    (∀ i j, stressOf (perturbedAnisotropy delta bias b old) (turbKePert k pert) i j =
      stressOf (perturbedAnisotropy delta bias b old) (turbKePert k pert) j i) ∧
    ∀ v : Fin 3 → ℝ,
      -(2 * turbKePert k pert * delta * residue (symDiag3 b old).D * ∑ i, v i * v i) ≤
      ∑ i, ∑ j, v i * stressOf (perturbedAnisotropy delta bias b old) (turbKePert k pert) i j * v j := by
  have hsym : Sym b := hsym_of hb
  obtain ⟨hrot, ⟨hq1, hq2, hq3⟩, hDs, -⟩ := c160_similarity b hsym old
  have hk := turbKePert_pos k pert
  rw [stressOf_eq]
  simp only [perturbedAnisotropy, reconstruct3_eq]
  rw [shifted_conj hq2]
  set Q := (symDiag3 b old).Q
  set D := (symDiag3 b old).D
  have hD : Realizable (shifted D) := by
    have hc : shifted D = Qᵀ * shifted b * Qᵀᵀ := by
      rw [hq3, shifted_conj hq2, Matrix.transpose_transpose]
      calc shifted D = (Qᵀ * Q) * shifted D * (Qᵀ * Q) := by rw [hq1]; simp
        _ = _ := by simp only [Matrix.mul_assoc]
    rw [hc]; exact psd_conj hb
  obtain ⟨g, hg, -, hp⟩ := perturb_eq delta (target bias) D
  set P := shifted (perturb delta (target bias) (rowMap D) D) with hP
  have hentry : ∀ i j, P i j =
      (1 - delta) * shifted D i j + delta * (if i = j then target bias (g i) + 1/3 else D i j) := by
    intro i j
    by_cases hij : i = j
    · subst hij; simp [hP, shifted, hp]; ring
    · simp [hP, shifted, hp, hij, Matrix.one_apply_ne hij]
  have hPs : Pᵀ = P := by
    ext i j
    rw [Matrix.transpose_apply, hentry, hentry, hD.1 i j]
    by_cases hij : i = j
    · subst hij; rfl
    · rw [if_neg hij, if_neg (Ne.symm hij)]
      obtain ⟨s1, s2, s3⟩ := hDs
      have : D j i = D i j := by
        fin_cases i <;> fin_cases j <;> simp_all
      rw [this]
  constructor
  · intro i j
    have : (Q * P * Qᵀ)ᵀ = Q * P * Qᵀ := by
      rw [Matrix.transpose_mul, Matrix.transpose_mul, Matrix.transpose_transpose, hPs,
        Matrix.mul_assoc]
    have h := congrFun (congrFun this j) i
    simp only [Matrix.smul_apply, smul_eq_mul]
    rw [← h]; rfl
  · intro v
    have hsm : ∑ i, ∑ j, v i * ((2 * turbKePert k pert) • (Q * P * Qᵀ)) i j * v j =
        2 * turbKePert k pert * ∑ i, ∑ j, v i * (Q * P * Qᵀ) i j * v j := by
      simp only [Matrix.smul_apply, smul_eq_mul, Finset.mul_sum]
      refine Finset.sum_congr rfl fun i _ => Finset.sum_congr rfl fun j _ => by ring
    rw [hsm, quad_conj, ← unitary_norm hq2 v]
    generalize (fun i => ∑ k, Q k i * v k) = y
    have hb' : ∀ y : Fin 3 → ℝ, -(delta * residue D * ∑ i, y i * y i) ≤ ∑ i, ∑ j, y i * P i j * y j := by
      intro y
      have hpsd := hD.2 y
      have hsplit : ∑ i, ∑ j, y i * P i j * y j =
          (1 - delta) * (∑ i, ∑ j, y i * shifted D i j * y j) +
          delta * ((target bias (g 0) + 1/3) * (y 0 * y 0) + (target bias (g 1) + 1/3) * (y 1 * y 1) +
            (target bias (g 2) + 1/3) * (y 2 * y 2) +
            (2 * (D 0 1 * y 0 * y 1) + 2 * (D 0 2 * y 0 * y 2) + 2 * (D 1 2 * y 1 * y 2))) := by
        simp only [hentry, Fin.sum_univ_three]
        simp [← hDs.1, ← hDs.2.1, ← hDs.2.2]
        ring
      rw [hsplit]
      have c1 := cross_bound (D 0 1) (y 0) (y 1) (y 0 * y 0 + y 1 * y 1 + y 2 * y 2)
        (by nlinarith [mul_self_nonneg (y 2)])
      have c2 := cross_bound (D 0 2) (y 0) (y 2) (y 0 * y 0 + y 1 * y 1 + y 2 * y 2)
        (by nlinarith [mul_self_nonneg (y 1)])
      have c3 := cross_bound (D 1 2) (y 1) (y 2) (y 0 * y 0 + y 1 * y 1 + y 2 * y 2)
        (by nlinarith [mul_self_nonneg (y 0)])
      have t0 := mul_nonneg (show 0 ≤ target bias (g 0) + 1/3 by linarith [target_ge bias (g 0)])
        (mul_self_nonneg (y 0))
      have t1 := mul_nonneg (show 0 ≤ target bias (g 1) + 1/3 by linarith [target_ge bias (g 1)])
        (mul_self_nonneg (y 1))
      have t2 := mul_nonneg (show 0 ≤ target bias (g 2) + 1/3 by linarith [target_ge bias (g 2)])
        (mul_self_nonneg (y 2))
      have hA := mul_nonneg (show 0 ≤ 1 - delta by linarith) hpsd
      have hB : -(delta * residue D * (y 0 * y 0 + y 1 * y 1 + y 2 * y 2)) ≤
          delta * ((target bias (g 0) + 1/3) * (y 0 * y 0) + (target bias (g 1) + 1/3) * (y 1 * y 1) +
            (target bias (g 2) + 1/3) * (y 2 * y 2) +
            (2 * (D 0 1 * y 0 * y 1) + 2 * (D 0 2 * y 0 * y 2) + 2 * (D 1 2 * y 1 * y 2))) := by
        have : -(delta * residue D * (y 0 * y 0 + y 1 * y 1 + y 2 * y 2)) =
            delta * (-(residue D * (y 0 * y 0 + y 1 * y 1 + y 2 * y 2))) := by ring
        rw [this]
        refine mul_le_mul_of_nonneg_left ?_ h0
        unfold residue
        linarith
      rw [show (∑ i, y i * y i) = y 0 * y 0 + y 1 * y 1 + y 2 * y 2 by simp [Fin.sum_univ_three]]
      linarith
    have := mul_le_mul_of_nonneg_left (hb' (fun i => ∑ k, Q k i * v k))
      (show 0 ≤ 2 * turbKePert k pert by linarith)
    linarith

/-- **C161** Realizability when the decomposition is converged (`D` diagonal; C160 shows that this
is how the loop ends when it ends early). -/
theorem c161_realizable (delta : ℝ) (h0 : 0 ≤ delta) (h1 : delta ≤ 1) (bias : ℤ) (b : M3)
    (hb : Realizable (shifted b)) (old : Out M3) (k pert : ℝ)
    (hconv : (symDiag3 b old).D.IsDiag) :
    Realizable (stressOf (perturbedAnisotropy delta bias b old) (turbKePert k pert)) := by
  obtain ⟨hs, hq⟩ := c161_realizable_up_to_residue delta h0 h1 bias b hb old k pert
  refine ⟨hs, fun v => ?_⟩
  have := hq v
  rw [residue, hconv (by decide), hconv (by decide), hconv (by decide)] at this
  simpa using this

/-- **C161** Full perturbation: with `delta = 1` and a converged decomposition the Reynolds stress has,
for *any* velocity gradient, the eigenvalues of the chosen limiting state — one, two or three
components sharing twice the kinetic energy equally. -/
theorem c161_limiting_state (bias : ℤ) (b : M3) (hb : Sym b) (old : Out M3) (k pert : ℝ)
    (hconv : (symDiag3 b old).D.IsDiag) (i r : Fin 3) :
    ∑ j, stressOf (perturbedAnisotropy 1 bias b old) (turbKePert k pert) r j *
        (symDiag3 b old).Q j (rowMap (symDiag3 b old).D i) =
      2 * turbKePert k pert *
        (if bias = 1 then ![1, 0, 0] i else if bias = 2 then ![1/2, 1/2, 0] i else 1/3) *
        (symDiag3 b old).Q r (rowMap (symDiag3 b old).D i) := by
  obtain ⟨hrot, ⟨hq1, hq2, hq3⟩, hDs, -⟩ := c160_similarity b hb old
  rw [stressOf_eq]
  simp only [perturbedAnisotropy, reconstruct3_eq]
  rw [shifted_conj hq2]
  set Q := (symDiag3 b old).Q
  set D := (symDiag3 b old).D
  set P := shifted (perturb 1 (target bias) (rowMap D) D) with hP
  obtain ⟨p1, p2⟩ := c161_perturb_entries 1 (target bias) D
  have hPd : ∀ i j, i ≠ j → P i j = 0 := by
    intro i j hij
    simp [hP, shifted, p2 i j hij, Matrix.one_apply_ne hij, hconv hij]
  have hPi : P (rowMap D i) (rowMap D i) = target bias i + 1/3 := by
    simp [hP, shifted, p1 i]
  have hval : target bias i + 1/3 =
      (if bias = 1 then ![1, 0, 0] i else if bias = 2 then ![1/2, 1/2, 0] i else 1/3) := by
    unfold target
    split_ifs <;> fin_cases i <;> norm_num
  have hmul : (Q * P * Qᵀ) * Q = Q * P := by
    rw [Matrix.mul_assoc, hq1, Matrix.mul_one]
  have h := congrFun (congrFun hmul r) (rowMap D i)
  rw [Matrix.mul_apply, Matrix.mul_apply] at h
  have hsingle : ∑ j, Q r j * P j (rowMap D i) = Q r (rowMap D i) * P (rowMap D i) (rowMap D i) := by
    refine Finset.sum_eq_single _ (fun j _ hj => ?_) (by simp)
    rw [hPd _ _ hj, mul_zero]
  rw [hsingle, hPi, hval] at h
  have hsm : ∑ j, ((2 * turbKePert k pert) • (Q * P * Qᵀ)) r j * Q j (rowMap D i) =
      2 * turbKePert k pert * ∑ j, (Q * P * Qᵀ) r j * Q j (rowMap D i) := by
    rw [Finset.mul_sum]
    refine Finset.sum_congr rfl fun j _ => ?_
    rw [Matrix.smul_apply, smul_eq_mul]; ring
  rw [hsm, h]
  ring

/-- **C161** No perturbation: with `delta = 0` the Reynolds stress is the Boussinesq stress of the
velocity gradient, scaled to the (perturbed) kinetic energy — exactly, converged or not, for any
limiting state. -/
theorem c161_no_perturbation (bias : ℤ) (pert nu inc k : ℝ) (G : M3) (old : Out M3) (hk : k ≠ 0)
    (i j : Fin 3) :
    reynoldsStress 0 bias pert nu inc k G old i j =
      turbKePert k pert / k * ((if i = j then 2/3 * k else 0) -
        nu * (G i j + G j i - (if i = j then 2/3 * G.trace * inc else 0))) := by
  have hs := anisotropy_sym nu inc k G
  have hrec := (c160_similarity _ hs old).2.2.2
  have hp : perturb 0 (target bias) (rowMap (symDiag3 (anisotropy nu inc k G) old).D)
      (symDiag3 (anisotropy nu inc k G) old).D = (symDiag3 (anisotropy nu inc k G) old).D := by
    obtain ⟨g, _, _, h⟩ := perturb_eq 0 (target bias) (symDiag3 (anisotropy nu inc k G) old).D
    ext a c
    rw [h]; simp
  simp only [reynoldsStress, perturbedAnisotropy, hp, hrec]
  by_cases hij : i = j
  · subst hij
    simp [stressOf, anisotropy, Matrix.trace, Fin.sum_univ_three]
    field_simp
    ring
  · simp [stressOf, anisotropy, hij]
    field_simp

/-- **C161** With neither eigenvalue nor energy perturbation, and a kinetic energy above the floor,
this is the Boussinesq stress `2/3 k δ - nu (∂u + ∂uᵀ - 2/3 div u δ)`. -/
theorem c161_boussinesq (bias : ℤ) (nu inc k : ℝ) (G : M3) (old : Out M3) (hk : 1/10^16 ≤ k)
    (i j : Fin 3) :
    reynoldsStress 0 bias 0 nu inc k G old i j =
      (if i = j then 2/3 * k else 0) -
        nu * (G i j + G j i - (if i = j then 2/3 * G.trace * inc else 0)) := by
  have hk0 : k ≠ 0 := (lt_of_lt_of_le (by norm_num) hk).ne'
  rw [c161_no_perturbation bias 0 nu inc k G old hk0]
  have : turbKePert k 0 = k := by rw [turbKePert, add_zero, mul_one]; exact max_eq_left hk
  rw [this, div_self hk0, one_mul]

/-- The hypotheses of the realizability theorems are met: an isotropic state. -/
example : Realizable (shifted (0 : M3)) ∧ (symDiag3 (0 : M3) ⟨0, 0⟩).D.IsDiag := by
  refine ⟨⟨fun i j => by fin_cases i <;> fin_cases j <;> simp [shifted], fun v => ?_⟩, ?_⟩
  · simp [shifted, Fin.sum_univ_three, Matrix.one_apply]
    nlinarith [mul_self_nonneg (v 0), mul_self_nonneg (v 1), mul_self_nonneg (v 2)]
  · rw [c160_diagonal_fixed _ (by intro i j _; simp)]
    intro i j _; simp

/-- ... and an anisotropic one: `b = diag(1/6, 0, -1/6)`. -/
example : Realizable (shifted !![1/6, 0, 0; 0, 0, 0; 0, 0, -1/6]) ∧
    (symDiag3 !![1/6, 0, 0; 0, 0, 0; 0, 0, -1/6] ⟨0, 0⟩).D.IsDiag := by
  have hd : (!![1/6, 0, 0; 0, 0, 0; 0, 0, -1/6] : M3).IsDiag := by
    intro i j hij
    fin_cases i <;> fin_cases j <;> simp at hij ⊢
  refine ⟨⟨fun i j => by fin_cases i <;> fin_cases j <;> simp [shifted], fun v => ?_⟩, ?_⟩
  · simp [shifted, Fin.sum_univ_three, Matrix.one_apply]
    nlinarith [mul_self_nonneg (v 0), mul_self_nonneg (v 1), mul_self_nonneg (v 2)]
  · rw [c160_diagonal_fixed _ hd]; exact hd

end Nalu.Eigen
