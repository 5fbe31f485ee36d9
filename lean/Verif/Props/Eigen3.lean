import Verif.Props.Eigen
import Mathlib.Tactic.IntervalCases

/-!
# C160: the 3x3 symmetric eigen-decomposition
-/

namespace Nalu.Eigen

open Matrix Spec

/-- Squared length of a quaternion. -/
def Quat.sq (q : Quat) : ℝ := q.x*q.x + q.y*q.y + q.z*q.z + q.w*q.w

theorem quatToMat_mul (q : Quat) :
    (quatToMat q)ᵀ * quatToMat q = (q.sq ^ 2) • (1 : M3) ∧
    quatToMat q * (quatToMat q)ᵀ = (q.sq ^ 2) • (1 : M3) := by
  constructor <;>
  · ext i j
    fin_cases i <;> fin_cases j <;>
      simp [quatToMat, Quat.sq, Matrix.mul_apply, Fin.sum_univ_three] <;> ring

theorem quatToMat_det (q : Quat) : (quatToMat q).det = q.sq ^ 3 := by
  rw [Matrix.det_fin_three]
  simp [quatToMat, Quat.sq]
  ring

theorem rotation_of_unit {q : Quat} (h : q.sq = 1) : Rotation (quatToMat q) := by
  obtain ⟨h1, h2⟩ := quatToMat_mul q
  rw [h] at h1 h2
  exact ⟨by simpa using h1, by simpa using h2, by rw [quatToMat_det, h]; simp⟩

/-- `A` is symmetric. -/
def Sym (A : M3) : Prop := A 0 1 = A 1 0 ∧ A 0 2 = A 2 0 ∧ A 1 2 = A 2 1

theorem rotated_eq {A : M3} (hA : Sym A) (q : Quat) :
    rotated A q = (quatToMat q)ᵀ * A * quatToMat q := by
  obtain ⟨h1, h2, h3⟩ := hA
  unfold rotated
  generalize quatToMat q = Q
  ext i j
  fin_cases i <;> fin_cases j <;>
    simp [timesQtAQ, timesAQ, Matrix.mul_apply, Fin.sum_univ_three, h1, h2, h3] <;> ring

theorem similar_rotated {A : M3} (hA : Sym A) {q : Quat} (h : q.sq = 1) :
    Similar A (quatToMat q) (rotated A q) := by
  obtain ⟨h1, h2, _⟩ := rotation_of_unit h
  refine ⟨h1, h2, ?_⟩
  rw [rotated_eq hA]
  generalize quatToMat q = Q at h1 h2
  calc A = (Q * Qᵀ) * A * (Q * Qᵀ) := by rw [h2]; simp
    _ = _ := by simp only [Matrix.mul_assoc]

theorem rotated_sym {A : M3} (hA : Sym A) (q : Quat) : Sym (rotated A q) := by
  obtain ⟨h1, h2, h3⟩ := hA
  unfold rotated
  generalize quatToMat q = Q
  refine ⟨?_, ?_, ?_⟩ <;>
    simp [timesQtAQ, timesAQ] <;> ring

/-! ### The step -/

theorem largest_max (m : Fin 3 → ℝ) (i : Fin 3) : m i ≤ m (largest m) := by
  unfold largest
  split_ifs with h1 h2
  · fin_cases i
    · exact le_refl _
    · exact h1.1.le
    · exact h1.2.le
  · fin_cases i
    · by_contra hc
      push Not at hc
      exact h1 ⟨hc, lt_trans h2 hc⟩
    · exact le_refl _
    · exact h2.le
  · push Not at h2
    fin_cases i
    · by_contra hc
      push Not at hc
      exact h1 ⟨lt_of_le_of_lt h2 hc, hc⟩
    · exact h2
    · exact le_refl _

theorem sgnOf_sq (t : ℝ) : sgnOf t * sgnOf t = 1 := by
  unfold sgnOf; split_ifs <;> norm_num

theorem sgnOf_abs (t : ℝ) : 0 ≤ t * sgnOf t := by
  unfold sgnOf; split_ifs with h
  · linarith
  · linarith [not_lt.mp h]

theorem tangent_ne (thet : ℝ) : tangent thet ≠ 0 := by
  have h0 := sgnOf_abs thet
  have h1 := sgnOf_sq thet
  have hs : sgnOf thet ≠ 0 := fun h => by rw [h] at h1; norm_num at h1
  simp only [tangent]
  split_ifs with h
  · have : 0 < Real.sqrt (thet * sgnOf thet * (thet * sgnOf thet) + 1) :=
      Real.sqrt_pos.mpr (by nlinarith [mul_self_nonneg (thet * sgnOf thet)])
    exact div_ne_zero hs (by linarith)
  · push Not at h
    exact div_ne_zero hs (by linarith)

theorem cosine_range {t : ℝ} (ht : t ≠ 0) : 0 < cosine t ∧ cosine t < 1 := by
  have h : 0 < t * t := mul_self_pos.mpr ht
  have h1 : 1 < Real.sqrt (t * t + 1) := by
    rw [show (1:ℝ) = Real.sqrt 1 by simp]
    apply Real.sqrt_lt_sqrt (by norm_num)
    rw [Real.sqrt_one]; linarith
  unfold cosine
  exact ⟨div_pos one_pos (by linarith), by rw [div_lt_one (by linarith)]; exact h1⟩

theorem jrk_sq (s c : ℝ) (hs : s * s = 1) (hc : c ≤ 1) : jrk s c * jrk s c = (1 - c) / 2 := by
  unfold jrk
  have := Real.mul_self_sqrt (show 0 ≤ (1 - c) / 2 by linarith)
  linear_combination Real.sqrt ((1 - c) / 2) * Real.sqrt ((1 - c) / 2) * hs + this

/-- The sequential quaternion update never collapses: with one non-zero vector component `a` and
`w ≠ 0` the new quaternion is not zero unless the old one is. -/
theorem quatUpdate_ne {q : Quat} (h : q.sq = 1) (k : Fin 3) {a w : ℝ} (hw : w ≠ 0) :
    0 < (quatUpdate q (axisQuat k a w)).sq := by
  have key : ∀ p r : ℝ, ∀ p' r' : ℝ, p' = w * p + a * r → r' = w * r - a * p' →
      p' * p' + r' * r' = 0 → p = 0 ∧ r = 0 := by
    intro p r p' r' hp hr hz
    have hp0 : p' = 0 := by nlinarith [mul_self_nonneg p', mul_self_nonneg r']
    have hr0 : r' = 0 := by nlinarith [mul_self_nonneg p', mul_self_nonneg r']
    rw [hp0, hr0] at hr
    have r0 : r = 0 := by
      have : w * r = 0 := by linarith
      exact (mul_eq_zero.mp this).resolve_left hw
    rw [hp0, r0] at hp
    exact ⟨(mul_eq_zero.mp (by linarith : w * p = 0)).resolve_left hw, r0⟩
  have nn : 0 ≤ (quatUpdate q (axisQuat k a w)).sq := by
    unfold Quat.sq
    nlinarith [mul_self_nonneg (quatUpdate q (axisQuat k a w)).x,
      mul_self_nonneg (quatUpdate q (axisQuat k a w)).y,
      mul_self_nonneg (quatUpdate q (axisQuat k a w)).z,
      mul_self_nonneg (quatUpdate q (axisQuat k a w)).w]
  rcases nn.lt_or_eq with hlt | heq
  · exact hlt
  exfalso
  have hz : ∀ x y z t : ℝ, x*x + y*y + z*z + t*t = 0 → (x*x + t*t = 0 ∧ y*y + z*z = 0) ∧
      (y*y + t*t = 0 ∧ z*z + x*x = 0) ∧ (z*z + t*t = 0 ∧ x*x + y*y = 0) := by
    intro x y z t hh
    have := mul_self_nonneg x; have := mul_self_nonneg y
    have := mul_self_nonneg z; have := mul_self_nonneg t
    refine ⟨⟨?_, ?_⟩, ⟨?_, ?_⟩, ⟨?_, ?_⟩⟩ <;> linarith
  have hh := hz _ _ _ _ heq.symm
  have hq : q.x = 0 ∧ q.y = 0 ∧ q.z = 0 ∧ q.w = 0 := by
    fin_cases k <;> simp only [Fin.zero_eta, Fin.mk_one, Fin.reduceFinMk] at hh
    · obtain ⟨⟨h1, h2⟩, _⟩ := hh
      obtain ⟨a1, a2⟩ := key q.x q.w _ _ (by simp [quatUpdate, axisQuat]; ring)
        (by simp [quatUpdate, axisQuat]; ring) h1
      obtain ⟨a3, a4⟩ := key q.y q.z _ _ (by simp [quatUpdate, axisQuat]; ring)
        (by simp [quatUpdate, axisQuat]; ring) h2
      exact ⟨a1, a3, a4, a2⟩
    · obtain ⟨_, ⟨h1, h2⟩, _⟩ := hh
      obtain ⟨a1, a2⟩ := key q.y q.w _ _ (by simp [quatUpdate, axisQuat]; ring)
        (by simp [quatUpdate, axisQuat]; ring) h1
      have hz0 : (quatUpdate q (axisQuat 1 a w)).x = 0 := by
        refine mul_self_eq_zero.mp (le_antisymm ?_ (mul_self_nonneg _))
        linarith [mul_self_nonneg (quatUpdate q (axisQuat 1 a w)).z]
      have hx0 : (quatUpdate q (axisQuat 1 a w)).z = 0 := by
        refine mul_self_eq_zero.mp (le_antisymm ?_ (mul_self_nonneg _))
        linarith [mul_self_nonneg (quatUpdate q (axisQuat 1 a w)).x]
      simp [quatUpdate, axisQuat, a1, a2] at hz0 hx0
      rw [hz0] at hx0
      have z0 : q.z = 0 := by
        have : q.z * w = 0 := by linarith
        exact (mul_eq_zero.mp this).resolve_right hw
      rw [z0] at hz0
      exact ⟨(mul_eq_zero.mp (by linarith : q.x * w = 0)).resolve_right hw, a1, z0, a2⟩
    · obtain ⟨_, _, ⟨h1, h2⟩⟩ := hh
      obtain ⟨a1, a2⟩ := key q.z q.w _ _ (by simp [quatUpdate, axisQuat]; ring)
        (by simp [quatUpdate, axisQuat]; ring) h1
      obtain ⟨a3, a4⟩ := key q.x q.y _ _ (by simp [quatUpdate, axisQuat]; ring)
        (by simp [quatUpdate, axisQuat]; ring) h2
      exact ⟨a3, a4, a1, a2⟩
  rw [Quat.sq, hq.1, hq.2.1, hq.2.2.1, hq.2.2.2] at h
  norm_num at h

theorem normalise_sq {q : Quat} (h : 0 < q.sq) : (normalise q).sq = 1 := by
  have h2 : Real.sqrt (q.x*q.x + q.y*q.y + q.z*q.z + q.w*q.w) *
      Real.sqrt (q.x*q.x + q.y*q.y + q.z*q.z + q.w*q.w) = q.sq := Real.mul_self_sqrt h.le
  have h3 : Real.sqrt (q.x*q.x + q.y*q.y + q.z*q.z + q.w*q.w) ≠ 0 := by
    intro h0; rw [h0] at h2; linarith
  simp only [Quat.sq, normalise] at h2 ⊢
  generalize Real.sqrt (q.x*q.x + q.y*q.y + q.z*q.z + q.w*q.w) = m at h2 h3
  field_simp
  linear_combination -h2

/-- A pass either stops, and then all off-diagonal entries are zero, or yields a unit quaternion. -/
theorem nextQuat_cases (D : M3) {q : Quat} (h : q.sq = 1) :
    (nextQuat D q = none ∧ ∀ k, offd D k = 0) ∨
    ∃ q', nextQuat D q = some q' ∧ q'.sq = 1 ∧ ∃ k, offd D k ≠ 0 := by
  by_cases h0 : offd D (largest (fun i => |offd D i|)) = 0
  · left
    refine ⟨by simp [nextQuat, h0], fun k => ?_⟩
    have := largest_max (fun i => |offd D i|) k
    simp only [h0, abs_zero] at this
    exact abs_eq_zero.mp (le_antisymm this (abs_nonneg _))
  · right
    set k := largest (fun i => |offd D i|) with hk
    have hc := cosine_range (tangent_ne (thetaOf D k))
    have ha := jrk_sq (sgnOf (thetaOf D k)) _ (sgnOf_sq _) hc.2.le
    have hw1 : Real.sqrt (1 - jrk (sgnOf (thetaOf D k)) (cosine (tangent (thetaOf D k))) *
        jrk (sgnOf (thetaOf D k)) (cosine (tangent (thetaOf D k)))) ≠ 1 := by
      intro hw
      rw [Real.sqrt_eq_one, ha] at hw
      linarith [hc.2]
    have hw0 : Real.sqrt (1 - jrk (sgnOf (thetaOf D k)) (cosine (tangent (thetaOf D k))) *
        jrk (sgnOf (thetaOf D k)) (cosine (tangent (thetaOf D k)))) ≠ 0 := by
      rw [ha]
      exact (Real.sqrt_pos.mpr (by linarith [hc.1])).ne'
    refine ⟨_, ?_, normalise_sq (quatUpdate_ne (a := jrk (sgnOf (thetaOf D k))
      (cosine (tangent (thetaOf D k)))) h k hw0), k, h0⟩
    simp only [nextQuat, ← hk]
    rw [if_neg h0, if_neg hc.2.ne, if_neg hw1]

/-- Invariant of the loop: what is in the output arrays. -/
theorem jacobi_inv {A : M3} (n : ℕ) (q : Quat) (old : Out M3) (h : q.sq = 1)
    (hn : n ≠ 0) :
    ∃ q', q'.sq = 1 ∧ jacobi A n q old = { Q := quatToMat q', D := rotated A q' } := by
  induction n generalizing q old with
  | zero => exact absurd rfl hn
  | succ n ih =>
    rcases nextQuat_cases (rotated A q) h with ⟨hnone, _⟩ | ⟨q', hsome, hq', _⟩
    · exact ⟨q, h, by simp [jacobi, hnone]⟩
    · by_cases hz : n = 0
      · subst hz
        exact ⟨q, h, by simp [jacobi, hsome]⟩
      · obtain ⟨q'', h1, h2⟩ := ih q' { Q := quatToMat q, D := rotated A q } hq' hz
        exact ⟨q'', h1, by simp [jacobi, hsome, h2]⟩

theorem start_sq : Quat.start.sq = 1 := by simp [Quat.start, Quat.sq]

/-- **C160** For every symmetric 3x3 matrix, whatever the output arrays held before and however far
the iteration got, `Q` is a rotation, `A = Q D Qᵀ`, `D` is symmetric, and reconstructing from the
result gives back `A` exactly. -/
theorem c160_similarity (A : M3) (hA : Sym A) (old : Out M3) :
    Rotation (symDiag3 A old).Q ∧ Similar A (symDiag3 A old).Q (symDiag3 A old).D ∧
    Sym (symDiag3 A old).D ∧
    reconstruct3 (symDiag3 A old).D (symDiag3 A old).Q = A := by
  obtain ⟨q, h, e⟩ := jacobi_inv (A := A) 24 Quat.start old start_sq (by norm_num)
  have hs := similar_rotated hA h
  rw [symDiag3, e]
  exact ⟨rotation_of_unit h, hs, rotated_sym hA q, by rw [reconstruct3_eq, ← hs.2.2]⟩

/-- **C160** Trace, determinant and the sum of the squares of the entries (hence also the second
invariant) of `A` are those of `D`, converged or not. -/
theorem c160_invariants (A : M3) (hA : Sym A) (old : Out M3) :
    (symDiag3 A old).D.trace = A.trace ∧ (symDiag3 A old).D.det = A.det ∧
    frob (symDiag3 A old).D = frob A := by
  obtain ⟨-, ⟨h1, h2, h3⟩, hsym, -⟩ := c160_similarity A hA old
  set Q := (symDiag3 A old).Q
  set D := (symDiag3 A old).D
  have tr : ∀ M : M3, (Q * M * Qᵀ).trace = M.trace := by
    intro M
    rw [Matrix.trace_mul_comm, ← Matrix.mul_assoc, h1, Matrix.one_mul]
  refine ⟨?_, ?_, ?_⟩
  · conv_rhs => rw [h3, tr]
  · rw [h3, Matrix.det_mul, Matrix.det_mul]
    have : Q.det * Qᵀ.det = 1 := by rw [← Matrix.det_mul, h2, Matrix.det_one]
    linear_combination -(D.det) * this
  · have fr : ∀ M : M3, Sym M → frob M = (M * M).trace := by
      intro M hM
      simp only [frob, Matrix.trace, Matrix.diag, Matrix.mul_apply]
      simp only [Fin.sum_univ_three, hM.1, hM.2.1, hM.2.2]
    rw [fr D hsym, fr A hA]
    conv_rhs => rw [h3]
    have : Q * D * Qᵀ * (Q * D * Qᵀ) = Q * (D * D) * Qᵀ := by
      calc Q * D * Qᵀ * (Q * D * Qᵀ) = Q * D * (Qᵀ * Q) * D * Qᵀ := by
            simp only [Matrix.mul_assoc]
        _ = Q * (D * D) * Qᵀ := by rw [h1]; simp only [Matrix.mul_one, Matrix.mul_assoc]
    rw [this, tr]

/-- Number of passes of the loop that were started. -/
noncomputable def passes (A : M3) : ℕ → Quat → ℕ
  | 0, _ => 0
  | n + 1, q => match nextQuat (rotated A q) q with
    | none => 1
    | some q' => 1 + passes A n q'

theorem jacobi_diag {A : M3} (hA : Sym A) (n : ℕ) (q : Quat) (old : Out M3) (h : q.sq = 1)
    (hlt : passes A n q < n) : (jacobi A n q old).D.IsDiag := by
  induction n generalizing q old with
  | zero => exact absurd hlt (by simp)
  | succ n ih =>
    rcases nextQuat_cases (rotated A q) h with ⟨hnone, hz⟩ | ⟨q', hsome, hq', _⟩
    · simp only [jacobi, hnone]
      have hs := rotated_sym hA q
      have a := hz 0; have b := hz 1; have c := hz 2
      simp only [offd, Matrix.cons_val_zero, Matrix.cons_val_one, Matrix.cons_val_two,
        Matrix.head_cons, Matrix.tail_cons] at a b c
      intro i j hij
      fin_cases i <;> fin_cases j <;> simp at hij ⊢
      · exact c
      · exact b
      · rw [← hs.1]; exact c
      · exact a
      · rw [← hs.2.1]; exact b
      · rw [← hs.2.2]; exact a
    · simp only [jacobi, hsome]
      simp only [passes, hsome] at hlt
      exact ih q' _ hq' (by omega)

/-- **C160** The loop leaves early only with an exactly diagonal `D`: if fewer than 24 passes were
made, the columns of `Q` are unit eigenvectors of `A` with the eigenvalues on the diagonal of `D`. -/
theorem c160_early_exit_partial (A : M3) (hA : Sym A) (old : Out M3)
    (hlt : passes A 24 Quat.start < 24) :
    (symDiag3 A old).D.IsDiag ∧ ∀ i, EigenPair A (symDiag3 A old).Q (symDiag3 A old).D i := by
  have hd := jacobi_diag hA 24 Quat.start old start_sq hlt
  exact ⟨hd, fun i => eigenPair_of (c160_similarity A hA old).2.1 hd i⟩

/-- **C160** A diagonal matrix is recognised at once: `Q` is the identity and `D` the matrix. -/
theorem c160_diagonal_fixed (A : M3) (hA : A.IsDiag) (old : Out M3) :
    symDiag3 A old = { Q := 1, D := A } := by
  have hq : quatToMat Quat.start = 1 := by
    ext i j; fin_cases i <;> fin_cases j <;> simp [quatToMat, Quat.start]
  have hA' : Sym A := by
    refine ⟨?_, ?_, ?_⟩ <;> (rw [hA (by decide), hA (by decide)])
  have hr : rotated A Quat.start = A := by rw [rotated_eq hA', hq]; simp
  have hz : ∀ k, offd A k = 0 := by
    intro k
    fin_cases k <;> simp [offd] <;> exact hA (by decide)
  have : nextQuat A Quat.start = none := by simp [nextQuat, hz]
  simp only [symDiag3, jacobi, hr, this, hq]

end Nalu.Eigen
