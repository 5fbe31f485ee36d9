import Verif.Props.Eigen3

/-!
# C160: the SIMD overload, and what the iteration does not deliver
-/

namespace Nalu.Eigen

open Matrix Spec

theorem laneTangent_eq (thet : ℝ) : laneTangent thet = tangent thet := by
  simp only [laneTangent, tangent]
  split_ifs with h
  · rfl
  · push Not at h
    have : thet * sgnOf thet ≠ 0 := by linarith
    generalize thet * sgnOf thet = x at h this
    field_simp
    ring

theorem strictLargest_spec {m : Fin 3 → ℝ} {k : Fin 3} (h : strictLargest m = some k) :
    (∀ j, j ≠ k → m j < m k) ∧ largest m = k := by
  unfold strictLargest at h
  split_ifs at h with h1 h2 h3
  · obtain rfl : (2 : Fin 3) = k := by simpa using h
    refine ⟨fun j hj => ?_, ?_⟩
    · fin_cases j <;> simp at hj ⊢
      · exact h1.2
      · exact h1.1
    · rw [largest, if_neg (fun hh => absurd hh.2 (not_lt.mpr h1.2.le)), if_neg (not_lt.mpr h1.1.le)]
  · obtain rfl : (1 : Fin 3) = k := by simpa using h
    refine ⟨fun j hj => ?_, ?_⟩
    · fin_cases j <;> simp at hj ⊢
      · exact h2.2
      · exact h2.1
    · rw [largest, if_neg (fun hh => absurd hh.1 (not_lt.mpr h2.2.le)), if_pos h2.1]
  · obtain rfl : (0 : Fin 3) = k := by simpa using h
    refine ⟨fun j hj => ?_, ?_⟩
    · fin_cases j <;> simp at hj ⊢
      · exact h3.1
      · exact h3.2
    · rw [largest, if_pos h3]

theorem laneLarge_some {D : M3} {k : Fin 3}
    (h : strictLargest (fun i => |offd D i|) = some k) :
    laneLarge D = (offd D k, D (k + 2) (k + 2) - D (k + 1) (k + 1)) := by
  unfold laneLarge
  rw [h]
  fin_cases k <;> rfl

theorem offd_ne {D : M3} {k : Fin 3} (h : strictLargest (fun i => |offd D i|) = some k) :
    offd D k ≠ 0 := by
  obtain ⟨h1, _⟩ := strictLargest_spec h
  intro h0
  have := h1 (k + 1) (by fin_cases k <;> decide)
  simp only [h0, abs_zero] at this
  exact absurd this (not_lt.mpr (abs_nonneg _))

/-- A lane with a unique largest entry advances as the scalar routine does. -/
theorem lane_step {D : M3} {q : Quat} {k : Fin 3} (hq : q.sq = 1)
    (h : strictLargest (fun i => |offd D i|) = some k) :
    (laneJr D).w ≠ 1 ∧ nextQuat D q = some (normalise (quatUpdate q (laneJr D))) ∧
    (normalise (quatUpdate q (laneJr D))).sq = 1 := by
  have h0 := offd_ne h
  have hl := (strictLargest_spec h).2
  have hth : laneTheta D = thetaOf D k := by
    simp only [laneTheta, laneLarge_some h, if_neg h0, thetaOf]
  have hcos : laneCosine D = cosine (tangent (thetaOf D k)) := by
    simp only [laneCosine, laneLarge_some h, if_neg h0, hth, laneTangent_eq, cosine]
  have hjr : laneJr D = axisQuat k (jrk (sgnOf (thetaOf D k)) (cosine (tangent (thetaOf D k))))
      (Real.sqrt (1 - jrk (sgnOf (thetaOf D k)) (cosine (tangent (thetaOf D k))) *
        jrk (sgnOf (thetaOf D k)) (cosine (tangent (thetaOf D k))))) := by
    have e : -1 * (sgnOf (laneTheta D) * Real.sqrt ((1 - laneCosine D) / 2)) =
        jrk (sgnOf (thetaOf D k)) (cosine (tangent (thetaOf D k))) := by
      rw [hth, hcos, jrk]; ring
    simp only [laneJr, h, e]
  have hc := cosine_range (tangent_ne (thetaOf D k))
  have ha := jrk_sq (sgnOf (thetaOf D k)) _ (sgnOf_sq _) hc.2.le
  have hw1 : (laneJr D).w ≠ 1 := by
    rw [hjr]
    simp only [axisQuat]
    intro hw
    rw [Real.sqrt_eq_one, ha] at hw
    linarith [hc.2]
  have hnext : nextQuat D q = some (normalise (quatUpdate q (laneJr D))) := by
    rw [hjr] at hw1 ⊢
    simp only [axisQuat] at hw1
    simp only [nextQuat, hl]
    rw [if_neg h0, if_neg hc.2.ne, if_neg hw1]
  refine ⟨hw1, hnext, ?_⟩
  rcases nextQuat_cases D hq with ⟨hn, _⟩ | ⟨q', hs, hq', _⟩
  · rw [hn] at hnext; cases hnext
  · rw [hs] at hnext
    rw [← Option.some.inj hnext]; exact hq'

/-- A lane without a unique largest entry stays where it is. -/
theorem lane_stay {D : M3} {q : Quat} (hq : q.sq = 1)
    (h : strictLargest (fun i => |offd D i|) = none) :
    (laneJr D).w = 1 ∧ normalise (quatUpdate q (laneJr D)) = q := by
  have e : laneJr D = ⟨0, 0, 0, 1⟩ := by simp [laneJr, h]
  have e2 : quatUpdate q ⟨0, 0, 0, 1⟩ = q := by
    cases q; simp [quatUpdate]
  refine ⟨by rw [e], ?_⟩
  rw [e, e2, normalise]
  have : Real.sqrt (q.x*q.x + q.y*q.y + q.z*q.z + q.w*q.w) = 1 := by
    rw [Real.sqrt_eq_one]; exact hq
  cases q
  simp_all

theorem lane_cases (D : M3) {q : Quat} (hq : q.sq = 1) :
    (normalise (quatUpdate q (laneJr D))).sq = 1 := by
  cases h : strictLargest (fun i => |offd D i|) with
  | none => rw [(lane_stay hq h).2]; exact hq
  | some k => exact (lane_step hq h).2.2

/-- The single-lane loop, lane type `Unit`. -/
theorem lane_w (D : M3) {q : Quat} (hq : q.sq = 1) :
    (laneJr D).w = 1 ↔ strictLargest (fun i => |offd D i|) = none := by
  constructor
  · intro h
    cases hs : strictLargest (fun i => |offd D i|) with
    | none => rfl
    | some k => exact absurd h (lane_step hq hs).1
  · intro h; exact (lane_stay hq h).1

theorem simd_stay {A : M3} {q : Quat} (hq : q.sq = 1)
    (h : strictLargest (fun i => |offd (rotated A q) i|) = none) (n : ℕ) (hn : n ≠ 0)
    (old : Unit → Out M3) :
    jacobiSimd (fun _ : Unit => A) n (fun _ => q) old () =
      { Q := quatToMat q, D := rotated A q } := by
  obtain ⟨m, rfl⟩ := Nat.exists_eq_succ_of_ne_zero hn
  have : ∀ _l : Unit, (laneJr (rotated A q)).w = 1 := fun _ => (lane_stay hq h).1
  simp only [jacobiSimd]
  rw [if_pos this]

theorem simd_lane {L : Type} (A : L → M3) (n : ℕ) (q : L → Quat) (old : L → Out M3)
    (hq : ∀ l, (q l).sq = 1) (l : L) :
    jacobiSimd A n q old l = jacobiSimd (fun _ : Unit => A l) n (fun _ => q l) (fun _ => old l) () := by
  induction n generalizing q old with
  | zero => rfl
  | succ n ih =>
    by_cases hall : ∀ l, (laneJr (rotated (A l) (q l))).w = 1
    · have h1 : ∀ _u : Unit, (laneJr (rotated (A l) (q l))).w = 1 := fun _ => hall l
      simp only [jacobiSimd]
      rw [if_pos hall, if_pos h1]
    · simp only [jacobiSimd]
      rw [if_neg hall, ih _ _ (fun l => lane_cases _ (hq l))]
      by_cases hl : (laneJr (rotated (A l) (q l))).w = 1
      · have h1 : ∀ _u : Unit, (laneJr (rotated (A l) (q l))).w = 1 := fun _ => hl
        rw [if_pos h1]
        have hs := (lane_w _ (hq l)).mp hl
        rw [(lane_stay (hq l) hs).2]
        by_cases hn : n = 0
        · subst hn; rfl
        · exact simd_stay (hq l) hs n hn _
      · have h1 : ¬ ∀ _u : Unit, (laneJr (rotated (A l) (q l))).w = 1 := fun h => hl (h ())
        rw [if_neg h1]

/-- **C160** SIMD lanes do not influence each other: the result of a lane is the result of running
that lane's matrix alone, whatever the other lanes hold and however long they iterate. -/
theorem c160_simd_lane_independent {L : Type} (A : L → M3) (old : L → Out M3) (l : L) :
    symDiag3Simd A old l = symDiag3Simd (fun _ : Unit => A l) (fun _ => old l) () :=
  simd_lane A 24 _ old (fun _ => start_sq) l

theorem simd_inv {L : Type} (A : L → M3) (n : ℕ) (hn : n ≠ 0) (q : L → Quat) (old : L → Out M3)
    (hq : ∀ l, (q l).sq = 1) (l : L) :
    ∃ q', q'.sq = 1 ∧ jacobiSimd A n q old l = { Q := quatToMat q', D := rotated (A l) q' } := by
  induction n generalizing q old with
  | zero => exact absurd rfl hn
  | succ n ih =>
    by_cases hall : ∀ l, (laneJr (rotated (A l) (q l))).w = 1
    · exact ⟨q l, hq l, by simp only [jacobiSimd]; rw [if_pos hall]⟩
    · by_cases hz : n = 0
      · subst hz
        exact ⟨q l, hq l, by simp only [jacobiSimd]; rw [if_neg hall]⟩
      · simp only [jacobiSimd]
        rw [if_neg hall]
        exact ih hz _ _ (fun l => lane_cases _ (hq l))

/-- **C160** Also in the SIMD overload every lane's `Q` is a rotation, `A = Q D Qᵀ`, and
reconstruction returns that lane's matrix. -/
theorem c160_simd_similarity {L : Type} (A : L → M3) (old : L → Out M3) (l : L) (hA : Sym (A l)) :
    Rotation (symDiag3Simd A old l).Q ∧
    Similar (A l) (symDiag3Simd A old l).Q (symDiag3Simd A old l).D ∧
    reconstruct3 (symDiag3Simd A old l).D (symDiag3Simd A old l).Q = A l := by
  obtain ⟨q, h, e⟩ := simd_inv A 24 (by norm_num) (fun _ => Quat.start) old (fun _ => start_sq) l
  have hs := similar_rotated hA h
  rw [symDiag3Simd, e]
  exact ⟨rotation_of_unit h, hs, by rw [reconstruct3_eq, ← hs.2.2]⟩

/-- No two of the three off-diagonal entries tie for the largest magnitude (unless all vanish) at
any of the at most `n` passes of the scalar routine. -/
def NoTies (A : M3) : ℕ → Quat → Prop
  | 0, _ => True
  | n + 1, q =>
    ((∃ k, ∀ j, j ≠ k → |offd (rotated A q) j| < |offd (rotated A q) k|) ∨
      ∀ k, offd (rotated A q) k = 0) ∧
    ∀ q', nextQuat (rotated A q) q = some q' → NoTies A n q'

theorem strictLargest_of {m : Fin 3 → ℝ} {k : Fin 3} (h : ∀ j, j ≠ k → m j < m k) :
    strictLargest m = some k := by
  unfold strictLargest
  fin_cases k
  · have h1 := h 1 (by decide); have h2 := h 2 (by decide)
    simp only [Fin.zero_eta] at h1 h2
    rw [if_neg (fun hh => absurd hh.2 (not_lt.mpr h2.le)),
      if_neg (fun hh => absurd hh.2 (not_lt.mpr h1.le)), if_pos ⟨h1, h2⟩]; rfl
  · have h1 := h 0 (by decide); have h2 := h 2 (by decide)
    simp only [Fin.mk_one] at h1 h2
    rw [if_neg (fun hh => absurd hh.1 (not_lt.mpr h2.le)), if_pos ⟨h2, h1⟩]; rfl
  · have h1 := h 0 (by decide); have h2 := h 1 (by decide)
    simp only [Fin.reduceFinMk] at h1 h2
    rw [if_pos ⟨h2, h1⟩]; rfl

theorem strictLargest_zero {m : Fin 3 → ℝ} (h : ∀ k, m k = 0) : strictLargest m = none := by
  simp [strictLargest, h]

theorem simd_scalar {A : M3} (n : ℕ) (q : Quat) (old : Out M3) (hq : q.sq = 1)
    (ht : NoTies A n q) :
    jacobiSimd (fun _ : Unit => A) n (fun _ => q) (fun _ => old) () = jacobi A n q old := by
  induction n generalizing q old with
  | zero => rfl
  | succ n ih =>
    rcases ht.1 with ⟨k, hk⟩ | hz
    · obtain ⟨hw, hn, hs⟩ := lane_step (q := q) hq (strictLargest_of (m := fun i => |offd (rotated A q) i|) hk)
      have h1 : ¬ ∀ _u : Unit, (laneJr (rotated A q)).w = 1 := fun h => hw (h ())
      simp only [jacobiSimd, jacobi, hn]
      rw [if_neg h1]
      exact ih _ _ hs (ht.2 _ hn)
    · have hnone : strictLargest (fun i => |offd (rotated A q) i|) = none :=
        strictLargest_zero (fun k => by rw [hz k, abs_zero])
      have h1 : ∀ _u : Unit, (laneJr (rotated A q)).w = 1 := fun _ => (lane_stay hq hnone).1
      have h2 : nextQuat (rotated A q) q = none := by simp [nextQuat, hz]
      simp only [jacobiSimd, jacobi, h2]
      rw [if_pos h1]

/-- **C160** Where no ties occur the SIMD overload returns in each lane exactly what the scalar
routine returns for that lane's matrix. -/
theorem c160_simd_agrees_partial {L : Type} (A : L → M3) (old : L → Out M3) (l : L)
    (ht : NoTies (A l) 24 Quat.start) :
    symDiag3Simd A old l = symDiag3 (A l) (old l) := by
  rw [c160_simd_lane_independent, symDiag3Simd, symDiag3]
  exact simd_scalar 24 Quat.start (old l) start_sq ht

theorem quatToMat_start : quatToMat Quat.start = 1 := by
  ext i j; fin_cases i <;> fin_cases j <;> simp [quatToMat, Quat.start]

/-- **C160** (why it is partial, 1) If two off-diagonal entries of a symmetric matrix tie for the
largest magnitude, the SIMD overload takes the matrix for diagonal: it returns `Q = 1` and `D = A`. -/
theorem c160_simd_tie_gives_up {L : Type} (A : L → M3) (old : L → Out M3) (l : L) (hA : Sym (A l))
    (ht : ∃ i j, i ≠ j ∧ |offd (A l) i| = |offd (A l) j| ∧ ∀ k, |offd (A l) k| ≤ |offd (A l) i|) :
    symDiag3Simd A old l = { Q := 1, D := A l } := by
  have hr : rotated (A l) Quat.start = A l := by rw [rotated_eq hA, quatToMat_start]; simp
  have hnone : strictLargest (fun i => |offd (rotated (A l) Quat.start) i|) = none := by
    rw [hr]
    cases hs : strictLargest (fun i => |offd (A l) i|) with
    | none => rfl
    | some k =>
      obtain ⟨h1, _⟩ := strictLargest_spec hs
      obtain ⟨i, j, hij, he, hm⟩ := ht
      exfalso
      by_cases hik : i = k
      · subst hik
        have := h1 j (Ne.symm hij)
        simp only [he] at this
        exact lt_irrefl _ this
      · exact absurd (h1 i hik) (not_lt.mpr (hm k))
  rw [c160_simd_lane_independent, symDiag3Simd, simd_stay start_sq hnone 24 (by norm_num), hr,
    quatToMat_start]

/-- The shear-like matrix with all off-diagonal entries one. -/
def tieExample : M3 := !![1, 1, 1; 1, 2, 1; 1, 1, 3]

/-- **C160** (why it is partial, 1) A symmetric matrix for which the SIMD overload returns a `D`
that is not diagonal. -/
theorem c160_simd_not_diagonal (old : Unit → Out M3) :
    Sym tieExample ∧ ¬ (symDiag3Simd (fun _ => tieExample) old ()).D.IsDiag := by
  have hs : Sym tieExample := by simp [Sym, tieExample]
  refine ⟨hs, ?_⟩
  rw [c160_simd_tie_gives_up (fun _ => tieExample) old () hs
    ⟨0, 1, by decide, by simp [offd, tieExample], fun k => by fin_cases k <;> simp [offd, tieExample]⟩]
  intro h
  have := h (show (0 : Fin 3) ≠ 1 by decide)
  simp [tieExample] at this

end Nalu.Eigen
