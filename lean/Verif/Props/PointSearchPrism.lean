import Verif.Props.PointSearch

/-!
# C44: the point search of the quadrilateral, the wedge and the pyramid
-/

set_option linter.unusedSimpArgs false
set_option linter.unusedSectionVars false
set_option linter.unusedVariables false

namespace Verif.Shape

section
variable {K : Type*} [Field K] [LinearOrder K] [IsStrictOrderedRing K]

/-! ## Quadrilateral in 2D -/

/-- Derivatives of the quadrilateral's shape functions on `[-1,1]^2`. -/
def quadGenDeriv (p : Fin 2 → K) : Fin 4 → Fin 2 → K := fun k j => 1 / 2 * quadDeriv (fun i => p i / 2) k j

theorem quadJRow_eq (e : Fin 4 → Fin 2 → K) (c : Fin 2 → K) (i j : Fin 2) :
    quadJRow (fun k => e k i - e 0 i) c j = jacobian (quadGenDeriv c) e i j := by
  revert j
  simp only [forall2, jacobian, Matrix.of_apply, Fin.sum_univ_four, quadGenDeriv, quadDeriv, quadJRow]
  refine ⟨?_, ?_⟩ <;> ring

theorem quadF_eq (e : Fin 4 → Fin 2 → K) (p c : Fin 2 → K) (i : Fin 2) :
    quadF (fun k => e k i - e 0 i) (p i - e 0 i) c
      = interp (quadGeneralShape c) (fun k => e k i) - p i := by
  simp only [quadF, interp, Fin.sum_univ_four, quadGeneralShape]; ring

/-- C44 (quadrilateral): every iteration is a Newton iteration. -/
theorem c44_quad_newton (e : Fin 4 → Fin 2 → K) (p : Fin 2 → K) :
    IsNewton quadGeneralShape quadGenDeriv e p (quadStep e p) := by
  intro c
  have hdet : quadJRow (fun k => e k 0 - e 0 0) c 0 * quadJRow (fun k => e k 1 - e 0 1) c 1
      - quadJRow (fun k => e k 0 - e 0 0) c 1 * quadJRow (fun k => e k 1 - e 0 1) c 0
      = (jacobian (quadGenDeriv c) e).det := by
    rw [Matrix.det_fin_two]; simp only [quadJRow_eq]
  constructor
  · intro h
    simp only [quadStep, quadUpdate, hdet, h, if_true]
  · intro h
    refine ⟨_, by simp only [quadStep, quadUpdate, hdet, h, if_false]; rfl, ?_⟩
    simp only [quadJRow_eq, quadF_eq]
    rw [Matrix.det_fin_two] at h ⊢
    generalize jacobian (quadGenDeriv c) e = J at h ⊢
    generalize hD : J 0 0 * J 1 1 - J 0 1 * J 1 0 = D at h ⊢
    simp only [forall2, Fin.sum_univ_two, v20, v21]
    constructor <;> field_simp <;> rw [← hD] <;> ring

theorem c44_quad_newton_derivative (p : Fin 2 → ℝ) : DerivAt quadGeneralShape (quadGenDeriv p) p := by
  simp only [DerivAt, forall4, forall2]
  (repeat' apply And.intro) <;> refine hasDerivAt_of_affine fun x => ?_ <;>
    simp only [quadGeneralShape, quadGenDeriv, quadDeriv, w00, w01, w10, w11] <;> ring

theorem quadGenDeriv_zero (c : Fin 2 → K) (j : Fin 2) : ∑ k, quadGenDeriv c k j = 0 := by
  simp only [quadGenDeriv, ← Finset.mul_sum,
    (c41_derivatives_sum_zero (fun _ => (0 : K)) (fun i => c i / 2)).2.2.2.2.1, mul_zero]

theorem quadGenDeriv_nodes (c : Fin 2 → K) :
    ∀ j l : Fin 2, ∑ k, quadGenDeriv c k j * quadNodes 1 k l = if j = l then 1 else 0 := by
  simp only [forall2, quadGenDeriv, quadDeriv, quadNodes, Fin.sum_univ_four, v20, v21,
    Fin.reduceEq, if_true, if_false]
  (repeat' apply And.intro) <;> ring

theorem quadDist_le_one (x : Fin 2 → K) : quadDist x ≤ 1 ↔ ∀ j, |x j| ≤ 1 := by
  simp only [quadDist, forall2]
  constructor
  · intro h; split_ifs at h <;> constructor <;> linarith
  · rintro ⟨a, b⟩; split_ifs <;> linarith

/-- C44 (quadrilateral, parallelogram): for every point the search succeeds, is exact, and classifies
inside and outside correctly. -/
theorem c44_quad_affine {tol : K} (ht : 0 < tol) {e : Fin 4 → Fin 2 → K} {b : Fin 2 → K}
    {A : Matrix (Fin 2) (Fin 2) K} (he : AffineElement (quadNodes 1) e b A) (hA : A.det ≠ 0)
    (p : Fin 2 → K) :
    ∃ x, quadSearch tol e p = some x ∧ (∀ i, interp (quadGeneralShape x) (fun k => e k i) = p i) ∧
      (quadDist x ≤ 1 ↔ ∃ z : Fin 2 → K, (∀ j, |z j| ≤ 1) ∧ ∀ i, p i = b i + ∑ j, A i j * z j) := by
  obtain ⟨x, hx⟩ := exists_preimage hA b p
  have hlin : ∀ c : Fin 2 → K, LinearAt quadGeneralShape (quadNodes 1) c := fun c =>
    (c40_linear (fun _ => 0) c (fun _ => 0)).2.2.2.2.2.1
  refine ⟨x, affine_exact (c44_quad_newton e p) he hA ht (fun _ => True) (fun c _ => hlin c)
    (fun c _ => quadGenDeriv_zero c) (fun c _ => quadGenDeriv_nodes c) trivial trivial hx 8, ?_, ?_⟩
  · intro i; rw [interp_affine he (hlin x), ← hx i]
  · rw [quadDist_le_one]
    constructor
    · intro h; exact ⟨x, h, hx⟩
    · rintro ⟨z, hz, hpz⟩
      have : x = z := mulVec_inj hA fun i => by
        have := (hx i).symm.trans (hpz i); exact add_left_cancel this
      rw [this]; exact hz

/-- C44 (quadrilateral, any geometry): whatever the search returns, the position interpolated there is
within `tol/8` times the twist of the element of the point. -/
theorem c44_quad_accuracy {tol : K} {e : Fin 4 → Fin 2 → K} {p y : Fin 2 → K}
    (hs : quadSearch tol e p = some y) (i : Fin 2) :
    |interp (quadGeneralShape y) (fun k => e k i) - p i|
      ≤ tol / 8 * |e 0 i - e 1 i + e 2 i - e 3 i| := by
  obtain ⟨c, hc, hconv⟩ := newton_pred hs
  rw [converged_iff, Fin.sum_univ_two] at hconv
  by_cases hd : (jacobian (quadGenDeriv c) e).det = 0
  · rw [(c44_quad_newton e p c).1 hd] at hc; simp at hc
  obtain ⟨y', hy', hstep⟩ := (c44_quad_newton e p c).2 hd
  rw [hc] at hy'
  obtain rfl := Option.some.inj hy'
  have hst := hstep i
  simp only [jacobian, Matrix.of_apply, Fin.sum_univ_two] at hst
  have hrem : interp (quadGeneralShape y) (fun k => e k i) - p i
      = (y 0 - c 0) * (y 1 - c 1) * (1 / 4 * (e 0 i - e 1 i + e 2 i - e 3 i)) := by
    have h2 : interp (quadGeneralShape y) (fun k => e k i) - interp (quadGeneralShape c) (fun k => e k i)
      - ((∑ k, quadGenDeriv c k 0 * e k i) * (y 0 - c 0) + (∑ k, quadGenDeriv c k 1 * e k i) * (y 1 - c 1))
      = (y 0 - c 0) * (y 1 - c 1) * (1 / 4 * (e 0 i - e 1 i + e 2 i - e 3 i)) := by
      simp only [interp, Fin.sum_univ_four, quadGeneralShape, quadGenDeriv, quadDeriv]; ring
    rw [← h2, hst]; ring
  rw [hrem, abs_mul, abs_mul (1 / 4), abs_of_pos (by norm_num : (0 : K) < 1 / 4)]
  have h3 := abs_mul_le_sq (y 0 - c 0) (y 1 - c 1)
  have h4 := abs_nonneg (e 0 i - e 1 i + e 2 i - e 3 i)
  have h5 : |(y 0 - c 0) * (y 1 - c 1)| ≤ tol / 2 := h3.trans (by linarith)
  calc |(y 0 - c 0) * (y 1 - c 1)| * (1 / 4 * |e 0 i - e 1 i + e 2 i - e 3 i|)
      ≤ tol / 2 * (1 / 4 * |e 0 i - e 1 i + e 2 i - e 3 i|) :=
        mul_le_mul_of_nonneg_right h5 (by linarith)
    _ = tol / 8 * |e 0 i - e 1 i + e 2 i - e 3 i| := by ring

/-! ## Wedge -/

theorem wedJRow_eq (e : Fin 6 → Fin 3 → K) (c : Fin 3 → K) (i j : Fin 3) :
    wedJRow (fun k => e k i - e 0 i) c j = -jacobian (wedDeriv c) e i j := by
  have hz := (c41_derivatives_sum_zero c (fun _ => (0 : K))).2.2.1 j
  simp only [jacobian, Matrix.of_apply, wedJRow, Fin.sum_univ_six] at hz ⊢
  linear_combination (e 0 i) * hz

theorem wedF_eq (e : Fin 6 → Fin 3 → K) (p c : Fin 3 → K) (i : Fin 3) :
    wedF (fun k => e k i - e 0 i) (p i - e 0 i) c = p i - interp (wedShape c) (fun k => e k i) := by
  have hp := (c40_partition_of_unity (K := K)).2.2.2.1 c
  simp only [wedF, interp, Fin.sum_univ_six] at hp ⊢
  linear_combination (e 0 i) * hp

theorem wedUpdate_spec (a b g : Fin 3 → K) (f0 f1 f2 : K) (c : Fin 3 → K) (hD : jdet9 a b g ≠ 0) :
    ∃ y, wedUpdate a b g f0 f1 f2 c = some y ∧ ∑ j, a j * (y j - c j) = -f0 ∧
      ∑ j, b j * (y j - c j) = -f1 ∧ ∑ j, g j * (y j - c j) = -f2 := by
  have hd : a 0 * (b 1 * g 2 - b 2 * g 1) - a 1 * (b 0 * g 2 - b 2 * g 0)
    + a 2 * (b 0 * g 1 - b 1 * g 0) = jdet9 a b g := by simp only [jdet9]; ring
  refine ⟨_, by simp only [wedUpdate, hd, hD, if_false]; rfl, ?_⟩
  simp only [Fin.sum_univ_three, v30, v31, v32]
  generalize hD' : jdet9 a b g = D at hD ⊢
  refine ⟨?_, ?_, ?_⟩ <;> field_simp <;> rw [← hD'] <;> simp only [jdet9] <;> ring

/-- C44 (wedge): every iteration is a Newton iteration. -/
theorem c44_wed_newton (e : Fin 6 → Fin 3 → K) (p : Fin 3 → K) :
    IsNewton wedShape wedDeriv e p (wedStep e p) := by
  intro c
  have hdet : jdet9 (wedJRow (fun k => e k 0 - e 0 0) c) (wedJRow (fun k => e k 1 - e 0 1) c)
      (wedJRow (fun k => e k 2 - e 0 2) c) = -(jacobian (wedDeriv c) e).det := by
    rw [Matrix.det_fin_three]; simp only [jdet9, wedJRow_eq]; ring
  constructor
  · intro h
    have h0 : wedJRow (fun k => e k 0 - e 0 0) c 0 * (wedJRow (fun k => e k 1 - e 0 1) c 1
        * wedJRow (fun k => e k 2 - e 0 2) c 2 - wedJRow (fun k => e k 1 - e 0 1) c 2
        * wedJRow (fun k => e k 2 - e 0 2) c 1) - wedJRow (fun k => e k 0 - e 0 0) c 1
        * (wedJRow (fun k => e k 1 - e 0 1) c 0 * wedJRow (fun k => e k 2 - e 0 2) c 2
        - wedJRow (fun k => e k 1 - e 0 1) c 2 * wedJRow (fun k => e k 2 - e 0 2) c 0)
        + wedJRow (fun k => e k 0 - e 0 0) c 2 * (wedJRow (fun k => e k 1 - e 0 1) c 0
        * wedJRow (fun k => e k 2 - e 0 2) c 1 - wedJRow (fun k => e k 1 - e 0 1) c 1
        * wedJRow (fun k => e k 2 - e 0 2) c 0) = 0 := by
      rw [h, neg_zero] at hdet; rw [← hdet]; simp only [jdet9]; ring
    simp only [wedStep, wedUpdate, h0, if_true]
  · intro h
    obtain ⟨y, hy, h0, h1, h2⟩ := wedUpdate_spec (wedJRow (fun k => e k 0 - e 0 0) c)
      (wedJRow (fun k => e k 1 - e 0 1) c) (wedJRow (fun k => e k 2 - e 0 2) c)
      (wedF (fun k => e k 0 - e 0 0) (p 0 - e 0 0) c) (wedF (fun k => e k 1 - e 0 1) (p 1 - e 0 1) c)
      (wedF (fun k => e k 2 - e 0 2) (p 2 - e 0 2) c) c (by rw [hdet]; exact neg_ne_zero.2 h)
    refine ⟨y, hy, ?_⟩
    have hJ : ∀ i j, jacobian (wedDeriv c) e i j = -wedJRow (fun k => e k i - e 0 i) c j := fun i j => by
      rw [wedJRow_eq, neg_neg]
    simp only [hJ, ← wedF_eq, neg_mul, Finset.sum_neg_distrib, forall3]
    exact ⟨by rw [h0, neg_neg], by rw [h1, neg_neg], by rw [h2, neg_neg]⟩

theorem wedDeriv_nodes (c : Fin 3 → K) :
    ∀ j l : Fin 3, ∑ k, wedDeriv c k j * wedNodes k l = if j = l then 1 else 0 := by
  simp only [forall3, wedDeriv, wedNodes, Fin.sum_univ_six, v30, v31, v32,
    Fin.reduceEq, if_true, if_false]
  (repeat' apply And.intro) <;> ring

/-- The reference wedge. -/
def InWedge (x : Fin 3 → K) : Prop := 0 ≤ x 0 ∧ 0 ≤ x 1 ∧ x 0 + x 1 ≤ 1 ∧ |x 2| ≤ 1

theorem wedDist_le_one (x : Fin 3 → K) : wedDist x ≤ 1 ↔ InWedge x := by
  simp only [wedDist, max_le_iff, InWedge]
  constructor
  · rintro ⟨a, ⟨b, c⟩, d⟩; exact ⟨by linarith, by linarith, by linarith, a⟩
  · rintro ⟨a, b, c, d⟩; exact ⟨d, ⟨by linarith, by linarith⟩, by linarith⟩

/-- C44 (wedge, affine geometry). -/
theorem c44_wed_affine {tol : K} (ht : 0 < tol) {e : Fin 6 → Fin 3 → K} {b : Fin 3 → K}
    {A : Matrix (Fin 3) (Fin 3) K} (he : AffineElement wedNodes e b A) (hA : A.det ≠ 0)
    (p : Fin 3 → K) :
    ∃ x, wedSearch tol e p = some x ∧ (∀ i, interp (wedShape x) (fun k => e k i) = p i) ∧
      (wedDist x ≤ 1 ↔ ∃ z : Fin 3 → K, InWedge z ∧ ∀ i, p i = b i + ∑ j, A i j * z j) := by
  obtain ⟨x, hx⟩ := exists_preimage hA b p
  have hlin : ∀ c : Fin 3 → K, LinearAt wedShape wedNodes c := fun c =>
    (c40_linear c (fun _ => 0) (fun _ => 0)).2.2.2.1
  refine ⟨x, affine_exact (c44_wed_newton e p) he hA ht (fun _ => True) (fun c _ => hlin c)
    (fun c _ => (c41_derivatives_sum_zero c (fun _ => (0 : K))).2.2.1) (fun c _ => wedDeriv_nodes c)
    trivial trivial hx 18, ?_, ?_⟩
  · intro i; rw [interp_affine he (hlin x), ← hx i]
  · rw [wedDist_le_one]
    constructor
    · intro h; exact ⟨x, h, hx⟩
    · rintro ⟨z, hz, hpz⟩
      have : x = z := mulVec_inj hA fun i => by
        have := (hx i).symm.trans (hpz i); exact add_left_cancel this
      rw [this]; exact hz

/-- C44 (wedge, any geometry): the returned coordinates reproduce the point to within `tol / 2` times
a bound `W` on the twist of the quadrilateral sides next to node 0. -/
theorem c44_wed_accuracy {tol : K} {e : Fin 6 → Fin 3 → K} {p y : Fin 3 → K}
    (hs : wedSearch tol e p = some y) (i : Fin 3) {W : K}
    (w1 : |e 0 i - e 1 i + e 4 i - e 3 i| ≤ W) (w2 : |e 0 i - e 2 i + e 5 i - e 3 i| ≤ W) :
    |interp (wedShape y) (fun k => e k i) - p i| ≤ tol * W / 2 := by
  obtain ⟨c, hc, hconv⟩ := newton_pred hs
  rw [converged_iff, Fin.sum_univ_three] at hconv
  by_cases hd : (jacobian (wedDeriv c) e).det = 0
  · rw [(c44_wed_newton e p c).1 hd] at hc; simp at hc
  obtain ⟨y', hy', hstep⟩ := (c44_wed_newton e p c).2 hd
  rw [hc] at hy'
  obtain rfl := Option.some.inj hy'
  have hst := hstep i
  simp only [jacobian, Matrix.of_apply, Fin.sum_univ_three] at hst
  have hW : 0 ≤ W := (abs_nonneg _).trans w1
  have hrem : interp (wedShape y) (fun k => e k i) - p i
      = (y 0 - c 0) * (y 2 - c 2) * (1 / 2 * (e 0 i - e 1 i + e 4 i - e 3 i))
        + (y 1 - c 1) * (y 2 - c 2) * (1 / 2 * (e 0 i - e 2 i + e 5 i - e 3 i)) := by
    have h2 : interp (wedShape y) (fun k => e k i) - interp (wedShape c) (fun k => e k i)
      - ((∑ k, wedDeriv c k 0 * e k i) * (y 0 - c 0) + (∑ k, wedDeriv c k 1 * e k i) * (y 1 - c 1)
        + (∑ k, wedDeriv c k 2 * e k i) * (y 2 - c 2))
      = (y 0 - c 0) * (y 2 - c 2) * (1 / 2 * (e 0 i - e 1 i + e 4 i - e 3 i))
        + (y 1 - c 1) * (y 2 - c 2) * (1 / 2 * (e 0 i - e 2 i + e 5 i - e 3 i)) := by
      simp only [interp, Fin.sum_univ_six, wedShape, wedDeriv]; ring
    rw [← h2, hst]; ring
  rw [hrem]
  have hb := abs_three (a := y 0 - c 0) (b := y 1 - c 1) (g := y 2 - c 2) (H := W / 2)
    (P := 0) (Q := 1 / 2 * (e 0 i - e 2 i + e 5 i - e 3 i)) (R := 1 / 2 * (e 0 i - e 1 i + e 4 i - e 3 i))
    (by linarith) (by rw [abs_zero]; linarith)
    (by rw [abs_mul, abs_of_pos (by norm_num : (0 : K) < 1 / 2)]; linarith)
    (by rw [abs_mul, abs_of_pos (by norm_num : (0 : K) < 1 / 2)]; linarith)
  have e1 : (y 0 - c 0) * (y 2 - c 2) * (1 / 2 * (e 0 i - e 1 i + e 4 i - e 3 i))
        + (y 1 - c 1) * (y 2 - c 2) * (1 / 2 * (e 0 i - e 2 i + e 5 i - e 3 i))
      = (y 0 - c 0) * (y 1 - c 1) * 0 + (y 1 - c 1) * (y 2 - c 2) * (1 / 2 * (e 0 i - e 2 i + e 5 i - e 3 i))
        + (y 0 - c 0) * (y 2 - c 2) * (1 / 2 * (e 0 i - e 1 i + e 4 i - e 3 i)) := by ring
  rw [e1]
  refine hb.trans ?_
  have : ((y 0 - c 0) ^ 2 + (y 1 - c 1) ^ 2 + (y 2 - c 2) ^ 2) * (W / 2) ≤ tol * (W / 2) :=
    mul_le_mul_of_nonneg_right hconv.le (by linarith)
  linarith

/-! ## Pyramid -/

theorem solve33_spec (a b g r : Fin 3 → K) :
    (jdet9 a b g = 0 → solve33 a b g r = none) ∧
    (jdet9 a b g ≠ 0 → ∃ d, solve33 a b g r = some d ∧ ∑ j, a j * d j = r 0 ∧
      ∑ j, b j * d j = r 1 ∧ ∑ j, g j * d j = r 2) := by
  have hd : a 0 * (b 1 * g 2 - b 2 * g 1) - a 1 * (b 0 * g 2 - b 2 * g 0)
    + a 2 * (b 0 * g 1 - b 1 * g 0) = jdet9 a b g := by simp only [jdet9]; ring
  refine ⟨fun h => by simp only [solve33, hd, h, if_true], fun hD => ?_⟩
  refine ⟨_, by simp only [solve33, hd, hD, if_false]; rfl, ?_⟩
  simp only [Fin.sum_univ_three, v30, v31, v32]
  generalize hD' : jdet9 a b g = D at hD ⊢
  refine ⟨?_, ?_, ?_⟩ <;> field_simp <;> rw [← hD'] <;> simp only [jdet9] <;> ring

/-- C44 (pyramid): every iteration is a Newton iteration. -/
theorem c44_pyr_newton (eps : K) (e : Fin 5 → Fin 3 → K) (p : Fin 3 → K) :
    IsNewton (pyrShape eps) (pyrDeriv eps) e p (pyrStep eps e p) := by
  intro c
  have hJ : ∀ i j, jacobian (pyrDeriv eps c) e i j = jact (pyrDeriv eps c) e i j := fun _ _ => rfl
  have hdet : jdet9 (jact (pyrDeriv eps c) e 0) (jact (pyrDeriv eps c) e 1) (jact (pyrDeriv eps c) e 2)
      = (jacobian (pyrDeriv eps c) e).det := by
    rw [Matrix.det_fin_three]; simp only [jdet9, hJ]; ring
  obtain ⟨h0, h1⟩ := solve33_spec (jact (pyrDeriv eps c) e 0) (jact (pyrDeriv eps c) e 1)
    (jact (pyrDeriv eps c) e 2) (fun i => p i - ∑ k, pyrShape eps c k * e k i)
  rw [hdet] at h0 h1
  constructor
  · intro h; simp only [pyrStep, h0 h, Option.map_none]
  · intro h
    obtain ⟨d, hd, e0, e1, e2⟩ := h1 h
    refine ⟨fun j => c j + d j, by simp only [pyrStep, hd, Option.map_some], ?_⟩
    simp only [add_sub_cancel_left, forall3, hJ, e0, e1, e2, interp, and_self]

theorem pyrDeriv_nodes {eps : K} (he : 0 < eps) (c : Fin 3 → K) (hc : eps < |1 - c 2|) :
    ∀ j l : Fin 3, ∑ k, pyrDeriv eps c k j * pyrNodes k l = if j = l then 1 else 0 := by
  have hne : 1 - c 2 ≠ 0 := by
    intro h; rw [h, abs_zero] at hc; exact absurd hc (not_lt.2 he.le)
  simp only [forall3, pyrDeriv, pyrNodes, Fin.sum_univ_five, v30, v31, v32,
    Fin.reduceEq, if_true, if_false, pyrClamp, hc, if_true]
  (repeat' apply And.intro) <;> first | ring1 | (field_simp; ring1)

/-- The reference pyramid. -/
def InPyramid (x : Fin 3 → K) : Prop := 0 ≤ x 2 ∧ |x 0| ≤ 1 - x 2 ∧ |x 1| ≤ 1 - x 2

theorem pyrDist_le_one (x : Fin 3 → K) : pyrDist x ≤ 1 ↔ InPyramid x := by
  simp only [pyrDist, max_le_iff, InPyramid]
  constructor
  · rintro ⟨a, b⟩
    have h0 := le_max_left |x 0| |x 1|; have h1 := le_max_right |x 0| |x 1|
    exact ⟨by linarith, by linarith, by linarith⟩
  · rintro ⟨a, b, c⟩
    have := max_le b c
    exact ⟨by linarith, by linarith⟩

/-- C44 (pyramid, affine geometry): the same for every point whose parametric preimage `x` is off the
apex plane. -/
theorem c44_pyr_affine {eps tol : K} (heps : 0 < eps) (heps1 : eps < 2 / 3) (ht : 0 < tol)
    {e : Fin 5 → Fin 3 → K} {b : Fin 3 → K}
    {A : Matrix (Fin 3) (Fin 3) K} (he : AffineElement pyrNodes e b A) (hA : A.det ≠ 0)
    (p x : Fin 3 → K) (hx : ∀ i, p i = b i + ∑ j, A i j * x j) (hoff : eps < |1 - x 2|) :
    pyrSearch eps tol e p = some x ∧ (∀ i, interp (pyrShape eps x) (fun k => e k i) = p i) ∧
      (pyrDist x ≤ 1 ↔ ∃ z : Fin 3 → K, InPyramid z ∧ ∀ i, p i = b i + ∑ j, A i j * z j) := by
  refine ⟨affine_exact (c44_pyr_newton eps e p) he hA ht (fun c => eps < |1 - c 2|)
    (fun c hc => c40_pyr_linear heps c hc) (fun c _ => (c41_pyr_gradient_exact heps c).1)
    (fun c hc => pyrDeriv_nodes heps c hc) ?_ hoff hx 98, ?_, ?_⟩
  · simp only [v32]; rw [abs_of_pos (by norm_num)]; linarith
  · intro i; rw [interp_affine he (c40_pyr_linear heps x hoff), ← hx i]
  · rw [pyrDist_le_one]
    constructor
    · intro h; exact ⟨x, h, hx⟩
    · rintro ⟨z, hz, hpz⟩
      have : x = z := mulVec_inj hA fun i => by
        have := (hx i).symm.trans (hpz i); exact add_left_cancel this
      rw [this]; exact hz

end
end Verif.Shape
