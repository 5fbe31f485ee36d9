import Verif.Model.FaceSearch
import Verif.Proofs.Quadratic
import Verif.Props.PointSearchSurf

/-!
# C350: the point search on the nine-node face

`pos9 x i s t` is coordinate `i` of the position the nine nodes interpolate at `(s, t)`; `surfResidual (corners x)` is the residual of the four-node face
through the first four nodes.
-/

open Finset

namespace Nalu.P2
open Spec Verif.Shape

/-- The position the nine nodes interpolate. -/
noncomputable def pos9 (x : ℕ → Fin 3 → ℝ) (i : Fin 3) (s t : ℝ) : ℝ := ∑ n ∈ range 9, ell (ref2 n).1 s * ell (ref2 n).2 t * x n i

/-- The normal of the four-node face through the corners (length: the area it magnifies). -/
noncomputable def cornerNormal (x : ℕ → Fin 3 → ℝ) (s : Fin 3 → ℝ) : Fin 3 → ℝ :=
  Verif.Shape.cross (Verif.Shape.tangent (corners x) s 0) (Verif.Shape.tangent (corners x) s 1)

/-- The interpolation is that of the shape functions. -/
theorem c350_interpolate (s t : ℝ) (f : ℕ → ℝ) : face9Interp s t f = ∑ n ∈ range 9, face9Shape s t n * f n := by
  simp only [face9Interp, sum_range_succ, sum_range_zero, face9Shape]; ring

theorem face9Interp_eq (x : ℕ → Fin 3 → ℝ) (i : Fin 3) (s t : ℝ) : face9Interp s t (fun k => x k i) = pos9 x i s t := by
  rw [c350_interpolate]
  exact sum_congr rfl fun n hn => by rw [face9Shape_eq (mem_range.1 hn)]

theorem face9G_eq (x : ℕ → Fin 3 → ℝ) (p s : Fin 3 → ℝ) (i : Fin 3) :
    face9G x p (quad3dNormal (quad3dX (corners x) 0) (quad3dX (corners x) 1) (quad3dX (corners x) 2) (s 0) (s 1)) s i
      = pos9 x i (s 0) (s 1) + s 2 * cornerNormal x s i - p i := by
  rw [face9G, quad3dNormal_eq, face9Interp_eq, cornerNormal]; ring

/-- Every iteration solves, for the position of the nine-node face plus a multiple of the corners' normal, a system whose matrix holds the slopes of the
residual of the four-node face through the corners. -/
theorem c350_step (x : ℕ → Fin 3 → ℝ) (p s : Fin 3 → ℝ) :
    ∃ J : Matrix (Fin 3) (Fin 3) ℝ,
      (∀ i j t, surfResidual (corners x) p (Function.update s j t) i = surfResidual (corners x) p s i + (t - s j) * J i j) ∧
      (J.det = 0 → face9Step x p s = none) ∧
      (J.det ≠ 0 → ∃ y, face9Step x p s = some y ∧ ∀ i, ∑ j, J i j * (y j - s j) = p i - pos9 x i (s 0) (s 1) - s 2 * cornerNormal x s i) := by
  classical
  refine ⟨Matrix.of fun i j => quad3dJ (corners x) s i j, fun i j t => quad3dJ_slope (corners x) p s i j t, ?_, ?_⟩
  all_goals
    have hdet : (Matrix.of fun i j => quad3dJ (corners x) s i j).det
        = jdet9 (quad3dJ (corners x) s 0) (quad3dJ (corners x) s 1) (quad3dJ (corners x) s 2) := by
      rw [Matrix.det_fin_three]; simp only [Matrix.of_apply, jdet9]; ring
    rw [hdet]
  · intro h
    change quad3dUpdate (quad3dJ (corners x) s 0) (quad3dJ (corners x) s 1) (quad3dJ (corners x) s 2) _ _ _ s = none
    unfold quad3dUpdate
    simp [h]
  · intro h
    obtain ⟨y, hy, h1, h2, h3⟩ := quad3dUpdate_spec (quad3dJ (corners x) s 0) (quad3dJ (corners x) s 1) (quad3dJ (corners x) s 2)
      (pos9 x 0 (s 0) (s 1) + s 2 * cornerNormal x s 0 - p 0) (pos9 x 1 (s 0) (s 1) + s 2 * cornerNormal x s 1 - p 1)
      (pos9 x 2 (s 0) (s 1) + s 2 * cornerNormal x s 2 - p 2) s h
    refine ⟨y, ?_, ?_⟩
    · rw [← hy]
      simp only [face9Step, face9G_eq]
      rfl
    · simp only [forall3, Matrix.of_apply]
      exact ⟨by rw [h1]; ring, by rw [h2]; ring, by rw [h3]; ring⟩

/-- A position the iteration does not leave: the point is the position interpolated by the nine nodes plus a multiple of the normal of the corners' face,
so that what is dropped is a perpendicular on the corners' face, not on the nine-node face. -/
theorem c350_fixed_point (x : ℕ → Fin 3 → ℝ) (p s : Fin 3 → ℝ) (hs : face9Step x p s = some s) :
    (∀ i, p i = pos9 x i (s 0) (s 1) + s 2 * cornerNormal x s i) ∧
      ∀ a, ∑ i, (p i - pos9 x i (s 0) (s 1)) * Verif.Shape.tangent (corners x) s a i = 0 := by
  obtain ⟨J, -, h0, h1⟩ := c350_step x p s
  have hp : ∀ i, p i = pos9 x i (s 0) (s 1) + s 2 * cornerNormal x s i := by
    by_cases hd : J.det = 0
    · rw [h0 hd] at hs; simp at hs
    · obtain ⟨y, hy, h⟩ := h1 hd
      rw [hs] at hy
      obtain rfl := Option.some.inj hy
      intro i
      have := h i
      simp only [sub_self, mul_zero, Finset.sum_const_zero] at this
      linear_combination -this
  refine ⟨hp, ?_⟩
  simp only [forall2, Fin.sum_univ_three]
  have hc := cross_perp (Verif.Shape.tangent (corners x) s 0) (Verif.Shape.tangent (corners x) s 1)
  simp only [Fin.sum_univ_three] at hc
  rw [hp 0, hp 1, hp 2]
  simp only [cornerNormal]
  exact ⟨by linear_combination s 2 * hc.1, by linear_combination s 2 * hc.2⟩

/-- The nodes of a face whose corners form the parallelogram with centre `b` and half edges `u`, `v`, the other nodes displaced along its normal by `h`. -/
def IsBulged (x : ℕ → Fin 3 → ℝ) (b u v : Fin 3 → ℝ) (h : ℕ → ℝ) : Prop :=
  (∀ n < 4, h n = 0) ∧ ∀ n < 9, ∀ i, x n i = b i + u i * (ref2 n).1 + v i * (ref2 n).2 + h n * Verif.Shape.cross u v i

theorem bulged_pos {x : ℕ → Fin 3 → ℝ} {b u v : Fin 3 → ℝ} {h : ℕ → ℝ} (hx : IsBulged x b u v h) (i : Fin 3) (s t : ℝ) :
    pos9 x i s t = b i + u i * s + v i * t + (∑ n ∈ range 9, ell (ref2 n).1 s * ell (ref2 n).2 t * h n) * Verif.Shape.cross u v i := by
  have : pos9 x i s t = ∑ n ∈ range 9, ell (ref2 n).1 s * ell (ref2 n).2 t * (b i + u i * (ref2 n).1 + v i * (ref2 n).2 + h n * Verif.Shape.cross u v i) :=
    sum_congr rfl fun n hn => by rw [hx.2 n (mem_range.1 hn)]
  rw [this]
  simp [sum_range_succ, ref2, ell]
  ring

theorem bulged_corners {x : ℕ → Fin 3 → ℝ} {b u v : Fin 3 → ℝ} {h : ℕ → ℝ} (hx : IsBulged x b u v h) : IsParallelogram (corners x) b u v := by
  intro k i
  have h0 := hx.2 0 (by norm_num) i; have h1 := hx.2 1 (by norm_num) i; have h2 := hx.2 2 (by norm_num) i; have h3 := hx.2 3 (by norm_num) i
  rw [hx.1 0 (by norm_num)] at h0; rw [hx.1 1 (by norm_num)] at h1; rw [hx.1 2 (by norm_num)] at h2; rw [hx.1 3 (by norm_num)] at h3
  fin_cases k <;> simp [corners, quadNodes, h0, h1, h2, h3, ref2]

theorem bulged_tangents {x : ℕ → Fin 3 → ℝ} {b u v : Fin 3 → ℝ} {h : ℕ → ℝ} (hx : IsBulged x b u v h) (s : Fin 3 → ℝ) :
    Verif.Shape.tangent (corners x) s 0 = u ∧ Verif.Shape.tangent (corners x) s 1 = v := by
  have he := bulged_corners hx
  constructor <;> funext i <;>
    simp only [Verif.Shape.tangent, Fin.sum_univ_four, quadGenDeriv, quadDeriv, v20, v21, he _ i, quadNodes] <;> ring

theorem bulged_step {x : ℕ → Fin 3 → ℝ} {b u v : Fin 3 → ℝ} {h : ℕ → ℝ} (hx : IsBulged x b u v h) (hn : Verif.Shape.cross u v ≠ 0) {p q : Fin 3 → ℝ}
    (hq : ∀ i, p i = b i + u i * q 0 + v i * q 1 + q 2 * Verif.Shape.cross u v i) (s : Fin 3 → ℝ) :
    face9Step x p s = some ![q 0, q 1, q 2 - ∑ n ∈ range 9, ell (ref2 n).1 (s 0) * ell (ref2 n).2 (s 1) * h n] := by
  let A : Matrix (Fin 3) (Fin 3) ℝ := Matrix.of fun i j => match j with
    | 0 => u i
    | 1 => v i
    | 2 => Verif.Shape.cross u v i
  have hA : A.det ≠ 0 := by
    have : A.det = Verif.Shape.cross u v 0 * Verif.Shape.cross u v 0 + Verif.Shape.cross u v 1 * Verif.Shape.cross u v 1
        + Verif.Shape.cross u v 2 * Verif.Shape.cross u v 2 := by
      rw [Matrix.det_fin_three]; simp only [A, Matrix.of_apply, Verif.Shape.cross]; ring
    rw [this]
    intro h
    apply hn
    funext i
    revert i
    simp only [forall3, Pi.zero_apply]
    refine ⟨?_, ?_, ?_⟩ <;>
      nlinarith [mul_self_nonneg (Verif.Shape.cross u v 0), mul_self_nonneg (Verif.Shape.cross u v 1), mul_self_nonneg (Verif.Shape.cross u v 2)]
  have hsurf : ∀ s i, surf (corners x) s i = b i + u i * s 0 + v i * s 1 := by
    intro s i
    simp only [surf, Verif.Shape.interp, Fin.sum_univ_four, quadGeneralShape, v20, v21, bulged_corners hx _ i, quadNodes]; ring
  have hres : ∀ s i, surfResidual (corners x) p s i = b i + u i * s 0 + v i * s 1 + s 2 * Verif.Shape.cross u v i - p i := by
    intro s i; rw [surfResidual, hsurf, (bulged_tangents hx s).1, (bulged_tangents hx s).2]
  obtain ⟨J, hJ, -, h1⟩ := c350_step x p s
  have hJA : J = A := by
    ext i j
    have := hJ i j (s j + 1)
    rw [hres, hres] at this
    revert j
    simp only [forall3]
    refine ⟨?_, ?_, ?_⟩ <;> intro this <;> simp at this <;> simp only [A, Matrix.of_apply] <;> linear_combination -this
  rw [hJA] at h1
  obtain ⟨y, hy, h2⟩ := h1 hA
  rw [hy]
  congr 1
  apply mulVec_inj hA
  intro i
  have h3 := h2 i
  rw [bulged_pos hx, cornerNormal, (bulged_tangents hx s).1, (bulged_tangents hx s).2, hq i] at h3
  simp only [Fin.sum_univ_three, A, Matrix.of_apply, v30, v31, v32] at h3 ⊢
  linear_combination h3

theorem newton_first_two {tol : ℝ} {x : ℕ → Fin 3 → ℝ} {p : Fin 3 → ℝ} {q0 q1 : ℝ} {H : (Fin 3 → ℝ) → ℝ}
    (hs : ∀ s, face9Step x p s = some ![q0, q1, H s]) (hH : ∀ s s' : Fin 3 → ℝ, s 0 = s' 0 → s 1 = s' 1 → H s = H s') (ht : 0 < tol) (n : ℕ) (s : Fin 3 → ℝ) :
    ∃ a y, face9Newton tol x p (n + 3) s = some (a, y) ∧ y 0 = q0 ∧ y 1 = q1 ∧ ((∀ s, H s = H (fun _ => 0)) → y 2 = H fun _ => 0) := by
  rw [face9Newton, hs]
  simp only
  split_ifs with h
  · exact ⟨_, _, rfl, rfl, rfl, fun h => h s⟩
  rw [face9Newton, hs]
  simp only
  split_ifs with h
  · exact ⟨_, _, rfl, rfl, rfl, fun h => h _⟩
  rw [face9Newton, hs]
  simp only
  have e : H ![q0, q1, H ![q0, q1, H s]] = H ![q0, q1, H s] := hH _ _ rfl rfl
  rw [e, if_pos (converged_self ht _)]
  exact ⟨_, _, rfl, rfl, rfl, fun h => h _⟩

/-- Every point is a point of the plane of a non-degenerate parallelogram plus a multiple of its normal, as `c350_bulged` and `c350_affine` ask. -/
theorem c350_every_point {u v : Fin 3 → ℝ} (hn : Verif.Shape.cross u v ≠ 0) (b p : Fin 3 → ℝ) :
    ∃ q : Fin 3 → ℝ, ∀ i, p i = b i + u i * q 0 + v i * q 1 + q 2 * Verif.Shape.cross u v i := by
  let A : Matrix (Fin 3) (Fin 3) ℝ := Matrix.of fun i j => match j with
    | 0 => u i
    | 1 => v i
    | 2 => Verif.Shape.cross u v i
  have hA : A.det ≠ 0 := by
    have : A.det = Verif.Shape.cross u v 0 * Verif.Shape.cross u v 0 + Verif.Shape.cross u v 1 * Verif.Shape.cross u v 1
        + Verif.Shape.cross u v 2 * Verif.Shape.cross u v 2 := by
      rw [Matrix.det_fin_three]; simp only [A, Matrix.of_apply, Verif.Shape.cross]; ring
    rw [this]
    intro h
    apply hn
    funext i
    revert i
    simp only [forall3, Pi.zero_apply]
    refine ⟨?_, ?_, ?_⟩ <;>
      nlinarith [mul_self_nonneg (Verif.Shape.cross u v 0), mul_self_nonneg (Verif.Shape.cross u v 1), mul_self_nonneg (Verif.Shape.cross u v 2)]
  obtain ⟨q, hq⟩ := exists_preimage hA b p
  refine ⟨q, fun i => ?_⟩
  rw [hq i]; simp only [Fin.sum_univ_three, A, Matrix.of_apply]; ring

/-- A face bulging along the normal of its corners' parallelogram: every point of space is located, and the two coordinates returned are those of its
projection along the corners' normal. -/
theorem c350_bulged {tol : ℝ} (ht : 0 < tol) {x : ℕ → Fin 3 → ℝ} {b u v : Fin 3 → ℝ} {h : ℕ → ℝ} (hx : IsBulged x b u v h)
    (hn : Verif.Shape.cross u v ≠ 0) {p q : Fin 3 → ℝ} (hq : ∀ i, p i = b i + u i * q 0 + v i * q 1 + q 2 * Verif.Shape.cross u v i) :
    ∃ r dist, face9InElement tol x p = some (r, dist) ∧ r 0 = q 0 ∧ r 1 = q 1 ∧
      (dist ≤ 1 ↔ |r 0| ≤ 1 ∧ |r 1| ≤ 1 ∧ |r 2| ≤ 1 / 100) := by
  obtain ⟨a, y, hy, h0, h1, -⟩ := newton_first_two (tol := tol) (H := fun s => q 2 - ∑ n ∈ range 9, ell (ref2 n).1 (s 0) * ell (ref2 n).2 (s 1) * h n)
    (bulged_step hx hn hq) (fun s s' e0 e1 => by simp only [e0, e1]) ht 97 ![1 / 2, 1 / 2, 1 / 2]
  rw [face9InElement, hy]
  exact ⟨_, _, rfl, h0, h1, c44_quad3d_distance (by norm_num) _⟩

/-- A parallelogram with its other nodes in the middle: every point is located exactly; the third coordinate is the distance to the plane, divided by the
square root of a quarter of the face's area; the distance is at most one exactly when the foot of the perpendicular is on the face and the third
coordinate at most 0.01. -/
theorem c350_affine {tol : ℝ} (ht : 0 < tol) {x : ℕ → Fin 3 → ℝ} {b u v : Fin 3 → ℝ}
    (hx : ∀ n < 9, ∀ i, x n i = b i + u i * (ref2 n).1 + v i * (ref2 n).2) (hn : Verif.Shape.cross u v ≠ 0) {p q : Fin 3 → ℝ}
    (hq : ∀ i, p i = b i + u i * q 0 + v i * q 1 + q 2 * Verif.Shape.cross u v i) :
    ∃ r dist, face9InElement tol x p = some (r, dist) ∧ r 0 = q 0 ∧ r 1 = q 1 ∧
      r 2 = q 2 * Real.sqrt (Real.sqrt (∑ i, Verif.Shape.cross u v i ^ 2)) ∧
      r 2 ^ 2 * Real.sqrt (∑ i, Verif.Shape.cross u v i ^ 2) = ∑ i, (p i - (b i + u i * q 0 + v i * q 1)) ^ 2 ∧
      (dist ≤ 1 ↔ |q 0| ≤ 1 ∧ |q 1| ≤ 1 ∧ |r 2| ≤ 1 / 100) := by
  have hb : IsBulged x b u v fun _ => 0 := ⟨fun _ _ => rfl, fun n hn i => by rw [hx n hn]; ring⟩
  obtain ⟨a, y, hy, h0, h1, h2⟩ := newton_first_two (tol := tol) (H := fun s => q 2 - ∑ n ∈ range 9, ell (ref2 n).1 (s 0) * ell (ref2 n).2 (s 1) * 0)
    (bulged_step hb hn hq) (fun s s' e0 e1 => by simp only [e0, e1]) ht 97 ![1 / 2, 1 / 2, 1 / 2]
  have h2 : y 2 = q 2 := by rw [h2 fun s => by simp]; simp
  rw [face9InElement, hy]
  have hN : ∀ i, quad3dNormal (quad3dX (corners x) 0) (quad3dX (corners x) 1) (quad3dX (corners x) 2) (a 0) (a 1) i = Verif.Shape.cross u v i := by
    intro i; rw [quad3dNormal_eq, (bulged_tangents hb a).1, (bulged_tangents hb a).2]
  have hS : 0 ≤ ∑ i, Verif.Shape.cross u v i ^ 2 := Finset.sum_nonneg fun i _ => sq_nonneg _
  have hr : y 2 * Real.sqrt (Real.sqrt (∑ i, Verif.Shape.cross u v i ^ 2)) = q 2 * Real.sqrt (Real.sqrt (∑ i, Verif.Shape.cross u v i ^ 2)) := by rw [h2]
  have he : ∀ w : Fin 3 → ℝ, w 0 * w 0 + w 1 * w 1 + w 2 * w 2 = ∑ i, w i ^ 2 := fun w => by rw [Fin.sum_univ_three]; ring
  refine ⟨_, _, rfl, h0, h1, ?_, ?_, ?_⟩
  · simp only [he, hN, v32]; exact hr
  · simp only [he, hN, v32, hr]
    rw [mul_pow, Real.sq_sqrt (Real.sqrt_nonneg _), mul_assoc, Real.mul_self_sqrt hS, Finset.mul_sum]
    exact sum_congr rfl fun i _ => by rw [hq i]; ring
  · rw [c44_quad3d_distance (by norm_num)]
    simp only [v30, v31, v32, h0, h1]

/-- A parabolic face over a square. -/
noncomputable def arch (n : ℕ) : Fin 3 → ℝ := ![((ref2 n).1 : ℝ), ((ref2 n).2 : ℝ), 1 - ((ref2 n).1 : ℝ) ^ 2]

theorem arch_bulged : IsBulged arch ![0, 0, 0] ![1, 0, 0] ![0, 1, 0] fun n => 1 - ((ref2 n).1 : ℝ) ^ 2 := by
  constructor
  · intro n hn
    interval_cases n <;> norm_num [ref2]
  · intro n _ i
    fin_cases i <;> simp [arch, Verif.Shape.cross]

/-- On a curved face the position found is not the foot of the perpendicular: for the arch `z = 1 - x²` and a point above `x = 1/2` the search returns
`x = 1/2`, where the line to the point makes an angle with the face. -/
theorem c350_not_perpendicular {tol : ℝ} (ht : 0 < tol) :
    ∃ r dist, face9InElement tol arch ![1 / 2, 0, 10] = some (r, dist) ∧
      ∑ i, ((![1 / 2, 0, 10] : Fin 3 → ℝ) i - pos9 arch i (r 0) (r 1)) * deriv (fun s => pos9 arch i s (r 1)) (r 0) ≠ 0 := by
  have hn : Verif.Shape.cross (![1, 0, 0] : Fin 3 → ℝ) ![0, 1, 0] ≠ 0 := by
    intro h; have := congrFun h 2; simp [Verif.Shape.cross] at this
  obtain ⟨r, dist, hr, h0, h1, -⟩ := c350_bulged ht arch_bulged hn (p := ![1 / 2, 0, 10]) (q := ![1 / 2, 0, 10]) (by
    intro i; fin_cases i <;> simp [Verif.Shape.cross])
  refine ⟨r, dist, hr, ?_⟩
  have hp : ∀ s t, pos9 arch 0 s t = s ∧ pos9 arch 1 s t = t ∧ pos9 arch 2 s t = 1 - s ^ 2 := by
    intro s t
    refine ⟨?_, ?_, ?_⟩ <;> simp [pos9, arch, sum_range_succ, ref2, ell] <;> ring
  have hd : deriv (fun s : ℝ => 1 - s ^ 2) (1 / 2) = -1 := by
    have : HasDerivAt (fun s : ℝ => 1 - s ^ 2) (-1) (1 / 2) := by
      refine ((hasDerivAt_pow 2 (1 / 2 : ℝ)).const_sub 1).congr_deriv ?_
      norm_num
    exact this.deriv
  rw [h0, h1, Fin.sum_univ_three]
  simp only [v30, v31, v32, (hp _ _).1, (hp _ _).2.1, (hp _ _).2.2, hd]
  norm_num

end Nalu.P2
