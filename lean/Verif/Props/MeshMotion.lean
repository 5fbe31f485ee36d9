import Verif.Model.MeshMotion
import Verif.Spec.MeshMotion
import Mathlib.Algebra.Quaternion
import Mathlib.LinearAlgebra.Matrix.Determinant.Basic
import Mathlib.Analysis.SpecialFunctions.Trigonometric.Deriv
import Mathlib.Data.List.Permutation
import Mathlib.Tactic.LinearCombination
import Mathlib.Tactic.FieldSimp
import Mathlib.Tactic.Linarith

/-!
# C45: prescribed rigid rotation; C47: quaternions, rotation matrices and Euler angles
-/

set_option linter.unusedSimpArgs false
set_option linter.unusedVariables false
set_option linter.unusedSectionVars false

namespace Verif.Motion

theorem all3 {p : Fin 3 → Prop} : (∀ i, p i) ↔ p 0 ∧ p 1 ∧ p 2 := by
  constructor
  · exact fun h => ⟨h 0, h 1, h 2⟩
  · rintro ⟨h0, h1, h2⟩ i; fin_cases i <;> assumption
theorem all4 {p : Fin 4 → Prop} : (∀ i, p i) ↔ p 0 ∧ p 1 ∧ p 2 ∧ p 3 := by
  constructor
  · exact fun h => ⟨h 0, h 1, h 2, h 3⟩
  · rintro ⟨h0, h1, h2, h3⟩ i; fin_cases i <;> assumption
theorem m0 {α : Type*} (a b c : α) : (![a, b, c] : Fin 3 → α) 0 = a := rfl
theorem m1 {α : Type*} (a b c : α) : (![a, b, c] : Fin 3 → α) 1 = b := rfl
theorem m2 {α : Type*} (a b c : α) : (![a, b, c] : Fin 3 → α) 2 = c := rfl

section
variable {K : Type*} [Field K]

/-- Unit quaternion. -/
def IsUnitQuat (q : Fin 4 → K) : Prop := q 0 ^ 2 + q 1 ^ 2 + q 2 ^ 2 + q 3 ^ 2 = 1

/-- C45: for every quaternion the displaced positions keep all distances up to the factor `|q|^2`
(squares: `|q|^4`). -/
theorem c45_distance_scaling (q : Fin 4 → K) (c x y : Fin 3 → K) :
    dist2 (currentCoords x (quatDisplacement q c x)) (currentCoords y (quatDisplacement q c y))
      = (q 0 ^ 2 + q 1 ^ 2 + q 2 ^ 2 + q 3 ^ 2) ^ 2 * dist2 x y := by
  simp only [dist2, Fin.sum_univ_three, currentCoords, quatDisplacement]; ring

end

/-- A unit vector. -/
def IsUnitVec (a : Fin 3 → ℝ) : Prop := a 0 ^ 2 + a 1 ^ 2 + a 2 ^ 2 = 1

theorem axisQuat_norm (a : Fin 3 → ℝ) (θ : ℝ) :
    axisQuat a θ 0 ^ 2 + axisQuat a θ 1 ^ 2 + axisQuat a θ 2 ^ 2 + axisQuat a θ 3 ^ 2
      = 1 + Real.sin (θ * (1 / 2)) ^ 2 * (a 0 ^ 2 + a 1 ^ 2 + a 2 ^ 2 - 1) := by
  simp only [axisQuat]
  linear_combination Real.sin_sq_add_cos_sq (θ * (1 / 2))

theorem axisQuat_unit {a : Fin 3 → ℝ} (ha : IsUnitVec a) (θ : ℝ) : IsUnitQuat (axisQuat a θ) := by
  rw [IsUnitQuat, axisQuat_norm]
  unfold IsUnitVec at ha
  rw [ha]; ring

theorem half_cos (θ : ℝ) : Real.cos θ = Real.cos (θ * (1 / 2)) ^ 2 - Real.sin (θ * (1 / 2)) ^ 2 := by
  rw [← Real.cos_two_mul']; congr 1; ring
theorem half_sin (θ : ℝ) : Real.sin θ = 2 * Real.sin (θ * (1 / 2)) * Real.cos (θ * (1 / 2)) := by
  rw [← Real.sin_two_mul]; congr 1; ring

theorem position_rodrigues {a : Fin 3 → ℝ} (ha : IsUnitVec a) (θ : ℝ) (c x : Fin 3 → ℝ) (i : Fin 3) :
    currentCoords x (quatDisplacement (axisQuat a θ) c x) i
      = c i + rodrigues a θ (fun j => x j - c j) i := by
  have h := Real.sin_sq_add_cos_sq (θ * (1 / 2))
  unfold IsUnitVec at ha
  revert i
  simp only [all3, currentCoords, quatDisplacement, rodrigues, axisQuat, vcross, m0, m1, m2, dot, Fin.sum_univ_three]
  rw [half_cos θ, half_sin θ]
  generalize Real.sin (θ * (1 / 2)) = s at *
  generalize Real.cos (θ * (1 / 2)) = k at *
  have e0 : a 2 ^ 2 = 1 - a 0 ^ 2 - a 1 ^ 2 := by linarith
  have e1 : k ^ 2 = 1 - s ^ 2 := by linarith
  refine ⟨?_, ?_, ?_⟩
  · linear_combination (-(s ^ 2) * (x 0 - c 0)) * ha + ((a 0 ^ 2 * (x 0 - c 0)) + a 0 * a 1 * (x 1 - c 1) + a 0 * a 2 * (x 2 - c 2)) * h
  · linear_combination (-(s ^ 2) * (x 1 - c 1)) * ha + ((a 1 ^ 2 * (x 1 - c 1)) + a 0 * a 1 * (x 0 - c 0) + a 1 * a 2 * (x 2 - c 2)) * h
  · linear_combination (-(s ^ 2) * (x 2 - c 2)) * ha + ((a 2 ^ 2 * (x 2 - c 2)) + a 0 * a 2 * (x 0 - c 0) + a 1 * a 2 * (x 1 - c 1)) * h

/-- C45: at time `t` a node is its model position rotated by `ω t` about the axis through the centroid
(Rodrigues' formula), for every unit axis. -/
theorem c45_rotation {a : Fin 3 → ℝ} (ha : IsUnitVec a) (omega t : ℝ) (c x : Fin 3 → ℝ) (i : Fin 3) :
    rotatedPosition omega t a c x i = c i + rodrigues a (omega * t) (fun j => x j - c j) i :=
  position_rodrigues ha _ c x i

/-- C45: the initial displacement is the rotation by the given angle in degrees. -/
theorem c45_initial_rotation {a : Fin 3 → ℝ} (ha : IsUnitVec a) (deg : ℝ) (c x : Fin 3 → ℝ) (i : Fin 3) :
    initialPosition deg a c x i = c i + rodrigues a (deg / 180 * Real.pi) (fun j => x j - c j) i := by
  rw [initialPosition, position_rodrigues ha, Real.arccos_neg_one]
  congr 3; ring

/-- C45: the rotation keeps every distance between mesh points. -/
theorem c45_isometry {a : Fin 3 → ℝ} (ha : IsUnitVec a) (omega t : ℝ) (c x y : Fin 3 → ℝ) :
    dist2 (rotatedPosition omega t a c x) (rotatedPosition omega t a c y) = dist2 x y := by
  rw [rotatedPosition, rotatedPosition, c45_distance_scaling, axisQuat_unit ha, one_pow, one_mul]

/-- C45: points on the axis do not move, and the component along the axis of any point is kept. -/
theorem c45_axis_fixed {a : Fin 3 → ℝ} (ha : IsUnitVec a) (omega t : ℝ) (c : Fin 3 → ℝ) :
    (∀ s i, rotatedPosition omega t a c (fun j => c j + s * a j) i = c i + s * a i) ∧
    ∀ x, dot a (fun i => rotatedPosition omega t a c x i - c i) = dot a (fun i => x i - c i) := by
  unfold IsUnitVec at ha
  constructor
  · intro s i
    rw [c45_rotation ha]
    revert i
    simp only [all3, rodrigues, vcross, m0, m1, m2, dot, Fin.sum_univ_three]
    refine ⟨?_, ?_, ?_⟩
    · linear_combination (1 - Real.cos (omega * t)) * s * a 0 * ha
    · linear_combination (1 - Real.cos (omega * t)) * s * a 1 * ha
    · linear_combination (1 - Real.cos (omega * t)) * s * a 2 * ha
  · intro x
    simp only [c45_rotation ha, add_sub_cancel_left]
    simp only [rodrigues, vcross, m0, m1, m2, dot, Fin.sum_univ_three]
    linear_combination (1 - Real.cos (omega * t)) * (a 0 * (x 0 - c 0) + a 1 * (x 1 - c 1) + a 2 * (x 2 - c 2)) * ha

/-- C45 (negative): the axis read from the input is not normalized, and for a non-unit axis distances
are not kept as soon as the half angle is not a multiple of `π`. -/
theorem c45_nonunit_axis_distorts {a : Fin 3 → ℝ} (ha : ¬ IsUnitVec a) {omega t : ℝ}
    (hs : Real.sin (omega * t * (1 / 2)) ≠ 0)
    (c : Fin 3 → ℝ) {x y : Fin 3 → ℝ} (hxy : dist2 x y ≠ 0) :
    dist2 (rotatedPosition omega t a c x) (rotatedPosition omega t a c y) ≠ dist2 x y := by
  rw [rotatedPosition, rotatedPosition, c45_distance_scaling, axisQuat_norm]
  intro h
  have h1 : (1 + Real.sin (omega * t * (1 / 2)) ^ 2 * (a 0 ^ 2 + a 1 ^ 2 + a 2 ^ 2 - 1)) ^ 2 = 1 :=
    mul_right_cancel₀ hxy (by rw [h, one_mul])
  have hs2 : 0 < Real.sin (omega * t * (1 / 2)) ^ 2 := by positivity
  have hs1 : Real.sin (omega * t * (1 / 2)) ^ 2 ≤ 1 := Real.sin_sq_le_one _
  have hn : a 0 ^ 2 + a 1 ^ 2 + a 2 ^ 2 - 1 ≠ 0 := fun h => ha (by unfold IsUnitVec; linarith)
  have hge : 0 ≤ a 0 ^ 2 + a 1 ^ 2 + a 2 ^ 2 := by positivity
  generalize Real.sin (omega * t * (1 / 2)) ^ 2 = s at *
  generalize a 0 ^ 2 + a 1 ^ 2 + a 2 ^ 2 = n at *
  have hpos : 0 ≤ 1 + s * (n - 1) := by nlinarith
  have : 1 + s * (n - 1) = 1 := by nlinarith
  have : s * (n - 1) = 0 := by linarith
  rcases mul_eq_zero.1 this with h | h
  · linarith
  · exact hn h

/-! ## Mesh velocity -/

theorem hasDerivAt_position {a : Fin 3 → ℝ} (ha : IsUnitVec a) {w : ℝ → ℝ} {w' t : ℝ} (hw : HasDerivAt w w' t)
    (c x : Fin 3 → ℝ) (i : Fin 3) :
    HasDerivAt (fun s => rotatedPosition (w s) s a c x i)
      ((w t + w' * t) * crossProduct a (fun j => rotatedPosition (w t) t a c x j - c j) i) t := by
  have hθ : HasDerivAt (fun s => w s * s) (w' * t + w t * 1) t := hw.mul (hasDerivAt_id t)
  have hc := hθ.cos
  have hs := hθ.sin
  have hd : HasDerivAt (fun s => c i + rodrigues a (w s * s) (fun j => x j - c j) i)
      (((-Real.sin (w t * t) * (w' * t + w t * 1)) * (x i - c i)
        + (Real.cos (w t * t) * (w' * t + w t * 1)) * vcross a (fun j => x j - c j) i)
        + (-(-Real.sin (w t * t) * (w' * t + w t * 1))) * dot a (fun j => x j - c j) * a i) t := by
    unfold rodrigues
    exact (((hc.mul_const _).add (hs.mul_const _)).add (((hc.const_sub 1).mul_const _).mul_const _)).const_add (c i)
  have hfun : (fun s => rotatedPosition (w s) s a c x i)
      = fun s => c i + rodrigues a (w s * s) (fun j => x j - c j) i := by
    funext s; rw [c45_rotation ha]
  rw [hfun]
  convert hd using 1
  simp only [c45_rotation ha, add_sub_cancel_left]
  unfold IsUnitVec at ha
  clear hd hfun
  revert i
  simp only [all3, crossProduct, rodrigues, vcross, m0, m1, m2, dot, Fin.sum_univ_three]
  generalize Real.sin (w t * t) = s
  generalize Real.cos (w t * t) = k
  refine ⟨?_, ?_, ?_⟩
  · linear_combination (-(s * (w t + w' * t) * (x 0 - c 0))) * ha
  · linear_combination (-(s * (w t + w' * t) * (x 1 - c 1))) * ha
  · linear_combination (-(s * (w t + w' * t) * (x 2 - c 2))) * ha

/-- C45: for constant angular velocity the mesh velocity set at a node is the time derivative of its
position. -/
theorem c45_velocity_is_derivative {a : Fin 3 → ℝ} (ha : IsUnitVec a) (omega t : ℝ) (c x : Fin 3 → ℝ)
    (i : Fin 3) :
    HasDerivAt (fun s => rotatedPosition omega s a c x i)
      (meshVelocity omega a c (rotatedPosition omega t a c x) i) t := by
  have h := hasDerivAt_position ha (hasDerivAt_const t omega) c x i
  convert h using 1
  revert i
  simp only [all3, meshVelocity, crossProduct]
  refine ⟨fun _ => ?_, fun _ => ?_, fun _ => ?_⟩ <;> ring

/-- C45: the mesh velocity is `ω × r`, perpendicular to the axis and to the arm. -/
theorem c45_velocity_tangential (omega : ℝ) (a c x : Fin 3 → ℝ) :
    meshVelocity omega a c x = vcross (fun i => omega * a i) (fun i => x i - c i) ∧
    dot a (meshVelocity omega a c x) = 0 ∧
    dot (fun i => x i - c i) (meshVelocity omega a c x) = 0 := by
  refine ⟨?_, ?_, ?_⟩
  · funext i; revert i
    simp only [all3, meshVelocity, crossProduct, vcross, m0, m1, m2, and_self]
  · simp only [dot, Fin.sum_univ_three, meshVelocity, crossProduct]; ring
  · simp only [dot, Fin.sum_univ_three, meshVelocity, crossProduct]; ring

/-- C45 (negative): with a time-dependent blending of the angular velocity the position uses the angle
`ω(t) t`, so the mesh velocity `ω(t) × r` is not the time derivative of the position: it misses
`t ω'(t) a × r`, at every node off the axis and every time where the blending varies. -/
theorem c45_blended_velocity_mismatch {a : Fin 3 → ℝ} (ha : IsUnitVec a) {omega : ℝ} {blend : ℝ → ℝ} {b' t : ℝ}
    (hb : HasDerivAt blend b' t) (hne : omega * b' * t ≠ 0) (c x : Fin 3 → ℝ)
    (hoff : crossProduct a (fun j => rotatedPosition (nodalOmega omega blend t) t a c x j - c j) ≠ 0) :
    ¬ ∀ i, HasDerivAt (fun s => rotatedPosition (nodalOmega omega blend s) s a c x i)
      (meshVelocity (nodalOmega omega blend t) a c
        (rotatedPosition (nodalOmega omega blend t) t a c x) i) t := by
  intro h
  have hw : HasDerivAt (fun s => nodalOmega omega blend s) (omega * b') t := hb.const_mul omega
  apply hoff
  funext i
  have h1 := hasDerivAt_position ha hw c x i
  have h2 := h1.unique (h i)
  have h3 : meshVelocity (nodalOmega omega blend t) a c (rotatedPosition (nodalOmega omega blend t) t a c x) i
      = nodalOmega omega blend t * crossProduct a (fun j => rotatedPosition (nodalOmega omega blend t) t a c x j - c j) i := by
    clear h1 h2
    revert i
    simp only [all3, meshVelocity, crossProduct]
    refine ⟨?_, ?_, ?_⟩ <;> ring
  rw [h3, add_mul, add_eq_left] at h2
  exact (mul_eq_zero.1 h2).resolve_left hne

/-- C45: the velocity relative to the mesh plus the mesh velocity is the fluid velocity; so on a mesh
moving with the fluid there is no relative velocity. -/
theorem c45_relative_velocity {K : Type*} [Field K] (u v : Fin 3 → K) :
    (∀ i, velocityRtm u v i + v i = u i) ∧ ∀ i, velocityRtm v v i = 0 := by
  constructor <;> intro i <;> simp [velocityRtm]

/-! ## Six-dof motion -/

/-- C45 (six-dof): the mesh velocity is that of a rigid body: the relative velocity of two points is
perpendicular to the line between them; the displaced centroid moves with the body velocity. -/
theorem c45_sixdof_velocity_rigid {K : Type*} [Field K] (w v c d x y : Fin 3 → K) :
    dot (fun i => meshVelocitySixDof w v c d x i - meshVelocitySixDof w v c d y i) (fun i => x i - y i) = 0 ∧
    ∀ i, meshVelocitySixDof w v c d (fun j => c j + d j) i = v i := by
  constructor
  · simp only [dot, Fin.sum_univ_three, meshVelocitySixDof, crossProduct]; ring
  · simp only [all3, meshVelocitySixDof, crossProduct]; refine ⟨?_, ?_, ?_⟩ <;> ring

/-! ## C47: rotation matrices -/

section
variable {K : Type*} [Field K] [CharZero K]

/-- C47: for a unit quaternion the matrix is orthogonal with determinant one. -/
theorem c47_rotmat_orthogonal {q : Fin 4 → K} (hq : IsUnitQuat q) :
    (∀ i j, ∑ k, rotMat q i k * rotMat q j k = if i = j then 1 else 0) ∧
    (∀ i j, ∑ k, rotMat q k i * rotMat q k j = if i = j then 1 else 0) ∧
    Matrix.det (Matrix.of fun i j => rotMat q i j) = 1 := by
  unfold IsUnitQuat at hq
  have h0 : q 0 ^ 2 = 1 - q 1 ^ 2 - q 2 ^ 2 - q 3 ^ 2 := by linear_combination hq
  have h03 : q 0 ^ 3 = q 0 * (1 - q 1 ^ 2 - q 2 ^ 2 - q 3 ^ 2) := by rw [← h0]; ring
  have h04 : q 0 ^ 4 = (1 - q 1 ^ 2 - q 2 ^ 2 - q 3 ^ 2) ^ 2 := by rw [← h0]; ring
  have h06 : q 0 ^ 6 = (1 - q 1 ^ 2 - q 2 ^ 2 - q 3 ^ 2) ^ 3 := by rw [← h0]; ring
  refine ⟨?_, ?_, ?_⟩
  · simp only [all3, Fin.sum_univ_three, rotMat, Fin.reduceEq, if_true, if_false]
    refine ⟨⟨?_, ?_, ?_⟩, ⟨?_, ?_, ?_⟩, ?_, ?_, ?_⟩ <;> ring_nf <;> simp only [h0, h03, h04] <;> ring
  · simp only [all3, Fin.sum_univ_three, rotMat, Fin.reduceEq, if_true, if_false]
    refine ⟨⟨?_, ?_, ?_⟩, ⟨?_, ?_, ?_⟩, ?_, ?_, ?_⟩ <;> ring_nf <;> simp only [h0, h03, h04] <;> ring
  · rw [Matrix.det_fin_three]; simp only [Matrix.of_apply, rotMat]
    ring_nf; simp only [h0, h03, h04, h06]; ring

/-- C47: the determinant computed by the code is one for a unit quaternion. -/
theorem matDet_one {q : Fin 4 → K} (hq : IsUnitQuat q) : matDet (rotMat q) = 1 := by
  have h := (c47_rotmat_orthogonal hq).2.2
  rw [Matrix.det_fin_three] at h
  simp only [Matrix.of_apply] at h
  rw [← h, matDet]; ring

/-- C47: the inverse option returns the inverse (the transpose) for every unit quaternion. -/
theorem c47_inverse_option [LinearOrder K] {tiny : K} (ht : tiny ≤ 1) {q : Fin 4 → K} (hq : IsUnitQuat q) :
    (∀ i j, getRotMat tiny q false i j = getRotMat tiny q true j i) ∧
    (∀ i j, ∑ k, getRotMat tiny q false i k * getRotMat tiny q true k j = if i = j then 1 else 0) ∧
    (∀ i j, ∑ k, getRotMat tiny q true i k * getRotMat tiny q false k j = if i = j then 1 else 0) := by
  have hd := matDet_one hq
  have ht' : ∀ i j, getRotMat tiny q false i j = getRotMat tiny q true j i := by
    simp only [getRotMat, hd, not_lt.2 ht, if_false, if_true, Bool.false_eq_true]
    unfold IsUnitQuat at hq
    have h0 : q 0 ^ 2 = 1 - q 1 ^ 2 - q 2 ^ 2 - q 3 ^ 2 := by linear_combination hq
    have h03 : q 0 ^ 3 = q 0 * (1 - q 1 ^ 2 - q 2 ^ 2 - q 3 ^ 2) := by rw [← h0]; ring
    have h04 : q 0 ^ 4 = (1 - q 1 ^ 2 - q 2 ^ 2 - q 3 ^ 2) ^ 2 := by rw [← h0]; ring
    simp only [all3, matInv, hd, div_one, mul_one]
    simp only [rotMat]
    refine ⟨⟨?_, ?_, ?_⟩, ⟨?_, ?_, ?_⟩, ?_, ?_, ?_⟩ <;> ring_nf <;> simp only [h0, h03, h04] <;> ring
  have ho := c47_rotmat_orthogonal hq
  have hT : getRotMat tiny q true = rotMat q := by simp [getRotMat]
  refine ⟨ht', ?_, ?_⟩
  · intro i j; simp only [ht', hT]; exact ho.2.1 i j
  · intro i j; simp only [ht', hT]; exact ho.1 i j

end

/-- C47: the matrix acts as conjugation by the quaternion, `v ↦ q v q*` (Mathlib's quaternions), for
every unit quaternion. -/
theorem c47_rotmat_is_conjugation {q : Fin 4 → ℝ} (hq : IsUnitQuat q) (v : Fin 3 → ℝ) :
    (⟨q 0, q 1, q 2, q 3⟩ : Quaternion ℝ) * ⟨0, v 0, v 1, v 2⟩ * star ⟨q 0, q 1, q 2, q 3⟩
      = ⟨0, matVec (rotMat q) v 0, matVec (rotMat q) v 1, matVec (rotMat q) v 2⟩ := by
  unfold IsUnitQuat at hq
  ext
  · simp [Quaternion.re_mul, Quaternion.imI_mul, Quaternion.imJ_mul, Quaternion.imK_mul]; ring
  · simp [Quaternion.re_mul, Quaternion.imI_mul, Quaternion.imJ_mul, Quaternion.imK_mul, matVec, rotMat]
    linear_combination (-v 0) * hq
  · simp [Quaternion.re_mul, Quaternion.imI_mul, Quaternion.imJ_mul, Quaternion.imK_mul, matVec, rotMat]
    linear_combination (-v 1) * hq
  · simp [Quaternion.re_mul, Quaternion.imI_mul, Quaternion.imJ_mul, Quaternion.imK_mul, matVec, rotMat]
    linear_combination (-v 2) * hq

/-! ## Euler angles -/

theorem eulerQuat_unit (a : Fin 3 → ℝ) : IsUnitQuat (eulerQuat a) := by
  have h0 := Real.sin_sq_add_cos_sq (a 0 * (1 / 2))
  have h1 := Real.sin_sq_add_cos_sq (a 1 * (1 / 2))
  have h2 := Real.sin_sq_add_cos_sq (a 2 * (1 / 2))
  simp only [IsUnitQuat, eulerQuat]
  generalize Real.sin (a 0 * (1 / 2)) = s0 at *
  generalize Real.sin (a 1 * (1 / 2)) = s1 at *
  generalize Real.sin (a 2 * (1 / 2)) = s2 at *
  generalize Real.cos (a 0 * (1 / 2)) = c0 at *
  generalize Real.cos (a 1 * (1 / 2)) = c1 at *
  generalize Real.cos (a 2 * (1 / 2)) = c2 at *
  have : (c0 * c1 * c2 + s0 * s1 * s2) ^ 2 + (s0 * c1 * c2 - c0 * s1 * s2) ^ 2 + (c0 * s1 * c2 + s0 * c1 * s2) ^ 2
      + (c0 * c1 * s2 - s0 * s1 * c2) ^ 2 = (s0 ^ 2 + c0 ^ 2) * (s1 ^ 2 + c1 ^ 2) * (s2 ^ 2 + c2 ^ 2) := by ring
  rw [this, h0, h1, h2]; norm_num

/-- C47: the quaternion built from Euler angles has unit length already; the normalization divides by
one. -/
theorem c47_euler_unit (a : Fin 3 → ℝ) : quatFromEuler a = eulerQuat a ∧ IsUnitQuat (quatFromEuler a) := by
  have h := eulerQuat_unit a
  have he : quatFromEuler a = eulerQuat a := by
    unfold IsUnitQuat at h
    funext i
    simp only [quatFromEuler]
    rw [show eulerQuat a 0 * eulerQuat a 0 + eulerQuat a 1 * eulerQuat a 1 + eulerQuat a 2 * eulerQuat a 2
      + eulerQuat a 3 * eulerQuat a 3 = 1 by linear_combination h, Real.sqrt_one, div_one]
  exact ⟨he, by rw [he]; exact h⟩

theorem trig_half (t : ℝ) : ∃ s c : ℝ, Real.sin (t * (1 / 2)) = s ∧ Real.cos (t * (1 / 2)) = c ∧
    s ^ 2 + c ^ 2 = 1 ∧ Real.sin t = 2 * s * c ∧ Real.cos t = c ^ 2 - s ^ 2 :=
  ⟨_, _, rfl, rfl, Real.sin_sq_add_cos_sq _, half_sin t, half_cos t⟩

set_option maxHeartbeats 1000000 in
/-- C47: the attitude with Euler angles `(a0, a1, a2)` is the rotation by `a0` about the first axis,
then `a1` about the second, then `a2` about the third. -/
theorem c47_euler_composition (a : Fin 3 → ℝ) :
    (Matrix.of fun i j => rotMat (quatFromEuler a) i j) = rotZ (a 2) * rotY (a 1) * rotX (a 0) := by
  rw [(c47_euler_unit a).1]
  obtain ⟨s0, c0, e1, e2, h0, e3, e4⟩ := trig_half (a 0)
  obtain ⟨s1, c1, f1, f2, h1, f3, f4⟩ := trig_half (a 1)
  obtain ⟨s2, c2, g1, g2, h2, g3, g4⟩ := trig_half (a 2)
  have hc0 : c0 ^ 2 = 1 - s0 ^ 2 := by linarith
  have hc1 : c1 ^ 2 = 1 - s1 ^ 2 := by linarith
  have hc2 : c2 ^ 2 = 1 - s2 ^ 2 := by linarith
  ext i j
  revert i j
  simp only [all3, Matrix.of_apply, Matrix.mul_apply, Fin.sum_univ_three, rotZ, rotY, rotX, rotMat, eulerQuat,
    e1, e2, e3, e4, f1, f2, f3, f4, g1, g2, g3, g4, Matrix.cons_val', Matrix.cons_val_zero, Matrix.cons_val_one,
    Matrix.cons_val, Matrix.empty_val', Matrix.cons_val_fin_one]
  refine ⟨⟨?_, ?_, ?_⟩, ⟨?_, ?_, ?_⟩, ?_, ?_, ?_⟩ <;> ring_nf <;> simp only [hc0, hc1, hc2] <;> ring

/-- C47 (six-dof): for all Euler angles the displaced mesh keeps every distance, and the displacement
is the one of the point transformation. -/
theorem c47_sixdof_isometry (a c d x y : Fin 3 → ℝ) :
    dist2 (currentCoords x (sixDofDisplacement (rotMat (quatFromEuler a)) c d x))
      (currentCoords y (sixDofDisplacement (rotMat (quatFromEuler a)) c d y)) = dist2 x y ∧
    currentCoords x (sixDofDisplacement (rotMat (quatFromEuler a)) c d x)
      = rotateTranslate (rotMat (quatFromEuler a)) c d x := by
  constructor
  · have ho := (c47_rotmat_orthogonal (c47_euler_unit a).2).2.1
    have h00 := ho 0 0; have h01 := ho 0 1; have h02 := ho 0 2
    have h11 := ho 1 1; have h12 := ho 1 2; have h22 := ho 2 2
    generalize rotMat (quatFromEuler a) = m at *
    simp only [Fin.sum_univ_three, Fin.reduceEq, if_true, if_false] at h00 h01 h02 h11 h12 h22
    simp only [dist2, Fin.sum_univ_three, currentCoords, sixDofDisplacement]
    linear_combination (x 0 - y 0) ^ 2 * h00 + (x 1 - y 1) ^ 2 * h11 + (x 2 - y 2) ^ 2 * h22
      + 2 * (x 0 - y 0) * (x 1 - y 1) * h01 + 2 * (x 0 - y 0) * (x 2 - y 2) * h02 + 2 * (x 1 - y 1) * (x 2 - y 2) * h12
  · funext i; simp only [currentCoords, sixDofDisplacement, rotateTranslate]; ring

/-- C47: taking a vector to the body frame and back gives the vector. -/
theorem c47_frame_round_trip {tiny : ℝ} (ht : tiny ≤ 1) (v a : Fin 3 → ℝ) :
    convertVect tiny (convertVect tiny v a false) a true = v ∧
    convertVect tiny (convertVect tiny v a true) a false = v := by
  have h := c47_inverse_option ht (c47_euler_unit a).2
  constructor
  · funext i
    have h0 := h.2.2 i 0; have h1 := h.2.2 i 1; have h2 := h.2.2 i 2
    simp only [Fin.sum_univ_three] at h0 h1 h2
    simp only [convertVect, matVec]
    have e : v i = (if i = 0 then 1 else 0) * v 0 + (if i = 1 then 1 else 0) * v 1 + (if i = 2 then 1 else 0) * v 2 := by
      fin_cases i <;> simp
    rw [e, ← h0, ← h1, ← h2]; ring
  · funext i
    have h0 := h.2.1 i 0; have h1 := h.2.1 i 1; have h2 := h.2.1 i 2
    simp only [Fin.sum_univ_three] at h0 h1 h2
    simp only [convertVect, matVec]
    have e : v i = (if i = 0 then 1 else 0) * v 0 + (if i = 1 then 1 else 0) * v 1 + (if i = 2 then 1 else 0) * v 2 := by
      fin_cases i <;> simp
    rw [e, ← h0, ← h1, ← h2]; ring

theorem atan2_polar {r θ : ℝ} (hr : 0 < r) (hθ : θ ∈ Set.Ioc (-Real.pi) Real.pi) :
    atan2 (r * Real.sin θ) (r * Real.cos θ) = θ := by
  refine Eq.trans ?_ (Complex.arg_mul_cos_add_sin_mul_I hr hθ)
  rw [atan2]
  congr 1
  apply Complex.ext <;> simp [Complex.cos_ofReal_re, Complex.sin_ofReal_re]

/-- The three expressions the angles are extracted from. -/
theorem euler_entries (a : Fin 3 → ℝ) :
    2 * (eulerQuat a 0 * eulerQuat a 1 + eulerQuat a 2 * eulerQuat a 3) = Real.cos (a 1) * Real.sin (a 0) ∧
    eulerQuat a 0 * eulerQuat a 0 - eulerQuat a 1 * eulerQuat a 1 - eulerQuat a 2 * eulerQuat a 2
      + eulerQuat a 3 * eulerQuat a 3 = Real.cos (a 1) * Real.cos (a 0) ∧
    -2 * (eulerQuat a 1 * eulerQuat a 3 - eulerQuat a 0 * eulerQuat a 2) = Real.sin (a 1) ∧
    2 * (eulerQuat a 2 * eulerQuat a 1 + eulerQuat a 0 * eulerQuat a 3) = Real.cos (a 1) * Real.sin (a 2) ∧
    eulerQuat a 0 * eulerQuat a 0 + eulerQuat a 1 * eulerQuat a 1 - eulerQuat a 2 * eulerQuat a 2
      - eulerQuat a 3 * eulerQuat a 3 = Real.cos (a 1) * Real.cos (a 2) := by
  obtain ⟨s0, c0, e1, e2, h0, e3, e4⟩ := trig_half (a 0)
  obtain ⟨s1, c1, f1, f2, h1, f3, f4⟩ := trig_half (a 1)
  obtain ⟨s2, c2, g1, g2, h2, g3, g4⟩ := trig_half (a 2)
  have hc0 : c0 ^ 2 = 1 - s0 ^ 2 := by linarith
  have hc1 : c1 ^ 2 = 1 - s1 ^ 2 := by linarith
  have hc2 : c2 ^ 2 = 1 - s2 ^ 2 := by linarith
  simp only [eulerQuat, e1, e2, e3, e4, f1, f2, f3, f4, g1, g2, g3, g4]
  refine ⟨?_, ?_, ?_, ?_, ?_⟩ <;> ring_nf <;> simp only [hc0, hc1, hc2] <;> ring

/-- C47: Euler angles survive the round trip through the quaternion, for all angles in the standard
range (the middle one strictly between `-π/2` and `π/2`). -/
theorem c47_euler_round_trip (a : Fin 3 → ℝ) (h0 : a 0 ∈ Set.Ioc (-Real.pi) Real.pi)
    (h1 : a 1 ∈ Set.Ioo (-(Real.pi / 2)) (Real.pi / 2)) (h2 : a 2 ∈ Set.Ioc (-Real.pi) Real.pi) :
    eulerFromQuat (quatFromEuler a) = a := by
  rw [(c47_euler_unit a).1]
  obtain ⟨e1, e2, e3, e4, e5⟩ := euler_entries a
  have hc : 0 < Real.cos (a 1) := Real.cos_pos_of_mem_Ioo h1
  funext i
  revert i
  simp only [all3, eulerFromQuat, e1, e2, e3, e4, e5]
  exact ⟨atan2_polar hc h0, Real.arcsin_sin h1.1.le h1.2.le, atan2_polar hc h2⟩

/-- C47 (negative, gimbal lock): at a middle angle of `π/2` the extraction returns zero for the other
two angles whatever they were, so the attitude is lost unless they were equal. -/
theorem c47_gimbal_lock (a : Fin 3 → ℝ) (h1 : a 1 = Real.pi / 2) :
    eulerFromQuat (quatFromEuler a) = ![0, Real.pi / 2, 0] ∧
    (Real.sin (a 2 - a 0) ≠ 0 →
      rotMat (quatFromEuler (eulerFromQuat (quatFromEuler a))) ≠ rotMat (quatFromEuler a)) := by
  have key : eulerFromQuat (quatFromEuler a) = ![0, Real.pi / 2, 0] := by
    rw [(c47_euler_unit a).1]
    obtain ⟨e1, e2, e3, e4, e5⟩ := euler_entries a
    rw [h1, Real.cos_pi_div_two] at e1 e2 e4 e5
    rw [h1, Real.sin_pi_div_two] at e3
    simp only [zero_mul] at e1 e2 e4 e5
    have hz : atan2 0 0 = 0 := by
      rw [atan2, show (⟨0, 0⟩ : ℂ) = 0 from rfl, Complex.arg_zero]
    funext i
    revert i
    simp only [all3, eulerFromQuat, e1, e2, e3, e4, e5, m0, m1, m2, hz, Real.arcsin_one, and_self]
  refine ⟨key, fun hne h => hne ?_⟩
  rw [key] at h
  have ha := c47_euler_composition a
  have hb := c47_euler_composition ![0, Real.pi / 2, 0]
  have h01 : rotMat (quatFromEuler ![0, Real.pi / 2, 0]) 0 1 = rotMat (quatFromEuler a) 0 1 := by rw [h]
  have ha' := congrFun (congrFun ha 0) 1
  have hb' := congrFun (congrFun hb 0) 1
  simp only [Matrix.of_apply, Matrix.mul_apply, Fin.sum_univ_three, rotZ, rotY, rotX, h1, m0, m1, m2,
    Matrix.cons_val', Matrix.cons_val_zero, Matrix.cons_val_one,
    Matrix.cons_val, Matrix.empty_val', Matrix.cons_val_fin_one, Real.cos_pi_div_two, Real.sin_pi_div_two,
    Real.sin_zero, Real.cos_zero] at ha' hb'
  rw [hb', ha'] at h01
  rw [Real.sin_sub]
  linear_combination h01

end Verif.Motion
