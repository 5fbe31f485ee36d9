import Verif.Props.PointSearchPrism

/-!
# C44: the direct searches (tetrahedron, triangles, edge) and the surface quadrilateral
-/

set_option linter.unusedSimpArgs false
set_option linter.unusedSectionVars false
set_option linter.unusedVariables false

namespace Verif.Shape

section
variable {K : Type*} [Field K] [LinearOrder K] [IsStrictOrderedRing K]

/-! ## Tetrahedron -/

/-- Volume determinant of the three edge vectors leaving node 0. -/
def tetVol (e : Fin 4 → Fin 3 → K) : K :=
  Matrix.det (Matrix.of fun i j : Fin 3 => e j.succ i - e 0 i)

set_option maxHeartbeats 4000000 in
theorem tetSearch_none (e : Fin 4 → Fin 3 → K) (p : Fin 3 → K) :
    tetSearch e p = none ↔ tetVol e = 0 := by
  have h : tetVol e = (e 1 0 - e 0 0) * ((e 2 1 - e 0 1) * (e 3 2 - e 0 2) - (e 3 1 - e 0 1) * (e 2 2 - e 0 2))
    - (e 2 0 - e 0 0) * ((e 1 1 - e 0 1) * (e 3 2 - e 0 2) - (e 3 1 - e 0 1) * (e 1 2 - e 0 2))
    + (e 3 0 - e 0 0) * ((e 1 1 - e 0 1) * (e 2 2 - e 0 2) - (e 2 1 - e 0 1) * (e 1 2 - e 0 2)) := by
    simp only [tetVol, Matrix.det_fin_three, Matrix.of_apply, show Fin.succ (0 : Fin 3) = (1 : Fin 4) from rfl,
      show Fin.succ (1 : Fin 3) = (2 : Fin 4) from rfl, show Fin.succ (2 : Fin 3) = (3 : Fin 4) from rfl]
    ring
  rw [h]
  unfold tetSearch
  dsimp only
  split_ifs with hd <;> simp [hd]

set_option maxHeartbeats 4000000 in
/-- C44 (tetrahedron): for every non-degenerate tetrahedron (either orientation) and every point the
search returns the parametric coordinates at which interpolation gives the point back. -/
theorem c44_tet_exact (e : Fin 4 → Fin 3 → K) (p : Fin 3 → K) (hv : tetVol e ≠ 0) :
    ∃ y, tetSearch e p = some y ∧ ∀ i, interp (tetShape y) (fun k => e k i) = p i := by
  cases hs : tetSearch e p with
  | none => exact absurd ((tetSearch_none e p).1 hs) hv
  | some y =>
    refine ⟨y, rfl, ?_⟩
    unfold tetSearch at hs
    dsimp only at hs
    split_ifs at hs with hd
    obtain rfl := Option.some.inj hs
    simp only [forall3, interp, Fin.sum_univ_four, tetShape, v30, v31, v32]
    refine ⟨?_, ?_, ?_⟩
    all_goals
      generalize hD : (e 1 0 - e 0 0) * ((e 2 1 - e 0 1) * (e 3 2 - e 0 2) - (e 3 1 - e 0 1) * (e 2 2 - e 0 2))
        - (e 2 0 - e 0 0) * ((e 1 1 - e 0 1) * (e 3 2 - e 0 2) - (e 3 1 - e 0 1) * (e 1 2 - e 0 2))
        + (e 3 0 - e 0 0) * ((e 1 1 - e 0 1) * (e 2 2 - e 0 2) - (e 2 1 - e 0 1) * (e 1 2 - e 0 2)) = D at hd ⊢
      field_simp
      rw [← hD]
      ring

/-- The reference tetrahedron. -/
def InTet (x : Fin 3 → K) : Prop := 0 ≤ x 0 ∧ 0 ≤ x 1 ∧ 0 ≤ x 2 ∧ x 0 + x 1 + x 2 ≤ 1

/-- C44 (tetrahedron): the parametric distance is at most one exactly in the element. -/
theorem c44_tet_distance (x : Fin 3 → K) : tetDist x ≤ 1 ↔ InTet x := by
  simp only [tetDist, InTet, max_le_iff]
  constructor
  · rintro ⟨⟨h1, h2⟩, h3, h4⟩; refine ⟨?_, ?_, ?_, ?_⟩ <;> linarith
  · rintro ⟨h1, h2, h3, h4⟩; refine ⟨⟨?_, ?_⟩, ?_, ?_⟩ <;> linarith

/-! ## Edge in 2D -/

/-- C44 (edge): interpolating at the returned coordinate gives the foot of the perpendicular from the
point on the line of the edge, and the second value is the distance from the line divided by the
length of the edge (both compared as squares). -/
theorem c44_edge_projection (e : Fin 2 → Fin 2 → K) (p : Fin 2 → K) (he : e 0 ≠ e 1) :
    ∃ x w, edgeSearch e p = some (x, w) ∧ 0 ≤ w ∧
      (∑ i, (p i - interp (edgeShape ![x]) (fun k => e k i)) * (e 1 i - e 0 i) = 0) ∧
      (∑ i, (p i - interp (edgeShape ![x]) (fun k => e k i)) ^ 2
        = w ^ 2 * ∑ i, (e 1 i - e 0 i) ^ 2) := by
  have hn : (e 1 0 - e 0 0) * (e 1 0 - e 0 0) + (e 1 1 - e 0 1) * (e 1 1 - e 0 1) ≠ 0 := by
    intro h
    have h0 : e 1 0 - e 0 0 = 0 := by nlinarith [mul_self_nonneg (e 1 0 - e 0 0), mul_self_nonneg (e 1 1 - e 0 1)]
    have h1 : e 1 1 - e 0 1 = 0 := by nlinarith [mul_self_nonneg (e 1 0 - e 0 0), mul_self_nonneg (e 1 1 - e 0 1)]
    apply he
    funext i
    revert i
    simp only [forall2]
    exact ⟨(sub_eq_zero.1 h0).symm, (sub_eq_zero.1 h1).symm⟩
  have hpos : 0 ≤ (e 1 0 - e 0 0) * (e 1 0 - e 0 0) + (e 1 1 - e 0 1) * (e 1 1 - e 0 1) :=
    add_nonneg (mul_self_nonneg _) (mul_self_nonneg _)
  refine ⟨_, _, by unfold edgeSearch; dsimp only; rw [if_neg hn], div_nonneg (abs_nonneg _) hpos, ?_, ?_⟩
  · simp only [Fin.sum_univ_two, interp, edgeShape, v10]
    generalize hD : (e 1 0 - e 0 0) * (e 1 0 - e 0 0) + (e 1 1 - e 0 1) * (e 1 1 - e 0 1) = D at hn ⊢
    field_simp
    rw [← hD]; ring
  · simp only [Fin.sum_univ_two, interp, edgeShape, v10, div_pow, sq_abs]
    generalize hD : (e 1 0 - e 0 0) * (e 1 0 - e 0 0) + (e 1 1 - e 0 1) * (e 1 1 - e 0 1) = D at hn ⊢
    field_simp
    rw [← hD]; ring

/-- C44 (edge): the distance is at most one exactly when the foot is on the edge and the scaled
distance from the line is at most the thickness. -/
theorem c44_edge_distance {thick x w : K} (ht : 0 ≤ thick) (hw : 0 ≤ w) :
    edgeDist thick x w ≤ 1 ↔ |x| ≤ 1 ∧ w ≤ thick := by
  unfold edgeDist
  split_ifs with h
  · constructor
    · intro h1; have := h.1; constructor <;> linarith
    · rintro ⟨_, h2⟩; exact absurd h.1 (not_lt.2 h2)
  · constructor
    · intro h1
      refine ⟨h1, ?_⟩
      by_contra h2
      exact h ⟨not_le.1 h2, by have := not_le.1 h2; linarith⟩
    · exact fun h => h.1

end

/-! ## Triangles -/

/-- C44 (triangles): the parametric distance, a function of the first two area coordinates, is at most
one exactly when all three area coordinates are non-negative. -/
theorem c44_tri_distance {K : Type*} [Field K] [LinearOrder K] [IsStrictOrderedRing K] (w0 w1 : K) :
    triDist w0 w1 ≤ 1 ↔ 0 ≤ w0 ∧ 0 ≤ w1 ∧ w0 + w1 ≤ 1 := by
  simp only [triDist, max_le_iff]
  constructor
  · rintro ⟨⟨h1, h2⟩, h3⟩; refine ⟨?_, ?_, ?_⟩ <;> linarith
  · rintro ⟨h1, h2, h3⟩; refine ⟨⟨?_, ?_⟩, ?_⟩ <;> linarith

/-- Twice the signed area. -/
def triCross (e : Fin 3 → Fin 2 → ℝ) : ℝ :=
  (e 1 0 - e 0 0) * (e 2 1 - e 0 1) - (e 2 0 - e 0 0) * (e 1 1 - e 0 1)

/-- The reference triangle. -/
def InTri (x : Fin 2 → ℝ) : Prop := 0 ≤ x 0 ∧ 0 ≤ x 1 ∧ x 0 + x 1 ≤ 1

theorem tri2d_core (e : Fin 3 → Fin 2 → ℝ) (p : Fin 2 → ℝ) (hc : triCross e ≠ 0) :
    ∃ y d, tri2dSearch e p = some (y, d) ∧ (d ≤ 1 ↔ InTri y) ∧
      y 1 * |triCross e| = (e 1 0 - e 0 0) * (p 1 - e 0 1) - (e 1 1 - e 0 1) * (p 0 - e 0 0) ∧
      y 0 * ((e 1 0 - e 0 0) * (e 1 0 - e 0 0) + (e 1 1 - e 0 1) * (e 1 1 - e 0 1))
        + y 1 * ((e 1 0 - e 0 0) * (e 2 0 - e 0 0) + (e 1 1 - e 0 1) * (e 2 1 - e 0 1))
        = (e 1 0 - e 0 0) * (p 0 - e 0 0) + (e 1 1 - e 0 1) * (p 1 - e 0 1) := by
  unfold triCross at hc ⊢
  unfold tri2dSearch
  dsimp only
  generalize e 1 0 - e 0 0 = x0 at *
  generalize e 2 0 - e 0 0 = x1 at *
  generalize e 1 1 - e 0 1 = y0 at *
  generalize e 2 1 - e 0 1 = y1 at *
  generalize p 0 - e 0 0 = xp at *
  generalize p 1 - e 0 1 = yp at *
  rw [Real.sqrt_mul_self_eq_abs]
  have hA : |x0 * y1 - x1 * y0| ≠ 0 := by simpa using hc
  have hA2 : 0 < |x0 * y1 - x1 * y0| := abs_pos.2 hc
  rw [if_neg hA]
  have hL0 : 0 < x0 * x0 + y0 * y0 := by
    rcases (add_nonneg (mul_self_nonneg x0) (mul_self_nonneg y0)).lt_or_eq with h | h
    · exact h
    · exfalso; apply hc
      have h1 : x0 = 0 := by nlinarith [mul_self_nonneg x0, mul_self_nonneg y0]
      have h2 : y0 = 0 := by nlinarith [mul_self_nonneg x0, mul_self_nonneg y0]
      rw [h1, h2]; ring
  have hM0 : 0 < x1 * x1 + y1 * y1 := by
    rcases (add_nonneg (mul_self_nonneg x1) (mul_self_nonneg y1)).lt_or_eq with h | h
    · exact h
    · exfalso; apply hc
      have h1 : x1 = 0 := by nlinarith [mul_self_nonneg x1, mul_self_nonneg y1]
      have h2 : y1 = 0 := by nlinarith [mul_self_nonneg x1, mul_self_nonneg y1]
      rw [h1, h2]; ring
  have hL : Real.sqrt (x0 * x0 + y0 * y0) * Real.sqrt (x0 * x0 + y0 * y0) = x0 * x0 + y0 * y0 :=
    Real.mul_self_sqrt hL0.le
  have hLp : Real.sqrt (x0 * x0 + y0 * y0) ≠ 0 := (Real.sqrt_pos.2 hL0).ne'
  have hMp : Real.sqrt (x1 * x1 + y1 * y1) ≠ 0 := (Real.sqrt_pos.2 hM0).ne'
  generalize Real.sqrt (x0 * x0 + y0 * y0) = L at *
  generalize Real.sqrt (x1 * x1 + y1 * y1) = M at *
  generalize |x0 * y1 - x1 * y0| = A at *
  refine ⟨_, _, rfl, ?_, ?_, ?_⟩
  · rw [c44_tri_distance]
    simp only [InTri, v20, v21]
    constructor
    · rintro ⟨h1, h2, h3⟩; refine ⟨?_, ?_, ?_⟩ <;> linarith
    · rintro ⟨h1, h2, h3⟩; refine ⟨?_, ?_, ?_⟩ <;> linarith
  · simp only [v21]
    field_simp
    ring
  · rw [← hL]
    simp only [v20, v21]
    field_simp
    ring

/-- C44 (triangle in 2D): for a counterclockwise triangle and every point the search returns the
parametric coordinates at which interpolation gives the point back, and the distance is at most one
exactly when they are in the reference triangle. -/
theorem c44_tri2d_exact (e : Fin 3 → Fin 2 → ℝ) (p : Fin 2 → ℝ) (hc : 0 < triCross e) :
    ∃ y d, tri2dSearch e p = some (y, d) ∧ (d ≤ 1 ↔ InTri y) ∧
      ∀ i, interp (triShape y) (fun k => e k i) = p i := by
  obtain ⟨y, d, h1, h2, h3, h4⟩ := tri2d_core e p hc.ne'
  refine ⟨y, d, h1, h2, ?_⟩
  rw [abs_of_pos hc] at h3
  have hL0 : (e 1 0 - e 0 0) * (e 1 0 - e 0 0) + (e 1 1 - e 0 1) * (e 1 1 - e 0 1) ≠ 0 := by
    intro h
    have a : e 1 0 - e 0 0 = 0 := by nlinarith [mul_self_nonneg (e 1 0 - e 0 0), mul_self_nonneg (e 1 1 - e 0 1)]
    have b : e 1 1 - e 0 1 = 0 := by nlinarith [mul_self_nonneg (e 1 0 - e 0 0), mul_self_nonneg (e 1 1 - e 0 1)]
    simp [triCross, a, b] at hc
  unfold triCross at h3
  simp only [forall2, interp, Fin.sum_univ_three, triShape]
  refine ⟨?_, ?_⟩ <;> apply mul_left_cancel₀ hL0
  · linear_combination (e 1 0 - e 0 0) * h4 - (e 1 1 - e 0 1) * h3
  · linear_combination (e 1 1 - e 0 1) * h4 + (e 1 0 - e 0 0) * h3

/-- C44 (triangle in 2D, negative): for a clockwise triangle the position interpolated at the returned
coordinates is the mirror image of the point in the line through nodes 0 and 1: same projection on the
line, opposite side.  The round trip fails for every point off that line. -/
theorem c44_tri2d_clockwise_mirrored (e : Fin 3 → Fin 2 → ℝ) (p : Fin 2 → ℝ) (hc : triCross e < 0) :
    ∃ y d, tri2dSearch e p = some (y, d) ∧
      let q : Fin 2 → ℝ := fun i => interp (triShape y) (fun k => e k i)
      (∑ i, (q i - e 0 i) * (e 1 i - e 0 i) = ∑ i, (p i - e 0 i) * (e 1 i - e 0 i)) ∧
      ((e 1 0 - e 0 0) * (q 1 - e 0 1) - (e 1 1 - e 0 1) * (q 0 - e 0 0)
        = -((e 1 0 - e 0 0) * (p 1 - e 0 1) - (e 1 1 - e 0 1) * (p 0 - e 0 0))) := by
  obtain ⟨y, d, h1, h2, h3, h4⟩ := tri2d_core e p hc.ne
  refine ⟨y, d, h1, ?_⟩
  rw [abs_of_neg hc] at h3
  unfold triCross at h3
  simp only [Fin.sum_univ_two, interp, Fin.sum_univ_three, triShape]
  refine ⟨?_, ?_⟩
  · linear_combination h4
  · linear_combination -h3

/-- Cross product of the edges leaving node 0: the normal, with length twice the area. -/
def triNormal (e : Fin 3 → Fin 3 → ℝ) : Fin 3 → ℝ
  | 0 => (e 1 1 - e 0 1) * (e 2 2 - e 0 2) - (e 2 1 - e 0 1) * (e 1 2 - e 0 2)
  | 1 => (e 2 0 - e 0 0) * (e 1 2 - e 0 2) - (e 1 0 - e 0 0) * (e 2 2 - e 0 2)
  | 2 => (e 1 0 - e 0 0) * (e 2 1 - e 0 1) - (e 2 0 - e 0 0) * (e 1 1 - e 0 1)

theorem tri3d_alg {x0 x1 y0 y1 z0 z1 xp yp zp L M A R n0 n1 n2 : ℝ} (hL : L * L = x0 * x0 + y0 * y0 + z0 * z0)
    (hn0 : n0 = y0 * z1 - y1 * z0) (hn1 : n1 = x1 * z0 - x0 * z1) (hn2 : n2 = x0 * y1 - x1 * y0)
    (hA : A * A = n0 * n0 + n1 * n1 + n2 * n2) (hL0 : L ≠ 0) (hM0 : M ≠ 0) (hA0 : A ≠ 0)
    {w1 par1 : ℝ}
    (h1 : par1 = (L * L * (x1 * xp + y1 * yp + z1 * zp) - (x0 * x1 + y0 * y1 + z0 * z1) * (x0 * xp + y0 * yp + z0 * zp)) / (A * A))
    (h0 : w1 = ((x0 * xp + y0 * yp + z0 * zp) - (x0 * x1 + y0 * y1 + z0 * z1) * par1) / (L * L)) :
    xp = x0 * w1 + x1 * par1 + (n0 * xp + n1 * yp + n2 * zp) / (A * A) * n0 ∧
    yp = y0 * w1 + y1 * par1 + (n0 * xp + n1 * yp + n2 * zp) / (A * A) * n1 ∧
    zp = z0 * w1 + z1 * par1 + (n0 * xp + n1 * yp + n2 * zp) / (A * A) * n2 := by
  have hA2 : A * A ≠ 0 := mul_ne_zero hA0 hA0
  have hL2 : L * L ≠ 0 := mul_ne_zero hL0 hL0
  have hid : A * A = L * L * (x1 * x1 + y1 * y1 + z1 * z1) - (x0 * x1 + y0 * y1 + z0 * z1) ^ 2 := by
    rw [hA, hL, hn0, hn1, hn2]; ring
  have hw : w1 = ((x1 * x1 + y1 * y1 + z1 * z1) * (x0 * xp + y0 * yp + z0 * zp)
      - (x0 * x1 + y0 * y1 + z0 * z1) * (x1 * xp + y1 * yp + z1 * zp)) / (A * A) := by
    rw [h0, h1, eq_div_iff hA2, div_mul_eq_mul_div, div_eq_iff hL2]
    rw [sub_mul, mul_assoc _ (_ / _) (A * A), div_mul_cancel₀ _ hA2, hid]
    ring
  have e3 : ∀ (P a b n : ℝ), P * (A * A) = a * ((x1 * x1 + y1 * y1 + z1 * z1) * (x0 * xp + y0 * yp + z0 * zp)
      - (x0 * x1 + y0 * y1 + z0 * z1) * (x1 * xp + y1 * yp + z1 * zp))
      + b * (L * L * (x1 * xp + y1 * yp + z1 * zp) - (x0 * x1 + y0 * y1 + z0 * z1) * (x0 * xp + y0 * yp + z0 * zp))
      + (n0 * xp + n1 * yp + n2 * zp) * n →
      P = a * w1 + b * par1 + (n0 * xp + n1 * yp + n2 * zp) / (A * A) * n := by
    intro P a b n h
    rw [hw, h1]
    rw [← mul_div_assoc, ← mul_div_assoc, div_mul_eq_mul_div, ← add_div, ← add_div, eq_div_iff hA2]
    exact h
  refine ⟨e3 _ _ _ _ ?_, e3 _ _ _ _ ?_, e3 _ _ _ _ ?_⟩ <;> rw [hA, hL, hn0, hn1, hn2] <;> ring

set_option maxHeartbeats 1000000 in
/-- C44 (triangle in 3D): for every non-degenerate triangle and every point, the point is the position
interpolated at the returned in-plane coordinates plus an offset along the unit normal, of length the
returned third coordinate times the square root of twice the area.  So the interpolated position is
the foot of the perpendicular.  The distance is at most one exactly when the foot is in the triangle
and the scaled offset does not exceed the thickness. -/
theorem c44_tri3d_projection {thick : ℝ} (ht : 0 ≤ thick) (e : Fin 3 → Fin 3 → ℝ) (p : Fin 3 → ℝ)
    (hn : triNormal e ≠ 0) :
    ∃ y d, tri3dSearch thick e p = some (y, d) ∧ (d ≤ 1 ↔ InTri ![y 0, y 1] ∧ |y 2| ≤ thick) ∧
      ∃ A : ℝ, 0 < A ∧ A ^ 2 = ∑ i, triNormal e i ^ 2 ∧
        ∀ i, p i = interp (triShape ![y 0, y 1]) (fun k => e k i) + y 2 * Real.sqrt A * (triNormal e i / A) := by
  have hdist : ∀ w0 w1 w2 : ℝ, tri3dDist thick w0 w1 w2 ≤ 1 ↔ (0 ≤ w1 ∧ 0 ≤ 1 - w0 - w1 ∧ w1 + (1 - w0 - w1) ≤ 1) ∧ |w2| ≤ thick := by
    intro w0 w1 w2
    have h := c44_tri_distance w0 w1
    have h' : triDist w0 w1 ≤ 1 ↔ 0 ≤ w1 ∧ 0 ≤ 1 - w0 - w1 ∧ w1 + (1 - w0 - w1) ≤ 1 := by
      rw [h]
      constructor
      · rintro ⟨h1, h2, h3⟩; refine ⟨?_, ?_, ?_⟩ <;> linarith
      · rintro ⟨h1, h2, h3⟩; refine ⟨?_, ?_, ?_⟩ <;> linarith
    rw [← h']
    unfold tri3dDist
    dsimp only
    split_ifs with hh
    · constructor
      · intro h1; have := hh.1; constructor <;> linarith
      · rintro ⟨_, h2⟩; exact absurd hh.1 (not_lt.2 h2)
    · constructor
      · intro h1
        refine ⟨h1, ?_⟩
        by_contra h2
        exact hh ⟨not_le.1 h2, by have := not_le.1 h2; linarith⟩
      · exact fun h => h.1
  have hpos : 0 < triNormal e 0 * triNormal e 0 + triNormal e 1 * triNormal e 1 + triNormal e 2 * triNormal e 2 := by
    rcases (add_nonneg (add_nonneg (mul_self_nonneg (triNormal e 0)) (mul_self_nonneg (triNormal e 1)))
      (mul_self_nonneg (triNormal e 2))).lt_or_eq with h | h
    · exact h
    · exfalso; apply hn
      funext i
      revert i
      simp only [forall3, Pi.zero_apply]
      refine ⟨?_, ?_, ?_⟩ <;> nlinarith [mul_self_nonneg (triNormal e 0), mul_self_nonneg (triNormal e 1), mul_self_nonneg (triNormal e 2)]
  have hLM : (0 < (e 1 0 - e 0 0) * (e 1 0 - e 0 0) + (e 1 1 - e 0 1) * (e 1 1 - e 0 1) + (e 1 2 - e 0 2) * (e 1 2 - e 0 2)) ∧
      0 < (e 2 0 - e 0 0) * (e 2 0 - e 0 0) + (e 2 1 - e 0 1) * (e 2 1 - e 0 1) + (e 2 2 - e 0 2) * (e 2 2 - e 0 2) := by
    simp only [triNormal] at hpos
    generalize e 1 0 - e 0 0 = x0 at *
    generalize e 2 0 - e 0 0 = x1 at *
    generalize e 1 1 - e 0 1 = y0 at *
    generalize e 2 1 - e 0 1 = y1 at *
    generalize e 1 2 - e 0 2 = z0 at *
    generalize e 2 2 - e 0 2 = z1 at *
    have key : ∀ a b c : ℝ, 0 < a * a + b * b + c * c ∨ (a = 0 ∧ b = 0 ∧ c = 0) := by
      intro a b c
      rcases (add_nonneg (add_nonneg (mul_self_nonneg a) (mul_self_nonneg b)) (mul_self_nonneg c)).lt_or_eq with h | h
      · exact Or.inl h
      · right
        refine ⟨?_, ?_, ?_⟩ <;> nlinarith [mul_self_nonneg a, mul_self_nonneg b, mul_self_nonneg c]
    constructor
    · rcases key x0 y0 z0 with h | ⟨rfl, rfl, rfl⟩
      · exact h
      · norm_num at hpos
    · rcases key x1 y1 z1 with h | ⟨rfl, rfl, rfl⟩
      · exact h
      · norm_num at hpos
  unfold tri3dSearch
  dsimp only
  have e0 : (e 1 1 - e 0 1) * (e 2 2 - e 0 2) - (e 2 1 - e 0 1) * (e 1 2 - e 0 2) = triNormal e 0 := rfl
  have e1 : (e 2 0 - e 0 0) * (e 1 2 - e 0 2) - (e 1 0 - e 0 0) * (e 2 2 - e 0 2) = triNormal e 1 := rfl
  have e2 : (e 1 0 - e 0 0) * (e 2 1 - e 0 1) - (e 2 0 - e 0 0) * (e 1 1 - e 0 1) = triNormal e 2 := rfl
  rw [e0, e1, e2]
  have hAs := Real.sqrt_pos.2 hpos
  have hAA := Real.mul_self_sqrt hpos.le
  have hLs := Real.sqrt_pos.2 hLM.1
  have hLL := Real.mul_self_sqrt hLM.1.le
  have hMs := Real.sqrt_pos.2 hLM.2
  rw [if_neg hAs.ne']
  refine ⟨_, _, rfl, ?_, _, hAs, ?_, ?_⟩
  · rw [hdist]; simp only [InTri, v20, v21, v30, v31, v32]
  · rw [Fin.sum_univ_three, pow_two, hAA]; ring
  · generalize Real.sqrt (triNormal e 0 * triNormal e 0 + triNormal e 1 * triNormal e 1 + triNormal e 2 * triNormal e 2) = A at *
    generalize Real.sqrt ((e 1 0 - e 0 0) * (e 1 0 - e 0 0) + (e 1 1 - e 0 1) * (e 1 1 - e 0 1) + (e 1 2 - e 0 2) * (e 1 2 - e 0 2)) = L at *
    generalize Real.sqrt ((e 2 0 - e 0 0) * (e 2 0 - e 0 0) + (e 2 1 - e 0 1) * (e 2 1 - e 0 1) + (e 2 2 - e 0 2) * (e 2 2 - e 0 2)) = M at *
    simp only [v20, v21, v30, v31, v32, interp, Fin.sum_univ_three, triShape, forall3]
    have hR := (Real.sqrt_pos.2 hAs).ne'
    have hi := hLL
    have hA0 := hAs.ne'
    have hL0 := hLs.ne'
    have hM0 := hMs.ne'
    have b0 := e0.symm
    have b1 := e1.symm
    have b2 := e2.symm
    clear e0 e1 e2 hn hpos hLM hdist hAs hLs hMs
    generalize triNormal e 0 = n0 at *
    generalize triNormal e 1 = n1 at *
    generalize triNormal e 2 = n2 at *
    generalize hx0 : e 1 0 - e 0 0 = x0 at *
    generalize hx1 : e 2 0 - e 0 0 = x1 at *
    generalize hy0 : e 1 1 - e 0 1 = y0 at *
    generalize hy1 : e 2 1 - e 0 1 = y1 at *
    generalize hz0 : e 1 2 - e 0 2 = z0 at *
    generalize hz1 : e 2 2 - e 0 2 = z1 at *
    generalize hxp : p 0 - e 0 0 = xp at *
    generalize hyp : p 1 - e 0 1 = yp at *
    generalize hzp : p 2 - e 0 2 = zp at *
    generalize hyn : (n1 / A * (z0 / L) - y0 / L * (n2 / A)) * xp + (x0 / L * (n2 / A) - n0 / A * (z0 / L)) * yp +
              (n0 / A * (y0 / L) - x0 / L * (n1 / A)) * zp = ypn
    have hyn' : ypn = (L * L * (x1 * xp + y1 * yp + z1 * zp) - (x0 * x1 + y0 * y1 + z0 * z1) * (x0 * xp + y0 * yp + z0 * zp)) / (A * L) := by
      rw [← hyn, hLL, eq_div_iff (mul_ne_zero hA0 hL0)]
      have : ∀ a b : ℝ, a / A * (b / L) * (A * L) = a * b := by intro a b; field_simp
      have t : ((n1 / A * (z0 / L) - y0 / L * (n2 / A)) * xp + (x0 / L * (n2 / A) - n0 / A * (z0 / L)) * yp +
              (n0 / A * (y0 / L) - x0 / L * (n1 / A)) * zp) * (A * L)
          = (n1 * z0 - y0 * n2) * xp + (x0 * n2 - n0 * z0) * yp + (n0 * y0 - x0 * n1) * zp := by
        field_simp
      rw [t, b0, b1, b2]; ring
    generalize hw0 : 1 - (x0 / L * xp + y0 / L * yp + z0 / L * zp) / L + ypn * (M * ((x0 * x1 + y0 * y1 + z0 * z1) / (L * M)) - L) / A = w0
    generalize hw1 : ((x0 / L * xp + y0 / L * yp + z0 / L * zp) * (M * (A / (L * M))) - ypn * (M * ((x0 * x1 + y0 * y1 + z0 * z1) / (L * M)))) / A = w1
    have hp1 : 1 - w0 - w1 = ypn * L / A := by
      rw [← hw0, ← hw1]; field_simp; ring
    have hw1' : w1 = ((x0 * xp + y0 * yp + z0 * zp) - (x0 * x1 + y0 * y1 + z0 * z1) * (1 - w0 - w1)) / (L * L) := by
      rw [hp1, ← hw1]; field_simp
    have hp1' : 1 - w0 - w1 = (L * L * (x1 * xp + y1 * yp + z1 * zp) - (x0 * x1 + y0 * y1 + z0 * z1) * (x0 * xp + y0 * yp + z0 * zp)) / (A * A) := by
      rw [hp1, hyn']; field_simp
    have key := tri3d_alg (L := L) (M := M) (A := A) (R := 1) hLL b0 b1 b2 hAA hL0 hM0 hA0 hp1' hw1'
    have hz : ∀ n : ℝ, (n0 / A * xp + n1 / A * yp + n2 / A * zp) / Real.sqrt A * Real.sqrt A * (n / A)
        = (n0 * xp + n1 * yp + n2 * zp) / (A * A) * n := by
      intro n; rw [div_mul_cancel₀ _ hR]; field_simp
    simp only [hz]
    refine ⟨?_, ?_, ?_⟩
    · linear_combination key.1 + hxp - w1 * hx0 - (1 - w0 - w1) * hx1
    · linear_combination key.2.1 + hyp - w1 * hy0 - (1 - w0 - w1) * hy1
    · linear_combination key.2.2 + hzp - w1 * hz0 - (1 - w0 - w1) * hz1

/-! ## Surface quadrilateral in 3D -/

section
variable {K : Type*} [Field K] [LinearOrder K] [IsStrictOrderedRing K]

/-- Position on the surface at `(s 0, s 1)`. -/
def surf (e : Fin 4 → Fin 3 → K) (s : Fin 3 → K) (i : Fin 3) : K :=
  interp (quadGeneralShape ![s 0, s 1]) (fun k => e k i)

/-- Tangent vectors of the surface: derivatives of the position with respect to the parametric
coordinates. -/
def tangent (e : Fin 4 → Fin 3 → K) (s : Fin 3 → K) (a : Fin 2) (i : Fin 3) : K :=
  ∑ k, quadGenDeriv ![s 0, s 1] k a * e k i

/-- Cross product. -/
def cross (u v : Fin 3 → K) : Fin 3 → K
  | 0 => u 1 * v 2 - u 2 * v 1
  | 1 => u 2 * v 0 - u 0 * v 2
  | 2 => u 0 * v 1 - u 1 * v 0

/-- The equation solved: surface position plus `s 2` times the (non-unit) normal equals the point. -/
def surfResidual (e : Fin 4 → Fin 3 → K) (p s : Fin 3 → K) (i : Fin 3) : K :=
  surf e s i + s 2 * cross (tangent e s 0) (tangent e s 1) i - p i

theorem quad3dNormal_eq (e : Fin 4 → Fin 3 → K) (s : Fin 3 → K) (i : Fin 3) :
    quad3dNormal (quad3dX e 0) (quad3dX e 1) (quad3dX e 2) (s 0) (s 1) i
      = cross (tangent e s 0) (tangent e s 1) i := by
  revert i
  simp only [forall3, quad3dNormal, cross, tangent, Fin.sum_univ_four, quadGenDeriv, quadDeriv, v20, v21, quad3dX]
  refine ⟨?_, ?_, ?_⟩ <;> ring

theorem quad3dG_eq (e : Fin 4 → Fin 3 → K) (p s : Fin 3 → K) (i : Fin 3) :
    quad3dG e p (quad3dNormal (quad3dX e 0) (quad3dX e 1) (quad3dX e 2) (s 0) (s 1)) s i
      = surfResidual e p s i := by
  rw [quad3dG, quad3dNormal_eq, surfResidual, surf, interp]; ring

/-- The matrix of the iteration. -/
def quad3dJ (e : Fin 4 → Fin 3 → K) (s : Fin 3 → K) (i : Fin 3) : Fin 3 → K :=
  let x := quad3dX e 0; let y := quad3dX e 1; let z := quad3dX e 2
  let n := quad3dNormal x y z (s 0) (s 1)
  match i with
  | 0 => quad3dJ0 x y z n s
  | 1 => quad3dJ1 x y z n s
  | 2 => quad3dJ2 x y z n s

set_option maxHeartbeats 4000000 in
/-- The residual is affine in each unknown, and the matrix holds its slopes. -/
theorem quad3dJ_slope (e : Fin 4 → Fin 3 → K) (p s : Fin 3 → K) (i j : Fin 3) (t : K) :
    surfResidual e p (Function.update s j t) i
      = surfResidual e p s i + (t - s j) * quad3dJ e s i j := by
  have h0 : ∀ t : K, (Function.update s 0 t) 0 = t ∧ (Function.update s 0 t) 1 = s 1 ∧ (Function.update s 0 t) 2 = s 2 := by
    intro t; simp
  have h1 : ∀ t : K, (Function.update s 1 t) 0 = s 0 ∧ (Function.update s 1 t) 1 = t ∧ (Function.update s 1 t) 2 = s 2 := by
    intro t; simp
  have h2 : ∀ t : K, (Function.update s 2 t) 0 = s 0 ∧ (Function.update s 2 t) 1 = s 1 ∧ (Function.update s 2 t) 2 = t := by
    intro t; simp
  revert i j
  simp only [forall3, surfResidual, surf, cross, tangent, interp, Fin.sum_univ_four, quadGenDeriv, quadDeriv,
    quadGeneralShape, v20, v21, (h0 t).1, (h0 t).2.1, (h0 t).2.2, (h1 t).1, (h1 t).2.1, (h1 t).2.2,
    (h2 t).1, (h2 t).2.1, (h2 t).2.2, quad3dJ, quad3dJ0, quad3dJ1, quad3dJ2, quad3dX, quad3dNormal]
  refine ⟨⟨?_, ?_, ?_⟩, ⟨?_, ?_, ?_⟩, ?_, ?_, ?_⟩ <;> ring

theorem quad3dUpdate_spec (a b g : Fin 3 → K) (f0 f1 f2 : K) (s : Fin 3 → K) (hD : jdet9 a b g ≠ 0) :
    ∃ y, quad3dUpdate a b g f0 f1 f2 s = some y ∧ (∑ j, a j * (y j - s j) = -f0) ∧
      (∑ j, b j * (y j - s j) = -f1) ∧ (∑ j, g j * (y j - s j) = -f2) := by
  unfold quad3dUpdate
  dsimp only
  rw [if_neg hD]
  refine ⟨_, rfl, ?_⟩
  simp only [Fin.sum_univ_three, v30, v31, v32, add_sub_cancel_left]
  refine ⟨?_, ?_, ?_⟩
  all_goals
    simp only [← mul_div_assoc, ← add_div]
    rw [div_eq_iff hD]
    unfold jdet9
    ring

/-- C44 (surface quadrilateral): the iteration is Newton's method for "surface position plus a multiple
of the surface normal equals the point": the increment solves the system whose matrix holds the slopes
of the (componentwise affine) residual, and the iteration fails exactly where that matrix is
singular. -/
theorem c44_quad3d_newton (e : Fin 4 → Fin 3 → K) (p s : Fin 3 → K) :
    ∃ J : Matrix (Fin 3) (Fin 3) K,
      (∀ i j t, surfResidual e p (Function.update s j t) i = surfResidual e p s i + (t - s j) * J i j) ∧
      (J.det = 0 → quad3dStep e p s = none) ∧
      (J.det ≠ 0 → ∃ y, quad3dStep e p s = some y ∧
        ∀ i, ∑ j, J i j * (y j - s j) = -surfResidual e p s i) := by
  refine ⟨Matrix.of fun i j => quad3dJ e s i j, fun i j t => quad3dJ_slope e p s i j t, ?_, ?_⟩
  all_goals
    have hdet : (Matrix.of fun i j => quad3dJ e s i j).det
        = jdet9 (quad3dJ e s 0) (quad3dJ e s 1) (quad3dJ e s 2) := by
      rw [Matrix.det_fin_three]; simp only [Matrix.of_apply, jdet9]; ring
    rw [hdet]
  · intro h
    change quad3dUpdate (quad3dJ e s 0) (quad3dJ e s 1) (quad3dJ e s 2) _ _ _ s = none
    unfold quad3dUpdate
    simp [h]
  · intro h
    obtain ⟨y, hy, h1, h2, h3⟩ := quad3dUpdate_spec (quad3dJ e s 0) (quad3dJ e s 1) (quad3dJ e s 2)
      (surfResidual e p s 0) (surfResidual e p s 1) (surfResidual e p s 2) s h
    refine ⟨y, ?_, ?_⟩
    · rw [← hy]
      simp only [quad3dStep, quad3dG_eq]
      rfl
    · simp only [forall3, Matrix.of_apply]
      exact ⟨h1, h2, h3⟩

/-- The normal is perpendicular to both tangents. -/
theorem cross_perp (u v : Fin 3 → K) : (∑ i, cross u v i * u i = 0) ∧ ∑ i, cross u v i * v i = 0 := by
  simp only [Fin.sum_univ_three, cross]; constructor <;> ring

/-- C44 (surface quadrilateral): if an iteration leaves the iterate where it is, the point minus the
position interpolated there is perpendicular to the surface (a multiple of the normal). -/
theorem c44_quad3d_fixed_point (e : Fin 4 → Fin 3 → K) (p s : Fin 3 → K) (hs : quad3dStep e p s = some s) :
    (∀ i, p i = surf e s i + s 2 * cross (tangent e s 0) (tangent e s 1) i) ∧
      ∀ a, ∑ i, (p i - surf e s i) * tangent e s a i = 0 := by
  obtain ⟨J, -, h0, h1⟩ := c44_quad3d_newton e p s
  have hp : ∀ i, p i = surf e s i + s 2 * cross (tangent e s 0) (tangent e s 1) i := by
    by_cases hd : J.det = 0
    · rw [h0 hd] at hs; simp at hs
    · obtain ⟨y, hy, h⟩ := h1 hd
      rw [hs] at hy
      obtain rfl := Option.some.inj hy
      intro i
      have := h i
      simp only [sub_self, mul_zero, Finset.sum_const_zero, surfResidual] at this
      linear_combination -this
  refine ⟨hp, ?_⟩
  simp only [forall2, Fin.sum_univ_three]
  have hc := cross_perp (tangent e s 0) (tangent e s 1)
  simp only [Fin.sum_univ_three] at hc
  rw [hp 0, hp 1, hp 2]
  exact ⟨by linear_combination s 2 * hc.1, by linear_combination s 2 * hc.2⟩

/-- Nodes of the parallelogram with centre `b` and half edge vectors `u`, `v`. -/
def IsParallelogram (e : Fin 4 → Fin 3 → K) (b u v : Fin 3 → K) : Prop :=
  ∀ k i, e k i = b i + u i * quadNodes 1 k 0 + v i * quadNodes 1 k 1

/-- C44 (surface quadrilateral): on a non-degenerate parallelogram, for every point, the search finds in
two iterations coordinates with `p = foot + d · (normal)`, the foot interpolated at the first two. -/
theorem c44_quad3d_affine {tol : K} (ht : 0 < tol) {e : Fin 4 → Fin 3 → K} {b u v : Fin 3 → K}
    (he : IsParallelogram e b u v) (hn : cross u v ≠ 0) (p : Fin 3 → K) :
    ∃ x, quad3dSearch tol e p = some x ∧ (∀ i, p i = b i + u i * x 0 + v i * x 1 + x 2 * cross u v i) ∧
      ∀ i, p i = surf e x i + x 2 * cross u v i := by
  have hsurf : ∀ s i, surf e s i = b i + u i * s 0 + v i * s 1 := by
    intro s i
    simp only [surf, interp, Fin.sum_univ_four, quadGeneralShape, v20, v21, he _ i, quadNodes]; ring
  have ht0 : ∀ s, tangent e s 0 = u := by
    intro s; funext i
    simp only [tangent, Fin.sum_univ_four, quadGenDeriv, quadDeriv, v20, v21, he _ i, quadNodes]; ring
  have ht1 : ∀ s, tangent e s 1 = v := by
    intro s; funext i
    simp only [tangent, Fin.sum_univ_four, quadGenDeriv, quadDeriv, v20, v21, he _ i, quadNodes]; ring
  have hres : ∀ s i, surfResidual e p s i = b i + u i * s 0 + v i * s 1 + s 2 * cross u v i - p i := by
    intro s i; rw [surfResidual, hsurf, ht0, ht1]
  let A : Matrix (Fin 3) (Fin 3) K := Matrix.of fun i j => match j with
    | 0 => u i
    | 1 => v i
    | 2 => cross u v i
  have hA : A.det ≠ 0 := by
    have : A.det = cross u v 0 * cross u v 0 + cross u v 1 * cross u v 1 + cross u v 2 * cross u v 2 := by
      rw [Matrix.det_fin_three]; simp only [A, Matrix.of_apply, cross]; ring
    rw [this]
    intro h
    apply hn
    funext i
    revert i
    simp only [forall3, Pi.zero_apply]
    refine ⟨?_, ?_, ?_⟩ <;>
      nlinarith [mul_self_nonneg (cross u v 0), mul_self_nonneg (cross u v 1), mul_self_nonneg (cross u v 2)]
  obtain ⟨x, hx⟩ := exists_preimage hA b p
  have hx' : ∀ i, p i = b i + u i * x 0 + v i * x 1 + x 2 * cross u v i := by
    intro i; rw [hx i]; simp only [Fin.sum_univ_three, A, Matrix.of_apply]; ring
  have key : ∀ c, quad3dStep e p c = some x := by
    intro c
    obtain ⟨J, hJ, -, h1⟩ := c44_quad3d_newton e p c
    have hJA : J = A := by
      ext i j
      have := hJ i j (c j + 1)
      rw [hres, hres] at this
      revert j
      simp only [forall3]
      refine ⟨?_, ?_, ?_⟩ <;> intro this <;> simp at this <;> simp only [A, Matrix.of_apply] <;> linear_combination -this
    rw [hJA] at h1
    obtain ⟨y, hy, h⟩ := h1 hA
    rw [hy]
    congr 1
    apply mulVec_inj hA
    intro i
    have h1 := h i
    rw [hres, hx' i] at h1
    simp only [Fin.sum_univ_three, A, Matrix.of_apply] at h1 ⊢
    linear_combination h1
  refine ⟨x, newton_two 18 (key _) (key _) (converged_self ht x), hx', fun i => ?_⟩
  rw [hsurf]; exact hx' i

/-- C44 (surface quadrilateral): the distance is at most one exactly when the first two coordinates are
in the reference square and the third does not exceed the thickness. -/
theorem c44_quad3d_distance {thick : K} (ht : 0 ≤ thick) (x : Fin 3 → K) :
    quad3dDist thick x ≤ 1 ↔ |x 0| ≤ 1 ∧ |x 1| ≤ 1 ∧ |x 2| ≤ thick := by
  have hm : (if |x 0| < |x 1| then |x 1| else |x 0|) ≤ 1 ↔ |x 0| ≤ 1 ∧ |x 1| ≤ 1 := by
    split_ifs with h
    · exact ⟨fun h1 => ⟨by linarith, h1⟩, fun h1 => h1.2⟩
    · exact ⟨fun h1 => ⟨h1, by linarith [not_lt.1 h]⟩, fun h1 => h1.1⟩
  unfold quad3dDist
  dsimp only
  rw [← and_assoc, ← hm]
  generalize (if |x 0| < |x 1| then |x 1| else |x 0|) = d
  split_ifs with hh
  · constructor
    · intro h1; have := hh.1; constructor <;> linarith
    · rintro ⟨_, h2⟩; exact absurd hh.1 (not_lt.2 h2)
  · constructor
    · intro h1
      refine ⟨h1, ?_⟩
      by_contra h2
      exact hh ⟨not_le.1 h2, by have := not_le.1 h2; linarith⟩
    · exact fun h => h.1

end

/-! ## Concrete cases -/

/-- A sheared tetrahedron with negative orientation. -/
def tetEx : Fin 4 → Fin 3 → ℚ
  | 0 => ![1, 0, 0]
  | 1 => ![0, 2, 1]
  | 2 => ![3, 0, 1]
  | 3 => ![1, 1, 4]

example : tetVol tetEx ≠ 0 := by
  simp only [tetVol, Matrix.det_fin_three, Matrix.of_apply]; decide +kernel
example : (tetSearch tetEx ![1, 1, 1]).isSome := by decide +kernel

/-- A counterclockwise triangle. -/
def triEx : Fin 3 → Fin 2 → ℝ
  | 0 => ![0, 0]
  | 1 => ![2, 1]
  | 2 => ![1, 3]

example : 0 < triCross triEx := by norm_num [triCross, triEx]

/-- A tilted parallelogram. -/
def paraEx : Fin 4 → Fin 3 → ℚ := fun k i => (![1, 2, 3] : Fin 3 → ℚ) i
  + (![1, 0, 1] : Fin 3 → ℚ) i * quadNodes 1 k 0 + (![0, 2, 1] : Fin 3 → ℚ) i * quadNodes 1 k 1

example : IsParallelogram paraEx ![1, 2, 3] ![1, 0, 1] ![0, 2, 1] ∧ cross (![1, 0, 1] : Fin 3 → ℚ) ![0, 2, 1] ≠ 0 := by
  refine ⟨fun k i => rfl, fun h => ?_⟩
  have := congrFun h 2
  revert this; decide +kernel

end Verif.Shape
