import Verif.Proofs.Quadrature

/-!
# C97: the quadrature set of the radiative transport equation
-/

namespace Nalu.Rad

noncomputable section

/-- Σ over the ordinates. -/
def ordSum (n : ℕ) (f : Ordinate → ℝ) : ℝ := ((quadrature n).map f).sum

/-- The sum over the set is the sum over the first octant of the eight reflections. -/
theorem ordSum_eq (n : ℕ) (f : Ordinate → ℝ) : ordSum n f =
    ((octant n).map fun o => f o + ((qsgn.map fun g => f (o.reflect g)).sum)).sum := by
  simp only [ordSum, quadrature, qsgn, List.flatMap_cons, List.flatMap_nil, List.map_append, List.sum_append, List.map_map,
    List.map_cons, List.map_nil, List.sum_cons, List.sum_nil, add_zero, List.append_nil]
  induction octant n with
  | nil => simp
  | cons o l ih => simp only [List.map_cons, List.sum_cons, Function.comp_apply] at ih ⊢; linarith

theorem basal_length (n : ℕ) : (basal n).length = n * n := by
  have h := basal_sum n (fun _ => 1)
  have h1 : ((basal n).map (fun _ => (1 : ℝ))).sum = (basal n).length := by simp
  have h2 : ∀ j, ((List.range (n - j)).map fun k => (fun _ : Tri => (1 : ℝ)) (upTri n j k)).sum +
      ((List.range (n - j - 1)).map fun k => (fun _ : Tri => (1 : ℝ)) (downTri n j k)).sum =
      (((n - j) + (n - j - 1) : ℕ) : ℝ) := by
    intro j
    simp
  simp only [h1, h2] at h
  have h3 : ∀ m : ℕ, m ≤ n → ((List.range m).map fun j => (((n - j) + (n - j - 1) : ℕ) : ℝ)).sum =
      ((n * n - (n - m) * (n - m) : ℕ) : ℝ) := by
    intro m hm
    induction m with
    | zero => simp
    | succ m ih =>
      rw [List.range_succ, List.map_append, List.sum_append, ih (by omega)]
      simp only [List.map_cons, List.map_nil, List.sum_cons, List.sum_nil, add_zero, ← Nat.cast_add]
      congr 1
      obtain ⟨d, rfl⟩ : ∃ d, n = m + 1 + d := ⟨n - (m + 1), by omega⟩
      have e1 : m + 1 + d - m = d + 1 := by omega
      have e2 : m + 1 + d - (m + 1) = d := by omega
      have e3 : m + 1 + d - m - 1 = d := by omega
      rw [e1, e2]
      have : (d + 1) * (d + 1) ≤ (m + 1 + d) * (m + 1 + d) := Nat.mul_self_le_mul_self (by omega)
      have h4 : (d + 1) * (d + 1) = d * d + 2 * d + 1 := by ring
      omega
  rw [h3 n le_rfl] at h
  simp only [Nat.sub_self, Nat.mul_zero, Nat.sub_zero] at h
  exact_mod_cast h

/-- C97: the set has `8 N²` ordinates. -/
theorem c97_count (n : ℕ) : (quadrature n).length = 8 * (n * n) := by
  simp [quadrature, octant, basal_length, qsgn]
  ring

/-- The triangles of the set. -/
theorem mem_basal {n : ℕ} {t : Tri} (h : t ∈ basal n) :
    ∃ j k, (j + k < n ∧ t = upTri n j k) ∨ (j + k + 1 < n ∧ t = downTri n j k) := by
  simp only [basal, List.mem_append, List.mem_flatMap, List.mem_map, List.mem_range] at h
  rcases h with ⟨j, hj, k, hk, rfl⟩ | ⟨j, hj, k, hk, rfl⟩
  · exact ⟨j, k, Or.inl ⟨by omega, rfl⟩⟩
  · exact ⟨j, k, Or.inr ⟨by omega, rfl⟩⟩

/-- Centroid of a triangle. -/
def centroid (t : Tri) : V3 :=
  ⟨(t.a.x + t.b.x + t.c.x) / 3, (t.a.y + t.b.y + t.c.y) / 3, (t.a.z + t.b.z + t.c.z) / 3⟩

theorem centroid_up (n j k : ℕ) : centroid (upTri n j k) =
    ⟨1 - (k + j + 2 / 3) * (1 / n), (k + 1 / 3) * (1 / n), (j + 1 / 3) * (1 / n)⟩ := by
  rw [upTri_eq]
  simp only [centroid, lat, V3.mk.injEq]
  push_cast
  refine ⟨?_, ?_, ?_⟩ <;> ring

theorem centroid_down (n j k : ℕ) : centroid (downTri n j k) =
    ⟨1 - (k + j + 4 / 3) * (1 / n), (k + 2 / 3) * (1 / n), (j + 2 / 3) * (1 / n)⟩ := by
  rw [downTri_eq]
  simp only [centroid, lat, V3.mk.injEq]
  push_cast
  refine ⟨?_, ?_, ?_⟩ <;> ring

theorem centroid_pos {n : ℕ} {t : Tri} (h : t ∈ basal n) :
    0 < (centroid t).x ∧ 0 < (centroid t).y ∧ 0 < (centroid t).z := by
  obtain ⟨j, k, ⟨hlt, rfl⟩ | ⟨hlt, rfl⟩⟩ := mem_basal h
  · have hn : (0 : ℝ) < n := by exact_mod_cast (by omega : 0 < n)
    have hc : (j : ℝ) + k + 1 ≤ n := by exact_mod_cast hlt
    rw [centroid_up]
    refine ⟨?_, by positivity, by positivity⟩
    have : (1 : ℝ) - (k + j + 2 / 3) * (1 / n) = (n - (k + j + 2 / 3)) / n := by field_simp
    rw [this]
    apply div_pos _ hn
    linarith
  · have hn : (0 : ℝ) < n := by exact_mod_cast (by omega : 0 < n)
    have hc : (j : ℝ) + k + 1 + 1 ≤ n := by exact_mod_cast hlt
    rw [centroid_down]
    refine ⟨?_, by positivity, by positivity⟩
    have : (1 : ℝ) - (k + j + 4 / 3) * (1 / n) = (n - (k + j + 4 / 3)) / n := by field_simp
    rw [this]
    apply div_pos _ hn
    linarith

theorem dir_eq (t : Tri) : t.dir = (centroid t).normalize := rfl

theorem normalize_unit {a : V3} (h : 0 < a.dot a) : a.normalize.dot a.normalize = 1 := by
  rw [normalize_dot, len_sq, div_self h.ne']

theorem dot_self_pos {a : V3} (h : 0 < a.x) : 0 < a.dot a := by
  simp only [V3.dot]
  nlinarith [mul_pos h h, mul_self_nonneg a.y, mul_self_nonneg a.z]

/-- Each ordinate is a first octant ordinate or one of its seven reflections. -/
theorem mem_quadrature {n : ℕ} {o : Ordinate} (h : o ∈ quadrature n) :
    ∃ t ∈ basal n, ∃ sx sy sz : ℝ, (sx = 1 ∨ sx = -1) ∧ (sy = 1 ∨ sy = -1) ∧ (sz = 1 ∨ sz = -1) ∧
      o.w = t.weight ∧ o.s = ⟨t.dir.x * sx, t.dir.y * sy, t.dir.z * sz⟩ := by
  simp only [quadrature, octant, List.mem_append, List.mem_map, List.mem_flatMap] at h
  rcases h with ⟨t, ht, rfl⟩ | ⟨g, hg, o', ⟨t, ht, rfl⟩, rfl⟩
  · exact ⟨t, ht, 1, 1, 1, Or.inl rfl, Or.inl rfl, Or.inl rfl, rfl, by simp⟩
  · refine ⟨t, ht, g.x, g.y, g.z, ?_, ?_, ?_, rfl, rfl⟩ <;>
    · simp only [qsgn, List.mem_cons, List.not_mem_nil, or_false] at hg
      rcases hg with rfl | rfl | rfl | rfl | rfl | rfl | rfl <;> simp

/-- C97: every ordinate is a unit vector, and none is parallel to a coordinate plane. -/
theorem c97_unit {n : ℕ} {o : Ordinate} (h : o ∈ quadrature n) :
    o.s.x ^ 2 + o.s.y ^ 2 + o.s.z ^ 2 = 1 ∧ o.s.x ≠ 0 ∧ o.s.y ≠ 0 ∧ o.s.z ≠ 0 := by
  obtain ⟨t, ht, sx, sy, sz, hx, hy, hz, -, hs⟩ := mem_quadrature h
  obtain ⟨px, py, pz⟩ := centroid_pos ht
  have hu := normalize_unit (dot_self_pos px)
  have hl := len_pos (dot_self_pos px)
  rw [← dir_eq] at hu
  have qx : 0 < t.dir.x := div_pos px hl
  have qy : 0 < t.dir.y := div_pos py hl
  have qz : 0 < t.dir.z := div_pos pz hl
  simp only [V3.dot] at hu
  rw [hs]
  refine ⟨?_, ?_, ?_, ?_⟩
  · have ex : sx ^ 2 = 1 := by rcases hx with rfl | rfl <;> norm_num
    have ey : sy ^ 2 = 1 := by rcases hy with rfl | rfl <;> norm_num
    have ez : sz ^ 2 = 1 := by rcases hz with rfl | rfl <;> norm_num
    simp only [mul_pow, ex, ey, ez]
    linarith
  · rcases hx with rfl | rfl <;> simp [qx.ne']
  · rcases hy with rfl | rfl <;> simp [qy.ne']
  · rcases hz with rfl | rfl <;> simp [qz.ne']

theorem weight_pos {n : ℕ} {t : Tri} (h : t ∈ basal n) : 0 < t.weight := by
  obtain ⟨j, k, ⟨hlt, rfl⟩ | ⟨hlt, rfl⟩⟩ := mem_basal h
  · have hn : 0 < n := by omega
    have := excess_pos (det_up hn j k).ne'
    rw [weight_eq (by rw [upTri_eq]; exact lat_pos _ _) (by rw [upTri_eq]; exact lat_pos _ _)
      (by rw [upTri_eq]; exact lat_pos _ _), upTri_eq]
    linarith
  · have hn : 0 < n := by omega
    have := excess_pos (det_down hn j k).ne'
    rw [weight_eq (by rw [downTri_eq]; exact lat_pos _ _) (by rw [downTri_eq]; exact lat_pos _ _)
      (by rw [downTri_eq]; exact lat_pos _ _), downTri_eq]
    linarith

/-- C97: every weight is positive. -/
theorem c97_weights_pos {n : ℕ} {o : Ordinate} (h : o ∈ quadrature n) : 0 < o.w := by
  obtain ⟨t, ht, _, _, _, _, _, _, hw, _⟩ := mem_quadrature h
  rw [hw]
  exact weight_pos ht

/-- C97: the weights add up to the full solid angle, for every order. -/
theorem c97_weights_sum {n : ℕ} (hn : 0 < n) : ordSum n (fun o => o.w) = 4 * Real.pi := by
  rw [ordSum_eq]
  have : ∀ o : Ordinate, o.w + (qsgn.map fun g => (o.reflect g).w).sum = 8 * o.w := by
    intro o
    simp only [qsgn, Ordinate.reflect, List.map_cons, List.map_nil, List.sum_cons, List.sum_nil]
    ring
  simp only [this, octant, List.map_map, Function.comp_def]
  rw [List.sum_map_mul_left]
  have := octant_weights hn
  linarith

/-- C97: an isotropic intensity has no net flux. -/
theorem c97_first_moment (n : ℕ) :
    ordSum n (fun o => o.w * o.s.x) = 0 ∧ ordSum n (fun o => o.w * o.s.y) = 0 ∧
      ordSum n (fun o => o.w * o.s.z) = 0 := by
  refine ⟨?_, ?_, ?_⟩ <;> rw [ordSum_eq] <;> apply List.sum_eq_zero <;> intro v hv <;>
    obtain ⟨o, _, rfl⟩ := List.mem_map.mp hv <;>
    simp only [qsgn, Ordinate.reflect, List.map_cons, List.map_nil, List.sum_cons, List.sum_nil] <;> ring

/-! ## Second moments: cyclic symmetry of the subdivided face -/

/-- Cyclic permutation of the coordinates. -/
def V3.rot (a : V3) : V3 := ⟨a.y, a.z, a.x⟩
def Tri.rot (t : Tri) : Tri := ⟨t.b.rot, t.c.rot, t.a.rot⟩

theorem rot_len (a : V3) : a.rot.len = a.len := by
  simp only [V3.len, V3.rot]; congr 1; ring

theorem rot_normalize (a : V3) : a.rot.normalize = a.normalize.rot := by
  simp only [V3.normalize, rot_len]; rfl

theorem rot_dot (a b : V3) : a.rot.dot b.rot = a.dot b := by simp only [V3.dot, V3.rot]; ring

theorem rot_weight (t : Tri) : t.rot.weight = t.weight := by
  simp only [Tri.weight, Tri.rot, rot_normalize, rot_dot]
  ring

theorem rot_dir (t : Tri) : t.rot.dir = t.dir.rot := by
  rw [dir_eq, dir_eq, ← rot_normalize]
  congr 1
  simp only [centroid, V3.rot, Tri.rot, V3.mk.injEq]
  refine ⟨?_, ?_, ?_⟩ <;> ring

theorem rot_up {n i j k : ℕ} (h : i + j + k + 1 = n) : (upTri n j k).rot = upTri n i j := by
  have hn : (n : ℝ) ≠ 0 := by exact_mod_cast (by omega : n ≠ 0)
  have hc : (n : ℝ) = i + j + k + 1 := by exact_mod_cast h.symm
  have hd : ((i : ℝ) + j + k + 1) * (1 / n) = 1 := by rw [← hc, mul_one_div_cancel hn]
  rw [upTri_eq, upTri_eq]
  simp only [lat, Tri.rot, V3.rot, Tri.mk.injEq, V3.mk.injEq]
  push_cast
  refine ⟨⟨?_, ?_, ?_⟩, ⟨?_, ?_, ?_⟩, ⟨?_, ?_, ?_⟩⟩ <;>
    first | trivial | ring1 | linear_combination hd | linear_combination -hd

theorem rot_down {n i j k : ℕ} (h : i + j + k + 2 = n) : (downTri n j k).rot = downTri n i j := by
  have hn : (n : ℝ) ≠ 0 := by exact_mod_cast (by omega : n ≠ 0)
  have hc : (n : ℝ) = i + j + k + 2 := by exact_mod_cast h.symm
  have hd : ((i : ℝ) + j + k + 2) * (1 / n) = 1 := by rw [← hc, mul_one_div_cancel hn]
  rw [downTri_eq, downTri_eq]
  simp only [lat, Tri.rot, V3.rot, Tri.mk.injEq, V3.mk.injEq]
  push_cast
  refine ⟨⟨?_, ?_, ?_⟩, ⟨?_, ?_, ?_⟩, ⟨?_, ?_, ?_⟩⟩ <;>
    first | trivial | ring1 | linear_combination hd | linear_combination -hd

/-- Sum over a triangular index set as a Finset sum. -/
theorem tri_sum (n : ℕ) (f : ℕ → ℕ → ℝ) :
    ((List.range n).map fun j => ((List.range (n - j)).map fun k => f j k).sum).sum =
      ∑ p ∈ (Finset.range n ×ˢ Finset.range n).filter (fun p => p.1 + p.2 < n), f p.1 p.2 := by
  have h1 : ∀ (m : ℕ) (g : ℕ → ℝ), ((List.range m).map g).sum = ∑ k ∈ Finset.range m, g k := by
    intro m g
    induction m with
    | zero => simp
    | succ m ih => rw [List.range_succ, List.map_append, List.sum_append, ih, Finset.sum_range_succ]; simp
  rw [Finset.sum_filter, Finset.sum_product]
  rw [h1]
  apply Finset.sum_congr rfl
  intro j hj
  rw [h1, ← Finset.sum_filter]
  apply Finset.sum_congr _ (fun _ _ => rfl)
  ext k
  simp only [Finset.mem_range, Finset.mem_filter]
  omega

/-- Cyclic invariance of a triangular sum. -/
theorem tri_rot (n : ℕ) (f g : ℕ → ℕ → ℝ) (h : ∀ i j k, i + j + k + 1 = n → f j k = g i j) :
    ∑ p ∈ (Finset.range n ×ˢ Finset.range n).filter (fun p => p.1 + p.2 < n), f p.1 p.2 =
      ∑ p ∈ (Finset.range n ×ˢ Finset.range n).filter (fun p => p.1 + p.2 < n), g p.1 p.2 := by
  refine Finset.sum_bij' (fun p _ => (n - 1 - p.1 - p.2, p.1)) (fun p _ => (p.2, n - 1 - p.1 - p.2)) ?_ ?_ ?_ ?_ ?_
  · intro p hp
    simp only [Finset.mem_filter, Finset.mem_product, Finset.mem_range] at hp ⊢
    omega
  · intro p hp
    simp only [Finset.mem_filter, Finset.mem_product, Finset.mem_range] at hp ⊢
    omega
  · intro p hp
    simp only [Finset.mem_filter, Finset.mem_product, Finset.mem_range] at hp
    ext <;> simp only
    omega
  · intro p hp
    simp only [Finset.mem_filter, Finset.mem_product, Finset.mem_range] at hp
    ext <;> simp only
    omega
  · intro p hp
    simp only [Finset.mem_filter, Finset.mem_product, Finset.mem_range] at hp
    exact h _ _ _ (by omega)

theorem basal_rot (n : ℕ) (f : Tri → ℝ) : ((basal n).map f).sum = ((basal n).map fun t => f t.rot).sum := by
  have hd : ∀ g : ℕ → ℕ → ℝ, ((List.range n).map fun j => ((List.range (n - j - 1)).map fun k => g j k).sum).sum =
      ((List.range (n - 1)).map fun j => ((List.range (n - 1 - j)).map fun k => g j k).sum).sum := by
    intro g
    rcases n with _ | n
    · simp
    · rw [List.range_succ, List.map_append, List.sum_append]
      have : ∀ j, n + 1 - j - 1 = n + 1 - 1 - j := by intro j; omega
      simp only [this]
      simp
  rw [basal_sum, basal_sum, List.sum_map_add, List.sum_map_add, tri_sum n (fun j k => f (upTri n j k)),
    tri_sum n (fun j k => f (upTri n j k).rot), hd, hd, tri_sum (n - 1) (fun j k => f (downTri n j k)),
    tri_sum (n - 1) (fun j k => f (downTri n j k).rot)]
  congr 1
  · exact (tri_rot n (fun j k => f (upTri n j k).rot) (fun j k => f (upTri n j k))
      (fun i j k h => by rw [rot_up h])).symm
  · exact (tri_rot (n - 1) (fun j k => f (downTri n j k).rot) (fun j k => f (downTri n j k))
      (fun i j k h => by rw [rot_down (by omega : i + j + k + 2 = n)])).symm

/-- C97: the second moments are those of the sphere: the products of different components vanish and the squares of
the three components have the same weight, `4π/3`. -/
theorem c97_second_moment {n : ℕ} (hn : 0 < n) :
    (ordSum n (fun o => o.w * (o.s.x * o.s.y)) = 0 ∧ ordSum n (fun o => o.w * (o.s.y * o.s.z)) = 0 ∧
      ordSum n (fun o => o.w * (o.s.x * o.s.z)) = 0) ∧
    ordSum n (fun o => o.w * o.s.x ^ 2) = 4 * Real.pi / 3 ∧ ordSum n (fun o => o.w * o.s.y ^ 2) = 4 * Real.pi / 3 ∧
      ordSum n (fun o => o.w * o.s.z ^ 2) = 4 * Real.pi / 3 := by
  refine ⟨?_, ?_⟩
  · refine ⟨?_, ?_, ?_⟩ <;> rw [ordSum_eq] <;> apply List.sum_eq_zero <;> intro v hv <;>
      obtain ⟨o, _, rfl⟩ := List.mem_map.mp hv <;>
      simp only [qsgn, Ordinate.reflect, List.map_cons, List.map_nil, List.sum_cons, List.sum_nil] <;> ring
  · have ex : ordSum n (fun o => o.w * o.s.x ^ 2) = 8 * ((basal n).map fun t => t.weight * t.dir.x ^ 2).sum := by
      rw [ordSum_eq, ← List.sum_map_mul_left, octant, List.map_map]
      congr 1
      apply List.map_congr_left
      intro t _
      simp only [Function.comp_apply, qsgn, Ordinate.reflect, List.map_cons, List.map_nil, List.sum_cons, List.sum_nil]
      ring
    have ey : ordSum n (fun o => o.w * o.s.y ^ 2) = 8 * ((basal n).map fun t => t.weight * t.dir.y ^ 2).sum := by
      rw [ordSum_eq, ← List.sum_map_mul_left, octant, List.map_map]
      congr 1
      apply List.map_congr_left
      intro t _
      simp only [Function.comp_apply, qsgn, Ordinate.reflect, List.map_cons, List.map_nil, List.sum_cons, List.sum_nil]
      ring
    have ez : ordSum n (fun o => o.w * o.s.z ^ 2) = 8 * ((basal n).map fun t => t.weight * t.dir.z ^ 2).sum := by
      rw [ordSum_eq, ← List.sum_map_mul_left, octant, List.map_map]
      congr 1
      apply List.map_congr_left
      intro t _
      simp only [Function.comp_apply, qsgn, Ordinate.reflect, List.map_cons, List.map_nil, List.sum_cons, List.sum_nil]
      ring
    have hxy : ((basal n).map fun t => t.weight * t.dir.x ^ 2).sum = ((basal n).map fun t => t.weight * t.dir.y ^ 2).sum := by
      rw [basal_rot n (fun t => t.weight * t.dir.x ^ 2)]
      simp only [rot_weight, rot_dir, V3.rot]
    have hyz : ((basal n).map fun t => t.weight * t.dir.y ^ 2).sum = ((basal n).map fun t => t.weight * t.dir.z ^ 2).sum := by
      rw [basal_rot n (fun t => t.weight * t.dir.y ^ 2)]
      simp only [rot_weight, rot_dir, V3.rot]
    have hs : ((basal n).map fun t => t.weight * t.dir.x ^ 2).sum + ((basal n).map fun t => t.weight * t.dir.y ^ 2).sum +
        ((basal n).map fun t => t.weight * t.dir.z ^ 2).sum = Real.pi / 2 := by
      rw [← octant_weights hn, ← List.sum_map_add, ← List.sum_map_add]
      congr 1
      apply List.map_congr_left
      intro t ht
      have hu := normalize_unit (dot_self_pos (centroid_pos ht).1)
      rw [← dir_eq] at hu
      simp only [V3.dot] at hu
      linear_combination t.weight * hu
    rw [ex, ey, ez]
    refine ⟨?_, ?_, ?_⟩ <;> linarith

/-- C97: the arrays of vertices are filled exactly in three dimensions; in two dimensions the code writes beyond
their end for every order. -/
theorem c97_vertices (n : ℕ) : written n = allocated 3 n ∧ (0 < n → allocated 2 n < written n) := by
  simp only [written, allocated, basal_length]
  refine ⟨by ring, fun hn => ?_⟩
  have : 0 < n * n := Nat.mul_pos hn hn
  nlinarith

/-- C97 (limits): the flux through a plane of an isotropic intensity is not integrated exactly: with one direction per
octant the sum over the half range is `2π/√3` instead of `π`. -/
theorem c97_half_range_order_one :
    ordSum 1 (fun o => if 0 < o.s.x then o.w * o.s.x else 0) = 2 * Real.pi / Real.sqrt 3 ∧
      ordSum 1 (fun o => if 0 < o.s.x then o.w * o.s.x else 0) ≠ Real.pi := by
  have hb : basal 1 = [upTri 1 0 0] := by simp [basal]
  have hw : (upTri 1 0 0).weight = Real.pi / 2 := by
    have := octant_weights (n := 1) (by norm_num)
    rw [hb] at this
    simpa using this
  have hd : (upTri 1 0 0).dir.x = 1 / Real.sqrt 3 := by
    rw [dir_eq, V3.normalize, V3.len, centroid_up]
    norm_num
    have h3 : Real.sqrt 3 * Real.sqrt 3 = 3 := Real.mul_self_sqrt (by norm_num)
    have hp : Real.sqrt 3 ≠ 0 := by positivity
    field_simp
    nlinarith
  have hs : (0 : ℝ) < Real.sqrt 3 := Real.sqrt_pos.mpr (by norm_num)
  have hv : ordSum 1 (fun o => if 0 < o.s.x then o.w * o.s.x else 0) = 2 * Real.pi / Real.sqrt 3 := by
    rw [ordSum_eq, octant, hb]
    have hpos : (0 : ℝ) < 1 / Real.sqrt 3 := by positivity
    have hneg : ¬ (0 : ℝ) < 1 / Real.sqrt 3 * -1 := by linarith
    simp only [List.map_cons, List.map_nil, List.sum_cons, List.sum_nil, qsgn, Ordinate.reflect, hw, hd, mul_one,
      if_pos hpos, if_neg hneg]
    ring
  refine ⟨hv, ?_⟩
  rw [hv]
  intro h
  rw [div_eq_iff hs.ne'] at h
  have h2 : Real.sqrt 3 = 2 := by
    have := Real.pi_pos
    have : Real.pi * (Real.sqrt 3 - 2) = 0 := by linarith
    rcases mul_eq_zero.mp this with h0 | h0
    · exact absurd h0 Real.pi_pos.ne'
    · linarith
  have h3 : Real.sqrt 3 * Real.sqrt 3 = 3 := Real.mul_self_sqrt (by norm_num)
  rw [h2] at h3
  norm_num at h3

example : ordSum 3 (fun o => o.w) = 4 * Real.pi := c97_weights_sum (by norm_num)
example : (quadrature 3).length = 72 := c97_count 3

end

end Nalu.Rad
