import Verif.Model.Radiation
import Mathlib.Geometry.Euclidean.Triangle
import Mathlib.Geometry.Euclidean.Angle.Unoriented.TriangleInequality
import Mathlib.Analysis.InnerProductSpace.PiL2
import Mathlib.Tactic.LinearCombination
import Mathlib.Tactic.FieldSimp

/-!
# Lemmas for the quadrature set: spherical triangles on the subdivided octahedron face
-/

namespace Nalu.Rad
open InnerProductGeometry

noncomputable section

/-- Cross product. -/
def V3.cross (a b : V3) : V3 := ⟨a.y * b.z - a.z * b.y, a.z * b.x - a.x * b.z, a.x * b.y - a.y * b.x⟩

/-- The vector as an element of the Euclidean space. -/
def V3.e (a : V3) : EuclideanSpace ℝ (Fin 3) := !₂[a.x, a.y, a.z]

/-- Triple product. -/
def V3.det (a b c : V3) : ℝ := a.dot (b.cross c)

theorem inner_e (a b : V3) : inner ℝ a.e b.e = a.dot b := by
  simp [V3.e, V3.dot, PiLp.inner_apply, Fin.sum_univ_three]
  ring

theorem norm_e (a : V3) : ‖a.e‖ = a.len := by
  rw [EuclideanSpace.norm_eq]
  simp [V3.e, V3.len, Fin.sum_univ_three, sq]

theorem e_ne_zero {a : V3} (h : a.dot a ≠ 0) : a.e ≠ 0 := by
  intro h0
  apply h
  rw [← inner_e, h0, inner_zero_left]

theorem len_sq (a : V3) : a.len * a.len = a.dot a := by
  rw [V3.len, Real.mul_self_sqrt (by nlinarith [mul_self_nonneg a.x, mul_self_nonneg a.y, mul_self_nonneg a.z])]
  rfl

theorem len_nonneg (a : V3) : 0 ≤ a.len := Real.sqrt_nonneg _

theorem len_pos {a : V3} (h : 0 < a.dot a) : 0 < a.len := Real.sqrt_pos.mpr h

theorem dot_comm (a b : V3) : a.dot b = b.dot a := by simp only [V3.dot]; ring

/-- Lagrange's identity. -/
theorem lagrange (a b c d : V3) :
    (a.cross b).dot (c.cross d) = a.dot c * b.dot d - a.dot d * b.dot c := by
  simp only [V3.cross, V3.dot]; ring

theorem normalize_dot (a b : V3) : a.normalize.dot b.normalize = a.dot b / (a.len * b.len) := by
  simp only [V3.normalize, V3.dot]
  by_cases ha : a.len = 0
  · simp [ha]
  by_cases hb : b.len = 0
  · simp [hb]
  field_simp

/-- Interior angle of the spherical triangle at `p`. -/
def vang (p q r : V3) : ℝ := angle (p.cross q).e (p.cross r).e

theorem vang_comm (p q r : V3) : vang p q r = vang p r q := angle_comm _ _

theorem abs_cos_le {p q : V3} (hp : 0 < p.dot p) (hq : 0 < q.dot q) :
    -1 ≤ p.normalize.dot q.normalize ∧ p.normalize.dot q.normalize ≤ 1 := by
  rw [normalize_dot, ← inner_e, ← norm_e, ← norm_e]
  have := abs_real_inner_div_norm_mul_norm_le_one p.e q.e
  exact abs_le.mp this

theorem sin_arccos_eq {p q : V3} (hp : 0 < p.dot p) (hq : 0 < q.dot q) :
    Real.sin (Real.arccos (p.normalize.dot q.normalize)) = (p.cross q).len / (p.len * q.len) := by
  have hp' := len_pos hp
  have hq' := len_pos hq
  rw [Real.sin_arccos, normalize_dot]
  have h1 : 1 - (p.dot q / (p.len * q.len)) ^ 2 = (p.cross q).dot (p.cross q) / (p.len * q.len) ^ 2 := by
    rw [lagrange, dot_comm q p]
    field_simp
    rw [← len_sq p, ← len_sq q]
    ring
  rw [h1, Real.sqrt_div' _ (sq_nonneg _), Real.sqrt_sq (mul_nonneg hp'.le hq'.le), ← len_sq,
    Real.sqrt_mul_self (len_nonneg _)]

/-- The angle that the code computes from the arcs is the interior angle at `p`. -/
theorem code_angle {p q r : V3} (hp : 0 < p.dot p) (hq : 0 < q.dot q) (hr : 0 < r.dot r) :
    Real.arccos ((Real.cos (Real.arccos (q.normalize.dot r.normalize)) -
      Real.cos (Real.arccos (p.normalize.dot q.normalize)) * Real.cos (Real.arccos (p.normalize.dot r.normalize))) /
      (Real.sin (Real.arccos (p.normalize.dot q.normalize)) * Real.sin (Real.arccos (p.normalize.dot r.normalize)))) =
    vang p q r := by
  have hp' := len_pos hp
  have hq' := len_pos hq
  have hr' := len_pos hr
  rw [sin_arccos_eq hp hq, sin_arccos_eq hp hr, Real.cos_arccos (abs_cos_le hq hr).1 (abs_cos_le hq hr).2,
    Real.cos_arccos (abs_cos_le hp hq).1 (abs_cos_le hp hq).2,
    Real.cos_arccos (abs_cos_le hp hr).1 (abs_cos_le hp hr).2, vang, angle, inner_e, norm_e, norm_e, lagrange,
    normalize_dot, normalize_dot, normalize_dot]
  congr 1
  by_cases h1 : (p.cross q).len = 0
  · simp [h1]
  by_cases h2 : (p.cross r).len = 0
  · simp [h2]
  rw [← len_sq p, dot_comm q p]
  field_simp

theorem weight_eq {t : Tri} (ha : 0 < t.a.dot t.a) (hb : 0 < t.b.dot t.b) (hc : 0 < t.c.dot t.c) :
    t.weight = vang t.a t.b t.c + vang t.b t.c t.a + vang t.c t.a t.b - Real.pi := by
  have h1 := code_angle ha hb hc
  have h2 := code_angle hb hc ha
  have h3 := code_angle hc ha hb
  simp only [Tri.weight]
  rw [← h1, ← h2, ← h3]
  rw [dot_comm t.b.normalize t.a.normalize, dot_comm t.a.normalize t.c.normalize,
    dot_comm t.c.normalize t.b.normalize]
  ring_nf

/-- The excess of a spherical triangle with vertices in general position is positive. -/
theorem excess_pos {p q r : V3} (h : V3.det p q r ≠ 0) :
    Real.pi < vang p q r + vang q r p + vang r p q := by
  have hneg : ∀ a b : V3, (a.cross b).e = -(b.cross a).e := by
    intro a b
    ext i
    fin_cases i <;> (simp [V3.e, V3.cross]; ring)
  -- normals
  set n1 := (q.cross r).e with hn1
  set n2 := (r.cross p).e with hn2
  set n3 := (p.cross q).e with hn3
  have hA : vang p q r = Real.pi - angle n3 n2 := by
    rw [vang, hneg p r, angle_neg_right]
  have hB : vang q r p = angle n3 (-n1) := by
    rw [vang, hneg q p, ← hn1, ← hn3, angle_comm, ← angle_neg_neg]; simp
  have hC : vang r p q = angle (-n1) n2 := by
    rw [vang, hneg r q, angle_comm]
  have hind : ∀ a b c : ℝ, a • n1 + b • n2 + c • n3 = 0 → a = 0 ∧ b = 0 ∧ c = 0 := by
    intro a b c he
    have d1 : inner ℝ p.e (a • n1 + b • n2 + c • n3) = a * V3.det p q r := by
      rw [inner_add_right, inner_add_right, real_inner_smul_right, real_inner_smul_right, real_inner_smul_right,
        hn1, hn2, hn3, inner_e, inner_e, inner_e]
      simp only [V3.det, V3.dot, V3.cross]; ring
    have d2 : inner ℝ q.e (a • n1 + b • n2 + c • n3) = b * V3.det p q r := by
      rw [inner_add_right, inner_add_right, real_inner_smul_right, real_inner_smul_right, real_inner_smul_right,
        hn1, hn2, hn3, inner_e, inner_e, inner_e]
      simp only [V3.det, V3.dot, V3.cross]; ring
    have d3 : inner ℝ r.e (a • n1 + b • n2 + c • n3) = c * V3.det p q r := by
      rw [inner_add_right, inner_add_right, real_inner_smul_right, real_inner_smul_right, real_inner_smul_right,
        hn1, hn2, hn3, inner_e, inner_e, inner_e]
      simp only [V3.det, V3.dot, V3.cross]; ring
    rw [he, inner_zero_right] at d1 d2 d3
    exact ⟨(mul_eq_zero.mp d1.symm).resolve_right h, (mul_eq_zero.mp d2.symm).resolve_right h,
      (mul_eq_zero.mp d3.symm).resolve_right h⟩
  have hn1z : -n1 ≠ 0 := by
    intro h0
    have := hind 1 0 0 (by rw [one_smul, zero_smul, zero_smul, ← neg_eq_zero.mp h0]; simp [neg_eq_zero.mp h0])
    exact one_ne_zero this.1
  have hle := angle_le_angle_add_angle n3 (-n1) n2
  have hne : angle n3 n2 ≠ angle n3 (-n1) + angle (-n1) n2 := by
    intro he
    rcases (angle_eq_angle_add_angle_iff hn1z).mp he with h1 | h1
    · obtain ⟨_, s, _, hs⟩ := angle_eq_pi_iff.mp h1
      have := hind 0 1 (-s) (by rw [hs, zero_smul, one_smul, neg_smul]; simp)
      exact one_ne_zero this.2.1
    · obtain ⟨a, b, hab⟩ := Submodule.mem_span_pair.mp h1
      have := hind 1 b a (by
        have : (a : ℝ) • n3 + (b : ℝ) • n2 = -n1 := hab
        rw [one_smul]
        rw [show n1 = -((a : ℝ) • n3 + (b : ℝ) • n2) by rw [this, neg_neg]]
        abel)
      exact one_ne_zero this.1
  have := lt_of_le_of_ne hle hne
  rw [hA, hB, hC]
  linarith

/-! ## The lattice -/

/-- Lattice point. -/
def lat (n y z : ℕ) : V3 := ⟨1 - ((y : ℝ) + z) * (1 / n), y * (1 / n), z * (1 / n)⟩

/-- The two lattice directions. -/
def eU : V3 := ⟨-1, 1, 0⟩
def eV : V3 := ⟨-1, 0, 1⟩

def vA (p : V3) : ℝ := angle (p.cross eU).e (p.cross eV).e
def vB (p : V3) : ℝ := angle (p.cross eU).e ((p.cross eU).e - (p.cross eV).e)
def vC (p : V3) : ℝ := angle (p.cross eV).e ((p.cross eV).e - (p.cross eU).e)

theorem upTri_eq (n j k : ℕ) : upTri n j k = ⟨lat n k j, lat n (k + 1) j, lat n k (j + 1)⟩ := by
  simp only [upTri, lat, Tri.mk.injEq, V3.mk.injEq]
  push_cast
  refine ⟨⟨?_, ?_, ?_⟩, ⟨?_, ?_, ?_⟩, ⟨?_, ?_, ?_⟩⟩ <;> ring

theorem downTri_eq (n j k : ℕ) : downTri n j k = ⟨lat n (k + 1) j, lat n (k + 1) (j + 1), lat n k (j + 1)⟩ := by
  simp only [downTri, lat, Tri.mk.injEq, V3.mk.injEq]
  push_cast
  refine ⟨⟨?_, ?_, ?_⟩, ⟨?_, ?_, ?_⟩, ⟨?_, ?_, ?_⟩⟩ <;> ring

theorem lat_pos {n : ℕ} (y z : ℕ) : 0 < (lat n y z).dot (lat n y z) := by
  have h1 : (lat n y z).x + (lat n y z).y + (lat n y z).z = 1 := by simp only [lat]; ring
  simp only [V3.dot]
  nlinarith [sq_nonneg ((lat n y z).x - (lat n y z).y), sq_nonneg ((lat n y z).x - (lat n y z).z),
    sq_nonneg ((lat n y z).y - (lat n y z).z), mul_self_nonneg (lat n y z).x]

/-- At each lattice point the three angles of the lattice add up to two right angles. -/
theorem vABC {p : V3} (h : p.x + p.y + p.z = 1) : vA p + vB p + vC p = Real.pi := by
  refine angle_add_angle_sub_add_angle_sub_eq_pi _ (e_ne_zero ?_)
  rw [lagrange]
  simp only [V3.dot, eV]
  have : p.z = 1 - p.x - p.y := by linarith
  rw [this]
  intro h0
  have h2 : 2 * p.y ^ 2 + (p.x + (1 - p.x - p.y)) ^ 2 = 0 := by linarith [h0]
  nlinarith [sq_nonneg p.y, sq_nonneg (p.x + (1 - p.x - p.y))]

theorem lat_sum (n y z : ℕ) : (lat n y z).x + (lat n y z).y + (lat n y z).z = 1 := by simp only [lat]; ring

/-- Interior angle from the two directions, whatever the positive length of the sides. -/
theorem vang_dir {p q r : V3} {ds : ℝ} (hds : 0 < ds) {u v : EuclideanSpace ℝ (Fin 3)}
    (hu : (p.cross q).e = ds • u) (hv : (p.cross r).e = ds • v) : vang p q r = angle u v := by
  rw [vang, hu, hv, angle_smul_left_of_pos _ _ hds, angle_smul_right_of_pos _ _ hds]

macro "lat_dir" : tactic => `(tactic| (
  ext i
  fin_cases i <;> (simp [V3.e, V3.cross, lat, eU, eV]; ring)))

theorem up_angles {n : ℕ} (hn : 0 < n) (j k : ℕ) :
    vang (lat n k j) (lat n (k + 1) j) (lat n k (j + 1)) = vA (lat n k j) ∧
    vang (lat n (k + 1) j) (lat n k (j + 1)) (lat n k j) = vB (lat n (k + 1) j) ∧
    vang (lat n k (j + 1)) (lat n k j) (lat n (k + 1) j) = vC (lat n k (j + 1)) := by
  have hds : (0 : ℝ) < 1 / n := by positivity
  refine ⟨?_, ?_, ?_⟩
  · refine vang_dir hds (u := ((lat n k j).cross eU).e) (v := ((lat n k j).cross eV).e) ?_ ?_ <;> lat_dir
  · rw [vang_comm, vB, ← angle_neg_neg]
    refine vang_dir hds ?_ ?_ <;> lat_dir
  · rw [vC, ← angle_neg_neg]
    refine vang_dir hds ?_ ?_ <;> lat_dir

theorem down_angles {n : ℕ} (hn : 0 < n) (j k : ℕ) :
    vang (lat n (k + 1) j) (lat n (k + 1) (j + 1)) (lat n k (j + 1)) = vC (lat n (k + 1) j) ∧
    vang (lat n (k + 1) (j + 1)) (lat n k (j + 1)) (lat n (k + 1) j) = vA (lat n (k + 1) (j + 1)) ∧
    vang (lat n k (j + 1)) (lat n (k + 1) j) (lat n (k + 1) (j + 1)) = vB (lat n k (j + 1)) := by
  have hds : (0 : ℝ) < 1 / n := by positivity
  refine ⟨?_, ?_, ?_⟩
  · rw [vC]
    refine vang_dir hds ?_ ?_ <;> lat_dir
  · rw [vA, ← angle_neg_neg]
    refine vang_dir hds ?_ ?_ <;> lat_dir
  · rw [vang_comm, vB]
    refine vang_dir hds ?_ ?_ <;> lat_dir

theorem weight_up {n : ℕ} (hn : 0 < n) (j k : ℕ) :
    (upTri n j k).weight = vA (lat n k j) + vB (lat n (k + 1) j) + vC (lat n k (j + 1)) - Real.pi := by
  obtain ⟨h1, h2, h3⟩ := up_angles hn j k
  rw [weight_eq (by rw [upTri_eq]; exact lat_pos _ _) (by rw [upTri_eq]; exact lat_pos _ _)
    (by rw [upTri_eq]; exact lat_pos _ _), upTri_eq, h1, h2, h3]

theorem weight_down {n : ℕ} (hn : 0 < n) (j k : ℕ) :
    (downTri n j k).weight =
      vC (lat n (k + 1) j) + vA (lat n (k + 1) (j + 1)) + vB (lat n k (j + 1)) - Real.pi := by
  obtain ⟨h1, h2, h3⟩ := down_angles hn j k
  rw [weight_eq (by rw [downTri_eq]; exact lat_pos _ _) (by rw [downTri_eq]; exact lat_pos _ _)
    (by rw [downTri_eq]; exact lat_pos _ _), downTri_eq, h1, h2, h3]

theorem det_up {n : ℕ} (hn : 0 < n) (j k : ℕ) : 0 < V3.det (lat n k j) (lat n (k + 1) j) (lat n k (j + 1)) := by
  have hds : (0 : ℝ) < 1 / n := by positivity
  have : V3.det (lat n k j) (lat n (k + 1) j) (lat n k (j + 1)) = (1 / n) * (1 / n) := by
    simp only [V3.det, V3.dot, V3.cross, lat]; push_cast; ring
  rw [this]; positivity

theorem det_down {n : ℕ} (hn : 0 < n) (j k : ℕ) :
    0 < V3.det (lat n (k + 1) j) (lat n (k + 1) (j + 1)) (lat n k (j + 1)) := by
  have hds : (0 : ℝ) < 1 / n := by positivity
  have : V3.det (lat n (k + 1) j) (lat n (k + 1) (j + 1)) (lat n k (j + 1)) = (1 / n) * (1 / n) := by
    simp only [V3.det, V3.dot, V3.cross, lat]; push_cast; ring
  rw [this]; positivity

/-! ## Summation over the lattice -/

/-- Angles of one strip, counted from the row below (`m + 1` triangles up, `m` down). -/
theorem strip_sum (a b c a' b' c' : ℕ → ℝ) (pi : ℝ) (h : ∀ k, a k + b k + c k = pi)
    (h' : ∀ k, a' k + b' k + c' k = pi) (m : ℕ) :
    ((List.range (m + 1)).map fun k => a k + b (k + 1) + c' k - pi).sum +
      ((List.range m).map fun k => c (k + 1) + a' (k + 1) + b' k - pi).sum =
      a 0 + b (m + 1) - a' 0 - b' m := by
  induction m with
  | zero =>
    simp
    linarith [h' 0]
  | succ m ih =>
    have e1 : ((List.range (m + 1 + 1)).map fun k => a k + b (k + 1) + c' k - pi).sum =
        ((List.range (m + 1)).map fun k => a k + b (k + 1) + c' k - pi).sum +
          (a (m + 1) + b (m + 1 + 1) + c' (m + 1) - pi) := by
      rw [List.range_succ, List.map_append, List.sum_append]
      simp
    have e2 : ((List.range (m + 1)).map fun k => c (k + 1) + a' (k + 1) + b' k - pi).sum =
        ((List.range m).map fun k => c (k + 1) + a' (k + 1) + b' k - pi).sum +
          (c (m + 1) + a' (m + 1) + b' m - pi) := by
      rw [List.range_succ, List.map_append, List.sum_append]
      simp
    rw [e1, e2]
    linarith [h (m + 1), h' (m + 1)]

theorem corner0 (n : ℕ) : vA (lat n 0 0) = Real.pi / 2 := by
  rw [vA, ← inner_eq_zero_iff_angle_eq_pi_div_two, inner_e]
  simp [V3.dot, V3.cross, lat, eU, eV]

theorem corner1 {n : ℕ} (hn : 0 < n) : vB (lat n n 0) = Real.pi / 2 := by
  have : (n : ℝ) ≠ 0 := by positivity
  rw [vB, ← inner_eq_zero_iff_angle_eq_pi_div_two, inner_sub_right, inner_e, inner_e]
  simp [V3.dot, V3.cross, lat, eU, eV]
  field_simp
  ring

theorem corner2 {n : ℕ} (hn : 0 < n) : vC (lat n 0 n) = Real.pi / 2 := by
  have : (n : ℝ) ≠ 0 := by positivity
  rw [vC, ← inner_eq_zero_iff_angle_eq_pi_div_two, inner_sub_right, inner_e, inner_e]
  simp [V3.dot, V3.cross, lat, eU, eV]
  field_simp
  ring

theorem sum_flatMap {α : Type*} (l : List α) (f : α → List Tri) (g : Tri → ℝ) :
    ((l.flatMap f).map g).sum = (l.map fun a => ((f a).map g).sum).sum := by
  induction l with
  | nil => simp
  | cons a l ih => simp [ih]

/-- Sum over any rows of up and down triangles. -/
theorem basal_sum (n : ℕ) (g : Tri → ℝ) : ((basal n).map g).sum =
    ((List.range n).map fun j => ((List.range (n - j)).map fun k => g (upTri n j k)).sum +
      ((List.range (n - j - 1)).map fun k => g (downTri n j k)).sum).sum := by
  rw [basal, List.map_append, List.sum_append, sum_flatMap, sum_flatMap, List.sum_map_add]
  congr 1
  · simp [Function.comp_def]
  · rcases n with _ | n
    · simp
    · rw [List.range_succ, List.map_append, List.sum_append]
      simp [Function.comp_def]

theorem octant_weights {n : ℕ} (hn : 0 < n) : ((basal n).map Tri.weight).sum = Real.pi / 2 := by
  rw [basal_sum]
  have hstrip : ∀ j, j < n → ((List.range (n - j)).map fun k => (upTri n j k).weight).sum +
      ((List.range (n - j - 1)).map fun k => (downTri n j k).weight).sum =
      (vA (lat n 0 j) + vB (lat n (n - j) j)) - (vA (lat n 0 (j + 1)) + vB (lat n (n - (j + 1)) (j + 1))) := by
    intro j hj
    obtain ⟨m, hm⟩ : ∃ m, n - j = m + 1 := ⟨n - j - 1, by omega⟩
    have hm' : n - (j + 1) = m := by omega
    rw [hm, hm']
    have := strip_sum (fun k => vA (lat n k j)) (fun k => vB (lat n k j)) (fun k => vC (lat n k j))
      (fun k => vA (lat n k (j + 1))) (fun k => vB (lat n k (j + 1))) (fun k => vC (lat n k (j + 1))) Real.pi
      (fun k => vABC (lat_sum _ _ _)) (fun k => vABC (lat_sum _ _ _)) m
    simp only [weight_up hn, weight_down hn, Nat.add_sub_cancel]
    linarith [this]
  have htel : ∀ (F : ℕ → ℝ) (m : ℕ), ((List.range m).map fun j => F j - F (j + 1)).sum = F 0 - F m := by
    intro F m
    induction m with
    | zero => simp
    | succ m ih => rw [List.range_succ, List.map_append, List.sum_append, ih]; simp
  rw [List.map_congr_left (g := fun j => (fun j => vA (lat n 0 j) + vB (lat n (n - j) j)) j -
    (fun j => vA (lat n 0 j) + vB (lat n (n - j) j)) (j + 1)) (fun j hj => hstrip j (List.mem_range.mp hj)), htel]
  have h3 := vABC (lat_sum n 0 n)
  have h0 := corner0 n
  have h1 := corner1 hn
  have h2 := corner2 hn
  simp only [Nat.sub_zero, Nat.sub_self]
  linarith

end

end Nalu.Rad
