import Verif.Model.QuadraticSearch
import Verif.Proofs.Quadratic3DVol
import Verif.Props.FemElem

/-!
# C349: the point search in the quadratic hexahedron and the ten-node tetrahedron

`map3 x c` (`Verif.Spec.Quadratic`) is coordinate `c` of the position the 27 nodes interpolate; `pos10` is the same for the ten-node tetrahedron.
-/

open Finset

namespace Nalu.P2
open Spec Verif.Shape

/-- The position the ten nodes interpolate. -/
noncomputable def pos10 (x : Fin 10 → Fin 3 → ℝ) (c : Fin 3) (q : Fin 3 → ℝ) : ℝ := ∑ k, tet10Shape q k * x k c

/-- `d` solves the linearised equation `value c + Σ_r (∂_r at q) d_r = p c`, for the map `f` at `q`. -/
def SolvesLinear (f : Fin 3 → (Fin 3 → ℝ) → ℝ) (q d p : Fin 3 → ℝ) : Prop :=
  ∀ c, f c q + ∑ r, deriv (fun s => f c (Function.update q r s)) (q r) * d r = p c

/-! ## general -/

theorem solve33_some {A : Fin 3 → Fin 3 → ℝ} {b d : Fin 3 → ℝ} (h : solve33 A b = some d) : determinant33 A ≠ 0 ∧ ∀ i, ∑ r, A i r * d r = b i := by
  unfold solve33 at h
  simp only at h
  split_ifs at h with hz
  refine ⟨hz, ?_⟩
  have hi : determinant33 A * (1 / determinant33 A) = 1 := mul_one_div_cancel hz
  generalize 1 / determinant33 A = v at hi h
  unfold determinant33 at hi
  have h := Option.some.inj h
  have h0 := congrFun h 0; have h1 := congrFun h 1; have h2 := congrFun h 2
  simp only [v30, v31, v32] at h0 h1 h2
  intro i
  rw [Fin.sum_univ_three, ← h0, ← h1, ← h2]
  fin_cases i
  · show A 0 0 * _ + A 0 1 * _ + A 0 2 * _ = b 0
    linear_combination b 0 * hi
  · show A 1 0 * _ + A 1 1 * _ + A 1 2 * _ = b 1
    linear_combination b 1 * hi
  · show A 2 0 * _ + A 2 1 * _ + A 2 2 * _ = b 2
    linear_combination b 2 * hi

theorem unique33 {A : Fin 3 → Fin 3 → ℝ} (hz : determinant33 A ≠ 0) {d e : Fin 3 → ℝ} (h : ∀ i, ∑ r, A i r * d r = ∑ r, A i r * e r) : d = e := by
  have h0 := h 0; have h1 := h 1; have h2 := h 2
  simp only [Fin.sum_univ_three] at h0 h1 h2
  funext i
  refine mul_left_cancel₀ hz ?_
  unfold determinant33
  fin_cases i
  · show _ * d 0 = _ * e 0
    linear_combination (A 1 1 * A 2 2 - A 1 2 * A 2 1) * h0 + (A 0 2 * A 2 1 - A 0 1 * A 2 2) * h1 + (A 0 1 * A 1 2 - A 0 2 * A 1 1) * h2
  · show _ * d 1 = _ * e 1
    linear_combination (A 1 2 * A 2 0 - A 1 0 * A 2 2) * h0 + (A 0 0 * A 2 2 - A 0 2 * A 2 0) * h1 + (A 0 2 * A 1 0 - A 0 0 * A 1 2) * h2
  · show _ * d 2 = _ * e 2
    linear_combination (A 1 0 * A 2 1 - A 1 1 * A 2 0) * h0 + (A 0 1 * A 2 0 - A 0 0 * A 2 1) * h1 + (A 0 0 * A 1 1 - A 0 1 * A 1 0) * h2

theorem solve33_isSome {A : Fin 3 → Fin 3 → ℝ} (hz : determinant33 A ≠ 0) (b : Fin 3 → ℝ) : ∃ d, solve33 A b = some d := by
  unfold solve33; simp only; rw [if_neg hz]; exact ⟨_, rfl⟩

/-- The tetrahedron's step is `solve33` on the same Jacobian and the negated residual. -/
theorem tet10Step_eq (x : Fin 10 → Fin 3 → ℝ) (p g : Fin 3 → ℝ) :
    tet10Step x p g = solve33 (fun c r => ∑ k, tet10Deriv g k r * (x k c - x 0 c)) fun c => p c - x 0 c - ∑ k, (x k c - x 0 c) * tet10Shape g k := by
  unfold tet10Step solve33 determinant33
  simp only
  split_ifs with h
  · rfl
  · congr 1
    funext i
    fin_cases i <;> simp only [Fin.sum_univ_three, v30, v31, v32, Fin.zero_eta, Fin.mk_one, Fin.reduceFinMk] <;> ring

theorem newton3_some {step : (Fin 3 → ℝ) → Option (Fin 3 → ℝ)} {small : (Fin 3 → ℝ) → Prop} {n : ℕ} {g0 g : Fin 3 → ℝ}
    (h : newton3 step small n g0 = some g) : ∃ q d, (∀ i, g i = q i + d i) ∧ small d ∧ step q = some d := by
  induction n generalizing g0 with
  | zero => simp [newton3] at h
  | succ n ih =>
    rw [newton3] at h
    cases hs : step g0 with
    | none => rw [hs] at h; simp at h
    | some d =>
      rw [hs] at h
      simp only at h
      split_ifs at h with hd
      · obtain rfl := Option.some.inj h
        exact ⟨g0, d, fun _ => rfl, hd, hs⟩
      · exact ih h

theorem newton3_exact {step : (Fin 3 → ℝ) → Option (Fin 3 → ℝ)} {small : (Fin 3 → ℝ) → Prop} {q : Fin 3 → ℝ} (hs : small fun _ => 0)
    (h : ∀ g, step g = some fun i => q i - g i) (n : ℕ) (g : Fin 3 → ℝ) : newton3 step small (n + 2) g = some q := by
  have e : ∀ g : Fin 3 → ℝ, (fun i => g i + (q i - g i)) = q := fun g => by funext i; ring
  rw [newton3, h]
  simp only [e]
  split_ifs with hd
  · rfl
  · have z : (fun i => q i - q i) = fun _ : Fin 3 => (0 : ℝ) := by funext i; ring
    rw [newton3, h]
    simp only [e]
    rw [if_pos (by rw [z]; exact hs)]

theorem flat33 {A : Fin 3 → Fin 3 → ℝ} {w : Fin 3 → ℝ} (hw : w ≠ 0) (h : ∀ r, ∑ c, w c * A c r = 0) : determinant33 A = 0 := by
  have h0 := h 0; have h1 := h 1; have h2 := h 2
  simp only [Fin.sum_univ_three] at h0 h1 h2
  by_contra hz
  refine hw (funext fun c => mul_left_cancel₀ hz ?_)
  unfold determinant33
  fin_cases c
  · show _ * w 0 = _ * (0 : ℝ)
    linear_combination (A 1 1 * A 2 2 - A 1 2 * A 2 1) * h0 + (A 1 2 * A 2 0 - A 1 0 * A 2 2) * h1 + (A 1 0 * A 2 1 - A 1 1 * A 2 0) * h2
  · show _ * w 1 = _ * (0 : ℝ)
    linear_combination (A 0 2 * A 2 1 - A 0 1 * A 2 2) * h0 + (A 0 0 * A 2 2 - A 0 2 * A 2 0) * h1 + (A 0 1 * A 2 0 - A 0 0 * A 2 1) * h2
  · show _ * w 2 = _ * (0 : ℝ)
    linear_combination (A 0 1 * A 1 2 - A 0 2 * A 1 1) * h0 + (A 0 2 * A 1 0 - A 0 0 * A 1 2) * h1 + (A 0 0 * A 1 1 - A 0 1 * A 1 0) * h2

/-! ## the hexahedron -/

theorem hex27Step_eq (x : ℕ → Fin 3 → ℝ) (p g : Fin 3 → ℝ) :
    hex27Step x p g = solve33 (fun c r => dmap3 x r c (g 0) (g 1) (g 2)) fun c => p c - map3 x c (g 0) (g 1) (g 2) := by
  unfold hex27Step
  congr 1
  · funext c r; exact tangent27 x r c _ _ _
  · funext c
    exact congrArg (p c - ·) (sum_congr rfl fun n hn => by rw [hex27Shape_eq (mem_range.1 hn)])

theorem hex27Dist_eq (g : Fin 3 → ℝ) : hex27Dist g = max (max |g 0| |g 1|) |g 2| := by
  have u : ∀ d y : ℝ, (if d < y then y else d) = max d y := fun d y => by
    split_ifs with h
    · rw [max_eq_right h.le]
    · rw [max_eq_left (not_lt.1 h)]
  simp only [hex27Dist, u]
  rw [max_eq_right (abs_nonneg (g 0))]

theorem dmap3_update (x : ℕ → Fin 3 → ℝ) (c r : Fin 3) (q : Fin 3 → ℝ) :
    dmap3 x r c (q 0) (q 1) (q 2) = deriv (fun s => map3 x c (Function.update q r s 0) (Function.update q r s 1) (Function.update q r s 2)) (q r) := by
  fin_cases r <;> simp [dmap3]

/-- A converged search in the hexahedron: the returned distance is the largest reference coordinate; the last step was shorter than the tolerance and
solved the equation linearised where it started. -/
theorem c349_hex_converged {tol : ℝ} {x : ℕ → Fin 3 → ℝ} {p g : Fin 3 → ℝ} {dist : ℝ} (h : hex27InElement tol x p = some (g, dist)) :
    (dist ≤ 1 ↔ ∀ i, |g i| ≤ 1) ∧ dist = max (max |g 0| |g 1|) |g 2| ∧
      ∃ q d, (∀ i, g i = q i + d i) ∧ ∑ i, d i ^ 2 < tol ∧ SolvesLinear (fun c q => map3 x c (q 0) (q 1) (q 2)) q d p := by
  simp only [hex27InElement, Option.map_eq_some_iff, Prod.mk.injEq] at h
  obtain ⟨g', hg', rfl, rfl⟩ := h
  obtain ⟨q, d, hq, hs, hd⟩ := newton3_some hg'
  rw [hex27Step_eq] at hd
  refine ⟨?_, hex27Dist_eq _, q, d, hq, ?_, fun c => ?_⟩
  · rw [hex27Dist_eq]; simp only [max_le_iff, forall3, and_assoc]
  · rw [Fin.sum_univ_three]
    have := lt_of_abs_lt hs
    nlinarith
  · have := (solve33_some hd).2 c
    simp only [dmap3_update] at this
    rw [this]; ring

theorem affine_hex {x : ℕ → Fin 3 → ℝ} {a : Fin 3 → ℝ} {b : Fin 3 → Fin 3 → ℝ}
    (hx : ∀ n < 27, ∀ c, x n c = a c + b c 0 * (ref3 n).1 + b c 1 * (ref3 n).2.1 + b c 2 * (ref3 n).2.2) (c : Fin 3) (s t u : ℝ) :
    map3 x c s t u = a c + b c 0 * s + b c 1 * t + b c 2 * u ∧ ∀ r, dmap3 x r c s t u = b c r := by
  have hm : ∀ s t u, map3 x c s t u = a c + b c 0 * s + b c 1 * t + b c 2 * u := by
    intro s t u
    have h := map3_trilin (a := fun c i j k => if i = 0 ∧ j = 0 ∧ k = 0 then a c else if i = 1 ∧ j = 0 ∧ k = 0 then b c 0 else
      if i = 0 ∧ j = 1 ∧ k = 0 then b c 1 else if i = 0 ∧ j = 0 ∧ k = 1 then b c 2 else 0) (x := x)
      (fun n hn c => by rw [hx n hn c]; simp [trilin, sum_range_succ]; ring) c
    rw [h]; simp [trilin, sum_range_succ]; ring
  refine ⟨hm s t u, fun r => ?_⟩
  fin_cases r
  · exact deriv_lin _ (a c + b c 1 * t + b c 2 * u) (b c 0) (fun s => by rw [hm]; ring) s
  · exact deriv_lin _ (a c + b c 0 * s + b c 2 * u) (b c 1) (fun t => by rw [hm]; ring) t
  · exact deriv_lin _ (a c + b c 0 * s + b c 1 * t) (b c 2) (fun u => by rw [hm]) u

/-- A parallelepiped, of either orientation: the search always succeeds, with the exact reference coordinates, and the distance is at most one exactly
when the point is in the element. -/
theorem c349_hex_affine {tol : ℝ} (ht : 0 < tol) {x : ℕ → Fin 3 → ℝ} {a : Fin 3 → ℝ} {b : Fin 3 → Fin 3 → ℝ}
    (hx : ∀ n < 27, ∀ c, x n c = a c + b c 0 * (ref3 n).1 + b c 1 * (ref3 n).2.1 + b c 2 * (ref3 n).2.2) (hd : (Matrix.of b).det ≠ 0) (p : Fin 3 → ℝ) :
    ∃ g dist, hex27InElement tol x p = some (g, dist) ∧ (∀ c, p c = a c + ∑ r, b c r * g r) ∧
      (dist ≤ 1 ↔ ∃ q : Fin 3 → ℝ, (∀ i, |q i| ≤ 1) ∧ ∀ c, p c = a c + ∑ r, b c r * q r) := by
  have hd' : determinant33 b ≠ 0 := by
    rw [Matrix.det_fin_three] at hd
    simp only [Matrix.of_apply] at hd
    intro h; apply hd; unfold determinant33 at h; linear_combination h
  obtain ⟨q, hq⟩ := solve33_isSome hd' fun c => p c - a c
  have hq' : ∀ c, p c = a c + ∑ r, b c r * q r := fun c => by rw [(solve33_some hq).2 c]; ring
  have hstep : ∀ g, hex27Step x p g = some fun i => q i - g i := by
    intro g
    rw [hex27Step_eq]
    simp only [fun c => (affine_hex hx c (g 0) (g 1) (g 2)).1, fun c r => (affine_hex hx c (g 0) (g 1) (g 2)).2 r]
    obtain ⟨d, hd1⟩ := solve33_isSome hd' fun c => p c - (a c + b c 0 * g 0 + b c 1 * g 1 + b c 2 * g 2)
    rw [show solve33 (fun c r => b c r) _ = _ from hd1]
    congr 1
    refine unique33 hd' fun i => ?_
    rw [(solve33_some hd1).2 i, hq' i]
    simp only [Fin.sum_univ_three]; ring
  refine ⟨q, hex27Dist q, ?_, hq', ?_⟩
  · rw [hex27InElement, newton3_exact (by simpa using ht) hstep 98]; rfl
  · rw [hex27Dist_eq]
    constructor
    · intro h
      simp only [max_le_iff] at h
      exact ⟨q, by rw [forall3]; exact ⟨h.1.1, h.1.2, h.2⟩, hq'⟩
    · rintro ⟨r, h1, hr⟩
      obtain rfl : q = r := unique33 hd' fun i => by
        have e1 := hq' i; have e2 := hr i; linarith
      simp only [max_le_iff]
      exact ⟨⟨h1 0, h1 1⟩, h1 2⟩

/-- An element squeezed into a plane never contains a point. -/
theorem c349_hex_flat {tol : ℝ} {x : ℕ → Fin 3 → ℝ} {w : Fin 3 → ℝ} (hw : w ≠ 0) {k : ℝ} (hx : ∀ n < 27, ∑ c, w c * x n c = k) (p : Fin 3 → ℝ) :
    hex27InElement tol x p = none := by
  by_contra h
  obtain ⟨⟨g, dist⟩, h⟩ := Option.ne_none_iff_exists'.1 h
  simp only [hex27InElement, Option.map_eq_some_iff, Prod.mk.injEq] at h
  obtain ⟨g', hg', -, -⟩ := h
  obtain ⟨q, d, -, -, hd⟩ := newton3_some hg'
  refine (solve33_some hd).1 (flat33 hw fun r => ?_)
  have hz : ∑ j ∈ range 27, hex27Deriv (q 0) (q 1) (q 2) j r = 0 := by
    have := (affine_hex (x := fun _ _ => (1 : ℝ)) (a := fun _ => 1) (b := fun _ _ => 0) (fun n _ c => by simp) 0 (q 0) (q 1) (q 2)).2 r
    rw [← tangent27] at this
    simpa [tangent] using this
  calc _ = ∑ j ∈ range 27, hex27Deriv (q 0) (q 1) (q 2) j r * ∑ c, w c * x j c := by
        simp only [Finset.mul_sum]; rw [Finset.sum_comm]
        exact sum_congr rfl fun _ _ => sum_congr rfl fun _ _ => by ring
    _ = ∑ j ∈ range 27, hex27Deriv (q 0) (q 1) (q 2) j r * k := sum_congr rfl fun j hj => by rw [hx j (mem_range.1 hj)]
    _ = 0 := by rw [← Finset.sum_mul, hz, zero_mul]

/-! ## the tetrahedron -/

theorem tet10Dist_le (g : Fin 3 → ℝ) : tet10Dist g ≤ 1 ↔ (∀ i, 0 ≤ g i) ∧ ∑ i, g i ≤ 1 := by
  simp only [tet10Dist, max_le_iff, forall3, Fin.sum_univ_three]
  constructor
  · rintro ⟨⟨h0, h1⟩, h2, h3⟩
    exact ⟨⟨by linarith, by linarith, by linarith⟩, by linarith⟩
  · rintro ⟨⟨h0, h1, h2⟩, h3⟩
    exact ⟨⟨by linarith, by linarith⟩, by linarith, by linarith⟩

theorem pos10_deriv (x : Fin 10 → Fin 3 → ℝ) (c r : Fin 3) (q : Fin 3 → ℝ) :
    deriv (fun s => pos10 x c (Function.update q r s)) (q r) = ∑ k, tet10Deriv q k r * x k c := by
  have h := (c150_derivatives q fun _ => 0).2.1
  have := HasDerivAt.fun_sum (u := Finset.univ) fun k _ => (h k r).mul_const (x k c)
  exact this.deriv

theorem tet10Step_pos (x : Fin 10 → Fin 3 → ℝ) (p g : Fin 3 → ℝ) :
    tet10Step x p g = solve33 (fun c r => ∑ k, tet10Deriv g k r * x k c) fun c => p c - pos10 x c g := by
  rw [tet10Step_eq]
  congr 1
  · funext c r
    have := (femDeriv_sum (K := ℝ) g fun _ => 0).2.1 r
    simp only [mul_sub, Finset.sum_sub_distrib]
    rw [← Finset.sum_mul, this]; ring
  · funext c
    have : ∑ k, tet10Shape g k = 1 := c150_partition_of_unity.2.1 g
    simp only [pos10, sub_mul, Finset.sum_sub_distrib]
    rw [← Finset.mul_sum, this, Finset.sum_congr rfl fun k _ => mul_comm (x k c) _]; ring

/-- A converged search in the tetrahedron: the distance is at most one exactly when the returned reference coordinates are in the reference tetrahedron;
the last step was shorter than the tolerance and solved the equation linearised where it started. -/
theorem c349_tet_converged {tol : ℝ} {x : Fin 10 → Fin 3 → ℝ} {p g : Fin 3 → ℝ} {dist : ℝ} (h : tet10InElement tol x p = some (g, dist)) :
    (dist ≤ 1 ↔ (∀ i, 0 ≤ g i) ∧ ∑ i, g i ≤ 1) ∧
      ∃ q d, (∀ i, g i = q i + d i) ∧ ∑ i, d i ^ 2 < tol ∧ SolvesLinear (pos10 x) q d p := by
  simp only [tet10InElement, Option.map_eq_some_iff, Prod.mk.injEq] at h
  obtain ⟨g', hg', rfl, rfl⟩ := h
  obtain ⟨q, d, hq, hs, hd⟩ := newton3_some hg'
  rw [tet10Step_pos] at hd
  refine ⟨tet10Dist_le _, q, d, hq, ?_, fun c => ?_⟩
  · rw [Fin.sum_univ_three]; nlinarith
  · have := (solve33_some hd).2 c
    simp only [pos10_deriv]
    rw [this]; ring

theorem affine_tet {x : Fin 10 → Fin 3 → ℝ} {a : Fin 3 → ℝ} {b : Fin 3 → Fin 3 → ℝ}
    (hx : ∀ k c, x k c = a c + ∑ r, b c r * tet10Nodes k r) (c : Fin 3) (g : Fin 3 → ℝ) :
    pos10 x c g = a c + ∑ r, b c r * g r ∧ ∀ r, ∑ k, tet10Deriv g k r * x k c = b c r := by
  constructor
  · simp only [pos10, hx, sum10, tet10Shape, tet10Nodes, mid, tetNodes, v30, v31, v32, Fin.sum_univ_three]; ring
  · rw [forall3]
    refine ⟨?_, ?_, ?_⟩ <;> simp only [hx, sum10, tet10Deriv, tet10Nodes, mid, tetNodes, v30, v31, v32, Fin.sum_univ_three] <;> ring

/-- A tetrahedron with straight edges and nodes at their midpoints, of either orientation: the search always succeeds, with the exact reference
coordinates, and the distance is at most one exactly when the point is in the element. -/
theorem c349_tet_affine {tol : ℝ} (ht : 0 < tol) {x : Fin 10 → Fin 3 → ℝ} {a : Fin 3 → ℝ} {b : Fin 3 → Fin 3 → ℝ}
    (hx : ∀ k c, x k c = a c + ∑ r, b c r * tet10Nodes k r) (hd : (Matrix.of b).det ≠ 0) (p : Fin 3 → ℝ) :
    ∃ g dist, tet10InElement tol x p = some (g, dist) ∧ (∀ c, p c = a c + ∑ r, b c r * g r) ∧
      (dist ≤ 1 ↔ ∃ q : Fin 3 → ℝ, (∀ i, 0 ≤ q i) ∧ ∑ i, q i ≤ 1 ∧ ∀ c, p c = a c + ∑ r, b c r * q r) := by
  have hd' : determinant33 b ≠ 0 := by
    rw [Matrix.det_fin_three] at hd
    simp only [Matrix.of_apply] at hd
    intro h; apply hd; unfold determinant33 at h; linear_combination h
  obtain ⟨q, hq⟩ := solve33_isSome hd' fun c => p c - a c
  have hq' : ∀ c, p c = a c + ∑ r, b c r * q r := fun c => by rw [(solve33_some hq).2 c]; ring
  have hstep : ∀ g, tet10Step x p g = some fun i => q i - g i := by
    intro g
    rw [tet10Step_pos]
    simp only [fun c => (affine_tet hx c g).1, fun c r => (affine_tet hx c g).2 r]
    obtain ⟨d, hd1⟩ := solve33_isSome hd' fun c => p c - (a c + ∑ r, b c r * g r)
    rw [show solve33 (fun c r => b c r) _ = _ from hd1]
    congr 1
    refine unique33 hd' fun i => ?_
    rw [(solve33_some hd1).2 i, hq' i]
    simp only [Fin.sum_univ_three]; ring
  refine ⟨q, tet10Dist q, ?_, hq', ?_⟩
  · rw [tet10InElement, newton3_exact (by simpa using ht) hstep 8]; rfl
  · rw [tet10Dist_le]
    constructor
    · rintro ⟨h1, h2⟩; exact ⟨q, h1, h2, hq'⟩
    · rintro ⟨r, h1, h2, hr⟩
      obtain rfl : q = r := unique33 hd' fun i => by
        have e1 := hq' i; have e2 := hr i; linarith
      exact ⟨h1, h2⟩

/-- A tetrahedron squeezed into a plane never contains a point. -/
theorem c349_tet_flat {tol : ℝ} {x : Fin 10 → Fin 3 → ℝ} {w : Fin 3 → ℝ} (hw : w ≠ 0) {k : ℝ} (hx : ∀ n, ∑ c, w c * x n c = k) (p : Fin 3 → ℝ) :
    tet10InElement tol x p = none := by
  by_contra h
  obtain ⟨⟨g, dist⟩, h⟩ := Option.ne_none_iff_exists'.1 h
  simp only [tet10InElement, Option.map_eq_some_iff, Prod.mk.injEq] at h
  obtain ⟨g', hg', -, -⟩ := h
  obtain ⟨q, d, -, -, hd⟩ := newton3_some hg'
  rw [tet10Step_pos] at hd
  refine (solve33_some hd).1 (flat33 hw fun r => ?_)
  calc _ = ∑ j, tet10Deriv q j r * ∑ c, w c * x j c := by
        simp only [Finset.mul_sum]; rw [Finset.sum_comm]
        exact sum_congr rfl fun _ _ => sum_congr rfl fun _ _ => by ring
    _ = 0 := by simp only [hx]; rw [← Finset.sum_mul, (femDeriv_sum (K := ℝ) q fun _ => 0).2.1 r, zero_mul]

/-- The tetrahedron's own interpolation is the one the search inverts. -/
theorem c349_tet_interpolate (g : Fin 3 → ℝ) (f : Fin 10 → ℝ) (x : Fin 10 → Fin 3 → ℝ) (c : Fin 3) :
    tet10Interp g f = ∑ k, tet10Shape g k * f k ∧ tet10Interp g (fun k => x k c) = pos10 x c g := by
  have : ∀ f : Fin 10 → ℝ, tet10Interp g f = ∑ k, tet10Shape g k * f k := fun f => by
    simp only [tet10Interp, sum10, tet10Shape]; ring
  exact ⟨this f, this _⟩

/-- A point at the position where the search starts - the centre of the hexahedron, node 0 of the tetrahedron - is found there at once, whatever the shape
of the element, if the Jacobian is not singular there. -/
theorem c349_start {tol : ℝ} (ht : 0 < tol) :
    (∀ x : ℕ → Fin 3 → ℝ, jac3 x 0 0 0 ≠ 0 → hex27InElement tol x (fun c => x 20 c) = some (fun _ => 0, 0)) ∧
    (∀ x : Fin 10 → Fin 3 → ℝ, (Matrix.of fun c r => ∑ k, tet10Deriv (fun _ => 0) k r * x k c).det ≠ 0 →
      tet10InElement tol x (x 0) = some (fun _ => 0, 1)) := by
  have zero : ∀ A : Fin 3 → Fin 3 → ℝ, determinant33 A ≠ 0 → solve33 A (fun _ => 0) = some fun _ => 0 := by
    intro A hA
    obtain ⟨d, hd⟩ := solve33_isSome hA fun _ => 0
    rw [hd]; congr 1
    exact unique33 hA fun i => by rw [(solve33_some hd).2 i]; simp
  constructor
  · intro x hx
    have hs : hex27Step x (fun c => x 20 c) ![0, 0, 0] = some fun _ => 0 := by
      rw [hex27Step_eq]
      have e : (fun c => x 20 c - map3 x c (![(0 : ℝ), 0, 0] 0) (![(0 : ℝ), 0, 0] 1) (![(0 : ℝ), 0, 0] 2)) = fun _ => 0 := by
        funext c
        simp [map3, sum_range_succ, ref3, ell]
      rw [e]
      refine zero _ ?_
      intro h
      apply hx
      simp only [jac3, Matrix.det_fin_three, Matrix.of_apply]
      unfold determinant33 at h
      simp only [v30, v31, v32] at h
      linear_combination h
    rw [hex27InElement, newton3, hs]
    simp only [mul_zero, add_zero, abs_zero, ht, if_true, Option.map_some, Option.some.injEq, Prod.mk.injEq]
    have e : (fun i => (![0, 0, 0] : Fin 3 → ℝ) i) = fun _ => 0 := by funext i; fin_cases i <;> rfl
    exact ⟨e, by rw [e, hex27Dist_eq]; simp⟩
  · intro x hx
    have hs : tet10Step x (x 0) (fun _ => 0) = some fun _ => 0 := by
      rw [tet10Step_pos]
      have e : (fun c => x 0 c - pos10 x c fun _ => 0) = fun _ => 0 := by
        funext c
        simp [pos10, sum10, tet10Shape]
      rw [e]
      refine zero _ ?_
      intro h
      apply hx
      simp only [Matrix.det_fin_three, Matrix.of_apply]
      unfold determinant33 at h
      linear_combination h
    rw [tet10InElement, newton3, hs]
    simp only [mul_zero, add_zero, ht, if_true, Option.map_some, Option.some.injEq, Prod.mk.injEq, true_and]
    norm_num [tet10Dist]

/-- A sheared box, for `c349_hex_affine`, and a tetrahedron, for `c349_tet_affine`. -/
example : (∃ g dist, hex27InElement (1 / 10 ^ 16) (fun n => ![((ref3 n).1 : ℝ) + (ref3 n).2.1, ((ref3 n).2.1 : ℝ), 2 * ((ref3 n).2.2 : ℝ)]) ![2, 1, 6]
      = some (g, dist) ∧ g = ![1, 1, 3]) ∧
    ∃ g dist, tet10InElement (1 / 10 ^ 16) (fun k => ![1 + tet10Nodes k 0, 2 * tet10Nodes k 1, tet10Nodes k 2]) ![2, 1, 1] = some (g, dist) ∧
      g = ![1, 1 / 2, 1] := by
  constructor
  · obtain ⟨g, dist, h, hp, -⟩ := c349_hex_affine (tol := 1 / 10 ^ 16) (by norm_num)
      (x := fun n => ![((ref3 n).1 : ℝ) + (ref3 n).2.1, ((ref3 n).2.1 : ℝ), 2 * ((ref3 n).2.2 : ℝ)]) (a := ![0, 0, 0])
      (b := ![![1, 1, 0], ![0, 1, 0], ![0, 0, 2]]) (by intro n _ c; fin_cases c <;> simp) (by simp [Matrix.det_fin_three]) ![2, 1, 6]
    refine ⟨g, dist, h, ?_⟩
    have h0 := hp 0; have h1 := hp 1; have h2 := hp 2
    simp [Fin.sum_univ_three] at h0 h1 h2
    funext c; fin_cases c <;> simp <;> linarith
  · obtain ⟨g, dist, h, hp, -⟩ := c349_tet_affine (tol := 1 / 10 ^ 16) (by norm_num)
      (x := fun k => ![1 + tet10Nodes k 0, 2 * tet10Nodes k 1, tet10Nodes k 2]) (a := ![1, 0, 0])
      (b := ![![1, 0, 0], ![0, 2, 0], ![0, 0, 1]]) (by intro n c; fin_cases c <;> simp [Fin.sum_univ_three]) (by simp [Matrix.det_fin_three]) ![2, 1, 1]
    refine ⟨g, dist, h, ?_⟩
    have h0 := hp 0; have h1 := hp 1; have h2 := hp 2
    simp [Fin.sum_univ_three] at h0 h1 h2
    funext c; fin_cases c <;> simp <;> linarith

end Nalu.P2
