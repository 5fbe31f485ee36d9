import Verif.Props.Quadratic
import Mathlib.LinearAlgebra.Matrix.ToLin
import Mathlib.LinearAlgebra.Matrix.Nondegenerate

/-!
# Quadratic elements: maps, gradients, hexahedron, boundary elements, point location (C199–C205)
-/

open Finset

namespace Nalu.P2
open Spec

/-! ## C199: maps of the quadrilateral -/

/-- Every sub-control surface point lies between two nodes that are neighbours in its direction (the left one outside, the right one in the middle), on
the common boundary of their volumes. -/
theorem c199_neighbours {ip : ScsIp 2} (h : ip ∈ quad9ScsIps) :
    ∃ l : ℕ, l < 3 ∧ ∃ m : ℕ, m < 2 ∧ ∃ d o : Fin 2, d ≠ o ∧ ip.dir = d ∧
      ![(ref2 ip.left).1, (ref2 ip.left).2] d = 2 * (m : ℤ) - 1 ∧ ![(ref2 ip.right).1, (ref2 ip.right).2] d = 0 ∧
      ![(ref2 ip.left).1, (ref2 ip.left).2] o = (l : ℤ) - 1 ∧ ![(ref2 ip.right).1, (ref2 ip.right).2] o = (l : ℤ) - 1 ∧
      ip.loc d = lo (m : ℤ) ∧ lo ((l : ℤ) - 1) < ip.loc o ∧ ip.loc o < hi ((l : ℤ) - 1) := by
  have em : ∀ m < 2, scsLoc m = lo (m : ℤ) := by
    intro m hm
    interval_cases m <;> simp [scsLoc, lo, dist_inv]
  simp only [quad9ScsIps, quad9TIps, quad9SIps, List.mem_append, List.mem_flatMap, List.mem_map, List.mem_range] at h
  rcases h with ⟨m, hm, l, hl, j, hj, rfl⟩ | ⟨m, hm, l, hl, j, hj, rfl⟩
  · refine ⟨l, hl, m, hm, 1, 0, by decide, rfl, ?_, ?_, ?_, ?_, em m hm, (c196_points_inside hl).1, (c196_points_inside hl).2.1⟩
    all_goals interval_cases m <;> simp [quadNode_ref hl]
  · refine ⟨l, hl, m, hm, 0, 1, by decide, rfl, ?_, ?_, ?_, ?_, em m hm, (c196_points_inside hl).1, (c196_points_inside hl).2.1⟩
    all_goals interval_cases m <;> simp [quadNode_ref, hl]

/-- The points the element keeps for its face are those of the edge element, and so are the nodes. -/
theorem c199_faces_match_edges {side : ℕ} (hs : side < 4) :
    (quad9FaceIps side).map (fun f => some f.loc) = edge3Ips.map (fun e => quadSide side (e.loc 0)) ∧
    (quad9FaceIps side).map FaceIp.node = edge3Ips.map fun e => (quadSideNodes side).getD e.node 0 := by
  have r := fun {k : ℕ} (hk : k < 3) {i : ℕ} (hi : i < 2) => (gaussLoc_reflect hk hi)
  have r00 := r (k := 0) (by norm_num) (i := 0) (by norm_num)
  have r01 := r (k := 0) (by norm_num) (i := 1) (by norm_num)
  have r10 := r (k := 1) (by norm_num) (i := 0) (by norm_num)
  have r11 := r (k := 1) (by norm_num) (i := 1) (by norm_num)
  have r20 := r (k := 2) (by norm_num) (i := 0) (by norm_num)
  have r21 := r (k := 2) (by norm_num) (i := 1) (by norm_num)
  interval_cases side
  · exact ⟨rfl, rfl⟩
  · exact ⟨rfl, rfl⟩
  · refine ⟨?_, rfl⟩
    show [some ![gaussLoc 2 1, 1], some ![gaussLoc 2 0, 1], some ![gaussLoc 1 1, 1], some ![gaussLoc 1 0, 1], some ![gaussLoc 0 1, 1], some ![gaussLoc 0 0, 1]]
      = [some ![-gaussLoc 0 0, 1], some ![-gaussLoc 0 1, 1], some ![-gaussLoc 1 0, 1], some ![-gaussLoc 1 1, 1], some ![-gaussLoc 2 0, 1], some ![-gaussLoc 2 1, 1]]
    rw [r00, r01, r10, r11, r20, r21]
  · refine ⟨?_, rfl⟩
    show [some ![-1, gaussLoc 2 1], some ![-1, gaussLoc 2 0], some ![-1, gaussLoc 1 1], some ![-1, gaussLoc 1 0], some ![-1, gaussLoc 0 1], some ![-1, gaussLoc 0 0]]
      = [some ![-1, -gaussLoc 0 0], some ![-1, -gaussLoc 0 1], some ![-1, -gaussLoc 1 0], some ![-1, -gaussLoc 1 1], some ![-1, -gaussLoc 2 0], some ![-1, -gaussLoc 2 1]]
    rw [r00, r01, r10, r11, r20, r21]

/-- The opposing point of a face point is the sub-control surface point straight behind it: from the face node to the opposing node. -/
theorem c199_opposing {side : ℕ} (hs : side < 4) {f : FaceIp 2} (hf : f ∈ quad9FaceIps side) :
    ∃ p, quad9ScsIps[f.oppFace]? = some p ∧ p.left = f.node ∧ p.right = f.oppNode ∧ ∃ d o : Fin 2, d ≠ o ∧ p.dir = d ∧ p.loc o = f.loc o ∧
      |f.loc d| = 1 ∧ 0 < p.loc d * f.loc d := by
  have h0 := dist_pos
  interval_cases side
  all_goals
    simp only [quad9FaceIps, List.mem_flatMap, List.mem_map, List.mem_range, List.mem_cons, List.not_mem_nil, or_false] at hf
    obtain ⟨k, hk, j, hj, rfl⟩ := hf
  · interval_cases k <;> interval_cases j <;> exact ⟨_, rfl, rfl, rfl, 1, 0, by decide, rfl, rfl, by simp [quadFaceLoc], by simp [quadFaceLoc, quad9Loc, scsLoc, h0]⟩
  · interval_cases k <;> interval_cases j <;> exact ⟨_, rfl, rfl, rfl, 0, 1, by decide, rfl, rfl, by simp [quadFaceLoc], by simp [quadFaceLoc, quad9Loc, scsLoc, h0]⟩
  · rcases hk with rfl | rfl | rfl <;> interval_cases j <;> exact ⟨_, rfl, rfl, rfl, 1, 0, by decide, rfl, rfl, by simp [quadFaceLoc], by simp [quadFaceLoc, quad9Loc, scsLoc, h0]⟩
  · rcases hk with rfl | rfl | rfl <;> interval_cases j <;> exact ⟨_, rfl, rfl, rfl, 0, 1, by decide, rfl, rfl, by simp [quadFaceLoc], by simp [quadFaceLoc, quad9Loc, scsLoc, h0]⟩

/-! ## C200: gradients -/

theorem sumFin (n : ℕ) (f : ℕ → ℝ) : ∑ k : Fin n, f k = ∑ k ∈ range n, f k := (Finset.sum_range f).symm

/-- The gradient operator of the quadrilateral gives the physical gradient of the interpolated field: in every reference direction the chain rule holds,
for every field and every point with a Jacobian above the threshold. -/
theorem c200_quad_chain_rule {tiny : ℝ} (h0 : 0 ≤ tiny) (x : ℕ → Fin 2 → ℝ) (p : Fin 2 → ℝ) (hd : tiny < jac2 x (p 0) (p 1)) (φ : ℕ → ℝ) :
    deriv (fun s => map2 (fun n (_ : Fin 1) => φ n) 0 s (p 1)) (p 0)
        = ∑ c, (∑ n : Fin 9, quad9GradOp tiny x p n c * φ n) * deriv (fun s => map2 x c s (p 1)) (p 0) ∧
    deriv (fun t => map2 (fun n (_ : Fin 1) => φ n) 0 (p 0) t) (p 1)
        = ∑ c, (∑ n : Fin 9, quad9GradOp tiny x p n c * φ n) * deriv (fun t => map2 x c (p 0) t) (p 1) := by
  have ds : ∀ {e : ℕ} (y : ℕ → Fin e → ℝ) (c : Fin e), deriv (fun s => map2 y c s (p 1)) (p 0) = ∑ n : Fin 9, quad9Deriv (p 0) (p 1) n 0 * y n c := by
    intro e y c
    rw [((map2_quad_s y c (p 1)).hasDerivAt (p 0)).deriv, ← tangent9_s, tangent, ← sumFin 9 fun n => quad9Deriv (p 0) (p 1) n 0 * y n c]
  have dt : ∀ {e : ℕ} (y : ℕ → Fin e → ℝ) (c : Fin e), deriv (fun t => map2 y c (p 0) t) (p 1) = ∑ n : Fin 9, quad9Deriv (p 0) (p 1) n 1 * y n c := by
    intro e y c
    rw [((map2_quad_t y c (p 0)).hasDerivAt (p 1)).deriv, ← tangent9_t, tangent, ← sumFin 9 fun n => quad9Deriv (p 0) (p 1) n 1 * y n c]
  simp only [jac2, ds, dt] at hd
  simp only [ds, dt, Fin.sum_univ_two]
  simp only [quad9GradOp, Verif.Shape.quadGradOp]
  generalize hA : (∑ n : Fin 9, quad9Deriv (p 0) (p 1) n 0 * x n 0) = A at *
  generalize hB : (∑ n : Fin 9, quad9Deriv (p 0) (p 1) n 1 * x n 0) = B at *
  generalize hC : (∑ n : Fin 9, quad9Deriv (p 0) (p 1) n 0 * x n 1) = C at *
  generalize hD : (∑ n : Fin 9, quad9Deriv (p 0) (p 1) n 1 * x n 1) = D at *
  have hd' : tiny < A * D - C * B := by linarith
  have hne : A * D - C * B ≠ 0 := by linarith [h0, hd', lt_of_le_of_lt h0 hd'] |> fun h : 0 < A * D - C * B => h.ne'
  simp only [hd', if_true, Matrix.cons_val_zero, Matrix.cons_val_one]
  set R := 1 / (A * D - C * B) with hR
  have hR1 : R * (A * D - C * B) = 1 := by rw [hR]; field_simp
  have e0 : ∑ n : Fin 9, (quad9Deriv (p 0) (p 1) n 0 * (R * D) + quad9Deriv (p 0) (p 1) n 1 * (-R * C)) * φ n
      = R * D * (∑ n : Fin 9, quad9Deriv (p 0) (p 1) n 0 * φ n) - R * C * ∑ n : Fin 9, quad9Deriv (p 0) (p 1) n 1 * φ n := by
    rw [Finset.mul_sum, Finset.mul_sum, ← Finset.sum_sub_distrib]; exact Finset.sum_congr rfl fun n _ => by ring
  have e1 : ∑ n : Fin 9, (quad9Deriv (p 0) (p 1) n 0 * (-R * B) + quad9Deriv (p 0) (p 1) n 1 * (R * A)) * φ n
      = -(R * B) * (∑ n : Fin 9, quad9Deriv (p 0) (p 1) n 0 * φ n) + R * A * ∑ n : Fin 9, quad9Deriv (p 0) (p 1) n 1 * φ n := by
    rw [Finset.mul_sum, Finset.mul_sum, ← Finset.sum_add_distrib]; exact Finset.sum_congr rfl fun n _ => by ring
  rw [e0, e1]
  constructor
  · linear_combination -(∑ n : Fin 9, quad9Deriv (p 0) (p 1) n 0 * φ n) * hR1
  · linear_combination -(∑ n : Fin 9, quad9Deriv (p 0) (p 1) n 1 * φ n) * hR1

/-- Linear fields have their exact gradient. -/
theorem c200_quad_linear {tiny : ℝ} (h0 : 0 ≤ tiny) (x : ℕ → Fin 2 → ℝ) (p : Fin 2 → ℝ) (hd : tiny < jac2 x (p 0) (p 1)) (a : ℝ) (b : Fin 2 → ℝ) (c : Fin 2) :
    ∑ n : Fin 9, quad9GradOp tiny x p n c * (a + ∑ c', b c' * x n c') = b c := by
  obtain ⟨hs, ht⟩ := c200_quad_chain_rule h0 x p hd fun n => a + ∑ c', b c' * x n c'
  have pu : ∀ s t : ℝ, ∑ n ∈ range 9, ell (ref2 n).1 s * ell (ref2 n).2 t = 1 := fun s t => by
    simp [sum_range_succ, ref2, ell]; ring
  have m : ∀ s t : ℝ, map2 (fun n (_ : Fin 1) => a + ∑ c', b c' * x n c') 0 s t = a + ∑ c', b c' * map2 x c' s t := by
    intro s t
    have e : ∀ n : ℕ, ell (ref2 n).1 s * ell (ref2 n).2 t * (a + ∑ c', b c' * x n c')
        = a * (ell (ref2 n).1 s * ell (ref2 n).2 t) + ∑ c', b c' * (ell (ref2 n).1 s * ell (ref2 n).2 t * x n c') := fun n => by
      simp only [Fin.sum_univ_two]; ring
    simp only [map2, e, Finset.sum_add_distrib, ← Finset.mul_sum, pu, mul_one]
    rw [Finset.sum_comm]
    simp only [← Finset.mul_sum]
  have qs := fun c => (map2_quad_s x c (p 1)).hasDerivAt (p 0)
  have qt := fun c => (map2_quad_t x c (p 0)).hasDerivAt (p 1)
  simp only [m] at hs ht
  simp only [Fin.sum_univ_two] at hs ht
  have d1 : HasDerivAt (fun s => a + (b 0 * map2 x 0 s (p 1) + b 1 * map2 x 1 s (p 1))) (b 0 * map2s x 0 (p 0) (p 1) + b 1 * map2s x 1 (p 0) (p 1)) (p 0) :=
    (((qs 0).const_mul _).add ((qs 1).const_mul _)).const_add a
  have d2 : HasDerivAt (fun t => a + (b 0 * map2 x 0 (p 0) t + b 1 * map2 x 1 (p 0) t)) (b 0 * map2t x 0 (p 0) (p 1) + b 1 * map2t x 1 (p 0) (p 1)) (p 1) :=
    (((qt 0).const_mul _).add ((qt 1).const_mul _)).const_add a
  rw [d1.deriv, (qs 0).deriv, (qs 1).deriv] at hs
  rw [d2.deriv, (qt 0).deriv, (qt 1).deriv] at ht
  rw [jac2_eq] at hd
  have hboth : (∑ n : Fin 9, quad9GradOp tiny x p n 0 * (a + (b 0 * x n 0 + b 1 * x n 1))) = b 0 ∧
      (∑ n : Fin 9, quad9GradOp tiny x p n 1 * (a + (b 0 * x n 0 + b 1 * x n 1))) = b 1 := by
    generalize (∑ n : Fin 9, quad9GradOp tiny x p n 0 * (a + (b 0 * x n 0 + b 1 * x n 1))) = G at *
    generalize (∑ n : Fin 9, quad9GradOp tiny x p n 1 * (a + (b 0 * x n 0 + b 1 * x n 1))) = H at *
    generalize map2s x 0 (p 0) (p 1) = A at *
    generalize map2s x 1 (p 0) (p 1) = C at *
    generalize map2t x 0 (p 0) (p 1) = B at *
    generalize map2t x 1 (p 0) (p 1) = D at *
    have hne : A * D - B * C ≠ 0 := (lt_of_le_of_lt h0 hd).ne'
    constructor
    · refine mul_left_cancel₀ hne ?_
      linear_combination C * ht - D * hs
    · refine mul_left_cancel₀ hne ?_
      linear_combination B * hs - A * ht
  simp only [Fin.sum_univ_two]
  fin_cases c
  · exact hboth.1
  · exact hboth.2

/-- The gradient operator of the hexahedron: the chain rule in every reference direction. -/
theorem c200_hex_chain_rule (x : ℕ → Fin 3 → ℝ) (p : Fin 3 → ℝ) (hd : jac3 x (p 0) (p 1) (p 2) ≠ 0) (φ : ℕ → ℝ) (r : Fin 3) :
    dmap3 (fun n _ => φ n) r 0 (p 0) (p 1) (p 2)
      = ∑ c, (∑ n ∈ range 27, hex27GradOp x p n c * φ n) * dmap3 x r c (p 0) (p 1) (p 2) := by
  rw [← det3_eq] at hd
  simp only [← tangent27]
  have hφ : ∀ r, tangent 27 (hex27Deriv (p 0) (p 1) (p 2)) (fun n (_ : Fin 3) => φ n) r 0 = ∑ n ∈ range 27, hex27Deriv (p 0) (p 1) (p 2) n r * φ n := fun _ => rfl
  rw [hφ]
  simp only [hex27GradOp]
  set D := hex27Deriv (p 0) (p 1) (p 2) with hD
  set t := tangent 27 D x with ht
  have hR1 : 1 / det3 D x * det3 D x = 1 := by field_simp
  set R := 1 / det3 D x with hR
  rw [show det3 D x = t 0 0 * (t 1 1 * t 2 2 - t 1 2 * t 2 1) + t 0 1 * (t 1 2 * t 2 0 - t 1 0 * t 2 2) + t 0 2 * (t 1 0 * t 2 1 - t 1 1 * t 2 0) from rfl] at hR1
  have e : ∀ a b c : ℝ, ∑ n ∈ range 27, (D n 0 * a + D n 1 * b + D n 2 * c) * φ n
      = a * (∑ n ∈ range 27, D n 0 * φ n) + b * (∑ n ∈ range 27, D n 1 * φ n) + c * ∑ n ∈ range 27, D n 2 * φ n := by
    intro a b c
    rw [Finset.mul_sum, Finset.mul_sum, Finset.mul_sum, ← Finset.sum_add_distrib, ← Finset.sum_add_distrib]
    exact Finset.sum_congr rfl fun n _ => by ring
  simp only [Fin.sum_univ_three, Matrix.cons_val_zero, Matrix.cons_val_one, Matrix.cons_val, e]
  fin_cases r <;> simp only [Fin.zero_eta, Fin.mk_one, Fin.reduceFinMk]
  · linear_combination -(∑ n ∈ range 27, D n 0 * φ n) * hR1
  · linear_combination -(∑ n ∈ range 27, D n 1 * φ n) * hR1
  · linear_combination -(∑ n ∈ range 27, D n 2 * φ n) * hR1

/-- Linear fields have their exact gradient on the hexahedron. -/
theorem c200_hex_linear (x : ℕ → Fin 3 → ℝ) (p : Fin 3 → ℝ) (hd : jac3 x (p 0) (p 1) (p 2) ≠ 0) (a : ℝ) (b : Fin 3 → ℝ) (c : Fin 3) :
    ∑ n ∈ range 27, hex27GradOp x p n c * (a + ∑ c', b c' * x n c') = b c := by
  have h := c200_hex_chain_rule x p hd fun n => a + ∑ c', b c' * x n c'
  have pu : ∀ r : Fin 3, ∑ n ∈ range 27, hex27Deriv (p 0) (p 1) (p 2) n r = 0 := by
    intro r
    have := tangent27 (fun _ _ => 1) r 0 (p 0) (p 1) (p 2)
    simp only [tangent, mul_one] at this
    rw [this]
    have e : ∀ s t u : ℝ, map3 (fun _ _ => 1) 0 s t u = 1 := fun s t u => by
      rw [m3_triquad (fun i j k => if i = 0 ∧ j = 0 ∧ k = 0 then 1 else 0) s t u _ 0 fun n _ => by simp [triquad, sum_range_succ]]
      simp [triquad, sum_range_succ]
    fin_cases r <;> simp [dmap3, e]
  have m : ∀ r : Fin 3, dmap3 (fun n _ => a + ∑ c', b c' * x n c') r 0 (p 0) (p 1) (p 2) = ∑ c', b c' * dmap3 x r c' (p 0) (p 1) (p 2) := by
    intro r
    simp only [← tangent27, tangent]
    have e : ∀ n : ℕ, hex27Deriv (p 0) (p 1) (p 2) n r * (a + ∑ c', b c' * x n c')
        = a * hex27Deriv (p 0) (p 1) (p 2) n r + ∑ c', b c' * (hex27Deriv (p 0) (p 1) (p 2) n r * x n c') := fun n => by
      simp only [Fin.sum_univ_three]; ring
    simp only [e, Finset.sum_add_distrib, ← Finset.mul_sum, pu, mul_zero, zero_add]
    rw [Finset.sum_comm]
    simp only [← Finset.mul_sum]
  simp only [m] at h
  have hm : (Matrix.of fun r c : Fin 3 => dmap3 x r c (p 0) (p 1) (p 2)).mulVec (fun c => (∑ n ∈ range 27, hex27GradOp x p n c * (a + ∑ c', b c' * x n c')) - b c) = 0 := by
    funext r
    have := h r
    simp only [Matrix.mulVec, dotProduct, Matrix.of_apply, Pi.zero_apply, mul_sub, Finset.sum_sub_distrib]
    rw [sub_eq_zero]
    simp only [mul_comm (dmap3 x r _ _ _ _)]
    exact this.symm
  have := Matrix.eq_zero_of_mulVec_eq_zero hd hm
  exact sub_eq_zero.1 (congrFun this c)

/-! ## C206: gradients at the volume points of the quadrilateral -/

/-- At the first 24 of the 36 volume points the gradient of a linear field is exact. -/
theorem c206_first_points_partial {tiny : ℝ} (h0 : 0 ≤ tiny) (x : ℕ → Fin 2 → ℝ) (old : ℕ → Fin 9 → Fin 2 → ℝ) {ip : ℕ} (hip : ip < 24) :
    ∃ p, quad9ScvIps[ip]? = some p ∧ (tiny < jac2 x (p.loc 0) (p.loc 1) → ∀ (a : ℝ) (b : Fin 2 → ℝ) (c : Fin 2),
      ∑ n : Fin 9, quad9ScvGradOp tiny x old ip n c * (a + ∑ c', b c' * x n c') = b c) := by
  have hl : quad9ScvIps.length = 36 := rfl
  have h : quad9ScvIps[ip]? = some quad9ScvIps[ip] := List.getElem?_eq_getElem (by omega)
  refine ⟨_, h, fun hd a b c => ?_⟩
  have e : quad9ScvGradOp tiny x old ip = quad9GradOp tiny x quad9ScvIps[ip].loc := by
    rw [quad9ScvGradOp, if_pos (show ip < quad9ScsIps.length from hip), h]
  rw [e]
  exact c200_quad_linear h0 x _ hd a b c

/-- The other twelve keep whatever was in the array. -/
theorem c206_last_points_counterexample (tiny : ℝ) (x : ℕ → Fin 2 → ℝ) (old : ℕ → Fin 9 → Fin 2 → ℝ) {ip : ℕ} (h1 : 24 ≤ ip) :
    quad9ScvIps.length = 36 ∧ quad9ScvGradOp tiny x old ip = old ip := by
  refine ⟨rfl, ?_⟩
  rw [quad9ScvGradOp, if_neg]
  show ¬ip < 24
  omega

/-! ## C201: areas of the hexahedron -/

/-- Around every node the area vectors of the sub-control surfaces and of the boundary faces (each face point counted for the node the element assigns to
it) add up to zero, for every curved hexahedron. -/
theorem c201_closed (x : ℕ → Fin 3 → ℝ) {n : ℕ} (hn : n < 27) (c : Fin 3) :
    (hex27ScsIps.map fun ip => if ip.left = n then hex27AreaVec x ip c else 0).sum
      - (hex27ScsIps.map fun ip => if ip.right = n then hex27AreaVec x ip c else 0).sum
      + ∑ side ∈ range 6, ((face9Ips.zip ((hex27FaceIps side).map FaceIp.node)).map fun e =>
          if e.2 = n then face9AreaVec (fun k => x ((hexSideNodes side).getD k 0)) e.1 c else 0).sum = 0 := hex27_closure x hn c

/-- The area vectors are not all zero, and they point from the left node to the right one: on the reference cube every one is positive in the direction
from left to right. -/
theorem c201_orientation {ip : ScsIp 3} (h : ip ∈ hex27ScsIps) :
    ∃ d : Fin 3, ip.dir = d ∧ 0 < (![(ref3 ip.right).1, (ref3 ip.right).2.1, (ref3 ip.right).2.2] d - ![(ref3 ip.left).1, (ref3 ip.left).2.1, (ref3 ip.left).2.2] d : ℤ)
      * hex27AreaVec (fun n => ![((ref3 n).1 : ℝ), ((ref3 n).2.1 : ℝ), ((ref3 n).2.2 : ℝ)]) ip d := by
  have map : ∀ s t u : ℝ, map3 (fun n => ![((ref3 n).1 : ℝ), ((ref3 n).2.1 : ℝ), ((ref3 n).2.2 : ℝ)]) 0 s t u = s ∧
      map3 (fun n => ![((ref3 n).1 : ℝ), ((ref3 n).2.1 : ℝ), ((ref3 n).2.2 : ℝ)]) 1 s t u = t ∧
      map3 (fun n => ![((ref3 n).1 : ℝ), ((ref3 n).2.1 : ℝ), ((ref3 n).2.2 : ℝ)]) 2 s t u = u := by
    intro s t u
    refine ⟨?_, ?_, ?_⟩
    · rw [m3_triquad (fun i j k => if i = 1 ∧ j = 0 ∧ k = 0 then 1 else 0) s t u _ 0 fun n _ => by simp [triquad, sum_range_succ]]
      simp [triquad, sum_range_succ]
    · rw [m3_triquad (fun i j k => if i = 0 ∧ j = 1 ∧ k = 0 then 1 else 0) s t u _ 1 fun n _ => by simp [triquad, sum_range_succ]]
      simp [triquad, sum_range_succ]
    · rw [m3_triquad (fun i j k => if i = 0 ∧ j = 0 ∧ k = 1 then 1 else 0) s t u _ 2 fun n _ => by simp [triquad, sum_range_succ]]
      simp [triquad, sum_range_succ]
  have tan : ∀ (s t u : ℝ) (r c : Fin 3), tangent 27 (hex27Deriv s t u) (fun n => ![((ref3 n).1 : ℝ), ((ref3 n).2.1 : ℝ), ((ref3 n).2.2 : ℝ)]) r c = if r = c then 1 else 0 := by
    intro s t u r c
    rw [tangent27]
    fin_cases r <;> fin_cases c <;> simp [dmap3, map]
  have w : ∀ k l i j, k < 3 → l < 3 → 0 < areaWt k l i j := fun k l i j hk hl => by
    rw [areaWt_eq]; exact mul_pos (c196_points_inside hk).2.2 (c196_points_inside hl).2.2
  simp only [hex27ScsIps, hex27UIps, hex27TIps, hex27SIps, List.mem_append, List.mem_flatMap, List.mem_map, List.mem_range] at h
  rcases h with (⟨m, hm, l, hl, k, hk, j, hj, i, hi, rfl⟩ | ⟨m, hm, l, hl, k, hk, j, hj, i, hi, rfl⟩) | ⟨m, hm, l, hl, k, hk, j, hj, i, hi, rfl⟩
  · refine ⟨2, rfl, ?_⟩
    interval_cases m <;> simp [hexNode_ref, hk, hl, hex27AreaVec, crossTan, tan, orientation, w]
  · refine ⟨1, rfl, ?_⟩
    interval_cases m <;> simp [hexNode_ref, hk, hl, hex27AreaVec, crossTan, tan, orientation, w]
  · refine ⟨0, rfl, ?_⟩
    interval_cases m <;> simp [hexNode_ref, hk, hl, hex27AreaVec, crossTan, tan, orientation, w]

/-! ## C202: maps of the hexahedron -/

theorem scsLoc_lo {m : ℕ} (hm : m < 2) : scsLoc m = lo (m : ℤ) := by
  interval_cases m <;> simp [scsLoc, lo, dist_inv]

/-- Every sub-control surface point lies between two nodes that are neighbours in its direction, on the common boundary of their volumes. -/
theorem c202_neighbours {ip : ScsIp 3} (h : ip ∈ hex27ScsIps) :
    ∃ d : Fin 3, ip.dir = d ∧ ∃ m : ℕ, m < 2 ∧ ![(ref3 ip.left).1, (ref3 ip.left).2.1, (ref3 ip.left).2.2] d = 2 * (m : ℤ) - 1 ∧
      ![(ref3 ip.right).1, (ref3 ip.right).2.1, (ref3 ip.right).2.2] d = 0 ∧ ip.loc d = lo (m : ℤ) ∧
      ∀ o : Fin 3, o ≠ d → ∃ l : ℕ, l < 3 ∧ ![(ref3 ip.left).1, (ref3 ip.left).2.1, (ref3 ip.left).2.2] o = (l : ℤ) - 1 ∧
        ![(ref3 ip.right).1, (ref3 ip.right).2.1, (ref3 ip.right).2.2] o = (l : ℤ) - 1 ∧ lo ((l : ℤ) - 1) < ip.loc o ∧ ip.loc o < hi ((l : ℤ) - 1) := by
  simp only [hex27ScsIps, hex27UIps, hex27TIps, hex27SIps, List.mem_append, List.mem_flatMap, List.mem_map, List.mem_range] at h
  rcases h with (⟨m, hm, l, hl, k, hk, j, hj, i, hi, rfl⟩ | ⟨m, hm, l, hl, k, hk, j, hj, i, hi, rfl⟩) | ⟨m, hm, l, hl, k, hk, j, hj, i, hi, rfl⟩
  · refine ⟨2, rfl, m, hm, ?_, ?_, scsLoc_lo hm, fun o ho => ?_⟩
    · interval_cases m <;> simp [hexNode_ref, hk, hl]
    · interval_cases m <;> simp [hexNode_ref, hk, hl]
    · fin_cases o
      · refine ⟨k, hk, ?_, ?_, (c196_points_inside hk).1, (c196_points_inside hk).2.1⟩ <;> interval_cases m <;> simp [hexNode_ref, hk, hl]
      · refine ⟨l, hl, ?_, ?_, (c196_points_inside hl).1, (c196_points_inside hl).2.1⟩ <;> interval_cases m <;> simp [hexNode_ref, hk, hl]
      · exact absurd rfl ho
  · refine ⟨1, rfl, m, hm, ?_, ?_, scsLoc_lo hm, fun o ho => ?_⟩
    · interval_cases m <;> simp [hexNode_ref, hk, hl]
    · interval_cases m <;> simp [hexNode_ref, hk, hl]
    · fin_cases o
      · refine ⟨k, hk, ?_, ?_, (c196_points_inside hk).1, (c196_points_inside hk).2.1⟩ <;> interval_cases m <;> simp [hexNode_ref, hk, hl]
      · exact absurd rfl ho
      · refine ⟨l, hl, ?_, ?_, (c196_points_inside hl).1, (c196_points_inside hl).2.1⟩ <;> interval_cases m <;> simp [hexNode_ref, hk, hl]
  · refine ⟨0, rfl, m, hm, ?_, ?_, scsLoc_lo hm, fun o ho => ?_⟩
    · interval_cases m <;> simp [hexNode_ref, hk, hl]
    · interval_cases m <;> simp [hexNode_ref, hk, hl]
    · fin_cases o
      · exact absurd rfl ho
      · refine ⟨k, hk, ?_, ?_, (c196_points_inside hk).1, (c196_points_inside hk).2.1⟩ <;> interval_cases m <;> simp [hexNode_ref, hk, hl]
      · refine ⟨l, hl, ?_, ?_, (c196_points_inside hl).1, (c196_points_inside hl).2.1⟩ <;> interval_cases m <;> simp [hexNode_ref, hk, hl]

/-- The sub-control surface point behind the point `(k,l,i,j)` of a face. -/
theorem opp_point {k l i j : ℕ} (hk : k < 3) (hl : l < 3) (hi : i < 2) (hj : j < 2) :
    hex27ScsIps[oppFaceMap k l i j 0]? = some (tIp3 0 l k j i) ∧ hex27ScsIps[oppFaceMap k l i j 1]? = some (sIp3 1 l k j i) ∧
    hex27ScsIps[oppFaceMap k l i j 2]? = some (tIp3 1 l k j i) ∧ hex27ScsIps[oppFaceMap k l i j 3]? = some (sIp3 0 l k j i) ∧
    hex27ScsIps[oppFaceMap k l i j 4]? = some (uIp3 0 l k j i) ∧ hex27ScsIps[oppFaceMap k l i j 5]? = some (uIp3 1 l k j i) := by
  interval_cases k <;> interval_cases l <;> interval_cases i <;> interval_cases j <;> exact ⟨rfl, rfl, rfl, rfl, rfl, rfl⟩

/-- The opposing point of a face point is the sub-control surface point straight behind it: from the face node to the opposing node. -/
theorem c202_opposing {side : ℕ} (hs : side < 6) {f : FaceIp 3} (hf : f ∈ hex27FaceIps side) :
    ∃ p, hex27ScsIps[f.oppFace]? = some p ∧ p.left = f.node ∧ p.right = f.oppNode ∧ ∃ d : Fin 3, p.dir = d ∧ (∀ o, o ≠ d → p.loc o = f.loc o) ∧
      |f.loc d| = 1 ∧ 0 < p.loc d * f.loc d := by
  have h0 := dist_pos
  interval_cases side
  all_goals
    simp only [hex27FaceIps, List.mem_flatMap, List.mem_map, List.mem_range, List.mem_cons, List.not_mem_nil, or_false] at hf
    obtain ⟨l, hl, k, hk, j, hj, i, hi, rfl⟩ := hf
  · have hp := (opp_point hk hl hi hj).1
    refine ⟨_, hp, ?_, ?_, 1, rfl, ?_, by simp [hexFaceLoc], by simp [hexFaceLoc, tIp3, scsLoc, h0]⟩
    · interval_cases k <;> interval_cases l <;> rfl
    · rfl
    · intro o ho
      fin_cases o <;> simp_all [hex27Loc, tIp3]
  · have hp := (opp_point hk hl hi hj).2.1
    refine ⟨_, hp, ?_, ?_, 0, rfl, ?_, by simp [hexFaceLoc], by simp [hexFaceLoc, sIp3, scsLoc, h0]⟩
    · interval_cases k <;> interval_cases l <;> rfl
    · rfl
    · intro o ho
      fin_cases o <;> simp_all [hex27Loc, sIp3]
  · have hk : k < 3 := by omega
    have hi : i < 2 := by omega
    have hp := (opp_point hk hl hi hj).2.2.1
    refine ⟨_, hp, ?_, ?_, 1, rfl, ?_, by simp [hexFaceLoc], by simp [hexFaceLoc, tIp3, scsLoc, h0]⟩
    · interval_cases k <;> interval_cases l <;> rfl
    · rfl
    · intro o ho
      fin_cases o <;> simp_all [hex27Loc, tIp3]
  · have hp := (opp_point hl hk hj hi).2.2.2.1
    refine ⟨_, hp, ?_, ?_, 0, rfl, ?_, by simp [hexFaceLoc], by simp [hexFaceLoc, sIp3, scsLoc, h0]⟩
    · interval_cases k <;> interval_cases l <;> rfl
    · rfl
    · intro o ho
      fin_cases o <;> simp_all [hex27Loc, sIp3]
  · have hp := (opp_point hl hk hj hi).2.2.2.2.1
    refine ⟨_, hp, ?_, ?_, 2, rfl, ?_, by simp [hexFaceLoc], by simp [hexFaceLoc, uIp3, scsLoc, h0]⟩
    · interval_cases k <;> interval_cases l <;> rfl
    · rfl
    · intro o ho
      fin_cases o <;> simp_all [hex27Loc, uIp3]
  · have hp := (opp_point hk hl hi hj).2.2.2.2.2
    refine ⟨_, hp, ?_, ?_, 2, rfl, ?_, by simp [hexFaceLoc], by simp [hexFaceLoc, uIp3, scsLoc, h0]⟩
    · interval_cases k <;> interval_cases l <;> rfl
    · rfl
    · intro o ho
      fin_cases o <;> simp_all [hex27Loc, uIp3]

/-- The points the hexahedron keeps for its face are those of the face element, in the same order, and so are the nodes. -/
theorem c202_faces_match {side : ℕ} (hs : side < 6) :
    (hex27FaceIps side).map (fun f => some f.loc) = face9Ips.map (fun e => hexSide side e.loc) ∧
    (hex27FaceIps side).map FaceIp.node = face9Ips.map fun e => (hexSideNodes side).getD e.node 0 := by
  have loc : ∀ k < 3, ∀ l < 3, ∀ i < 2, ∀ j < 2, ∀ c, hex27Loc (oppFaceMap k l i j 0) c = (tIp3 0 l k j i).loc c ∧
      hex27Loc (oppFaceMap k l i j 1) c = (sIp3 1 l k j i).loc c ∧ hex27Loc (oppFaceMap k l i j 2) c = (tIp3 1 l k j i).loc c ∧
      hex27Loc (oppFaceMap k l i j 3) c = (sIp3 0 l k j i).loc c ∧ hex27Loc (oppFaceMap k l i j 4) c = (uIp3 0 l k j i).loc c ∧
      hex27Loc (oppFaceMap k l i j 5) c = (uIp3 1 l k j i).loc c := by
    intro k hk l hl i hi j hj c
    obtain ⟨h0, h1, h2, h3, h4, h5⟩ := opp_point hk hl hi hj
    simp [hex27Loc, h0, h1, h2, h3, h4, h5]
  refine ⟨?_, by interval_cases side <;> rfl⟩
  interval_cases side
  · simp only [hex27FaceIps, face9Ips, List.map_flatMap, List.map_map]
    refine List.flatMap_congr fun l hl => List.flatMap_congr fun k hk => List.flatMap_congr fun j hj => List.map_congr_left fun i hi => ?_
    rw [List.mem_range] at hl hk hj hi
    simp [hexSide, loc k hk l hl i hi j hj, tIp3, hexFaceLoc]
  · simp only [hex27FaceIps, face9Ips, List.map_flatMap, List.map_map]
    refine List.flatMap_congr fun l hl => List.flatMap_congr fun k hk => List.flatMap_congr fun j hj => List.map_congr_left fun i hi => ?_
    rw [List.mem_range] at hl hk hj hi
    simp [hexSide, loc k hk l hl i hi j hj, sIp3, hexFaceLoc]
  · have e : ∀ {α : Type} (f : ℕ → List α), [2, 1, 0].flatMap f = (List.range 3).flatMap fun k => f (2 - k) := fun _ => rfl
    have e' : ∀ {α : Type} (f : ℕ → α), [1, 0].map f = (List.range 2).map fun k => f (1 - k) := fun _ => rfl
    simp only [hex27FaceIps, face9Ips, List.map_flatMap, List.map_map, e, e']
    refine List.flatMap_congr fun l hl => List.flatMap_congr fun k hk => List.flatMap_congr fun j hj => List.map_congr_left fun i hi => ?_
    rw [List.mem_range] at hl hk hj hi
    simp [hexSide, loc (2 - k) (by omega) l hl (1 - i) (by omega) j hj, tIp3, hexFaceLoc, gaussLoc_reflect hk hi]
  · simp only [hex27FaceIps, face9Ips, List.map_flatMap, List.map_map]
    refine List.flatMap_congr fun l hl => List.flatMap_congr fun k hk => List.flatMap_congr fun j hj => List.map_congr_left fun i hi => ?_
    rw [List.mem_range] at hl hk hj hi
    simp [hexSide, loc l hl k hk j hj i hi, sIp3, hexFaceLoc]
  · simp only [hex27FaceIps, face9Ips, List.map_flatMap, List.map_map]
    refine List.flatMap_congr fun l hl => List.flatMap_congr fun k hk => List.flatMap_congr fun j hj => List.map_congr_left fun i hi => ?_
    rw [List.mem_range] at hl hk hj hi
    simp [hexSide, loc l hl k hk j hj i hi, uIp3, hexFaceLoc]
  · simp only [hex27FaceIps, face9Ips, List.map_flatMap, List.map_map]
    refine List.flatMap_congr fun l hl => List.flatMap_congr fun k hk => List.flatMap_congr fun j hj => List.map_congr_left fun i hi => ?_
    rw [List.mem_range] at hl hk hj hi
    simp [hexSide, loc k hk l hl i hi j hj, uIp3, hexFaceLoc]

/-! ## C203: volumes of the hexahedron -/

/-- For an element with trilinear geometry (mid-edge, mid-face and centre nodes where the corners put them), the volumes a node receives add up to the
volume of its part of the element.  Missing: curved elements (see the counterexample). -/
theorem c203_straight_partial {x : ℕ → Fin 3 → ℝ} {a : Fin 3 → ℕ → ℕ → ℕ → ℝ}
    (hx : ∀ n < 27, ∀ c, x n c = trilin (a c) ((ref3 n).1 : ℝ) ((ref3 n).2.1 : ℝ) ((ref3 n).2.2 : ℝ)) {n : ℕ} (hn : n < 27) :
    (hex27ScvIps.map fun ip => if ip.node = n then hex27Vol x ip else 0).sum
      = ∫ u in lo (ref3 n).2.2..hi (ref3 n).2.2, ∫ t in lo (ref3 n).2.1..hi (ref3 n).2.1, ∫ s in lo (ref3 n).1..hi (ref3 n).1, jac3 x s t u :=
  hex27_node_vol (jac3_cubic hx).1 (jac3_cubic hx).2.1 (jac3_cubic hx).2.2 hn

/-- A curved element, `(s, t(1+s²), u(1+s²))`: the volumes do not add up to its volume. -/
theorem c203_curved_counterexample :
    (∀ s t u, map3 barrel 0 s t u = s ∧ map3 barrel 1 s t u = t * (1 + s ^ 2) ∧ map3 barrel 2 s t u = u * (1 + s ^ 2)) ∧
    (∀ s t u, 0 < jac3 barrel s t u) ∧
    (hex27ScvIps.map (hex27Vol barrel)).sum < ∫ u in (-1 : ℝ)..1, ∫ t in (-1 : ℝ)..1, ∫ s in (-1 : ℝ)..1, jac3 barrel s t u := by
  refine ⟨barrel_map, fun s t u => by rw [barrel_jac]; positivity, ?_⟩
  rw [barrel_exact, barrel_rule]
  have h1 : 0 < 1 - scsDist := by linarith [dist_lt_one]
  have h2 := dist_pos
  have : 0 < (2 * (1 - scsDist) ^ 5 + (2 * scsDist) ^ 5) / 45 := by positivity
  linarith

/-- The hypothesis of `c203_straight_partial` for the unit cube. -/
example : ∀ n < 27, ∀ c : Fin 3, (fun n => ![((ref3 n).1 : ℝ), ((ref3 n).2.1 : ℝ), ((ref3 n).2.2 : ℝ)]) n c
    = trilin ((![fun i j k => if i = 1 ∧ j = 0 ∧ k = 0 then 1 else 0, fun i j k => if i = 0 ∧ j = 1 ∧ k = 0 then 1 else 0,
        fun i j k => if i = 0 ∧ j = 0 ∧ k = 1 then 1 else 0] : Fin 3 → ℕ → ℕ → ℕ → ℝ) c) ((ref3 n).1 : ℝ) ((ref3 n).2.1 : ℝ) ((ref3 n).2.2 : ℝ) := by
  intro n _ c
  fin_cases c <;> simp [trilin, sum_range_succ]

end Nalu.P2
