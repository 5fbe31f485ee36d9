import Verif.Proofs.Quadratic2DArea
import Verif.Proofs.Quadratic3DArea
import Verif.Proofs.Quadratic3DVol
import Verif.Props.ShapeFunctions

/-!
# Quadratic elements: shape functions, quadrature, volumes, areas, maps, gradients (C195–C205)
-/

open Finset

namespace Nalu.P2
open Spec

/-! ## C195: shape functions -/

/-- Every shape function is one at its node and zero at the others. -/
theorem c195_one_at_own_node :
    (∀ n < 3, ∀ m < 3, edge3Shape (ref1 m) n = if m = n then 1 else 0) ∧
    (∀ n < 9, ∀ m < 9, quad9Shape (ref2 m).1 (ref2 m).2 n = (if m = n then 1 else 0) ∧ face9Shape (ref2 m).1 (ref2 m).2 n = if m = n then 1 else 0) ∧
    ∀ n < 27, ∀ m < 27, hex27Shape (ref3 m).1 (ref3 m).2.1 (ref3 m).2.2 n = if m = n then 1 else 0 := by
  have e : ∀ a b : ℤ, (a = -1 ∨ a = 0 ∨ a = 1) → (b = -1 ∨ b = 0 ∨ b = 1) → ell a (b : ℝ) = if b = a then 1 else 0 := by
    rintro a b (rfl | rfl | rfl) (rfl | rfl | rfl) <;> norm_num [ell]
  have r1 : ∀ n < 3, (ref1 n = -1 ∨ ref1 n = 0 ∨ ref1 n = 1) := by decide
  have r2 : ∀ n < 9, ((ref2 n).1 = -1 ∨ (ref2 n).1 = 0 ∨ (ref2 n).1 = 1) ∧ ((ref2 n).2 = -1 ∨ (ref2 n).2 = 0 ∨ (ref2 n).2 = 1) := by decide
  have r3 : ∀ n < 27, ((ref3 n).1 = -1 ∨ (ref3 n).1 = 0 ∨ (ref3 n).1 = 1) ∧ ((ref3 n).2.1 = -1 ∨ (ref3 n).2.1 = 0 ∨ (ref3 n).2.1 = 1) ∧
      ((ref3 n).2.2 = -1 ∨ (ref3 n).2.2 = 0 ∨ (ref3 n).2.2 = 1) := by decide
  have i1 : ∀ n < 3, ∀ m < 3, (ref1 m = ref1 n ↔ m = n) := by decide
  have i2 : ∀ n < 9, ∀ m < 9, ((ref2 m).1 = (ref2 n).1 ∧ (ref2 m).2 = (ref2 n).2 ↔ m = n) := by decide
  have i3 : ∀ n < 27, ∀ m < 27, ((ref3 m).1 = (ref3 n).1 ∧ (ref3 m).2.1 = (ref3 n).2.1 ∧ (ref3 m).2.2 = (ref3 n).2.2 ↔ m = n) := by decide +kernel
  have a2 : ∀ (p q : Prop) [Decidable p] [Decidable q], (if p then (1 : ℝ) else 0) * (if q then 1 else 0) = if p ∧ q then 1 else 0 := by
    intro p q _ _; split_ifs <;> simp_all
  refine ⟨fun n hn m hm => ?_, fun n hn m hm => ?_, fun n hn m hm => ?_⟩
  · rw [edge3Shape_eq hn, e _ _ (r1 n hn) (r1 m hm)]
    exact if_congr (i1 n hn m hm) rfl rfl
  · rw [quad9Shape_eq hn, face9Shape_eq hn, e _ _ (r2 n hn).1 (r2 m hm).1, e _ _ (r2 n hn).2 (r2 m hm).2, a2]
    exact ⟨if_congr (i2 n hn m hm) rfl rfl, if_congr (i2 n hn m hm) rfl rfl⟩
  · rw [hex27Shape_eq hn, e _ _ (r3 n hn).1 (r3 m hm).1, e _ _ (r3 n hn).2.1 (r3 m hm).2.1, e _ _ (r3 n hn).2.2 (r3 m hm).2.2, a2, a2]
    exact if_congr (by rw [and_assoc]; exact i3 n hn m hm) rfl rfl

/-- Interpolation reproduces every polynomial that is quadratic in each variable (in particular, the shape functions add up to one). -/
theorem c195_reproduces_quadratics :
    (∀ (a : ℕ → ℝ) (s : ℝ), interp 3 (edge3Shape s) (fun n => ∑ i ∈ range 3, a i * (ref1 n : ℝ) ^ i) = ∑ i ∈ range 3, a i * s ^ i) ∧
    (∀ (a : ℕ → ℕ → ℝ) (s t : ℝ), interp 9 (quad9Shape s t) (fun n => biquad a (ref2 n).1 (ref2 n).2) = biquad a s t ∧
      interp 9 (face9Shape s t) (fun n => biquad a (ref2 n).1 (ref2 n).2) = biquad a s t) ∧
    ∀ (a : ℕ → ℕ → ℕ → ℝ) (s t u : ℝ), interp 27 (hex27Shape s t u) (fun n => triquad a (ref3 n).1 (ref3 n).2.1 (ref3 n).2.2) = triquad a s t u := by
  refine ⟨fun a s => ?_, fun a s t => ?_, fun a s t u => ?_⟩
  · simp [interp, edge3Shape, ref1, sum_range_succ]; ring
  · have : interp 9 (quad9Shape s t) (fun n => biquad a (ref2 n).1 (ref2 n).2) = biquad a s t := by
      simp [interp, quad9Shape, ref2, sum_range_succ, biquad]; ring
    refine ⟨this, ?_⟩
    rw [← this]
    exact Finset.sum_congr rfl fun n hn => by rw [quad9Shape_eq (mem_range.1 hn), face9Shape_eq (mem_range.1 hn)]
  · rw [← m3_triquad a s t u (fun n _ => triquad a (ref3 n).1 (ref3 n).2.1 (ref3 n).2.2) 0 fun n _ => rfl]
    exact Finset.sum_congr rfl fun n hn => by rw [hex27Shape_eq (mem_range.1 hn)]

/-- The tabulated derivatives are the derivatives of the shape functions. -/
theorem c195_derivatives :
    (∀ n < 9, ∀ s t : ℝ, HasDerivAt (fun s => quad9Shape s t n) (quad9Deriv s t n 0) s ∧ HasDerivAt (fun t => quad9Shape s t n) (quad9Deriv s t n 1) t) ∧
    (∀ n < 9, ∀ s t : ℝ, HasDerivAt (fun s => face9Shape s t n) (face9Deriv s t n 0) s ∧ HasDerivAt (fun t => face9Shape s t n) (face9Deriv s t n 1) t) ∧
    ∀ n < 27, ∀ s t u : ℝ, HasDerivAt (fun s => hex27Shape s t u n) (hex27Deriv s t u n 0) s ∧
      HasDerivAt (fun t => hex27Shape s t u n) (hex27Deriv s t u n 1) t ∧ HasDerivAt (fun u => hex27Shape s t u n) (hex27Deriv s t u n 2) u := by
  refine ⟨fun n hn s t => ?_, fun n hn s t => ?_, fun n hn s t u => ?_⟩
  · simp only [quad9Shape_eq hn, quad9Deriv_eq hn]
    exact ⟨(ell_deriv _ s).mul_const _, (ell_deriv _ t).const_mul _⟩
  · simp only [face9Shape_eq hn, face9Deriv_eq hn]
    exact ⟨(ell_deriv _ s).mul_const _, (ell_deriv _ t).const_mul _⟩
  · simp only [hex27Shape_eq hn, hex27Deriv_eq hn]
    exact ⟨((ell_deriv _ s).mul_const _).mul_const _, ((ell_deriv _ t).const_mul _).mul_const _, (ell_deriv _ u).const_mul _⟩

/-- On a side an element interpolates like the side element with the nodes of that side. -/
theorem c195_sides (φ : ℕ → ℝ) :
    (∀ side < 4, ∀ q : ℝ, ∃ p, quadSide side q = some p ∧
      interp 9 (quad9Shape (p 0) (p 1)) φ = interp 3 (edge3Shape q) fun k => φ ((quadSideNodes side).getD k 0)) ∧
    (∀ side < 6, ∀ q : Fin 2 → ℝ, ∃ p, hexSide side q = some p ∧
      interp 27 (hex27Shape (p 0) (p 1) (p 2)) φ = interp 9 (face9Shape (q 0) (q 1)) fun k => φ ((hexSideNodes side).getD k 0)) := by
  constructor
  · intro side hs q
    interval_cases side
    all_goals
      refine ⟨_, rfl, ?_⟩
      simp [interp, quad9Shape, edge3Shape, sum_range_succ, quadSideNodes]
      ring
  · intro side hs q
    have h27 : ∀ s t u, interp 27 (hex27Shape s t u) φ = m3 ell ell ell (fun n _ => φ n) 0 s t u := fun s t u =>
      Finset.sum_congr rfl fun n hn => by rw [hex27Shape_eq (mem_range.1 hn)]
    have h9 : interp 9 (face9Shape (q 0) (q 1)) (fun k => φ ((hexSideNodes side).getD k 0))
        = ∑ n ∈ range 9, ell (ref2 n).1 (q 0) * ell (ref2 n).2 (q 1) * sideX (fun n (_ : Fin 3) => φ n) (hexSideNodes side) n 0 :=
      Finset.sum_congr rfl fun n hn => by rw [face9Shape_eq (mem_range.1 hn)]; rfl
    simp only [h27]
    rw [h9]
    interval_cases side
    · exact ⟨_, rfl, (trace0 ..).symm⟩
    · exact ⟨_, rfl, (trace1 ..).symm⟩
    · refine ⟨_, rfl, ?_⟩
      rw [trace2 ell ell ell _ _ _ _ 1 fun a h => ell_reflect _ a h, one_mul]; rfl
    · exact ⟨_, rfl, (trace3 ..).symm⟩
    · exact ⟨_, rfl, (trace4 ..).symm⟩
    · exact ⟨_, rfl, (trace5 ..).symm⟩

/-- Two neighbouring elements agree on the shared side, whatever the values at the other nodes. -/
theorem c195_sides_continuous (φ ψ : ℕ → ℝ) (side : ℕ) (hs : side < 6) (h : ∀ k < 9, φ ((hexSideNodes side).getD k 0) = ψ ((hexSideNodes side).getD k 0))
    (q : Fin 2 → ℝ) : ∃ p, hexSide side q = some p ∧ interp 27 (hex27Shape (p 0) (p 1) (p 2)) φ = interp 27 (hex27Shape (p 0) (p 1) (p 2)) ψ := by
  obtain ⟨p, hp, h1⟩ := (c195_sides φ).2 side hs q
  obtain ⟨p', hp', h2⟩ := (c195_sides ψ).2 side hs q
  rw [hp] at hp'
  obtain rfl := Option.some.inj hp'
  exact ⟨p, hp, by rw [h1, h2]; exact Finset.sum_congr rfl fun k hk => by simp only [h k (mem_range.1 hk)]⟩

/-! ## C196: quadrature -/

/-- The points lie strictly inside their sub-interval and the weights are positive. -/
theorem c196_points_inside {k i : ℕ} (hk : k < 3) :
    lo ((k : ℤ) - 1) < gaussLoc k i ∧ gaussLoc k i < hi ((k : ℤ) - 1) ∧ 0 < lineWt k i := by
  have h0 := dist_pos
  have h1 := dist_lt_one
  have e := lo_hi k hk
  rw [← e.1, ← e.2]
  have hab : scsEnd k < scsEnd (k + 1) := by
    interval_cases k <;> simp [scsEnd] <;> linarith
  simp only [gaussLoc, isoMap, gaussAbs_eq, lineWt, gaussWt_eq]
  generalize scsEnd k = a at *
  generalize scsEnd (k + 1) = b at *
  split_ifs <;> refine ⟨by nlinarith, by nlinarith, by linarith⟩

/-- Every sub-interval is integrated exactly up to degree three, and so is the whole reference interval. -/
theorem c196_exact_for_cubics (a : ℕ → ℝ) :
    (∀ k < 3, ∑ i ∈ range 2, lineWt k i * cubic a (gaussLoc k i) = ∫ s in lo ((k : ℤ) - 1)..hi ((k : ℤ) - 1), cubic a s) ∧
    ∑ k ∈ range 3, ∑ i ∈ range 2, lineWt k i * cubic a (gaussLoc k i) = ∫ s in (-1 : ℝ)..1, cubic a s := by
  constructor
  · intro k hk
    rw [← (lo_hi k hk).1, ← (lo_hi k hk).2, gauss_cubic]
  · simp only [gauss_cubic]
    exact IsCubic.integral_split ⟨a, fun _ => rfl⟩

/-- Degree four is not integrated exactly. -/
theorem c196_quartic_counterexample : ∑ i ∈ range 2, lineWt 1 i * gaussLoc 1 i ^ 4 ≠ ∫ s in lo 0..hi 0, s ^ 4 := by
  have e := lo_hi 1 (by norm_num)
  norm_num at e
  rw [← e.1, ← e.2, integral_pow]
  simp only [sum_range_succ, sum_range_zero, zero_add, lineWt, gaussLoc, isoMap, gaussAbs_eq, gaussWt_eq, scsEnd]
  simp only [if_true, one_ne_zero, if_false]
  have h := dist_sq
  have hp := dist_pos
  generalize scsDist = d at *
  have h2 : d ^ 2 = 1 / 3 := by rw [pow_two, h]
  have h5 : d ^ 5 = 1 / 9 * d := by rw [show d ^ 5 = (d ^ 2) ^ 2 * d by ring, h2]; norm_num
  have h9 : d ^ 9 = 1 / 81 * d := by rw [show d ^ 9 = (d ^ 2) ^ 4 * d by ring, h2]; norm_num
  intro hc
  ring_nf at hc
  rw [h5, h9] at hc
  linarith

/-- The weights of a boundary edge, face, quadrilateral and hexahedron add up to the measure of the reference element. -/
theorem c196_weights_total : (edge3Ips.map SideIp.weight).sum = 2 ∧ (face9Ips.map SideIp.weight).sum = 4 ∧
    (quad9ScvIps.map SideIp.weight).sum = 4 ∧ (hex27ScvIps.map SideIp.weight).sum = 8 := by
  refine ⟨?_, ?_, ?_, ?_⟩
  · simp only [edge3Ips, sum_flatMap_range, sum_map_range, sum_range_succ, sum_range_zero, zero_add, lineWt, gaussWt_eq, scsEnd]; ring
  · simp only [face9Ips, sum_flatMap_range, sum_map_range, sum_range_succ, sum_range_zero, zero_add, areaWt, gaussWt_eq, scsEnd]; ring
  · rw [quad9_scv_sum]
    simp only [sum_range_succ, sum_range_zero, zero_add, areaWt, gaussWt_eq, scsEnd]; ring
  · rw [hex27_scv_sum]
    simp only [sum_range_succ, sum_range_zero, zero_add, volWt, gaussWt_eq, scsEnd]; ring

/-- With shifted quadrature, every volume point of the quadrilateral is at its node. -/
theorem c196_shifted_points_at_nodes : quad9ScvShift = quad9ScvIps.map fun ip => ![((ref2 ip.node).1 : ℝ), ((ref2 ip.node).2 : ℝ)] := by
  have h : ∀ k < 3, ∀ i < 2, gaussLocShift k i = (((k : ℤ) - 1 : ℤ) : ℝ) := by
    intro k hk i hi
    interval_cases k <;> interval_cases i <;> simp [gaussLocShift]
  simp only [quad9ScvShift, quad9ScvIps, List.map_flatMap, List.map_map]
  refine List.flatMap_congr fun l hl => List.flatMap_congr fun k hk => List.flatMap_congr fun j hj => List.map_congr_left fun i hi => ?_
  rw [List.mem_range] at hl hk hj hi
  simp only [Function.comp, quadNode_ref hk hl, h k hk i hi, h l hl j hj]

/-! ## C197: volumes of the quadrilateral -/

/-- The volumes a node receives add up to the area of its part of the element (the integral of the Jacobian over it), for every curved quadrilateral. -/
theorem c197_node_volume (x : ℕ → Fin 2 → ℝ) {n : ℕ} (hn : n < 9) :
    (quad9ScvIps.map fun ip => if ip.node = n then quad9Vol x ip else 0).sum
      = ∫ t in lo (ref2 n).2..hi (ref2 n).2, ∫ s in lo (ref2 n).1..hi (ref2 n).1, jac2 x s t := quad9_node_vol x hn

/-- All volumes together are the area of the element. -/
theorem c197_element_volume (x : ℕ → Fin 2 → ℝ) :
    (quad9ScvIps.map (quad9Vol x)).sum = ∫ t in (-1 : ℝ)..1, ∫ s in (-1 : ℝ)..1, jac2 x s t := quad9_total_vol x

/-- The error flag is raised exactly when a Jacobian is below the threshold; an error reported before stays. -/
theorem c197_error_flag (tiny : ℝ) (x : ℕ → Fin 2 → ℝ) (error : Bool) :
    quad9VolError tiny x error = true ↔ error = true ∨ ∃ ip ∈ quad9ScvIps, jac2 x (ip.loc 0) (ip.loc 1) < tiny := by
  have g : ∀ (l : List (SideIp 2)) (e : Bool), (l.foldl (fun e ip => @ite _ (det2 (quad9Deriv (ip.loc 0) (ip.loc 1)) x < tiny) (Classical.propDecidable _) true e) e) = true
      ↔ e = true ∨ ∃ ip ∈ l, det2 (quad9Deriv (ip.loc 0) (ip.loc 1)) x < tiny := by
    intro l
    induction l with
    | nil => simp
    | cons a l ih =>
      intro e
      rw [List.foldl_cons, ih]
      simp only [List.mem_cons, exists_eq_or_imp]
      split_ifs with h
      · simp [h]
      · simp [h]
  have d : ∀ s t, det2 (quad9Deriv s t) x = jac2 x s t := fun s t => by rw [det2_eq, jac2_eq]; ring
  rw [quad9VolError, g]
  simp only [d]

/-! ## C198: areas of the quadrilateral -/

/-- The area vectors on each segment of the dual mesh add up to its chord, turned: pointing from the left to the right node. -/
theorem c198_segments (x : ℕ → Fin 2 → ℝ) {m l : ℕ} (hm : m < 2) (hl : l < 3) (c : Fin 2) :
    (quad9TIps.map fun ip => if ip.left = quadNode l (2 * m) ∧ ip.right = quadNode l 1 then quad9AreaVec x ip c else 0).sum
        = (if m = 0 then -1 else 1) * turn (fun c => map2 x c (hi ((l : ℤ) - 1)) (lo m) - map2 x c (lo ((l : ℤ) - 1)) (lo m)) c ∧
    (quad9SIps.map fun ip => if ip.left = quadNode (2 * m) l ∧ ip.right = quadNode 1 l then quad9AreaVec x ip c else 0).sum
        = (if m = 0 then 1 else -1) * turn (fun c => map2 x c (lo m) (hi ((l : ℤ) - 1)) - map2 x c (lo m) (lo ((l : ℤ) - 1))) c := by
  have em : ∀ m < 2, scsLoc m = lo (m : ℤ) := by
    intro m hm
    interval_cases m <;> simp [scsLoc, lo, dist_inv]
  have tl : ∀ m l j, (tIp m l j).left = if m = 0 then quadNode l m else quadNode l (m + 1) := fun _ _ _ => rfl
  have tr : ∀ m l j, (tIp m l j).right = if m = 0 then quadNode l (m + 1) else quadNode l m := fun _ _ _ => rfl
  have sl : ∀ m l j, (sIp m l j).left = if m = 0 then quadNode m l else quadNode (m + 1) l := fun _ _ _ => rfl
  have sr : ∀ m l j, (sIp m l j).right = if m = 0 then quadNode (m + 1) l else quadNode m l := fun _ _ _ => rfl
  rw [← em m hm, ← (lo_hi l hl).1, ← (lo_hi l hl).2]
  have ht : ∀ F : ScsIp 2 → ℝ, (quad9TIps.map F).sum = ∑ m ∈ range 2, ∑ l ∈ range 3, ∑ j ∈ range 2, F (tIp m l j) := fun F => by
    simp only [quad9TIps, sum_flatMap_range, sum_map_range, tIp]
  have hs : ∀ F : ScsIp 2 → ℝ, (quad9SIps.map F).sum = ∑ m ∈ range 2, ∑ l ∈ range 3, ∑ j ∈ range 2, F (sIp m l j) := fun F => by
    simp only [quad9SIps, sum_flatMap_range, sum_map_range, sIp]
  constructor
  · rw [ht]
    simp only [tl, tr, sum_ite_zero, t_segment]
    interval_cases m <;> interval_cases l <;> simp [sum_range_succ, quadNode, orientation]
  · rw [hs]
    simp only [sl, sr, sum_ite_zero, s_segment]
    interval_cases m <;> interval_cases l <;> simp [sum_range_succ, quadNode, orientation]

/-- Around every node the area vectors of the sub-control surfaces and of the boundary edges (`boundary2`: each edge point counted for the node the
element assigns to it) add up to zero: a uniform flow is divergence-free in every control volume. -/
theorem c198_closed (x : ℕ → Fin 2 → ℝ) {n : ℕ} (hn : n < 9) (c : Fin 2) :
    (quad9ScsIps.map fun ip => if ip.left = n then quad9AreaVec x ip c else 0).sum
      - (quad9ScsIps.map fun ip => if ip.right = n then quad9AreaVec x ip c else 0).sum
      + ∑ side ∈ range 4, ((edge3Ips.zip ((quad9FaceIps side).map FaceIp.node)).map fun e =>
          if e.2 = n then edge3AreaVec (fun k => x ((quadSideNodes side).getD k 0)) e.1 c else 0).sum = 0 := quad9_closure x hn c

end Nalu.P2
