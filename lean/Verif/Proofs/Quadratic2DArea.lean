import Verif.Proofs.Quadratic2D

open Finset

namespace Nalu.P2
open Spec

/-! ### area vectors of the sub-control surfaces -/

/-- The integration point `j` of segment `l` on the line `m` of constant `t`. -/
noncomputable def tIp (m l j : ℕ) : ScsIp 2 :=
  { loc := ![gaussLoc l j, scsLoc m], locShift := ![gaussLocShift l j, scsLoc m]
    left := if m = 0 then quadNode l m else quadNode l (m + 1)
    right := if m = 0 then quadNode l (m + 1) else quadNode l m
    weight := orientation m * lineWt l j, dir := 1 }

/-- The integration point `j` of segment `l` on the line `m` of constant `s`. -/
noncomputable def sIp (m l j : ℕ) : ScsIp 2 :=
  { loc := ![scsLoc m, gaussLoc l j], locShift := ![scsLoc m, gaussLocShift l j]
    left := if m = 0 then quadNode m l else quadNode (m + 1) l
    right := if m = 0 then quadNode (m + 1) l else quadNode m l
    weight := -orientation m * lineWt l j, dir := 0 }

theorem quad9_scs_sum (F : ScsIp 2 → ℝ) : (quad9ScsIps.map F).sum
    = (∑ m ∈ range 2, ∑ l ∈ range 3, ∑ j ∈ range 2, F (tIp m l j)) + ∑ m ∈ range 2, ∑ l ∈ range 3, ∑ j ∈ range 2, F (sIp m l j) := by
  simp only [quad9ScsIps, quad9TIps, quad9SIps, List.map_append, List.sum_append, sum_flatMap_range, sum_map_range, tIp, sIp]

/-- A plane vector turned clockwise by a quarter. -/
def turn (f : Fin 2 → ℝ) : Fin 2 → ℝ := ![f 1, -f 0]

theorem t_segment (x : ℕ → Fin 2 → ℝ) (m l : ℕ) (c : Fin 2) : ∑ j ∈ range 2, quad9AreaVec x (tIp m l j) c
    = orientation m * turn (fun c => map2 x c (scsEnd (l + 1)) (scsLoc m) - map2 x c (scsEnd l) (scsLoc m)) c := by
  have h := fun c => gauss_deriv (map2_quad_s x c (scsLoc m)) l
  simp only [turn, ← h]
  fin_cases c <;> simp [quad9AreaVec, tIp, tangent9_s, sum_range_succ] <;> ring

theorem s_segment (x : ℕ → Fin 2 → ℝ) (m l : ℕ) (c : Fin 2) : ∑ j ∈ range 2, quad9AreaVec x (sIp m l j) c
    = -orientation m * turn (fun c => map2 x c (scsLoc m) (scsEnd (l + 1)) - map2 x c (scsLoc m) (scsEnd l)) c := by
  have h := fun c => gauss_deriv (map2_quad_t x c (scsLoc m)) l
  simp only [turn, ← h]
  fin_cases c <;> simp [quad9AreaVec, sIp, tangent9_t, sum_range_succ] <;> ring

/-! ### boundary edges -/

/-- The nodes of a side as nodes of the edge element. -/
def sideX {e : ℕ} (x : ℕ → Fin e → ℝ) (nodes : List ℕ) (k : ℕ) : Fin e → ℝ := x (nodes.getD k 0)

/-- The point of the element at position `q` of a side. -/
noncomputable def sidePoint (x : ℕ → Fin 2 → ℝ) (side : ℕ) (c : Fin 2) (q : ℝ) : ℝ :=
  match quadSide side q with
  | some p => map2 x c (p 0) (p 1)
  | none => 0

/-- The map of an edge. -/
noncomputable def edgeMap (y : ℕ → Fin 2 → ℝ) (c : Fin 2) (s : ℝ) : ℝ := ∑ n ∈ range 3, ell (ref1 n) s * y n c

theorem edgeMap_side (x : ℕ → Fin 2 → ℝ) {side : ℕ} (hs : side < 4) (c : Fin 2) (q : ℝ) :
    edgeMap (sideX x (quadSideNodes side)) c q = sidePoint x side c q := by
  interval_cases side <;>
    · simp [edgeMap, sidePoint, quadSide, map2, sum_range_succ, ref1, ref2, ell, sideX, quadSideNodes]
      try ring

theorem edge_segment (y : ℕ → Fin 2 → ℝ) (k : ℕ) (c : Fin 2) :
    ∑ j ∈ range 2, lineWt k j * edge3Area y (gaussLoc k j) c = turn (fun c => edgeMap y c (scsEnd (k + 1)) - edgeMap y c (scsEnd k)) c := by
  have h := fun c => gauss_deriv (p := edgeMap y c) (p' := fun s => 1 / 2 * (y 1 c - y 0 c) + (y 1 c - 2 * y 2 c + y 0 c) * s)
    ⟨y 2 c, 1 / 2 * (y 1 c - y 0 c), 1 / 2 * (y 1 c - 2 * y 2 c + y 0 c), fun s => by
      constructor
      · simp [edgeMap, sum_range_succ, ref1, ell]; ring
      · ring⟩ k
  simp only [turn, ← h]
  fin_cases c <;> simp [edge3Area, sum_range_succ] <;> ring

/-- What the boundary edges contribute to a node: the points of the edge element, each with the node the parent element assigns to it. -/
noncomputable def boundary2 (x : ℕ → Fin 2 → ℝ) (n : ℕ) (c : Fin 2) : ℝ :=
  ∑ side ∈ range 4, ((edge3Ips.zip ((quad9FaceIps side).map FaceIp.node)).map fun e =>
    if e.2 = n then edge3AreaVec (sideX x (quadSideNodes side)) e.1 c else 0).sum

theorem face_nodes : (quad9FaceIps 0).map FaceIp.node = [0, 0, 4, 4, 1, 1] ∧ (quad9FaceIps 1).map FaceIp.node = [1, 1, 5, 5, 2, 2] ∧
    (quad9FaceIps 2).map FaceIp.node = [2, 2, 6, 6, 3, 3] ∧ (quad9FaceIps 3).map FaceIp.node = [3, 3, 7, 7, 0, 0] :=
  ⟨rfl, rfl, rfl, rfl⟩

theorem edge3Ips_eq : edge3Ips = [⟨![gaussLoc 0 0], 0, lineWt 0 0⟩, ⟨![gaussLoc 0 1], 0, lineWt 0 1⟩, ⟨![gaussLoc 1 0], 2, lineWt 1 0⟩,
    ⟨![gaussLoc 1 1], 2, lineWt 1 1⟩, ⟨![gaussLoc 2 0], 1, lineWt 2 0⟩, ⟨![gaussLoc 2 1], 1, lineWt 2 1⟩] := rfl

/-- The contribution of one side: three segments. -/
theorem side_sum (y : ℕ → Fin 2 → ℝ) (a b d n : ℕ) (c : Fin 2) :
    ((edge3Ips.zip [a, a, b, b, d, d]).map fun e => if e.2 = n then edge3AreaVec y e.1 c else 0).sum
      = (if a = n then turn (fun c => edgeMap y c (scsEnd 1) - edgeMap y c (scsEnd 0)) c else 0)
        + (if b = n then turn (fun c => edgeMap y c (scsEnd 2) - edgeMap y c (scsEnd 1)) c else 0)
        + (if d = n then turn (fun c => edgeMap y c (scsEnd 3) - edgeMap y c (scsEnd 2)) c else 0) := by
  have h0 := edge_segment y 0 c
  have h1 := edge_segment y 1 c
  have h2 := edge_segment y 2 c
  simp only [sum_range_succ, sum_range_zero, zero_add] at h0 h1 h2
  norm_num at h0 h1 h2
  rw [← h0, ← h1, ← h2, edge3Ips_eq]
  simp only [List.zip_cons_cons, List.map_cons, List.zip_nil_right, List.map_nil, List.sum_cons, List.sum_nil, edge3AreaVec,
    Matrix.cons_val_zero]
  split_ifs <;> ring

set_option maxHeartbeats 2000000 in
/-- The area vectors of a sub-control volume add up to zero. -/
theorem quad9_closure (x : ℕ → Fin 2 → ℝ) {n : ℕ} (hn : n < 9) (c : Fin 2) :
    (quad9ScsIps.map fun ip => if ip.left = n then quad9AreaVec x ip c else 0).sum
      - (quad9ScsIps.map fun ip => if ip.right = n then quad9AreaVec x ip c else 0).sum + boundary2 x n c = 0 := by
  have hb : boundary2 x n c = ∑ side ∈ range 4, ((if [0, 1, 2, 3].getD side 0 = n then
        turn (fun c => sidePoint x side c (scsEnd 1) - sidePoint x side c (scsEnd 0)) c else 0)
      + (if [4, 5, 6, 7].getD side 0 = n then turn (fun c => sidePoint x side c (scsEnd 2) - sidePoint x side c (scsEnd 1)) c else 0)
      + (if [1, 2, 3, 0].getD side 0 = n then turn (fun c => sidePoint x side c (scsEnd 3) - sidePoint x side c (scsEnd 2)) c else 0)) := by
    unfold boundary2
    refine Finset.sum_congr rfl fun side hs => ?_
    have hs4 := mem_range.1 hs
    have := fun c q => edgeMap_side x hs4 c q
    simp only [← this]
    obtain ⟨f0, f1, f2, f3⟩ := face_nodes
    interval_cases side
    · rw [f0, side_sum]; rfl
    · rw [f1, side_sum]; rfl
    · rw [f2, side_sum]; rfl
    · rw [f3, side_sum]; rfl
  rw [hb, quad9_scs_sum, quad9_scs_sum]
  have l1 : ∀ m l j, (tIp m l j).left = if m = 0 then quadNode l m else quadNode l (m + 1) := fun _ _ _ => rfl
  have l2 : ∀ m l j, (tIp m l j).right = if m = 0 then quadNode l (m + 1) else quadNode l m := fun _ _ _ => rfl
  have l3 : ∀ m l j, (sIp m l j).left = if m = 0 then quadNode m l else quadNode (m + 1) l := fun _ _ _ => rfl
  have l4 : ∀ m l j, (sIp m l j).right = if m = 0 then quadNode (m + 1) l else quadNode m l := fun _ _ _ => rfl
  simp only [l1, l2, l3, l4, sum_ite_zero, t_segment, s_segment]
  interval_cases n <;> fin_cases c <;>
    simp [sum_range_succ, quadNode, turn, sidePoint, quadSide, orientation, scsLoc, scsEnd]
  all_goals ring

end Nalu.P2
