import Verif.Props.FemElem
import Mathlib.Tactic.Positivity

/-!
# C152: the faces of the ten-node tetrahedron are six-node triangles
-/

set_option linter.unusedSimpArgs false
set_option linter.unusedSectionVars false

namespace Verif.Shape

section
variable {K : Type*} [Field K] [LinearOrder K] [IsStrictOrderedRing K]

theorem v60 {α : Type*} (a b c d e f : α) : (![a, b, c, d, e, f] : Fin 6 → α) 0 = a := rfl
theorem v61 {α : Type*} (a b c d e f : α) : (![a, b, c, d, e, f] : Fin 6 → α) 1 = b := rfl
theorem v62 {α : Type*} (a b c d e f : α) : (![a, b, c, d, e, f] : Fin 6 → α) 2 = c := rfl
theorem v63 {α : Type*} (a b c d e f : α) : (![a, b, c, d, e, f] : Fin 6 → α) 3 = d := rfl
theorem v64 {α : Type*} (a b c d e f : α) : (![a, b, c, d, e, f] : Fin 6 → α) 4 = e := rfl
theorem v65 {α : Type*} (a b c d e f : α) : (![a, b, c, d, e, f] : Fin 6 → α) 5 = f := rfl

/-- C152: a point given in face coordinates is sent to the point of the element where a field, interpolated
by the element, has the value the face interpolation of the values at the face's nodes gives.  (The choice of
nodes is `side_node_ordinals`.) -/
theorem c152_trace (side : Fin 4) (q : Fin 2 → K) :
    ∃ p, tet10Side (side : ℕ) q = some p ∧
      (∀ f : Fin 10 → K, interp (tet10Shape p) f = interp (tri6Shape q) fun m => f (tet10SideNodes side m)) ∧
      (∀ m, tet10Shape p (tet10SideNodes side m) = tri6Shape q m) ∧
      ∀ k, (∀ m, tet10SideNodes side m ≠ k) → tet10Shape p k = 0 := by
  revert side
  rw [forall4]
  refine ⟨⟨_, rfl, ?_⟩, ⟨_, rfl, ?_⟩, ⟨_, rfl, ?_⟩, ⟨_, rfl, ?_⟩⟩ <;> refine ⟨fun f => ?_, ?_, ?_⟩
  all_goals first
    | (simp only [interp, tet10Shape, tri6Shape, tet10SideNodes, sum10, Fin.sum_univ_six, v30, v31, v32,
        v60, v61, v62, v63, v64, v65]; ring1)
    | (intro m
       fin_cases m <;> simp only [tet10Shape, tri6Shape, tet10SideNodes, Fin.zero_eta, Fin.mk_one, Fin.reduceFinMk,
         v30, v31, v32, v60, v61, v62, v63, v64, v65] <;> ring1)
    | (intro k
       fin_cases k <;> intro h <;>
       first
        | exact absurd rfl (h 0) | exact absurd rfl (h 1) | exact absurd rfl (h 2)
        | exact absurd rfl (h 3) | exact absurd rfl (h 4) | exact absurd rfl (h 5)
        | (clear h; simp only [tet10Shape, Fin.zero_eta, Fin.mk_one, Fin.reduceFinMk, v30, v31, v32]; ring1))

/-- Only four sides exist. -/
theorem c152_side_range (side : ℕ) (q : Fin 2 → K) : tet10Side side q = none ↔ 4 ≤ side := by
  rcases side with _ | _ | _ | _ | n <;> simp [tet10Side]

/-- C152: the area vector of the curved face agrees with the geometry of the element: for every direction `v`
of the reference element, `area . (J v) = det J * (outward reference normal . v)`.  On an element with positive
Jacobian the area vector therefore points out of the element, on every side and at every point. -/
theorem c152_area (side : Fin 4) (q : Fin 2 → K) (x : Fin 10 → Fin 3 → K) (v : Fin 3 → K) :
    ∃ p, tet10Side (side : ℕ) q = some p ∧
      ∑ i, tri6Area (tri6Deriv q) (fun m => x (tet10SideNodes side m)) i * (∑ k, jacobian (tet10Deriv p) x i k * v k)
        = (jacobian (tet10Deriv p) x).det * ∑ k, tetSideNormal side k * v k := by
  -- tangents of the face are images of the tangents of the reference face
  have key : ∀ (side : Fin 4) (p : Fin 3 → K) (a b : Fin 3 → K), tet10Side (side : ℕ) q = some p →
      (∀ i, tri6Tangent (tri6Deriv q) (fun m => x (tet10SideNodes side m)) 0 i =
        ∑ k, jact (tet10Deriv p) x i k * a k) →
      (∀ i, tri6Tangent (tri6Deriv q) (fun m => x (tet10SideNodes side m)) 1 i =
        ∑ k, jact (tet10Deriv p) x i k * b k) →
      tetSideNormal side = ![a 1 * b 2 - a 2 * b 1, a 2 * b 0 - a 0 * b 2, a 0 * b 1 - a 1 * b 0] →
      ∃ p, tet10Side (side : ℕ) q = some p ∧
      ∑ i, tri6Area (tri6Deriv q) (fun m => x (tet10SideNodes side m)) i * (∑ k, jacobian (tet10Deriv p) x i k * v k)
        = (jacobian (tet10Deriv p) x).det * ∑ k, tetSideNormal side k * v k := by
    intro side p a b hp h0 h1 hn
    refine ⟨p, hp, ?_⟩
    have hJ : ∀ i l, jacobian (tet10Deriv p) x i l = jact (tet10Deriv p) x i l := fun _ _ => rfl
    rw [Matrix.det_fin_three, hn]
    simp only [tri6Area, h0, h1, hJ]
    generalize jact (tet10Deriv p) x = A
    simp only [Fin.sum_univ_three, v30, v31, v32]
    ring
  revert side
  rw [forall4]
  refine ⟨key 0 _ ![1, 0, 0] ![0, 0, 1] rfl ?_ ?_ ?_, key 1 _ ![-1, 1, 0] ![-1, 0, 1] rfl ?_ ?_ ?_,
    key 2 _ ![0, 0, 1] ![0, 1, 0] rfl ?_ ?_ ?_, key 3 _ ![0, 1, 0] ![1, 0, 0] rfl ?_ ?_ ?_⟩
  all_goals first
    | (intro i
       simp only [tri6Tangent, jact, tri6Deriv, tet10Deriv, tet10SideNodes, sum10, Fin.sum_univ_six,
         Fin.sum_univ_three, v20, v21, v30, v31, v32, v60, v61, v62, v63, v64, v65]
       ring1)
    | (simp [tetSideNormal])

end

/-- C152: `det_j * normal` is the area vector, the normal has unit length, and `det_j` is positive, wherever
the tangents are independent. -/
theorem c152_normal (d : Fin 6 → Fin 2 → ℝ) (x : Fin 6 → Fin 3 → ℝ) (h : tri6Area d x ≠ 0) :
    0 < tri6Det d x ∧ (∀ i, tri6Det d x * tri6Normal d x i = tri6Area d x i) ∧ ∑ i, tri6Normal d x i ^ 2 = 1 ∧
    ∀ j, ∑ i, tri6Normal d x i * tri6Tangent d x j i = 0 := by
  have hpos : 0 < tri6Area d x 2 * tri6Area d x 2 + tri6Area d x 0 * tri6Area d x 0 +
      tri6Area d x 1 * tri6Area d x 1 := by
    by_contra hc
    apply h
    have h0 := mul_self_nonneg (tri6Area d x 0)
    have h1 := mul_self_nonneg (tri6Area d x 1)
    have h2 := mul_self_nonneg (tri6Area d x 2)
    funext i
    have : ∀ i, tri6Area d x i = 0 := by
      rw [forall3]
      refine ⟨mul_self_eq_zero.1 ?_, mul_self_eq_zero.1 ?_, mul_self_eq_zero.1 ?_⟩ <;> linarith
    exact this i
  have hd : 0 < tri6Det d x := Real.sqrt_pos.2 hpos
  have hs : tri6Det d x * tri6Det d x = tri6Area d x 2 * tri6Area d x 2 + tri6Area d x 0 * tri6Area d x 0 +
      tri6Area d x 1 * tri6Area d x 1 := Real.mul_self_sqrt hpos.le
  refine ⟨hd, fun i => by rw [tri6Normal]; field_simp, ?_, ?_⟩
  · simp only [Fin.sum_univ_three, tri6Normal, div_pow, ← add_div]
    rw [div_eq_one_iff_eq (by positivity)]
    linear_combination -hs
  · rw [forall2]
    constructor <;> simp only [Fin.sum_univ_three, tri6Normal, tri6Area, v30, v31, v32] <;> ring

/-- A concrete face: side 1 of the reference tetrahedron, whose area vector is `(1,1,1)`. -/
example : tri6Area (tri6Deriv (K := ℚ) ![1 / 3, 1 / 3]) (fun m => tet10Nodes (tet10SideNodes 1 m)) = ![1, 1, 1] := by
  decide +kernel

end Verif.Shape
