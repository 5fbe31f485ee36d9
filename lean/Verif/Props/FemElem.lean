import Verif.Model.FemElem
import Verif.Spec.FemElem
import Verif.Spec.ElemKernel
import Verif.Props.ShapeFunctions

/-!
# C150: shape functions, derivatives and gradients of the finite-element master elements
-/

set_option linter.unusedSimpArgs false
set_option linter.unusedSectionVars false

namespace Verif.Shape
open Nalu.Kernel

theorem forall10 {P : Fin 10 → Prop} :
    (∀ i, P i) ↔ P 0 ∧ P 1 ∧ P 2 ∧ P 3 ∧ P 4 ∧ P 5 ∧ P 6 ∧ P 7 ∧ P 8 ∧ P 9 :=
  ⟨fun h => ⟨h 0, h 1, h 2, h 3, h 4, h 5, h 6, h 7, h 8, h 9⟩,
    fun ⟨a, b, c, d, e, f, g, h, k, l⟩ i => by fin_cases i <;> assumption⟩

theorem sum10 {M : Type*} [AddCommMonoid M] (f : Fin 10 → M) :
    ∑ i, f i = f 0 + f 1 + f 2 + f 3 + f 4 + f 5 + f 6 + f 7 + f 8 + f 9 := by
  rw [Fin.sum_univ_castSucc, Fin.sum_univ_castSucc, Fin.sum_univ_eight]; rfl

section
variable {K : Type*} [Field K] [CharZero K]

/-- C150: the shape functions sum to one at every point. -/
theorem c150_partition_of_unity :
    PartitionOfUnity (hexFemShape (K := K)) ∧ PartitionOfUnity (tet10Shape (K := K)) ∧
    PartitionOfUnity (tri6Shape (K := K)) := by
  refine ⟨?_, ?_, ?_⟩ <;> intro p <;>
    simp only [hexFemShape, tet10Shape, tri6Shape, Fin.sum_univ_eight, sum10, Fin.sum_univ_six] <;> ring

set_option maxHeartbeats 4000000 in
/-- C150: each shape function is one at its own node and zero at the others. -/
theorem c150_kronecker :
    Kronecker (hexFemShape (K := K)) (hexNodes 1) ∧ Kronecker (tet10Shape (K := K)) tet10Nodes ∧
    Kronecker (tri6Shape (K := K)) tri6Nodes := by
  refine ⟨?_, ?_, ?_⟩ <;>
    simp only [Kronecker, forall10, forall8, forall6] <;>
    simp only [hexFemShape, tet10Shape, tri6Shape, hexNodes, tet10Nodes, tri6Nodes, mid, tetNodes, triNodes,
      v30, v31, v32, v20, v21, Fin.reduceEq, if_true, if_false] <;> norm_num

set_option maxHeartbeats 4000000 in
/-- C150: the quadratic simplices reproduce every quadratic function, the hexahedron every affine one. -/
theorem c150_complete :
    (∀ p, LinearAt (hexFemShape (K := K)) (hexNodes 1) p) ∧
    QuadraticComplete (tet10Shape (K := K)) tet10Nodes ∧ QuadraticComplete (tri6Shape (K := K)) tri6Nodes := by
  refine ⟨?_, ?_, ?_⟩
  · intro p a b
    simp only [interp, hexFemShape, hexNodes, v30, v31, v32, Fin.sum_univ_eight, Fin.sum_univ_three]; ring
  · intro a b c p
    simp only [interp, quadratic, tet10Shape, tet10Nodes, mid, tetNodes, v30, v31, v32, sum10,
      Fin.sum_univ_three]; ring
  · intro a b c p
    simp only [interp, quadratic, tri6Shape, tri6Nodes, mid, triNodes, v20, v21, Fin.sum_univ_six,
      Fin.sum_univ_two]; ring

end

theorem hasDerivAt_of_quadratic {f : ℝ → ℝ} {b x₀ : ℝ}
    (h : ∀ x, f x = f x₀ + (x - x₀) * b + (x - x₀) ^ 2 * ((f (x₀ + 1) + f (x₀ - 1) - 2 * f x₀) / 2)) :
    HasDerivAt f b x₀ := by
  generalize (f (x₀ + 1) + f (x₀ - 1) - 2 * f x₀) / 2 = c at h
  have hf : f = fun x => f x₀ + (x - x₀) * b + (x - x₀) ^ 2 * c := funext h
  rw [hf]
  have h1 := ((hasDerivAt_id x₀).sub_const x₀).mul_const b
  have h2 := (((hasDerivAt_id x₀).sub_const x₀).pow 2).mul_const c
  exact ((h1.const_add (f x₀)).add h2).congr_deriv (by simp)

set_option maxHeartbeats 4000000 in
/-- C150: the derivative arrays are the partial derivatives of the shape functions, at every point. -/
theorem c150_derivatives (p3 : Fin 3 → ℝ) (p2 : Fin 2 → ℝ) :
    DerivAt hexFemShape (hexFemDeriv p3) p3 ∧ DerivAt tet10Shape (tet10Deriv p3) p3 ∧
    DerivAt tri6Shape (tri6Deriv p2) p2 := by
  refine ⟨?_, ?_, ?_⟩ <;>
    simp only [DerivAt, forall10, forall8, forall6, forall3, forall2] <;>
    (repeat' apply And.intro) <;> refine hasDerivAt_of_quadratic fun x => ?_ <;>
    simp only [hexFemShape, tet10Shape, tri6Shape, hexFemDeriv, tet10Deriv, tri6Deriv, v30, v31, v32, v20, v21,
      u00, u01, u02, u10, u11, u12, u20, u21, u22, w00, w01, w10, w11] <;> ring

section
variable {K : Type*} [Field K] [LinearOrder K] [IsStrictOrderedRing K]

theorem femDeriv_sum (p3 : Fin 3 → K) (p2 : Fin 2 → K) :
    (∀ j, ∑ k, hexFemDeriv p3 k j = 0) ∧ (∀ j, ∑ k, tet10Deriv p3 k j = 0) ∧ (∀ j, ∑ k, tri6Deriv p2 k j = 0) := by
  refine ⟨?_, ?_, ?_⟩ <;> simp only [forall3, forall2] <;>
    simp only [hexFemDeriv, tet10Deriv, tri6Deriv, Fin.sum_univ_eight, sum10, Fin.sum_univ_six,
      v30, v31, v32, v20, v21] <;>
    (repeat' apply And.intro) <;> ring

theorem detOf_eq {n : ℕ} (d c : Fin n → Fin 3 → K) :
    detOf (by decide) (jact d c) (cofactor3 (jact d c)) = (jacobian d c).det := by
  rw [Matrix.det_fin_three]
  have hJ : ∀ i l, jacobian d c i l = jact d c i l := fun _ _ => rfl
  simp only [hJ, detOf, cofactor3, Fin.sum_univ_three, Fin.zero_eta, v30, v31, v32]; ring

theorem gradOp_ok {n : ℕ} (d c : Fin n → Fin 3 → K) (hz : ∀ j, ∑ k, d k j = 0) (hd : (jacobian d c).det ≠ 0) :
    GradConst (gradOp3 d c) ∧ GradLinear (gradOp3 d c) c := by
  constructor
  · intro j
    have := congrFun (c41_gradop3_exact_linear d c hz hd 1 (fun _ => 0)) j
    simpa using this
  · intro i j
    have := congrFun (c41_gradop3_exact_linear d c hz hd 0 (fun k => if k = i then 1 else 0)) j
    simpa [eq_comm] using this

/-- C150: wherever the volume factor is not zero, the shape functions and gradients the kernels receive are
those of a consistent element: unity, gradients that annihilate constants and differentiate the nodal
coordinates exactly, and `det_j` is the determinant of the Jacobian of the isoparametric map. -/
theorem c150_hex_consistent (g : K) (x : Fin 8 → Fin 3 → K) (ip : Fin 8) :
    Unity ((hexFem g x).shape ip) ∧
    (hexFem g x).detJ ip = (jacobian (hexFemDeriv (hexFemPts g ip)) x).det ∧
    ((hexFem g x).detJ ip ≠ 0 → GradConst ((hexFem g x).dndx ip) ∧ GradLinear ((hexFem g x).dndx ip) x) := by
  refine ⟨c150_partition_of_unity.1 _, detOf_eq _ _, fun h => ?_⟩
  exact gradOp_ok _ _ (femDeriv_sum _ (fun _ => 0)).1 (by rwa [← detOf_eq])

/-- C150: the same for the ten-node tetrahedron. -/
theorem c150_tet_consistent (x : Fin 10 → Fin 3 → K) (ip : Fin 16) :
    Unity ((tet10Fem x).shape ip) ∧
    (tet10Fem x).detJ ip = (jacobian (tet10Deriv (tet10Pt ip)) x).det ∧
    ((tet10Fem x).detJ ip ≠ 0 → GradConst ((tet10Fem x).dndx ip) ∧ GradLinear ((tet10Fem x).dndx ip) x) := by
  refine ⟨c150_partition_of_unity.2.1 _, detOf_eq _ _, fun h => ?_⟩
  exact gradOp_ok _ _ (femDeriv_sum _ (fun _ => 0)).2.1 (by rwa [← detOf_eq])

/-- C150: with the shifted points (`g = 1`) the hexahedron's shape functions are nodal, so that shifted
quadrature lumps. -/
theorem c150_hex_shifted_nodal (x : Fin 8 → Fin 3 → K) (ip k : Fin 8) :
    (hexFem 1 x).shape ip k = if k = ip then 1 else 0 := by
  have : hexFemPts (1 : K) ip = hexNodes 1 ip := by fin_cases ip <;> rfl
  simp only [hexFem, this]
  exact c150_kronecker.1 ip k

/-- C150: the ten-node tetrahedron has no shifted points: the array is sized and never filled, so that every
"shifted" point is node 0 and shifted interpolation returns the value at node 0. -/
theorem c150_tet_shifted_is_node0 (ip : Fin 16) (f : Fin 10 → K) :
    interp (tet10Shape (tet10ShiftPts (K := K) ip)) f = f 0 := by
  simp [interp, tet10ShiftPts, sum10, tet10Shape]

-- the unit-cube hexahedron and the reference tetrahedron have positive volume factors
example : (hexFem (1 : ℚ) (hexNodes 1)).detJ 0 = 1 ∧ 0 < (tet10Fem (K := ℚ) tet10Nodes).detJ 7 := by
  constructor <;> decide +kernel

end

end Verif.Shape
