import Verif.Model.ShapeFunctions
import Verif.Model.ElemGeometry
import Verif.Spec.ShapeFunctions
import Verif.Spec.PointSearch
import Mathlib.Analysis.Calculus.Deriv.Inv
import Mathlib.Analysis.Calculus.Deriv.Add
import Mathlib.Analysis.Calculus.Deriv.Mul
import Mathlib.LinearAlgebra.Matrix.NonsingularInverse
import Mathlib.Tactic.FieldSimp
import Mathlib.Tactic.FinCases
import Mathlib.Tactic.NormNum
import Mathlib.Tactic.LinearCombination
import Mathlib.Tactic.IntervalCases

/-!
# C40, C41, C59: shape functions, derivatives, gradient operators, side coordinates
-/

set_option linter.unusedSimpArgs false
set_option linter.unusedSectionVars false

namespace Verif.Shape

theorem forall2 {P : Fin 2 → Prop} : (∀ i, P i) ↔ P 0 ∧ P 1 :=
  ⟨fun h => ⟨h 0, h 1⟩, fun ⟨a, b⟩ i => by fin_cases i <;> assumption⟩
theorem forall3 {P : Fin 3 → Prop} : (∀ i, P i) ↔ P 0 ∧ P 1 ∧ P 2 :=
  ⟨fun h => ⟨h 0, h 1, h 2⟩, fun ⟨a, b, c⟩ i => by fin_cases i <;> assumption⟩
theorem forall4 {P : Fin 4 → Prop} : (∀ i, P i) ↔ P 0 ∧ P 1 ∧ P 2 ∧ P 3 :=
  ⟨fun h => ⟨h 0, h 1, h 2, h 3⟩, fun ⟨a, b, c, d⟩ i => by fin_cases i <;> assumption⟩
theorem forall5 {P : Fin 5 → Prop} : (∀ i, P i) ↔ P 0 ∧ P 1 ∧ P 2 ∧ P 3 ∧ P 4 :=
  ⟨fun h => ⟨h 0, h 1, h 2, h 3, h 4⟩, fun ⟨a, b, c, d, e⟩ i => by fin_cases i <;> assumption⟩
theorem forall6 {P : Fin 6 → Prop} : (∀ i, P i) ↔ P 0 ∧ P 1 ∧ P 2 ∧ P 3 ∧ P 4 ∧ P 5 :=
  ⟨fun h => ⟨h 0, h 1, h 2, h 3, h 4, h 5⟩, fun ⟨a, b, c, d, e, f⟩ i => by
    fin_cases i <;> assumption⟩
theorem forall8 {P : Fin 8 → Prop} : (∀ i, P i) ↔ P 0 ∧ P 1 ∧ P 2 ∧ P 3 ∧ P 4 ∧ P 5 ∧ P 6 ∧ P 7 :=
  ⟨fun h => ⟨h 0, h 1, h 2, h 3, h 4, h 5, h 6, h 7⟩, fun ⟨a, b, c, d, e, f, g, h⟩ i => by
    fin_cases i <;> assumption⟩

section vec
variable {α : Type*} (a b c : α)
theorem v30 : (![a, b, c] : Fin 3 → α) 0 = a := rfl
theorem v31 : (![a, b, c] : Fin 3 → α) 1 = b := rfl
theorem v32 : (![a, b, c] : Fin 3 → α) 2 = c := rfl
theorem v20 : (![a, b] : Fin 2 → α) 0 = a := rfl
theorem v21 : (![a, b] : Fin 2 → α) 1 = b := rfl
theorem v10 : (![a] : Fin 1 → α) 0 = a := rfl
end vec

section
variable {K : Type*} [Field K] [CharZero K]

/-! ## C40 -/

/-- C40: the shape functions sum to one, for every element and every parametric point. -/
theorem c40_partition_of_unity :
    PartitionOfUnity (hexShape (K := K)) ∧ PartitionOfUnity (hexGeneralShape (K := K)) ∧
    PartitionOfUnity (tetShape (K := K)) ∧ PartitionOfUnity (wedShape (K := K)) ∧
    PartitionOfUnity (pyrShiftedShape (K := K)) ∧ PartitionOfUnity (quadShape (K := K)) ∧
    PartitionOfUnity (quadGeneralShape (K := K)) ∧ PartitionOfUnity (triShape (K := K)) ∧
    PartitionOfUnity (edgeShape (K := K)) := by
  refine ⟨?_, ?_, ?_, ?_, ?_, ?_, ?_, ?_, ?_⟩ <;> intro p <;>
    simp only [hexShape, hexGeneralShape, tetShape, wedShape, pyrShiftedShape, quadShape,
      quadGeneralShape, triShape, edgeShape, Fin.sum_univ_eight, Fin.sum_univ_six,
      Fin.sum_univ_five, Fin.sum_univ_four, Fin.sum_univ_three, Fin.sum_univ_two] <;> ring

set_option maxHeartbeats 4000000 in
/-- C40: each shape function is one at its own node and zero at the others, for every element. -/
theorem c40_kronecker :
    Kronecker (hexShape (K := K)) (hexNodes (1 / 2)) ∧
    Kronecker (hexGeneralShape (K := K)) (hexNodes 1) ∧
    Kronecker (tetShape (K := K)) tetNodes ∧ Kronecker (wedShape (K := K)) wedNodes ∧
    Kronecker (pyrShiftedShape (K := K)) pyrNodes ∧ Kronecker (quadShape (K := K)) (quadNodes (1 / 2)) ∧
    Kronecker (quadGeneralShape (K := K)) (quadNodes 1) ∧ Kronecker (triShape (K := K)) triNodes ∧
    Kronecker (edgeShape (K := K)) edgeNodes := by
  refine ⟨?_, ?_, ?_, ?_, ?_, ?_, ?_, ?_, ?_⟩ <;>
    simp only [Kronecker, forall8, forall6, forall5, forall4, forall3, forall2] <;>
    simp only [hexShape, hexGeneralShape, tetShape, wedShape, pyrShiftedShape, quadShape,
      quadGeneralShape, triShape, edgeShape, hexNodes, tetNodes, wedNodes, pyrNodes, quadNodes,
      triNodes, edgeNodes, v30, v31, v32, v20, v21, v10, Fin.reduceEq, if_true, if_false] <;> norm_num

set_option maxHeartbeats 4000000 in
/-- C40: fields affine in the parametric coordinates are reproduced at every point, for every
element (except the shifted pyramid functions, see `c40_pyr_shifted_not_linear`). -/
theorem c40_linear (p3 : Fin 3 → K) (p2 : Fin 2 → K) (p1 : Fin 1 → K) :
    LinearAt (hexShape (K := K)) (hexNodes (1 / 2)) p3 ∧
    LinearAt (hexGeneralShape (K := K)) (hexNodes 1) p3 ∧
    LinearAt (tetShape (K := K)) tetNodes p3 ∧ LinearAt (wedShape (K := K)) wedNodes p3 ∧
    LinearAt (quadShape (K := K)) (quadNodes (1 / 2)) p2 ∧
    LinearAt (quadGeneralShape (K := K)) (quadNodes 1) p2 ∧ LinearAt (triShape (K := K)) triNodes p2 ∧
    LinearAt (edgeShape (K := K)) edgeNodes p1 := by
  refine ⟨?_, ?_, ?_, ?_, ?_, ?_, ?_, ?_⟩ <;> intro a b <;>
    simp only [interp, hexShape, hexGeneralShape, tetShape, wedShape, quadShape,
      quadGeneralShape, triShape, edgeShape, hexNodes, tetNodes, wedNodes, quadNodes,
      triNodes, edgeNodes, v30, v31, v32, v20, v21, v10, Fin.sum_univ_eight, Fin.sum_univ_six,
      Fin.sum_univ_five, Fin.sum_univ_four, Fin.sum_univ_three, Fin.sum_univ_two,
      Fin.sum_univ_one] <;> ring

/-- C40: the shifted pyramid functions do **not** reproduce linear fields: the `r` coordinate comes
out as `r (1-t)`. -/
theorem c40_pyr_shifted_not_linear (p : Fin 3 → K) :
    interp (pyrShiftedShape p) (fun k => pyrNodes k 0) = p 0 * (1 - p 2) ∧
    (p 0 * p 2 ≠ 0 → ¬ LinearAt pyrShiftedShape pyrNodes p) := by
  have h : interp (pyrShiftedShape p) (fun k => pyrNodes k 0) = p 0 * (1 - p 2) := by
    simp only [interp, pyrShiftedShape, pyrNodes, v30, v31, v32, Fin.sum_univ_five]; ring
  refine ⟨h, fun hn hl => hn ?_⟩
  have := hl 0 ![1, 0, 0]
  simp only [Fin.sum_univ_three, v30, v31, v32, zero_add, one_mul, zero_mul, add_zero] at this
  rw [h] at this
  linear_combination -this

/-- C40, in physical space: where the shape functions sum to one, an affine field of the physical
coordinates, sampled at the nodes, is interpolated exactly at the interpolated position, whatever
the geometry of the element. -/
theorem c40_affine_field {n d : ℕ} (N : Fin n → K) (hN : ∑ k, N k = 1) (coords : Fin n → Fin d → K)
    (a : K) (b : Fin d → K) :
    interp N (fun k => a + ∑ i, b i * coords k i) = a + ∑ i, b i * interp N (fun k => coords k i) := by
  simp only [interp, mul_add, Finset.sum_add_distrib, ← Finset.sum_mul, hN, one_mul]
  congr 1
  simp only [Finset.mul_sum]
  rw [Finset.sum_comm]
  exact Finset.sum_congr rfl fun i _ => Finset.sum_congr rfl fun k _ => by ring

end

section
variable {K : Type*} [Field K] [LinearOrder K] [IsStrictOrderedRing K]

theorem pyrClamp_ne {eps : K} (he : 0 < eps) (t : K) : 1 - pyrClamp eps t ≠ 0 := by
  unfold pyrClamp
  split
  · rename_i h; intro h0; rw [h0] at h; simp at h; exact absurd h (not_lt.2 he.le)
  · split <;> simp [he.ne']

/-- C40: the pyramid's shape functions sum to one at every point, the apex included. -/
theorem c40_pyr_partition_of_unity {eps : K} (he : 0 < eps) : PartitionOfUnity (pyrShape eps) := by
  intro p
  have h := pyrClamp_ne he (p 2)
  simp only [pyrShape, Fin.sum_univ_five]
  generalize pyrClamp eps (p 2) = t at h ⊢
  field_simp; ring

/-- C40: at the four base nodes of the pyramid the shape functions are Kronecker, and at the apex
they are within `eps` of it (the apex singularity is cut off at `eps`). -/
theorem c40_pyr_kronecker {eps : K} (he : 0 < eps) (he1 : eps < 1) (k : Fin 5) :
    (∀ i : Fin 5, i ≠ 4 → pyrShape eps (pyrNodes i) k = if k = i then 1 else 0) ∧
    |pyrShape eps (pyrNodes 4) k - (if k = 4 then 1 else 0)| ≤ eps := by
  have h0 : pyrClamp eps 0 = 0 := by simp [pyrClamp, he1]
  have h1 : pyrClamp eps 1 = 1 + eps := by simp [pyrClamp, not_lt.2 he.le]
  have hab : |eps| = eps := abs_of_pos he
  constructor
  · revert k; simp only [forall5]
    simp only [pyrShape, pyrNodes, v30, v31, v32, h0, Fin.reduceEq, if_true, if_false, ne_eq,
      not_true_eq_false, not_false_eq_true, true_implies, false_implies, and_true]
    norm_num
  · revert k; simp only [forall5]
    simp only [pyrShape, pyrNodes, v30, v31, v32, h1, Fin.reduceEq, if_true, if_false]
    have hz : 1 - (1 + eps) ≠ 0 := by simp [he.ne']
    have hp : ∀ x y : K, x = -eps → y = -eps → x * y * (1 / 4 / (1 - (1 + eps))) - 0 = -(eps / 4) := by
      rintro x y rfl rfl
      rw [show (1 - (1 + eps) : K) = -eps by ring]
      field_simp; ring
    have e1 : (1 - 0 - (1 + eps)) * (1 - 0 - (1 + eps)) * (1 / 4 / (1 - (1 + eps))) - 0 = -(eps / 4) :=
      hp _ _ (by ring) (by ring)
    have e2 : (1 + 0 - (1 + eps)) * (1 - 0 - (1 + eps)) * (1 / 4 / (1 - (1 + eps))) - 0 = -(eps / 4) :=
      hp _ _ (by ring) (by ring)
    have e3 : (1 + 0 - (1 + eps)) * (1 + 0 - (1 + eps)) * (1 / 4 / (1 - (1 + eps))) - 0 = -(eps / 4) :=
      hp _ _ (by ring) (by ring)
    have e4 : (1 - 0 - (1 + eps)) * (1 + 0 - (1 + eps)) * (1 / 4 / (1 - (1 + eps))) - 0 = -(eps / 4) :=
      hp _ _ (by ring) (by ring)
    have e5 : (1 + eps - 1 : K) = eps := by ring
    have e6 : |-(eps / 4)| ≤ eps := by
      rw [abs_neg, abs_of_pos (by linarith)]; linarith
    rw [e1, e2, e3, e4, e5, hab]
    exact ⟨e6, e6, e6, e6, le_refl _⟩

/-- C40: away from the apex plane the pyramid reproduces linear fields. -/
theorem c40_pyr_linear {eps : K} (he : 0 < eps) (p : Fin 3 → K) (hp : eps < |1 - p 2|) :
    LinearAt (pyrShape eps) pyrNodes p := by
  intro a b
  have h : 1 - p 2 ≠ 0 := by
    intro h; rw [h, abs_zero] at hp; exact absurd hp (not_lt.2 he.le)
  simp only [interp, pyrShape, pyrNodes, v30, v31, v32, Fin.sum_univ_five, Fin.sum_univ_three,
    pyrClamp, hp, if_true]
  field_simp; ring

-- the centre of the base, an interior point, and the machine epsilon
example : (0 : ℚ) < 2 ^ (-52 : ℤ) ∧ (2 : ℚ) ^ (-52 : ℤ) < |1 - (1 / 4)| := by norm_num

end

/-! ## C41 -/

theorem hasDerivAt_of_affine {f : ℝ → ℝ} {b x₀ : ℝ} (h : ∀ x, f x = f x₀ + (x - x₀) * b) :
    HasDerivAt f b x₀ := by
  have : f = fun x => f x₀ + (x - x₀) * b := funext h
  rw [this]
  simpa using ((hasDerivAt_id x₀).sub_const x₀).mul_const b |>.const_add (f x₀)

section upd
variable (p : Fin 3 → ℝ) (q : Fin 2 → ℝ) (x : ℝ)
theorem u00 : Function.update p 0 x 0 = x := rfl
theorem u01 : Function.update p 0 x 1 = p 1 := rfl
theorem u02 : Function.update p 0 x 2 = p 2 := rfl
theorem u10 : Function.update p 1 x 0 = p 0 := rfl
theorem u11 : Function.update p 1 x 1 = x := rfl
theorem u12 : Function.update p 1 x 2 = p 2 := rfl
theorem u20 : Function.update p 2 x 0 = p 0 := rfl
theorem u21 : Function.update p 2 x 1 = p 1 := rfl
theorem u22 : Function.update p 2 x 2 = x := rfl
theorem w00 : Function.update q 0 x 0 = x := rfl
theorem w01 : Function.update q 0 x 1 = q 1 := rfl
theorem w10 : Function.update q 1 x 0 = q 0 := rfl
theorem w11 : Function.update q 1 x 1 = x := rfl
end upd

set_option maxHeartbeats 4000000 in
/-- C41: for every element and every parametric point the derivative arrays are the partial
derivatives of the shape functions. -/
theorem c41_derivatives (p3 : Fin 3 → ℝ) (p2 : Fin 2 → ℝ) :
    DerivAt hexShape (hexDeriv p3) p3 ∧ DerivAt tetShape tetDeriv p3 ∧
    DerivAt wedShape (wedDeriv p3) p3 ∧ DerivAt pyrShiftedShape (pyrShiftedDeriv p3) p3 ∧
    DerivAt quadShape (quadDeriv p2) p2 ∧ DerivAt triShape triDeriv p2 := by
  refine ⟨?_, ?_, ?_, ?_, ?_, ?_⟩ <;>
    simp only [DerivAt, forall8, forall6, forall5, forall4, forall3, forall2] <;>
    (repeat' apply And.intro) <;> refine hasDerivAt_of_affine fun x => ?_ <;>
    simp only [hexShape, tetShape, wedShape, pyrShiftedShape, quadShape, triShape, hexDeriv, tetDeriv,
      wedDeriv, pyrShiftedDeriv, quadDeriv, triDeriv, u00, u01, u02, u10, u11, u12, u20, u21, u22,
      w00, w01, w10, w11] <;> ring

/-- C41: the same for the pyramid away from the apex plane. -/
theorem c41_pyr_derivatives {eps : ℝ} (he : 0 < eps) (p : Fin 3 → ℝ) (hp : eps < |1 - p 2|) :
    DerivAt (pyrShape eps) (pyrDeriv eps p) p := by
  have hne : 1 - p 2 ≠ 0 := by
    intro h; rw [h, abs_zero] at hp; exact absurd hp (not_lt.2 he.le)
  have hev : ∀ᶠ x in nhds (p 2), eps < |1 - x| :=
    (continuous_const.sub continuous_id).abs.continuousAt.eventually (lt_mem_nhds hp)
  have hinv : HasDerivAt (fun x : ℝ => (1 - x)⁻¹) (1 / (1 - p 2) ^ 2) (p 2) := by
    exact (((hasDerivAt_id (p 2)).const_sub 1).inv hne).congr_deriv (by simp)
  -- a node function in the t direction: `(1 + a r - t)(1 + b s - t) / (4 (1-t))`
  have key : ∀ u v : ℝ, HasDerivAt (fun x : ℝ => (1 + u - pyrClamp eps x) * (1 + v - pyrClamp eps x)
      * (1 / 4 / (1 - pyrClamp eps x))) (u * v / (4 * (1 - p 2) ^ 2) - 1 / 4) (p 2) := by
    intro u v
    have hd : HasDerivAt (fun x : ℝ => (1 - x) / 4 + (u + v) / 4 + u * v / 4 * (1 - x)⁻¹)
        (-1 / 4 + u * v / 4 * (1 / (1 - p 2) ^ 2)) (p 2) := by
      have h1 : HasDerivAt (fun x : ℝ => (1 - x) / 4 + (u + v) / 4) (-1 / 4) (p 2) := by
        have := (((hasDerivAt_id (p 2)).const_sub 1).div_const 4).add_const ((u + v) / 4)
        simpa using this
      exact h1.add (hinv.const_mul (u * v / 4))
    have hval : u * v / (4 * (1 - p 2) ^ 2) - 1 / 4 = -1 / 4 + u * v / 4 * (1 / (1 - p 2) ^ 2) := by
      field_simp; ring
    rw [hval]
    refine hd.congr_of_eventuallyEq ?_
    filter_upwards [hev] with x hx
    have hx0 : 1 - x ≠ 0 := by
      intro h; rw [h, abs_zero] at hx; exact absurd hx (not_lt.2 he.le)
    simp only [pyrClamp, hx, if_true]
    field_simp; ring
  simp only [DerivAt, forall5, forall3]
  refine ⟨⟨?_, ?_, ?_⟩, ⟨?_, ?_, ?_⟩, ⟨?_, ?_, ?_⟩, ⟨?_, ?_, ?_⟩, ⟨?_, ?_, ?_⟩⟩
  all_goals first
    | (refine hasDerivAt_of_affine fun x => ?_
       simp only [pyrShape, pyrDeriv, u00, u01, u02, u10, u11, u12]; ring1)
    | skip
  · refine ((key (-p 0) (-p 1)).congr_of_eventuallyEq (Filter.Eventually.of_forall fun x => ?_)).congr_deriv ?_
    · simp only [pyrShape, u20, u21, u22] <;> ring
    · simp only [pyrDeriv, pyrClamp, hp, if_true]; field_simp; try ring1
  · refine ((key (p 0) (-p 1)).congr_of_eventuallyEq (Filter.Eventually.of_forall fun x => ?_)).congr_deriv ?_
    · simp only [pyrShape, u20, u21, u22] <;> ring
    · simp only [pyrDeriv, pyrClamp, hp, if_true]; field_simp; try ring1
  · refine ((key (p 0) (p 1)).congr_of_eventuallyEq (Filter.Eventually.of_forall fun x => ?_)).congr_deriv ?_
    · simp only [pyrShape, u20, u21, u22] <;> ring
    · simp only [pyrDeriv, pyrClamp, hp, if_true]; field_simp; try ring1
  · refine ((key (-p 0) (p 1)).congr_of_eventuallyEq (Filter.Eventually.of_forall fun x => ?_)).congr_deriv ?_
    · simp only [pyrShape, u20, u21, u22] <;> ring
    · simp only [pyrDeriv, pyrClamp, hp, if_true]; field_simp; try ring1
  · refine (hasDerivAt_id (p 2)).congr_of_eventuallyEq ?_
    filter_upwards [hev] with x hx
    simp only [pyrShape, u20, u21, u22, pyrClamp, hx, if_true, id]

section
variable {K : Type*} [Field K] [CharZero K]

set_option maxHeartbeats 4000000 in
/-- C41: the derivatives of the shape functions sum to zero in every direction at every point. -/
theorem c41_derivatives_sum_zero (p3 : Fin 3 → K) (p2 : Fin 2 → K) :
    (∀ j, ∑ k, hexDeriv p3 k j = 0) ∧ (∀ j, ∑ k, tetDeriv (K := K) k j = 0) ∧
    (∀ j, ∑ k, wedDeriv p3 k j = 0) ∧ (∀ j, ∑ k, pyrShiftedDeriv p3 k j = 0) ∧
    (∀ j, ∑ k, quadDeriv p2 k j = 0) ∧ (∀ j, ∑ k, triDeriv (K := K) k j = 0) := by
  refine ⟨?_, ?_, ?_, ?_, ?_, ?_⟩ <;> simp only [forall3, forall2] <;>
    simp only [hexDeriv, tetDeriv, wedDeriv, pyrShiftedDeriv, quadDeriv, triDeriv,
      Fin.sum_univ_eight, Fin.sum_univ_six,
      Fin.sum_univ_five, Fin.sum_univ_four, Fin.sum_univ_three, Fin.sum_univ_two] <;>
    (repeat' apply And.intro) <;> ring

/-- C41 (three dimensions): on an element whose Jacobian is not singular, the gradient computed from
the gradient operator satisfies the chain rule for every nodal field. -/
theorem c41_gradop3_chain_rule {n : ℕ} (refGrad coords : Fin n → Fin 3 → K)
    (hdet : (jacobian refGrad coords).det ≠ 0) (f : Fin n → K) (j : Fin 3) :
    ∑ i, jacobian refGrad coords i j * (∑ k, gradOp3 refGrad coords k i * f k)
      = ∑ k, refGrad k j * f k := by
  have hG : ∀ i, ∑ k, gradOp3 refGrad coords k i * f k
      = (∑ l, cofactor3 (jact refGrad coords) i l * (∑ k, refGrad k l * f k))
        * (1 / detOf (by decide) (jact refGrad coords) (cofactor3 (jact refGrad coords))) := by
    intro i
    simp only [gradOp3, Finset.mul_sum, Finset.sum_mul]
    rw [Finset.sum_comm]
    exact Finset.sum_congr rfl fun l _ => Finset.sum_congr rfl fun k _ => by ring
  have hJ : ∀ i l, jacobian refGrad coords i l = jact refGrad coords i l := fun _ _ => rfl
  simp only [hG]
  rw [Matrix.det_fin_three] at hdet
  simp only [hJ] at hdet ⊢
  generalize jact refGrad coords = a at hdet ⊢
  generalize hR : (fun l => ∑ k, refGrad k l * f k) = R
  have hR' : ∀ l, ∑ k, refGrad k l * f k = R l := fun l => congrFun hR l
  simp only [hR']
  have hd : detOf (by decide) a (cofactor3 a) = a 0 0 * a 1 1 * a 2 2 - a 0 0 * a 1 2 * a 2 1
      - a 0 1 * a 1 0 * a 2 2 + a 0 1 * a 1 2 * a 2 0 + a 0 2 * a 1 0 * a 2 1 - a 0 2 * a 1 1 * a 2 0 := by
    simp only [detOf, cofactor3, Fin.sum_univ_three, Fin.zero_eta, v30, v31, v32]; ring
  rw [hd]
  revert j
  simp only [forall3, Fin.sum_univ_three, cofactor3, v30, v31, v32]
  refine ⟨?_, ?_, ?_⟩ <;> rw [mul_one_div, mul_one_div, mul_one_div, mul_div, mul_div, mul_div,
    ← add_div, ← add_div, div_eq_iff hdet] <;> ring

/-- C41 (two dimensions), `generic_grad_op`. -/
theorem c41_gradop2_chain_rule {n : ℕ} (refGrad coords : Fin n → Fin 2 → K)
    (hdet : (jacobian refGrad coords).det ≠ 0) (f : Fin n → K) (j : Fin 2) :
    ∑ i, jacobian refGrad coords i j * (∑ k, gradOp2 refGrad coords k i * f k)
      = ∑ k, refGrad k j * f k := by
  have hG : ∀ i, ∑ k, gradOp2 refGrad coords k i * f k
      = (∑ l, cofactor2 (jact refGrad coords) i l * (∑ k, refGrad k l * f k))
        * (1 / detOf (by decide) (jact refGrad coords) (cofactor2 (jact refGrad coords))) := by
    intro i
    simp only [gradOp2, Finset.mul_sum, Finset.sum_mul]
    rw [Finset.sum_comm]
    exact Finset.sum_congr rfl fun l _ => Finset.sum_congr rfl fun k _ => by ring
  have hJ : ∀ i l, jacobian refGrad coords i l = jact refGrad coords i l := fun _ _ => rfl
  simp only [hG]
  rw [Matrix.det_fin_two] at hdet
  simp only [hJ] at hdet ⊢
  generalize jact refGrad coords = a at hdet ⊢
  generalize hR : (fun l => ∑ k, refGrad k l * f k) = R
  have hR' : ∀ l, ∑ k, refGrad k l * f k = R l := fun l => congrFun hR l
  simp only [hR']
  have hd : detOf (by decide) a (cofactor2 a) = a 0 0 * a 1 1 - a 0 1 * a 1 0 := by
    simp only [detOf, cofactor2, Fin.sum_univ_two, Fin.zero_eta, v20, v21]; ring
  rw [hd]
  revert j
  simp only [forall2, Fin.sum_univ_two, cofactor2, v20, v21]
  refine ⟨?_, ?_⟩ <;> rw [mul_one_div, mul_one_div, mul_div, mul_div,
    ← add_div, div_eq_iff hdet] <;> ring

/-- A matrix with non-zero determinant has trivial kernel (used for uniqueness of the gradient). -/
theorem eq_of_chain {d : ℕ} (J : Matrix (Fin d) (Fin d) K) (h : J.det ≠ 0) (g b : Fin d → K)
    (e : ∀ j, ∑ i, J i j * g i = ∑ i, J i j * b i) : g = b := by
  have h' : IsUnit J.transpose.det := by rw [Matrix.det_transpose]; exact isUnit_iff_ne_zero.2 h
  have : J.transpose.mulVec g = J.transpose.mulVec b := by
    funext j; simpa [Matrix.mulVec, dotProduct, Matrix.transpose_apply] using e j
  have h2 := congrArg (fun v => (J.transpose)⁻¹.mulVec v) this
  simpa [Matrix.mulVec_mulVec, Matrix.nonsing_inv_mul _ h'] using h2

theorem chain_linear {n d : ℕ} (refGrad coords : Fin n → Fin d → K) (hz : ∀ j, ∑ k, refGrad k j = 0)
    (a : K) (b : Fin d → K) (j : Fin d) :
    ∑ k, refGrad k j * (a + ∑ i, b i * coords k i) = ∑ i, jacobian refGrad coords i j * b i := by
  simp only [mul_add, Finset.sum_add_distrib, ← Finset.sum_mul, hz j, zero_mul, zero_add,
    Finset.mul_sum, jacobian, Matrix.of_apply]
  rw [Finset.sum_comm]
  simp only [Finset.sum_mul]
  exact Finset.sum_congr rfl fun i _ => Finset.sum_congr rfl fun k _ => by ring

/-- C41: on every non-degenerate three-dimensional element the gradient operator is exact for every
affine field of the physical coordinates. -/
theorem c41_gradop3_exact_linear {n : ℕ} (refGrad coords : Fin n → Fin 3 → K)
    (hz : ∀ j, ∑ k, refGrad k j = 0) (hdet : (jacobian refGrad coords).det ≠ 0) (a : K)
    (b : Fin 3 → K) :
    (fun i => ∑ k, gradOp3 refGrad coords k i * (a + ∑ i', b i' * coords k i')) = b :=
  eq_of_chain _ hdet _ _ fun j => by
    rw [c41_gradop3_chain_rule _ _ hdet, chain_linear _ _ hz]

/-- C41: same in two dimensions. -/
theorem c41_gradop2_exact_linear {n : ℕ} (refGrad coords : Fin n → Fin 2 → K)
    (hz : ∀ j, ∑ k, refGrad k j = 0) (hdet : (jacobian refGrad coords).det ≠ 0) (a : K)
    (b : Fin 2 → K) :
    (fun i => ∑ k, gradOp2 refGrad coords k i * (a + ∑ i', b i' * coords k i')) = b :=
  eq_of_chain _ hdet _ _ fun j => by
    rw [c41_gradop2_chain_rule _ _ hdet, chain_linear _ _ hz]

/-- C41, assembled for the hexahedron, tetrahedron and wedge: for every point and every geometry
with non-singular Jacobian there, gradients of affine fields are exact. -/
theorem c41_gradient_exact (p : Fin 3 → K) (a : K) (b : Fin 3 → K) :
    (∀ c : Fin 8 → Fin 3 → K, (jacobian (hexDeriv p) c).det ≠ 0 →
      ∀ i, ∑ k, gradOp3 (hexDeriv p) c k i * (a + ∑ i', b i' * c k i') = b i) ∧
    (∀ c : Fin 4 → Fin 3 → K, (jacobian tetDeriv c).det ≠ 0 →
      ∀ i, ∑ k, gradOp3 tetDeriv c k i * (a + ∑ i', b i' * c k i') = b i) ∧
    (∀ c : Fin 6 → Fin 3 → K, (jacobian (wedDeriv p) c).det ≠ 0 →
      ∀ i, ∑ k, gradOp3 (wedDeriv p) c k i * (a + ∑ i', b i' * c k i') = b i) ∧
    (∀ c : Fin 5 → Fin 3 → K, (jacobian (pyrShiftedDeriv p) c).det ≠ 0 →
      ∀ i, ∑ k, gradOp3 (pyrShiftedDeriv p) c k i * (a + ∑ i', b i' * c k i') = b i) := by
  obtain ⟨h1, h2, h3, h4, -, -⟩ := c41_derivatives_sum_zero p (fun _ => (0 : K))
  exact ⟨fun c hc i => congrFun (c41_gradop3_exact_linear _ c h1 hc a b) i,
    fun c hc i => congrFun (c41_gradop3_exact_linear _ c h2 hc a b) i,
    fun c hc i => congrFun (c41_gradop3_exact_linear _ c h3 hc a b) i,
    fun c hc i => congrFun (c41_gradop3_exact_linear _ c h4 hc a b) i⟩

-- the reference tetrahedron has a non-singular Jacobian
example : (jacobian (K := ℚ) tetDeriv tetNodes).det ≠ 0 := by
  rw [Matrix.det_fin_three]
  simp [jacobian, tetDeriv, tetNodes, Fin.sum_univ_four]

end

section
variable {K : Type*} [Field K] [LinearOrder K] [IsStrictOrderedRing K]

/-- C41: the pyramid's derivatives sum to zero at every point, the apex included, so its gradient
operator is exact for affine fields wherever the Jacobian is not singular. -/
theorem c41_pyr_gradient_exact {eps : K} (he : 0 < eps) (p : Fin 3 → K) :
    (∀ j, ∑ k, pyrDeriv eps p k j = 0) ∧
    ∀ (c : Fin 5 → Fin 3 → K), (jacobian (pyrDeriv eps p) c).det ≠ 0 → ∀ (a : K) (b : Fin 3 → K),
      ∀ i, ∑ k, gradOp3 (pyrDeriv eps p) c k i * (a + ∑ i', b i' * c k i') = b i := by
  have hz : ∀ j, ∑ k, pyrDeriv eps p k j = 0 := by
    have h := pyrClamp_ne he (p 2)
    simp only [forall3, pyrDeriv, Fin.sum_univ_five]
    generalize pyrClamp eps (p 2) = t at h ⊢
    refine ⟨?_, ?_, ?_⟩ <;> ring
  exact ⟨hz, fun c hc a b i => congrFun (c41_gradop3_exact_linear _ c hz hc a b) i⟩

/-- The two-dimensional gradient operators with a usable determinant are the generic one. -/
theorem quadGradOp_eq {n : ℕ} {tiny : K} (refGrad coords : Fin n → Fin 2 → K)
    (hd : tiny < (jacobian refGrad coords).det) : quadGradOp tiny refGrad coords = gradOp2 refGrad coords := by
  have e : (jacobian refGrad coords).det = (∑ k, refGrad k 0 * coords k 0) * (∑ k, refGrad k 1 * coords k 1)
      - (∑ k, refGrad k 0 * coords k 1) * (∑ k, refGrad k 1 * coords k 0) := by
    rw [Matrix.det_fin_two]; simp only [jacobian, Matrix.of_apply]; ring
  rw [e] at hd
  funext k i
  have d : detOf (by decide) (jact refGrad coords) (cofactor2 (jact refGrad coords))
      = (∑ k, refGrad k 0 * coords k 0) * (∑ k, refGrad k 1 * coords k 1)
      - (∑ k, refGrad k 0 * coords k 1) * (∑ k, refGrad k 1 * coords k 0) := by
    simp only [detOf, cofactor2, jact, Fin.sum_univ_two, Fin.zero_eta, v20, v21]; ring
  simp only [quadGradOp, gradOp2, d, hd, if_true]
  revert i
  simp only [forall2, v20, v21, Fin.sum_univ_two, cofactor2, jact]
  constructor <;> ring

theorem triGradOp_eq {n : ℕ} {tiny : K} (refGrad coords : Fin n → Fin 2 → K)
    (hd : tiny ≤ (jacobian refGrad coords).det) : triGradOp tiny refGrad coords = gradOp2 refGrad coords := by
  have e : (jacobian refGrad coords).det = (∑ k, refGrad k 0 * coords k 0) * (∑ k, refGrad k 1 * coords k 1)
      - (∑ k, refGrad k 0 * coords k 1) * (∑ k, refGrad k 1 * coords k 0) := by
    rw [Matrix.det_fin_two]; simp only [jacobian, Matrix.of_apply]; ring
  rw [e] at hd
  funext k i
  have d : detOf (by decide) (jact refGrad coords) (cofactor2 (jact refGrad coords))
      = (∑ k, refGrad k 0 * coords k 0) * (∑ k, refGrad k 1 * coords k 1)
      - (∑ k, refGrad k 0 * coords k 1) * (∑ k, refGrad k 1 * coords k 0) := by
    simp only [detOf, cofactor2, jact, Fin.sum_univ_two, Fin.zero_eta, v20, v21]; ring
  simp only [triGradOp, gradOp2, d, not_lt.2 hd, if_false]
  revert i
  simp only [forall2, v20, v21, Fin.sum_univ_two, cofactor2, jact]
  constructor <;> ring

/-- C41, quadrilateral and triangle: on every element whose Jacobian determinant is positive (above
the code's cut-off) gradients of affine fields are exact. -/
theorem c41_gradient_exact_2d {tiny : K} (ht : 0 ≤ tiny) (p : Fin 2 → K) (a : K) (b : Fin 2 → K) :
    (∀ c : Fin 4 → Fin 2 → K, tiny < (jacobian (quadDeriv p) c).det →
      ∀ i, ∑ k, quadGradOp tiny (quadDeriv p) c k i * (a + ∑ i', b i' * c k i') = b i) ∧
    (∀ c : Fin 3 → Fin 2 → K, tiny < (jacobian triDeriv c).det →
      ∀ i, ∑ k, triGradOp tiny triDeriv c k i * (a + ∑ i', b i' * c k i') = b i) := by
  obtain ⟨-, -, -, -, h5, h6⟩ := c41_derivatives_sum_zero (fun _ => (0 : K)) p
  refine ⟨fun c hc i => ?_, fun c hc i => ?_⟩
  · rw [quadGradOp_eq _ _ hc]
    exact congrFun (c41_gradop2_exact_linear _ c h5 (ht.trans_lt hc).ne' a b) i
  · rw [triGradOp_eq _ _ hc.le]
    exact congrFun (c41_gradop2_exact_linear _ c h6 (ht.trans_lt hc).ne' a b) i

/-- C41, the limit of the claim: on an element with determinant below the cut-off (in particular an
inverted one) the computed gradient of an affine field is the true one times the determinant, that
is, wrong unless the determinant is one. -/
theorem c41_inverted_gradient {tiny : K} (p : Fin 2 → K) (a : K) (b : Fin 2 → K)
    (c : Fin 4 → Fin 2 → K) (hc : (jacobian (quadDeriv p) c).det ≤ tiny)
    (hne : (jacobian (quadDeriv p) c).det ≠ 0) :
    ∀ i, ∑ k, quadGradOp tiny (quadDeriv p) c k i * (a + ∑ i', b i' * c k i')
      = (jacobian (quadDeriv p) c).det * b i := by
  obtain ⟨-, -, -, -, h5, -⟩ := c41_derivatives_sum_zero (fun _ => (0 : K)) p
  have hex := c41_gradop2_exact_linear _ c h5 hne a b
  have e : (jacobian (quadDeriv p) c).det = (∑ k, quadDeriv p k 0 * c k 0) * (∑ k, quadDeriv p k 1 * c k 1)
      - (∑ k, quadDeriv p k 0 * c k 1) * (∑ k, quadDeriv p k 1 * c k 0) := by
    rw [Matrix.det_fin_two]; simp only [jacobian, Matrix.of_apply]; ring
  have d : detOf (by decide) (jact (quadDeriv p) c) (cofactor2 (jact (quadDeriv p) c))
      = (jacobian (quadDeriv p) c).det := by
    rw [e]; simp only [detOf, cofactor2, jact, Fin.sum_univ_two, Fin.zero_eta, v20, v21]; ring
  have hk : ∀ k i, quadGradOp tiny (quadDeriv p) c k i
      = (jacobian (quadDeriv p) c).det * gradOp2 (quadDeriv p) c k i := by
    intro k i
    simp only [gradOp2, d]
    rw [mul_comm, mul_assoc, one_div_mul_cancel hne, mul_one]
    simp only [quadGradOp, ← e, not_lt.2 hc, if_false]
    revert i
    simp only [forall2, v20, v21, Fin.sum_univ_two, cofactor2, jact]
    constructor <;> ring
  intro i
  simp only [hk, mul_assoc, ← Finset.mul_sum]
  rw [congrFun hex i]

-- the reference square turned over: determinant -1
example : (jacobian (quadDeriv ![(0 : ℚ), 0]) (fun k => ![quadNodes (1/2) k 1, quadNodes (1/2) k 0])).det = -1 := by
  rw [Matrix.det_fin_two]
  simp [jacobian, quadDeriv, quadNodes, Fin.sum_univ_four]
  norm_num

end

section
variable {K : Type*} [Field K] [CharZero K]

/-- C41: `gup` is `J Jᵀ` and `glo` its inverse: the two metric tensors of `gij` are inverse to each
other on every non-degenerate element. -/
theorem c41_metric_tensors (a : Fin 3 → Fin 3 → K) (h : (Matrix.of a).det ≠ 0) :
    Matrix.of (gUpper a) = Matrix.of a * (Matrix.of a).transpose ∧
    Matrix.of (gLower (gUpper a)) * Matrix.of (gUpper a) = 1 := by
  have hU : Matrix.of (gUpper a) = Matrix.of a * (Matrix.of a).transpose := by
    ext i j
    revert i j
    simp only [forall3, Matrix.mul_apply, Matrix.transpose_apply, Matrix.of_apply, gUpper,
      Fin.sum_univ_three, v30, v31, v32]
    refine ⟨⟨?_, ?_, ?_⟩, ⟨?_, ?_, ?_⟩, ?_, ?_, ?_⟩ <;> first | trivial | ring1
  refine ⟨hU, ?_⟩
  have hd : (Matrix.of (gUpper a)).det ≠ 0 := by
    rw [hU, Matrix.det_mul, Matrix.det_transpose]; exact mul_ne_zero h h
  have hs : gUpper a 1 0 = gUpper a 0 1 ∧ gUpper a 2 0 = gUpper a 0 2 ∧ gUpper a 2 1 = gUpper a 1 2 :=
    ⟨rfl, rfl, rfl⟩
  rw [Matrix.det_fin_three] at hd
  simp only [Matrix.of_apply] at hd
  generalize gUpper a = g at hs hd ⊢
  rw [hs.1, hs.2.1, hs.2.2] at hd
  have hd' : g 0 0 * (g 1 1 * g 2 2 - g 1 2 * g 1 2) - g 0 1 * (g 0 1 * g 2 2 - g 1 2 * g 0 2)
      + g 0 2 * (g 0 1 * g 1 2 - g 1 1 * g 0 2) ≠ 0 := by
    intro h0; apply hd; linear_combination h0
  ext i j
  revert i j
  simp only [forall3, Matrix.mul_apply, Matrix.of_apply, Fin.sum_univ_three, hs.1, hs.2.1, hs.2.2,
    gLower, v30, v31, v32, Matrix.one_apply, Fin.reduceEq, if_true, if_false]
  generalize g 0 0 = x00 at hd' ⊢
  generalize g 0 1 = x01 at hd' ⊢
  generalize g 0 2 = x02 at hd' ⊢
  generalize g 1 1 = x11 at hd' ⊢
  generalize g 1 2 = x12 at hd' ⊢
  generalize g 2 2 = x22 at hd' ⊢
  generalize hD : x00 * (x11 * x22 - x12 * x12) - x01 * (x01 * x22 - x12 * x02)
      + x02 * (x01 * x12 - x11 * x02) = D at hd' ⊢
  refine ⟨⟨?_, ?_, ?_⟩, ⟨?_, ?_, ?_⟩, ?_, ?_, ?_⟩ <;> field_simp <;> first
    | ring1
    | (rw [← hD]; ring1)

/-! ## C59: side coordinates -/

open Verif.ElemGeom in
set_option maxHeartbeats 4000000 in
/-- C59 (hexahedron, tetrahedron, quadrilateral, triangle): interpolating the side's nodal values
with the side's shape functions at `q` is interpolating the element's nodal values at the element
coordinates the code maps `q` to, for every side, point and field; other ordinals are refused. -/
theorem c59_side_coordinates (f : ℕ → K) (q : Fin 2 → K) (r : Fin 1 → K) (s : ℕ) :
    (∀ p, hexSide s q = some p → s < 6 ∧
      interp (quadGeneralShape q) (fun k => f ((hexSides.getD s []).getD k 0))
        = interp (hexShape p) (fun k => f k)) ∧
    (∀ p, tetSide s q = some p → s < 4 ∧
      interp (triShape q) (fun k => f ((tetSides.getD s []).getD k 0))
        = interp (tetShape p) (fun k => f k)) ∧
    (∀ p, quadSide s r = some p → s < 4 ∧
      interp (edgeShape r) (fun k => f ((quad2dSides.getD s []).getD k 0))
        = interp (quadShape p) (fun k => f k)) ∧
    (∀ p, triSide s r = some p → s < 3 ∧
      interp (edgeShape r) (fun k => f ((tri2dSides.getD s []).getD k 0))
        = interp (triShape p) (fun k => f k)) ∧
    (s < 6 → (hexSide s q).isSome) ∧ (s < 4 → (tetSide s q).isSome ∧ (quadSide s r).isSome) ∧
    (s < 3 → (triSide s r).isSome) := by
  refine ⟨fun p hp => ?_, fun p hp => ?_, fun p hp => ?_, fun p hp => ?_, fun h => ?_, fun h => ?_,
    fun h => ?_⟩
  · unfold hexSide at hp
    split at hp <;> simp only [Option.some.injEq, reduceCtorEq] at hp <;> subst hp <;>
      refine ⟨by decide, ?_⟩ <;>
      simp only [interp, Fin.sum_univ_four, Fin.sum_univ_eight, quadGeneralShape, hexShape, v30, v31,
        v32] <;> simp [hexSides, -mul_eq_mul_left_iff, -mul_eq_mul_right_iff] <;> ring
  · unfold tetSide at hp
    split at hp <;> simp only [Option.some.injEq, reduceCtorEq] at hp <;> subst hp <;>
      refine ⟨by decide, ?_⟩ <;>
      simp only [interp, Fin.sum_univ_four, Fin.sum_univ_three, triShape, tetShape, v30, v31,
        v32] <;> simp [tetSides, -mul_eq_mul_left_iff, -mul_eq_mul_right_iff, -add_left_inj, -add_right_inj, -mul_eq_mul_left_iff] <;> first | ring1 | (left; ring1)
  · unfold quadSide at hp
    split at hp <;> simp only [Option.some.injEq, reduceCtorEq] at hp <;> subst hp <;>
      refine ⟨by decide, ?_⟩ <;>
      simp only [interp, Fin.sum_univ_four, Fin.sum_univ_two, edgeShape, quadShape, v20, v21] <;>
      simp [quad2dSides, -mul_eq_mul_left_iff, -mul_eq_mul_right_iff] <;> ring
  · unfold triSide at hp
    split at hp <;> simp only [Option.some.injEq, reduceCtorEq] at hp <;> subst hp <;>
      refine ⟨by decide, ?_⟩ <;>
      simp only [interp, Fin.sum_univ_three, Fin.sum_univ_two, edgeShape, triShape, v20, v21] <;>
      simp [tri2dSides, -mul_eq_mul_left_iff, -mul_eq_mul_right_iff] <;> ring
  · interval_cases s <;> simp [hexSide]
  · interval_cases s <;> simp [tetSide, quadSide]
  · interval_cases s <;> simp [triSide]

open Verif.ElemGeom in
set_option maxHeartbeats 4000000 in
/-- C59 (wedge): quadrilateral sides 0-2, triangular sides 3-4. -/
theorem c59_wedge_side_coordinates (f : ℕ → K) (q : Fin 2 → K) (s : ℕ) (p : Fin 3 → K)
    (hp : wedSide s q = some p) :
    (s < 3 ∧ interp (quadGeneralShape q) (fun k => f ((wedSides.getD s []).getD k 0))
        = interp (wedShape p) (fun k => f k)) ∨
    (3 ≤ s ∧ s < 5 ∧ interp (triShape q) (fun k => f ((wedSides.getD s []).getD k 0))
        = interp (wedShape p) (fun k => f k)) := by
  unfold wedSide at hp
  split at hp <;> simp only [Option.some.injEq, reduceCtorEq] at hp <;> subst hp
  iterate 3
    · left
      refine ⟨by decide, ?_⟩
      simp only [interp, Fin.sum_univ_four, Fin.sum_univ_six, quadGeneralShape, wedShape, v30, v31, v32]
      simp [wedSides, -mul_eq_mul_left_iff, -mul_eq_mul_right_iff]; ring
  iterate 2
    · right
      refine ⟨by decide, by decide, ?_⟩
      simp only [interp, Fin.sum_univ_three, Fin.sum_univ_six, triShape, wedShape, v30, v31, v32]
      simp [wedSides, -mul_eq_mul_left_iff, -mul_eq_mul_right_iff]; ring

end

section
variable {K : Type*} [Field K] [LinearOrder K] [IsStrictOrderedRing K]

open Verif.ElemGeom in
set_option maxHeartbeats 4000000 in
/-- C59 (pyramid): triangular sides 0-3, quadrilateral base 4; away from the apex. -/
theorem c59_pyramid_side_coordinates {eps : K} (he : 0 < eps) (f : ℕ → K) (q : Fin 2 → K) (s : ℕ)
    (p : Fin 3 → K) (hp : pyrSide s q = some p) (ha : eps < |1 - p 2|) :
    (s < 4 ∧ interp (triShape q) (fun k => f ((pyrSides.getD s []).getD k 0))
        = interp (pyrShape eps p) (fun k => f k)) ∨
    (s = 4 ∧ interp (quadGeneralShape q) (fun k => f ((pyrSides.getD s []).getD k 0))
        = interp (pyrShape eps p) (fun k => f k)) := by
  have hne : 1 - p 2 ≠ 0 := by
    intro h; rw [h, abs_zero] at ha; exact absurd ha (not_lt.2 he.le)
  have hN : pyrShape eps p = fun k : Fin 5 => match k with
    | 0 => (1 - p 0 - p 2) * (1 - p 1 - p 2) * (1 / 4 / (1 - p 2))
    | 1 => (1 + p 0 - p 2) * (1 - p 1 - p 2) * (1 / 4 / (1 - p 2))
    | 2 => (1 + p 0 - p 2) * (1 + p 1 - p 2) * (1 / 4 / (1 - p 2))
    | 3 => (1 - p 0 - p 2) * (1 + p 1 - p 2) * (1 / 4 / (1 - p 2))
    | 4 => p 2 := by
    funext k; revert k; simp only [forall5, pyrShape, pyrClamp, ha, if_true, and_self]
  rw [hN]
  unfold pyrSide at hp
  split at hp <;> simp only [Option.some.injEq, reduceCtorEq] at hp <;> subst hp
  iterate 4
    · left
      refine ⟨by decide, ?_⟩
      simp only [v30, v31, v32] at hne ⊢
      simp only [interp, Fin.sum_univ_three, Fin.sum_univ_five, triShape]
      simp [pyrSides, -mul_eq_mul_left_iff, -mul_eq_mul_right_iff]; field_simp; ring
  · right
    refine ⟨rfl, ?_⟩
    simp only [interp, Fin.sum_univ_four, Fin.sum_univ_five, quadGeneralShape, v30, v31, v32]
    simp [pyrSides, -mul_eq_mul_left_iff, -mul_eq_mul_right_iff]; ring

end
end Verif.Shape
