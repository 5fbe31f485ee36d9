import Verif.Props.ShapeFunctions
import Verif.Model.PointSearch
import Verif.Spec.PointSearch
import Mathlib.Tactic.Linarith
import Mathlib.Tactic.Positivity

/-!
# C44: the point search inverts the interpolation (volume elements and 2D elements)
-/

set_option linter.unusedSimpArgs false
set_option linter.unusedSectionVars false
set_option linter.unusedVariables false

namespace Verif.Shape

/-! ## The iteration in general -/

theorem newton_pred {α : Type*} {step : α → Option α} {conv : α → α → Bool} :
    ∀ {n : ℕ} {x y : α}, newton step conv n x = some y → ∃ c, step c = some y ∧ conv c y = true := by
  intro n
  induction n with
  | zero => intro x y h; simp [newton] at h
  | succ n ih =>
    intro x y h
    unfold newton at h
    cases hs : step x with
    | none => rw [hs] at h; simp at h
    | some z =>
      rw [hs] at h
      by_cases hc : conv x z = true
      · simp only [hc, if_true, Option.some.injEq] at h
        subst h
        exact ⟨x, hs, hc⟩
      · simp only [hc, Bool.false_eq_true, if_false] at h
        exact ih h

theorem newton_two {α : Type*} {step : α → Option α} {conv : α → α → Bool} {x y : α} (n : ℕ)
    (h1 : step x = some y) (h2 : step y = some y) (hc : conv y y = true) :
    newton step conv (n + 2) x = some y := by
  unfold newton
  rw [h1]
  by_cases h : conv x y = true
  · simp [h]
  · simp only [h, Bool.false_eq_true, if_false]
    unfold newton
    rw [h2]
    simp [hc]

section
variable {K : Type*} [Field K] [LinearOrder K] [IsStrictOrderedRing K]

theorem converged_self {d : ℕ} {tol : K} (ht : 0 < tol) (x : Fin d → K) : converged tol x x = true := by
  simp [converged, ht]

theorem converged_iff {d : ℕ} {tol : K} (x y : Fin d → K) :
    converged tol x y = true ↔ ∑ i, (y i - x i) ^ 2 < tol := by
  have h : 0 ≤ ∑ i, (y i - x i) * (y i - x i) := Finset.sum_nonneg fun i _ => mul_self_nonneg _
  simp only [converged, decide_eq_true_eq, abs_of_nonneg h, pow_two]

/-- C44 (all Newton searches): if an iteration leaves the iterate where it is, the position
interpolated there is the point searched for. -/
theorem c44_zero_update {n d : ℕ} {N : (Fin d → K) → Fin n → K} {dN : (Fin d → K) → Fin n → Fin d → K}
    {e : Fin n → Fin d → K} {p : Fin d → K} {step : (Fin d → K) → Option (Fin d → K)}
    (hN : IsNewton N dN e p step) {c : Fin d → K} (hc : step c = some c) :
    ∀ i, interp (N c) (fun k => e k i) = p i := by
  by_cases hd : (jacobian (dN c) e).det = 0
  · rw [(hN c).1 hd] at hc; simp at hc
  · obtain ⟨y, hy, he⟩ := (hN c).2 hd
    rw [hc] at hy
    obtain rfl := Option.some.inj hy
    intro i
    have := he i
    simp at this
    exact (sub_eq_zero.1 this.symm).symm

/-- C44 (converse): where the interpolated position is already the point and the Jacobian is not
singular, the iteration stays. -/
theorem c44_fixed_point {n d : ℕ} {N : (Fin d → K) → Fin n → K} {dN : (Fin d → K) → Fin n → Fin d → K}
    {e : Fin n → Fin d → K} {p : Fin d → K} {step : (Fin d → K) → Option (Fin d → K)}
    (hN : IsNewton N dN e p step) {c : Fin d → K} (hd : (jacobian (dN c) e).det ≠ 0)
    (hp : ∀ i, interp (N c) (fun k => e k i) = p i) : step c = some c := by
  obtain ⟨y, hy, he⟩ := (hN c).2 hd
  rw [hy]
  have : (fun j => y j - c j) = fun _ => 0 := by
    refine eq_of_chain (jacobian (dN c) e).transpose (by rwa [Matrix.det_transpose]) _ _ fun i => ?_
    simp only [Matrix.transpose_apply, mul_zero, Finset.sum_const_zero]
    rw [he i, hp i, sub_self]
  congr 1
  funext j
  have := congrFun this j
  simpa [sub_eq_zero] using this

theorem mulVec_inj {d : ℕ} {A : Matrix (Fin d) (Fin d) K} (hA : A.det ≠ 0) {u v : Fin d → K}
    (h : ∀ i, ∑ j, A i j * u j = ∑ j, A i j * v j) : u = v :=
  eq_of_chain A.transpose (by rwa [Matrix.det_transpose]) _ _ fun i => by
    simpa [Matrix.transpose_apply] using h i

theorem exists_preimage {d : ℕ} {A : Matrix (Fin d) (Fin d) K} (hA : A.det ≠ 0) (b p : Fin d → K) :
    ∃ x : Fin d → K, ∀ i, p i = b i + ∑ j, A i j * x j := by
  have hu : IsUnit A.det := isUnit_iff_ne_zero.2 hA
  refine ⟨A⁻¹.mulVec (fun i => p i - b i), fun i => ?_⟩
  have h : A.mulVec (A⁻¹.mulVec (fun i => p i - b i)) = fun i => p i - b i := by
    rw [Matrix.mulVec_mulVec, Matrix.mul_nonsing_inv _ hu, Matrix.one_mulVec]
  have := congrFun h i
  simp only [Matrix.mulVec, dotProduct] at this ⊢
  rw [this]; ring

/-- On an affine element the isoparametric map is the affine map (at points where the shape functions
reproduce linear fields). -/
theorem interp_affine {n d : ℕ} {N : (Fin d → K) → Fin n → K} {node e : Fin n → Fin d → K}
    {b : Fin d → K} {A : Matrix (Fin d) (Fin d) K} (he : AffineElement node e b A) {c : Fin d → K}
    (hl : LinearAt N node c) (i : Fin d) :
    interp (N c) (fun k => e k i) = b i + ∑ j, A i j * c j := by
  have := hl (b i) (fun j => A i j)
  rw [← this]
  simp only [he _ i]

theorem jacobian_affine {n d : ℕ} {dN : Fin n → Fin d → K} {node e : Fin n → Fin d → K}
    {b : Fin d → K} {A : Matrix (Fin d) (Fin d) K} (he : AffineElement node e b A)
    (hz : ∀ j, ∑ k, dN k j = 0) (hd : ∀ j l, ∑ k, dN k j * node k l = if j = l then 1 else 0) :
    jacobian dN e = A := by
  ext i j
  have he' : ∀ k, e k i = b i + ∑ j, A i j * node k j := fun k => he k i
  simp only [jacobian, Matrix.of_apply, he', mul_add, Finset.sum_add_distrib, ← Finset.sum_mul, hz,
    zero_mul, zero_add, Finset.mul_sum]
  rw [Finset.sum_comm]
  have : ∀ l, ∑ k, dN k j * (A i l * node k l) = A i l * (if j = l then 1 else 0) := by
    intro l; rw [← hd j l, Finset.mul_sum]; exact Finset.sum_congr rfl fun k _ => by ring
  simp [this]

/-- The search on an affine element finds the exact parametric coordinates in at most two
iterations. -/
theorem affine_exact {n d : ℕ} {N : (Fin d → K) → Fin n → K} {dN : (Fin d → K) → Fin n → Fin d → K}
    {node e : Fin n → Fin d → K} {p : Fin d → K} {step : (Fin d → K) → Option (Fin d → K)}
    (hN : IsNewton N dN e p step) {b : Fin d → K} {A : Matrix (Fin d) (Fin d) K}
    (he : AffineElement node e b A) (hA : A.det ≠ 0) {tol : K} (ht : 0 < tol) (good : (Fin d → K) → Prop)
    (hl : ∀ c, good c → LinearAt N node c) (hz : ∀ c, good c → ∀ j, ∑ k, dN c k j = 0)
    (hd : ∀ c, good c → ∀ j l, ∑ k, dN c k j * node k l = if j = l then 1 else 0)
    {start x : Fin d → K} (hs : good start) (hx : good x) (hp : ∀ i, p i = b i + ∑ j, A i j * x j)
    (m : ℕ) : newton step (converged tol) (m + 2) start = some x := by
  have key : ∀ c, good c → step c = some x := by
    intro c hc
    have hJ := jacobian_affine he (hz c hc) (hd c hc)
    obtain ⟨y, hy, h⟩ := (hN c).2 (by rwa [hJ])
    rw [hy]
    congr 1
    rw [hJ] at h
    apply mulVec_inj hA
    intro i
    have h1 := h i
    rw [interp_affine he (hl c hc), hp i] at h1
    simp only [mul_sub, Finset.sum_sub_distrib] at h1
    linear_combination h1
  exact newton_two m (key _ hs) (key _ hx) (converged_self ht x)

/-! ## Hexahedron -/

/-- Derivatives of the hexahedron's shape functions on `[-1,1]^3`. -/
def hexGenDeriv (p : Fin 3 → K) : Fin 8 → Fin 3 → K := fun k j => 1 / 2 * hexDeriv (fun i => p i / 2) k j

set_option maxHeartbeats 4000000 in
theorem hexJRow_eq (e : Fin 8 → Fin 3 → K) (c : Fin 3 → K) (i j : Fin 3) :
    hexJRow (hexX e i) c j = -jacobian (hexGenDeriv c) e i j := by
  revert j
  simp only [forall3, jacobian, Matrix.of_apply, Fin.sum_univ_eight, hexGenDeriv, hexDeriv, hexJRow, hexX]
  refine ⟨?_, ?_, ?_⟩ <;> ring

theorem hexF_eq (e : Fin 8 → Fin 3 → K) (p c : Fin 3 → K) (i : Fin 3) :
    hexF (hexX e i) (p i - e 0 i) c = p i - interp (hexGeneralShape c) (fun k => e k i) := by
  simp only [hexF, hexX, interp, Fin.sum_univ_eight, hexGeneralShape]; ring

theorem hexUpdate_spec (a b g : Fin 3 → K) (f0 f1 f2 : K) (c : Fin 3 → K) (hD : jdet9 a b g ≠ 0) :
    ∃ y, hexUpdate a b g f0 f1 f2 c = some y ∧ ∑ j, a j * (y j - c j) = -f0 ∧
      ∑ j, b j * (y j - c j) = -f1 ∧ ∑ j, g j * (y j - c j) = -f2 := by
  refine ⟨_, by simp only [hexUpdate, hD, if_false]; rfl, ?_⟩
  simp only [Fin.sum_univ_three, v30, v31, v32]
  have e1 : ∀ D u v : K, D ≠ 0 → (D * u + v) / D - u = v / D := fun D u v h => by field_simp; ring
  generalize hd : jdet9 a b g = D at hD ⊢
  have hc : ∀ x y, (x / D = y) ↔ x = y * D := fun x y => div_eq_iff hD
  have h0 : (D * c 0 + f2 * (a 2 * b 1 - a 1 * b 2) - f1 * a 2 * g 1 + f0 * b 2 * g 1
            + f1 * a 1 * g 2 - f0 * b 1 * g 2) / D - c 0
      = (f2 * (a 2 * b 1 - a 1 * b 2) - f1 * a 2 * g 1 + f0 * b 2 * g 1
            + f1 * a 1 * g 2 - f0 * b 1 * g 2) / D := by field_simp; ring
  have h1 : (c 1 * D + f2 * (-(a 2 * b 0) + a 0 * b 2) + f1 * a 2 * g 0 - f0 * b 2 * g 0
            - f1 * a 0 * g 2 + f0 * b 0 * g 2) / D - c 1
      = (f2 * (-(a 2 * b 0) + a 0 * b 2) + f1 * a 2 * g 0 - f0 * b 2 * g 0
            - f1 * a 0 * g 2 + f0 * b 0 * g 2) / D := by field_simp; ring
  have h2 : (D * c 2 + f2 * (a 1 * b 0 - a 0 * b 1) - f1 * a 1 * g 0 + f0 * b 1 * g 0
            + f1 * a 0 * g 1 - f0 * b 0 * g 1) / D - c 2
      = (f2 * (a 1 * b 0 - a 0 * b 1) - f1 * a 1 * g 0 + f0 * b 1 * g 0
            + f1 * a 0 * g 1 - f0 * b 0 * g 1) / D := by field_simp; ring
  rw [h0, h1, h2]
  refine ⟨?_, ?_, ?_⟩ <;> rw [mul_div, mul_div, mul_div, ← add_div, ← add_div, hc, ← hd] <;>
    simp only [jdet9] <;> ring

/-- C44 (hexahedron): every iteration is a Newton iteration on "interpolated position = point". -/
theorem c44_hex_newton (e : Fin 8 → Fin 3 → K) (p : Fin 3 → K) :
    IsNewton hexGeneralShape hexGenDeriv e p (hexStep e p) := by
  intro c
  have hdet : jdet9 (hexJRow (hexX e 0) c) (hexJRow (hexX e 1) c) (hexJRow (hexX e 2) c)
      = -(jacobian (hexGenDeriv c) e).det := by
    rw [Matrix.det_fin_three]; simp only [jdet9, hexJRow_eq]; ring
  constructor
  · intro h
    simp only [hexStep, hexUpdate, hdet, h, neg_zero, if_true]
  · intro h
    obtain ⟨y, hy, h0, h1, h2⟩ := hexUpdate_spec (hexJRow (hexX e 0) c) (hexJRow (hexX e 1) c)
      (hexJRow (hexX e 2) c) (hexF (hexX e 0) (p 0 - e 0 0) c) (hexF (hexX e 1) (p 1 - e 0 1) c)
      (hexF (hexX e 2) (p 2 - e 0 2) c) c (by rw [hdet]; exact neg_ne_zero.2 h)
    refine ⟨y, hy, ?_⟩
    have hJ : ∀ i j, jacobian (hexGenDeriv c) e i j = -hexJRow (hexX e i) c j := fun i j => by
      rw [hexJRow_eq, neg_neg]
    simp only [hJ, ← hexF_eq, neg_mul, Finset.sum_neg_distrib, forall3]
    exact ⟨by rw [h0, neg_neg], by rw [h1, neg_neg], by rw [h2, neg_neg]⟩

/-- The derivative used is that of the shape functions. -/
theorem c44_hex_newton_derivative (p : Fin 3 → ℝ) : DerivAt hexGeneralShape (hexGenDeriv p) p := by
  simp only [DerivAt, forall8, forall3]
  (repeat' apply And.intro) <;> refine hasDerivAt_of_affine fun x => ?_ <;>
    simp only [hexGeneralShape, hexGenDeriv, hexDeriv, u00, u01, u02, u10, u11, u12, u20, u21, u22] <;> ring

theorem hexGenDeriv_zero (c : Fin 3 → K) (j : Fin 3) : ∑ k, hexGenDeriv c k j = 0 := by
  simp only [hexGenDeriv, ← Finset.mul_sum,
    (c41_derivatives_sum_zero (fun i => c i / 2) (fun _ => (0 : K))).1, mul_zero]

set_option maxHeartbeats 4000000 in
theorem hexGenDeriv_nodes (c : Fin 3 → K) :
    ∀ j l : Fin 3, ∑ k, hexGenDeriv c k j * hexNodes 1 k l = if j = l then 1 else 0 := by
  simp only [forall3, hexGenDeriv, hexDeriv, hexNodes, Fin.sum_univ_eight, v30, v31, v32,
    Fin.reduceEq, if_true, if_false]
  (repeat' apply And.intro) <;> ring

theorem hexDist_le_one (x : Fin 3 → K) : hexDist x ≤ 1 ↔ ∀ j, |x j| ≤ 1 := by
  have h0 := abs_nonneg (x 0)
  simp only [hexDist, List.foldl, forall3]
  constructor
  · intro h
    split_ifs at h <;> refine ⟨?_, ?_, ?_⟩ <;> linarith
  · rintro ⟨a, b, c⟩
    split_ifs <;> linarith

/-- C44 (hexahedron, affine geometry): for every point the search succeeds, the coordinates it
returns reproduce the point exactly, and the distance is at most one exactly for the points of the
element. -/
theorem c44_hex_affine {tol : K} (ht : 0 < tol) {e : Fin 8 → Fin 3 → K} {b : Fin 3 → K}
    {A : Matrix (Fin 3) (Fin 3) K} (he : AffineElement (hexNodes 1) e b A) (hA : A.det ≠ 0)
    (p : Fin 3 → K) :
    ∃ x, hexSearch tol e p = some x ∧ (∀ i, interp (hexGeneralShape x) (fun k => e k i) = p i) ∧
      (hexDist x ≤ 1 ↔ ∃ z : Fin 3 → K, (∀ j, |z j| ≤ 1) ∧ ∀ i, p i = b i + ∑ j, A i j * z j) := by
  obtain ⟨x, hx⟩ := exists_preimage hA b p
  have hlin : ∀ c : Fin 3 → K, LinearAt hexGeneralShape (hexNodes 1) c := fun c =>
    (c40_linear c (fun _ => 0) (fun _ => 0)).2.1
  refine ⟨x, affine_exact (c44_hex_newton e p) he hA ht (fun _ => True) (fun c _ => hlin c)
    (fun c _ => hexGenDeriv_zero c) (fun c _ => hexGenDeriv_nodes c) trivial trivial hx 18, ?_, ?_⟩
  · intro i; rw [interp_affine he (hlin x), ← hx i]
  · rw [hexDist_le_one]
    constructor
    · intro h; exact ⟨x, h, hx⟩
    · rintro ⟨z, hz, hpz⟩
      have : x = z := mulVec_inj hA fun i => by
        have := (hx i).symm.trans (hpz i); exact add_left_cancel this
      rw [this]; exact hz

-- a sheared brick
example : AffineElement (hexNodes (1 : ℚ)) (fun k i => ![3, 4, 5] i + ∑ j, !![2, 1, 0; 0, 1, 0; 0, 0, 1] i j
    * hexNodes 1 k j) ![3, 4, 5] !![2, 1, 0; 0, 1, 0; 0, 0, 1] ∧
    (!![2, 1, 0; 0, 1, 0; 0, 0, 1] : Matrix (Fin 3) (Fin 3) ℚ).det ≠ 0 :=
  ⟨fun _ _ => rfl, by simp [Matrix.det_fin_three]⟩

set_option maxHeartbeats 4000000 in
/-- Taylor remainder of the trilinear map: with `δ = y - c`. -/
theorem hex_remainder (e : Fin 8 → K) (c y : Fin 3 → K) :
    interp (hexGeneralShape y) e - interp (hexGeneralShape c) e
      - ∑ j, (∑ k, hexGenDeriv c k j * e k) * (y j - c j)
    = (y 0 - c 0) * (y 1 - c 1) * (1 / 8 * ((1 - y 2) * (e 0 - e 1 + e 2 - e 3) + (1 + y 2) * (e 4 - e 5 + e 6 - e 7)))
      + (y 1 - c 1) * (y 2 - c 2) * (1 / 8 * ((1 - c 0) * (e 0 - e 3 + e 7 - e 4) + (1 + c 0) * (e 1 - e 2 + e 6 - e 5)))
      + (y 0 - c 0) * (y 2 - c 2) * (1 / 8 * ((1 - c 1) * (e 0 - e 1 + e 5 - e 4) + (1 + c 1) * (e 3 - e 2 + e 6 - e 7))) := by
  simp only [interp, Fin.sum_univ_eight, Fin.sum_univ_three, hexGeneralShape, hexGenDeriv, hexDeriv]
  ring

theorem abs_blend {t u v W : K} (ht : |t| ≤ 2) (hu : |u| ≤ W) (hv : |v| ≤ W) :
    |1 / 8 * ((1 - t) * u + (1 + t) * v)| ≤ W / 2 := by
  have hW : 0 ≤ W := (abs_nonneg u).trans hu
  have h1 : |1 - t| + |1 + t| ≤ 4 := by
    rw [abs_le] at ht
    rcases abs_cases (1 - t) with h | h <;> rcases abs_cases (1 + t) with g | g <;> linarith [h.1, g.1]
  rw [abs_mul, abs_of_pos (by norm_num : (0 : K) < 1 / 8)]
  have h2 : |(1 - t) * u + (1 + t) * v| ≤ |1 - t| * W + |1 + t| * W := by
    refine (abs_add_le _ _).trans ?_
    rw [abs_mul, abs_mul]
    exact add_le_add (mul_le_mul_of_nonneg_left hu (abs_nonneg _)) (mul_le_mul_of_nonneg_left hv (abs_nonneg _))
  nlinarith

theorem abs_mul_le_sq (x y : K) : |x * y| ≤ (x ^ 2 + y ^ 2) / 2 := by
  rw [abs_le]; constructor <;> nlinarith [sq_nonneg (x + y), sq_nonneg (x - y)]

theorem abs_three {a b g P Q R H : K} (hH : 0 ≤ H) (hP : |P| ≤ H) (hQ : |Q| ≤ H) (hR : |R| ≤ H) :
    |a * b * P + b * g * Q + a * g * R| ≤ (a ^ 2 + b ^ 2 + g ^ 2) * H := by
  have h1 : |a * b * P| ≤ (a ^ 2 + b ^ 2) / 2 * H := by
    rw [abs_mul]; exact mul_le_mul (abs_mul_le_sq a b) hP (abs_nonneg _) (by positivity)
  have h2 : |b * g * Q| ≤ (b ^ 2 + g ^ 2) / 2 * H := by
    rw [abs_mul]; exact mul_le_mul (abs_mul_le_sq b g) hQ (abs_nonneg _) (by positivity)
  have h3 : |a * g * R| ≤ (a ^ 2 + g ^ 2) / 2 * H := by
    rw [abs_mul]; exact mul_le_mul (abs_mul_le_sq a g) hR (abs_nonneg _) (by positivity)
  have h4 := (abs_add_le (a * b * P + b * g * Q) (a * g * R)).trans
    (add_le_add_left (abs_add_le (a * b * P) (b * g * Q)) _)
  nlinarith

/-- C44 (hexahedron, any geometry): whenever the search reports a point as inside, the position
interpolated at the coordinates it returned is within `tol * W / 2` of the point in every direction,
`W` being a bound on the twist of the faces (zero for parallelograms) and `tol` the code's 1e-16. -/
theorem c44_hex_accuracy {tol : K} (ht : tol ≤ 1) {e : Fin 8 → Fin 3 → K} {p y : Fin 3 → K}
    (hs : hexSearch tol e p = some y) (hin : hexDist y ≤ 1) (i : Fin 3) {W : K}
    (w1 : |e 0 i - e 1 i + e 2 i - e 3 i| ≤ W) (w2 : |e 4 i - e 5 i + e 6 i - e 7 i| ≤ W)
    (w3 : |e 0 i - e 3 i + e 7 i - e 4 i| ≤ W) (w4 : |e 1 i - e 2 i + e 6 i - e 5 i| ≤ W)
    (w5 : |e 0 i - e 1 i + e 5 i - e 4 i| ≤ W) (w6 : |e 3 i - e 2 i + e 6 i - e 7 i| ≤ W) :
    |interp (hexGeneralShape y) (fun k => e k i) - p i| ≤ tol * W / 2 := by
  obtain ⟨c, hc, hconv⟩ := newton_pred hs
  rw [converged_iff, Fin.sum_univ_three] at hconv
  have hy := (hexDist_le_one y).1 hin
  by_cases hd : (jacobian (hexGenDeriv c) e).det = 0
  · rw [(c44_hex_newton e p c).1 hd] at hc; simp at hc
  obtain ⟨y', hy', hstep⟩ := (c44_hex_newton e p c).2 hd
  rw [hc] at hy'
  obtain rfl := Option.some.inj hy'
  have hrem := hex_remainder (fun k => e k i) c y
  have hst := hstep i
  simp only [jacobian, Matrix.of_apply] at hst
  rw [hst] at hrem
  have hcb : ∀ j, |c j| ≤ 2 := by
    intro j
    have hj : (y j - c j) ^ 2 ≤ 1 := by
      have h0 := sq_nonneg (y 0 - c 0); have h1 := sq_nonneg (y 1 - c 1); have h2 := sq_nonneg (y 2 - c 2)
      revert j; simp only [forall3]; exact ⟨by linarith, by linarith, by linarith⟩
    have hj' : |y j - c j| ≤ 1 := abs_le_one_iff_mul_self_le_one.2 (by rwa [← pow_two])
    have := hy j
    rw [abs_le] at this hj' ⊢
    constructor <;> linarith [this.1, this.2, hj'.1, hj'.2]
  have hW : 0 ≤ W := (abs_nonneg _).trans w1
  have e1 : interp (hexGeneralShape y) (fun k => e k i) - p i
      = interp (hexGeneralShape y) (fun k => e k i) - interp (hexGeneralShape c) (fun k => e k i)
        - (p i - interp (hexGeneralShape c) (fun k => e k i)) := by ring
  rw [e1, hrem]
  have hb := abs_three (a := y 0 - c 0) (b := y 1 - c 1) (g := y 2 - c 2) (H := W / 2) (by linarith)
    (abs_blend ((hy 2).trans (by norm_num)) w1 w2) (abs_blend (hcb 0) w3 w4) (abs_blend (hcb 1) w5 w6)
  refine hb.trans ?_
  have : ((y 0 - c 0) ^ 2 + (y 1 - c 1) ^ 2 + (y 2 - c 2) ^ 2) * (W / 2) ≤ tol * (W / 2) :=
    mul_le_mul_of_nonneg_right hconv.le (by linarith)
  linarith

end
end Verif.Shape
