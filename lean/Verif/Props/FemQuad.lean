import Verif.Props.FemElem
import Mathlib.MeasureTheory.Integral.IntervalIntegral.FundThmCalculus
import Mathlib.Analysis.SpecialFunctions.Integrals.Basic
import Mathlib.Analysis.Calculus.Deriv.Pow

/-!
# C151: the quadrature rules of the finite-element master elements
-/

namespace Verif.Shape
open MvPolynomial intervalIntegral

/-! ## Integrals of monomials -/

theorem int_mono (c : ℝ) (n : ℕ) (a b : ℝ) : IntervalIntegrable (fun x : ℝ => c * x ^ n) MeasureTheory.volume a b :=
  (continuous_const.mul (continuous_id.pow n)).intervalIntegrable a b

/-- One-dimensional moments. -/
noncomputable def J (n : ℕ) : ℝ := ∫ x in (-1 : ℝ)..1, x ^ n

theorem cube_sum {ι : Type*} (s : Finset ι) (c : ι → ℝ) (e : ι → Fin 3 → ℕ) :
    cubeIntegral (fun p => ∑ m ∈ s, c m * (p 0 ^ e m 0 * p 1 ^ e m 1 * p 2 ^ e m 2)) =
      ∑ m ∈ s, c m * (J (e m 0) * J (e m 1) * J (e m 2)) := by
  simp only [cubeIntegral, v30, v31, v32]
  have h1 : ∀ x y : ℝ, (∫ z in (-1 : ℝ)..1, ∑ m ∈ s, c m * (x ^ e m 0 * y ^ e m 1 * z ^ e m 2)) =
      ∑ m ∈ s, (c m * x ^ e m 0 * J (e m 2)) * y ^ e m 1 := by
    intro x y
    rw [integral_finsetSum fun m _ => by
      simpa only [mul_assoc] using int_mono (c m * (x ^ e m 0 * y ^ e m 1)) (e m 2) (-1) 1]
    refine Finset.sum_congr rfl fun m _ => ?_
    rw [J, ← integral_const_mul, ← integral_mul_const]
    exact integral_congr fun z _ => by ring
  simp only [h1]
  have h2 : ∀ x : ℝ, (∫ y in (-1 : ℝ)..1, ∑ m ∈ s, (c m * x ^ e m 0 * J (e m 2)) * y ^ e m 1) =
      ∑ m ∈ s, (c m * J (e m 1) * J (e m 2)) * x ^ e m 0 := by
    intro x
    rw [integral_finsetSum fun m _ => int_mono _ _ _ _]
    refine Finset.sum_congr rfl fun m _ => ?_
    rw [integral_const_mul, ← J]; ring
  simp only [h2]
  rw [integral_finsetSum fun m _ => int_mono _ _ _ _]
  refine Finset.sum_congr rfl fun m _ => ?_
  rw [integral_const_mul, ← J]; ring

theorem eval_sum3 (P : MvPolynomial (Fin 3) ℝ) (p : Fin 3 → ℝ) :
    eval p P = ∑ m ∈ P.support, P.coeff m * (p 0 ^ m 0 * p 1 ^ m 1 * p 2 ^ m 2) := by
  rw [eval_eq']; simp only [Fin.prod_univ_three]

theorem eval_sum2 (P : MvPolynomial (Fin 2) ℝ) (p : Fin 2 → ℝ) :
    eval p P = ∑ m ∈ P.support, P.coeff m * (p 0 ^ m 0 * p 1 ^ m 1) := by
  rw [eval_eq']; simp only [Fin.prod_univ_two]

/-- Two Gauss points integrate the powers up to three. -/
theorem gauss_pair (g : ℝ) (hg : g * g = 1 / 3) (n : ℕ) (hn : n ≤ 3) : g ^ n + (-g) ^ n = J n := by
  rw [J, integral_pow]
  interval_cases n
  · norm_num
  · norm_num
  · norm_num; linear_combination 2 * hg
  · norm_num; ring

/-- C151: the eight-point rule of the hexahedron is exact for every polynomial of degree at most three in each
variable. -/
theorem c151_hex_exact (g : ℝ) (hg : g * g = 1 / 3) (P : MvPolynomial (Fin 3) ℝ) (hP : ∀ i, P.degreeOf i ≤ 3) :
    ∑ ip, hexFemWeight ip * eval (hexFemPts g ip) P = cubeIntegral fun p => eval p P := by
  simp only [eval_sum3]
  rw [cube_sum]
  simp only [Finset.mul_sum]
  rw [Finset.sum_comm]
  refine Finset.sum_congr rfl fun m hm => ?_
  have hd : ∀ i, m i ≤ 3 := fun i => (monomial_le_degreeOf i hm).trans (hP i)
  rw [← gauss_pair g hg _ (hd 0), ← gauss_pair g hg _ (hd 1), ← gauss_pair g hg _ (hd 2)]
  simp only [Fin.sum_univ_eight, hexFemWeight, hexFemPts, v30, v31, v32]
  ring

/-- The Gauss abscissa of the code satisfies the hypothesis. -/
example : (Real.sqrt 3 / 3) * (Real.sqrt 3 / 3) = 1 / 3 := by
  have := Real.mul_self_sqrt (show (0 : ℝ) ≤ 3 by norm_num)
  linear_combination this / 9

/-! ## Volumes and moments of hexahedra -/

/-- `f` is a polynomial of degree at most `d i` in the variable `i`. -/
def PolyFn (d : Fin 3 → ℕ) (f : (Fin 3 → ℝ) → ℝ) : Prop :=
  ∃ P : MvPolynomial (Fin 3) ℝ, (∀ p, eval p P = f p) ∧ ∀ i, P.degreeOf i ≤ d i

theorem PolyFn.mono {d d' : Fin 3 → ℕ} {f : (Fin 3 → ℝ) → ℝ} (h : PolyFn d f) (hd : ∀ i, d i ≤ d' i) :
    PolyFn d' f := let ⟨P, h1, h2⟩ := h; ⟨P, h1, fun i => (h2 i).trans (hd i)⟩

theorem PolyFn.const (c : ℝ) : PolyFn 0 fun _ => c := ⟨C c, fun p => by simp, fun i => by simp [degreeOf_C]⟩

theorem PolyFn.add {d : Fin 3 → ℕ} {f g : (Fin 3 → ℝ) → ℝ} (hf : PolyFn d f) (hg : PolyFn d g) :
    PolyFn d fun p => f p + g p :=
  let ⟨P, h1, h2⟩ := hf; let ⟨Q, k1, k2⟩ := hg
  ⟨P + Q, fun p => by simp [h1, k1], fun i => (degreeOf_add_le i P Q).trans (max_le (h2 i) (k2 i))⟩

theorem PolyFn.neg {d : Fin 3 → ℕ} {f : (Fin 3 → ℝ) → ℝ} (hf : PolyFn d f) : PolyFn d fun p => -f p :=
  let ⟨P, h1, h2⟩ := hf
  ⟨-P, fun p => by simp [h1], fun i => by simpa [degreeOf_neg] using h2 i⟩

theorem PolyFn.sub {d : Fin 3 → ℕ} {f g : (Fin 3 → ℝ) → ℝ} (hf : PolyFn d f) (hg : PolyFn d g) :
    PolyFn d fun p => f p - g p := by simpa only [sub_eq_add_neg] using hf.add hg.neg

theorem PolyFn.mul {d d' : Fin 3 → ℕ} {f g : (Fin 3 → ℝ) → ℝ} (hf : PolyFn d f) (hg : PolyFn d' g) :
    PolyFn (d + d') fun p => f p * g p :=
  let ⟨P, h1, h2⟩ := hf; let ⟨Q, k1, k2⟩ := hg
  ⟨P * Q, fun p => by simp [h1, k1], fun i => (degreeOf_mul_le i P Q).trans (add_le_add (h2 i) (k2 i))⟩

theorem PolyFn.var (j : Fin 3) : PolyFn (Pi.single j 1) fun p => p j :=
  ⟨X j, fun p => by simp, fun i => by rw [degreeOf_X]; by_cases h : i = j <;> simp [Pi.single_apply, h, eq_comm]⟩

theorem PolyFn.sum {ι : Type*} {d : Fin 3 → ℕ} (s : Finset ι) {f : ι → (Fin 3 → ℝ) → ℝ}
    (h : ∀ k ∈ s, PolyFn d (f k)) : PolyFn d fun p => ∑ k ∈ s, f k p := by
  classical
  induction s using Finset.induction_on with
  | empty => simpa using (PolyFn.const 0).mono fun i => Nat.zero_le _
  | insert a s ha ih =>
    simp only [Finset.sum_insert ha]
    exact (h a (Finset.mem_insert_self a s)).add (ih fun k hk => h k (Finset.mem_insert_of_mem hk))

theorem PolyFn.plus (j : Fin 3) : PolyFn (Pi.single j 1) fun p => 1 + p j :=
  ((PolyFn.const 1).mono fun _ => Nat.zero_le _).add (PolyFn.var j)

theorem PolyFn.minus (j : Fin 3) : PolyFn (Pi.single j 1) fun p => 1 - p j :=
  ((PolyFn.const 1).mono fun _ => Nat.zero_le _).sub (PolyFn.var j)

theorem polyFn_shape (k : Fin 8) : PolyFn 1 fun p => hexFemShape p k := by
  have h8 : PolyFn 0 fun _ => (1 / 8 : ℝ) := PolyFn.const _
  fin_cases k <;> simp only [hexFemShape] <;>
    refine PolyFn.mono (((h8.mul ?_).mul ?_).mul ?_) (d := 0 + Pi.single 0 1 + Pi.single 1 1 + Pi.single 2 1)
      (by decide) <;> first | exact PolyFn.plus _ | exact PolyFn.minus _

/-- Degrees of the derivative in direction `j`: none in `j`, one in the others. -/
def dj (j : Fin 3) : Fin 3 → ℕ := fun i => if i = j then 0 else 1

theorem polyFn_pair (a b : Fin 3) {f g : (Fin 3 → ℝ) → ℝ} (hf : PolyFn (Pi.single a 1) f)
    (hg : PolyFn (Pi.single b 1) g) : PolyFn (0 + Pi.single a 1 + Pi.single b 1) fun p => 1 / 8 * f p * g p :=
  ((PolyFn.const (1 / 8)).mul hf).mul hg

theorem polyFn_deriv (k : Fin 8) (j : Fin 3) : PolyFn (dj j) fun p => hexFemDeriv p k j := by
  fin_cases j <;> fin_cases k <;> simp only [hexFemDeriv, Fin.zero_eta, Fin.mk_one, Fin.reduceFinMk, v30, v31, v32] <;>
    (try refine PolyFn.neg ?_) <;>
    refine PolyFn.mono (polyFn_pair _ _ (by first | exact PolyFn.plus _ | exact PolyFn.minus _)
      (by first | exact PolyFn.plus _ | exact PolyFn.minus _)) (by decide)

theorem polyFn_jac (x : Fin 8 → Fin 3 → ℝ) (i j : Fin 3) : PolyFn (dj j) fun p => jact (hexFemDeriv p) x i j :=
  PolyFn.sum _ fun k _ => ((polyFn_deriv k j).mul (PolyFn.const (x k i))).mono fun i => by simp

theorem polyFn_det (x : Fin 8 → Fin 3 → ℝ) : PolyFn 2 fun p => (jacobian (hexFemDeriv p) x).det := by
  simp only [Matrix.det_fin_three]
  have h : ∀ a b c, PolyFn 2 fun p => jact (hexFemDeriv p) x a 0 * jact (hexFemDeriv p) x b 1 *
      jact (hexFemDeriv p) x c 2 := fun a b c =>
    (((polyFn_jac x a 0).mul (polyFn_jac x b 1)).mul (polyFn_jac x c 2)).mono (by decide)
  have hJ : ∀ p i l, jacobian (hexFemDeriv p) x i l = jact (hexFemDeriv p) x i l := fun _ _ _ => rfl
  simp only [hJ]
  have e := fun p : Fin 3 → ℝ => p
  refine ((((((h 0 1 2).sub ?_).sub ?_).add ?_).add ?_).sub ?_)
  · convert h 0 2 1 using 2; ring
  · convert h 1 0 2 using 2; ring
  · convert h 2 0 1 using 2; ring
  · convert h 1 2 0 using 2; ring
  · convert h 2 1 0 using 2; ring

theorem exact_of_polyFn (g : ℝ) (hg : g * g = 1 / 3) {f : (Fin 3 → ℝ) → ℝ} (h : PolyFn 3 f) :
    ∑ ip, hexFemWeight ip * f (hexFemPts g ip) = cubeIntegral f := by
  obtain ⟨P, h1, h2⟩ := h
  have := c151_hex_exact g hg P h2
  simpa only [h1] using this

/-- C151: on every hexahedron, however distorted, the quadrature computes the volume and the integral of every
shape function exactly: the sum of `det_j * weight` is the integral over the reference cube of the Jacobian
determinant of the isoparametric map. -/
theorem c151_hex_volume (g : ℝ) (hg : g * g = 1 / 3) (x : Fin 8 → Fin 3 → ℝ) :
    (∑ ip, (hexFem g x).detJ ip * (hexFem g x).weight ip =
      cubeIntegral fun p => (jacobian (hexFemDeriv p) x).det) ∧
    ∀ a, ∑ ip, (hexFem g x).shape ip a * ((hexFem g x).detJ ip * (hexFem g x).weight ip) =
      cubeIntegral fun p => hexFemShape p a * (jacobian (hexFemDeriv p) x).det := by
  constructor
  · rw [← exact_of_polyFn g hg ((polyFn_det x).mono (by decide))]
    refine Finset.sum_congr rfl fun ip _ => ?_
    rw [(c150_hex_consistent g x ip).2.1, mul_comm]; rfl
  · intro a
    rw [← exact_of_polyFn g hg (((polyFn_shape a).mul (polyFn_det x)).mono (by decide))]
    refine Finset.sum_congr rfl fun ip _ => ?_
    rw [(c150_hex_consistent g x ip).2.1]; simp only [hexFem]; ring

/-- C151: on a parallelepiped the mass matrix is exact as well. -/
theorem c151_hex_mass (g : ℝ) (hg : g * g = 1 / 3) (x : Fin 8 → Fin 3 → ℝ) (J0 : ℝ)
    (hJ : ∀ p, (jacobian (hexFemDeriv p) x).det = J0) (a b : Fin 8) :
    ∑ ip, (hexFem g x).shape ip a * (hexFem g x).shape ip b * ((hexFem g x).detJ ip * (hexFem g x).weight ip) =
      cubeIntegral fun p => hexFemShape p a * hexFemShape p b * J0 := by
  rw [← exact_of_polyFn g hg ((((polyFn_shape a).mul (polyFn_shape b)).mul (PolyFn.const J0)).mono (by decide))]
  refine Finset.sum_congr rfl fun ip _ => ?_
  rw [(c150_hex_consistent g x ip).2.1, hJ]; simp only [hexFem]; ring

/-! ## Simplices -/

/-- `∫_0^a y^j (a-y)^k dy = a^(j+k+1) j! k! / (j+k+1)!`. -/
theorem beta_int (a : ℝ) (j k : ℕ) : (∫ y in (0 : ℝ)..a, y ^ j * (a - y) ^ k) =
    a ^ (j + k + 1) * (j.factorial * k.factorial / (j + k + 1).factorial) := by
  induction k generalizing j with
  | zero =>
    simp only [pow_zero, mul_one, integral_pow, Nat.factorial_zero, add_zero, Nat.factorial_succ]
    have : (j.factorial : ℝ) ≠ 0 := by exact_mod_cast j.factorial_ne_zero
    push_cast; field_simp; simp
  | succ k ih =>
    have hd : ∀ y : ℝ, HasDerivAt (fun y : ℝ => y ^ (j + 1) * (a - y) ^ (k + 1))
        ((j + 1) * (y ^ j * (a - y) ^ (k + 1)) - (k + 1) * (y ^ (j + 1) * (a - y) ^ k)) y := by
      intro y
      have h1 := hasDerivAt_pow (j + 1) y
      have h2 := ((hasDerivAt_id y).const_sub a).pow (k + 1)
      refine (h1.mul h2).congr_deriv ?_
      simp; ring
    have hc : ∀ m n : ℕ, Continuous fun y : ℝ => y ^ m * (a - y) ^ n := fun m n => by fun_prop
    have hi := integral_eq_sub_of_hasDerivAt (a := 0) (b := a) (fun y _ => hd y)
      (Continuous.intervalIntegrable (by fun_prop) _ _)
    rw [integral_sub ((hc j (k + 1)).const_mul _ |>.intervalIntegrable _ _)
      ((hc (j + 1) k).const_mul _ |>.intervalIntegrable _ _), integral_const_mul, integral_const_mul, ih] at hi
    simp only [sub_self, zero_pow (Nat.succ_ne_zero _), mul_zero, zero_mul] at hi
    have hj : ((j : ℝ) + 1) ≠ 0 := by positivity
    have hf : (((j + k + 2).factorial : ℕ) : ℝ) ≠ 0 := by exact_mod_cast Nat.factorial_ne_zero _
    have e1 : j + 1 + k + 1 = j + k + 2 := by ring
    have e2 : j + (k + 1) + 1 = j + k + 2 := by ring
    rw [e1] at hi
    rw [e2]
    have h3 : (((j + 1).factorial : ℕ) : ℝ) = (j + 1) * j.factorial := by push_cast [Nat.factorial_succ]; ring
    have h4 : (((k + 1).factorial : ℕ) : ℝ) = (k + 1) * k.factorial := by push_cast [Nat.factorial_succ]; ring
    rw [h3] at hi
    rw [h4]
    apply mul_left_cancel₀ hj
    rw [sub_eq_zero.1 hi]
    field_simp

/-- Dirichlet's formula. -/
noncomputable def tetMoment (i j k : ℕ) : ℝ :=
  i.factorial * j.factorial * k.factorial / (i + j + k + 3).factorial

noncomputable def triMoment (i j : ℕ) : ℝ := i.factorial * j.factorial / (i + j + 2).factorial

theorem tri_sum' {ι : Type*} (s : Finset ι) (c : ι → ℝ) (e : ι → Fin 2 → ℕ) :
    triIntegral (fun p => ∑ m ∈ s, c m * (p 0 ^ e m 0 * p 1 ^ e m 1)) =
      ∑ m ∈ s, c m * triMoment (e m 0) (e m 1) := by
  simp only [triIntegral, v20, v21]
  have h1 : ∀ x : ℝ, (∫ y in (0 : ℝ)..(1 - x), ∑ m ∈ s, c m * (x ^ e m 0 * y ^ e m 1)) =
      ∑ m ∈ s, (c m / (e m 1 + 1)) * (x ^ e m 0 * (1 - x) ^ (e m 1 + 1)) := by
    intro x
    rw [integral_finsetSum fun m _ => by
      simpa only [mul_assoc] using int_mono (c m * x ^ e m 0) (e m 1) 0 (1 - x)]
    refine Finset.sum_congr rfl fun m _ => ?_
    rw [integral_const_mul, integral_const_mul, integral_pow]
    simp; ring
  simp only [h1]
  rw [integral_finsetSum fun m _ => Continuous.intervalIntegrable (by fun_prop) _ _]
  refine Finset.sum_congr rfl fun m _ => ?_
  rw [integral_const_mul, beta_int, triMoment]
  have h3 : (((e m 1 + 1).factorial : ℕ) : ℝ) = (e m 1 + 1) * (e m 1).factorial := by
    push_cast [Nat.factorial_succ]; ring
  rw [h3, show e m 0 + (e m 1 + 1) + 1 = e m 0 + e m 1 + 2 by ring]
  have hj : ((e m 1 : ℝ) + 1) ≠ 0 := by positivity
  have hf : (((e m 0 + e m 1 + 2).factorial : ℕ) : ℝ) ≠ 0 := by exact_mod_cast Nat.factorial_ne_zero _
  simp; field_simp

theorem tet_sum {ι : Type*} (s : Finset ι) (c : ι → ℝ) (e : ι → Fin 3 → ℕ) :
    tetIntegral (fun p => ∑ m ∈ s, c m * (p 0 ^ e m 0 * p 1 ^ e m 1 * p 2 ^ e m 2)) =
      ∑ m ∈ s, c m * tetMoment (e m 0) (e m 1) (e m 2) := by
  simp only [tetIntegral, v30, v31, v32]
  have h1 : ∀ x y : ℝ, (∫ z in (0 : ℝ)..(1 - x - y), ∑ m ∈ s, c m * (x ^ e m 0 * y ^ e m 1 * z ^ e m 2)) =
      ∑ m ∈ s, (c m / (e m 2 + 1) * x ^ e m 0) * (y ^ e m 1 * (1 - x - y) ^ (e m 2 + 1)) := by
    intro x y
    rw [integral_finsetSum fun m _ => by
      simpa only [mul_assoc] using int_mono (c m * (x ^ e m 0 * y ^ e m 1)) (e m 2) 0 (1 - x - y)]
    refine Finset.sum_congr rfl fun m _ => ?_
    rw [integral_const_mul, integral_const_mul, integral_pow]
    simp; ring
  simp only [h1]
  have h2 : ∀ x : ℝ, (∫ y in (0 : ℝ)..(1 - x), ∑ m ∈ s, (c m / (e m 2 + 1) * x ^ e m 0) *
      (y ^ e m 1 * (1 - x - y) ^ (e m 2 + 1))) =
      ∑ m ∈ s, (c m / (e m 2 + 1) * ((e m 1).factorial * (e m 2 + 1).factorial /
        (e m 1 + (e m 2 + 1) + 1).factorial)) * (x ^ e m 0 * (1 - x) ^ (e m 1 + (e m 2 + 1) + 1)) := by
    intro x
    rw [integral_finsetSum fun m _ => Continuous.intervalIntegrable (by fun_prop) _ _]
    refine Finset.sum_congr rfl fun m _ => ?_
    rw [integral_const_mul, beta_int]; ring
  simp only [h2]
  rw [integral_finsetSum fun m _ => Continuous.intervalIntegrable (by fun_prop) _ _]
  refine Finset.sum_congr rfl fun m _ => ?_
  rw [integral_const_mul, beta_int, tetMoment]
  have h3 : (((e m 2 + 1).factorial : ℕ) : ℝ) = (e m 2 + 1) * (e m 2).factorial := by
    push_cast [Nat.factorial_succ]; ring
  rw [h3, show e m 0 + (e m 1 + (e m 2 + 1) + 1) + 1 = e m 0 + e m 1 + e m 2 + 3 by ring]
  have hj : ((e m 2 : ℝ) + 1) ≠ 0 := by positivity
  have hf : (((e m 0 + e m 1 + e m 2 + 3).factorial : ℕ) : ℝ) ≠ 0 := by exact_mod_cast Nat.factorial_ne_zero _
  have hg : (((e m 1 + (e m 2 + 1) + 1).factorial : ℕ) : ℝ) ≠ 0 := by exact_mod_cast Nat.factorial_ne_zero _
  simp only [one_pow, one_mul]; field_simp

/-- Quadrature on the tetrahedron. -/
noncomputable def tetQuad (f : (Fin 3 → ℝ) → ℝ) : ℝ :=
  (tet10Rule.map fun r => (r.1 : ℝ) * f fun i => (r.2 i : ℝ)).sum

/-- Quadrature on the triangle. -/
noncomputable def triQuad (f : (Fin 2 → ℝ) → ℝ) : ℝ :=
  (tri6Rule.map fun r => (r.1 : ℝ) * f fun i => (r.2 i : ℝ)).sum

theorem tet_table : ∀ i < 5, ∀ j < 5, ∀ k < 5, i + j + k ≤ 4 →
    |(tet10Rule.map fun r => r.1 * (r.2 0 ^ i * r.2 1 ^ j * r.2 2 ^ k)).sum -
      (i.factorial * j.factorial * k.factorial : ℚ) / (i + j + k + 3).factorial| ≤ 1 / 10 ^ 17 := by
  decide +kernel

theorem tri_table : ∀ i < 6, ∀ j < 6, i + j ≤ 5 →
    |(tri6Rule.map fun r => r.1 * (r.2 0 ^ i * r.2 1 ^ j)).sum -
      (i.factorial * j.factorial : ℚ) / (i + j + 2).factorial| ≤ 5 / 10 ^ 16 := by
  decide +kernel

theorem map_sum_finset {α ι : Type*} (l : List α) (s : Finset ι) (w : α → ℝ) (c : ι → ℝ) (f : α → ι → ℝ) :
    (l.map fun r => w r * ∑ m ∈ s, c m * f r m).sum = ∑ m ∈ s, c m * (l.map fun r => w r * f r m).sum := by
  induction l with
  | nil => simp
  | cons a l ih =>
    rw [List.map_cons, List.sum_cons, ih, Finset.mul_sum]
    simp only [List.map_cons, List.sum_cons, mul_add, Finset.sum_add_distrib]
    congr 1
    exact Finset.sum_congr rfl fun m _ => by ring

theorem deg_le {d n : ℕ} {P : MvPolynomial (Fin d) ℝ} (h : P.totalDegree ≤ n) {m : Fin d →₀ ℕ}
    (hm : m ∈ P.support) : ∑ i, m i ≤ n := by
  have := (le_totalDegree hm).trans h
  rwa [Finsupp.sum_fintype _ _ (by simp)] at this

/-- C151: the 16-point rule of the tetrahedron integrates every polynomial of total degree at most four up to
`10^-17` times the sum of its coefficients (the weights and points are decimal constants). -/
theorem c151_tet_accurate (P : MvPolynomial (Fin 3) ℝ) (hP : P.totalDegree ≤ 4) :
    |tetQuad (fun p => eval p P) - tetIntegral fun p => eval p P| ≤ 1 / 10 ^ 17 * coeffSum P := by
  simp only [eval_sum3]
  rw [tet_sum, tetQuad, map_sum_finset, ← Finset.sum_sub_distrib, coeffSum, Finset.mul_sum]
  refine (Finset.abs_sum_le_sum_abs _ _).trans (Finset.sum_le_sum fun m hm => ?_)
  rw [← mul_sub, abs_mul, mul_comm]
  refine mul_le_mul_of_nonneg_right ?_ (abs_nonneg _)
  have hd := deg_le hP hm
  rw [Fin.sum_univ_three] at hd
  have := tet_table (m 0) (by omega) (m 1) (by omega) (m 2) (by omega) hd
  have h2 : ((|(tet10Rule.map fun r => r.1 * (r.2 0 ^ m 0 * r.2 1 ^ m 1 * r.2 2 ^ m 2)).sum -
      ((m 0).factorial * (m 1).factorial * (m 2).factorial : ℚ) / (m 0 + m 1 + m 2 + 3).factorial| : ℚ) : ℝ) ≤
      ((1 / 10 ^ 17 : ℚ) : ℝ) := by exact_mod_cast this
  rw [Rat.cast_abs, Rat.cast_sub, Rat.cast_list_sum, List.map_map] at h2
  refine le_trans (le_of_eq ?_) (h2.trans (le_of_eq (by norm_num)))
  congr 2
  · congr 1; refine List.map_congr_left fun r _ => ?_; simp
  · rw [tetMoment]; push_cast; rfl

/-- C151: the 7-point rule of the triangle integrates every polynomial of total degree at most five up to
`5 10^-16` times the sum of its coefficients. -/
theorem c151_tri_accurate (P : MvPolynomial (Fin 2) ℝ) (hP : P.totalDegree ≤ 5) :
    |triQuad (fun p => eval p P) - triIntegral fun p => eval p P| ≤ 5 / 10 ^ 16 * coeffSum P := by
  simp only [eval_sum2]
  rw [tri_sum', triQuad, map_sum_finset, ← Finset.sum_sub_distrib, coeffSum, Finset.mul_sum]
  refine (Finset.abs_sum_le_sum_abs _ _).trans (Finset.sum_le_sum fun m hm => ?_)
  rw [← mul_sub, abs_mul, mul_comm]
  refine mul_le_mul_of_nonneg_right ?_ (abs_nonneg _)
  have hd := deg_le hP hm
  rw [Fin.sum_univ_two] at hd
  have := tri_table (m 0) (by omega) (m 1) (by omega) hd
  have h2 : ((|(tri6Rule.map fun r => r.1 * (r.2 0 ^ m 0 * r.2 1 ^ m 1)).sum -
      ((m 0).factorial * (m 1).factorial : ℚ) / (m 0 + m 1 + 2).factorial| : ℚ) : ℝ) ≤
      ((5 / 10 ^ 16 : ℚ) : ℝ) := by exact_mod_cast this
  rw [Rat.cast_abs, Rat.cast_sub, Rat.cast_list_sum, List.map_map] at h2
  refine le_trans (le_of_eq ?_) (h2.trans (le_of_eq (by norm_num)))
  congr 2
  · congr 1; refine List.map_congr_left fun r _ => ?_; simp
  · rw [triMoment]; push_cast; rfl

/-- C151: all weights are positive and all points lie inside the reference elements. -/
theorem c151_points_inside :
    (∀ r ∈ tet10Rule, 0 < r.1 ∧ 0 < r.2 0 ∧ 0 < r.2 1 ∧ 0 < r.2 2 ∧ r.2 0 + r.2 1 + r.2 2 < 1) ∧
    ∀ r ∈ tri6Rule, 0 < r.1 ∧ 0 < r.2 0 ∧ 0 < r.2 1 ∧ r.2 0 + r.2 1 < 1 := by
  constructor <;> decide +kernel

end Verif.Shape
