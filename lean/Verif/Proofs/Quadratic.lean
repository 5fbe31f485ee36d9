import Mathlib.Analysis.Calculus.Deriv.Pow
import Mathlib.Analysis.Calculus.Deriv.Mul
import Mathlib.Analysis.Calculus.Deriv.Add
import Mathlib.Analysis.SpecialFunctions.Integrals.Basic
import Mathlib.Tactic
import Verif.Model.Quadratic
import Verif.Spec.Quadratic

open Finset

namespace Nalu.P2
open Spec

theorem dist_sq : scsDist * scsDist = 1 / 3 := by
  have h : Real.sqrt 3 * Real.sqrt 3 = 3 := Real.mul_self_sqrt (by norm_num)
  simp only [scsDist]; nlinarith

theorem dist_pos : 0 < scsDist := by unfold scsDist; positivity

theorem dist_lt_one : scsDist < 1 := by nlinarith [dist_sq, dist_pos]

theorem dist_inv : scsDist = 1 / Real.sqrt 3 := by
  have h : Real.sqrt 3 * Real.sqrt 3 = 3 := Real.mul_self_sqrt (by norm_num)
  have hp : 0 < Real.sqrt 3 := by positivity
  rw [scsDist, div_eq_div_iff (by norm_num) hp.ne']; linarith

theorem gaussAbs_eq (i : ℕ) : gaussAbs i = if i = 0 then -scsDist else scsDist := by
  cases i <;> simp [gaussAbs, scsDist]

theorem gaussWt_eq (i : ℕ) : gaussWt i = 1 / 2 := by cases i <;> rfl

/-! ### shape functions as products -/

theorem quad9Shape_eq {n : ℕ} (hn : n < 9) (s t : ℝ) : quad9Shape s t n = ell (ref2 n).1 s * ell (ref2 n).2 t := by
  interval_cases n <;> simp [quad9Shape, ref2, ell] <;> ring

theorem face9Shape_eq {n : ℕ} (hn : n < 9) (s t : ℝ) : face9Shape s t n = ell (ref2 n).1 s * ell (ref2 n).2 t := by
  interval_cases n <;> simp [face9Shape, ref2, ell] <;> ring

theorem hex27Shape_eq {n : ℕ} (hn : n < 27) (s t u : ℝ) :
    hex27Shape s t u n = ell (ref3 n).1 s * ell (ref3 n).2.1 t * ell (ref3 n).2.2 u := by
  interval_cases n <;> simp [hex27Shape, ref3, ell] <;> ring

theorem edge3Shape_eq {n : ℕ} (hn : n < 3) (s : ℝ) : edge3Shape s n = ell (ref1 n) s := by
  interval_cases n <;> simp [edge3Shape, ref1, ell] <;> ring

/-- The derivative of `ell`. -/
noncomputable def dell (a : ℤ) (s : ℝ) : ℝ := if a = -1 then s - 1 / 2 else if a = 0 then -(2 * s) else s + 1 / 2

theorem ell_deriv (a : ℤ) (s : ℝ) : HasDerivAt (ell a) (dell a s) s := by
  have hq : ∀ p0 p1 p2 : ℝ, HasDerivAt (fun s : ℝ => p0 + p1 * s + p2 * s ^ 2) (p1 + 2 * p2 * s) s := by
    intro p0 p1 p2
    have := (((hasDerivAt_id s).const_mul p1).const_add p0).add ((hasDerivAt_pow 2 s).const_mul p2)
    refine this.congr_deriv ?_
    simp; ring
  unfold ell dell
  split_ifs
  · have := hq 0 (-(1 / 2)) (1 / 2)
    refine (this.congr_deriv (by ring)).congr_of_eventuallyEq (Filter.Eventually.of_forall fun s => by simp only; ring)
  · have := hq 1 0 (-1)
    refine (this.congr_deriv (by ring)).congr_of_eventuallyEq (Filter.Eventually.of_forall fun s => by simp only; ring)
  · have := hq 0 (1 / 2) (1 / 2)
    refine (this.congr_deriv (by ring)).congr_of_eventuallyEq (Filter.Eventually.of_forall fun s => by simp only; ring)

theorem quad9Deriv_eq {n : ℕ} (hn : n < 9) (s t : ℝ) :
    quad9Deriv s t n = ![dell (ref2 n).1 s * ell (ref2 n).2 t, ell (ref2 n).1 s * dell (ref2 n).2 t] := by
  interval_cases n <;> ext r <;> fin_cases r <;> simp [quad9Deriv, ref2, ell, dell] <;> ring

theorem face9Deriv_eq {n : ℕ} (hn : n < 9) (s t : ℝ) :
    face9Deriv s t n = ![dell (ref2 n).1 s * ell (ref2 n).2 t, ell (ref2 n).1 s * dell (ref2 n).2 t] := by
  interval_cases n <;> ext r <;> fin_cases r <;> simp [face9Deriv, ref2, ell, dell] <;> ring

theorem hex27Deriv_eq {n : ℕ} (hn : n < 27) (s t u : ℝ) :
    hex27Deriv s t u n = ![dell (ref3 n).1 s * ell (ref3 n).2.1 t * ell (ref3 n).2.2 u, ell (ref3 n).1 s * dell (ref3 n).2.1 t * ell (ref3 n).2.2 u,
      ell (ref3 n).1 s * ell (ref3 n).2.1 t * dell (ref3 n).2.2 u] := by
  interval_cases n <;> ext r <;> fin_cases r <;> simp [hex27Deriv, ref3, ell, dell] <;> ring

/-! ### quadratics and the Gauss rule -/

/-- `f` is a quadratic with derivative `f'`. -/
def IsQuad (f f' : ℝ → ℝ) : Prop := ∃ p0 p1 p2 : ℝ, ∀ s, f s = p0 + p1 * s + p2 * s ^ 2 ∧ f' s = p1 + 2 * p2 * s

theorem IsQuad.const (c : ℝ) : IsQuad (fun _ => c) (fun _ => 0) := ⟨c, 0, 0, fun s => by constructor <;> ring⟩

theorem isQuad_ell (a : ℤ) : IsQuad (ell a) (dell a) := by
  unfold ell dell
  split_ifs
  · exact ⟨0, -(1 / 2), 1 / 2, fun s => by constructor <;> ring⟩
  · exact ⟨1, 0, -1, fun s => by constructor <;> ring⟩
  · exact ⟨0, 1 / 2, 1 / 2, fun s => by constructor <;> ring⟩

theorem IsQuad.mul_const {f f' : ℝ → ℝ} (h : IsQuad f f') (c : ℝ) : IsQuad (fun s => f s * c) (fun s => f' s * c) := by
  obtain ⟨a, b, d, h⟩ := h
  exact ⟨a * c, b * c, d * c, fun s => by simp only [(h s).1, (h s).2]; constructor <;> ring⟩

theorem IsQuad.const_mul {f f' : ℝ → ℝ} (h : IsQuad f f') (c : ℝ) : IsQuad (fun s => c * f s) (fun s => c * f' s) := by
  obtain ⟨a, b, d, h⟩ := h
  exact ⟨a * c, b * c, d * c, fun s => by simp only [(h s).1, (h s).2]; constructor <;> ring⟩

theorem IsQuad.sum {ι : Type*} (s : Finset ι) {f f' : ι → ℝ → ℝ} (h : ∀ i ∈ s, IsQuad (f i) (f' i)) :
    IsQuad (fun x => ∑ i ∈ s, f i x) (fun x => ∑ i ∈ s, f' i x) := by
  classical
  induction s using Finset.induction_on with
  | empty => simpa using IsQuad.const 0
  | insert a s ha ih =>
    obtain ⟨p0, p1, p2, hp⟩ := h a (by simp)
    obtain ⟨q0, q1, q2, hq⟩ := ih fun i hi => h i (by simp [hi])
    refine ⟨p0 + q0, p1 + q1, p2 + q2, fun x => ?_⟩
    simp only [Finset.sum_insert ha]
    have h1 := (hq x).1
    have h2 := (hq x).2
    simp only at h1 h2
    rw [h1, h2, (hp x).1, (hp x).2]
    constructor <;> ring

theorem IsQuad.hasDerivAt {f f' : ℝ → ℝ} (h : IsQuad f f') (s : ℝ) : HasDerivAt f (f' s) s := by
  obtain ⟨p0, p1, p2, h⟩ := h
  have := (((hasDerivAt_id s).const_mul p1).const_add p0).add ((hasDerivAt_pow 2 s).const_mul p2)
  refine (this.congr_deriv ?_).congr_of_eventuallyEq (Filter.Eventually.of_forall fun x => ?_)
  · rw [(h s).2]; simp; ring
  · rw [(h x).1]; simp

/-- The rule integrates the derivative of a product of two quadratics exactly. -/
theorem gauss_prod {p p' q q' : ℝ → ℝ} (hp : IsQuad p p') (hq : IsQuad q q') (k : ℕ) :
    ∑ i ∈ range 2, lineWt k i * (p' (gaussLoc k i) * q (gaussLoc k i) + p (gaussLoc k i) * q' (gaussLoc k i))
      = p (scsEnd (k + 1)) * q (scsEnd (k + 1)) - p (scsEnd k) * q (scsEnd k) := by
  obtain ⟨p0, p1, p2, hp⟩ := hp
  obtain ⟨q0, q1, q2, hq⟩ := hq
  simp only [sum_range_succ, sum_range_zero, zero_add, (hp _).1, (hp _).2, (hq _).1, (hq _).2, lineWt, gaussLoc, isoMap, gaussAbs_eq, gaussWt_eq]
  simp only [if_true, one_ne_zero, if_false]
  generalize scsEnd (k + 1) = b
  generalize scsEnd k = a
  have h := dist_sq
  generalize scsDist = d at *
  linear_combination ((p1 * q2 + p2 * q1) * (b - a) ^ 3 * (3 / 4) + p2 * q2 * (b - a) ^ 3 * (a + b) * (3 / 2)) * h

theorem gauss_deriv {p p' : ℝ → ℝ} (hp : IsQuad p p') (k : ℕ) :
    ∑ i ∈ range 2, lineWt k i * p' (gaussLoc k i) = p (scsEnd (k + 1)) - p (scsEnd k) := by
  have := gauss_prod hp (IsQuad.const 1) k
  simpa using this

theorem areaWt_eq (k l i j : ℕ) : areaWt k l i j = lineWt k i * lineWt l j := by unfold areaWt lineWt; ring

theorem volWt_eq (k l m i j n : ℕ) : volWt k l m i j n = lineWt k i * lineWt l j * lineWt m n := by unfold volWt lineWt; ring

/-- The rule is exact for cubics. -/
theorem gauss_cubic (c : ℕ → ℝ) (k : ℕ) :
    ∑ i ∈ range 2, lineWt k i * cubic c (gaussLoc k i) = ∫ s in scsEnd k..scsEnd (k + 1), cubic c s := by
  unfold cubic
  rw [intervalIntegral.integral_finsetSum (fun i _ => Continuous.intervalIntegrable (by fun_prop) _ _)]
  simp only [intervalIntegral.integral_const_mul, integral_pow]
  simp only [sum_range_succ, sum_range_zero, zero_add, lineWt, gaussLoc, isoMap, gaussAbs_eq, gaussWt_eq]
  simp only [if_true, one_ne_zero, if_false]
  push_cast
  generalize scsEnd (k + 1) = b
  generalize scsEnd k = a
  have h := dist_sq
  generalize scsDist = d at *
  linear_combination (c 2 * (b - a) ^ 3 * (1 / 4) + c 3 * (b - a) ^ 3 * (a + b) * (3 / 8)) * h

end Nalu.P2
