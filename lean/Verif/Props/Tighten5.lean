import Verif.Props.SurfaceForce
import Verif.Props.Overset
import Verif.Props.Overset3
import Verif.Props.HeatTransfer
import Verif.Props.HeatTransfer2
import Verif.Props.Vof5
import Mathlib.LinearAlgebra.CrossProduct

/-! # Theorems added after seeded edits survived (batch 14) -/

namespace Nalu.Force
open Nalu.Wall Nalu.Kernel
open scoped Matrix

variable {M : Type*} {nd : ℕ}

/-- **C109** The moment written to the file is the sum of the vector products of arm and force. -/
theorem c109_moment_vector_product (x : M → Fin nd → ℝ) (c : Fin 3 → ℝ) (ranks : List (List (Contribution M nd))) (j : Fin 3) :
    (report x c ranks).mo j = (ranks.flatten.map fun k =>
      ((pad fun i => x k.node i - (if h : i.val < 3 then c ⟨i.val, h⟩ else 0)) ⨯₃ (pad fun i => k.pF i + k.vF i)) j).sum := by
  rw [(c109_totals x c ranks).2.2.1 j]
  refine congrArg List.sum (List.map_congr_left fun k _ => ?_)
  rw [cross_apply]
  fin_cases j <;> simp [cross]

end Nalu.Force

namespace Nalu.Overset
open Verif.Motion

variable {K : Type*} [Field K] [LinearOrder K] [IsStrictOrderedRing K]

/-- **C117** The cylinder's cross section is measured in the two directions other than its axis: square distance from the axis against the
square of the mean half width. -/
theorem c117_cylinder_cross_section {tiny : K} {b : Fin 3 → K × K} (axis : Fin 3) {m minv : Fin 3 → Fin 3 → K}
    (hinv : ∀ v, matVec minv (matVec m v) = v) (c d x : Fin 3 → K)
    (h : InCylinder tiny b minv c d axis (rotateTranslate m c d x)) :
    ∑ i ∈ Finset.univ.erase axis, (x i - c i) ^ 2 < (1 / 2 * ∑ i ∈ Finset.univ.erase axis, halfDist b i) ^ 2 := by
  simp only [InCylinder, matVec_inv hinv] at h
  have h1 := h.1
  fin_cases axis
  · simp only [Fin.zero_eta, across] at h1
    have e : (Finset.univ.erase (0 : Fin 3)) = {1, 2} := by decide
    simp only [Fin.zero_eta, e, Finset.sum_pair (show (1 : Fin 3) ≠ 2 by decide), sq (x _ - c _)]
    exact h1
  · simp only [Fin.mk_one, across] at h1
    have e : (Finset.univ.erase (1 : Fin 3)) = {0, 2} := by decide
    simp only [Fin.mk_one, e, Finset.sum_pair (show (0 : Fin 3) ≠ 2 by decide), sq (x _ - c _)]
    exact h1
  · simp only [Fin.reduceFinMk, across] at h1
    have e : (Finset.univ.erase (2 : Fin 3)) = {0, 1} := by decide
    simp only [Fin.reduceFinMk, e, Finset.sum_pair (show (0 : Fin 3) ≠ 1 by decide), sq (x _ - c _)]
    exact h1

/-- **C115** Clipped coordinates are the nearest ones in the enlarged element: no admissible value is closer. -/
theorem c115_clip_nearest {nd : ℕ} {tol : K} (ht : 0 ≤ tol) (xi : Fin nd → K) (j : Fin nd) (y : K) (hy : |y| ≤ 1 + tol) :
    |xi j - clip tol xi j| ≤ |xi j - y| := by
  obtain ⟨hy1, hy2⟩ := abs_le.1 hy
  have hc : clip tol xi j = max (-(1 + tol)) (min (1 + tol) (xi j)) := by
    simp only [clip]
    by_cases h1 : xi j > 1 + tol
    · rw [if_pos h1, if_neg (by linarith), min_eq_left h1.le, max_eq_right (by linarith)]
    · rw [if_neg h1, min_eq_right (not_lt.1 h1)]
      by_cases h2 : xi j < -1 - tol
      · rw [if_pos h2, max_eq_left (by linarith)]; ring
      · rw [if_neg h2, max_eq_right (by linarith [not_lt.1 h2])]
  rw [hc]
  rcases le_total (xi j) (1 + tol) with h1 | h1
  · rw [min_eq_right h1]
    rcases le_total (-(1 + tol)) (xi j) with h2 | h2
    · rw [max_eq_right h2]; simp
    · rw [max_eq_left h2, abs_of_nonpos (by linarith), abs_of_nonpos (by linarith)]; linarith
  · rw [min_eq_left h1, max_eq_right (by linarith), abs_of_nonneg (by linarith), abs_of_nonneg (by linarith)]; linarith

end Nalu.Overset

namespace Nalu.Cht
open Nalu.Kernel

variable {nn nf nd : ℕ} {N : Type*}

/-- **C121** The coupling parameter of the element scheme, in terms of the cell number `chi = rho cp h^2 / (2 kappa dt)`. -/
theorem c121_element_parameter (v : ElemIp nn nf nd N) (f : Fluid nd N) {chi : ℝ} (hc : 0 ≤ chi)
    (hchi : 2 * v.bip f.cond * f.dt * chi = v.bip f.rho * v.bip f.cp * v.eltLen ^ 2) (hk : v.bip f.cond * f.dt ≠ 0) :
    v.alpha f = Real.sqrt (chi * (chi + 2)) * v.bip f.cond / v.eltLen := by
  have e : v.bip f.rho * v.bip f.cp * v.eltLen * v.eltLen / (2 * v.bip f.cond * f.dt) = chi := by
    rw [div_eq_iff (by rw [mul_assoc]; exact mul_ne_zero two_ne_zero hk)]
    linear_combination -hchi
  rw [ElemIp.alpha, e, c121_closed hc]

/-- **C121** The same for the edge scheme. -/
theorem c121_edge_parameter (v : EdgeIp nd N) (f : Fluid nd N) {chi : ℝ} (hc : 0 ≤ chi)
    (hchi : 2 * f.cond v.nodeR * f.dt * chi = f.rho v.nodeR * f.cp v.nodeR * v.edgeLen f ^ 2) (hk : f.cond v.nodeR * f.dt ≠ 0) :
    v.alpha f = Real.sqrt (chi * (chi + 2)) * f.cond v.nodeR / v.edgeLen f := by
  have e : f.rho v.nodeR * f.cp v.nodeR * v.edgeLen f * v.edgeLen f / (2 * f.cond v.nodeR * f.dt) = chi := by
    rw [div_eq_iff (by rw [mul_assoc]; exact mul_ne_zero two_ne_zero hk)]
    linear_combination -hchi
  rw [EdgeIp.alpha, e, c121_closed hc]

end Nalu.Cht
