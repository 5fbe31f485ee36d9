import Verif.Spec.Pde
import Mathlib.Analysis.Calculus.Deriv.Add
import Mathlib.Analysis.Calculus.Deriv.Mul
import Mathlib.Analysis.Calculus.Deriv.Inv
import Mathlib.Analysis.SpecialFunctions.Trigonometric.Deriv
import Mathlib.Analysis.SpecialFunctions.ExpDeriv

/-!
# Rules for partial derivatives
-/

namespace Verif.Pde

/-- `f` has partial derivative `d` in direction `i` at `p`. -/
def HasPD (i : Fin 4) (f : Pt → ℝ) (d : ℝ) (p : Pt) : Prop :=
  HasDerivAt (fun s => f (Function.update p i s)) d (p i)

theorem HasPD.pd_eq {i : Fin 4} {f : Pt → ℝ} {d : ℝ} {p : Pt} (h : HasPD i f d p) : pd i f p = d := HasDerivAt.deriv h

namespace HasPD
variable {i : Fin 4} {f g : Pt → ℝ} {a b : ℝ} {p : Pt}

theorem const (c : ℝ) : HasPD i (fun _ => c) 0 p := hasDerivAt_const _ _

theorem self : HasPD i (fun p => p i) 1 p := by
  unfold HasPD
  simp only [Function.update_self]
  exact hasDerivAt_id _

theorem other {j : Fin 4} (h : j ≠ i) : HasPD i (fun p => p j) 0 p := by
  unfold HasPD
  simp only [Function.update_of_ne h]
  exact hasDerivAt_const _ _

theorem add (hf : HasPD i f a p) (hg : HasPD i g b p) : HasPD i (fun p => f p + g p) (a + b) p := HasDerivAt.add hf hg
theorem sub (hf : HasPD i f a p) (hg : HasPD i g b p) : HasPD i (fun p => f p - g p) (a - b) p := HasDerivAt.sub hf hg
theorem neg (hf : HasPD i f a p) : HasPD i (fun p => -f p) (-a) p := HasDerivAt.neg hf
theorem mul (hf : HasPD i f a p) (hg : HasPD i g b p) : HasPD i (fun p => f p * g p) (a * g p + f p * b) p := by
  have := HasDerivAt.mul hf hg
  simp only [Function.update_eq_self] at this
  exact this
theorem cmul (c : ℝ) (hg : HasPD i g b p) : HasPD i (fun p => c * g p) (c * b) p := HasDerivAt.const_mul c hg
theorem mulc (c : ℝ) (hg : HasPD i g b p) : HasPD i (fun p => g p * c) (b * c) p := HasDerivAt.mul_const hg c
theorem divc (c : ℝ) (hg : HasPD i g b p) : HasPD i (fun p => g p / c) (b / c) p := HasDerivAt.div_const hg c
theorem inv (hf : HasPD i f a p) (h : f p ≠ 0) : HasPD i (fun p => (f p)⁻¹) (-a * (f p)⁻¹ * (f p)⁻¹) p := by
  have := HasDerivAt.inv hf (by simpa [Function.update_eq_self] using h)
  simp only [Function.update_eq_self] at this
  unfold HasPD
  refine HasDerivAt.congr_deriv this ?_
  rw [div_eq_mul_inv, pow_two, mul_inv, mul_assoc]
theorem cdiv (c : ℝ) (hf : HasPD i f a p) (h : f p ≠ 0) : HasPD i (fun p => c / f p) (c * (-a * (f p)⁻¹ * (f p)⁻¹)) p := by
  simp only [div_eq_mul_inv]; exact (inv hf h).cmul c
theorem sin (hf : HasPD i f a p) : HasPD i (fun p => Real.sin (f p)) (Real.cos (f p) * a) p := by
  have := HasDerivAt.sin hf
  simp only [Function.update_eq_self] at this
  exact this
theorem cos (hf : HasPD i f a p) : HasPD i (fun p => Real.cos (f p)) (-Real.sin (f p) * a) p := by
  have := HasDerivAt.cos hf
  simp only [Function.update_eq_self] at this
  exact this
theorem exp (hf : HasPD i f a p) : HasPD i (fun p => Real.exp (f p)) (Real.exp (f p) * a) p := by
  have := HasDerivAt.exp hf
  simp only [Function.update_eq_self] at this
  exact this
theorem congr (h : HasPD i f a p) (e : a = b) : HasPD i f b p := e ▸ h

end HasPD

/-- Build a partial derivative from the rules. -/
macro "hpd" : tactic => `(tactic|
  repeat' (first
    | assumption
    | with_reducible exact HasPD.const _
    | with_reducible exact HasPD.self
    | with_reducible exact HasPD.other (by decide)
    | with_reducible apply HasPD.add
    | with_reducible apply HasPD.sub
    | with_reducible apply HasPD.neg
    | with_reducible apply HasPD.cmul
    | with_reducible apply HasPD.mulc
    | with_reducible apply HasPD.divc
    | with_reducible apply HasPD.mul
    | with_reducible apply HasPD.sin
    | with_reducible apply HasPD.cos
    | with_reducible apply HasPD.exp))

theorem div_eq {F : Fin 3 → Pt → ℝ} {p : Pt} {a b c r : ℝ} (h0 : HasPD 0 (F 0) a p) (h1 : HasPD 1 (F 1) b p)
    (h2 : HasPD 2 (F 2) c p) (e : a + b + c = r) : div F p = r := by
  rw [div, Fin.sum_univ_three]
  exact (by rw [← e]; exact congrArg₂ _ (congrArg₂ _ h0.pd_eq h1.pd_eq) h2.pd_eq)

/-- A small test of the rules. -/
example (k : ℝ) (p : Pt) : pd 0 (fun p => Real.sin (k * p 0) * Real.cos (p 1)) p = k * Real.cos (k * p 0) * Real.cos (p 1) := by
  have h : HasPD 0 (fun p => Real.sin (k * p 0) * Real.cos (p 1)) (k * Real.cos (k * p 0) * Real.cos (p 1)) p := by
    refine HasPD.congr (by hpd) ?_
    ring
  exact h.pd_eq

end Verif.Pde
