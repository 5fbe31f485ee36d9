import Verif.Model.ExactSol
import Verif.Proofs.Pde
import Verif.Model.NodeSource
import Verif.Proofs.ElemKernel
import Mathlib.Tactic.Ring
import Mathlib.Tactic.FieldSimp
import Mathlib.Tactic.LinearCombination

/-!
# C140, C141, C142: two-dimensional manufactured solutions, Boussinesq flow, exact solutions
-/

namespace Nalu.Exact
open Verif.Pde Real

/-! ### Assembling a residual from derivatives -/

theorem div_of {F : Fin 3 → Pt → ℝ} {p : Pt} {a b c : ℝ} (h0 : HasPD 0 (F 0) a p) (h1 : HasPD 1 (F 1) b p)
    (h2 : HasPD 2 (F 2) c p) : div F p = a + b + c := div_eq h0 h1 h2 rfl

theorem lap_of {f D0 D1 D2 : Pt → ℝ} {p : Pt} {a b c : ℝ} (h0 : ∀ p, HasPD 0 f (D0 p) p) (h1 : ∀ p, HasPD 1 f (D1 p) p)
    (h2 : ∀ p, HasPD 2 f (D2 p) p) (e0 : HasPD 0 D0 a p) (e1 : HasPD 1 D1 b p) (e2 : HasPD 2 D2 c p) :
    lap f p = a + b + c := by
  have f0 : pd 0 f = D0 := funext fun p => (h0 p).pd_eq
  have f1 : pd 1 f = D1 := funext fun p => (h1 p).pd_eq
  have f2 : pd 2 f = D2 := funext fun p => (h2 p).pd_eq
  refine div_of ?_ ?_ ?_
  · show HasPD 0 (pd 0 f) a p; rw [f0]; exact e0
  · show HasPD 1 (pd 1 f) b p; rw [f1]; exact e1
  · show HasPD 2 (pd 2 f) c p; rw [f2]; exact e2

/-- The derivatives of `f` at `p` that enter the momentum equation. -/
structure Jet (f : Pt → ℝ) (p : Pt) (t d0 d1 d2 l : ℝ) : Prop where
  ht : pd 3 f p = t
  h0 : pd 0 f p = d0
  h1 : pd 1 f p = d1
  h2 : pd 2 f p = d2
  hl : lap f p = l

theorem jet_of {f D0 D1 D2 : Pt → ℝ} {p : Pt} {t a b c : ℝ} (ht : HasPD 3 f t p) (h0 : ∀ p, HasPD 0 f (D0 p) p)
    (h1 : ∀ p, HasPD 1 f (D1 p) p) (h2 : ∀ p, HasPD 2 f (D2 p) p) (e0 : HasPD 0 D0 a p) (e1 : HasPD 1 D1 b p) (e2 : HasPD 2 D2 c p) :
    Jet f p t (D0 p) (D1 p) (D2 p) (a + b + c) :=
  ⟨ht.pd_eq, (h0 p).pd_eq, (h1 p).pd_eq, (h2 p).pd_eq, lap_of h0 h1 h2 e0 e1 e2⟩

theorem jet_zero (p : Pt) : Jet (fun _ => 0) p 0 0 0 0 (0 + 0 + 0) :=
  jet_of (D0 := fun _ => 0) (D1 := fun _ => 0) (D2 := fun _ => 0) (HasPD.const 0) (fun _ => HasPD.const 0) (fun _ => HasPD.const 0)
    (fun _ => HasPD.const 0) (HasPD.const 0) (HasPD.const 0) (HasPD.const 0)

theorem ns_of {rho nu : ℝ} {u : Fin 3 → Pt → ℝ} {P f : Pt → ℝ} {k : Fin 3} {p : Pt} {t d0 d1 d2 l q : ℝ} (hu : u k = f)
    (j : Jet f p t d0 d1 d2 l) (hq : HasPD (dir k) P q p) :
    navierStokes rho nu u P k p = t + (u 0 p * d0 + u 1 p * d1 + u 2 p * d2) + q / rho - nu * l := by
  have f0 : pd (dir 0) f p = d0 := j.h0
  have f1 : pd (dir 1) f p = d1 := j.h1
  have f2 : pd (dir 2) f p = d2 := j.h2
  rw [navierStokes, hu, Fin.sum_univ_three, f0, f1, f2, j.ht, j.hl, hq.pd_eq]

/-- A component that is identically zero satisfies its equation when the pressure does not vary in that direction. -/
theorem ns_zero {rho nu : ℝ} {u : Fin 3 → Pt → ℝ} {P : Pt → ℝ} {k : Fin 3} {p : Pt} (h : u k = fun _ => 0)
    (hq : HasPD (dir k) P 0 p) : navierStokes rho nu u P k p = 0 := by
  rw [ns_of h (jet_zero p) hq]
  simp

macro "pdr" : tactic => `(tactic| (refine HasPD.congr (by hpd) ?_; first | done | ring))

/-! ### Steady Taylor vortex -/

section stv
variable (P : STV) (p : Pt)

theorem stvU_t : HasPD 3 (stvU P) 0 p := by unfold stvU; pdr
theorem stvU_0 : HasPD 0 (stvU P) (P.unot * (P.a * π) * sin (P.a * π * p 0) * sin (P.a * π * p 1)) p := by unfold stvU; pdr
theorem stvU_1 : HasPD 1 (stvU P) (-P.unot * (P.a * π) * cos (P.a * π * p 0) * cos (P.a * π * p 1)) p := by unfold stvU; pdr
theorem stvU_2 : HasPD 2 (stvU P) 0 p := by unfold stvU; pdr
theorem stvV_t : HasPD 3 (stvV P) 0 p := by unfold stvV; pdr
theorem stvV_0 : HasPD 0 (stvV P) (P.vnot * (P.a * π) * cos (P.a * π * p 0) * cos (P.a * π * p 1)) p := by unfold stvV; pdr
theorem stvV_1 : HasPD 1 (stvV P) (-P.vnot * (P.a * π) * sin (P.a * π * p 0) * sin (P.a * π * p 1)) p := by unfold stvV; pdr
theorem stvV_2 : HasPD 2 (stvV P) 0 p := by unfold stvV; pdr
theorem stvP_0 : HasPD 0 (stvPressure P) (P.pnot * (P.a * π) / 2 * sin (2 * P.a * π * p 0)) p := by unfold stvPressure; pdr
theorem stvP_1 : HasPD 1 (stvPressure P) (P.pnot * (P.a * π) / 2 * sin (2 * P.a * π * p 1)) p := by unfold stvPressure; pdr
theorem stvP_2 : HasPD 2 (stvPressure P) 0 p := by unfold stvPressure; pdr
theorem stvU_00 : HasPD 0 (fun p => P.unot * (P.a * π) * sin (P.a * π * p 0) * sin (P.a * π * p 1))
    (P.unot * (P.a * π) ^ 2 * cos (P.a * π * p 0) * sin (P.a * π * p 1)) p := by pdr
theorem stvU_11 : HasPD 1 (fun p => -P.unot * (P.a * π) * cos (P.a * π * p 0) * cos (P.a * π * p 1))
    (P.unot * (P.a * π) ^ 2 * cos (P.a * π * p 0) * sin (P.a * π * p 1)) p := by pdr
theorem stvV_00 : HasPD 0 (fun p => P.vnot * (P.a * π) * cos (P.a * π * p 0) * cos (P.a * π * p 1))
    (-P.vnot * (P.a * π) ^ 2 * sin (P.a * π * p 0) * cos (P.a * π * p 1)) p := by pdr
theorem stvV_11 : HasPD 1 (fun p => -P.vnot * (P.a * π) * sin (P.a * π * p 0) * sin (P.a * π * p 1))
    (-P.vnot * (P.a * π) ^ 2 * sin (P.a * π * p 0) * cos (P.a * π * p 1)) p := by pdr
end stv

theorem stvVel_0 (P : STV) : stvVel P 0 = stvU P := rfl
theorem stvVel_1 (P : STV) : stvVel P 1 = stvV P := rfl
theorem stvVel_2 (P : STV) : stvVel P 2 = fun _ => 0 := rfl
theorem stvSrc_0 (P : STV) (p : Pt) :
    stvMomentumSrc P p 0 = -2 * P.unot * P.a * P.a * π * π * P.visc * cos (P.a * π * p 0) * sin (P.a * π * p 1) := rfl
theorem stvSrc_1 (P : STV) (p : Pt) :
    stvMomentumSrc P p 1 = 2 * P.unot * P.a * P.a * π * π * P.visc * sin (P.a * π * p 0) * cos (P.a * π * p 1) := rfl

/-- C140: with equal amplitudes and `pnot = unot²` (all are 1 in the code) the steady Taylor vortex is divergence free and its momentum
source is what the momentum equation leaves over; the pressure gradient function is the gradient of the pressure function. -/
theorem c140_steady_taylor_vortex (P : STV) (hv : P.vnot = P.unot) (hp : P.pnot = P.unot ^ 2) (p : Pt) :
    div (stvVel P) p = 0 ∧ (∀ k, navierStokes 1 P.visc (stvVel P) (stvPressure P) k p = stvMomentumSrc P p k) ∧
      (P.pnot = 1 → ∀ k, pd (dir k) (stvPressure P) p = stvGradP P p k) := by
  have s2 (x : ℝ) : sin (2 * P.a * π * x) = 2 * sin (P.a * π * x) * cos (P.a * π * x) := by
    rw [← sin_two_mul]; congr 1; ring
  refine ⟨?_, ?_, ?_⟩
  · rw [div_of (F := stvVel P) (stvU_0 P p) (stvV_1 P p) (HasPD.const 0), hv]; ring
  · intro k
    fin_cases k
    · show navierStokes 1 P.visc (stvVel P) (stvPressure P) 0 p = stvMomentumSrc P p 0
      rw [ns_of (stvVel_0 P) (jet_of (stvU_t P p) (stvU_0 P) (stvU_1 P) (stvU_2 P) (stvU_00 P p) (stvU_11 P p) (HasPD.const 0)) (stvP_0 P p), stvVel_0, stvVel_1, stvVel_2, stvSrc_0]
      rw [s2, hp]
      simp only [stvU, stvV, hv]
      have h1 := sin_sq_add_cos_sq (P.a * π * p 1)
      linear_combination (-P.unot ^ 2 * (P.a * π) * cos (P.a * π * p 0) * sin (P.a * π * p 0)) * h1
    · show navierStokes 1 P.visc (stvVel P) (stvPressure P) 1 p = stvMomentumSrc P p 1
      rw [ns_of (stvVel_1 P) (jet_of (stvV_t P p) (stvV_0 P) (stvV_1 P) (stvV_2 P) (stvV_00 P p) (stvV_11 P p) (HasPD.const 0)) (stvP_1 P p), stvVel_0, stvVel_1, stvVel_2, stvSrc_1]
      rw [s2, hp]
      simp only [stvU, stvV, hv]
      have h1 := sin_sq_add_cos_sq (P.a * π * p 0)
      linear_combination (-P.unot ^ 2 * (P.a * π) * cos (P.a * π * p 1) * sin (P.a * π * p 1)) * h1
    · exact ns_zero rfl (stvP_2 P p)
  · intro h k
    fin_cases k
    · exact (stvP_0 P p).pd_eq.trans (by rw [h]; show _ = P.a * π / 2 * _; ring)
    · exact (stvP_1 P p).pd_eq.trans (by rw [h]; show _ = P.a * π / 2 * _; ring)
    · exact (stvP_2 P p).pd_eq

/-- Inverse density of a two-stream mixture with the two-dimensional mixture fraction. -/
noncomputable def stvVolume (P : STV) (p : Pt) : ℝ :=
  P.znot * cos (P.amf * π * p 0) * cos (P.amf * π * p 1) / P.rhoP + (1 - P.znot * cos (P.amf * π * p 0) * cos (P.amf * π * p 1)) / P.rhoS

/-- C140: the continuity source of the steady Taylor vortex is the divergence of the mass flux of the mixture; with the constants
of the code (equal densities) it is zero. -/
theorem c140_stv_continuity (P : STV) {p : Pt} (hV : stvVolume P p ≠ 0) :
    stvContinuitySrc P p = continuity (fun p => (stvVolume P p)⁻¹) (stvVel P) p := by
  have v0 : HasPD 0 (stvVolume P) (-P.znot * (P.amf * π) * sin (P.amf * π * p 0) * cos (P.amf * π * p 1) / P.rhoP
      + P.znot * (P.amf * π) * sin (P.amf * π * p 0) * cos (P.amf * π * p 1) / P.rhoS) p := by unfold stvVolume; pdr
  have v1 : HasPD 1 (stvVolume P) (-P.znot * (P.amf * π) * cos (P.amf * π * p 0) * sin (P.amf * π * p 1) / P.rhoP
      + P.znot * (P.amf * π) * cos (P.amf * π * p 0) * sin (P.amf * π * p 1) / P.rhoS) p := by unfold stvVolume; pdr
  have e : P.znot * cos (P.amf * π * p 0) * cos (P.amf * π * p 1) / P.rhoP
    + (1 - P.znot * cos (P.amf * π * p 0) * cos (P.amf * π * p 1)) / P.rhoS = stvVolume P p := rfl
  symm
  have z2 : HasPD 2 (fun p => (stvVolume P p)⁻¹ * (0 : ℝ)) 0 p := by simp only [mul_zero]; exact HasPD.const 0
  refine div_eq ((v0.inv hV).mul (stvU_0 P p)) ((v1.inv hV).mul (stvV_1 P p)) z2 ?_
  simp only [stvContinuitySrc, e]
  rw [stvVel_0, stvVel_1]
  simp only [stvU, stvV]
  generalize stvVolume P p = V
  ring

/-! ### Conduction -/

/-- C140: the conduction sources are minus the Laplacian of the temperature functions, and the gradient function is the gradient. -/
theorem c140_conduction (k a : ℝ) (p : Pt) :
    thermal2Src k a p = -lap (thermal2 k a) p ∧ thermal3Src k a p = -lap (thermal3 k a) p ∧
      ∀ i, pd (dir i) (thermal3 k a) p = thermal3Grad k a p i := by
  have a0 (p : Pt) : HasPD 0 (thermal2 k a) (-(2 * a * π * k / 4) * sin (2 * a * π * p 0)) p := by unfold thermal2; pdr
  have a1 (p : Pt) : HasPD 1 (thermal2 k a) (-(2 * a * π * k / 4) * sin (2 * a * π * p 1)) p := by unfold thermal2; pdr
  have a2 (p : Pt) : HasPD 2 (thermal2 k a) 0 p := by unfold thermal2; pdr
  have b0 (p : Pt) : HasPD 0 (thermal3 k a) (-(2 * a * π * k / 4) * sin (2 * a * π * p 0)) p := by unfold thermal3; pdr
  have b1 (p : Pt) : HasPD 1 (thermal3 k a) (-(2 * a * π * k / 4) * sin (2 * a * π * p 1)) p := by unfold thermal3; pdr
  have b2 (p : Pt) : HasPD 2 (thermal3 k a) (-(2 * a * π * k / 4) * sin (2 * a * π * p 2)) p := by unfold thermal3; pdr
  refine ⟨?_, ?_, ?_⟩
  · rw [lap_of a0 a1 a2 (HasPD.cmul _ (HasPD.sin (by hpd))) (HasPD.cmul _ (HasPD.sin (by hpd))) (HasPD.const 0), thermal2Src]; ring
  · rw [lap_of b0 b1 b2 (HasPD.cmul _ (HasPD.sin (by hpd))) (HasPD.cmul _ (HasPD.sin (by hpd))) (HasPD.cmul _ (HasPD.sin (by hpd))),
      thermal3Src]; ring
  · intro i
    fin_cases i
    · exact (b0 p).pd_eq
    · exact (b1 p).pd_eq
    · exact (b2 p).pd_eq

end Nalu.Exact
