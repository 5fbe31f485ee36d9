import Verif.Model.Mms
import Verif.Proofs.Pde
import Mathlib.Tactic.Ring
import Mathlib.Tactic.FieldSimp

/-!
# C138: the variable density manufactured solution
-/

namespace Nalu.Mms
open Verif.Pde

/-- Inverse density of an ideal mixture of two streams with mixture fraction `Z`. -/
noncomputable def specificVolume (P : VD) (p : Pt) : ℝ := mixFrac P.znot P.amf p / P.rhoP + (1 - mixFrac P.znot P.amf p) / P.rhoS

/-- Density of the mixture. -/
noncomputable def density (P : VD) (p : Pt) : ℝ := (specificVolume P p)⁻¹

section calculus
variable (u a : ℝ) (p : Pt)

theorem dir0 : dir 0 = 0 := rfl
theorem dir1 : dir 1 = 1 := rfl
theorem dir2 : dir 2 = 2 := rfl

theorem velU_0 : HasPD 0 (velU u a)
    (u * (a * Real.pi) * Real.sin (a * Real.pi * p 0) * Real.sin (a * Real.pi * p 1) * Real.sin (a * Real.pi * p 2)) p := by
  unfold velU; refine HasPD.congr (by hpd) ?_; ring
theorem velU_1 : HasPD 1 (velU u a)
    (-u * (a * Real.pi) * Real.cos (a * Real.pi * p 0) * Real.cos (a * Real.pi * p 1) * Real.sin (a * Real.pi * p 2)) p := by
  unfold velU; refine HasPD.congr (by hpd) ?_; ring
theorem velU_2 : HasPD 2 (velU u a)
    (-u * (a * Real.pi) * Real.cos (a * Real.pi * p 0) * Real.sin (a * Real.pi * p 1) * Real.cos (a * Real.pi * p 2)) p := by
  unfold velU; refine HasPD.congr (by hpd) ?_; ring
theorem velV_0 : HasPD 0 (velV u a)
    (u * (a * Real.pi) * Real.cos (a * Real.pi * p 0) * Real.cos (a * Real.pi * p 1) * Real.sin (a * Real.pi * p 2)) p := by
  unfold velV; refine HasPD.congr (by hpd) ?_; ring
theorem velV_1 : HasPD 1 (velV u a)
    (-u * (a * Real.pi) * Real.sin (a * Real.pi * p 0) * Real.sin (a * Real.pi * p 1) * Real.sin (a * Real.pi * p 2)) p := by
  unfold velV; refine HasPD.congr (by hpd) ?_; ring
theorem velV_2 : HasPD 2 (velV u a)
    (u * (a * Real.pi) * Real.sin (a * Real.pi * p 0) * Real.cos (a * Real.pi * p 1) * Real.cos (a * Real.pi * p 2)) p := by
  unfold velV; refine HasPD.congr (by hpd) ?_; ring
theorem velW_0 : HasPD 0 (velW u a)
    (-u * (a * Real.pi) * Real.cos (a * Real.pi * p 0) * Real.sin (a * Real.pi * p 1) * Real.cos (a * Real.pi * p 2)) p := by
  unfold velW; refine HasPD.congr (by hpd) ?_; ring
theorem velW_1 : HasPD 1 (velW u a)
    (-u * (a * Real.pi) * Real.sin (a * Real.pi * p 0) * Real.cos (a * Real.pi * p 1) * Real.cos (a * Real.pi * p 2)) p := by
  unfold velW; refine HasPD.congr (by hpd) ?_; ring
theorem velW_2 : HasPD 2 (velW u a)
    (u * (a * Real.pi) * Real.sin (a * Real.pi * p 0) * Real.sin (a * Real.pi * p 1) * Real.sin (a * Real.pi * p 2)) p := by
  unfold velW; refine HasPD.congr (by hpd) ?_; ring

theorem mixFrac_0 : HasPD 0 (mixFrac u a)
    (-u * (a * Real.pi) * Real.sin (a * Real.pi * p 0) * Real.cos (a * Real.pi * p 1) * Real.cos (a * Real.pi * p 2)) p := by
  unfold mixFrac; refine HasPD.congr (by hpd) ?_; ring
theorem mixFrac_1 : HasPD 1 (mixFrac u a)
    (-u * (a * Real.pi) * Real.cos (a * Real.pi * p 0) * Real.sin (a * Real.pi * p 1) * Real.cos (a * Real.pi * p 2)) p := by
  unfold mixFrac; refine HasPD.congr (by hpd) ?_; ring
theorem mixFrac_2 : HasPD 2 (mixFrac u a)
    (-u * (a * Real.pi) * Real.cos (a * Real.pi * p 0) * Real.cos (a * Real.pi * p 1) * Real.sin (a * Real.pi * p 2)) p := by
  unfold mixFrac; refine HasPD.congr (by hpd) ?_; ring

theorem pressure_0 : HasPD 0 (pressure u a) (u * (a * Real.pi) / 2 * Real.sin (2 * a * Real.pi * p 0)) p := by
  unfold pressure; refine HasPD.congr (by hpd) ?_; ring
theorem pressure_1 : HasPD 1 (pressure u a) (u * (a * Real.pi) / 2 * Real.sin (2 * a * Real.pi * p 1)) p := by
  unfold pressure; refine HasPD.congr (by hpd) ?_; ring
theorem pressure_2 : HasPD 2 (pressure u a) (u * (a * Real.pi) / 2 * Real.sin (2 * a * Real.pi * p 2)) p := by
  unfold pressure; refine HasPD.congr (by hpd) ?_; ring
end calculus

section density
variable {P : VD} {p : Pt}

theorem density_i {i : Fin 4} {d : ℝ} (hz : HasPD i (mixFrac P.znot P.amf) d p) (hV : specificVolume P p ≠ 0) :
    HasPD i (density P) (-(d / P.rhoP - d / P.rhoS) * (specificVolume P p)⁻¹ * (specificVolume P p)⁻¹) p := by
  have h : HasPD i (specificVolume P) (d / P.rhoP - d / P.rhoS) p := by
    unfold specificVolume
    refine HasPD.congr (by hpd) ?_
    ring
  exact h.inv hV
end density

theorem vel0 (u v w a : ℝ) : vel u v w a 0 = velU u a := rfl
theorem vel1 (u v w a : ℝ) : vel u v w a 1 = velV v a := rfl
theorem vel2 (u v w a : ℝ) : vel u v w a 2 = velW w a := rfl

theorem vol_eq (P : VD) (p : Pt) :
    P.znot * Real.cos (P.amf * Real.pi * p 0) * Real.cos (P.amf * Real.pi * p 1) * Real.cos (P.amf * Real.pi * p 2) / P.rhoP +
      (1 - P.znot * Real.cos (P.amf * Real.pi * p 0) * Real.cos (P.amf * Real.pi * p 1) * Real.cos (P.amf * Real.pi * p 2)) / P.rhoS
    = specificVolume P p := rfl

/-- C138: the continuity source is the divergence of the mass flux of the exact solution. -/
theorem c138_continuity (P : VD) {p : Pt} (hV : specificVolume P p ≠ 0) :
    vdContinuitySrc P p = continuity (density P) (vel P.unot P.vnot P.wnot P.a) p := by
  symm
  have r0 := density_i (mixFrac_0 P.znot P.amf p) hV
  have r1 := density_i (mixFrac_1 P.znot P.amf p) hV
  have r2 := density_i (mixFrac_2 P.znot P.amf p) hV
  refine div_eq (r0.mul (velU_0 P.unot P.a p)) (r1.mul (velV_1 P.vnot P.a p)) (r2.mul (velW_2 P.wnot P.a p)) ?_
  simp only [vdContinuitySrc, vol_eq, vel0, vel1, vel2, velU, velV, velW, density]
  generalize specificVolume P p = V
  ring

/-- Second derivatives of the mixture fraction. -/
theorem mixFrac_00 (u a : ℝ) (p : Pt) : HasPD 0 (pd 0 (mixFrac u a)) (-(a * Real.pi) ^ 2 * mixFrac u a p) p := by
  rw [show pd 0 (mixFrac u a) = _ from funext fun p => (mixFrac_0 u a p).pd_eq]
  refine HasPD.congr (by hpd) ?_; unfold mixFrac; ring
theorem mixFrac_11 (u a : ℝ) (p : Pt) : HasPD 1 (pd 1 (mixFrac u a)) (-(a * Real.pi) ^ 2 * mixFrac u a p) p := by
  rw [show pd 1 (mixFrac u a) = _ from funext fun p => (mixFrac_1 u a p).pd_eq]
  refine HasPD.congr (by hpd) ?_; unfold mixFrac; ring
theorem mixFrac_22 (u a : ℝ) (p : Pt) : HasPD 2 (pd 2 (mixFrac u a)) (-(a * Real.pi) ^ 2 * mixFrac u a p) p := by
  rw [show pd 2 (mixFrac u a) = _ from funext fun p => (mixFrac_2 u a p).pd_eq]
  refine HasPD.congr (by hpd) ?_; unfold mixFrac; ring

/-- C138: the mixture fraction source is the transport equation applied to the exact solution, with the diffusivity
`visc / Sc`. -/
theorem c138_mixfrac (P : VD) {p : Pt} (hV : specificVolume P p ≠ 0) :
    vdMixFracSrc P p
      = transport (density P) (vel P.unot P.vnot P.wnot P.a) (mixFrac P.znot P.amf) (P.visc / P.Sc) p := by
  symm
  have r0 := density_i (mixFrac_0 P.znot P.amf p) hV
  have r1 := density_i (mixFrac_1 P.znot P.amf p) hV
  have r2 := density_i (mixFrac_2 P.znot P.amf p) hV
  refine div_eq
    (((r0.mul (velU_0 P.unot P.a p)).mul (mixFrac_0 P.znot P.amf p)).sub ((mixFrac_00 P.znot P.amf p).cmul _))
    (((r1.mul (velV_1 P.vnot P.a p)).mul (mixFrac_1 P.znot P.amf p)).sub ((mixFrac_11 P.znot P.amf p).cmul _))
    (((r2.mul (velW_2 P.wnot P.a p)).mul (mixFrac_2 P.znot P.amf p)).sub ((mixFrac_22 P.znot P.amf p).cmul _)) ?_
  simp only [vdMixFracSrc, vol_eq, vel0, vel1, vel2, velU, velV, velW, density, mixFrac]
  generalize specificVolume P p = V
  ring

/-! ### Second derivatives of the velocity -/

section second
variable (u a : ℝ) (p : Pt)
theorem velU_00 : HasPD 0 (pd 0 (velU u a))
    (u * (a * Real.pi) ^ 2 * Real.cos (a * Real.pi * p 0) * Real.sin (a * Real.pi * p 1) * Real.sin (a * Real.pi * p 2)) p := by
  rw [show pd 0 (velU u a) = _ from funext fun p => (velU_0 u a p).pd_eq]
  refine HasPD.congr (by hpd) ?_; ring
theorem velU_01 : HasPD 0 (pd 1 (velU u a))
    (u * (a * Real.pi) ^ 2 * Real.sin (a * Real.pi * p 0) * Real.cos (a * Real.pi * p 1) * Real.sin (a * Real.pi * p 2)) p := by
  rw [show pd 1 (velU u a) = _ from funext fun p => (velU_1 u a p).pd_eq]
  refine HasPD.congr (by hpd) ?_; ring
theorem velU_02 : HasPD 0 (pd 2 (velU u a))
    (u * (a * Real.pi) ^ 2 * Real.sin (a * Real.pi * p 0) * Real.sin (a * Real.pi * p 1) * Real.cos (a * Real.pi * p 2)) p := by
  rw [show pd 2 (velU u a) = _ from funext fun p => (velU_2 u a p).pd_eq]
  refine HasPD.congr (by hpd) ?_; ring
theorem velU_10 : HasPD 1 (pd 0 (velU u a))
    (u * (a * Real.pi) ^ 2 * Real.sin (a * Real.pi * p 0) * Real.cos (a * Real.pi * p 1) * Real.sin (a * Real.pi * p 2)) p := by
  rw [show pd 0 (velU u a) = _ from funext fun p => (velU_0 u a p).pd_eq]
  refine HasPD.congr (by hpd) ?_; ring
theorem velU_11 : HasPD 1 (pd 1 (velU u a))
    (u * (a * Real.pi) ^ 2 * Real.cos (a * Real.pi * p 0) * Real.sin (a * Real.pi * p 1) * Real.sin (a * Real.pi * p 2)) p := by
  rw [show pd 1 (velU u a) = _ from funext fun p => (velU_1 u a p).pd_eq]
  refine HasPD.congr (by hpd) ?_; ring
theorem velU_12 : HasPD 1 (pd 2 (velU u a))
    (-u * (a * Real.pi) ^ 2 * Real.cos (a * Real.pi * p 0) * Real.cos (a * Real.pi * p 1) * Real.cos (a * Real.pi * p 2)) p := by
  rw [show pd 2 (velU u a) = _ from funext fun p => (velU_2 u a p).pd_eq]
  refine HasPD.congr (by hpd) ?_; ring
theorem velU_20 : HasPD 2 (pd 0 (velU u a))
    (u * (a * Real.pi) ^ 2 * Real.sin (a * Real.pi * p 0) * Real.sin (a * Real.pi * p 1) * Real.cos (a * Real.pi * p 2)) p := by
  rw [show pd 0 (velU u a) = _ from funext fun p => (velU_0 u a p).pd_eq]
  refine HasPD.congr (by hpd) ?_; ring
theorem velU_21 : HasPD 2 (pd 1 (velU u a))
    (-u * (a * Real.pi) ^ 2 * Real.cos (a * Real.pi * p 0) * Real.cos (a * Real.pi * p 1) * Real.cos (a * Real.pi * p 2)) p := by
  rw [show pd 1 (velU u a) = _ from funext fun p => (velU_1 u a p).pd_eq]
  refine HasPD.congr (by hpd) ?_; ring
theorem velU_22 : HasPD 2 (pd 2 (velU u a))
    (u * (a * Real.pi) ^ 2 * Real.cos (a * Real.pi * p 0) * Real.sin (a * Real.pi * p 1) * Real.sin (a * Real.pi * p 2)) p := by
  rw [show pd 2 (velU u a) = _ from funext fun p => (velU_2 u a p).pd_eq]
  refine HasPD.congr (by hpd) ?_; ring
theorem velV_00 : HasPD 0 (pd 0 (velV u a))
    (-u * (a * Real.pi) ^ 2 * Real.sin (a * Real.pi * p 0) * Real.cos (a * Real.pi * p 1) * Real.sin (a * Real.pi * p 2)) p := by
  rw [show pd 0 (velV u a) = _ from funext fun p => (velV_0 u a p).pd_eq]
  refine HasPD.congr (by hpd) ?_; ring
theorem velV_01 : HasPD 0 (pd 1 (velV u a))
    (-u * (a * Real.pi) ^ 2 * Real.cos (a * Real.pi * p 0) * Real.sin (a * Real.pi * p 1) * Real.sin (a * Real.pi * p 2)) p := by
  rw [show pd 1 (velV u a) = _ from funext fun p => (velV_1 u a p).pd_eq]
  refine HasPD.congr (by hpd) ?_; ring
theorem velV_02 : HasPD 0 (pd 2 (velV u a))
    (u * (a * Real.pi) ^ 2 * Real.cos (a * Real.pi * p 0) * Real.cos (a * Real.pi * p 1) * Real.cos (a * Real.pi * p 2)) p := by
  rw [show pd 2 (velV u a) = _ from funext fun p => (velV_2 u a p).pd_eq]
  refine HasPD.congr (by hpd) ?_; ring
theorem velV_10 : HasPD 1 (pd 0 (velV u a))
    (-u * (a * Real.pi) ^ 2 * Real.cos (a * Real.pi * p 0) * Real.sin (a * Real.pi * p 1) * Real.sin (a * Real.pi * p 2)) p := by
  rw [show pd 0 (velV u a) = _ from funext fun p => (velV_0 u a p).pd_eq]
  refine HasPD.congr (by hpd) ?_; ring
theorem velV_11 : HasPD 1 (pd 1 (velV u a))
    (-u * (a * Real.pi) ^ 2 * Real.sin (a * Real.pi * p 0) * Real.cos (a * Real.pi * p 1) * Real.sin (a * Real.pi * p 2)) p := by
  rw [show pd 1 (velV u a) = _ from funext fun p => (velV_1 u a p).pd_eq]
  refine HasPD.congr (by hpd) ?_; ring
theorem velV_12 : HasPD 1 (pd 2 (velV u a))
    (-u * (a * Real.pi) ^ 2 * Real.sin (a * Real.pi * p 0) * Real.sin (a * Real.pi * p 1) * Real.cos (a * Real.pi * p 2)) p := by
  rw [show pd 2 (velV u a) = _ from funext fun p => (velV_2 u a p).pd_eq]
  refine HasPD.congr (by hpd) ?_; ring
theorem velV_20 : HasPD 2 (pd 0 (velV u a))
    (u * (a * Real.pi) ^ 2 * Real.cos (a * Real.pi * p 0) * Real.cos (a * Real.pi * p 1) * Real.cos (a * Real.pi * p 2)) p := by
  rw [show pd 0 (velV u a) = _ from funext fun p => (velV_0 u a p).pd_eq]
  refine HasPD.congr (by hpd) ?_; ring
theorem velV_21 : HasPD 2 (pd 1 (velV u a))
    (-u * (a * Real.pi) ^ 2 * Real.sin (a * Real.pi * p 0) * Real.sin (a * Real.pi * p 1) * Real.cos (a * Real.pi * p 2)) p := by
  rw [show pd 1 (velV u a) = _ from funext fun p => (velV_1 u a p).pd_eq]
  refine HasPD.congr (by hpd) ?_; ring
theorem velV_22 : HasPD 2 (pd 2 (velV u a))
    (-u * (a * Real.pi) ^ 2 * Real.sin (a * Real.pi * p 0) * Real.cos (a * Real.pi * p 1) * Real.sin (a * Real.pi * p 2)) p := by
  rw [show pd 2 (velV u a) = _ from funext fun p => (velV_2 u a p).pd_eq]
  refine HasPD.congr (by hpd) ?_; ring
theorem velW_00 : HasPD 0 (pd 0 (velW u a))
    (u * (a * Real.pi) ^ 2 * Real.sin (a * Real.pi * p 0) * Real.sin (a * Real.pi * p 1) * Real.cos (a * Real.pi * p 2)) p := by
  rw [show pd 0 (velW u a) = _ from funext fun p => (velW_0 u a p).pd_eq]
  refine HasPD.congr (by hpd) ?_; ring
theorem velW_01 : HasPD 0 (pd 1 (velW u a))
    (-u * (a * Real.pi) ^ 2 * Real.cos (a * Real.pi * p 0) * Real.cos (a * Real.pi * p 1) * Real.cos (a * Real.pi * p 2)) p := by
  rw [show pd 1 (velW u a) = _ from funext fun p => (velW_1 u a p).pd_eq]
  refine HasPD.congr (by hpd) ?_; ring
theorem velW_02 : HasPD 0 (pd 2 (velW u a))
    (u * (a * Real.pi) ^ 2 * Real.cos (a * Real.pi * p 0) * Real.sin (a * Real.pi * p 1) * Real.sin (a * Real.pi * p 2)) p := by
  rw [show pd 2 (velW u a) = _ from funext fun p => (velW_2 u a p).pd_eq]
  refine HasPD.congr (by hpd) ?_; ring
theorem velW_10 : HasPD 1 (pd 0 (velW u a))
    (-u * (a * Real.pi) ^ 2 * Real.cos (a * Real.pi * p 0) * Real.cos (a * Real.pi * p 1) * Real.cos (a * Real.pi * p 2)) p := by
  rw [show pd 0 (velW u a) = _ from funext fun p => (velW_0 u a p).pd_eq]
  refine HasPD.congr (by hpd) ?_; ring
theorem velW_11 : HasPD 1 (pd 1 (velW u a))
    (u * (a * Real.pi) ^ 2 * Real.sin (a * Real.pi * p 0) * Real.sin (a * Real.pi * p 1) * Real.cos (a * Real.pi * p 2)) p := by
  rw [show pd 1 (velW u a) = _ from funext fun p => (velW_1 u a p).pd_eq]
  refine HasPD.congr (by hpd) ?_; ring
theorem velW_12 : HasPD 1 (pd 2 (velW u a))
    (u * (a * Real.pi) ^ 2 * Real.sin (a * Real.pi * p 0) * Real.cos (a * Real.pi * p 1) * Real.sin (a * Real.pi * p 2)) p := by
  rw [show pd 2 (velW u a) = _ from funext fun p => (velW_2 u a p).pd_eq]
  refine HasPD.congr (by hpd) ?_; ring
theorem velW_20 : HasPD 2 (pd 0 (velW u a))
    (u * (a * Real.pi) ^ 2 * Real.cos (a * Real.pi * p 0) * Real.sin (a * Real.pi * p 1) * Real.sin (a * Real.pi * p 2)) p := by
  rw [show pd 0 (velW u a) = _ from funext fun p => (velW_0 u a p).pd_eq]
  refine HasPD.congr (by hpd) ?_; ring
theorem velW_21 : HasPD 2 (pd 1 (velW u a))
    (u * (a * Real.pi) ^ 2 * Real.sin (a * Real.pi * p 0) * Real.cos (a * Real.pi * p 1) * Real.sin (a * Real.pi * p 2)) p := by
  rw [show pd 1 (velW u a) = _ from funext fun p => (velW_1 u a p).pd_eq]
  refine HasPD.congr (by hpd) ?_; ring
theorem velW_22 : HasPD 2 (pd 2 (velW u a))
    (u * (a * Real.pi) ^ 2 * Real.sin (a * Real.pi * p 0) * Real.sin (a * Real.pi * p 1) * Real.cos (a * Real.pi * p 2)) p := by
  rw [show pd 2 (velW u a) = _ from funext fun p => (velW_2 u a p).pd_eq]
  refine HasPD.congr (by hpd) ?_; ring
end second

theorem momentum_eq {rho : Pt → ℝ} {u : Fin 3 → Pt → ℝ} {Q : Pt → ℝ} {mu c rhoRef : ℝ} {g : Fin 3 → ℝ} {k : Fin 3} {p : Pt}
    {d0 d1 d2 dq r : ℝ}
    (h0 : HasPD 0 (fun p => rho p * u 0 p * u k p - stress mu c u 0 k p) d0 p)
    (h1 : HasPD 1 (fun p => rho p * u 1 p * u k p - stress mu c u 1 k p) d1 p)
    (h2 : HasPD 2 (fun p => rho p * u 2 p * u k p - stress mu c u 2 k p) d2 p)
    (hq : HasPD (dir k) Q dq p) (e : d0 + d1 + d2 + dq - (rho p - rhoRef) * g k = r) :
    momentum rho u Q mu c rhoRef g k p = r := by
  rw [momentum, div_eq h0 h1 h2 rfl, hq.pd_eq, e]

/-- Divergence of the velocity, componentwise. -/
theorem div_vel_i {i : Fin 4} {u v w a : ℝ} {p : Pt} {d0 d1 d2 : ℝ} (h0 : HasPD i (pd 0 (velU u a)) d0 p)
    (h1 : HasPD i (pd 1 (velV v a)) d1 p) (h2 : HasPD i (pd 2 (velW w a)) d2 p) :
    HasPD i (div (vel u v w a)) (d0 + d1 + d2) p := by
  have e : div (vel u v w a) = fun p => pd 0 (velU u a) p + pd 1 (velV v a) p + pd 2 (velW w a) p := by
    funext p; rw [div, Fin.sum_univ_three]; rfl
  rw [e]
  exact (h0.add h1).add h2

theorem stress_same (mu c : ℝ) (u : Fin 3 → Pt → ℝ) (i : Fin 3) :
    stress mu c u i i = fun p => mu * (pd (dir i) (u i) p + pd (dir i) (u i) p) - c * mu * div u p := by
  funext p; simp only [stress, if_true]
theorem stress_other (mu c : ℝ) (u : Fin 3 → Pt → ℝ) {i k : Fin 3} (h : i ≠ k) :
    stress mu c u i k = fun p => mu * (pd (dir i) (u k) p + pd (dir k) (u i) p) - 0 := by
  funext p; simp only [stress, if_neg h]

theorem stress_i {i : Fin 3} {k : Fin 3} {mu c : ℝ} {u : Fin 3 → Pt → ℝ} {p : Pt} {a b d : ℝ}
    (h1 : HasPD (dir i) (pd (dir i) (u k)) a p) (h2 : HasPD (dir i) (pd (dir k) (u i)) b p) (h3 : HasPD (dir i) (div u) d p) :
    HasPD (dir i) (stress mu c u i k) (mu * (a + b) - (if i = k then c * mu * d else 0)) p := by
  by_cases h : i = k
  · subst h
    rw [stress_same]; rw [if_pos rfl]
    exact ((h1.add h2).cmul mu).sub (h3.cmul (c * mu))
  · rw [stress_other mu c u h, if_neg h]
    exact ((h1.add h2).cmul mu).sub (HasPD.const 0)

/-- C138: component 0 of the momentum source is the momentum equation applied to the exact solution. -/
theorem c138_momentum0 (P : VD) {p : Pt} (hV : specificVolume P p ≠ 0) :
    vdMomentumSrc0 P p
      = momentum (density P) (vel P.unot P.vnot P.wnot P.a) (pressure P.pnot P.a) P.visc P.twoThirds P.rhoRef P.g 0 p := by
  symm
  have r0 := density_i (mixFrac_0 P.znot P.amf p) hV
  have r1 := density_i (mixFrac_1 P.znot P.amf p) hV
  have r2 := density_i (mixFrac_2 P.znot P.amf p) hV
  refine momentum_eq
    (((r0.mul (velU_0 P.unot P.a p)).mul (velU_0 P.unot P.a p)).sub
      (stress_i (i := 0) (k := 0) (velU_00 P.unot P.a p) (velU_00 P.unot P.a p)
        (div_vel_i (velU_00 P.unot P.a p) (velV_01 P.vnot P.a p) (velW_02 P.wnot P.a p))))
    (((r1.mul (velV_1 P.vnot P.a p)).mul (velU_1 P.unot P.a p)).sub
      (stress_i (i := 1) (k := 0) (velU_11 P.unot P.a p) (velV_10 P.vnot P.a p)
        (div_vel_i (velU_10 P.unot P.a p) (velV_11 P.vnot P.a p) (velW_12 P.wnot P.a p))))
    (((r2.mul (velW_2 P.wnot P.a p)).mul (velU_2 P.unot P.a p)).sub
      (stress_i (i := 2) (k := 0) (velU_22 P.unot P.a p) (velW_20 P.wnot P.a p)
        (div_vel_i (velU_20 P.unot P.a p) (velV_21 P.vnot P.a p) (velW_22 P.wnot P.a p))))
    (pressure_0 P.pnot P.a p) ?_
  simp only [vdMomentumSrc0, vol_eq, density, vel0, vel1, vel2, velU, velV, velW]
  generalize specificVolume P p = V
  simp +decide only [reduceIte, if_true, if_false]
  ring

/-- C138: component 1 of the momentum source is the momentum equation applied to the exact solution. -/
theorem c138_momentum1 (P : VD) {p : Pt} (hV : specificVolume P p ≠ 0) :
    vdMomentumSrc1 P p
      = momentum (density P) (vel P.unot P.vnot P.wnot P.a) (pressure P.pnot P.a) P.visc P.twoThirds P.rhoRef P.g 1 p := by
  symm
  have r0 := density_i (mixFrac_0 P.znot P.amf p) hV
  have r1 := density_i (mixFrac_1 P.znot P.amf p) hV
  have r2 := density_i (mixFrac_2 P.znot P.amf p) hV
  refine momentum_eq
    (((r0.mul (velU_0 P.unot P.a p)).mul (velV_0 P.vnot P.a p)).sub
      (stress_i (i := 0) (k := 1) (velV_00 P.vnot P.a p) (velU_01 P.unot P.a p)
        (div_vel_i (velU_00 P.unot P.a p) (velV_01 P.vnot P.a p) (velW_02 P.wnot P.a p))))
    (((r1.mul (velV_1 P.vnot P.a p)).mul (velV_1 P.vnot P.a p)).sub
      (stress_i (i := 1) (k := 1) (velV_11 P.vnot P.a p) (velV_11 P.vnot P.a p)
        (div_vel_i (velU_10 P.unot P.a p) (velV_11 P.vnot P.a p) (velW_12 P.wnot P.a p))))
    (((r2.mul (velW_2 P.wnot P.a p)).mul (velV_2 P.vnot P.a p)).sub
      (stress_i (i := 2) (k := 1) (velV_22 P.vnot P.a p) (velW_21 P.wnot P.a p)
        (div_vel_i (velU_20 P.unot P.a p) (velV_21 P.vnot P.a p) (velW_22 P.wnot P.a p))))
    (pressure_1 P.pnot P.a p) ?_
  simp only [vdMomentumSrc1, vol_eq, density, vel0, vel1, vel2, velU, velV, velW]
  generalize specificVolume P p = V
  simp +decide only [reduceIte, if_true, if_false]
  ring

/-- C138: component 2 of the momentum source is the momentum equation applied to the exact solution. -/
theorem c138_momentum2 (P : VD) {p : Pt} (hV : specificVolume P p ≠ 0) :
    vdMomentumSrc2 P p
      = momentum (density P) (vel P.unot P.vnot P.wnot P.a) (pressure P.pnot P.a) P.visc P.twoThirds P.rhoRef P.g 2 p := by
  symm
  have r0 := density_i (mixFrac_0 P.znot P.amf p) hV
  have r1 := density_i (mixFrac_1 P.znot P.amf p) hV
  have r2 := density_i (mixFrac_2 P.znot P.amf p) hV
  refine momentum_eq
    (((r0.mul (velU_0 P.unot P.a p)).mul (velW_0 P.wnot P.a p)).sub
      (stress_i (i := 0) (k := 2) (velW_00 P.wnot P.a p) (velU_02 P.unot P.a p)
        (div_vel_i (velU_00 P.unot P.a p) (velV_01 P.vnot P.a p) (velW_02 P.wnot P.a p))))
    (((r1.mul (velV_1 P.vnot P.a p)).mul (velW_1 P.wnot P.a p)).sub
      (stress_i (i := 1) (k := 2) (velW_11 P.wnot P.a p) (velV_12 P.vnot P.a p)
        (div_vel_i (velU_10 P.unot P.a p) (velV_11 P.vnot P.a p) (velW_12 P.wnot P.a p))))
    (((r2.mul (velW_2 P.wnot P.a p)).mul (velW_2 P.wnot P.a p)).sub
      (stress_i (i := 2) (k := 2) (velW_22 P.wnot P.a p) (velW_22 P.wnot P.a p)
        (div_vel_i (velU_20 P.unot P.a p) (velV_21 P.vnot P.a p) (velW_22 P.wnot P.a p))))
    (pressure_2 P.pnot P.a p) ?_
  simp only [vdMomentumSrc2, vol_eq, density, vel0, vel1, vel2, velU, velV, velW]
  generalize specificVolume P p = V
  simp +decide only [reduceIte, if_true, if_false]
  ring


/-! # C139: the non-isothermal variant -/

/-- Enthalpy of the exact solution (relative to the reference temperature). -/
noncomputable abbrev enthalpy (P : NI) : Pt → ℝ := mixFrac P.hnot P.ah

/-- Temperature, from the enthalpy with constant specific heat. -/
noncomputable def niTemp (P : NI) (p : Pt) : ℝ := enthalpy P p / P.Cp + P.Tref

/-- Ideal-gas density at the reference pressure. -/
noncomputable def niDensity (P : NI) (p : Pt) : ℝ := P.Pref * P.MW / P.R / niTemp P p

/-- C139: the temperature function offered to initial and boundary conditions is the temperature of the exact solution (the
enthalpy amplitude is 1 in the code). -/
theorem c139_temperature (P : NI) (h : P.hnot = 1) (p : Pt) : temperature P.ah P.Cp P.Tref p = niTemp P p := by
  simp only [temperature, niTemp, enthalpy, mixFrac, h, one_mul]

theorem niDensity_i {P : NI} {p : Pt} {i : Fin 4} {d : ℝ} (hz : HasPD i (enthalpy P) d p) (hT : niTemp P p ≠ 0) :
    HasPD i (niDensity P) (P.Pref * P.MW / P.R * (-(d / P.Cp) * (niTemp P p)⁻¹ * (niTemp P p)⁻¹)) p := by
  have h : HasPD i (niTemp P) (d / P.Cp) p := by
    unfold niTemp
    refine HasPD.congr (by hpd) ?_
    ring
  exact h.cdiv _ hT

theorem temp_eq (P : NI) (p : Pt) :
    P.hnot * Real.cos (P.ah * Real.pi * p 0) * Real.cos (P.ah * Real.pi * p 1) * Real.cos (P.ah * Real.pi * p 2) / P.Cp + P.Tref
    = niTemp P p := rfl

/-- C139: the continuity source is the divergence of the mass flux of the exact solution. -/
theorem c139_continuity (P : NI) {p : Pt} (hT : niTemp P p ≠ 0) :
    niContinuitySrc P p = continuity (niDensity P) (vel P.unot P.vnot P.wnot P.a) p := by
  symm
  have r0 := niDensity_i (mixFrac_0 P.hnot P.ah p) hT
  have r1 := niDensity_i (mixFrac_1 P.hnot P.ah p) hT
  have r2 := niDensity_i (mixFrac_2 P.hnot P.ah p) hT
  refine div_eq (r0.mul (velU_0 P.unot P.a p)) (r1.mul (velV_1 P.vnot P.a p)) (r2.mul (velW_2 P.wnot P.a p)) ?_
  simp only [niContinuitySrc, temp_eq, vel0, vel1, vel2, velU, velV, velW, niDensity]
  generalize niTemp P p = V
  ring

/-- C139: the enthalpy source is the enthalpy equation applied to the exact solution, with the diffusivity
`visc / Pr`. -/
theorem c139_enthalpy (P : NI) {p : Pt} (hT : niTemp P p ≠ 0) :
    niEnthalpySrc P p
      = transport (niDensity P) (vel P.unot P.vnot P.wnot P.a) (enthalpy P) (P.visc / P.Pr) p := by
  symm
  have r0 := niDensity_i (mixFrac_0 P.hnot P.ah p) hT
  have r1 := niDensity_i (mixFrac_1 P.hnot P.ah p) hT
  have r2 := niDensity_i (mixFrac_2 P.hnot P.ah p) hT
  refine div_eq
    (((r0.mul (velU_0 P.unot P.a p)).mul (mixFrac_0 P.hnot P.ah p)).sub ((mixFrac_00 P.hnot P.ah p).cmul _))
    (((r1.mul (velV_1 P.vnot P.a p)).mul (mixFrac_1 P.hnot P.ah p)).sub ((mixFrac_11 P.hnot P.ah p).cmul _))
    (((r2.mul (velW_2 P.wnot P.a p)).mul (mixFrac_2 P.hnot P.ah p)).sub ((mixFrac_22 P.hnot P.ah p).cmul _)) ?_
  simp only [niEnthalpySrc, temp_eq, vel0, vel1, vel2, velU, velV, velW, niDensity, mixFrac]
  generalize niTemp P p = V
  ring

/-- C139: component 0 of the momentum source is the momentum equation applied to the exact solution. -/
theorem c139_momentum0 (P : NI) {p : Pt} (hT : niTemp P p ≠ 0) :
    niMomentumSrc0 P p
      = momentum (niDensity P) (vel P.unot P.vnot P.wnot P.a) (pressure P.pnot P.a) P.visc P.twoThirds P.rhoRef P.g 0 p := by
  symm
  have r0 := niDensity_i (mixFrac_0 P.hnot P.ah p) hT
  have r1 := niDensity_i (mixFrac_1 P.hnot P.ah p) hT
  have r2 := niDensity_i (mixFrac_2 P.hnot P.ah p) hT
  refine momentum_eq
    (((r0.mul (velU_0 P.unot P.a p)).mul (velU_0 P.unot P.a p)).sub
      (stress_i (i := 0) (k := 0) (velU_00 P.unot P.a p) (velU_00 P.unot P.a p)
        (div_vel_i (velU_00 P.unot P.a p) (velV_01 P.vnot P.a p) (velW_02 P.wnot P.a p))))
    (((r1.mul (velV_1 P.vnot P.a p)).mul (velU_1 P.unot P.a p)).sub
      (stress_i (i := 1) (k := 0) (velU_11 P.unot P.a p) (velV_10 P.vnot P.a p)
        (div_vel_i (velU_10 P.unot P.a p) (velV_11 P.vnot P.a p) (velW_12 P.wnot P.a p))))
    (((r2.mul (velW_2 P.wnot P.a p)).mul (velU_2 P.unot P.a p)).sub
      (stress_i (i := 2) (k := 0) (velU_22 P.unot P.a p) (velW_20 P.wnot P.a p)
        (div_vel_i (velU_20 P.unot P.a p) (velV_21 P.vnot P.a p) (velW_22 P.wnot P.a p))))
    (pressure_0 P.pnot P.a p) ?_
  simp only [niMomentumSrc0, temp_eq, niDensity, vel0, vel1, vel2, velU, velV, velW]
  generalize niTemp P p = V
  simp +decide only [reduceIte, if_true, if_false]
  ring

/-- C139: component 1 of the momentum source is the momentum equation applied to the exact solution. -/
theorem c139_momentum1 (P : NI) {p : Pt} (hT : niTemp P p ≠ 0) :
    niMomentumSrc1 P p
      = momentum (niDensity P) (vel P.unot P.vnot P.wnot P.a) (pressure P.pnot P.a) P.visc P.twoThirds P.rhoRef P.g 1 p := by
  symm
  have r0 := niDensity_i (mixFrac_0 P.hnot P.ah p) hT
  have r1 := niDensity_i (mixFrac_1 P.hnot P.ah p) hT
  have r2 := niDensity_i (mixFrac_2 P.hnot P.ah p) hT
  refine momentum_eq
    (((r0.mul (velU_0 P.unot P.a p)).mul (velV_0 P.vnot P.a p)).sub
      (stress_i (i := 0) (k := 1) (velV_00 P.vnot P.a p) (velU_01 P.unot P.a p)
        (div_vel_i (velU_00 P.unot P.a p) (velV_01 P.vnot P.a p) (velW_02 P.wnot P.a p))))
    (((r1.mul (velV_1 P.vnot P.a p)).mul (velV_1 P.vnot P.a p)).sub
      (stress_i (i := 1) (k := 1) (velV_11 P.vnot P.a p) (velV_11 P.vnot P.a p)
        (div_vel_i (velU_10 P.unot P.a p) (velV_11 P.vnot P.a p) (velW_12 P.wnot P.a p))))
    (((r2.mul (velW_2 P.wnot P.a p)).mul (velV_2 P.vnot P.a p)).sub
      (stress_i (i := 2) (k := 1) (velV_22 P.vnot P.a p) (velW_21 P.wnot P.a p)
        (div_vel_i (velU_20 P.unot P.a p) (velV_21 P.vnot P.a p) (velW_22 P.wnot P.a p))))
    (pressure_1 P.pnot P.a p) ?_
  simp only [niMomentumSrc1, temp_eq, niDensity, vel0, vel1, vel2, velU, velV, velW]
  generalize niTemp P p = V
  simp +decide only [reduceIte, if_true, if_false]
  ring

/-- C139: component 2 of the momentum source is the momentum equation applied to the exact solution. -/
theorem c139_momentum2 (P : NI) {p : Pt} (hT : niTemp P p ≠ 0) :
    niMomentumSrc2 P p
      = momentum (niDensity P) (vel P.unot P.vnot P.wnot P.a) (pressure P.pnot P.a) P.visc P.twoThirds P.rhoRef P.g 2 p := by
  symm
  have r0 := niDensity_i (mixFrac_0 P.hnot P.ah p) hT
  have r1 := niDensity_i (mixFrac_1 P.hnot P.ah p) hT
  have r2 := niDensity_i (mixFrac_2 P.hnot P.ah p) hT
  refine momentum_eq
    (((r0.mul (velU_0 P.unot P.a p)).mul (velW_0 P.wnot P.a p)).sub
      (stress_i (i := 0) (k := 2) (velW_00 P.wnot P.a p) (velU_02 P.unot P.a p)
        (div_vel_i (velU_00 P.unot P.a p) (velV_01 P.vnot P.a p) (velW_02 P.wnot P.a p))))
    (((r1.mul (velV_1 P.vnot P.a p)).mul (velW_1 P.wnot P.a p)).sub
      (stress_i (i := 1) (k := 2) (velW_11 P.wnot P.a p) (velV_12 P.vnot P.a p)
        (div_vel_i (velU_10 P.unot P.a p) (velV_11 P.vnot P.a p) (velW_12 P.wnot P.a p))))
    (((r2.mul (velW_2 P.wnot P.a p)).mul (velW_2 P.wnot P.a p)).sub
      (stress_i (i := 2) (k := 2) (velW_22 P.wnot P.a p) (velW_22 P.wnot P.a p)
        (div_vel_i (velU_20 P.unot P.a p) (velV_21 P.vnot P.a p) (velW_22 P.wnot P.a p))))
    (pressure_2 P.pnot P.a p) ?_
  simp only [niMomentumSrc2, temp_eq, niDensity, vel0, vel1, vel2, velU, velV, velW]
  generalize niTemp P p = V
  simp +decide only [reduceIte, if_true, if_false]
  ring


/-! ### The hypotheses are met by the constants of the code -/

/-- With the constants of the code the temperature never vanishes, so C139 holds everywhere. -/
theorem code_temp_pos (divU rhoRef : ℝ) (g : Fin 3 → ℝ) (p : Pt) : 0 < niTemp (NI.code divU rhoRef g) p := by
  have b (x : ℝ) := Real.abs_cos_le_one x
  have h : |Real.cos (10 * Real.pi * p 0) * Real.cos (10 * Real.pi * p 1) * Real.cos (10 * Real.pi * p 2)| ≤ 1 := by
    rw [abs_mul, abs_mul]
    exact mul_le_one₀ (mul_le_one₀ (b _) (abs_nonneg _) (b _)) (abs_nonneg _) (b _)
  have h' := (abs_le.1 h).1
  simp only [niTemp, NI.code, mixFrac, one_mul]
  linarith

/-- With the constants of the code the specific volume is `1 + 9 Z`; at the centre of a cell of the pattern (`Z = 1`) it is 10. -/
example (divU rhoRef : ℝ) (g : Fin 3 → ℝ) : specificVolume (VD.code divU rhoRef g) (fun _ => 0) = 10 := by
  simp only [specificVolume, VD.code, mixFrac, mul_zero, Real.cos_zero]; norm_num

/-- The density of the exact solution does vary there: it is 1/10 at the origin and 1 at `x = 1/20`. -/
example (divU rhoRef : ℝ) (g : Fin 3 → ℝ) :
    density (VD.code divU rhoRef g) (fun _ => 0) = 1 / 10 ∧ density (VD.code divU rhoRef g) ![1 / 20, 0, 0, 0] = 1 := by
  constructor
  · simp only [density, specificVolume, VD.code, mixFrac, mul_zero, Real.cos_zero]; norm_num
  · have : Real.cos (10 * Real.pi * 20⁻¹) = 0 := by
      rw [show (10 : ℝ) * Real.pi * 20⁻¹ = Real.pi / 2 by ring, Real.cos_pi_div_two]
    simp [density, specificVolume, VD.code, mixFrac, this]

end Nalu.Mms
