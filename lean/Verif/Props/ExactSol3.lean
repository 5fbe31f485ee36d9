import Verif.Props.ExactSol

/-!
# C141 (exact solutions of the Navier-Stokes equations), C142 (Taylor-Green initial state)
-/

namespace Nalu.Exact
open Verif.Pde Real

/-! ### Convecting Taylor vortex -/

section ctv
variable (u0 v0 nu : ℝ) (p : Pt)

theorem ctvU_t : HasPD 3 (ctvU u0 v0 nu)
    (-π * u0 * sin (π * (p 0 - u0 * p 3)) * sin (π * (p 1 - v0 * p 3)) * exp (-2 * (π * π * nu) * p 3)
      + π * v0 * cos (π * (p 0 - u0 * p 3)) * cos (π * (p 1 - v0 * p 3)) * exp (-2 * (π * π * nu) * p 3)
      + 2 * (π * π * nu) * cos (π * (p 0 - u0 * p 3)) * sin (π * (p 1 - v0 * p 3)) * exp (-2 * (π * π * nu) * p 3)) p := by
  unfold ctvU; dsimp only; pdr
theorem ctvU_0 : HasPD 0 (ctvU u0 v0 nu) (π * sin (π * (p 0 - u0 * p 3)) * sin (π * (p 1 - v0 * p 3)) * exp (-2 * (π * π * nu) * p 3)) p := by
  unfold ctvU; dsimp only; pdr
theorem ctvU_1 : HasPD 1 (ctvU u0 v0 nu) (-π * cos (π * (p 0 - u0 * p 3)) * cos (π * (p 1 - v0 * p 3)) * exp (-2 * (π * π * nu) * p 3)) p := by
  unfold ctvU; dsimp only; pdr
theorem ctvU_2 : HasPD 2 (ctvU u0 v0 nu) 0 p := by unfold ctvU; dsimp only; pdr
theorem ctvU_00 : HasPD 0 (fun p => π * sin (π * (p 0 - u0 * p 3)) * sin (π * (p 1 - v0 * p 3)) * exp (-2 * (π * π * nu) * p 3))
    (π * π * cos (π * (p 0 - u0 * p 3)) * sin (π * (p 1 - v0 * p 3)) * exp (-2 * (π * π * nu) * p 3)) p := by pdr
theorem ctvU_11 : HasPD 1 (fun p => -π * cos (π * (p 0 - u0 * p 3)) * cos (π * (p 1 - v0 * p 3)) * exp (-2 * (π * π * nu) * p 3))
    (π * π * cos (π * (p 0 - u0 * p 3)) * sin (π * (p 1 - v0 * p 3)) * exp (-2 * (π * π * nu) * p 3)) p := by pdr

theorem ctvV_t : HasPD 3 (ctvV u0 v0 nu)
    (-π * u0 * cos (π * (p 0 - u0 * p 3)) * cos (π * (p 1 - v0 * p 3)) * exp (-2 * (π * π * nu) * p 3)
      + π * v0 * sin (π * (p 0 - u0 * p 3)) * sin (π * (p 1 - v0 * p 3)) * exp (-2 * (π * π * nu) * p 3)
      - 2 * (π * π * nu) * sin (π * (p 0 - u0 * p 3)) * cos (π * (p 1 - v0 * p 3)) * exp (-2 * (π * π * nu) * p 3)) p := by
  unfold ctvV; dsimp only; pdr
theorem ctvV_0 : HasPD 0 (ctvV u0 v0 nu) (π * cos (π * (p 0 - u0 * p 3)) * cos (π * (p 1 - v0 * p 3)) * exp (-2 * (π * π * nu) * p 3)) p := by
  unfold ctvV; dsimp only; pdr
theorem ctvV_1 : HasPD 1 (ctvV u0 v0 nu) (-π * sin (π * (p 0 - u0 * p 3)) * sin (π * (p 1 - v0 * p 3)) * exp (-2 * (π * π * nu) * p 3)) p := by
  unfold ctvV; dsimp only; pdr
theorem ctvV_2 : HasPD 2 (ctvV u0 v0 nu) 0 p := by unfold ctvV; dsimp only; pdr
theorem ctvV_00 : HasPD 0 (fun p => π * cos (π * (p 0 - u0 * p 3)) * cos (π * (p 1 - v0 * p 3)) * exp (-2 * (π * π * nu) * p 3))
    (-π * π * sin (π * (p 0 - u0 * p 3)) * cos (π * (p 1 - v0 * p 3)) * exp (-2 * (π * π * nu) * p 3)) p := by pdr
theorem ctvV_11 : HasPD 1 (fun p => -π * sin (π * (p 0 - u0 * p 3)) * sin (π * (p 1 - v0 * p 3)) * exp (-2 * (π * π * nu) * p 3))
    (-π * π * sin (π * (p 0 - u0 * p 3)) * cos (π * (p 1 - v0 * p 3)) * exp (-2 * (π * π * nu) * p 3)) p := by pdr

theorem ctvP_0 (q : ℝ) : HasPD 0 (ctvPressure u0 v0 q nu) (ctvGradP u0 v0 q nu p 0) p := by
  show HasPD 0 (ctvPressure u0 v0 q nu) (-(q / 4) * (-2 * π * sin (2 * π * (p 0 - u0 * p 3))) * exp (-4 * (π * π * nu) * p 3)) p
  unfold ctvPressure; dsimp only; pdr
theorem ctvP_1 (q : ℝ) : HasPD 1 (ctvPressure u0 v0 q nu) (ctvGradP u0 v0 q nu p 1) p := by
  show HasPD 1 (ctvPressure u0 v0 q nu) (-(q / 4) * (-2 * π * sin (2 * π * (p 1 - v0 * p 3))) * exp (-4 * (π * π * nu) * p 3)) p
  unfold ctvPressure; dsimp only; pdr
theorem ctvP_2 (q : ℝ) : HasPD 2 (ctvPressure u0 v0 q nu) (ctvGradP u0 v0 q nu p 2) p := by
  show HasPD 2 (ctvPressure u0 v0 q nu) 0 p
  unfold ctvPressure; dsimp only; pdr
end ctv

/-- C141: the convecting Taylor vortex is an exact solution of the incompressible Navier-Stokes equations at every point and time, for
every translation velocity and viscosity, when the pressure amplitude is 1 (as in the code); and the pressure-gradient function is the
gradient of the pressure function for every amplitude. -/
theorem c141_convecting_taylor_vortex (u0 v0 nu : ℝ) (p : Pt) :
    div (ctvVel u0 v0 nu) p = 0 ∧ (∀ k, navierStokes 1 nu (ctvVel u0 v0 nu) (ctvPressure u0 v0 1 nu) k p = 0) ∧
      ∀ q k, pd (dir k) (ctvPressure u0 v0 q nu) p = ctvGradP u0 v0 q nu p k := by
  have a0 : ctvVel u0 v0 nu 0 = ctvU u0 v0 nu := rfl
  have a1 : ctvVel u0 v0 nu 1 = ctvV u0 v0 nu := rfl
  have a2 : ctvVel u0 v0 nu 2 = fun _ => 0 := rfl
  have s2 (x : ℝ) : sin (2 * π * x) = 2 * sin (π * x) * cos (π * x) := by rw [← sin_two_mul]; congr 1; ring
  have ex : exp (-4 * (π * π * nu) * p 3) = exp (-2 * (π * π * nu) * p 3) * exp (-2 * (π * π * nu) * p 3) := by
    rw [← exp_add]; congr 1; ring
  have g0 : ctvGradP u0 v0 1 nu p 0 = -(1 / 4) * (-2 * π * sin (2 * π * (p 0 - u0 * p 3))) * exp (-4 * (π * π * nu) * p 3) := rfl
  have g1 : ctvGradP u0 v0 1 nu p 1 = -(1 / 4) * (-2 * π * sin (2 * π * (p 1 - v0 * p 3))) * exp (-4 * (π * π * nu) * p 3) := rfl
  refine ⟨?_, ?_, ?_⟩
  · rw [div_of (F := ctvVel u0 v0 nu) (ctvU_0 u0 v0 nu p) (ctvV_1 u0 v0 nu p) (HasPD.const 0)]; ring
  · intro k
    fin_cases k
    · show navierStokes 1 nu (ctvVel u0 v0 nu) (ctvPressure u0 v0 1 nu) 0 p = 0
      rw [ns_of a0 (jet_of (ctvU_t u0 v0 nu p) (ctvU_0 u0 v0 nu) (ctvU_1 u0 v0 nu) (ctvU_2 u0 v0 nu) (ctvU_00 u0 v0 nu p)
        (ctvU_11 u0 v0 nu p) (HasPD.const 0)) (ctvP_0 u0 v0 nu p 1), a0, a1, a2, g0, s2, ex]
      simp only [ctvU, ctvV]
      have h := sin_sq_add_cos_sq (π * (p 1 - v0 * p 3))
      generalize exp (-2 * (π * π * nu) * p 3) = E
      linear_combination (-π * sin (π * (p 0 - u0 * p 3)) * cos (π * (p 0 - u0 * p 3)) * E ^ 2) * h
    · show navierStokes 1 nu (ctvVel u0 v0 nu) (ctvPressure u0 v0 1 nu) 1 p = 0
      rw [ns_of a1 (jet_of (ctvV_t u0 v0 nu p) (ctvV_0 u0 v0 nu) (ctvV_1 u0 v0 nu) (ctvV_2 u0 v0 nu) (ctvV_00 u0 v0 nu p)
        (ctvV_11 u0 v0 nu p) (HasPD.const 0)) (ctvP_1 u0 v0 nu p 1), a0, a1, a2, g1, s2, ex]
      simp only [ctvU, ctvV]
      have h := sin_sq_add_cos_sq (π * (p 0 - u0 * p 3))
      generalize exp (-2 * (π * π * nu) * p 3) = E
      linear_combination (-π * sin (π * (p 1 - v0 * p 3)) * cos (π * (p 1 - v0 * p 3)) * E ^ 2) * h
    · exact ns_zero rfl (ctvP_2 u0 v0 nu p 1)
  · intro q k
    fin_cases k
    · exact (ctvP_0 u0 v0 nu p q).pd_eq
    · exact (ctvP_1 u0 v0 nu p q).pd_eq
    · exact (ctvP_2 u0 v0 nu p q).pd_eq

/-! ### Kovasznay flow -/

/-- The quadratic that fixes the decay rate. -/
theorem kov_root (Re : ℝ) : kovLambda Re ^ 2 - Re * kovLambda Re - 4 * π ^ 2 = 0 := by
  have h : √(1 / 4 * Re * Re + 4 * π * π) ^ 2 = 1 / 4 * Re * Re + 4 * π * π :=
    Real.sq_sqrt (by nlinarith [sq_nonneg Re, sq_nonneg π])
  unfold kovLambda
  linear_combination h

/-- C141: Kovasznay flow is an exact steady solution of the Navier-Stokes equations with viscosity `1/Re`, and the pressure-gradient
function is the gradient of the pressure function. -/
theorem c141_kovasznay (Re : ℝ) (hRe : Re ≠ 0) (p : Pt) :
    div (kovVel Re) p = 0 ∧ (∀ k, navierStokes 1 (1 / Re) (kovVel Re) (kovPressure Re) k p = 0) ∧
      ∀ k, pd (dir k) (kovPressure Re) p = kovGradP Re p k := by
  have hr := kov_root Re
  have a0 : kovVel Re 0 = kovU Re := rfl
  have a1 : kovVel Re 1 = kovV Re := rfl
  have a2 : kovVel Re 2 = fun _ => 0 := rfl
  have hpi : π ≠ 0 := Real.pi_ne_zero
  have ut : HasPD 3 (kovU Re) 0 p := by unfold kovU; pdr
  have u0 (p : Pt) : HasPD 0 (kovU Re) (-kovLambda Re * exp (kovLambda Re * p 0) * cos (2 * π * p 1)) p := by unfold kovU; pdr
  have u1 (p : Pt) : HasPD 1 (kovU Re) (2 * π * exp (kovLambda Re * p 0) * sin (2 * π * p 1)) p := by unfold kovU; pdr
  have u2 (p : Pt) : HasPD 2 (kovU Re) 0 p := by unfold kovU; pdr
  have u00 : HasPD 0 (fun p => -kovLambda Re * exp (kovLambda Re * p 0) * cos (2 * π * p 1))
    (-kovLambda Re ^ 2 * exp (kovLambda Re * p 0) * cos (2 * π * p 1)) p := by pdr
  have u11 : HasPD 1 (fun p => 2 * π * exp (kovLambda Re * p 0) * sin (2 * π * p 1))
    (4 * π ^ 2 * exp (kovLambda Re * p 0) * cos (2 * π * p 1)) p := by pdr
  have vt : HasPD 3 (kovV Re) 0 p := by unfold kovV; pdr
  have v0 (p : Pt) : HasPD 0 (kovV Re) (kovLambda Re ^ 2 / (2 * π) * exp (kovLambda Re * p 0) * sin (2 * π * p 1)) p := by unfold kovV; pdr
  have v1 (p : Pt) : HasPD 1 (kovV Re) (kovLambda Re * exp (kovLambda Re * p 0) * cos (2 * π * p 1)) p := by
    unfold kovV; refine HasPD.congr (by hpd) ?_; field_simp; ring
  have v2 (p : Pt) : HasPD 2 (kovV Re) 0 p := by unfold kovV; pdr
  have v00 : HasPD 0 (fun p => kovLambda Re ^ 2 / (2 * π) * exp (kovLambda Re * p 0) * sin (2 * π * p 1))
    (kovLambda Re ^ 3 / (2 * π) * exp (kovLambda Re * p 0) * sin (2 * π * p 1)) p := by pdr
  have v11 : HasPD 1 (fun p => kovLambda Re * exp (kovLambda Re * p 0) * cos (2 * π * p 1))
    (-2 * π * kovLambda Re * exp (kovLambda Re * p 0) * sin (2 * π * p 1)) p := by pdr
  have p0 : HasPD 0 (kovPressure Re) (-kovLambda Re * exp (2 * kovLambda Re * p 0)) p := by unfold kovPressure; pdr
  have p1 : HasPD 1 (kovPressure Re) 0 p := by unfold kovPressure; pdr
  have p2 : HasPD 2 (kovPressure Re) 0 p := by unfold kovPressure; pdr
  have ex : exp (2 * kovLambda Re * p 0) = exp (kovLambda Re * p 0) * exp (kovLambda Re * p 0) := by
    rw [← exp_add]; congr 1; ring
  refine ⟨?_, ?_, ?_⟩
  · rw [div_of (F := kovVel Re) (u0 p) (v1 p) (HasPD.const 0)]; ring
  · intro k
    fin_cases k
    · show navierStokes 1 (1 / Re) (kovVel Re) (kovPressure Re) 0 p = 0
      rw [ns_of a0 (jet_of ut u0 u1 u2 u00 u11 (HasPD.const 0)) p0, a0, a1, a2, ex]
      simp only [kovU, kovV]
      have h := sin_sq_add_cos_sq (2 * π * p 1)
      revert h hr
      generalize sin (2 * π * p 1) = s, cos (2 * π * p 1) = c, exp (kovLambda Re * p 0) = E
      generalize kovLambda Re = l
      intro hr h
      field_simp
      linear_combination (Re * l * E ^ 2) * h + (c * E) * hr
    · show navierStokes 1 (1 / Re) (kovVel Re) (kovPressure Re) 1 p = 0
      rw [ns_of a1 (jet_of vt v0 v1 v2 v00 v11 (HasPD.const 0)) p1, a0, a1, a2]
      simp only [kovU, kovV]
      revert hr
      generalize sin (2 * π * p 1) = s, cos (2 * π * p 1) = c, exp (kovLambda Re * p 0) = E
      generalize kovLambda Re = l
      intro hr
      field_simp
      linear_combination (-l * E * s) * hr
    · exact ns_zero rfl p2
  · intro k
    fin_cases k
    · exact p0.pd_eq
    · exact p1.pd_eq
    · exact p2.pd_eq

/-- At the Reynolds number of the code the flow is not trivial: the decay rate is negative, so the wake decays downstream. -/
theorem c141_kovasznay_decays (Re : ℝ) : kovLambda Re < 0 := by
  unfold kovLambda
  have h : 1 / 2 * Re < √(1 / 4 * Re * Re + 4 * π * π) := by
    apply Real.lt_sqrt_of_sq_lt
    nlinarith [Real.pi_pos, mul_pos Real.pi_pos Real.pi_pos]
  linarith

/-! ### Taylor-Green vortex -/

/-- C142: the Taylor-Green initial velocity is divergence free and the initial pressure satisfies the pressure Poisson equation of that
velocity field, so the initial state is consistent with an incompressible flow. -/
theorem c142_taylor_green (u0 p0 rho0 L : ℝ) (p : Pt) :
    div (tgVel u0 L) p = 0 ∧
      lap (tgPressure u0 p0 rho0 L) p = -rho0 * ∑ i, ∑ j, pd (dir i) (tgVel u0 L j) p * pd (dir j) (tgVel u0 L i) p := by
  have a0 : HasPD 0 (tgU u0 L) (u0 / L * cos (p 0 / L) * cos (p 1 / L) * cos (p 2 / L)) p := by unfold tgU; pdr
  have a1 : HasPD 1 (tgU u0 L) (-u0 / L * sin (p 0 / L) * sin (p 1 / L) * cos (p 2 / L)) p := by unfold tgU; pdr
  have a2 : HasPD 2 (tgU u0 L) (-u0 / L * sin (p 0 / L) * cos (p 1 / L) * sin (p 2 / L)) p := by unfold tgU; pdr
  have b0 : HasPD 0 (tgV u0 L) (u0 / L * sin (p 0 / L) * sin (p 1 / L) * cos (p 2 / L)) p := by unfold tgV; pdr
  have b1 : HasPD 1 (tgV u0 L) (-u0 / L * cos (p 0 / L) * cos (p 1 / L) * cos (p 2 / L)) p := by unfold tgV; pdr
  have b2 : HasPD 2 (tgV u0 L) (u0 / L * cos (p 0 / L) * sin (p 1 / L) * sin (p 2 / L)) p := by unfold tgV; pdr
  have q0 (p : Pt) : HasPD 0 (tgPressure u0 p0 rho0 L) (-rho0 * u0 * u0 / 16 * (2 / L) * sin (2 * p 0 / L) * (cos (2 * p 2 / L) + 2)) p := by
    unfold tgPressure; pdr
  have q1 (p : Pt) : HasPD 1 (tgPressure u0 p0 rho0 L) (-rho0 * u0 * u0 / 16 * (2 / L) * sin (2 * p 1 / L) * (cos (2 * p 2 / L) + 2)) p := by
    unfold tgPressure; pdr
  have q2 (p : Pt) : HasPD 2 (tgPressure u0 p0 rho0 L)
      (-rho0 * u0 * u0 / 16 * (2 / L) * (cos (2 * p 0 / L) + cos (2 * p 1 / L)) * sin (2 * p 2 / L)) p := by
    unfold tgPressure; pdr
  have q00 : HasPD 0 (fun p => -rho0 * u0 * u0 / 16 * (2 / L) * sin (2 * p 0 / L) * (cos (2 * p 2 / L) + 2))
      (-rho0 * u0 * u0 / 16 * (2 / L) ^ 2 * cos (2 * p 0 / L) * (cos (2 * p 2 / L) + 2)) p := by pdr
  have q11 : HasPD 1 (fun p => -rho0 * u0 * u0 / 16 * (2 / L) * sin (2 * p 1 / L) * (cos (2 * p 2 / L) + 2))
      (-rho0 * u0 * u0 / 16 * (2 / L) ^ 2 * cos (2 * p 1 / L) * (cos (2 * p 2 / L) + 2)) p := by pdr
  have q22 : HasPD 2 (fun p => -rho0 * u0 * u0 / 16 * (2 / L) * (cos (2 * p 0 / L) + cos (2 * p 1 / L)) * sin (2 * p 2 / L))
      (-rho0 * u0 * u0 / 16 * (2 / L) ^ 2 * (cos (2 * p 0 / L) + cos (2 * p 1 / L)) * cos (2 * p 2 / L)) p := by pdr
  refine ⟨?_, ?_⟩
  · rw [div_of (F := tgVel u0 L) a0 b1 (HasPD.const 0)]; ring
  · have c2 (x : ℝ) : cos (2 * x / L) = 2 * cos (x / L) ^ 2 - 1 := by rw [← cos_two_mul]; congr 1; ring
    have v0 : tgVel u0 L 0 = tgU u0 L := rfl
    have v1 : tgVel u0 L 1 = tgV u0 L := rfl
    have v2 : tgVel u0 L 2 = fun _ => 0 := rfl
    have z (i : Fin 4) : pd i (fun _ => 0) p = 0 := (HasPD.const (i := i) (p := p) 0).pd_eq
    rw [lap_of q0 q1 q2 q00 q11 q22]
    simp only [Fin.sum_univ_three, v0, v1, v2, z, show dir 0 = 0 from rfl, show dir 1 = 1 from rfl, show dir 2 = 2 from rfl,
      a0.pd_eq, a1.pd_eq, a2.pd_eq, b0.pd_eq, b1.pd_eq, b2.pd_eq, c2]
    have h0 := sin_sq (p 0 / L)
    have h1 := sin_sq (p 1 / L)
    revert h0 h1
    generalize sin (p 0 / L) = sx, cos (p 0 / L) = cx, sin (p 1 / L) = sy, cos (p 1 / L) = cy, sin (p 2 / L) = sz, cos (p 2 / L) = cz
    intro h0 h1
    simp only [div_eq_mul_inv]
    generalize L⁻¹ = m
    linear_combination (-2 * rho0 * u0 ^ 2 * m ^ 2 * cz ^ 2 * sy ^ 2) * h0 + (-2 * rho0 * u0 ^ 2 * m ^ 2 * cz ^ 2 * (1 - cx ^ 2)) * h1

end Nalu.Exact
