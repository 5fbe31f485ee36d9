import Verif.Props.ExactSol
import Verif.Props.NodeSource2

/-!
# C140 (Boussinesq), C141 (exact solutions of the Navier-Stokes equations), C142 (Taylor-Green initial state)
-/

namespace Nalu.Exact
open Verif.Pde Real

/-! ### Boussinesq flow -/

section bsq
variable (p : Pt)

theorem bsqU_t : HasPD 3 bsqU 0 p := by unfold bsqU; pdr
theorem bsqU_0 : HasPD 0 bsqU (-π * sin (2 * π * p 0) * sin (2 * π * p 1) * sin (2 * π * p 2)) p := by unfold bsqU; pdr
theorem bsqU_1 : HasPD 1 bsqU (π * cos (2 * π * p 0) * cos (2 * π * p 1) * sin (2 * π * p 2)) p := by unfold bsqU; pdr
theorem bsqU_2 : HasPD 2 bsqU (π * cos (2 * π * p 0) * sin (2 * π * p 1) * cos (2 * π * p 2)) p := by unfold bsqU; pdr
theorem bsqV_t : HasPD 3 bsqV 0 p := by unfold bsqV; pdr
theorem bsqV_0 : HasPD 0 bsqV (-2 * π * cos (2 * π * p 0) * cos (2 * π * p 1) * sin (2 * π * p 2)) p := by unfold bsqV; pdr
theorem bsqV_1 : HasPD 1 bsqV (2 * π * sin (2 * π * p 0) * sin (2 * π * p 1) * sin (2 * π * p 2)) p := by unfold bsqV; pdr
theorem bsqV_2 : HasPD 2 bsqV (-2 * π * sin (2 * π * p 0) * cos (2 * π * p 1) * cos (2 * π * p 2)) p := by unfold bsqV; pdr
theorem bsqW_t : HasPD 3 bsqW 0 p := by unfold bsqW; pdr
theorem bsqW_0 : HasPD 0 bsqW (π * cos (2 * π * p 0) * sin (2 * π * p 1) * cos (2 * π * p 2)) p := by unfold bsqW; pdr
theorem bsqW_1 : HasPD 1 bsqW (π * sin (2 * π * p 0) * cos (2 * π * p 1) * cos (2 * π * p 2)) p := by unfold bsqW; pdr
theorem bsqW_2 : HasPD 2 bsqW (-π * sin (2 * π * p 0) * sin (2 * π * p 1) * sin (2 * π * p 2)) p := by unfold bsqW; pdr

theorem bsqU_jet : Jet bsqU p 0 (-π * sin (2 * π * p 0) * sin (2 * π * p 1) * sin (2 * π * p 2))
    (π * cos (2 * π * p 0) * cos (2 * π * p 1) * sin (2 * π * p 2)) (π * cos (2 * π * p 0) * sin (2 * π * p 1) * cos (2 * π * p 2))
    (-12 * π ^ 2 * bsqU p) := by
  have h0 : HasPD 0 (fun p => -π * sin (2 * π * p 0) * sin (2 * π * p 1) * sin (2 * π * p 2)) (-4 * π ^ 2 * bsqU p) p := by
    unfold bsqU; pdr
  have h1 : HasPD 1 (fun p => π * cos (2 * π * p 0) * cos (2 * π * p 1) * sin (2 * π * p 2)) (-4 * π ^ 2 * bsqU p) p := by
    unfold bsqU; pdr
  have h2 : HasPD 2 (fun p => π * cos (2 * π * p 0) * sin (2 * π * p 1) * cos (2 * π * p 2)) (-4 * π ^ 2 * bsqU p) p := by
    unfold bsqU; pdr
  have := jet_of (bsqU_t p) bsqU_0 bsqU_1 bsqU_2 h0 h1 h2
  rwa [show -4 * π ^ 2 * bsqU p + -4 * π ^ 2 * bsqU p + -4 * π ^ 2 * bsqU p = -12 * π ^ 2 * bsqU p by ring] at this

theorem bsqV_jet : Jet bsqV p 0 (-2 * π * cos (2 * π * p 0) * cos (2 * π * p 1) * sin (2 * π * p 2))
    (2 * π * sin (2 * π * p 0) * sin (2 * π * p 1) * sin (2 * π * p 2)) (-2 * π * sin (2 * π * p 0) * cos (2 * π * p 1) * cos (2 * π * p 2))
    (-12 * π ^ 2 * bsqV p) := by
  have h0 : HasPD 0 (fun p => -2 * π * cos (2 * π * p 0) * cos (2 * π * p 1) * sin (2 * π * p 2)) (-4 * π ^ 2 * bsqV p) p := by
    unfold bsqV; pdr
  have h1 : HasPD 1 (fun p => 2 * π * sin (2 * π * p 0) * sin (2 * π * p 1) * sin (2 * π * p 2)) (-4 * π ^ 2 * bsqV p) p := by
    unfold bsqV; pdr
  have h2 : HasPD 2 (fun p => -2 * π * sin (2 * π * p 0) * cos (2 * π * p 1) * cos (2 * π * p 2)) (-4 * π ^ 2 * bsqV p) p := by
    unfold bsqV; pdr
  have := jet_of (bsqV_t p) bsqV_0 bsqV_1 bsqV_2 h0 h1 h2
  rwa [show -4 * π ^ 2 * bsqV p + -4 * π ^ 2 * bsqV p + -4 * π ^ 2 * bsqV p = -12 * π ^ 2 * bsqV p by ring] at this

theorem bsqW_jet : Jet bsqW p 0 (π * cos (2 * π * p 0) * sin (2 * π * p 1) * cos (2 * π * p 2))
    (π * sin (2 * π * p 0) * cos (2 * π * p 1) * cos (2 * π * p 2)) (-π * sin (2 * π * p 0) * sin (2 * π * p 1) * sin (2 * π * p 2))
    (-12 * π ^ 2 * bsqW p) := by
  have h0 : HasPD 0 (fun p => π * cos (2 * π * p 0) * sin (2 * π * p 1) * cos (2 * π * p 2)) (-4 * π ^ 2 * bsqW p) p := by
    unfold bsqW; pdr
  have h1 : HasPD 1 (fun p => π * sin (2 * π * p 0) * cos (2 * π * p 1) * cos (2 * π * p 2)) (-4 * π ^ 2 * bsqW p) p := by
    unfold bsqW; pdr
  have h2 : HasPD 2 (fun p => -π * sin (2 * π * p 0) * sin (2 * π * p 1) * sin (2 * π * p 2)) (-4 * π ^ 2 * bsqW p) p := by
    unfold bsqW; pdr
  have := jet_of (bsqW_t p) bsqW_0 bsqW_1 bsqW_2 h0 h1 h2
  rwa [show -4 * π ^ 2 * bsqW p + -4 * π ^ 2 * bsqW p + -4 * π ^ 2 * bsqW p = -12 * π ^ 2 * bsqW p by ring] at this
end bsq

theorem sin4 (x : ℝ) : sin (4 * π * x) = 2 * sin (2 * π * x) * cos (2 * π * x) := by
  rw [← sin_two_mul]; congr 1; ring
theorem cos4 (x : ℝ) : cos (4 * π * x) = 2 * cos (2 * π * x) ^ 2 - 1 := by
  rw [← cos_two_mul]; congr 1; ring

/-- The bare momentum source of the Boussinesq case is the momentum equation with zero pressure. -/
theorem bsq_src (mu : ℝ) (p : Pt) (k : Fin 3) : navierStokes 1 mu bsqVel (fun _ => 0) k p = bsqSrcXi mu p k := by
  have v0 : bsqVel 0 = bsqU := rfl
  have v1 : bsqVel 1 = bsqV := rfl
  have v2 : bsqVel 2 = bsqW := rfl
  have s0 : bsqSrcXi mu p 0 = -(π * (1 + cos (4 * π * p 1) - 2 * cos (4 * π * p 2)) * sin (4 * π * p 0)) / 8
      + 6 * mu * (π * π) * cos (2 * π * p 0) * sin (2 * π * p 1) * sin (2 * π * p 2) := rfl
  have s1 : bsqSrcXi mu p 1 = π * ((-2 + cos (4 * π * p 0) + cos (4 * π * p 2)) * sin (4 * π * p 1)
      - 48 * mu * π * cos (2 * π * p 1) * sin (2 * π * p 0) * sin (2 * π * p 2)) / 4 := rfl
  have s2 : bsqSrcXi mu p 2 = π * (24 * mu * π * cos (2 * π * p 2) * sin (2 * π * p 0) * sin (2 * π * p 1)
      + (cos (4 * π * p 0) - cos (2 * π * p 1) * cos (2 * π * p 1)) * sin (4 * π * p 2)) / 4 := rfl
  have e0 := sin_sq (2 * π * p 0)
  have e1 := sin_sq (2 * π * p 1)
  have e2 := sin_sq (2 * π * p 2)
  fin_cases k
  · show navierStokes 1 mu bsqVel (fun _ => 0) 0 p = bsqSrcXi mu p 0
    rw [ns_of v0 (bsqU_jet p) (HasPD.const 0), v0, v1, v2, s0, sin4, cos4, cos4]
    simp only [bsqU, bsqV, bsqW]
    revert e0 e1 e2
    generalize sin (2 * π * p 0) = sx, cos (2 * π * p 0) = cx, sin (2 * π * p 1) = sy, cos (2 * π * p 1) = cy,
      sin (2 * π * p 2) = sz, cos (2 * π * p 2) = cz
    intro e0 e1 e2
    linear_combination (-π / 2 * sx * cx * sz ^ 2 + π / 2 * sx * cx * cz ^ 2) * e1 + (-π / 2 * sx * cx * (1 - cy ^ 2) - π * sx * cx * cy ^ 2) * e2
  · show navierStokes 1 mu bsqVel (fun _ => 0) 1 p = bsqSrcXi mu p 1
    rw [ns_of v1 (bsqV_jet p) (HasPD.const 0), v0, v1, v2, s1, sin4, cos4, cos4]
    simp only [bsqU, bsqV, bsqW]
    revert e0 e1 e2
    generalize sin (2 * π * p 0) = sx, cos (2 * π * p 0) = cx, sin (2 * π * p 1) = sy, cos (2 * π * p 1) = cy,
      sin (2 * π * p 2) = sz, cos (2 * π * p 2) = cz
    intro e0 e1 e2
    linear_combination (-2 * π * sy * cy * sz ^ 2 - π * sy * cy * cz ^ 2) * e0 + (-π * sy * cy * cx ^ 2 - 2 * π * sy * cy * (1 - cx ^ 2)) * e2
  · show navierStokes 1 mu bsqVel (fun _ => 0) 2 p = bsqSrcXi mu p 2
    rw [ns_of v2 (bsqW_jet p) (HasPD.const 0), v0, v1, v2, s2, sin4, cos4]
    simp only [bsqU, bsqV, bsqW]
    revert e0 e1 e2
    generalize sin (2 * π * p 0) = sx, cos (2 * π * p 0) = cx, sin (2 * π * p 1) = sy, cos (2 * π * p 1) = cy,
      sin (2 * π * p 2) = sz, cos (2 * π * p 2) = cz
    intro e0 e1 e2
    linear_combination (-π * cy ^ 2 * sz * cz - π / 2 * sz * cz * sy ^ 2) * e0 + (π / 2 * sz * cz * cx ^ 2 - π / 2 * sz * cz * (1 - cx ^ 2)) * e1

/-- C140: the Boussinesq velocity is divergence free; the enthalpy source is the advection of the enthalpy `h = z` of the temperature
function (its diffusion is zero); and the momentum source together with the Boussinesq buoyancy source evaluated at the exact temperature is
the momentum equation times the nodal volume. -/
theorem c140_boussinesq (mu Cp TRef rhoRef beta D : ℝ) (hC : Cp ≠ 0) (g : Fin 3 → ℝ) (vol : ℝ) (s : Nalu.Edge.LocalSys (Fin 3) ℝ) (p : Pt) :
    div bsqVel p = 0 ∧
      transport (fun _ => 1) bsqVel (fun p => Cp * (bsqTemp Cp TRef p - TRef)) D p = bsqEnthalpySrc p ∧
      ∀ k, bsqMomentumRhs mu Cp TRef rhoRef beta g p vol k +
          ((Nalu.Node.boussinesq rhoRef beta TRef g (bsqTemp Cp TRef p) vol s).rhs k - s.rhs k)
        = vol * navierStokes 1 mu bsqVel (fun _ => 0) k p := by
  refine ⟨?_, ?_, ?_⟩
  · rw [div_of (F := bsqVel) (bsqU_0 p) (bsqV_1 p) (bsqW_2 p)]; ring
  · have e : (fun p : Pt => Cp * (bsqTemp Cp TRef p - TRef)) = fun p => p 2 := by
      funext p; rw [bsqTemp]; field_simp; ring
    rw [e]
    have q0 : pd (dir 0) (fun p : Pt => p 2) = fun _ => 0 := funext fun p => (HasPD.other (i := 0) (j := 2) (by decide)).pd_eq
    have q1 : pd (dir 1) (fun p : Pt => p 2) = fun _ => 0 := funext fun p => (HasPD.other (i := 1) (j := 2) (by decide)).pd_eq
    have q2 : pd (dir 2) (fun p : Pt => p 2) = fun _ => 1 := funext fun p => (HasPD.self (i := 2)).pd_eq
    have h0 : HasPD 0 (fun p => 1 * bsqU p * p 2 - D * 0) (-π * sin (2 * π * p 0) * sin (2 * π * p 1) * sin (2 * π * p 2) * p 2) p := by
      have := bsqU_0 p; pdr
    have h1 : HasPD 1 (fun p => 1 * bsqV p * p 2 - D * 0) (2 * π * sin (2 * π * p 0) * sin (2 * π * p 1) * sin (2 * π * p 2) * p 2) p := by
      have := bsqV_1 p; pdr
    have h2 : HasPD 2 (fun p => 1 * bsqW p * p 2 - D * 1) (-π * sin (2 * π * p 0) * sin (2 * π * p 1) * sin (2 * π * p 2) * p 2 + bsqW p) p := by
      have := bsqW_2 p; pdr
    rw [transport, div_of (F := fun i p => 1 * bsqVel i p * p 2 - D * pd (dir i) (fun p : Pt => p 2) p)
      (by rw [q0]; exact h0) (by rw [q1]; exact h1) (by rw [q2]; exact h2), bsqW, bsqEnthalpySrc]
    ring
  · intro k
    rw [bsq_src]
    have hb : (Nalu.Node.boussinesq rhoRef beta TRef g (bsqTemp Cp TRef p) vol s).rhs k - s.rhs k
        = -rhoRef * beta * (bsqTemp Cp TRef p - TRef) * vol * g k := by
      rw [Nalu.Node.boussinesq_rhs]; ring
    rw [hb, bsqMomentumRhs, bsqTemp]
    ring

end Nalu.Exact
