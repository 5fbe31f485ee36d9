import Verif.Props.EigenEdge
import Verif.Props.Actuator

/-! # Theorems added after seeded edits survived (batch 16) -/

namespace Nalu.Eigen
open Edge Matrix

/-- **C162** Calibration of the gradient diffusion: with isotropic turbulence of energy `k` at both nodes and a linear scalar field, the flux is that of
a scalar diffusivity, the laminar one plus `rho * cMu * k * tau / sigma`, where the time scale `tau` is the inverse of the rate of strain
`sqrt(2 S:S)`. -/
theorem c162_isotropic_flux (o : EigOpts) (a : Fin 3 → ℝ) (L R : EigNode) (old : Out M3) (g : Fin 3 → ℝ) (k : ℝ) (hk : 1 / 10 ^ 16 ≤ k)
    (h0 : o.delta = 0) (hp : o.pert = 0) (hLk : L.turbKe = k) (hRk : R.turbKe = k) (hLv : L.turbVisc = 0) (hRv : R.turbVisc = 0)
    (hnoc : o.adv.nocFac = 1) (hL : L.s.dqdx = g) (hR : R.s.dqdx = g) (hq : R.s.q - L.s.q = ∑ j, g j * (R.s.x j - L.s.x j)) :
    eigDiffFlux o a L R old = -((L.s.diff + R.s.diff) / 2 + (L.s.rho + R.s.rho) / 2 * o.cMu * k / o.turbSigma *
      (1 / Real.sqrt (2 * ∑ i, ∑ j, ((ipDudx o a L R i j + ipDudx o a L R j i) / 2) ^ 2))) * ∑ j, g j * a j := by
  have hnu : turbNuIp o L R = 0 := by simp [turbNuIp, hLv, hRv]
  have hkk : turbKeIp L R = k := by
    unfold turbKeIp
    rw [hLk, hRk, max_eq_left hk]; ring
  have hS : sijMag (ipDudx o a L R) = Real.sqrt (2 * ∑ i, ∑ j, ((ipDudx o a L R i j + ipDudx o a L R j i) / 2) ^ 2) := by
    unfold sijMag
    congr 2
    exact Finset.sum_congr rfl fun i _ => Finset.sum_congr rfl fun j _ => by ring
  rw [(c162_linear_field o a L R old g hnoc hL hR hq).2]
  simp only [c162_unperturbed_stress o a L R old h0 hp, hnu, hkk, EigOpts.cGGDH, timeScale, hS, lamIp, rhoIp]
  simp [Fin.sum_univ_three]
  ring

end Nalu.Eigen

namespace Nalu.Actuator

/-- **C163** The line turns about its own middle: at every time the two ends lie opposite each other about the mid point of the input. -/
theorem c163_about_middle (l : Line) (h : 2 ≤ l.numPoints) (t : ℝ) (j : Fin 3) :
    (pointCoords l 0 t j + pointCoords l (l.numPoints - 1) t j) / 2 = (l.tip j + l.tail j) / 2 := by
  have hm : (((l.numPoints - 1 : ℕ) : ℝ)) ≠ 0 := by
    have : 1 ≤ l.numPoints - 1 := by omega
    positivity
  have e : modelCoords l (l.numPoints - 1) = l.tip := by
    funext i
    simp only [modelCoords, spacing, max_eq_left (show 1 ≤ l.numPoints - 1 by omega)]
    field_simp; ring
  have e0 : modelCoords l 0 = l.tail := by funext i; simp [modelCoords]
  simp only [pointCoords, setCurrentCoordinates, e, e0, lineCentroid]
  fin_cases j <;> simp <;> ring

end Nalu.Actuator
