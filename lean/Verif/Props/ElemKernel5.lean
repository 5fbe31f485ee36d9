import Verif.Props.ElemKernel4

/-!
# Element kernels: further consistency (C85, C86, C88)
-/

set_option linter.unusedSectionVars false

namespace Nalu.Kernel
open Nalu.Edge

variable {K : Type*} [Field K] [LinearOrder K] [IsStrictOrderedRing K]
variable {nn nip nf nd : ℕ}

/-- **C85** Pure diffusion of a linear field carries exactly `-mu grad q . A`, with the diffusivity interpolated by
the (unshifted) shape functions. -/
theorem c85_linear_diffusion (e : Scs nn nip nd K) (x : Fin nn → Fin nd → K)
    (hg : ∀ ip, GradConst (e.dndx ip)) (hg1 : ∀ ip, GradLinear (e.dndx ip) x)
    (mu : Fin nn → K) (c : K) (w : Fin nd → K) (s : LocalSys (Fin nn) K) (a : Fin nn) :
    (scalarDiff e mu (fun ic => affine c w (x ic)) s).rhs a = s.rhs a +
      netOut e.il e.ir (fun ip => interp (e.shape ip) mu * ∑ j, w j * e.area ip j) a := by
  rw [scalarDiff_eq, scalarAdvDiff_rhs, sub_eq_add_neg, ← Finset.sum_neg_distrib, ← sum_lrs_net]
  congr 1
  refine Finset.sum_congr rfl fun ip _ => ?_
  rw [← lrs_neg]
  congr 1
  simp only [advDiffRow, mul_zero, zero_add]
  rw [diffFac_affine _ _ _ _ (hg ip) (hg1 ip)]; ring

/-- **C85** On a linear velocity field with its exact gradient and second-order upwinding (limiter off) the upwind
momentum kernel gives the residual of the central one. -/
theorem c85_linear_momentumUpw (o : Opts K) (hl : o.useLimiter = false) (ho : o.hoUpwind = 1) (inc : K)
    (e : Scs nn nip nd K) (hN : ∀ ip, Unity (e.adv ip)) (mdot : Fin nip → K) (v : UpwNodes nn nd K)
    (c : Fin nd → K) (W : Fin nd → Fin nd → K) (s : LocalSys (Fin nn × Fin nd) K) (n : Fin nn) (k : Fin nd) :
    (momentumUpw o inc e mdot v (fun ic i => affine (c i) (W i) (v.x ic)) (fun _ => W) s).rhs (n, k) =
      (momentumAdvDiff inc e mdot v.mu (fun ic i => affine (c i) (W i) (v.x ic)) s).rhs (n, k) := by
  rw [momentumUpw_rhs, momentumAdvDiff_rhs]
  congr 1
  refine Finset.sum_congr rfl fun ip _ => ?_
  congr 3
  have hI := interp_affine (e.adv ip) (hN ip) v.x (c k) (W k)
  have hL : affine (c k) (W k) (v.x (e.il ip)) +
      ∑ j, (coordIp (e.adv ip) v.x j - v.x (e.il ip) j) * W k j =
      affine (c k) (W k) (coordIp (e.adv ip) v.x) := by
    simp only [affine]
    rw [add_assoc, ← Finset.sum_add_distrib]
    congr 1
    exact Finset.sum_congr rfl fun _ _ => by ring
  have hR : affine (c k) (W k) (v.x (e.ir ip)) -
      ∑ j, (v.x (e.ir ip) j - coordIp (e.adv ip) v.x j) * W k j =
      affine (c k) (W k) (coordIp (e.adv ip) v.x) := by
    simp only [affine]
    rw [add_sub_assoc, ← Finset.sum_sub_distrib]
    congr 1
    exact Finset.sum_congr rfl fun _ _ => by ring
  have hC : coordIp (e.adv ip) (fun ic i => affine (c i) (W i) (v.x ic)) k =
      affine (c k) (W k) (coordIp (e.adv ip) v.x) := hI
  rw [hC]
  simp only [momUpwAdv, upwAdv, extrapolate, hl, ho, mul_one, hI, hL, hR, upwFlux, Bool.false_eq_true,
    if_false]
  split_ifs <;> ring

/-- **C86** Continuity on a moving mesh: what the GCL term takes from the element is the density-weighted (or, for
constant density, plain) integral of the mesh-velocity divergence, over the projection time scale, so it
enters the balance of C87 with the weight of a mass flow rate. -/
theorem c86_continuity_gcl (pts : K) (hp : pts ≠ 0) (df : K) (e : Scv nn nip K) (rho divV : Fin nn → K)
    (s : LocalSys (Fin nn) K) :
    (∑ a, (continuityGcl pts df e rho divV s).rhs a) * pts = (∑ a, s.rhs a) * pts -
      ∑ ip, (df * interp (e.shape ip) rho + (1 - df)) * interp (e.shape ip) divV * e.vol ip := by
  simp only [continuityGcl_rhs, Finset.sum_add_distrib, sum_node]
  rw [add_mul, Finset.sum_mul (Finset.univ) (fun ip => -((df * interp (e.shape ip) rho + (1 - df)) *
    interp (e.shape ip) divV * e.vol ip / pts)), ← sub_neg_eq_add]
  congr 1
  rw [← Finset.sum_neg_distrib]
  refine Finset.sum_congr rfl fun ip _ => ?_
  field_simp

/-- **C88** Open mass flow rate: for a linear pressure with its exact gradient, when the pressure on the face equals the
specified pressure less the dynamic pressure of the entering stream, the rate is the interpolated
`rho u . A`; neither the penalty nor the stabilisation acts. -/
theorem c88_open_mdot_consistent (pts pen : K) (f : Face nn nf nip nd K) (x : Fin nn → Fin nd → K)
    (ip : Fin nip) (hN : Unity (f.shape ip)) (hg : GradConst (f.dndx ip)) (hg1 : GradLinear (f.dndx ip) x)
    (rho : Fin nn → K) (u : Fin nn → Fin nd → K) (p0 : K) (w : Fin nd → K) (pbc : Fin nn → K)
    (dynP : Fin nip → K)
    (hbc : ∀ ic, affine p0 w (x (f.node ic)) = pbc (f.node ic) - dynP ip) :
    openMdotIp pts pen f ⟨rho, u, fun n => affine p0 w (x n), fun _ => w⟩ pbc dynP ip =
      ∑ j, (∑ ic, f.shape ip ic * rho (f.node ic) * u (f.node ic) j) * f.area ip j := by
  have hs : ∑ ic, f.shape ip ic = 1 := hN
  have h1 : ∑ ic, f.shape ip ic * affine p0 w (x (f.node ic)) =
      -(dynP ip) + ∑ ic, f.shape ip ic * pbc (f.node ic) := by
    simp only [hbc, mul_sub, Finset.sum_sub_distrib, ← Finset.sum_mul, hs]; ring
  simp only [openMdotIp]
  rw [h1, sub_self, mul_zero, zero_mul, zero_add]
  refine Finset.sum_congr rfl fun j _ => ?_
  rw [grad_affine _ x hg hg1, ← Finset.sum_mul, hs]; ring

/-- **C88** On a moving open boundary with the mesh-velocity correction on, the entrained velocity has normal
component `(mdot + rho v_mesh . A)/(rho A)`: relative mass flow plus the motion of the boundary. -/
theorem c88_entrained_moving_mesh (o : Opts K) (f : Face nn nf nip nd K) (mdot : Fin nip → K)
    (v : UpwNodes nn nd K) (m : OpenMom nn nd K) (hc : m.meshCorr = 1) (ip : Fin nip) (hm : mdot ip < 0)
    (hn : ∑ j, faceNormal f ip j * faceNormal f ip j = 1) :
    ∃ ue : Fin nd → K, (∀ i, openMomAdv o f mdot v m ip i = mdot ip * ue i) ∧
      ∑ i, ue i * faceNormal f ip i =
        (mdot ip + ∑ j, (∑ ic, f.shape ip ic * v.rho (f.node ic) * m.vmesh (f.node ic) j) * f.area ip j) /
          ((∑ ic, f.shape ip ic * v.rho (f.node ic)) * f.aMag ip) := by
  set R := (∑ ic, f.shape ip ic * v.rho (f.node ic)) * f.aMag ip with hR
  set V := ∑ j, (∑ ic, f.shape ip ic * v.rho (f.node ic) * m.vmesh (f.node ic) j) * f.area ip j with hV
  set us : Fin nd → K := fun i => ∑ ic, f.adv ip ic * m.ubc (f.node ic) i with hus
  set n := faceNormal f ip with hnn
  refine ⟨fun i => (mdot ip / R + V / R) * n i + (us i - (∑ j, us j * n j) * n i), fun i => ?_, ?_⟩
  · have hp : ¬ mdot ip > 0 := by linarith [hm]
    simp only [openMomAdv, hp, if_false, openMomFlux, hc, mul_one]
    rw [← hV, ← hR]
    change mdot ip * (mdot ip / R + V / R) * n i + mdot ip * (us i - (∑ j, us j * n j) * n i) = _
    ring
  · generalize hS : (∑ j, us j * n j) = S
    have : ∀ i, ((mdot ip / R + V / R) * n i + (us i - S * n i)) * n i =
        (mdot ip / R + V / R - S) * (n i * n i) + us i * n i := fun i => by ring
    simp only [this, Finset.sum_add_distrib, ← Finset.mul_sum, hn, hS, add_div]; ring

/-- **C88** Momentum leaving through an open boundary with pure upwinding and no extrapolation carries the velocity
of the nearest node, and a uniform stream leaves with its own velocity under every blending. -/
theorem c88_momentum_leaving (o : Opts K) (f : Face nn nf nip nd K) (mdot : Fin nip → K)
    (v : UpwNodes nn nd K) (m : OpenMom nn nd K) (ip : Fin nip) (hm : 0 < mdot ip) (k : Fin nd) :
    (o.alphaUpw = 1 → o.hoUpwind = 0 → (∀ x, o.peclet x = 1) →
      openMomAdv o f mdot v m ip k = mdot ip * m.u (f.near ip) k) ∧
    (∀ U : Fin nd → K, (∀ n, m.u n = U) → (∀ n i j, m.G n i j = 0) → Unity (f.adv ip) →
      openMomAdv o f mdot v m ip k = mdot ip * U k) := by
  constructor
  · intro h1 h2 h3
    simp only [openMomAdv, hm, if_true, openMomFlux, h1, h2, pecFac, h3]; simp
  · intro U hU hG hN
    have h1 : ∑ ic, f.adv ip ic * U k = U k := by
      rw [← Finset.sum_mul, show ∑ ic, f.adv ip ic = 1 from hN, one_mul]
    simp only [openMomAdv, hm, if_true, openMomFlux, hU, hG, h1]; simp; ring_nf; tauto

/-- **C88** Second-order upwinding without limiter: each sub-control surface carries the value extrapolated to the
integration point from the node the flow comes from, with the gradient of that node and not of the other. -/
theorem c88_upwind_extrapolates (o : Opts K) (hl : o.useLimiter = false) (ho : o.hoUpwind = 1)
    (ha : o.alphaUpw = 1) (hp : ∀ x, o.peclet x = 1) (e : Scs nn nip nd K) (mdot : Fin nip → K)
    (v : UpwNodes nn nd K) (hmu : ∀ n, v.mu n = 0) (q : Fin nn → K) (G : Fin nn → Fin nd → K)
    (s : LocalSys (Fin nn) K) (a : Fin nn) :
    (scalarUpw o e mdot v q G s).rhs a = s.rhs a - netOut e.il e.ir (fun ip =>
      let up := if 0 < mdot ip then e.il ip else e.ir ip
      mdot ip * (q up + ∑ j, G up j * ((∑ ic, e.adv ip ic * v.x ic j) - v.x up j))) a := by
  rw [scalarUpw_rhs, ← sum_lrs_net]
  congr 1
  refine Finset.sum_congr rfl fun ip _ => ?_
  congr 1
  have h0 : interp (e.shape ip) v.mu = 0 := by simp [interp, hmu]
  rw [h0]
  have h1 : ∀ ic, diffFac (0 : K) (e.dndx ip ic) (e.area ip) * q ic = 0 := by
    intro ic; simp [diffFac]
  simp only [h1, Finset.sum_const_zero, add_zero, upwAdv, extrapolate, hl, ho, upwFlux, ha, pecFac, hp, coordIp]
  by_cases hm : 0 < mdot ip
  · simp only [hm, if_true, gt_iff_lt]
    have : ∀ y : Fin nd → K, ∑ j, (y j - v.x (e.il ip) j) * G (e.il ip) j =
        ∑ j, G (e.il ip) j * (y j - v.x (e.il ip) j) := fun y => Finset.sum_congr rfl fun _ _ => by ring
    rw [this]; simp
  · simp only [hm, if_false, gt_iff_lt]
    have : ∀ y : Fin nd → K, ∑ j, (v.x (e.ir ip) j - y j) * G (e.ir ip) j =
        -∑ j, G (e.ir ip) j * (y j - v.x (e.ir ip) j) := by
      intro y; rw [← Finset.sum_neg_distrib]; exact Finset.sum_congr rfl fun _ _ => by ring
    rw [this]; simp

/-- Hypotheses of `c88_open_mdot_consistent` met with a non-zero pressure gradient and dynamic pressure: node 1 of
the bar carries `p = 2 + 3 x`, the specified pressure is `p + 1/2`. -/
example : ∀ ic : Fin 1, affine (2 : ℚ) ![3] ((![![4], ![5]] : Fin 2 → Fin 1 → ℚ) ((barFace 1 2 1 1).face.node ic)) =
    (![0, 35 / 2] : Fin 2 → ℚ) ((barFace 1 2 1 1).face.node ic) - 1 / 2 := by decide +kernel

end Nalu.Kernel
