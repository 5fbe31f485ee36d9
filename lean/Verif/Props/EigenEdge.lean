import Verif.Model.EigenEdge
import Verif.Proofs.Edge
import Verif.Props.EigenPerturb

/-!
# C162: heat flux with a perturbed Reynolds stress
-/

namespace Nalu.Eigen

open Edge Matrix Spec

/-- **C160** The result does not depend on what the output arrays held before the call. -/
theorem c160_output_overwritten (A : M3) (old old' : Out M3) : symDiag3 A old = symDiag3 A old' := by
  simp only [symDiag3, jacobi]

/-- **C162** Conservation: over any set of edges the residuals sum to zero, and so does every column
of the matrix. -/
theorem c162_conservative {N : Type} [DecidableEq N] [Fintype N] (o : EigOpts) (nd : N → EigNode)
    (edges : List (EdgeRec N 3 ℝ × Out M3)) :
    ∑ i, (assembleEig o nd edges (Sys.zero N ℝ)).rhs i = 0 ∧
    ∀ j, ∑ i, (assembleEig o nd edges (Sys.zero N ℝ)).mat i j = 0 := by
  unfold assembleEig
  have h1 := fun (s : Sys N ℝ) => weighted_rhs (fun _ => 1) edges (fun e => e.1.node)
    (fun e => eigEdge o e.1.area e.1.mdot (nd e.1.left) (nd e.1.right) e.2) s
  have h2 := fun (s : Sys N ℝ) j => weighted_mat (fun _ => 1) edges (fun e => e.1.node)
    (fun e => eigEdge o e.1.area e.1.mdot (nd e.1.left) (nd e.1.right) e.2) s j
  simp only [one_mul] at h1 h2
  refine ⟨?_, fun j => ?_⟩
  · rw [h1, sum_map_zero edges]
    · simp [Sys.zero]
    · intro e _; simp [eigEdge, Fin.sum_univ_two]
  · rw [h2, sum_map_zero edges]
    · simp [Sys.zero]
    · intro e _
      simp [eigEdge, Fin.sum_univ_two]

/-- Node with another scalar value. -/
def EigNode.addQ (n : EigNode) (d : ℝ) : EigNode := { n with s := { n.s with q := n.s.q + d } }

/-- **C162** The edge matrix is the exact derivative of the edge residual with respect to the scalar
(nodal gradients frozen, limiter off), for every advection option. -/
theorem c162_exact_newton (o : EigOpts) (hl : o.adv.useLimiter = false) (a : Fin 3 → ℝ) (mdot : ℝ)
    (L R : EigNode) (old : Out M3) (dL dR : ℝ) (r : Fin 2) :
    (eigEdge o a mdot (L.addQ dL) (R.addQ dR) old).rhs r =
      (eigEdge o a mdot L R old).rhs r -
        ((eigEdge o a mdot L R old).lhs r 0 * dL + (eigEdge o a mdot L R old).lhs r 1 * dR) := by
  have hgg : ∀ i j, ggFac o a (L.addQ dL) (R.addQ dR) old i j = ggFac o a L R old i j := fun _ _ => rfl
  have hgrad : ∀ i, ipDqdx o a (L.addQ dL) (R.addQ dR) i =
      ipDqdx o a L R i + (dR - dL) * a i * (1 / axdx a L.s.x R.s.x) := by
    intro i; simp only [ipDqdx, ipGrad, EigNode.addQ]; ring
  have hdf : eigDiffFlux o a (L.addQ dL) (R.addQ dR) old =
      eigDiffFlux o a L R old + eigLhs o a L R old * (dR - dL) := by
    simp only [eigDiffFlux, eigLhs, hgg, hgrad, Fin.sum_univ_three]
    simp only [EigNode.addQ, lamIp, nonOrth]
    ring
  have hpec : eigPecfac o (L.addQ dL) (R.addQ dR) = eigPecfac o L R := rfl
  have haf : eigAdvFlux o mdot (L.addQ dL) (R.addQ dR) = eigAdvFlux o mdot L R +
      (lhsAdvL o.adv (eigPecfac o L R) mdot + lhsAdvC o.adv (eigPecfac o L R) mdot) * dL +
      (lhsAdvR o.adv (eigPecfac o L R) mdot + lhsAdvC o.adv (eigPecfac o L R) mdot) * dR := by
    simp only [eigAdvFlux, hpec]
    have e1 : qIpL o.adv (L.addQ dL).s (R.addQ dR).s = qIpL o.adv L.s R.s + dL := by
      simp [qIpL, limiter, hl, EigNode.addQ, dqHalf]; ring
    have e2 : qIpR o.adv (L.addQ dL).s (R.addQ dR).s = qIpR o.adv L.s R.s + dR := by
      simp [qIpR, limiter, hl, EigNode.addQ, dqHalf]; ring
    rw [e1, e2]
    simp only [interfaceValue, lhsAdvL, lhsAdvR, lhsAdvC, EigNode.addQ]
    rcases lt_or_ge 0 mdot with h | h
    · simp only [gt_iff_lt, if_pos h, abs_of_pos h]; ring
    · simp only [gt_iff_lt, if_neg (not_lt.mpr h), abs_of_nonpos h]; ring
  fin_cases r <;> simp [eigEdge, hdf, haf] <;> ring

/-- **C162** The result does not depend on how the edge is oriented: exchanging the end nodes and
reversing area vector and mass flow rate exchanges the two residuals, whatever the member arrays
held before. -/
theorem c162_orientation (o : EigOpts) (a : Fin 3 → ℝ) (mdot : ℝ) (hm : mdot ≠ 0) (L R : EigNode)
    (old old' : Out M3) (hlim : o.adv.useLimiter = false) :
    (eigEdge o (fun j => -a j) (-mdot) R L old').rhs 0 = (eigEdge o a mdot L R old).rhs 1 ∧
    (eigEdge o (fun j => -a j) (-mdot) R L old').rhs 1 = (eigEdge o a mdot L R old).rhs 0 := by
  have hax : axdx (fun j => -a j) R.s.x L.s.x = axdx a L.s.x R.s.x := by
    simp only [axdx]; exact Finset.sum_congr rfl fun j _ => by ring
  have hasq : asq (fun j => -a j) = asq a := by
    simp only [asq]; exact Finset.sum_congr rfl fun j _ => by ring
  have hrho : rhoIp R L = rhoIp L R := by simp only [rhoIp]; ring
  have hlam : lamIp R L = lamIp L R := by simp only [lamIp]; ring
  have hk : turbKeIp R L = turbKeIp L R := by simp only [turbKeIp]; ring
  have hnu : turbNuIp o R L = turbNuIp o L R := by
    simp only [turbNuIp, hrho]; rw [add_comm R.turbVisc]
  have hgrad : ∀ (noc d : ℝ) (gL gR : Fin 3 → ℝ) (j : Fin 3),
      ipGrad noc (fun j => -a j) R.s.x L.s.x (-d) gR gL j = ipGrad noc a L.s.x R.s.x d gL gR j := by
    intro noc d gL gR j
    simp only [ipGrad, hax, Fin.sum_univ_three]; ring
  have hdudx : ipDudx o (fun j => -a j) R L = ipDudx o a L R := by
    ext i j
    simp only [ipDudx, Matrix.of_apply]
    rw [show L.u i - R.u i = -(R.u i - L.u i) by ring, hgrad]
  have hdq : ipDqdx o (fun j => -a j) R L = ipDqdx o a L R := by
    funext j
    simp only [ipDqdx]
    rw [show L.s.q - R.s.q = -(R.s.q - L.s.q) by ring, hgrad]
  have hR : edgeStress o (fun j => -a j) R L old' = edgeStress o a L R old := by
    simp only [edgeStress, hnu, hk, hdudx, reynoldsStress, perturbedAnisotropy]
    rw [c160_output_overwritten _ old' old]
  have hgg : ∀ i j, ggFac o (fun j => -a j) R L old' i j = - ggFac o a L R old i j := by
    intro i j; simp only [ggFac, hdudx, hrho, hR]; ring
  have hdf : eigDiffFlux o (fun j => -a j) R L old' = - eigDiffFlux o a L R old := by
    simp only [eigDiffFlux, hax, hasq, hlam, hgg, hdq, nonOrth, Fin.sum_univ_three]; ring
  have hpec : eigPecfac o R L = eigPecfac o L R := by
    simp only [eigPecfac, hlam, hrho]
    congr 2
    rw [← abs_neg, ← Finset.sum_neg_distrib]
    congr 1
    exact Finset.sum_congr rfl fun j _ => by ring
  have haf : eigAdvFlux o (-mdot) R L = - eigAdvFlux o mdot L R := by
    have e1 : qIpL o.adv R.s L.s = qIpR o.adv L.s R.s := by
      simp only [qIpL, qIpR, limiter, hlim, dqHalf, Fin.sum_univ_three]
      simp; ring
    have e2 : qIpR o.adv R.s L.s = qIpL o.adv L.s R.s := by
      simp only [qIpL, qIpR, limiter, hlim, dqHalf, Fin.sum_univ_three]
      simp; ring
    simp only [eigAdvFlux, hpec, e1, e2, interfaceValue]
    rcases lt_or_gt_of_ne hm with h | h
    · rw [if_pos (by linarith : -mdot > 0), if_neg (not_lt.mpr h.le)]; ring
    · rw [if_neg (by linarith : ¬ -mdot > 0), if_pos h]; ring
  constructor <;> (simp [eigEdge, hdf, haf] <;> ring)

/-- **C162** A linear scalar field with exact nodal gradients: if the non-orthogonal correction is on,
the diffusive flux is the laminar one plus the generalised gradient diffusion of the perturbed
Reynolds stress through the edge area, whatever the angle between edge and area vector. -/
theorem c162_linear_field (o : EigOpts) (a : Fin 3 → ℝ) (L R : EigNode) (old : Out M3)
    (g : Fin 3 → ℝ) (hnoc : o.adv.nocFac = 1) (hL : L.s.dqdx = g) (hR : R.s.dqdx = g)
    (hq : R.s.q - L.s.q = ∑ j, g j * (R.s.x j - L.s.x j)) :
    ipDqdx o a L R = g ∧
    eigDiffFlux o a L R old = -(lamIp L R * ∑ j, g j * a j +
      o.cGGDH * timeScale (ipDudx o a L R) * rhoIp L R *
        ∑ i, ∑ j, g i * edgeStress o a L R old i j * a j) := by
  have hg : ipDqdx o a L R = g := by
    funext j
    simp only [ipDqdx, ipGrad, hnoc, hL, hR, hq, Fin.sum_univ_three]
    ring
  refine ⟨hg, ?_⟩
  have hlam : (-lamIp L R * asq a * (1 / axdx a L.s.x R.s.x)) * (R.s.q - L.s.q) + nonOrth a L.s R.s =
      -(lamIp L R * ∑ j, g j * a j) := by
    rw [hq]
    simp only [nonOrth, hL, hR, Fin.sum_univ_three, lamIp]
    ring
  simp only [eigDiffFlux, hg]
  rw [hlam]
  simp only [ggFac, Fin.sum_univ_three]
  ring

/-- **C162** Second law: with a realizable Reynolds stress, non-negative diffusivity, density and
constants, the diffusive edge coefficient is not positive, so the diffusive edge matrix is symmetric
positive semi-definite with non-positive off-diagonal entries. -/
theorem c162_dissipative (o : EigOpts) (a : Fin 3 → ℝ) (L R : EigNode) (old : Out M3)
    (hlam : 0 ≤ lamIp L R) (hrho : 0 ≤ rhoIp L R) (hc : 0 ≤ o.cMu) (hs : 0 < o.turbSigma)
    (hax : 0 < axdx a L.s.x R.s.x) (hR : Realizable (edgeStress o a L R old)) :
    eigLhs o a L R old ≤ 0 ∧
    (eigEdge o a 0 L R old).lhs 0 1 ≤ 0 ∧
    (eigEdge o a 0 L R old).lhs 0 1 = (eigEdge o a 0 L R old).lhs 1 0 ∧
    ∀ x y : ℝ, 0 ≤ x * ((eigEdge o a 0 L R old).lhs 0 0 * x + (eigEdge o a 0 L R old).lhs 0 1 * y) +
      y * ((eigEdge o a 0 L R old).lhs 1 0 * x + (eigEdge o a 0 L R old).lhs 1 1 * y) := by
  have hlhs : eigLhs o a L R old ≤ 0 := by
    have h1 : 0 ≤ o.cGGDH := by unfold EigOpts.cGGDH; positivity
    have h2 : 0 ≤ timeScale (ipDudx o a L R) := by
      unfold timeScale sijMag; exact div_nonneg (by norm_num) (Real.sqrt_nonneg _)
    have h3 := hR.2 a
    have h4 : 0 ≤ asq a := asq_nonneg a
    have h5 : 0 ≤ 1 / axdx a L.s.x R.s.x := by positivity
    have e : eigLhs o a L R old = -((lamIp L R * asq a + o.cGGDH * timeScale (ipDudx o a L R) *
        rhoIp L R * ∑ i, ∑ j, a i * edgeStress o a L R old i j * a j) * (1 / axdx a L.s.x R.s.x)) := by
      simp only [eigLhs, ggFac, Fin.sum_univ_three]
      ring
    rw [e]
    have := mul_nonneg (add_nonneg (mul_nonneg hlam h4)
      (mul_nonneg (mul_nonneg (mul_nonneg h1 h2) hrho) h3)) h5
    linarith
  have z1 : lhsAdvL o.adv (eigPecfac o L R) 0 = 0 := by simp [lhsAdvL]
  have z2 : lhsAdvR o.adv (eigPecfac o L R) 0 = 0 := by simp [lhsAdvR]
  have z3 : lhsAdvC o.adv (eigPecfac o L R) 0 = 0 := by simp [lhsAdvC]
  refine ⟨hlhs, ?_, ?_, fun x y => ?_⟩ <;> simp [eigEdge, z1, z2, z3]
  · exact hlhs
  · nlinarith [mul_nonneg (neg_nonneg.mpr hlhs) (mul_self_nonneg (x - y))]

/-- **C162** A uniform scalar has no diffusive flux and its advective flux is the mass flow rate times
its value. -/
theorem c162_uniform (o : EigOpts) (a : Fin 3 → ℝ) (mdot c : ℝ) (L R : EigNode) (old : Out M3)
    (hL : L.s.q = c ∧ L.s.dqdx = 0) (hR : R.s.q = c ∧ R.s.dqdx = 0) :
    (eigEdge o a mdot L R old).rhs = ![-(mdot * c), mdot * c] := by
  have hd : eigDiffFlux o a L R old = 0 := by
    simp [eigDiffFlux, nonOrth, ipDqdx, ipGrad, hL.1, hL.2, hR.1, hR.2]
  have ha : eigAdvFlux o mdot L R = mdot * c := by
    have h0 : dqHalf L.s R.s L.s.dqdx = 0 := by simp [dqHalf, hL.2]
    have h1 : dqHalf L.s R.s R.s.dqdx = 0 := by simp [dqHalf, hR.2]
    simp only [eigAdvFlux, interfaceValue, qIpL, qIpR, h0, h1, hL.1, hR.1]
    split_ifs <;> ring
  ext i
  fin_cases i <;> simp [eigEdge, hd, ha]

/-- Unperturbed case: with `delta = 0`, no energy perturbation and the divergence term on, the stress
in the flux is the Boussinesq stress of the edge's velocity gradient with the eddy viscosity divided
by the turbulent Prandtl number. -/
theorem c162_unperturbed_stress (o : EigOpts) (a : Fin 3 → ℝ) (L R : EigNode) (old : Out M3)
    (h0 : o.delta = 0) (hp : o.pert = 0) (i j : Fin 3) :
    edgeStress o a L R old i j = (if i = j then 2/3 * turbKeIp L R else 0) -
      turbNuIp o L R * (ipDudx o a L R i j + ipDudx o a L R j i -
        (if i = j then 2/3 * (ipDudx o a L R).trace * o.includeDivU else 0)) := by
  have hk : 1/10^16 ≤ turbKeIp L R := by
    unfold turbKeIp
    have h1 := le_max_right L.turbKe (1/10^16 : ℝ)
    have h2 := le_max_right R.turbKe (1/10^16 : ℝ)
    linarith
  rw [edgeStress, h0, hp]
  exact c161_boussinesq o.bias _ _ _ _ old hk i j

/-- **C162** (deviation) The user's switch for the non-orthogonal correction does not act on the
laminar flux: without the turbulent part (`cMu = 0`) the flux is the same for every value of the switch
(the ordinary edge algorithm, C55, multiplies the same term by it). -/
theorem c162_laminar_correction_always_on (o : EigOpts) (x : ℝ) (a : Fin 3 → ℝ) (L R : EigNode)
    (old : Out M3) (h : o.cMu = 0) :
    eigDiffFlux { o with adv := { o.adv with nocFac := x } } a L R old =
      (-lamIp L R * asq a * (1 / axdx a L.s.x R.s.x)) * (R.s.q - L.s.q) + nonOrth a L.s R.s := by
  simp [eigDiffFlux, ggFac, EigOpts.cGGDH, h]

/-! ### A concrete edge -/

/-- Skewed edge in a linear field. -/
noncomputable def sampleL : EigNode :=
  { s := { x := ![0, 0, 0], dqdx := ![1, 2, 0], vrtm := ![1, 0, 0], q := 1, rho := 1, diff := 1 },
    u := ![0, 0, 0], dudx := !![1, 0, 0; 0, -1, 0; 0, 0, 0], turbKe := 1, turbVisc := 1 }
/-- Right node of the sample edge. -/
noncomputable def sampleR : EigNode :=
  { s := { x := ![1, 1/2, 0], dqdx := ![1, 2, 0], vrtm := ![1, 0, 0], q := 3, rho := 1, diff := 1 },
    u := ![1, -1/2, 0], dudx := !![1, 0, 0; 0, -1, 0; 0, 0, 0], turbKe := 1, turbVisc := 1 }

example : sampleR.s.q - sampleL.s.q = ∑ j, (![1, 2, 0] : Fin 3 → ℝ) j * (sampleR.s.x j - sampleL.s.x j) ∧
    axdx (![2, 0, 0] : Fin 3 → ℝ) sampleL.s.x sampleR.s.x = 2 := by
  constructor
  · simp [sampleL, sampleR, Fin.sum_univ_three]; norm_num
  · simp [axdx, sampleL, sampleR, Fin.sum_univ_three]

/-- The hypotheses of `c162_dissipative` are met: laminar node data with turbulence energy. -/
example (o : EigOpts) (h0 : o.delta = 0) (hp : o.pert = 0) (a : Fin 3 → ℝ) (old : Out M3) :
    Realizable (edgeStress o a { sampleL with turbVisc := 0 } { sampleR with turbVisc := 0 } old) := by
  have hnu : turbNuIp o { sampleL with turbVisc := 0 } { sampleR with turbVisc := 0 } = 0 := by
    simp [turbNuIp]
  have hk : turbKeIp { sampleL with turbVisc := 0 } { sampleR with turbVisc := 0 } = 1 := by
    simp only [turbKeIp, sampleL, sampleR]
    rw [max_eq_left (by norm_num)]; norm_num
  refine ⟨fun i j => ?_, fun v => ?_⟩
  · simp only [c162_unperturbed_stress o a _ _ old h0 hp, hnu, hk, eq_comm]
    simp
  · simp only [c162_unperturbed_stress o a _ _ old h0 hp, hnu, hk]
    simp [Fin.sum_univ_three]
    nlinarith [mul_self_nonneg (v 0), mul_self_nonneg (v 1), mul_self_nonneg (v 2)]

end Nalu.Eigen
