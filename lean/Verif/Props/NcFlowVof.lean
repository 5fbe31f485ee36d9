import Verif.Model.NcFlowVof
import Verif.Props.NonConformal3

/-!
# C348: flow rates of the volume-of-fluid form through a non-conformal interface
-/

set_option linter.unusedSectionVars false

namespace Nalu.NC
open Nalu.Edge Nalu.Kernel

variable {K : Type*} [Field K] [LinearOrder K] [IsStrictOrderedRing K]
variable {nc no fc fo nd : ℕ}

theorem ncFlows_volume (o : MdotOpts K) (vo : VofOpts nd K) (p : Point nc fc no fo nd K) (c : FlowSide nc nd K) (f : FlowSide no nd K)
    (wc : VofSide nc K) (wo : VofSide no K) (pC : Fin nc → K) (pO : Fin no → K) :
    (ncFlows o vo p c f wc wo pC pO).volume = ncVdot o vo p c f wc wo pC pO := rfl

/-- C348: the mass flow rate is the volume flow rate times the mean of the two densities at the point. -/
theorem c348_mass (o : MdotOpts K) (vo : VofOpts nd K) (p : Point nc fc no fo nd K) (c : FlowSide nc nd K) (f : FlowSide no nd K)
    (wc : VofSide nc K) (wo : VofSide no K) (pC : Fin nc → K) (pO : Fin no → K) :
    (ncFlows o vo p c f wc wo pC pO).mass =
      (p.cur.val c.rho + p.opp.val f.rho) / 2 * (ncFlows o vo p c f wc wo pC pO).volume := by
  simp only [ncFlows]; ring

/-- C348: with one density the mass flow rate is that density times the volume flow rate. -/
theorem c348_uniform_density (o : MdotOpts K) (vo : VofOpts nd K) (p : Point nc fc no fo nd K) (hc : Unity p.cur.N) (ho : Unity p.opp.N)
    (c : FlowSide nc nd K) (f : FlowSide no nd K) (wc : VofSide nc K) (wo : VofSide no K) (pC : Fin nc → K) (pO : Fin no → K)
    (rho : K) (hrc : c.rho = fun _ => rho) (hro : f.rho = fun _ => rho) :
    (ncFlows o vo p c f wc wo pC pO).mass = rho * (ncFlows o vo p c f wc wo pC pO).volume := by
  rw [c348_mass, hrc, hro, val_const _ hc, val_const _ ho]; ring

/-- C348: seen from the other side both rates are the opposite ones, on a moving mesh if both sides see the same mesh flux. -/
theorem c348_opposite (o : MdotOpts K) (vo : VofOpts nd K) {p : Point nc fc no fo nd K} {p' : Point no fo nc fc nd K} (h : Mirror p p')
    (c : FlowSide nc nd K) (f : FlowSide no nd K) (wc : VofSide nc K) (wo : VofSide no K) (pC : Fin nc → K) (pO : Fin no → K)
    (hv : o.motion * ∑ j, (p.cur.val fun a => c.v a j) * p.cN j = o.motion * ∑ j, (p.opp.val fun a => f.v a j) * p.cN j) :
    (ncFlows o vo p' f c wo wc pO pC).volume = -(ncFlows o vo p c f wc wo pC pO).volume ∧
    (ncFlows o vo p' f c wo wc pO pC).mass = -(ncFlows o vo p c f wc wo pC pO).mass := by
  have hvol : (ncFlows o vo p' f c wo wc pO pC).volume = -(ncFlows o vo p c f wc wo pC pO).volume := by
    rw [ncFlows_volume, ncFlows_volume]
    exact c90_volume_flux o vo h c f wc wo pC pO hv
  refine ⟨hvol, ?_⟩
  rw [c348_mass, c348_mass o vo p, hvol, h.cur, h.opp]; ring

/-- C348: what is stored after the pressure has been solved for and added is what the linear system balanced: the row of the nearest
node, minus matrix times correction, is minus the volume flow rate over the projection time scale. -/
theorem c348_after_solve (o : MdotOpts K) (ho : o.pts ≠ 0) (vo : VofOpts nd K) (p : Point nc fc no fo nd K)
    (c : FlowSide nc nd K) (f : FlowSide no nd K) (wc : VofSide nc K) (wo : VofSide no K) (pr dp : Row nc no → K)
    (s : LocalSys (Row nc no) K) :
    ((continuityVofNC o vo p c f wc wo pr s).rhs (.inl p.near) - s.rhs (.inl p.near) -
      ∑ b, ((continuityVofNC o vo p c f wc wo pr s).lhs (.inl p.near) b - s.lhs (.inl p.near) b) * dp b) * o.pts =
    -(ncFlows o vo p c f wc wo (fun a => pr (.inl a) + dp (.inl a)) (fun a => pr (.inr a) + dp (.inr a))).volume := by
  rw [← c92_continuity_vof o ho vo p c f wc wo pr dp s s (.inl p.near), continuityVofNC_rhs, ncFlows_volume]
  simp only [Pi.add_apply, if_true]
  field_simp
  ring

/-- What the projected gradient of a side approximates: the forces on the fluid at the point, over its density. -/
def Side.Balanced {nn nf : ℕ} (s : Side nn nf nd K) (vo : VofOpts nd K) (f : FlowSide nn nd K) (w : VofSide nn K) (q : Fin nn → K) : Prop :=
  ∀ j, s.val f.rho * (s.val fun a => f.G a j) =
    s.grad q j - vo.buoy * s.val f.rho * vo.gravity j + s.val w.sk * vo.loc (s.val w.vof) * s.grad w.vof j

/-- C348: where pressure is continuous and on both sides the projected force is the force itself, gravity and surface tension
included, nothing but the mean of the two velocities, relative to the mesh, carries fluid through the interface. -/
theorem c348_balanced (o : MdotOpts K) (vo : VofOpts nd K) (p : Point nc fc no fo nd K) (c : FlowSide nc nd K) (f : FlowSide no nd K)
    (wc : VofSide nc K) (wo : VofSide no K) (pC : Fin nc → K) (pO : Fin no → K) (hn : ∀ j, p.oN j = -p.cN j) (ha : p.amag ≠ 0)
    (hrc : p.cur.val c.rho ≠ 0) (hro : p.opp.val f.rho ≠ 0) (hp : p.cur.val pC = p.opp.val pO)
    (hbc : p.cur.Balanced vo c wc pC) (hbo : p.opp.Balanced vo f wo pO) :
    (ncFlows o vo p c f wc wo pC pO).volume =
      p.through fun j => ((p.cur.val fun a => c.u a j) + p.opp.val fun a => f.u a j) / 2 - o.motion * p.cur.val fun a => c.v a j := by
  have z1 : ∀ j, p.cur.vofStab vo c wc pC j = 0 := by
    intro j
    unfold Side.vofStab
    rw [← hbc j, mul_div_cancel_left₀ _ hrc, sub_self]
  have z2 : ∀ j, p.opp.vofStab vo f wo pO j = 0 := by
    intro j
    unfold Side.vofStab
    rw [← hbo j, mul_div_cancel_left₀ _ hro, sub_self]
  rw [ncFlows_volume]
  simp only [ncVdot, z1, z2, hp, zero_mul, sub_self, mul_zero, Finset.sum_const_zero, sub_zero, add_zero]
  rw [← through_cN p ha]
  congr 1
  refine Finset.sum_congr rfl fun j _ => ?_
  rw [hn j]; ring

/-- C348: in particular a fluid at rest in such a balance, e.g. a hydrostatic one with a free surface, stays at rest. -/
theorem c348_hydrostatic (o : MdotOpts K) (hm : o.motion = 0) (vo : VofOpts nd K) (p : Point nc fc no fo nd K) (c : FlowSide nc nd K)
    (f : FlowSide no nd K) (wc : VofSide nc K) (wo : VofSide no K) (pC : Fin nc → K) (pO : Fin no → K) (hn : ∀ j, p.oN j = -p.cN j)
    (ha : p.amag ≠ 0) (hrc : p.cur.val c.rho ≠ 0) (hro : p.opp.val f.rho ≠ 0) (hp : p.cur.val pC = p.opp.val pO)
    (hbc : p.cur.Balanced vo c wc pC) (hbo : p.opp.Balanced vo f wo pO) (hu : ∀ a j, c.u a j = 0) (hu' : ∀ a j, f.u a j = 0) :
    (ncFlows o vo p c f wc wo pC pO).volume = 0 ∧ (ncFlows o vo p c f wc wo pC pO).mass = 0 := by
  have hv : (ncFlows o vo p c f wc wo pC pO).volume = 0 := by
    rw [c348_balanced o vo p c f wc wo pC pO hn ha hrc hro hp hbc hbo, hm, Point.through]
    refine Finset.sum_eq_zero fun j _ => ?_
    simp only [hu, hu', val_zero, zero_mul]
    ring
  exact ⟨hv, by rw [c348_mass, hv, mul_zero]⟩

/-- C348: a fluid moving with the mesh does not cross it. -/
theorem c348_rigid (o : MdotOpts K) (hm : o.motion = 1) (vo : VofOpts nd K) (p : Point nc fc no fo nd K) (c : FlowSide nc nd K)
    (f : FlowSide no nd K) (wc : VofSide nc K) (wo : VofSide no K) (pC : Fin nc → K) (pO : Fin no → K) (hn : ∀ j, p.oN j = -p.cN j)
    (ha : p.amag ≠ 0) (hrc : p.cur.val c.rho ≠ 0) (hro : p.opp.val f.rho ≠ 0) (hp : p.cur.val pC = p.opp.val pO)
    (hbc : p.cur.Balanced vo c wc pC) (hbo : p.opp.Balanced vo f wo pO) (hv : c.v = c.u)
    (hu : ∀ j, (p.opp.val fun a => f.u a j) = p.cur.val fun a => c.u a j) : (ncFlows o vo p c f wc wo pC pO).volume = 0 := by
  rw [c348_balanced o vo p c f wc wo pC pO hn ha hrc hro hp hbc hbo, hm, hv, Point.through]
  refine Finset.sum_eq_zero fun j _ => ?_
  rw [hu]; ring

/-- C348, defect: the density is not taken from upstream as the volume fraction is. If fluid flows and the densities differ at the
point, the mass flow rate is that of neither side. -/
theorem c348_neither_density (o : MdotOpts K) (vo : VofOpts nd K) (p : Point nc fc no fo nd K) (c : FlowSide nc nd K) (f : FlowSide no nd K)
    (wc : VofSide nc K) (wo : VofSide no K) (pC : Fin nc → K) (pO : Fin no → K)
    (hv : (ncFlows o vo p c f wc wo pC pO).volume ≠ 0) (hr : p.cur.val c.rho ≠ p.opp.val f.rho) :
    (ncFlows o vo p c f wc wo pC pO).mass ≠ p.cur.val c.rho * (ncFlows o vo p c f wc wo pC pO).volume ∧
    (ncFlows o vo p c f wc wo pC pO).mass ≠ p.opp.val f.rho * (ncFlows o vo p c f wc wo pC pO).volume := by
  rw [c348_mass]
  refine ⟨fun h => hr ?_, fun h => hr ?_⟩
  · have := mul_right_cancel₀ hv h
    linarith
  · have := mul_right_cancel₀ hv h
    linarith

/-- C348 applies: water at rest under gravity on the non-matching interface, pressure linear in the height. -/
example : (ncFlows ⟨1 / 10, 1, 0⟩ ⟨![0, -10], 1, fun _ => 1⟩ exPoint ⟨fun _ => 2, fun _ _ => 0, fun _ _ => 0, fun _ _ => 0⟩
    ⟨fun _ => 2, fun _ _ => 0, fun _ _ => 0, fun _ _ => 0⟩ ⟨fun _ => 1, fun _ => 3⟩ ⟨fun _ => 1, fun _ => 3⟩
    (fun a => affine 7 ![0, -20] (exXC a)) (fun a => affine 7 ![0, -20] (exXO a)) : Flows ℚ).mass = 0 :=
  (c348_hydrostatic _ rfl _ _ _ _ _ _ _ _ exNormal (by decide +kernel) (by decide +kernel) (by decide +kernel) (by decide +kernel)
    (by unfold Side.Balanced; decide +kernel) (by unfold Side.Balanced; decide +kernel) (fun _ _ => rfl) (fun _ _ => rfl)).2

end Nalu.NC
