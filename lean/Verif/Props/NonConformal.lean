import Verif.Spec.NonConformal
import Verif.Proofs.NonConformal
import Verif.Props.ElemKernel2

/-!
# Non-conformal interfaces: conservation, consistency, linearisation, stability (C90-C93)
-/

set_option linter.unusedSectionVars false

namespace Nalu.NC
open Nalu.Edge Nalu.Kernel

variable {K : Type*} [Field K] [LinearOrder K] [IsStrictOrderedRing K]
variable {nc no fc fo nd : ℕ}

/-! ## C90 conservation -/

theorem mirror_cN {p : Point nc fc no fo nd K} {p' : Point no fo nc fc nd K} (h : Mirror p p') :
    p'.cN = p.oN := by
  funext j
  rw [h.normal j, Point.cN, Point.cN, h.area, h.amag, neg_div]
theorem mirror_oN {p : Point nc fc no fo nd K} {p' : Point no fo nc fc nd K} (h : Mirror p p') :
    p'.oN = p.cN := by
  funext j
  rw [h.normal' j, mirror_cN h, h.normal j, neg_neg]

theorem penalty_mirror {p : Point nc fc no fo nd K} {p' : Point no fo nc fc nd K} (h : Mirror p p')
    (muC : Fin nc → K) (muO : Fin no → K) : penalty p' muO muC = penalty p muC muO := by
  rw [penalty, penalty, h.cur, h.opp, mirror_cN h, mirror_oN h, add_comm]

theorem ncAdv_mirror (eta mdot a b : K) : ncAdv eta (-mdot) b a = -ncAdv eta mdot a b := by
  rw [ncAdv, ncAdv, abs_neg]; ring

/-- **C90** What leaves one side through a Gauss point enters the other side through the matching Gauss point: the
scalar fluxes of the two cancel, with and without upwinding, for arbitrary fields on both sides. -/
theorem c90_scalar_flux (eta mdot : K) {p : Point nc fc no fo nd K} {p' : Point no fo nc fc nd K}
    (h : Mirror p p') (muC qC : Fin nc → K) (muO qO : Fin no → K) :
    scalarFlux eta (-mdot) p' muO muC qO qC = -scalarFlux eta mdot p muC muO qC qO := by
  simp only [scalarFlux, ncAdv_mirror, penalty_mirror h, h.cur, h.opp, mirror_cN h, mirror_oN h, h.amag]
  ring

/-- **C90** The same for every component of momentum, viscous stress and divergence term included. -/
theorem c90_momentum_flux (eta inc mdot : K) {p : Point nc fc no fo nd K} {p' : Point no fo nc fc nd K}
    (h : Mirror p p') (muC : Fin nc → K) (muO : Fin no → K) (uC : Fin nc → Fin nd → K)
    (uO : Fin no → Fin nd → K) (i : Fin nd) :
    momFlux eta inc (-mdot) p' muO muC uO uC i = -momFlux eta inc mdot p muC muO uC uO i := by
  simp only [momFlux, ncAdv_mirror, penalty_mirror h, h.cur, h.opp, mirror_cN h, mirror_oN h, h.amag]
  ring

/-- **C90** The mass flow rates of matching Gauss points cancel, provided that (on a moving mesh) both surfaces
see the same normal mesh velocity. -/
theorem c90_mass_flux (o : MdotOpts K) {p : Point nc fc no fo nd K} {p' : Point no fo nc fc nd K}
    (h : Mirror p p') (c : FlowSide nc nd K) (f : FlowSide no nd K) (pC : Fin nc → K) (pO : Fin no → K)
    (hv : o.motion * ∑ j, (p.cur.val fun a => c.rho a * c.v a j) * p.cN j =
      o.motion * ∑ j, (p.opp.val fun a => f.rho a * f.v a j) * p.cN j) :
    ncMdot o p' f c pO pC = -ncMdot o p c f pC pO := by
  simp only [ncMdot, h.cur, h.opp, mirror_cN h, mirror_oN h, h.amag]
  have hoN : p.oN = fun j => -p.cN j := funext h.normal
  have e : ∀ (A B V W : Fin nd → K), o.motion * ∑ j, V j * p.cN j = o.motion * ∑ j, W j * p.cN j →
      ∑ j, (1 / 2 * (B j * p.oN j - A j * p.cN j) - o.motion * W j * p.oN j) =
      -∑ j, (1 / 2 * (A j * p.cN j - B j * p.oN j) - o.motion * V j * p.cN j) := by
    intro A B V W hVW
    rw [hoN]
    simp only [Finset.sum_sub_distrib]
    have e1 : ∀ U : Fin nd → K, ∑ j, o.motion * U j * p.cN j = o.motion * ∑ j, U j * p.cN j := by
      intro U; rw [Finset.mul_sum]; exact Finset.sum_congr rfl fun _ _ => by ring
    have e2 : ∑ j, o.motion * W j * -p.cN j = -∑ j, o.motion * W j * p.cN j := by
      rw [← Finset.sum_neg_distrib]; exact Finset.sum_congr rfl fun _ _ => by ring
    rw [e2, e1, e1, ← hVW]
    have e3 : ∑ j, 1 / 2 * (B j * -p.cN j - A j * p.cN j) = -∑ j, 1 / 2 * (A j * p.cN j - B j * -p.cN j) := by
      rw [← Finset.sum_neg_distrib]; exact Finset.sum_congr rfl fun _ _ => by ring
    rw [e3]; ring
  rw [e _ _ _ _ hv]
  have e4 : ∀ (A B : Fin nd → K), ∑ j, 1 / 2 * (A j * p.oN j - B j * p.cN j) =
      -∑ j, 1 / 2 * (B j * p.cN j - A j * p.oN j) := by
    intro A B; rw [← Finset.sum_neg_distrib]; exact Finset.sum_congr rfl fun _ _ => by ring
  rw [e4]
  ring

/-- **C90** The volume flow rates of the volume-of-fluid form likewise. -/
theorem c90_volume_flux (o : MdotOpts K) (vo : VofOpts nd K) {p : Point nc fc no fo nd K}
    {p' : Point no fo nc fc nd K} (h : Mirror p p') (c : FlowSide nc nd K) (f : FlowSide no nd K)
    (wc : VofSide nc K) (wo : VofSide no K) (pC : Fin nc → K) (pO : Fin no → K)
    (hv : o.motion * ∑ j, (p.cur.val fun a => c.v a j) * p.cN j =
      o.motion * ∑ j, (p.opp.val fun a => f.v a j) * p.cN j) :
    ncVdot o vo p' f c wo wc pO pC = -ncVdot o vo p c f wc wo pC pO := by
  simp only [ncVdot, h.cur, h.opp, mirror_cN h, mirror_oN h, h.amag]
  have hoN : p.oN = fun j => -p.cN j := funext h.normal
  have e : ∀ (A B V W : Fin nd → K), o.motion * ∑ j, V j * p.cN j = o.motion * ∑ j, W j * p.cN j →
      ∑ j, (1 / 2 * (B j * p.oN j - A j * p.cN j) - o.motion * W j * p.oN j) =
      -∑ j, (1 / 2 * (A j * p.cN j - B j * p.oN j) - o.motion * V j * p.cN j) := by
    intro A B V W hVW
    rw [hoN]
    simp only [Finset.sum_sub_distrib]
    have e1 : ∀ U : Fin nd → K, ∑ j, o.motion * U j * p.cN j = o.motion * ∑ j, U j * p.cN j := by
      intro U; rw [Finset.mul_sum]; exact Finset.sum_congr rfl fun _ _ => by ring
    have e2 : ∑ j, o.motion * W j * -p.cN j = -∑ j, o.motion * W j * p.cN j := by
      rw [← Finset.sum_neg_distrib]; exact Finset.sum_congr rfl fun _ _ => by ring
    rw [e2, e1, e1, ← hVW]
    have e3 : ∑ j, 1 / 2 * (B j * -p.cN j - A j * p.cN j) = -∑ j, 1 / 2 * (A j * p.cN j - B j * -p.cN j) := by
      rw [← Finset.sum_neg_distrib]; exact Finset.sum_congr rfl fun _ _ => by ring
    rw [e3]; ring
  rw [e _ _ _ _ hv]
  have e4 : ∀ (A B : Fin nd → K), ∑ j, 1 / 2 * (A j * p.oN j - B j * p.cN j) =
      -∑ j, 1 / 2 * (B j * p.cN j - A j * p.oN j) := by
    intro A B; rw [← Finset.sum_neg_distrib]; exact Finset.sum_congr rfl fun _ _ => by ring
  rw [e4, add_comm (p.opp.val f.rho)]
  ring

/-- **C90** With the option `use_current_normal` reversing the point is all it takes: the normals are opposite by
construction. -/
theorem c90_use_current_normal (p : Point nc fc no fo nd K) (nr : Fin no)
    (hp : p.useCurrentNormal = true) :
    Mirror p ⟨p.opp, p.cur, fun j => -p.area j, p.amag, fun j => p.cN j, nr, true⟩ := by
  refine ⟨rfl, rfl, fun _ => rfl, rfl, fun j => ?_, fun j => ?_⟩
  · simp [Point.oN, hp]
  · simp [Point.oN]

/-- Sum over all rows of an assembled right-hand side. -/
theorem assemble_total {M : Type*} [DecidableEq M] [Fintype M] (ws : List (Work M K)) (q : M → K) :
    ∑ i, (assembleWorks ws q).rhs i =
      (ws.map fun w => ∑ a, (w.kern (fun a => q (w.dof a)) ⟨fun _ _ => 0, fun _ => 0⟩).rhs a).sum := by
  suffices H : ∀ (l : List (Work M K)) (s : Sys M K),
      ∑ i, (l.foldl (fun s w => s.applyCoeff w.dof
        (w.kern (fun a => q (w.dof a)) ⟨fun _ _ => 0, fun _ => 0⟩)) s).rhs i = ∑ i, s.rhs i +
        (l.map fun w => ∑ a, (w.kern (fun a => q (w.dof a)) ⟨fun _ _ => 0, fun _ => 0⟩).rhs a).sum by
    have := H ws (Sys.zero M K)
    simpa [assembleWorks, Sys.zero] using this
  intro l
  induction l with
  | nil => intro s; simp
  | cons w l ih =>
    intro s
    simp only [List.foldl_cons, List.map_cons, List.sum_cons]
    rw [ih]
    simp only [Sys.applyCoeff, Finset.sum_add_distrib]
    rw [Finset.sum_comm]
    simp
    ring

end Nalu.NC
