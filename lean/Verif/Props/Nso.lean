import Verif.Proofs.Nso
import Mathlib.LinearAlgebra.Matrix.NonsingularInverse
import Mathlib.Tactic.FinCases

/-!
# C175-C179: the nonlinear stabilization operators

The kernels may add dissipation, and nothing else: they conserve, their viscosity lies between zero and the upwind value and
vanishes with the residual, and fields the scheme represents exactly are left alone.
-/

namespace Nalu.Nso
open Nalu.Edge Nalu.Kernel Nalu.Nso.Spec

variable {nn nip nd : ℕ}

/-! ## C175: scalars -/

/-- **C175** What a scalar kernel moves between the nodes is the flux `-ν A·g(∇q - γ Gq)` through every sub-control surface,
`γ` being 0 for the second-order and 1 for the fourth-order operator and `Gq` the interpolated nodal gradient. -/
theorem c175_flux (o : Opt) (b : Bdf ℝ) (e : Scs nn nip nd ℝ) (gup glo : Fin nip → Fin nd → Fin nd → ℝ) (f : SNodes nn nd)
    (s : LocalSys (Fin nn) ℝ) (a : Fin nn) :
    (scalarNso o b e gup glo f s).rhs a = s.rhs a - netOut e.il e.ir (fun ip =>
      flux (scalarNu o b e gup glo f ip) (gup ip)
        (fun j => (∑ ic, f.q.np1 ic * e.dndx ip ic j) - o.fourthFac * ∑ ic, e.shape ip ic * f.G ic j) (e.area ip)) a := by
  rw [scalarNso, scalar_rhs, sum_lrs_net]; rfl

/-- **C175** The same for the operator whose viscosity comes from the pressure. -/
theorem c175_flux_ke (o : Opt) (turb : ℝ) (e : Scs nn nip nd ℝ) (gup glo : Fin nip → Fin nd → Fin nd → ℝ) (f : KNodes nn nd)
    (q : Fin nn → ℝ) (G : Fin nn → Fin nd → ℝ) (s : LocalSys (Fin nn) ℝ) (a : Fin nn) :
    (scalarKeNso o turb e gup glo f q G s).rhs a = s.rhs a - netOut e.il e.ir (fun ip =>
      flux (keNu o turb (gup ip) (glo ip) (e.shape ip) (e.dndx ip) f) (gup ip)
        (fun j => (∑ ic, q ic * e.dndx ip ic j) - o.fourthFac * ∑ ic, e.shape ip ic * G ic j) (e.area ip)) a := by
  rw [scalarKeNso, scalar_rhs, sum_lrs_net]; rfl

/-- **C175** Both scalar kernels conserve. -/
theorem c175_conservative (o : Opt) (b : Bdf ℝ) (turb : ℝ) (e : Scs nn nip nd ℝ) (gup glo : Fin nip → Fin nd → Fin nd → ℝ)
    (f : SNodes nn nd) (g : KNodes nn nd) (q : Fin nn → ℝ) (G : Fin nn → Fin nd → ℝ) :
    Conservative (scalarNso o b e gup glo f) ∧ Conservative (scalarKeNso o turb e gup glo g q G) :=
  ⟨conservative_of _ e.il e.ir _ _ (fun s a => scalar_rhs o _ e gup f.q.np1 f.G s a)
      (fun s d a => scalar_act o _ e gup f.q.np1 f.G s d a),
    conservative_of _ e.il e.ir _ _ (fun s a => scalar_rhs o _ e gup q G s a) (fun s d a => scalar_act o _ e gup q G s d a)⟩

/-- The viscosity law shared by the kernels. -/
theorem nuOf_law (o : Opt) (gup glo : Fin nd → Fin nd → ℝ) (R : ℝ) (dq rv : Fin nd → ℝ) (hg : Psd gup) (hs : 0 < o.small)
    (hc : 0 ≤ o.cupw) :
    0 ≤ nuOf o gup glo R dq rv ∧ nuOf o gup glo R dq rv ≤ o.cupw * Real.sqrt (form glo rv) ∧
    nuOf o gup glo R dq rv ^ 2 * (form gup dq + o.small) ≤ R ^ 2 ∧
    (nuOf o gup glo R dq rv = o.cupw * Real.sqrt (form glo rv) ∨
      nuOf o gup glo R dq rv ^ 2 * (form gup dq + o.small) = R ^ 2) ∧
    (R = 0 → nuOf o gup glo R dq rv = 0) := by
  have h0 : 0 ≤ nuOf o gup glo R dq rv :=
    le_min (mul_nonneg hc (Real.sqrt_nonneg _)) (nuResidual_nonneg o gup R dq)
  have hp : 0 < form gup dq + o.small := by linarith [hg dq]
  have h3 : nuOf o gup glo R dq rv ^ 2 * (form gup dq + o.small) ≤ R ^ 2 := by
    rw [← nuResidual_sq o gup R dq hg hs]
    exact mul_le_mul_of_nonneg_right (pow_le_pow_left₀ h0 (min_le_right _ _) 2) hp.le
  refine ⟨h0, min_le_left _ _, h3, ?_, ?_⟩
  · rcases min_choice (o.cupw * nuFirstOrder glo rv) (nuResidual o gup R dq) with h | h
    · exact Or.inl h
    · exact Or.inr (by rw [nuOf, h]; exact nuResidual_sq o gup R dq hg hs)
  · intro hR
    rw [hR] at h3 ⊢
    have : nuOf o gup glo 0 dq rv ^ 2 ≤ 0 := by nlinarith
    exact pow_eq_zero_iff (two_ne_zero) |>.1 (le_antisymm this (sq_nonneg _))

/-- **C175** The viscosity of the scalar kernel lies between zero and `Cupw` times the upwind value, is never larger than what
the residual asks for, is one of the two, and vanishes with the residual. -/
theorem c175_viscosity (o : Opt) (b : Bdf ℝ) (e : Scs nn nip nd ℝ) (gup glo : Fin nip → Fin nd → Fin nd → ℝ) (f : SNodes nn nd)
    (ip : Fin nip) (hg : Psd (gup ip)) (hs : 0 < o.small) (hc : 0 ≤ o.cupw) :
    let nu := scalarNu o b e gup glo f ip
    let R := residual o b (e.shape ip) (e.dndx ip) f.rho f.q f.v f.mu f.G
    let dq := fun j => ∑ ic, f.q.np1 ic * e.dndx ip ic j
    let rv := fun j => ∑ ic, e.shape ip ic * f.rho.np1 ic * f.v ic j
    0 ≤ nu ∧ nu ≤ o.cupw * Real.sqrt (form (glo ip) rv) ∧ nu ^ 2 * (form (gup ip) dq + o.small) ≤ R ^ 2 ∧
      (nu = o.cupw * Real.sqrt (form (glo ip) rv) ∨ nu ^ 2 * (form (gup ip) dq + o.small) = R ^ 2) ∧ (R = 0 → nu = 0) :=
  nuOf_law o _ _ _ _ _ hg hs hc

/-- **C175** The kinetic energy form of the viscosity, divided by a positive turbulent Prandtl or Schmidt number. -/
theorem c175_viscosity_ke (o : Opt) (turb : ℝ) (gup glo : Fin nd → Fin nd → ℝ) (r : Fin nn → ℝ) (dn : Fin nn → Fin nd → ℝ)
    (f : KNodes nn nd) (hg : Psd gup) (hs : 0 < o.small) (hc : 0 ≤ o.cupw) (ht : 0 < turb) (hr : 0 ≤ interp r f.rho) :
    let nu := keNu o turb gup glo r dn f
    let R := ∑ j, (∑ ic, r ic * f.u ic j) * ((∑ ic, f.p ic * dn ic j) - ∑ ic, r ic * f.Gp ic j) / interp r f.rho / 2
    let dke := fun j => ∑ ic, (∑ i, f.u ic i * f.u ic i / 2) * dn ic j
    let rv := fun j => ∑ ic, r ic * f.rho ic * f.v ic j
    0 ≤ nu ∧ nu ≤ o.cupw * Real.sqrt (form glo rv) ∧
      (nu * turb) ^ 2 * (form gup dke + o.small) ≤ (interp r f.rho * R) ^ 2 ∧
      (nu = o.cupw * Real.sqrt (form glo rv) ∨
        (nu * turb) ^ 2 * (form gup dke + o.small) = (interp r f.rho * R) ^ 2) ∧ (R = 0 → nu = 0) := by
  intro nu R dke rv
  have hR : keResidual r dn f = R := rfl
  have hsq := nuResidual_sq o gup R dke hg hs
  have hp : 0 < form gup dke + o.small := by linarith [hg dke]
  have hn := nuResidual_nonneg o gup R dke
  have h2 : 0 ≤ interp r f.rho * nuResidual o gup R dke / turb := div_nonneg (mul_nonneg hr hn) ht.le
  have h0 : 0 ≤ nu := le_min (mul_nonneg hc (Real.sqrt_nonneg _)) h2
  have heq : (interp r f.rho * nuResidual o gup R dke / turb * turb) ^ 2 * (form gup dke + o.small) = (interp r f.rho * R) ^ 2 := by
    rw [div_mul_cancel₀ _ ht.ne', mul_pow, mul_assoc, hsq, mul_pow]
  have h3 : (nu * turb) ^ 2 * (form gup dke + o.small) ≤ (interp r f.rho * R) ^ 2 := by
    rw [← heq]
    refine mul_le_mul_of_nonneg_right (pow_le_pow_left₀ (mul_nonneg h0 ht.le) ?_ 2) hp.le
    exact mul_le_mul_of_nonneg_right (min_le_right _ _) ht.le
  refine ⟨h0, min_le_left _ _, h3, ?_, ?_⟩
  · rcases min_choice (o.cupw * nuFirstOrder glo (massFlux r f.rho f.v))
      (interp r f.rho * nuResidual o gup (keResidual r dn f) (grad dn (ke f.u)) / turb) with h | h
    · exact Or.inl h
    · refine Or.inr ?_
      have : nu = interp r f.rho * nuResidual o gup R dke / turb := h
      rw [this]; exact heq
  · intro h
    rw [h, mul_zero] at h3
    have h4 : (nu * turb) ^ 2 ≤ 0 := by nlinarith
    have h5 : nu * turb = 0 := pow_eq_zero_iff (two_ne_zero) |>.1 (le_antisymm h4 (sq_nonneg _))
    exact (mul_eq_zero.1 h5).resolve_right ht.ne'

theorem grad_const (dn : Fin nn → Fin nd → ℝ) (h : GradConst dn) (c : ℝ) (j : Fin nd) : grad dn (fun _ => c) j = 0 := by
  rw [grad, ← Finset.mul_sum, h j, mul_zero]

theorem interp_const (r : Fin nn → ℝ) (h : Unity r) (c : ℝ) : interp r (fun _ => c) = c := by
  rw [interp, ← Finset.sum_mul, h, one_mul]

theorem grad_affine (dn : Fin nn → Fin nd → ℝ) (x : Fin nn → Fin nd → ℝ) (h : GradConst dn) (hl : GradLinear dn x) (c : ℝ)
    (w : Fin nd → ℝ) (j : Fin nd) : grad dn (fun ic => affine c w (x ic)) j = w j := by
  have : ∀ ic, affine c w (x ic) * dn ic j = c * dn ic j + ∑ i, w i * (dn ic j * x ic i) := by
    intro ic
    rw [affine, add_mul, Finset.sum_mul]
    congr 1
    exact Finset.sum_congr rfl fun i _ => by ring
  simp only [grad, this, Finset.sum_add_distrib]
  rw [← Finset.mul_sum, h j, mul_zero, zero_add, Finset.sum_comm]
  simp only [← Finset.mul_sum]
  have hl' : ∀ i, ∑ ic, dn ic j * x ic i = if i = j then 1 else 0 := fun i => hl i j
  simp only [hl', mul_ite, mul_one, mul_zero, Finset.sum_ite_eq', Finset.mem_univ, if_true]

theorem dFdxAdv_const (dn : Fin nn → Fin nd → ℝ) (rho : Fin nn → ℝ) (v : Fin nn → Fin nd → ℝ) (c : ℝ) :
    dFdxAdv dn rho v (fun _ => c) = c * dFdxCont dn rho v := by
  simp only [dFdxAdv, dFdxCont, Finset.mul_sum]
  exact Finset.sum_congr rfl fun ic _ => Finset.sum_congr rfl fun j _ => by ring

/-- **C175** The linearized residual is the nonlinearity of the discrete product rule: it vanishes for every flow when the
scalar is constant, and for every scalar when the mass flux `ρ v` is uniform. -/
theorem c175_alt_residual (r : Fin nn → ℝ) (dn : Fin nn → Fin nd → ℝ) (rho : Fin nn → ℝ) (v : Fin nn → Fin nd → ℝ)
    (q : Fin nn → ℝ) (h1 : Unity r) (h2 : GradConst dn)
    (h : (∃ c, ∀ ic, q ic = c) ∨ ∃ m : Fin nd → ℝ, ∀ ic j, rho ic * v ic j = m j) : residualAlt r dn rho v q = 0 := by
  rcases h with ⟨c, hc⟩ | ⟨m, hm⟩
  · obtain rfl : q = fun _ => c := funext hc
    rw [residualAlt, dFdxAdv_const, interp_const r h1]
    simp only [grad_const dn h2, mul_zero, Finset.sum_const_zero]
    ring
  · have hF : ∀ j, massFlux r rho v j = m j := by
      intro j
      simp only [massFlux, mul_assoc, hm]
      rw [← Finset.sum_mul, h1, one_mul]
    have hc : dFdxCont dn rho v = 0 := by
      simp only [dFdxCont, hm]
      rw [Finset.sum_comm]
      refine Finset.sum_eq_zero fun j _ => ?_
      rw [← Finset.mul_sum, h2 j, mul_zero]
    rw [residualAlt, hc]
    simp only [hF, dFdxAdv, grad, hm]
    rw [Finset.sum_comm]
    simp only [Finset.mul_sum]
    rw [mul_zero, sub_zero, sub_eq_zero]
    exact Finset.sum_congr rfl fun j _ => Finset.sum_congr rfl fun ic _ => by ring

/-- **C175** What the residual of the scalar operator is: a blend of the linearized part `∇·(ρvq) - q ∇·(ρv) - ρv·∇q` and of the
discrete transport equation `∂(ρq)/∂t + ∇·(ρvq) - ∇·(μ Gq)`, less `q` times continuity in the non-conserved form. -/
theorem c175_residual (o : Opt) (b : Bdf ℝ) (r : Fin nn → ℝ) (dn : Fin nn → Fin nd → ℝ) (rho q : Levels nn ℝ)
    (v : Fin nn → Fin nd → ℝ) (mu : Fin nn → ℝ) (G : Fin nn → Fin nd → ℝ) :
    let div := fun F : Fin nn → Fin nd → ℝ => ∑ j, ∑ ic, dn ic j * F ic j
    let rv := fun ic j => rho.np1 ic * v ic j
    residual o b r dn rho q v mu G = o.altResFac * (div (fun ic j => rv ic j * q.np1 ic) - interp r q.np1 * div rv
        - ∑ j, coordIp r rv j * ∑ ic, dn ic j * q.np1 ic)
      + (1 - o.altResFac) * ((b.g1 * interp r rho.np1 * interp r q.np1 + b.g2 * interp r rho.n * interp r q.n
            + b.g3 * interp r rho.nm1 * interp r q.nm1) / b.dt
          + div (fun ic j => rv ic j * q.np1 ic) - div (fun ic j => mu ic * G ic j)
          - o.nonConserved * interp r q.np1 * ((b.g1 * interp r rho.np1 + b.g2 * interp r rho.n + b.g3 * interp r rho.nm1) / b.dt
              + div rv)) := by
  intro div rv
  have e1 : dFdxAdv dn rho.np1 v q.np1 = div (fun ic j => rv ic j * q.np1 ic) := by
    rw [dFdxAdv, Finset.sum_comm]
    exact Finset.sum_congr rfl fun j _ => Finset.sum_congr rfl fun ic _ => by ring
  have e2 : dFdxCont dn rho.np1 v = div rv := by
    rw [dFdxCont, Finset.sum_comm]
    exact Finset.sum_congr rfl fun j _ => Finset.sum_congr rfl fun ic _ => by ring
  have e3 : dFdxDiff dn mu G = div (fun ic j => mu ic * G ic j) := by
    rw [dFdxDiff, Finset.sum_comm]
    exact Finset.sum_congr rfl fun j _ => Finset.sum_congr rfl fun ic _ => by ring
  have e4 : ∀ j, massFlux r rho.np1 v j = coordIp r rv j := fun j => Finset.sum_congr rfl fun ic _ => by ring
  have e5 : ∀ j, grad dn q.np1 j = ∑ ic, dn ic j * q.np1 ic := fun j => Finset.sum_congr rfl fun ic _ => by ring
  simp only [residual, residualAlt, residualPde, contRes, timeTerm, e1, e2, e3, e4, e5, Opt.om]
  ring

/-- **C175** A constant in space and time has the conserved-form residual `q` times the continuity residual: it vanishes as soon
as the flow satisfies the discrete continuity equation (or when the non-conserved form is selected). -/
theorem c175_pde_residual (o : Opt) (b : Bdf ℝ) (r : Fin nn → ℝ) (dn : Fin nn → Fin nd → ℝ) (rho : Levels nn ℝ)
    (v : Fin nn → Fin nd → ℝ) (mu : Fin nn → ℝ) (c : ℝ) (h1 : Unity r) :
    residualPde o b r dn rho ⟨fun _ => c, fun _ => c, fun _ => c⟩ v mu (fun _ _ => 0)
      = c * contRes b r dn rho v * (1 - o.nonConserved) := by
  have hd : dFdxDiff dn mu (fun _ _ => 0) = 0 := by simp [dFdxDiff]
  simp only [residualPde, timeTerm, dFdxAdv_const, interp_const r h1, hd, contRes]
  ring

theorem flux_zero (nu : ℝ) (g : Fin nd → Fin nd → ℝ) (a : Fin nd → ℝ) : flux nu g (fun _ => 0) a = 0 := by simp [flux]

theorem netOut_zero (il ir : Fin nip → Fin nn) (a : Fin nn) : netOut il ir (fun _ => (0 : ℝ)) a = 0 := by simp [netOut]

/-- **C175** Fields that must not be touched: a constant whose nodal gradients vanish (both orders), and for the fourth-order
operator every affine field with exact nodal gradients.  Whatever the viscosity, the right-hand side is left as it was. -/
theorem c175_exact_fields (o : Opt) (b : Bdf ℝ) (turb : ℝ) (e : Scs nn nip nd ℝ) (gup glo : Fin nip → Fin nd → Fin nd → ℝ)
    (f : SNodes nn nd) (g : KNodes nn nd) (x : Fin nn → Fin nd → ℝ) (c : ℝ) (w : Fin nd → ℝ)
    (h1 : ∀ ip, Unity (e.shape ip)) (h2 : ∀ ip, GradConst (e.dndx ip)) (h3 : ∀ ip, GradLinear (e.dndx ip) x)
    (hq : ∀ ic, f.q.np1 ic = affine c w (x ic)) (hG : ∀ ic j, f.G ic j = w j) (ho : o.fourthFac = 1 ∨ ∀ j, w j = 0)
    (s : LocalSys (Fin nn) ℝ) :
    (scalarNso o b e gup glo f s).rhs = s.rhs ∧ (scalarKeNso o turb e gup glo g f.q.np1 f.G s).rhs = s.rhs := by
  have hz : ∀ ip, (fun j => (∑ ic, f.q.np1 ic * e.dndx ip ic j) - o.fourthFac * ∑ ic, e.shape ip ic * f.G ic j) = fun _ => 0 := by
    intro ip
    funext j
    have h4 : ∑ ic, f.q.np1 ic * e.dndx ip ic j = w j := by
      have := grad_affine (e.dndx ip) x (h2 ip) (h3 ip) c w j
      simp only [grad] at this
      simp only [hq, this]
    have h5 : ∑ ic, e.shape ip ic * f.G ic j = w j := by
      simp only [hG, ← Finset.sum_mul]
      rw [h1 ip, one_mul]
    rw [h4, h5]
    rcases ho with h | h
    · rw [h]; ring
    · rw [h]; ring
  constructor <;> funext a
  · rw [c175_flux]
    simp only [hz, flux_zero, netOut_zero, sub_zero]
  · rw [c175_flux_ke]
    simp only [hz, flux_zero, netOut_zero, sub_zero]

/-- **C175** The matrix belongs to the flux with the viscosity frozen: residual plus matrix times the field is the explicit
fourth-order part alone, and constants lie in the kernel of the matrix. -/
theorem c175_matrix (o : Opt) (b : Bdf ℝ) (e : Scs nn nip nd ℝ) (gup glo : Fin nip → Fin nd → Fin nd → ℝ) (f : SNodes nn nd)
    (s : LocalSys (Fin nn) ℝ) (a : Fin nn) :
    ((scalarNso o b e gup glo f s).rhs a - s.rhs a)
        + ∑ m, ((scalarNso o b e gup glo f s).lhs a m - s.lhs a m) * f.q.np1 m
      = netOut e.il e.ir (fun ip => o.fourthFac * flux (scalarNu o b e gup glo f ip) (gup ip)
          (fun j => ∑ ic, e.shape ip ic * f.G ic j) (e.area ip)) a ∧
    ((∀ ip, GradConst (e.dndx ip)) → ∑ m, ((scalarNso o b e gup glo f s).lhs a m - s.lhs a m) = 0) := by
  have hsub : ∀ nu g (v w : Fin nd → ℝ) c a, flux nu g (fun j => v j - c * w j) a = flux nu g v a - c * flux nu g w a := by
    intro nu g v w c a
    simp only [flux, mul_sub, Finset.sum_sub_distrib, Finset.mul_sum]
    congr 1
    exact Finset.sum_congr rfl fun i _ => Finset.sum_congr rfl fun j _ => by ring
  constructor
  · rw [act_sub, scalarNso, scalar_rhs, scalar_act, ← sum_lrs_net]
    have hs : ∀ ip, flux (scalarNu o b e gup glo f ip) (gup ip)
        (fun j => grad (e.dndx ip) f.q.np1 j - o.fourthFac * coordIp (e.shape ip) f.G j) (e.area ip)
        = flux (scalarNu o b e gup glo f ip) (gup ip) (grad (e.dndx ip) f.q.np1) (e.area ip)
          - o.fourthFac * flux (scalarNu o b e gup glo f ip) (gup ip) (fun j => ∑ ic, e.shape ip ic * f.G ic j) (e.area ip) :=
      fun ip => hsub _ _ _ _ _ _
    simp only [hs, lrs_sub, Finset.sum_sub_distrib]
    ring
  · intro h
    have := act_sub s (scalarNso o b e gup glo f s) (fun _ => 1) a
    simp only [mul_one] at this
    rw [this, scalarNso, scalar_act]
    have hg : ∀ ip, grad (e.dndx ip) (fun _ : Fin nn => (1 : ℝ)) = fun _ => 0 := fun ip => funext fun j => grad_const _ (h ip) 1 j
    simp only [hg, flux_zero, lrs, neg_zero, ite_self, add_zero, Finset.sum_const_zero]
    ring

/-- **C175** The second-order flux runs down the gradient: through a surface whose normal points along `∇q` it is never
positive, when the metric is positive semidefinite and the viscosity nonnegative. -/
theorem c175_down_gradient (nu : ℝ) (g : Fin nd → Fin nd → ℝ) (w : Fin nd → ℝ) (c : ℝ) (hn : 0 ≤ nu) (hg : Psd g) (hc : 0 ≤ c) :
    flux nu g w (fun i => c * w i) ≤ 0 := by
  have : ∑ i, c * w i * ∑ j, g i j * w j = c * form g w := by
    simp only [form, Finset.mul_sum]
    exact Finset.sum_congr rfl fun i _ => Finset.sum_congr rfl fun j _ => by ring
  rw [flux, this, neg_mul]
  exact neg_nonpos.2 (mul_nonneg hn (mul_nonneg hc (hg w)))

/-! ## C176: momentum -/

/-- **C176** The three diffusive momentum kernels move, for each component with that component's viscosity, the flux
`-ν_k A·g(∇u_k - γ G u_k)`. -/
theorem c176_flux (o : Opt) (b : Bdf ℝ) (e : Scs nn nip nd ℝ) (gup glo : Fin nip → Fin nd → Fin nd → ℝ) (f : MNodes nn nd)
    (g : KNodes nn nd) (Gju : Fin nn → Fin nd → Fin nd → ℝ) (s : LocalSys (Fin nn × Fin nd) ℝ) (n : Fin nn) (k : Fin nd) :
    (momentumNso o b e gup glo f s).rhs (n, k) = s.rhs (n, k) - netOut e.il e.ir (fun ip =>
      flux (nuOf o (gup ip) (glo ip) (momResidual o b (e.shape ip) (e.dndx ip) f k)
          (fun j => ∑ ic, f.u.np1 ic k * e.dndx ip ic j) (fun j => ∑ ic, e.shape ip ic * f.rho.np1 ic * f.v ic j)) (gup ip)
        (fun j => (∑ ic, f.u.np1 ic k * e.dndx ip ic j) - o.fourthFac * ∑ ic, e.shape ip ic * f.Gju ic k j) (e.area ip)) n ∧
    (momentumKe o e gup glo g Gju s).rhs (n, k) = s.rhs (n, k) - netOut e.il e.ir (fun ip =>
      flux (keNu o 1 (gup ip) (glo ip) (e.shape ip) (e.dndx ip) g) (gup ip)
        (fun j => (∑ ic, g.u ic k * e.dndx ip ic j) - o.fourthFac * ∑ ic, e.shape ip ic * Gju ic k j) (e.area ip)) n ∧
    (momentumGrad o e gup glo g Gju s).rhs (n, k) = s.rhs (n, k) - netOut e.il e.ir (fun ip =>
      flux (nuOf o (gup ip) (glo ip) ((∑ ic, g.p ic * e.dndx ip ic k) - ∑ ic, e.shape ip ic * g.Gp ic k)
          (fun j => ∑ ic, g.u ic k * e.dndx ip ic j) (fun j => ∑ ic, e.shape ip ic * g.rho ic * g.v ic j)) (gup ip)
        (fun j => (∑ ic, g.u ic k * e.dndx ip ic j) - o.fourthFac * ∑ ic, e.shape ip ic * Gju ic k j) (e.area ip)) n := by
  refine ⟨?_, ?_, ?_⟩
  · rw [momentumNso, momentumWith_rhs, sum_lrs_net]; rfl
  · rw [momentumKe, momentumWith_rhs, sum_lrs_net]; rfl
  · rw [momentumGrad, momentumWith_rhs, sum_lrs_net]; rfl

theorem momentumWith_conservative (o : Opt) (nu : Fin nip → Fin nd → ℝ) (e : Scs nn nip nd ℝ)
    (gup : Fin nip → Fin nd → Fin nd → ℝ) (u : Fin nn → Fin nd → ℝ) (Gju : Fin nn → Fin nd → Fin nd → ℝ) :
    ConservativeV (momentumWith o nu e gup u Gju) :=
  conservativeV_of _ e.il e.ir _ _ (fun s n i => momentumWith_rhs o nu e gup u Gju s n i)
    (fun s d n i => momentumWith_act o nu e gup u Gju s d n i)

/-- **C176** Each momentum kernel conserves every component. -/
theorem c176_conservative (o : Opt) (b : Bdf ℝ) (e : Scs nn nip nd ℝ) (gup glo : Fin nip → Fin nd → Fin nd → ℝ)
    (f : MNodes nn nd) (g : KNodes nn nd) (Gju : Fin nn → Fin nd → Fin nd → ℝ) :
    ConservativeV (momentumNso o b e gup glo f) ∧ ConservativeV (momentumKe o e gup glo g Gju) ∧
      ConservativeV (momentumGrad o e gup glo g Gju) :=
  ⟨momentumWith_conservative _ _ _ _ _ _, momentumWith_conservative _ _ _ _ _ _, momentumWith_conservative _ _ _ _ _ _⟩

/-- A momentum kernel adds nothing when its viscosity vanishes. -/
theorem momentumWith_zero (o : Opt) (nu : Fin nip → Fin nd → ℝ) (e : Scs nn nip nd ℝ)
    (gup : Fin nip → Fin nd → Fin nd → ℝ) (u : Fin nn → Fin nd → ℝ) (Gju : Fin nn → Fin nd → Fin nd → ℝ)
    (h : ∀ ip k, nu ip k = 0) (s : LocalSys (Fin nn × Fin nd) ℝ) : momentumWith o nu e gup u Gju s = s := by
  have hr : ∀ n k, (momentumWith o nu e gup u Gju s).rhs (n, k) = s.rhs (n, k) := by
    intro n k
    rw [momentumWith_rhs]
    simp [h, flux, lrs]
  have hl : ∀ n k m, (momentumWith o nu e gup u Gju s).lhs (n, k) m = s.lhs (n, k) m := by
    intro n k m
    rw [← act_single, momentumWith_act, act_single]
    simp [h, flux, lrs]
  rcases hm : momentumWith o nu e gup u Gju s with ⟨L, R⟩
  rcases s with ⟨L', R'⟩
  rw [hm] at hr hl
  congr
  · funext a m; exact hl a.1 a.2 m
  · funext a; exact hr a.1 a.2

/-- **C176** A uniform velocity (with vanishing nodal gradients) is left alone by all three kernels, and by the fourth-order
forms so is every velocity that is affine in space with exact nodal gradients, whatever the viscosity. -/
theorem c176_exact_fields (o : Opt) (b : Bdf ℝ) (e : Scs nn nip nd ℝ) (gup glo : Fin nip → Fin nd → Fin nd → ℝ)
    (f : MNodes nn nd) (g : KNodes nn nd) (x : Fin nn → Fin nd → ℝ) (c : Fin nd → ℝ) (w : Fin nd → Fin nd → ℝ)
    (h1 : ∀ ip, Unity (e.shape ip)) (h2 : ∀ ip, GradConst (e.dndx ip)) (h3 : ∀ ip, GradLinear (e.dndx ip) x)
    (hu : ∀ ic k, f.u.np1 ic k = affine (c k) (w k) (x ic)) (hG : ∀ ic k j, f.Gju ic k j = w k j)
    (hgu : g.u = f.u.np1) (ho : o.fourthFac = 1 ∨ ∀ k j, w k j = 0) (s : LocalSys (Fin nn × Fin nd) ℝ) :
    (momentumNso o b e gup glo f s).rhs = s.rhs ∧ (momentumKe o e gup glo g f.Gju s).rhs = s.rhs ∧
      (momentumGrad o e gup glo g f.Gju s).rhs = s.rhs := by
  have hz : ∀ ip k, (fun j => (∑ ic, f.u.np1 ic k * e.dndx ip ic j) - o.fourthFac * ∑ ic, e.shape ip ic * f.Gju ic k j)
      = fun _ => 0 := by
    intro ip k
    funext j
    have h4 : ∑ ic, f.u.np1 ic k * e.dndx ip ic j = w k j := by
      have := grad_affine (e.dndx ip) x (h2 ip) (h3 ip) (c k) (w k) j
      simp only [grad] at this
      simp only [hu, this]
    have h5 : ∑ ic, e.shape ip ic * f.Gju ic k j = w k j := by
      simp only [hG, ← Finset.sum_mul]
      rw [h1 ip, one_mul]
    rw [h4, h5]
    rcases ho with h | h
    · rw [h]; ring
    · rw [h]; ring
  refine ⟨funext fun ⟨n, k⟩ => ?_, funext fun ⟨n, k⟩ => ?_, funext fun ⟨n, k⟩ => ?_⟩
  · rw [(c176_flux o b e gup glo f g f.Gju s n k).1]
    simp only [hz, flux_zero, netOut_zero, sub_zero]
  · rw [(c176_flux o b e gup glo f g f.Gju s n k).2.1]
    simp only [hgu, hz, flux_zero, netOut_zero, sub_zero]
  · rw [(c176_flux o b e gup glo f g f.Gju s n k).2.2]
    simp only [hgu, hz, flux_zero, netOut_zero, sub_zero]

/-- **C176** A smooth pressure switches the pressure-based operators off altogether: when at every integration point the
pressure gradient equals the interpolated nodal one, neither the matrix nor the right-hand side changes. -/
theorem c176_smooth_pressure (o : Opt) (e : Scs nn nip nd ℝ) (gup glo : Fin nip → Fin nd → Fin nd → ℝ) (g : KNodes nn nd)
    (Gju : Fin nn → Fin nd → Fin nd → ℝ) (hc : 0 ≤ o.cupw)
    (h : ∀ ip j, ∑ ic, g.p ic * e.dndx ip ic j = ∑ ic, e.shape ip ic * g.Gp ic j)
    (s : LocalSys (Fin nn × Fin nd) ℝ) :
    momentumKe o e gup glo g Gju s = s ∧ momentumGrad o e gup glo g Gju s = s := by
  have hz : ∀ ip k, gradResidual (e.shape ip) (e.dndx ip) g k = 0 := fun ip k => sub_eq_zero.2 (h ip k)
  have hres : ∀ gu (dq : Fin nd → ℝ), nuResidual o gu 0 dq = 0 := by intro gu dq; simp [nuResidual]
  constructor
  · refine momentumWith_zero _ _ _ _ _ _ (fun ip k => ?_) s
    have hk : keResidual (e.shape ip) (e.dndx ip) g = 0 := by
      rw [keResidual]
      refine Finset.sum_eq_zero fun j _ => ?_
      have : grad (e.dndx ip) g.p j - ∑ ic, e.shape ip ic * g.Gp ic j = 0 := hz ip j
      rw [this]; simp
    rw [keNu, hk, hres, mul_zero, zero_div]
    exact min_eq_right (mul_nonneg hc (Real.sqrt_nonneg _))
  · refine momentumWith_zero _ _ _ _ _ _ (fun ip k => ?_) s
    rw [nuOf, hz, hres]
    exact min_eq_right (mul_nonneg hc (Real.sqrt_nonneg _))

/-- **C176** The residual of the full momentum operator in a uniform steady stream with uniform pressure: the linearized part
vanishes and the conserved part is the velocity times the continuity residual. -/
theorem c176_uniform_stream (o : Opt) (b : Bdf ℝ) (r : Fin nn → ℝ) (dn : Fin nn → Fin nd → ℝ) (rho : Levels nn ℝ)
    (v : Fin nn → Fin nd → ℝ) (mu : Fin nn → ℝ) (c : Fin nd → ℝ) (p : ℝ) (k : Fin nd) (h1 : Unity r) (h2 : GradConst dn) :
    momResidual o b r dn ⟨⟨fun _ => c, fun _ => c, fun _ => c⟩, rho, v, mu, fun _ => p, fun _ _ _ => 0⟩ k
      = c k * contRes b r dn rho v * (1 - o.nonConserved) * (1 - o.altResFac) := by
  have hA := c175_alt_residual r dn rho.np1 v (fun _ => c k) h1 h2 (Or.inl ⟨c k, fun _ => rfl⟩)
  have hd : momDiff o r dn mu (fun _ _ _ => 0) k = 0 := by simp [momDiff, divUIp]
  simp only [momResidual, hA, hd, timeTerm, comp, dFdxAdv_const, interp_const r h1, grad_const dn h2, contRes, Opt.om]
  ring

/-- **C176** The residual of the full operator is the discrete momentum equation: time derivative of the interpolated products,
divergence of `ρ v u_k`, minus the divergence of the viscous stress of the nodal gradients, plus the pressure gradient, less
`u_k` times continuity in the non-conserved form; blended with the linearized residual. -/
theorem c176_residual (o : Opt) (b : Bdf ℝ) (r : Fin nn → ℝ) (dn : Fin nn → Fin nd → ℝ) (f : MNodes nn nd) (k : Fin nd) :
    momResidual o b r dn f k = o.altResFac * residualAlt r dn f.rho.np1 f.v (fun ic => f.u.np1 ic k)
      + (1 - o.altResFac) * ((b.g1 * interp r f.rho.np1 * coordIp r f.u.np1 k + b.g2 * interp r f.rho.n * coordIp r f.u.n k
            + b.g3 * interp r f.rho.nm1 * coordIp r f.u.nm1 k) / b.dt
          + (∑ j, ∑ ic, dn ic j * (f.rho.np1 ic * f.v ic j * f.u.np1 ic k))
          - (∑ j, ∑ ic, dn ic j * (f.mu ic * (f.Gju ic k j + f.Gju ic j k
              - if k = j then o.includeDivU * (2 / 3) * ∑ m, r m * ∑ l, f.Gju m l l else 0)))
          + (∑ ic, dn ic k * f.p ic)
          - o.nonConserved * coordIp r f.u.np1 k * ((b.g1 * interp r f.rho.np1 + b.g2 * interp r f.rho.n
              + b.g3 * interp r f.rho.nm1) / b.dt + ∑ j, ∑ ic, dn ic j * (f.rho.np1 ic * f.v ic j))) := by
  have e1 : dFdxAdv dn f.rho.np1 f.v (fun ic => f.u.np1 ic k)
      = ∑ j, ∑ ic, dn ic j * (f.rho.np1 ic * f.v ic j * f.u.np1 ic k) := by
    rw [dFdxAdv, Finset.sum_comm]
    exact Finset.sum_congr rfl fun j _ => Finset.sum_congr rfl fun ic _ => by ring
  have e2 : dFdxCont dn f.rho.np1 f.v = ∑ j, ∑ ic, dn ic j * (f.rho.np1 ic * f.v ic j) := by
    rw [dFdxCont, Finset.sum_comm]
    exact Finset.sum_congr rfl fun j _ => Finset.sum_congr rfl fun ic _ => by ring
  have e3 : momDiff o r dn f.mu f.Gju k = ∑ j, ∑ ic, dn ic j * (f.mu ic * (f.Gju ic k j + f.Gju ic j k
              - if k = j then o.includeDivU * (2 / 3) * ∑ m, r m * ∑ l, f.Gju m l l else 0)) := by
    have : divUIp r f.Gju = ∑ m, r m * ∑ l, f.Gju m l l := by simp only [divUIp, Finset.mul_sum]
    rw [momDiff, this, Finset.sum_comm]
    refine Finset.sum_congr rfl fun j _ => Finset.sum_congr rfl fun ic _ => ?_
    split_ifs <;> ring
  have e4 : grad dn f.p k = ∑ ic, dn ic k * f.p ic := Finset.sum_congr rfl fun ic _ => by ring
  have e5 : ∀ w : Fin nn → Fin nd → ℝ, interp r (fun ic => w ic k) = coordIp r w k := fun w => rfl
  simp only [momResidual, contRes, timeTerm, comp, e1, e2, e3, e4, e5, Opt.om]
  ring

/-- **C176** The matrix of each kernel belongs to its flux with the viscosity frozen, and couples no two components. -/
theorem c176_matrix (o : Opt) (nu : Fin nip → Fin nd → ℝ) (e : Scs nn nip nd ℝ) (gup : Fin nip → Fin nd → Fin nd → ℝ)
    (u : Fin nn → Fin nd → ℝ) (Gju : Fin nn → Fin nd → Fin nd → ℝ) (s : LocalSys (Fin nn × Fin nd) ℝ) (n : Fin nn) (k : Fin nd) :
    (∑ m, ((momentumWith o nu e gup u Gju s).lhs (n, k) m - s.lhs (n, k) m) * u m.1 m.2
      = netOut e.il e.ir (fun ip => flux (nu ip k) (gup ip) (fun j => ∑ ic, u ic k * e.dndx ip ic j) (e.area ip)) n) ∧
    ∀ m l, l ≠ k → (momentumWith o nu e gup u Gju s).lhs (n, k) (m, l) = s.lhs (n, k) (m, l) := by
  constructor
  · rw [act_sub s _ (fun m => u m.1 m.2), momentumWith_act, ← sum_lrs_net]
    rw [add_sub_cancel_left]; rfl
  · intro m l hl
    rw [← act_single, momentumWith_act, act_single]
    have : ∀ ic : Fin nn, (Pi.single (m, l) (1 : ℝ) : Fin nn × Fin nd → ℝ) (ic, k) = 0 := by
      intro ic
      rw [Pi.single_apply, if_neg]
      intro h; exact hl (congrArg Prod.snd h).symm
    have hg : ∀ ip, grad (e.dndx ip) (fun _ : Fin nn => (0 : ℝ)) = fun _ => 0 := by intro ip; funext j; simp [grad]
    simp only [this, hg, flux_zero, lrs, neg_zero, ite_self, add_zero, Finset.sum_const_zero]

/-! ## C177: the stress form -/

/-- **C177** (partial) What the stress form moves is the flux of `-ν g∘(∇u + ∇uᵀ - 2/3 m (∇·u) I)`, with `m` the number of
nodes of the element instead of one: the dilatation term is inside the loop over the nodes. -/
theorem c177_stress_partial (o : Opt) (e : Scs nn nip nd ℝ) (gup glo : Fin nip → Fin nd → Fin nd → ℝ) (f : KNodes nn nd)
    (s : LocalSys (Fin nn × Fin nd) ℝ) (n : Fin nn) (i : Fin nd) :
    (momentumSij o e gup glo f s).rhs (n, i) = s.rhs (n, i) - netOut e.il e.ir (fun ip =>
      stressFlux (keNu o 1 (gup ip) (glo ip) (e.shape ip) (e.dndx ip) f) (gup ip)
        (Matrix.of fun i j => ∑ ic, f.u ic i * e.dndx ip ic j) (nn * o.includeDivU) (e.area ip) i) n := by
  rw [momentumSij_rhs, sum_lrs_net]; rfl

/-- **C177** Without the dilatation the stress is the intended one. -/
theorem c177_stress_incompressible (o : Opt) (e : Scs nn nip nd ℝ) (gup glo : Fin nip → Fin nd → Fin nd → ℝ) (f : KNodes nn nd)
    (h : o.includeDivU = 0 ∨ ∀ ip, ∑ i, ∑ ic, f.u ic i * e.dndx ip ic i = 0)
    (s : LocalSys (Fin nn × Fin nd) ℝ) (n : Fin nn) (i : Fin nd) :
    (momentumSij o e gup glo f s).rhs (n, i) = s.rhs (n, i) - netOut e.il e.ir (fun ip =>
      stressFlux (keNu o 1 (gup ip) (glo ip) (e.shape ip) (e.dndx ip) f) (gup ip)
        (Matrix.of fun i j => ∑ ic, f.u ic i * e.dndx ip ic j) o.includeDivU (e.area ip) i) n := by
  rw [c177_stress_partial]
  congr 2
  funext ip
  rw [stressFlux_add, stressFlux_add (m := o.includeDivU)]
  rcases h with h | h
  · rw [h]; ring
  · have : (Matrix.of fun i j => ∑ ic, f.u ic i * e.dndx ip ic j : Matrix (Fin nd) (Fin nd) ℝ).trace = 0 := h ip
    rw [this]; ring

/-- **C177** The stress form conserves each component and its matrix is that of the flux without the dilatation. -/
theorem c177_conservative (o : Opt) (e : Scs nn nip nd ℝ) (gup glo : Fin nip → Fin nd → Fin nd → ℝ) (f : KNodes nn nd) :
    ConservativeV (momentumSij o e gup glo f) ∧
    ∀ s n i, ∑ m, ((momentumSij o e gup glo f s).lhs (n, i) m - s.lhs (n, i) m) * f.u m.1 m.2
      = netOut e.il e.ir (fun ip => stressFlux (keNu o 1 (gup ip) (glo ip) (e.shape ip) (e.dndx ip) f) (gup ip)
        (Matrix.of fun i j => ∑ ic, f.u ic i * e.dndx ip ic j) 0 (e.area ip) i) n := by
  refine ⟨conservativeV_of _ e.il e.ir _ _ (fun s n i => momentumSij_rhs o e gup glo f s n i)
    (fun s d n i => momentumSij_act o e gup glo f s d n i), fun s n i => ?_⟩
  rw [act_sub s _ (fun m => f.u m.1 m.2), momentumSij_act, ← sum_lrs_net, add_sub_cancel_left]; rfl

/-- **C177** A rigid motion, `u = c + W x` with `W` antisymmetric, produces no stress. -/
theorem c177_rigid (o : Opt) (e : Scs nn nip nd ℝ) (gup glo : Fin nip → Fin nd → Fin nd → ℝ) (f : KNodes nn nd)
    (x : Fin nn → Fin nd → ℝ) (c : Fin nd → ℝ) (W : Fin nd → Fin nd → ℝ) (hW : ∀ i j, W i j = -W j i)
    (h2 : ∀ ip, GradConst (e.dndx ip)) (h3 : ∀ ip, GradLinear (e.dndx ip) x)
    (hu : ∀ ic i, f.u ic i = affine (c i) (W i) (x ic)) (s : LocalSys (Fin nn × Fin nd) ℝ) :
    (momentumSij o e gup glo f s).rhs = s.rhs := by
  funext ⟨n, i⟩
  rw [c177_stress_partial]
  have hH : ∀ ip, (Matrix.of fun i j => ∑ ic, f.u ic i * e.dndx ip ic j : Matrix (Fin nd) (Fin nd) ℝ) = Matrix.of W := by
    intro ip
    ext i j
    simp only [Matrix.of_apply, hu]
    exact grad_affine (e.dndx ip) x (h2 ip) (h3 ip) (c i) (W i) j
  have ht : (Matrix.of W).trace = 0 := by
    simp only [Matrix.trace, Matrix.diag_apply, Matrix.of_apply]
    refine Finset.sum_eq_zero fun i _ => ?_
    linarith [hW i i]
  have hz : ∀ ip nu m, stressFlux nu (gup ip) (Matrix.of W) m (e.area ip) i = 0 := by
    intro ip nu m
    rw [stressFlux, ht]
    have : ∀ j, gup ip i j * (Matrix.of W i j + Matrix.of W j i - 2 / 3 * (m * 0) * if i = j then 1 else 0) * e.area ip j = 0 := by
      intro j
      rw [Matrix.of_apply, Matrix.of_apply, hW i j]; ring
    rw [Finset.sum_congr rfl fun j _ => this j, Finset.sum_const_zero, mul_zero]
  simp only [hH, hz, netOut_zero, sub_zero]

/-- **C177** What the repetition costs: in three dimensions a uniform expansion `∇u = c I` should produce no deviatoric stress,
and through the surface with area vector `a` the kernel's formula gives `2 (m - 1) ν c g_ii a_i`. -/
theorem c177_expansion (nu c m : ℝ) (g : Fin 3 → Fin 3 → ℝ) (a : Fin 3 → ℝ) (i : Fin 3) :
    stressFlux nu g (Matrix.of fun i j => if i = j then c else 0) m a i = 2 * (m - 1) * nu * c * g i i * a i := by
  have ht : (Matrix.of fun i j => if i = j then c else 0 : Matrix (Fin 3) (Fin 3) ℝ).trace = 3 * c := by
    simp [Matrix.trace]
  rw [stressFlux_add, ht]
  have h0 : stressFlux nu g (Matrix.of fun i j => if i = j then c else 0) 0 a i = -2 * nu * c * g i i * a i := by
    simp only [stressFlux, Matrix.of_apply, zero_mul, mul_zero, sub_zero]
    have : ∀ j, g i j * ((if i = j then c else 0) + if j = i then c else 0) * a j = if i = j then 2 * c * g i j * a j else 0 := by
      intro j
      by_cases h : i = j
      · subst h; rw [if_pos rfl, if_pos rfl]; ring
      · rw [if_neg h, if_neg (Ne.symm h), if_neg h]; ring
    simp only [this, Finset.sum_ite_eq, Finset.mem_univ, if_true]
    ring
  rw [h0]; ring

/-! ## C178: finite elements -/

/-- **C178** The finite element operator: the matrix is symmetric, positive semidefinite and annihilates constants, and the
residual is minus the matrix times the field. -/
theorem c178_fem_operator (o : Opt) (e : FemIp nn nip nd) (gup glo : Fin nip → Fin nd → Fin nd → ℝ) (rho : Fin nn → ℝ)
    (v : Fin nn → Fin nd → ℝ) (q : Fin nn → ℝ) (hsym : ∀ ip, Symm (gup ip)) (hg : ∀ ip, Psd (gup ip)) (hs : 0 < o.small)
    (hc : 0 ≤ o.cupw) (hw : ∀ ip, 0 ≤ e.detJ ip * e.w ip) (s : LocalSys (Fin nn) ℝ) :
    let A := fun a b => (femNso o e gup glo rho v q s).lhs a b - s.lhs a b
    (∀ a b, A a b = A b a) ∧ (∀ d : Fin nn → ℝ, 0 ≤ ∑ a, ∑ b, d a * A a b * d b) ∧
    ((∀ ip, GradConst (e.dndx ip)) → ∀ a, ∑ b, A a b = 0) ∧
    ∀ a, (femNso o e gup glo rho v q s).rhs a - s.rhs a = -∑ b, A a b * q b := by
  intro A
  have hA : ∀ a b, A a b = ∑ ip, femNu o e gup glo rho v q ip
      * (∑ i, ∑ j, e.dndx ip a i * gup ip i j * e.dndx ip b j) * (e.detJ ip * e.w ip) := by
    intro a b
    simp only [A, femNso_lhs, add_sub_cancel_left]
  have hrow : ∀ a (d : Fin nn → ℝ), ∑ b, A a b * d b = ∑ ip, femNu o e gup glo rho v q ip
      * (∑ i, ∑ j, e.dndx ip a i * gup ip i j * grad (e.dndx ip) d j) * (e.detJ ip * e.w ip) := by
    intro a d
    simp only [hA, Finset.sum_mul]
    rw [Finset.sum_comm]
    refine Finset.sum_congr rfl fun ip _ => ?_
    rw [← femFac_sum]
    simp only [Finset.mul_sum, femFac]
    rw [Finset.sum_mul]
    refine Finset.sum_congr rfl fun b _ => ?_
    simp only [Finset.sum_mul, Finset.mul_sum]
    exact Finset.sum_congr rfl fun i _ => Finset.sum_congr rfl fun j _ => by ring
  refine ⟨?_, ?_, ?_, ?_⟩
  · intro a b
    rw [hA, hA]
    refine Finset.sum_congr rfl fun ip _ => ?_
    congr 2
    rw [Finset.sum_comm]
    exact Finset.sum_congr rfl fun i _ => Finset.sum_congr rfl fun j _ => by rw [hsym ip j i]; ring
  · intro d
    have h1 : ∑ a, ∑ b, d a * A a b * d b = ∑ ip, femNu o e gup glo rho v q ip
        * form (gup ip) (grad (e.dndx ip) d) * (e.detJ ip * e.w ip) := by
      have : ∀ a, ∑ b, d a * A a b * d b = d a * ∑ b, A a b * d b := by
        intro a; rw [Finset.mul_sum]; exact Finset.sum_congr rfl fun b _ => by ring
      simp only [this, hrow, Finset.mul_sum]
      rw [Finset.sum_comm]
      refine Finset.sum_congr rfl fun ip _ => ?_
      rw [form]
      simp only [Finset.mul_sum, Finset.sum_mul]
      rw [Finset.sum_comm]
      refine Finset.sum_congr rfl fun i _ => ?_
      rw [Finset.sum_comm]
      refine Finset.sum_congr rfl fun j _ => ?_
      rw [show grad (e.dndx ip) d i = ∑ a, d a * e.dndx ip a i from rfl]
      simp only [Finset.mul_sum, Finset.sum_mul]
      exact Finset.sum_congr rfl fun a _ => by ring
    rw [h1]
    refine Finset.sum_nonneg fun ip _ => mul_nonneg (mul_nonneg ?_ (hg ip _)) (hw ip)
    exact (nuOf_law o (gup ip) (glo ip) _ _ _ (hg ip) hs hc).1
  · intro h a
    have := hrow a (fun _ => 1)
    simp only [mul_one] at this
    rw [this]
    simp only [grad_const _ (h _), mul_zero, Finset.sum_const_zero, zero_mul]
  · intro a
    rw [hrow, femNso_rhs, sub_sub_cancel_left]

/-- **C178** Its viscosity obeys the same law, with the linearized residual; the operator disappears where the mass flux is
uniform. -/
theorem c178_fem_viscosity (o : Opt) (e : FemIp nn nip nd) (gup glo : Fin nip → Fin nd → Fin nd → ℝ) (rho : Fin nn → ℝ)
    (v : Fin nn → Fin nd → ℝ) (q : Fin nn → ℝ) (ip : Fin nip) (hg : Psd (gup ip)) (hs : 0 < o.small) (hc : 0 ≤ o.cupw) :
    let nu := femNu o e gup glo rho v q ip
    0 ≤ nu ∧ nu ≤ o.cupw * Real.sqrt (form (glo ip) fun j => ∑ ic, e.shape ip ic * rho ic * v ic j) ∧
    nu ^ 2 * (form (gup ip) (fun j => ∑ ic, q ic * e.dndx ip ic j) + o.small)
      ≤ (residualAlt (e.shape ip) (e.dndx ip) rho v q) ^ 2 ∧
    (nu = o.cupw * Real.sqrt (form (glo ip) fun j => ∑ ic, e.shape ip ic * rho ic * v ic j) ∨
      nu ^ 2 * (form (gup ip) (fun j => ∑ ic, q ic * e.dndx ip ic j) + o.small)
        = (residualAlt (e.shape ip) (e.dndx ip) rho v q) ^ 2) ∧
    (Unity (e.shape ip) → GradConst (e.dndx ip) → (∃ m : Fin nd → ℝ, ∀ ic j, rho ic * v ic j = m j) → nu = 0) := by
  intro nu
  obtain ⟨h0, h1, h2, h3, h4⟩ := nuOf_law o (gup ip) (glo ip) (residualAlt (e.shape ip) (e.dndx ip) rho v q)
    (grad (e.dndx ip) q) (massFlux (e.shape ip) rho v) hg hs hc
  exact ⟨h0, h1, h2, h3, fun hu hgc hm => h4 (c175_alt_residual _ _ _ _ _ hu hgc (Or.inr hm))⟩

/-! ## C179: metric tensors -/

/-- **C179** The contravariant metric is symmetric and positive semidefinite for every element, also a degenerate or inverted
one, and so is the covariant one, clipped or not. -/
theorem c179_metric_psd (J S : Fin nd → Fin nd → ℝ) : Symm (gUp J) ∧ Psd (gUp J) ∧ Symm (gLo S) ∧ Psd (gLo S) := by
  have key : ∀ (B : Fin nd → Fin nd → ℝ) (v : Fin nd → ℝ), ∑ i, ∑ j, v i * (∑ k, B k i * B k j) * v j = ∑ k, (∑ i, B k i * v i) ^ 2 := by
    intro B v
    have : ∀ k, (∑ i, B k i * v i) ^ 2 = ∑ i, ∑ j, v i * (B k i * B k j) * v j := by
      intro k
      rw [sq, Finset.sum_mul_sum]
      exact Finset.sum_congr rfl fun i _ => Finset.sum_congr rfl fun j _ => by ring
    simp only [this]
    rw [Finset.sum_comm (s := Finset.univ) (t := Finset.univ) (f := fun k i => ∑ j, v i * (B k i * B k j) * v j)]
    refine Finset.sum_congr rfl fun i _ => ?_
    rw [Finset.sum_comm (f := fun k j => v i * (B k i * B k j) * v j)]
    exact Finset.sum_congr rfl fun j _ => by rw [Finset.mul_sum, Finset.sum_mul]
  refine ⟨fun i j => Finset.sum_congr rfl fun k _ => mul_comm _ _, fun v => ?_, fun i j => Finset.sum_congr rfl fun k _ => mul_comm _ _,
    fun v => ?_⟩
  · rw [form]
    simp only [gUp]
    rw [key (fun k i => J i k)]
    exact Finset.sum_nonneg fun k _ => sq_nonneg _
  · rw [form]
    simp only [gLo]
    rw [key]
    exact Finset.sum_nonneg fun k _ => sq_nonneg _

theorem clipAt_lt : clipAt < 1 := by
  have h : (10 : ℝ) ^ 30 ≤ 10 ^ 324 := pow_le_pow_right₀ (by norm_num) (by norm_num)
  have h2 : (22250738585072014 : ℝ) / 10 ^ 324 ≤ 22250738585072014 / 10 ^ 30 :=
    div_le_div_of_nonneg_left (by norm_num) (by positivity) h
  have h3 : (22250738585072014 : ℝ) / 10 ^ 30 < 1 / 10 ^ 6 := by norm_num
  unfold clipAt
  have h4 := lt_of_le_of_lt h2 h3
  linarith

/-- **C179** On every element whose Jacobian determinant exceeds the clip, the two tensors of `twod_gij` are `J Jᵀ` and its
inverse, `J` being the matrix `∂x_i/∂ξ_j`. -/
theorem c179_twod (J : Fin 2 → Fin 2 → ℝ) (h : clipAt < (Matrix.of J).det) :
    Matrix.of (twodGij J).1 = Matrix.of J * (Matrix.of J).transpose ∧
    Matrix.of (twodGij J).2 * Matrix.of (twodGij J).1 = 1 := by
  have hc : (0 : ℝ) < clipAt := by unfold clipAt; positivity
  have hd : det2 J = (Matrix.of J).det := by
    rw [Matrix.det_fin_two, det2]; simp only [Matrix.of_apply]; ring
  have hpos : 0 < (Matrix.of J).det := hc.trans h
  have hden : denom (det2 J) * (Matrix.of J).det = 1 := by
    rw [denom, if_neg (by rw [hd]; linarith), hd, one_div, inv_mul_cancel₀ hpos.ne']
  have hinv : Matrix.of (dsdx2 (denom (det2 J)) J) = (Matrix.of J)⁻¹ := by
    symm
    apply Matrix.inv_eq_left_inv
    generalize denom (det2 J) = dn at hden
    rw [Matrix.det_fin_two] at hden
    simp only [Matrix.of_apply] at hden
    have hsplit : ∀ A : Matrix (Fin 2) (Fin 2) ℝ, A 0 0 = 1 → A 0 1 = 0 → A 1 0 = 0 → A 1 1 = 1 → A = 1 := by
      intro A a b c d
      ext i j
      fin_cases i <;> fin_cases j <;> simp [a, b, c, d]
    apply hsplit <;>
    · simp only [Matrix.mul_apply, Matrix.of_apply, Fin.sum_univ_two, dsdx2, Matrix.cons_val_zero, Matrix.cons_val_one]
      first | linear_combination hden | ring1
  have hU : Matrix.of (twodGij J).1 = Matrix.of J * (Matrix.of J).transpose := by
    ext i j
    simp [twodGij, gUp, Matrix.mul_apply]
  have hL : Matrix.of (twodGij J).2 = ((Matrix.of J)⁻¹).transpose * (Matrix.of J)⁻¹ := by
    rw [← hinv]
    ext i j
    simp [twodGij, gLo, Matrix.mul_apply]
  refine ⟨hU, ?_⟩
  have hu : IsUnit (Matrix.of J).det := hpos.ne'.isUnit
  rw [hU, hL, Matrix.mul_assoc, ← Matrix.mul_assoc (Matrix.of J)⁻¹, Matrix.nonsing_inv_mul _ hu, Matrix.one_mul,
    ← Matrix.transpose_mul, Matrix.mul_nonsing_inv _ hu, Matrix.transpose_one]

/-- **C179** The same for `threed_gij`. -/
theorem c179_threed (J : Fin 3 → Fin 3 → ℝ) (h : clipAt < (Matrix.of J).det) :
    Matrix.of (threedGij J).1 = Matrix.of J * (Matrix.of J).transpose ∧
    Matrix.of (threedGij J).2 * Matrix.of (threedGij J).1 = 1 := by
  have hc : (0 : ℝ) < clipAt := by unfold clipAt; positivity
  have hd : det3 J = (Matrix.of J).det := by
    rw [Matrix.det_fin_three, det3]; simp only [Matrix.of_apply]; ring
  have hpos : 0 < (Matrix.of J).det := hc.trans h
  have hden : denom (det3 J) * (Matrix.of J).det = 1 := by
    rw [denom, if_neg (by rw [hd]; linarith), hd, one_div, inv_mul_cancel₀ hpos.ne']
  have hinv : Matrix.of (dsdx3 (denom (det3 J)) J) = (Matrix.of J)⁻¹ := by
    symm
    apply Matrix.inv_eq_left_inv
    generalize denom (det3 J) = dn at hden
    rw [Matrix.det_fin_three] at hden
    simp only [Matrix.of_apply] at hden
    have hsplit : ∀ A : Matrix (Fin 3) (Fin 3) ℝ, A 0 0 = 1 → A 0 1 = 0 → A 0 2 = 0 → A 1 0 = 0 → A 1 1 = 1 → A 1 2 = 0 →
        A 2 0 = 0 → A 2 1 = 0 → A 2 2 = 1 → A = 1 := by
      intro A a b c d e f g h i
      ext x y
      fin_cases x <;> fin_cases y <;> simp [a, b, c, d, e, f, g, h, i]
    apply hsplit <;>
    · simp only [Matrix.mul_apply, Matrix.of_apply, Fin.sum_univ_three, dsdx3, Matrix.cons_val_zero, Matrix.cons_val_one,
        Matrix.cons_val]
      first | linear_combination hden | ring1
  have hU : Matrix.of (threedGij J).1 = Matrix.of J * (Matrix.of J).transpose := by
    ext i j
    simp [threedGij, gUp, Matrix.mul_apply]
  have hL : Matrix.of (threedGij J).2 = ((Matrix.of J)⁻¹).transpose * (Matrix.of J)⁻¹ := by
    rw [← hinv]
    ext i j
    simp [threedGij, gLo, Matrix.mul_apply]
  refine ⟨hU, ?_⟩
  have hu : IsUnit (Matrix.of J).det := hpos.ne'.isUnit
  rw [hU, hL, Matrix.mul_assoc, ← Matrix.mul_assoc (Matrix.of J)⁻¹, Matrix.nonsing_inv_mul _ hu, Matrix.one_mul,
    ← Matrix.transpose_mul, Matrix.mul_nonsing_inv _ hu, Matrix.transpose_one]

/-- **C179** (partial) The vectorized quadrilateral version gives every lane of a SIMD pack the result of the scalar routine,
provided that lane and lane 0 fall on the same side of the clip. -/
theorem c179_simd_partial {w : ℕ} (J : Fin (w + 1) → Fin 2 → Fin 2 → ℝ) (lane : Fin (w + 1))
    (h : det2 (J 0) ≤ clipAt ↔ det2 (J lane) ≤ clipAt) : quadGijSimd J lane = twodGij (J lane) := by
  have hs := c179_metric_psd (J lane) (dsdx2 (denom (det2 (J lane))) (J lane))
  have hd : (if det2 (J 0) ≤ clipAt then 1 else 1 / det2 (J lane)) = denom (det2 (J lane)) := by
    rw [denom]; exact if_congr h rfl rfl
  unfold quadGijSimd twodGij
  simp only [hd]
  exact Prod.ext (funext fun i => funext fun j => hs.1 j i) (funext fun i => funext fun j => hs.2.2.1 j i)

/-- **C179** Without the proviso it is false: behind a degenerate element in lane 0, a perfectly good square of side 2
(`J = 2 I`) gets a covariant metric that is not the inverse of its contravariant one. -/
theorem c179_simd_counterexample :
    ∃ J : Fin 2 → Fin 2 → Fin 2 → ℝ, clipAt < (Matrix.of (J 1)).det ∧ quadGijSimd J 1 ≠ twodGij (J 1) ∧
      Matrix.of (quadGijSimd J 1).2 * Matrix.of (quadGijSimd J 1).1 ≠ 1 := by
  have hclip : clipAt < 4 := by linarith [clipAt_lt]
  have hclip0 : (0 : ℝ) < clipAt := by unfold clipAt; positivity
  have hent : (Matrix.of (quadGijSimd (![fun _ _ => 0, ![![2, 0], ![0, 2]]] : Fin 2 → Fin 2 → Fin 2 → ℝ) 1).2 *
      Matrix.of (quadGijSimd (![fun _ _ => 0, ![![2, 0], ![0, 2]]] : Fin 2 → Fin 2 → Fin 2 → ℝ) 1).1) 0 0 = 16 := by
    have hz : det2 ((![fun _ _ => 0, ![![2, 0], ![0, 2]]] : Fin 2 → Fin 2 → Fin 2 → ℝ) 0) ≤ clipAt := by
      simp only [det2, Matrix.cons_val_zero]; linarith
    simp only [quadGijSimd]
    rw [if_pos hz]
    simp only [Matrix.mul_apply, Matrix.of_apply, Fin.sum_univ_two, gLo, gUp, dsdx2, Matrix.cons_val_zero, Matrix.cons_val_one]
    norm_num
  have hne : Matrix.of (quadGijSimd (![fun _ _ => 0, ![![2, 0], ![0, 2]]] : Fin 2 → Fin 2 → Fin 2 → ℝ) 1).2 *
      Matrix.of (quadGijSimd (![fun _ _ => 0, ![![2, 0], ![0, 2]]] : Fin 2 → Fin 2 → Fin 2 → ℝ) 1).1 ≠ 1 := by
    intro h
    rw [h, Matrix.one_apply_eq] at hent
    norm_num at hent
  have hdet : clipAt < (Matrix.of ((![fun _ _ => 0, ![![2, 0], ![0, 2]]] : Fin 2 → Fin 2 → Fin 2 → ℝ) 1)).det := by
    rw [Matrix.det_fin_two]
    simp only [Matrix.of_apply, Matrix.cons_val_zero, Matrix.cons_val_one]
    norm_num; linarith
  refine ⟨_, hdet, ?_, hne⟩
  intro h
  rw [h] at hne
  exact hne (c179_twod _ hdet).2

/-! ## Non-trivial instances -/

section examples

/-- A one-dimensional element with two nodes at 0 and 1 and one control surface in the middle. -/
noncomputable def bar : Scs 2 1 1 ℝ :=
  ⟨fun _ _ => 1 / 2, fun _ _ => 1 / 2, fun _ ic _ => if ic = 0 then -1 else 1, fun _ _ => 1, fun _ => 0, fun _ => 1⟩

example : (∀ ip, Unity (bar.shape ip)) ∧ (∀ ip, GradConst (bar.dndx ip)) ∧
    (∀ ip, GradLinear (bar.dndx ip) (fun ic _ => if ic = 0 then 0 else 1)) ∧ Psd (fun _ _ : Fin 1 => (1 / 4 : ℝ)) := by
  refine ⟨fun ip => ?_, fun ip j => ?_, fun ip i j => ?_, fun v => ?_⟩
  · simp [Unity, bar]
  · simp [bar, Fin.sum_univ_two]
  · rw [Subsingleton.elim i j]; simp [bar, Fin.sum_univ_two]
  · simp only [form, Fin.sum_univ_one]; nlinarith [sq_nonneg (v 0)]

/-- At the middle of this element the linearized residual vanishes for every field (the product rule is exact there). -/
example : residualAlt (bar.shape 0) (bar.dndx 0) (fun _ => 1) (fun ic _ => if ic = 0 then 0 else 1)
    (fun ic => if ic = 0 then 0 else 1) = 0 ∧
    residualAlt (bar.shape 0) (bar.dndx 0) (fun ic => if ic = 0 then 1 else 2) (fun ic _ => if ic = 0 then 1 else 3)
      (fun ic => if ic = 0 then 0 else 1) = 0 := by
  constructor <;>
  · simp [residualAlt, dFdxAdv, dFdxCont, massFlux, grad, interp, bar, Fin.sum_univ_two]
    try norm_num

/-- A surface off the middle sees the nonlinearity. -/
example : residualAlt ![(3 / 4 : ℝ), 1 / 4] (fun ic (_ : Fin 1) => if ic = 0 then -1 else 1) (fun _ => 1)
    (fun ic _ => if ic = 0 then 0 else 1) (fun ic => if ic = 0 then 0 else 1) = 1 / 2 := by
  simp [residualAlt, dFdxAdv, dFdxCont, massFlux, grad, interp, Fin.sum_univ_two]
  norm_num

/-- Stress of a uniform expansion counted eight times (hexahedron). -/
example : stressFlux 1 (fun _ _ => 1) (Matrix.of fun i j : Fin 3 => if i = j then (1 : ℝ) else 0) 8 (fun _ => 1) 0 = 14 := by
  rw [c177_expansion]; norm_num

example : clipAt < (Matrix.of ![![(2 : ℝ), 1], ![0, 3]]).det := by
  rw [Matrix.det_fin_two]; simp; linarith [clipAt_lt]

end examples

end Nalu.Nso
