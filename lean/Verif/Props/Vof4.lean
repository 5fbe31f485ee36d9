import Verif.Proofs.Vof2
import Verif.Props.Vof3

/-!
# Kernels of the volume-fraction equation and the two-phase momentum terms (C107)
-/

set_option linter.unusedSectionVars false

namespace Nalu.Vof
open Nalu.Edge Nalu.Kernel
open Nalu.NC (VofOpts)

variable {K : Type*} [Field K] [LinearOrder K] [IsStrictOrderedRing K]
variable {nn nip nf nd : ℕ} {M : Type*}

/-! ## Conservation -/

/-- **C107** Advection of the volume fraction, central, conserves the volume of the phase. -/
theorem c107_conservative_advection (e : Scs nn nip nd K) (vdot : Fin nip → K) (q : Fin nn → K) :
    Conservative (vofScsAdv e vdot q) :=
  conservative_of _ e.il e.ir _ _ (fun s a => vofScsAdv_rhs e vdot q s a) (fun s d a => vofScsAdv_act e vdot q s d a)

/-- **C107** also with the interpolated velocity -/
theorem c107_conservative_noPstab (e : Scs nn nip nd K) (u : Fin nn → Fin nd → K) (q : Fin nn → K) :
    Conservative (vofScsNoPstab e u q) := c107_conservative_advection e _ q

/-- **C107** and upwinded, with every option -/
theorem c107_conservative_upwind (o : Opts K) (e : Scs nn nip nd K) (vdot : Fin nip → K) (x : Fin nn → Fin nd → K)
    (q : Fin nn → K) (G : Fin nn → Fin nd → K) : Conservative (vofScsUpw o e vdot x q G) :=
  conservative_of _ e.il e.ir _ _ (fun s a => vofScsUpw_rhs o e vdot x q G s a)
    (fun s d a => vofScsUpw_act o e vdot x q G s d a)

/-- **C107** as do the streamline and nonlinear stabilisation. -/
theorem c107_conservative_stabilisation (o : SucvOpts K) (b : Bdf K) (e : Scs nn nip nd K)
    (gU gL : Fin nip → Fin nd → Fin nd → K) (u : Fin nn → Fin nd → K) (q : Levels nn K) :
    Conservative (vofSucvNso o b e gU gL u q) :=
  conservative_of _ e.il e.ir _ _ (fun s a => vofSucvNso_rhs o b e gU gL u q s a)
    (fun s d a => vofSucvNso_act o b e gU gL u q s d a)

/-- **C107** The momentum flux of interface compression conserves momentum -/
theorem c107_conservative_momentum_sharpen (cA dd : K) (e : Scs nn nip nd K) (magU : Fin nn → K)
    (n : Fin nn → Fin nd → K) (q : Fin nn → K) (u : Fin nn → Fin nd → K) :
    ConservativeV (momentumVofSharpen cA dd e magU n q u) :=
  conservativeV_of _ e.il e.ir _ _ (fun s a k => momentumVofSharpen_rhs cA dd e magU n q u s a k)
    (fun s d a k => momentumVofSharpen_act cA dd e magU n q u s d a k)

/-- **C107** and so does the capillary stress. -/
theorem c107_conservative_capillary (sqrt : K → K) (dt : K) (e : Scs nn nip nd K) (sigma q : Fin nn → K)
    (n : Fin nn → Fin nd → K) (u : Fin nn → Fin nd → K) : ConservativeV (momentumCapillary sqrt dt e sigma q n u) :=
  conservativeV_of _ e.il e.ir _ _ (fun s a k => momentumCapillary_rhs sqrt dt e sigma q n u s a k)
    (fun s d a k => momentumCapillary_act sqrt dt e sigma q n u s d a k)

/-! ## Exact linearisation -/

/-- **C107** Central advection: the matrix is the derivative of the residual. -/
theorem c107_newton_advection (e : Scs nn nip nd K) (vdot : Fin nip → K) :
    ExactNewton (fun q => vofScsAdv e vdot q) := by
  refine newton_of _ (fun q a => -∑ ip, lrs a (e.il ip) (e.ir ip) (∑ ic, e.shape ip ic * vdot ip * q ic)) _
    (fun q s a => by rw [vofScsAdv_rhs, sub_eq_add_neg])
    (fun q s d a => vofScsAdv_act e vdot q s d a) (fun q d a => ?_)
  simp only [rowLin (fun ic => e.shape _ ic * vdot _), lrs_add, Finset.sum_add_distrib]; ring

/-- **C107** Without pressure stabilisation a uniform velocity `U` crosses a surface with area `A` at the rate `U·A`. -/
theorem c107_noPstab_rate (e : Scs nn nip nd K) (U : Fin nd → K) (ip : Fin nip) (hN : Unity (e.shape ip)) :
    noPstabVdot e (fun _ => U) ip = ∑ i, U i * e.area ip i := by
  simp only [noPstabVdot, ← Finset.sum_mul]
  rw [show ∑ ic, e.shape ip ic = 1 from hN]
  simp

/-- **C107** Central advection with the interpolated velocity. -/
theorem c107_newton_noPstab (e : Scs nn nip nd K) (u : Fin nn → Fin nd → K) :
    ExactNewton (fun q => vofScsNoPstab e u q) := c107_newton_advection e (noPstabVdot e u)

theorem node_newton (node : Fin nip → Fin nn) (k : (Fin nn → K) → LocalSys (Fin nn) K → LocalSys (Fin nn) K)
    (R : (Fin nn → K) → Fin nip → K) (row : Fin nip → Fin nn → K)
    (h1 : ∀ q s a, (k q s).rhs a = s.rhs a + ∑ ip, if a = node ip then R q ip else 0)
    (h2 : ∀ q s d a, act (k q s) d a = act s d a + ∑ ip, if a = node ip then ∑ ic, row ip ic * d ic else 0)
    (h3 : ∀ q d ip, R (q + d) ip = R q ip - ∑ ic, row ip ic * d ic) : ExactNewton k := by
  refine newton_of k (fun q a => ∑ ip, if a = node ip then R q ip else 0)
    (fun d a => ∑ ip, if a = node ip then ∑ ic, row ip ic * d ic else 0) h1 h2 (fun q d a => ?_)
  rw [← Finset.sum_sub_distrib]
  refine Finset.sum_congr rfl fun ip _ => ?_
  split_ifs
  · exact h3 q d ip
  · ring

/-- **C107** Time derivative. -/
theorem c107_newton_mass (b : Bdf K) (e : Scv nn nip K) (qn qnm1 : Fin nn → K) :
    ExactNewton (fun q => vofMass b e ⟨q, qn, qnm1⟩) := by
  refine node_newton e.node _ _ _ (fun q s a => vofMass_rhs b e ⟨q, qn, qnm1⟩ s a)
    (fun q s d a => vofMass_act b e ⟨q, qn, qnm1⟩ s d a) (fun q d ip => ?_)
  have h : ∑ ic, e.shape ip ic * b.g1 / b.dt * e.vol ip * d ic =
      b.g1 / b.dt * e.vol ip * interp (e.shape ip) d := by
    rw [interp, Finset.mul_sum]; exact Finset.sum_congr rfl fun _ _ => by ring
  rw [h, show interp (e.shape ip) (q + d) = interp (e.shape ip) q + interp (e.shape ip) d from rowLin _ _ _]
  ring

/-- **C107** Mesh motion (GCL). -/
theorem c107_newton_gcl (e : Scv nn nip K) (divV : Fin nn → K) : ExactNewton (fun q => vofGcl e divV q) := by
  refine node_newton e.node _ _ _ (fun q s a => vofGcl_rhs e divV q s a)
    (fun q s d a => vofGcl_act e divV q s d a) (fun q d ip => ?_)
  have h : ∑ ic, e.shape ip ic * (interp (e.shape ip) divV * e.vol ip) * d ic =
      interp (e.shape ip) divV * e.vol ip * interp (e.shape ip) d := by
    rw [show interp (e.shape ip) d = ∑ ic, e.shape ip ic * d ic from rfl, Finset.mul_sum]; exact Finset.sum_congr rfl fun _ _ => by ring
  rw [h, show interp (e.shape ip) (q + d) = interp (e.shape ip) q + interp (e.shape ip) d from rowLin _ _ _]
  ring

/-- **C107** Divergence correction. -/
theorem c107_newton_div (e : Scv nn nip K) (g : Fin nip → Fin nn → Fin nd → K) (u : Fin nn → Fin nd → K) :
    ExactNewton (fun q => vofDiv e g u q) := by
  refine node_newton e.node _ _ _ (fun q s a => vofDiv_rhs e g u q s a)
    (fun q s d a => vofDiv_act e g u q s d a) (fun q d ip => ?_)
  have h : ∑ ic, -(e.shape ip ic * divU (g ip) u * e.vol ip) * d ic =
      -(divU (g ip) u * e.vol ip * interp (e.shape ip) d) := by
    rw [show interp (e.shape ip) d = ∑ ic, e.shape ip ic * d ic from rfl, Finset.mul_sum, ← Finset.sum_neg_distrib]
    exact Finset.sum_congr rfl fun _ _ => by ring
  rw [h, show interp (e.shape ip) (q + d) = interp (e.shape ip) q + interp (e.shape ip) d from rowLin _ _ _]
  ring

/-- **C107** Non-conservative advection. -/
theorem c107_newton_scvAdv (e : Scv nn nip K) (g : Fin nip → Fin nn → Fin nd → K) (u : Fin nn → Fin nd → K) :
    ExactNewton (fun q => vofScvAdv e g u q) := by
  refine node_newton e.node _ _ _ (fun q s a => vofScvAdv_rhs e g u q s a)
    (fun q s d a => vofScvAdv_act e g u q s d a) (fun q d ip => ?_)
  have h : ∑ ic, scvAdvRow e g u ip ic * e.vol ip * d ic = (∑ ic, scvAdvRow e g u ip ic * d ic) * e.vol ip := by
    rw [Finset.sum_mul]; exact Finset.sum_congr rfl fun _ _ => by ring
  rw [h, rowLin (fun ic => scvAdvRow e g u ip ic)]
  ring

/-- **C107** Open boundary. -/
theorem c107_newton_open (f : Face nn nf nip nd K) (vdot : Fin nip → K) (qbc : Fin nn → K) :
    ExactNewton (fun q => vofOpenAdv f vdot q qbc) := by
  refine newton_of _ (fun q a => ∑ ip, if a = f.near ip then -vofOpenFlux f vdot q qbc ip else 0) _
    (fun q s a => vofOpenAdv_rhs f vdot q qbc s a) (fun q s d a => vofOpenAdv_act f vdot q qbc s d a)
    (fun q d a => ?_)
  rw [← Finset.sum_sub_distrib]
  refine Finset.sum_congr rfl fun ip _ => ?_
  by_cases h : a = f.near ip
  · simp only [h, if_true, vofOpenFlux]
    split_ifs
    · rw [rowLin (f.adv ip) (fun ic => q (f.node ic)) (fun ic => d (f.node ic)) |>.symm.symm.trans rfl |> fun h =>
        (show ∑ ic, f.adv ip ic * (q + d) (f.node ic) = ∑ ic, f.adv ip ic * q (f.node ic) +
          ∑ ic, f.adv ip ic * d (f.node ic) from h)]
      ring
    · ring
  · simp [h]

/-- **C107** Momentum of interface compression: linear in the velocity, exactly linearised. -/
theorem c107_newton_momentum_sharpen (cA dd : K) (e : Scs nn nip nd K) (magU : Fin nn → K)
    (n : Fin nn → Fin nd → K) (q : Fin nn → K) :
    ExactNewton (fun (u : Fin nn × Fin nd → K) => momentumVofSharpen cA dd e magU n q (fun a i => u (a, i))) := by
  refine newton_of _ (fun u a => -∑ ip, lrs a.1 (e.il ip) (e.ir ip)
      (coordIp (e.shape ip) (fun b i => u (b, i)) a.2 * sharpRate cA dd e magU n q ip)) _
    (fun u s a => by obtain ⟨r, k⟩ := a; rw [momentumVofSharpen_rhs, sub_eq_add_neg])
    (fun u s d a => momentumVofSharpen_act cA dd e magU n q (fun b i => u (b, i)) s d a.1 a.2) (fun u d a => ?_)
  rw [← neg_add', ← Finset.sum_add_distrib]
  congr 1
  refine Finset.sum_congr rfl fun ip _ => ?_
  rw [← lrs_add]
  congr 1
  have h : ∑ ic, e.shape ip ic * sharpRate cA dd e magU n q ip * d (ic, a.2) =
      coordIp (e.shape ip) (fun b i => d (b, i)) a.2 * sharpRate cA dd e magU n q ip := by
    rw [coordIp, Finset.sum_mul]; exact Finset.sum_congr rfl fun _ _ => by ring
  have h2 : coordIp (e.shape ip) (fun b i => (u + d) (b, i)) a.2 =
      coordIp (e.shape ip) (fun b i => u (b, i)) a.2 + coordIp (e.shape ip) (fun b i => d (b, i)) a.2 :=
    rowLin (e.shape ip) (fun ic => u (ic, a.2)) (fun ic => d (ic, a.2))
  rw [h, h2]; ring

theorem capRow_lin (mu : K) (g a nx u d : Fin nd → K) (k : Fin nd) :
    capRow mu g a nx (fun j => u j + d j) k = capRow mu g a nx u k + capRow mu g a nx d k := by
  simp only [capRow, mul_add, Finset.sum_add_distrib]; ring

/-- **C107** Capillary stress: linear in the velocity, exactly linearised. -/
theorem c107_newton_capillary (sqrt : K → K) (dt : K) (e : Scs nn nip nd K) (sigma q : Fin nn → K)
    (n : Fin nn → Fin nd → K) :
    ExactNewton (fun (u : Fin nn × Fin nd → K) => momentumCapillary sqrt dt e sigma q n (fun a i => u (a, i))) := by
  refine newton_of _ (fun u a => -∑ ip, lrs a.1 (e.il ip) (e.ir ip)
      (∑ ic, capRow (capMu sqrt dt e sigma q ip) (e.dndx ip ic) (e.area ip) (capN e n ip) (fun j => u (ic, j)) a.2)) _
    (fun u s a => by obtain ⟨r, k⟩ := a; rw [momentumCapillary_rhs, sub_eq_add_neg])
    (fun u s d a => momentumCapillary_act sqrt dt e sigma q n (fun b i => u (b, i)) s d a.1 a.2) (fun u d a => ?_)
  rw [← neg_add', ← Finset.sum_add_distrib]
  congr 1
  refine Finset.sum_congr rfl fun ip _ => ?_
  rw [← lrs_add, ← Finset.sum_add_distrib]
  congr 1
  exact Finset.sum_congr rfl fun ic _ => capRow_lin _ _ _ _ (fun j => u (ic, j)) (fun j => d (ic, j)) _

/-! ## Upwinding -/

theorem upw_lin (o : Opts K) (hl : o.useLimiter = false) (e : Scs nn nip nd K) (vdot : Fin nip → K)
    (x : Fin nn → Fin nd → K) (q d : Fin nn → K) (G : Fin nn → Fin nd → K) (ip : Fin nip) :
    vofUpwFlux o e vdot x (q + d) G ip = vofUpwFlux o e vdot x q G ip +
      vdot ip * (if vdot ip > 0 then d (e.il ip) else d (e.ir ip)) := by
  simp only [vofUpwFlux, Pi.add_apply, extrap_lin o hl]
  split_ifs <;> ring

/-- **C107** Upwind advection: what the matrix lacks to be the derivative of the residual, exactly.  Where the flow goes from
the left to the right node nothing; where it goes from right to left the coefficient of the right node was added to
the column of the left node. -/
theorem c107_upwind_defect (o : Opts K) (hl : o.useLimiter = false) (e : Scs nn nip nd K) (vdot : Fin nip → K)
    (x : Fin nn → Fin nd → K) (G : Fin nn → Fin nd → K) (q d : Fin nn → K) (s s' : LocalSys (Fin nn) K) (a : Fin nn) :
    (vofScsUpw o e vdot x (q + d) G s').rhs a - s'.rhs a =
      ((vofScsUpw o e vdot x q G s).rhs a - s.rhs a) -
        ∑ b, ((vofScsUpw o e vdot x q G s).lhs a b - s.lhs a b) * d b -
        ∑ ip, lrs a (e.il ip) (e.ir ip) (if vdot ip > 0 then 0 else vdot ip * (d (e.il ip) + d (e.ir ip))) := by
  rw [act_sub, vofScsUpw_act, vofScsUpw_rhs, vofScsUpw_rhs]
  have h : ∀ ip, lrs a (e.il ip) (e.ir ip) (vofUpwFlux o e vdot x (q + d) G ip) =
      lrs a (e.il ip) (e.ir ip) (vofUpwFlux o e vdot x q G ip) +
        lrs a (e.il ip) (e.ir ip) (|vdot ip| * d (e.il ip)) +
        lrs a (e.il ip) (e.ir ip) (if vdot ip > 0 then 0 else vdot ip * (d (e.il ip) + d (e.ir ip))) := by
    intro ip
    rw [upw_lin o hl, ← lrs_add, ← lrs_add]
    congr 1
    by_cases hv : vdot ip > 0
    · rw [abs_of_pos hv]; simp only [hv, if_true]; ring
    · rw [abs_of_nonpos (not_lt.mp hv)]; simp only [hv, if_false]; ring
  simp only [h, Finset.sum_add_distrib]
  ring

/-- **C107** So the linearisation is exact if no surface has flow from its right to its left node (limiter off, gradients
fixed).  Missing: the other direction, where the code is not exact (`c107_upwind_defect`). -/
theorem c107_newton_upwind_forward (o : Opts K) (hl : o.useLimiter = false) (e : Scs nn nip nd K) (vdot : Fin nip → K)
    (hv : ∀ ip, 0 ≤ vdot ip) (x : Fin nn → Fin nd → K) (G : Fin nn → Fin nd → K) :
    ExactNewton (fun q => vofScsUpw o e vdot x q G) := by
  intro q d s s' a
  rw [c107_upwind_defect o hl e vdot x G q d s s' a]
  have : ∀ ip, (if vdot ip > 0 then 0 else vdot ip * (d (e.il ip) + d (e.ir ip))) = 0 := by
    intro ip
    rcases (hv ip).lt_or_eq with h | h
    · simp [h]
    · simp [← h]
  simp [this, lrs]

/-- **C107** Where all the flow is from right to left, a node that is only a right node receives no matrix coefficient on its
column at all, although its value is what is convected. -/
theorem c107_upwind_lost_column (o : Opts K) (e : Scs nn nip nd K) (vdot : Fin nip → K) (x : Fin nn → Fin nd → K)
    (q : Fin nn → K) (G : Fin nn → Fin nd → K) (s : LocalSys (Fin nn) K) (b : Fin nn) (hb : ∀ ip, b ≠ e.il ip)
    (a : Fin nn) : (vofScsUpw o e vdot x q G s).lhs a b = s.lhs a b := by
  rw [vofScsUpw_lhs]
  simp [hb, lrs]

/-! ## Uniform volume fraction -/

/-- **C107** A uniform volume fraction `c` is advected by the net volume outflow only. -/
theorem c107_uniform_advection (e : Scs nn nip nd K) (hN : ∀ ip, Unity (e.shape ip)) (vdot : Fin nip → K) (c : K)
    (s : LocalSys (Fin nn) K) (a : Fin nn) :
    (vofScsAdv e vdot (fun _ => c) s).rhs a = s.rhs a - c * netOut e.il e.ir vdot a := by
  rw [vofScsAdv_rhs, ← sum_lrs_net, Finset.mul_sum]
  congr 1
  refine Finset.sum_congr rfl fun ip _ => ?_
  rw [mul_comm c, ← lrs_smul]
  congr 1
  rw [← Finset.sum_mul, ← Finset.sum_mul, show ∑ ic, e.shape ip ic = 1 from hN ip]; ring

/-- **C107** Upwinded too (its nodal gradient is zero), limiter on or off. -/
theorem c107_uniform_upwind (o : Opts K) (e : Scs nn nip nd K) (vdot : Fin nip → K) (x : Fin nn → Fin nd → K) (c : K)
    (s : LocalSys (Fin nn) K) (a : Fin nn) :
    (vofScsUpw o e vdot x (fun _ => c) (fun _ _ => 0) s).rhs a = s.rhs a - c * netOut e.il e.ir vdot a := by
  rw [vofScsUpw_rhs, ← sum_lrs_net, Finset.mul_sum]
  congr 1
  refine Finset.sum_congr rfl fun ip _ => ?_
  rw [mul_comm c, ← lrs_smul]
  congr 1
  simp [vofUpwFlux, extrapolate]

/-- **C107** A uniform steady volume fraction excites no stabilisation. -/
theorem c107_uniform_stabilisation (o : SucvOpts K) (b : Bdf K) (hb : b.g1 + b.g2 + b.g3 = 0) (e : Scs nn nip nd K)
    (hg : ∀ ip, GradConst (e.dndx ip)) (gU gL : Fin nip → Fin nd → Fin nd → K)
    (u : Fin nn → Fin nd → K) (c : K) (s : LocalSys (Fin nn) K) (a : Fin nn) :
    (vofSucvNso o b e gU gL u ⟨fun _ => c, fun _ => c, fun _ => c⟩ s).rhs a = s.rhs a := by
  have h1 : ∀ ip, sucvAdv o e u ip (fun _ => c) = 0 := by
    intro ip
    rw [sucvAdv, Finset.sum_comm]
    refine Finset.sum_eq_zero fun i _ => ?_
    rw [← Finset.sum_mul, ← Finset.mul_sum, hg ip i]; ring
  have h2 : ∀ ip, sucvPde o b e u ⟨fun _ => c, fun _ => c, fun _ => c⟩ ip = 0 := by
    intro ip
    simp only [sucvPde, h1]
    rw [← add_mul, ← add_mul, hb]; simp
  have h3 : ∀ ip, nsoFlux o e gU ip (fun _ => c) = 0 := by
    intro ip
    simp only [nsoFlux, ← Finset.sum_mul]
    rw [Finset.sum_comm, Finset.sum_eq_zero, zero_mul]
    intro i _
    rw [← Finset.sum_mul, Finset.sum_comm, Finset.sum_eq_zero, zero_mul]
    intro j _
    rw [← Finset.mul_sum, hg ip j, mul_zero]
  rw [vofSucvNso_rhs]
  simp [h2, h3, lrs]

/-- **C107** The matrix of the stabilisation applied to the field itself gives its fluxes, without the time derivative in the
residual: the streamline term is linearised without its time derivative and the nonlinear viscosity is held fixed. -/
theorem c107_stabilisation_row (o : SucvOpts K) (b : Bdf K) (e : Scs nn nip nd K)
    (gU gL : Fin nip → Fin nd → Fin nd → K) (u : Fin nn → Fin nd → K) (q : Levels nn K) (s : LocalSys (Fin nn) K)
    (a : Fin nn) :
    ∑ c, ((vofSucvNso o b e gU gL u q s).lhs a c - s.lhs a c) * q.np1 c +
      ((vofSucvNso o b e gU gL u q s).rhs a - s.rhs a) =
      ∑ ip, lrs a (e.il ip) (e.ir ip) (sucvTau o b e gL u ip * sucvFlow o e u ip * o.sucv *
        ((b.g1 * interp (e.shape ip) q.np1 + b.g2 * interp (e.shape ip) q.n + b.g3 * interp (e.shape ip) q.nm1) /
          b.dt)) := by
  rw [act_sub, vofSucvNso_act, vofSucvNso_rhs]
  have h : ∀ ip, ∑ ic, sucvRow o b e gU gL u q ip ic * q.np1 ic =
      -(sucvTau o b e gL u ip) * sucvFlow o e u ip * sucvAdv o e u ip q.np1 * o.sucv -
        nsoNu o b e gU gL u q ip * nsoFlux o e gU ip q.np1 * o.nso := by
    intro ip
    have h1 : ∑ ic, (∑ i, -(sucvU o e u ip i * e.dndx ip ic i)) * q.np1 ic = -sucvAdv o e u ip q.np1 := by
      rw [sucvAdv, ← Finset.sum_neg_distrib]
      refine Finset.sum_congr rfl fun ic _ => ?_
      rw [Finset.sum_neg_distrib, neg_mul, Finset.sum_mul]
    have h2 : ∀ ic, sucvRow o b e gU gL u q ip ic * q.np1 ic =
        sucvTau o b e gL u ip * sucvFlow o e u ip * o.sucv *
          ((∑ i, -(sucvU o e u ip i * e.dndx ip ic i)) * q.np1 ic) -
        nsoNu o b e gU gL u q ip * o.nso *
          ((∑ i, ∑ j, gU ip i j / o.gijC * e.dndx ip ic j * e.area ip i) * q.np1 ic) := by
      intro ic; rw [sucvRow]; ring
    simp only [h2, Finset.sum_sub_distrib, ← Finset.mul_sum, h1]
    rw [nsoFlux]; ring
  simp only [h]
  rw [add_sub_cancel_left, sub_sub_cancel_left, ← sub_eq_add_neg, ← Finset.sum_sub_distrib]
  refine Finset.sum_congr rfl fun ip _ => ?_
  rw [← lrs_sub, sucvPde]
  congr 1
  ring

/-- Kernels of one element for the volume fraction: time derivative and advection at the stored volume flow rates. -/
def vofTransportWork (b : Bdf K) (vo : VofOpts nd K) (F : VofFields M nd K) (p qN qNm1 : M → K)
    (e : ElemRec M nd K) : Work M K :=
  ⟨Fin e.nn, e.node, fun q s => vofMass b e.scv ⟨q, fun a => qN (e.node a), fun a => qNm1 (e.node a)⟩
    (vofScsAdv e.scs (elemVdot b vo F p e) q s)⟩

/-- Kernel of one open face. -/
def vofOpenTransportWork (b : Bdf K) (pen : K) (vo : VofOpts nd K) (F : VofFields M nd K) (p qbc : M → K)
    (f : FaceRec M nd K) : Work M K :=
  ⟨Fin f.nn, f.node, fun q s => vofOpenAdv f.face (openVdotAt b pen vo F p f) q (fun a => qbc (f.node a)) s⟩

/-- **C107** A uniform volume fraction stays uniform: after the continuity row of node `i` has been solved, and `i` lies on
no inflow face, the assembled volume-fraction equation at `i` has residual exactly zero. -/
theorem c107_free_stream [DecidableEq M] [Fintype M] (b : Bdf K) (hb : b.pts ≠ 0) (hg : b.g1 + b.g2 + b.g3 = 0)
    (pen : K) (vo : VofOpts nd K) (F : VofFields M nd K) (elems : List (ElemRec M nd K))
    (opens inflows : List (FaceRec M nd K)) (p dp : M → K) (c : K) (i : M)
    (hN : ∀ e ∈ elems, ∀ ip, Unity (e.scs.shape ip)) (hO : ∀ f ∈ opens, ∀ ip, Unity (f.face.adv ip))
    (hi : ∀ f ∈ inflows, ∀ a, f.node (f.face.node a) ≠ i)
    (hsolve : ∑ j, (vofContinuity b pen vo F elems opens inflows p).mat i j * dp j =
      (vofContinuity b pen vo F elems opens inflows p).rhs i) :
    (assembleWorks (elems.map (vofTransportWork b vo F (p + dp) (fun _ => c) (fun _ => c)) ++
      opens.map (vofOpenTransportWork b pen vo F (p + dp) (fun _ => c))) (fun _ => c)).rhs i = 0 := by
  have hbal := c104_divergence_free b hb pen vo F elems opens inflows p dp i hsolve
  rw [assembleWorks_rhs, List.map_append, List.map_map, List.map_map, List.sum_append]
  have h1 : elems.map ((fun w : Work M K => ∑ a, if i = w.dof a then
      (w.kern (fun _ => c) ⟨fun _ _ => 0, fun _ => 0⟩).rhs a else 0) ∘
        vofTransportWork b vo F (p + dp) (fun _ => c) (fun _ => c)) =
      elems.map (fun e => -(c * (∑ ip, ((if i = e.node (e.scs.il ip) then elemVdot b vo F (p + dp) e ip else 0) -
        if i = e.node (e.scs.ir ip) then elemVdot b vo F (p + dp) e ip else 0)))) := by
    refine List.map_congr_left fun e he => ?_
    rw [← sum_net_push i e.node, Finset.mul_sum, ← Finset.sum_neg_distrib]
    change (∑ a : Fin e.nn, if i = e.node a then (vofMass b e.scv ⟨fun _ => c, fun _ => c, fun _ => c⟩
      (vofScsAdv e.scs (elemVdot b vo F (p + dp) e) (fun _ => c) ⟨fun _ _ => 0, fun _ => 0⟩)).rhs a else 0) = _
    refine Finset.sum_congr rfl fun a _ => ?_
    by_cases hia : i = e.node a
    · simp only [if_pos hia]
      rw [vofMass_rhs, c107_uniform_advection e.scs (hN e he), zero_sub]
      have : ∀ ip, b.g1 * interp (e.scv.shape ip) (fun _ => c) + b.g2 * interp (e.scv.shape ip) (fun _ => c) +
          b.g3 * interp (e.scv.shape ip) (fun _ => c) = 0 := fun ip => by
        rw [← add_mul, ← add_mul, hg, zero_mul]
      simp [this]
    · simp only [if_neg hia]; simp
  have h2 : opens.map ((fun w : Work M K => ∑ a, if i = w.dof a then
      (w.kern (fun _ => c) ⟨fun _ _ => 0, fun _ => 0⟩).rhs a else 0) ∘
        vofOpenTransportWork b pen vo F (p + dp) (fun _ => c)) =
      opens.map (fun f => -(c * (∑ ip, if i = f.node (f.face.near ip) then openVdotAt b pen vo F (p + dp) f ip
        else 0))) := by
    refine List.map_congr_left fun f hf => ?_
    rw [← sum_ite_push i f.node f.face.near, Finset.mul_sum, ← Finset.sum_neg_distrib]
    change (∑ a : Fin f.nn, if i = f.node a then (vofOpenAdv f.face (openVdotAt b pen vo F (p + dp) f)
      (fun _ => c) (fun _ => c) ⟨fun _ _ => 0, fun _ => 0⟩).rhs a else 0) = _
    refine Finset.sum_congr rfl fun a _ => ?_
    by_cases hia : i = f.node a
    · simp only [if_pos hia]
      rw [vofOpenAdv_rhs, zero_add, Finset.mul_sum, ← Finset.sum_neg_distrib]
      refine Finset.sum_congr rfl fun ip _ => ?_
      have : ∑ ic, f.face.adv ip ic * c = c := by
        rw [← Finset.sum_mul, show ∑ ic, f.face.adv ip ic = 1 from hO f hf ip, one_mul]
      simp only [vofOpenFlux, this, ite_self]
      split_ifs <;> ring
    · simp only [if_neg hia]; simp
  have h3 : (inflows.map fun f => ∑ ip, if i = f.node (f.face.node (f.face.loc ip)) then
      inflowVdotAt F f ip else 0).sum = 0 := by
    rw [List.sum_eq_zero]
    intro y hy
    obtain ⟨f, hf, rfl⟩ := List.mem_map.mp hy
    exact Finset.sum_eq_zero fun ip _ => if_neg fun h => hi f hf _ h.symm
  rw [volumeBalance, h3, add_zero] at hbal
  rw [h1, h2, sum_map_neg_mul, sum_map_neg_mul]
  linear_combination -c * hbal

/-! ## Other properties -/

/-- **C107** The mass flow rate used by the momentum equation is consistent with the phase fluxes: if the nodal density is
`ρ2 + (ρ1 - ρ2) α`, it is `ρ2` times the volume flow rate plus `ρ1 - ρ2` times the advected volume of the phase. -/
theorem c107_mass_consistent (pts : K) (vo : VofOpts nd K) (e : Scs nn nip nd K) (hN : ∀ ip, Unity (e.shape ip))
    (v : VofNodes nn nd K) (r1 r2 : K) (hr : ∀ a, v.rho a = r2 + (r1 - r2) * v.vof a) (ip : Fin nip) :
    storedMdot pts vo e v ip = r2 * storedVdot pts vo e v ip +
      (r1 - r2) * ∑ ic, e.shape ip ic * storedVdot pts vo e v ip * v.vof ic := by
  have h : interp (e.shape ip) v.rho = r2 + (r1 - r2) * ∑ ic, e.shape ip ic * v.vof ic := by
    rw [interp]
    have : ∀ ic, e.shape ip ic * v.rho ic = e.shape ip ic * r2 + (r1 - r2) * (e.shape ip ic * v.vof ic) := by
      intro ic; rw [hr]; ring
    simp only [this, Finset.sum_add_distrib, ← Finset.sum_mul, ← Finset.mul_sum]
    rw [show ∑ ic, e.shape ip ic = 1 from hN ip]; ring
  have h2 : ∑ ic, e.shape ip ic * storedVdot pts vo e v ip * v.vof ic =
      storedVdot pts vo e v ip * ∑ ic, e.shape ip ic * v.vof ic := by
    rw [Finset.mul_sum]; exact Finset.sum_congr rfl fun _ _ => by ring
  rw [h2]
  change interp (e.shape ip) v.rho * storedVdot pts vo e v ip = _
  rw [h]; ring

/-- **C107** Non-conservative advection of a volume fraction affine in position is exact: minus the interpolated velocity
dotted with its gradient, times the sub-control volume. -/
theorem c107_scvAdv_affine (e : Scv nn nip K) (g : Fin nip → Fin nn → Fin nd → K) (x : Fin nn → Fin nd → K)
    (h0 : ∀ ip, GradConst (g ip)) (h1 : ∀ ip, GradLinear (g ip) x) (u : Fin nn → Fin nd → K) (c : K) (w : Fin nd → K)
    (s : LocalSys (Fin nn) K) (a : Fin nn) :
    (vofScvAdv e g u (fun n => affine c w (x n)) s).rhs a = s.rhs a - ∑ ip, if a = e.node ip then
      (∑ j, (∑ ic, e.shape ip ic * u ic j) * w j) * e.vol ip else 0 := by
  rw [vofScvAdv_rhs, sub_eq_add_neg, ← Finset.sum_neg_distrib]
  congr 1
  refine Finset.sum_congr rfl fun ip _ => ?_
  have : ∑ ic, scvAdvRow e g u ip ic * affine c w (x ic) = ∑ j, (∑ ic, e.shape ip ic * u ic j) * w j := by
    simp only [scvAdvRow, Finset.sum_mul]
    rw [Finset.sum_comm]
    refine Finset.sum_congr rfl fun j _ => ?_
    have := grad_affine (g ip) x (h0 ip) (h1 ip) c w j
    rw [← Finset.sum_mul, ← this, Finset.mul_sum]
    exact Finset.sum_congr rfl fun _ _ => by rw [coordIp]; ring
  rw [this]
  split_ifs <;> ring

/-- **C107** Where fluid enters through an open boundary only the specified volume fraction enters; where it leaves, only the
interpolated one leaves. -/
theorem c107_open_flux (f : Face nn nf nip nd K) (vdot : Fin nip → K) (q qbc : Fin nn → K)
    (s : LocalSys (Fin nn) K) (a : Fin nn) :
    (vofOpenAdv f vdot q qbc s).rhs a = s.rhs a - ∑ ip, if a = f.near ip then
      vdot ip * (if 0 < vdot ip then ∑ ic, f.adv ip ic * q (f.node ic) else ∑ ic, f.adv ip ic * qbc (f.node ic))
      else 0 := by
  rw [vofOpenAdv_rhs, sub_eq_add_neg, ← Finset.sum_neg_distrib]
  congr 1
  refine Finset.sum_congr rfl fun ip _ => ?_
  simp only [vofOpenFlux, gt_iff_lt]
  split_ifs <;> simp

/-- **C107** Interface compression does nothing in an element filled with a single phase (all nodal values 0 or 1). -/
theorem c107_sharpen_pure (cA dd : K) (e : Scv nn nip K) (es : Scs nn nip nd K) (g : Fin nip → Fin nn → Fin nd → K)
    (magU : Fin nn → K) (n : Fin nn → Fin nd → K) (q : Fin nn → K) (hq : ∀ a, q a = 0 ∨ q a = 1)
    (u : Fin nn → Fin nd → K) (s : LocalSys (Fin nn) K) (sv : LocalSys (Fin nn × Fin nd) K) (a : Fin nn) (k : Fin nd) :
    (vofSharpen cA e g magU n q s).rhs a = s.rhs a ∧
      (momentumVofSharpen cA dd es magU n q u sv).rhs (a, k) = sv.rhs (a, k) := by
  have h : ∀ a, q a * (1 - q a) = 0 := fun a => by rcases hq a with h | h <;> simp [h]
  constructor
  · rw [vofSharpen_rhs]; simp [h]
  · rw [momentumVofSharpen_rhs]
    have : ∀ ip, sharpRate cA dd es magU n q ip = 0 := by
      intro ip
      rw [sharpRate, Finset.sum_eq_zero, zero_mul]
      intro ic _
      refine Finset.sum_eq_zero fun j _ => ?_
      rw [mul_assoc (es.shape ip ic * _) (q ic), h]; ring
    simp [this, lrs]

/-- **C107** The linearisation of interface compression drops the derivative of `1 - α`: the defect is exactly
`div(u_c (2 α d + d²))`. -/
theorem c107_sharpen_defect (cA : K) (e : Scv nn nip K) (g : Fin nip → Fin nn → Fin nd → K) (magU : Fin nn → K)
    (n : Fin nn → Fin nd → K) (q d : Fin nn → K) (s s' : LocalSys (Fin nn) K) (a : Fin nn) :
    (vofSharpen cA e g magU n (q + d) s').rhs a - s'.rhs a =
      ((vofSharpen cA e g magU n q s).rhs a - s.rhs a) -
        ∑ b, ((vofSharpen cA e g magU n q s).lhs a b - s.lhs a b) * d b +
        ∑ ip, if a = e.node ip then (∑ ic, (∑ j, compression cA magU n ic j * g ip ic j) *
          (2 * q ic * d ic + d ic * d ic)) * e.vol ip else 0 := by
  rw [act_sub, vofSharpen_act, vofSharpen_rhs, vofSharpen_rhs, add_sub_cancel_left, add_sub_cancel_left,
    add_sub_cancel_left, ← Finset.sum_sub_distrib, ← Finset.sum_add_distrib]
  refine Finset.sum_congr rfl fun ip _ => ?_
  by_cases h : a = e.node ip
  · simp only [h, if_true, Pi.add_apply]
    have hC : ∃ C : Fin nn → K, ∀ ic, ∑ j, compression cA magU n ic j * g ip ic j = C ic := ⟨_, fun _ => rfl⟩
    obtain ⟨C, hC⟩ := hC
    simp only [hC, Finset.sum_mul]
    rw [← Finset.sum_neg_distrib, ← Finset.sum_neg_distrib, ← Finset.sum_sub_distrib, ← Finset.sum_add_distrib]
    refine Finset.sum_congr rfl fun ic _ => ?_
    ring
  · simp [h]

/-- **C107** The capillary stress on a surface acts in the tangent plane of the interface if the interpolated normal has unit
length: its component along the normal is `1 - |n|²` times an isotropic stress. -/
theorem c107_capillary_tangential (mu : K) (g : Fin nn → Fin nd → K) (a nx : Fin nd → K) (u : Fin nn → Fin nd → K) :
    ∑ k, nx k * ∑ ic, capRow mu (g ic) a nx (u ic) k =
      (1 - ∑ k, nx k * nx k) * ∑ ic, -mu * (∑ j, g ic j * a j) * ∑ l, nx l * u ic l := by
  simp only [Finset.mul_sum (s := (Finset.univ : Finset (Fin nn)))]
  rw [Finset.sum_comm]
  refine Finset.sum_congr rfl fun ic _ => ?_
  have : ∀ k, nx k * capRow mu (g ic) a nx (u ic) k =
      -mu * (∑ j, g ic j * a j) * (nx k * u ic k) - -mu * (∑ j, g ic j * a j) * (∑ l, nx l * u ic l) * (nx k * nx k) := by
    intro k; rw [capRow]; ring
  simp only [this, Finset.sum_sub_distrib, ← Finset.mul_sum]
  ring

/-- **C107** A rigid translation excites no capillary stress. -/
theorem c107_capillary_translation (sqrt : K → K) (dt : K) (e : Scs nn nip nd K) (hg : ∀ ip, GradConst (e.dndx ip))
    (sigma q : Fin nn → K) (n : Fin nn → Fin nd → K) (c : Fin nd → K) (s : LocalSys (Fin nn × Fin nd) K)
    (a : Fin nn × Fin nd) : (momentumCapillary sqrt dt e sigma q n (fun _ => c) s).rhs a = s.rhs a := by
  obtain ⟨r, k⟩ := a
  rw [momentumCapillary_rhs]
  have : ∀ ip, ∑ ic, capRow (capMu sqrt dt e sigma q ip) (e.dndx ip ic) (e.area ip) (capN e n ip) c k = 0 := by
    intro ip
    simp only [capRow, ← Finset.sum_mul, ← Finset.mul_sum]
    rw [Finset.sum_comm, Finset.sum_eq_zero]
    · ring
    · intro j _
      rw [← Finset.sum_mul, hg ip j, zero_mul]
  simp [this, lrs]

end Nalu.Vof
