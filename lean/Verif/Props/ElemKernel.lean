import Verif.Proofs.ElemKernel
import Verif.Spec.ElemKernel
import Mathlib.Tactic.NormNum
import Mathlib.Tactic.LinearCombination
import Mathlib.Data.Rat.Defs
import Mathlib.Algebra.Order.Field.Rat

/-!
# Properties of the element kernels (C83-C88)
-/

set_option linter.unusedSectionVars false

namespace Nalu.Kernel
open Nalu.Edge

variable {K : Type*} [Field K] [LinearOrder K] [IsStrictOrderedRing K]
variable {nn nip nf nd : ℕ}

/-! ## Helpers -/

theorem lrs_eq {ι : Type*} [DecidableEq ι] (a il ir : ι) (v : K) :
    lrs a il ir v = (if a = il then v else 0) - if a = ir then v else 0 := by
  simp only [lrs]; split_ifs <;> ring

theorem sum_lrs_net (il ir : Fin nip → Fin nn) (f : Fin nip → K) (a : Fin nn) :
    ∑ ip, lrs a (il ip) (ir ip) (f ip) = netOut il ir f a := by
  simp only [netOut, lrs_eq]

theorem sum_sum_lrs (il ir : Fin nip → Fin nn) (f : Fin nip → K) :
    ∑ a, ∑ ip, lrs a (il ip) (ir ip) (f ip) = 0 := by
  rw [Finset.sum_comm]; exact Finset.sum_eq_zero fun ip _ => sum_lrs _ _ _

theorem act_single {ι : Type*} [Fintype ι] [DecidableEq ι] (s : LocalSys ι K) (a b : ι) :
    act s (Pi.single b 1) a = s.lhs a b := by
  simp [act, Pi.single_apply]

theorem act_sub {ι : Type*} [Fintype ι] (s t : LocalSys ι K) (d : ι → K) (a : ι) :
    ∑ b, (t.lhs a b - s.lhs a b) * d b = act t d a - act s d a := by
  simp [act, sub_mul, Finset.sum_sub_distrib]

/-- Reduction of `ExactNewton` to closed forms. -/
theorem newton_of {ι : Type*} [Fintype ι] (k : (ι → K) → LocalSys ι K → LocalSys ι K)
    (R : (ι → K) → ι → K) (A : (ι → K) → ι → K)
    (h1 : ∀ q s a, (k q s).rhs a = s.rhs a + R q a)
    (h2 : ∀ q s d a, act (k q s) d a = act s d a + A d a)
    (h3 : ∀ q d a, R (q + d) a = R q a - A d a) : ExactNewton k := by
  intro q d s s' a
  rw [act_sub, h1, h1, h2, h3]; ring

/-- Reduction of `Conservative` to closed forms. -/
theorem conservative_of (k : LocalSys (Fin nn) K → LocalSys (Fin nn) K) (il ir : Fin nip → Fin nn)
    (F : Fin nip → K) (R : (Fin nn → K) → Fin nip → K)
    (h1 : ∀ s a, (k s).rhs a = s.rhs a - ∑ ip, lrs a (il ip) (ir ip) (F ip))
    (h2 : ∀ s d a, act (k s) d a = act s d a + ∑ ip, lrs a (il ip) (ir ip) (R d ip)) :
    Conservative k := by
  intro s
  refine ⟨by simp only [h1, Finset.sum_sub_distrib, sum_sum_lrs, sub_zero], fun b => ?_⟩
  have : ∀ a, (k s).lhs a b = s.lhs a b + ∑ ip, lrs a (il ip) (ir ip) (R (Pi.single b 1) ip) := by
    intro a; rw [← act_single, h2, act_single]
  simp only [this, Finset.sum_add_distrib, sum_sum_lrs, add_zero]

theorem conservativeV_of (k : LocalSys (Fin nn × Fin nd) K → LocalSys (Fin nn × Fin nd) K)
    (il ir : Fin nip → Fin nn) (F : Fin nip → Fin nd → K)
    (R : (Fin nn × Fin nd → K) → Fin nip → Fin nd → K)
    (h1 : ∀ s n i, (k s).rhs (n, i) = s.rhs (n, i) - ∑ ip, lrs n (il ip) (ir ip) (F ip i))
    (h2 : ∀ s d n i, act (k s) d (n, i) = act s d (n, i) + ∑ ip, lrs n (il ip) (ir ip) (R d ip i)) :
    ConservativeV k := by
  intro s i
  refine ⟨by simp only [h1, Finset.sum_sub_distrib, sum_sum_lrs il ir (fun ip => F ip i), sub_zero],
    fun b => ?_⟩
  have : ∀ n, (k s).lhs (n, i) b =
      s.lhs (n, i) b + ∑ ip, lrs n (il ip) (ir ip) (R (Pi.single b 1) ip i) := by
    intro n; rw [← act_single, h2, act_single]
  simp only [this, Finset.sum_add_distrib, sum_sum_lrs il ir (fun ip => R (Pi.single b 1) ip i), add_zero]

/-! ## C83 conservation -/

/-- **C83** Central advection-diffusion of a scalar. -/
theorem c83_scalarAdvDiff (e : Scs nn nip nd K) (mdot : Fin nip → K) (mu q : Fin nn → K) :
    Conservative (scalarAdvDiff e mdot mu q) :=
  conservative_of _ e.il e.ir _ _ (fun s a => scalarAdvDiff_rhs e mdot mu q s a)
    (fun s d a => scalarAdvDiff_act e mdot mu q s d a)

/-- **C83** Diffusion of a scalar (heat conduction). -/
theorem c83_scalarDiff (e : Scs nn nip nd K) (mu q : Fin nn → K) :
    Conservative (scalarDiff e mu q) := by
  have := c83_scalarAdvDiff e (fun _ => 0) mu q
  rwa [show scalarAdvDiff e (fun _ => 0) mu q = scalarDiff e mu q from
    funext fun s => (scalarDiff_eq e mu q s).symm] at this

/-- **C83** Upwind advection-diffusion of a scalar, with every option. -/
theorem c83_scalarUpw (o : Opts K) (e : Scs nn nip nd K) (mdot : Fin nip → K) (v : UpwNodes nn nd K)
    (q : Fin nn → K) (G : Fin nn → Fin nd → K) : Conservative (scalarUpw o e mdot v q G) :=
  conservative_of _ e.il e.ir _ _ (fun s a => scalarUpw_rhs o e mdot v q G s a)
    (fun s d a => scalarUpw_act o e mdot v q G s d a)

/-- **C83** Momentum, each component. -/
theorem c83_momentumAdvDiff (inc : K) (e : Scs nn nip nd K) (mdot : Fin nip → K) (mu : Fin nn → K)
    (u : Fin nn → Fin nd → K) : ConservativeV (momentumAdvDiff inc e mdot mu u) :=
  conservativeV_of _ e.il e.ir _ _ (fun s n i => momentumAdvDiff_rhs inc e mdot mu u s n i)
    (fun s d n i => momentumAdvDiff_act inc e mdot mu u s d n i)

/-- **C83** Upwind momentum, each component. -/
theorem c83_momentumUpw (o : Opts K) (inc : K) (e : Scs nn nip nd K) (mdot : Fin nip → K)
    (v : UpwNodes nn nd K) (u : Fin nn → Fin nd → K) (G : Fin nn → Fin nd → Fin nd → K) :
    ConservativeV (momentumUpw o inc e mdot v u G) :=
  conservativeV_of _ e.il e.ir _ _ (fun s n i => momentumUpw_rhs o inc e mdot v u G s n i)
    (fun s d n i => momentumUpw_act o inc e mdot v u G s d n i)

/-- **C83** Continuity. -/
theorem c83_continuityAdv (pts : K) (e : Scs nn nip nd K) (dl : Fin nip → Fin nn → Fin nd → K)
    (v : FlowNodes nn nd K) : Conservative (continuityAdv pts e dl v) :=
  conservative_of _ e.il e.ir _ _ (fun s a => continuityAdv_rhs pts e dl v s a)
    (fun s d a => continuityAdv_act pts e dl v s d a)

/-- **C83** On a whole mesh: if every kernel of every element is conservative, the assembled right-hand side
sums to zero over the mesh and so does every column of the assembled matrix: nothing is created inside
the domain. -/
theorem c83_mesh_total {M : Type*} [DecidableEq M] [Fintype M] (ws : List (Work M K)) (q : M → K)
    (h : ∀ w ∈ ws, ∀ ql, Conservative (w.kern ql)) :
    ∑ i, (assembleWorks ws q).rhs i = 0 ∧ ∀ j, ∑ i, (assembleWorks ws q).mat i j = 0 := by
  suffices H : ∀ (l : List (Work M K)) (s : Sys M K), (∀ w ∈ l, ∀ ql, Conservative (w.kern ql)) →
      ∑ i, (l.foldl (fun s w => s.applyCoeff w.dof
        (w.kern (fun a => q (w.dof a)) ⟨fun _ _ => 0, fun _ => 0⟩)) s).rhs i = ∑ i, s.rhs i ∧
      ∀ j, ∑ i, (l.foldl (fun s w => s.applyCoeff w.dof
        (w.kern (fun a => q (w.dof a)) ⟨fun _ _ => 0, fun _ => 0⟩)) s).mat i j = ∑ i, s.mat i j by
    have := H ws (Sys.zero M K) h
    simpa [assembleWorks, Sys.zero] using this
  intro l
  induction l with
  | nil => intro s _; simp
  | cons w l ih =>
    intro s hl
    have hw := hl w (by simp) (fun a => q (w.dof a)) ⟨fun _ _ => 0, fun _ => 0⟩
    simp only [Finset.sum_const_zero] at hw
    obtain ⟨h1, h2⟩ := ih (s.applyCoeff w.dof
        (w.kern (fun a => q (w.dof a)) ⟨fun _ _ => 0, fun _ => 0⟩)) (fun w hw => hl w (by simp [hw]))
    simp only [List.foldl_cons]
    rw [h1]
    refine ⟨?_, fun j => ?_⟩
    · simp only [Sys.applyCoeff, Finset.sum_add_distrib]
      rw [Finset.sum_comm]
      simp [hw.1]
    · rw [h2 j]
      simp only [Sys.applyCoeff, Finset.sum_add_distrib]
      rw [Finset.sum_comm]
      have : ∀ a : w.ι, ∑ i, ∑ b, (if i = w.dof a ∧ j = w.dof b then
          (w.kern (fun a => q (w.dof a)) ⟨fun _ _ => 0, fun _ => 0⟩).lhs a b else 0) =
          ∑ b, if j = w.dof b then
          (w.kern (fun a => q (w.dof a)) ⟨fun _ _ => 0, fun _ => 0⟩).lhs a b else 0 := by
        intro a
        rw [Finset.sum_comm]
        refine Finset.sum_congr rfl fun b _ => ?_
        by_cases hb : j = w.dof b <;> simp [hb]
      simp only [this]
      rw [Finset.sum_comm]
      have : ∀ b : w.ι, ∑ a, (if j = w.dof b then
          (w.kern (fun a => q (w.dof a)) ⟨fun _ _ => 0, fun _ => 0⟩).lhs a b else 0) = 0 := by
        intro b
        by_cases hb : j = w.dof b
        · simp only [hb, if_true]; exact hw.2 b
        · simp [hb]
      simp [this]

/-! ## C84 the matrix is the derivative of the residual -/

theorem rowLin (r q d : Fin nn → K) :
    ∑ ic, r ic * (q + d) ic = ∑ ic, r ic * q ic + ∑ ic, r ic * d ic := by
  rw [← Finset.sum_add_distrib]; exact Finset.sum_congr rfl fun _ _ => by simp; ring

/-- **C84** Central advection-diffusion. -/
theorem c84_scalarAdvDiff (e : Scs nn nip nd K) (mdot : Fin nip → K) (mu : Fin nn → K) :
    ExactNewton (fun q => scalarAdvDiff e mdot mu q) := by
  refine newton_of _ (fun q a => -∑ ip, lrs a (e.il ip) (e.ir ip)
      (∑ ic, advDiffRow e mdot mu ip ic * q ic)) _
    (fun q s a => by rw [scalarAdvDiff_rhs, sub_eq_add_neg])
    (fun q s d a => scalarAdvDiff_act e mdot mu q s d a) (fun q d a => ?_)
  simp only [rowLin, lrs_add, Finset.sum_add_distrib]; ring

/-- **C84** Diffusion. -/
theorem c84_scalarDiff (e : Scs nn nip nd K) (mu : Fin nn → K) :
    ExactNewton (fun q => scalarDiff e mu q) := by
  have := c84_scalarAdvDiff e (fun _ => 0) mu
  rwa [show (fun q => scalarAdvDiff e (fun _ => 0) mu q) = (fun q => scalarDiff e mu q) from
    funext fun q => funext fun s => (scalarDiff_eq e mu q s).symm] at this

theorem upwFlux_lin (o : Opts K) (m pec a b c a' b' c' : K) :
    upwFlux o m pec (a + a') (b + b') (c + c') = upwFlux o m pec a b c +
      (alhsfacL o m pec * a' + alhsfacR o m pec * b' + cenFac o m pec * c') := by
  simp only [upwFlux, alhsfacL, alhsfacR, cenFac]
  by_cases h : m > 0
  · rw [abs_of_pos h]; simp only [h, if_true]; ring
  · rw [abs_of_nonpos (not_lt.mp h)]; simp only [h, if_false]; ring

theorem extrap_lin (o : Opts K) (hl : o.useLimiter = false) (xip xl xr gl gr : Fin nd → K)
    (ql qr dl dr : K) :
    extrapolate o xip xl xr gl gr (ql + dl) (qr + dr) =
      ((extrapolate o xip xl xr gl gr ql qr).1 + dl, (extrapolate o xip xl xr gl gr ql qr).2 + dr) := by
  simp only [extrapolate, hl]
  refine Prod.ext ?_ ?_ <;> simp <;> ring

theorem upwAdv_lin (o : Opts K) (hl : o.useLimiter = false) (e : Scs nn nip nd K) (mdot : Fin nip → K)
    (v : UpwNodes nn nd K) (G : Fin nn → Fin nd → K) (q d : Fin nn → K) (ip : Fin nip) :
    upwAdv o e mdot v (q + d) G ip = upwAdv o e mdot v q G ip +
      (alhsfacL o (mdot ip) (pecFac o v (e.il ip) (e.ir ip)) * d (e.il ip) +
       alhsfacR o (mdot ip) (pecFac o v (e.il ip) (e.ir ip)) * d (e.ir ip) +
       cenFac o (mdot ip) (pecFac o v (e.il ip) (e.ir ip)) * interp (e.adv ip) d) := by
  simp only [upwAdv, Pi.add_apply, extrap_lin o hl]
  rw [show interp (e.adv ip) (q + d) = interp (e.adv ip) q + interp (e.adv ip) d from rowLin _ _ _]
  rw [upwFlux_lin]

/-- **C84** Upwind advection-diffusion with the limiter off and the nodal gradient held fixed. -/
theorem c84_scalarUpw (o : Opts K) (hl : o.useLimiter = false) (e : Scs nn nip nd K)
    (mdot : Fin nip → K) (v : UpwNodes nn nd K) (G : Fin nn → Fin nd → K) :
    ExactNewton (fun q => scalarUpw o e mdot v q G) := by
  refine newton_of _ (fun q a => -∑ ip, lrs a (e.il ip) (e.ir ip) (upwAdv o e mdot v q G ip +
        ∑ ic, diffFac (interp (e.shape ip) v.mu) (e.dndx ip ic) (e.area ip) * q ic)) _
    (fun q s a => by rw [scalarUpw_rhs, sub_eq_add_neg])
    (fun q s d a => scalarUpw_act o e mdot v q G s d a) (fun q d a => ?_)
  rw [← neg_add', ← Finset.sum_add_distrib]
  congr 1
  refine Finset.sum_congr rfl fun ip _ => ?_
  rw [← lrs_add, upwAdv_lin o hl, rowLin]
  congr 1
  have : ∑ ic, upwRow o e mdot v ip ic * d ic =
      alhsfacL o (mdot ip) (pecFac o v (e.il ip) (e.ir ip)) * d (e.il ip) +
       alhsfacR o (mdot ip) (pecFac o v (e.il ip) (e.ir ip)) * d (e.ir ip) +
       cenFac o (mdot ip) (pecFac o v (e.il ip) (e.ir ip)) * interp (e.adv ip) d +
       ∑ ic, diffFac (interp (e.shape ip) v.mu) (e.dndx ip ic) (e.area ip) * d ic := by
    simp only [upwRow, add_mul, Finset.sum_add_distrib, ite_mul, zero_mul, Finset.sum_ite_eq',
      Finset.mem_univ, if_true, interp, Finset.mul_sum]
    congr 2
    exact Finset.sum_congr rfl fun _ _ => by ring
  rw [this]; ring

/-- **C84** Mass and mesh-motion (GCL) terms. -/
theorem c84_scalarMass (b : Bdf K) (e : Scv nn nip K) (rho : Levels nn K) (qn qnm1 : Fin nn → K) :
    ExactNewton (fun q => scalarMass b e rho ⟨q, qn, qnm1⟩) := by
  refine newton_of _ (fun q a => ∑ ip, if a = e.node ip then
      -(b.g1 * interp (e.shape ip) rho.np1 * interp (e.shape ip) q +
        b.g2 * interp (e.shape ip) rho.n * interp (e.shape ip) qn +
        b.g3 * interp (e.shape ip) rho.nm1 * interp (e.shape ip) qnm1) * e.vol ip / b.dt else 0)
    (fun d a => ∑ ip, if a = e.node ip then
      b.g1 * interp (e.shape ip) rho.np1 * interp (e.shape ip) d * e.vol ip / b.dt else 0)
    (fun q s a => by rw [scalarMass_rhs]) (fun q s d a => ?_) (fun q d a => ?_)
  · simp only [act, scalarMass_lhs, add_mul, Finset.sum_add_distrib, Finset.sum_mul]
    congr 1
    rw [Finset.sum_comm]
    refine Finset.sum_congr rfl fun ip _ => ?_
    by_cases h : a = e.node ip
    · simp only [h, if_true]
      generalize interp (e.shape ip) rho.np1 = r
      simp only [interp, Finset.mul_sum, Finset.sum_mul, div_eq_mul_inv]
      exact Finset.sum_congr rfl fun _ _ => by ring
    · simp [h]
  · rw [← Finset.sum_sub_distrib]
    refine Finset.sum_congr rfl fun ip _ => ?_
    rw [show interp (e.shape ip) (q + d) = interp (e.shape ip) q + interp (e.shape ip) d from
      rowLin _ _ _]
    split_ifs <;> ring

/-- **C84** Mesh-motion (GCL) term of a scalar. -/
theorem c84_scalarGcl (e : Scv nn nip K) (rho divV : Fin nn → K) :
    ExactNewton (fun q => scalarGcl e rho divV q) := by
  refine newton_of _ (fun q a => -∑ ip, if a = e.node ip then
      interp (e.shape ip) rho * interp (e.shape ip) q * interp (e.shape ip) divV * e.vol ip else 0)
    (fun d a => ∑ ip, if a = e.node ip then
      interp (e.shape ip) rho * interp (e.shape ip) d * interp (e.shape ip) divV * e.vol ip else 0)
    (fun q s a => by rw [scalarGcl_rhs, sub_eq_add_neg]) (fun q s d a => ?_) (fun q d a => ?_)
  · simp only [act, scalarGcl_lhs, add_mul, Finset.sum_add_distrib, Finset.sum_mul]
    congr 1
    rw [Finset.sum_comm]
    refine Finset.sum_congr rfl fun ip _ => ?_
    by_cases h : a = e.node ip
    · simp only [h, if_true]
      generalize interp (e.shape ip) rho = r
      generalize interp (e.shape ip) divV = w
      simp only [interp, Finset.mul_sum, Finset.sum_mul]
      exact Finset.sum_congr rfl fun _ _ => by ring
    · simp [h]
  · rw [sub_eq_add_neg, ← neg_add, ← Finset.sum_add_distrib]
    congr 1
    refine Finset.sum_congr rfl fun ip _ => ?_
    rw [show interp (e.shape ip) (q + d) = interp (e.shape ip) q + interp (e.shape ip) d from
      rowLin _ _ _]
    split_ifs <;> ring

/-- **C84** Open boundary of a scalar (outflow and entrainment), gradient held fixed; the tables must agree
that the node nearest to the integration point is the face node assigned to it. -/
theorem c84_scalarOpen (o : Opts K) (f : Face nn nf nip nd K) (hf : ∀ ip, f.node (f.loc ip) = f.near ip)
    (mdot : Fin nip → K) (v : UpwNodes nn nd K) (qbc : Fin nn → K) (G : Fin nn → Fin nd → K) :
    ExactNewton (fun q => scalarOpenElem o f mdot v q qbc G) := by
  refine newton_of _ _ _ (fun q s a => scalarOpenElem_rhs o f mdot v q qbc G s a)
    (fun q s d a => scalarOpenElem_act o f mdot v q qbc G s d a) (fun q d a => ?_)
  rw [← Finset.sum_sub_distrib]
  refine Finset.sum_congr rfl fun ip _ => ?_
  have hr : ∑ ic, f.adv ip ic * (q + d) (f.node ic) =
      ∑ ic, f.adv ip ic * q (f.node ic) + ∑ ic, f.adv ip ic * d (f.node ic) :=
    rowLin (f.adv ip) (fun ic => q (f.node ic)) (fun ic => d (f.node ic))
  by_cases h : a = f.near ip
  · by_cases hm : mdot ip > 0
    · simp only [h, if_true, hm, openScalarFlux, hf]
      rw [hr, Pi.add_apply]
      generalize (∑ i, ((∑ ic, f.adv ip ic * v.x (f.node ic) i) - v.x (f.near ip) i) *
        G (f.near ip) i * o.hoUpwind) = E
      ring
    · simp [h, hm, openScalarFlux]
  · simp [h]

/-- **C84** Weak (penalty) Dirichlet flux. -/
theorem c84_fluxPenalty (pen : K) (f : Face nn nf nip nd K) (mu qbc : Fin nn → K) :
    ExactNewton (fun q => scalarFluxPenalty pen f mu q qbc) := by
  refine newton_of _ _ _ (fun q s a => scalarFluxPenalty_rhs pen f mu q qbc s a)
    (fun q s d a => scalarFluxPenalty_act pen f mu q qbc s d a) (fun q d a => ?_)
  rw [← Finset.sum_sub_distrib]
  refine Finset.sum_congr rfl fun ip _ => ?_
  by_cases h : a = f.near ip
  · simp only [h, if_true]
    have hr : ∑ ic, f.shape ip ic * (q + d) (f.node ic) =
      ∑ ic, f.shape ip ic * q (f.node ic) + ∑ ic, f.shape ip ic * d (f.node ic) :=
      rowLin (f.shape ip) (fun ic => q (f.node ic)) (fun ic => d (f.node ic))
    rw [hr]
    generalize (∑ ic, f.shape ip ic * mu (f.node ic)) = m
    have e1 : ∀ q : Fin nn → K, ∑ j, m * (∑ ic, f.dndx ip ic j * q ic) * f.area ip j =
        -∑ ic, m * (∑ j, -(f.dndx ip ic j) * f.area ip j) * q ic := by
      intro q
      simp only [Finset.mul_sum, Finset.sum_mul]
      rw [Finset.sum_comm, ← Finset.sum_neg_distrib]
      refine Finset.sum_congr rfl fun _ _ => ?_
      rw [← Finset.sum_neg_distrib]
      exact Finset.sum_congr rfl fun _ _ => by ring
    rw [e1, e1, rowLin (fun ic => m * (∑ j, -(f.dndx ip ic j) * f.area ip j)) q d]
    have e2 : ∑ ic, f.shape ip ic * pen * m * invLength f ip * f.aMag ip * d (f.node ic) =
        pen * m * invLength f ip * (∑ ic, f.shape ip ic * d (f.node ic)) * f.aMag ip := by
      simp only [Finset.mul_sum, Finset.sum_mul]
      exact Finset.sum_congr rfl fun _ _ => by ring
    rw [e2]; ring
  · simp [h]

theorem viscRow_lin (mu : K) (g a u d : Fin nd → K) (k : Fin nd) :
    viscRow mu g a (u + d) k = viscRow mu g a u k + viscRow mu g a d k := by
  simp only [viscRow, Pi.add_apply]
  have : ∑ j, -mu * g k * a j * (u j + d j) =
      ∑ j, -mu * g k * a j * u j + ∑ j, -mu * g k * a j * d j := by
    rw [← Finset.sum_add_distrib]; exact Finset.sum_congr rfl fun _ _ => by ring
  rw [this]; ring

theorem coordIp_lin (N : Fin nn → K) (u d : Fin nn → Fin nd → K) (k : Fin nd) :
    coordIp N (u + d) k = coordIp N u k + coordIp N d k := by
  simp only [coordIp, Pi.add_apply]
  rw [← Finset.sum_add_distrib]; exact Finset.sum_congr rfl fun _ _ => by ring

theorem divU_lin (g u d : Fin nn → Fin nd → K) : divU g (u + d) = divU g u + divU g d := by
  simp only [divU, Pi.add_apply]
  rw [← Finset.sum_add_distrib]; refine Finset.sum_congr rfl fun _ _ => ?_
  rw [← Finset.sum_add_distrib]; exact Finset.sum_congr rfl fun _ _ => by ring

/-- **C84** Central momentum kernel.  The matrix misses exactly one sensitivity, that of the `divU` stress,
which the code treats explicitly; everything else is the exact derivative.  (`inc` is `includeDivU_`:
with 0 the linearisation is exact, see `c84_momentumAdvDiff_exact`.) -/
theorem c84_momentumAdvDiff (inc : K) (e : Scs nn nip nd K) (mdot : Fin nip → K) (mu : Fin nn → K)
    (u d : Fin nn → Fin nd → K) (s s' : LocalSys (Fin nn × Fin nd) K) (n : Fin nn) (k : Fin nd) :
    (momentumAdvDiff inc e mdot mu (u + d) s').rhs (n, k) - s'.rhs (n, k) =
      ((momentumAdvDiff inc e mdot mu u s).rhs (n, k) - s.rhs (n, k)) -
      ∑ b, ((momentumAdvDiff inc e mdot mu u s).lhs (n, k) b - s.lhs (n, k) b) * d b.1 b.2 -
      netOut e.il e.ir (fun ip => 2 / 3 * interp (e.shape ip) mu * divU (e.dndx ip) d *
        e.area ip k * inc) n := by
  rw [act_sub s _ (fun b => d b.1 b.2), momentumAdvDiff_act, momentumAdvDiff_rhs, momentumAdvDiff_rhs,
    ← sum_lrs_net]
  have : ∀ ip, lrs n (e.il ip) (e.ir ip) (mdot ip * coordIp (e.adv ip) (u + d) k +
        2 / 3 * interp (e.shape ip) mu * divU (e.dndx ip) (u + d) * e.area ip k * inc +
        ∑ ic, viscRow (interp (e.shape ip) mu) (e.dndx ip ic) (e.area ip) ((u + d) ic) k) =
      lrs n (e.il ip) (e.ir ip) (mdot ip * coordIp (e.adv ip) u k +
        2 / 3 * interp (e.shape ip) mu * divU (e.dndx ip) u * e.area ip k * inc +
        ∑ ic, viscRow (interp (e.shape ip) mu) (e.dndx ip ic) (e.area ip) (u ic) k) +
      lrs n (e.il ip) (e.ir ip) (∑ ic, (e.adv ip ic * mdot ip * d ic k +
        viscRow (interp (e.shape ip) mu) (e.dndx ip ic) (e.area ip) (d ic) k)) +
      lrs n (e.il ip) (e.ir ip) (2 / 3 * interp (e.shape ip) mu * divU (e.dndx ip) d *
        e.area ip k * inc) := by
    intro ip
    rw [← lrs_add, ← lrs_add]
    congr 1
    rw [coordIp_lin, divU_lin]
    have h2 : ∑ ic, viscRow (interp (e.shape ip) mu) (e.dndx ip ic) (e.area ip) ((u + d) ic) k =
        ∑ ic, viscRow (interp (e.shape ip) mu) (e.dndx ip ic) (e.area ip) (u ic) k +
        ∑ ic, viscRow (interp (e.shape ip) mu) (e.dndx ip ic) (e.area ip) (d ic) k := by
      rw [← Finset.sum_add_distrib]
      exact Finset.sum_congr rfl fun ic _ => viscRow_lin _ _ _ _ _ _
    have h3 : ∑ ic, e.adv ip ic * mdot ip * d ic k = mdot ip * coordIp (e.adv ip) d k := by
      rw [coordIp, Finset.mul_sum]; exact Finset.sum_congr rfl fun _ _ => by ring
    rw [h2, Finset.sum_add_distrib, h3]; ring
  simp only [this, Finset.sum_add_distrib]
  ring

/-- **C84** Without the divU stress the linearisation is exact. -/
theorem c84_momentumAdvDiff_exact (e : Scs nn nip nd K) (mdot : Fin nip → K) (mu : Fin nn → K) :
    ExactNewton (fun (u : Fin nn × Fin nd → K) => momentumAdvDiff 0 e mdot mu (fun n i => u (n, i))) := by
  rintro u d s s' ⟨n, k⟩
  have := c84_momentumAdvDiff 0 e mdot mu (fun n i => u (n, i)) (fun n i => d (n, i)) s s' n k
  simp only [netOut, mul_zero, ite_self, sub_zero, Finset.sum_const_zero] at this
  exact this

/-- **C84** Upwind momentum kernel, limiter off, nodal gradients held fixed: again only the divU stress is
explicit. -/
theorem c84_momentumUpw (o : Opts K) (hl : o.useLimiter = false) (inc : K) (e : Scs nn nip nd K)
    (mdot : Fin nip → K) (v : UpwNodes nn nd K) (G : Fin nn → Fin nd → Fin nd → K)
    (u d : Fin nn → Fin nd → K) (s s' : LocalSys (Fin nn × Fin nd) K) (n : Fin nn) (k : Fin nd) :
    (momentumUpw o inc e mdot v (u + d) G s').rhs (n, k) - s'.rhs (n, k) =
      ((momentumUpw o inc e mdot v u G s).rhs (n, k) - s.rhs (n, k)) -
      ∑ b, ((momentumUpw o inc e mdot v u G s).lhs (n, k) b - s.lhs (n, k) b) * d b.1 b.2 -
      netOut e.il e.ir (fun ip => 2 / 3 * interp (e.shape ip) v.mu * divU (e.dndx ip) d *
        e.area ip k * inc) n := by
  rw [act_sub s _ (fun b => d b.1 b.2), momentumUpw_act, momentumUpw_rhs, momentumUpw_rhs, ← sum_lrs_net]
  have : ∀ ip, lrs n (e.il ip) (e.ir ip) (momUpwAdv o e mdot v (u + d) G ip k +
        2 / 3 * interp (e.shape ip) v.mu * divU (e.dndx ip) (u + d) * e.area ip k * inc +
        ∑ ic, viscRow (interp (e.shape ip) v.mu) (e.dndx ip ic) (e.area ip) ((u + d) ic) k) =
      lrs n (e.il ip) (e.ir ip) (momUpwAdv o e mdot v u G ip k +
        2 / 3 * interp (e.shape ip) v.mu * divU (e.dndx ip) u * e.area ip k * inc +
        ∑ ic, viscRow (interp (e.shape ip) v.mu) (e.dndx ip ic) (e.area ip) (u ic) k) +
      lrs n (e.il ip) (e.ir ip)
        (alhsfacL o (mdot ip) (pecFac o v (e.il ip) (e.ir ip)) * d (e.il ip) k +
         alhsfacR o (mdot ip) (pecFac o v (e.il ip) (e.ir ip)) * d (e.ir ip) k +
         ∑ ic, (e.adv ip ic * cenFac o (mdot ip) (pecFac o v (e.il ip) (e.ir ip)) * d ic k +
        viscRow (interp (e.shape ip) v.mu) (e.dndx ip ic) (e.area ip) (d ic) k)) +
      lrs n (e.il ip) (e.ir ip) (2 / 3 * interp (e.shape ip) v.mu * divU (e.dndx ip) d *
        e.area ip k * inc) := by
    intro ip
    rw [← lrs_add, ← lrs_add]
    congr 1
    rw [divU_lin]
    have h1 : momUpwAdv o e mdot v (u + d) G ip k = momUpwAdv o e mdot v u G ip k + _ :=
      upwAdv_lin o hl e mdot v (fun ic => G ic k) (fun ic => u ic k) (fun ic => d ic k) ip
    have h2 : ∑ ic, viscRow (interp (e.shape ip) v.mu) (e.dndx ip ic) (e.area ip) ((u + d) ic) k =
        ∑ ic, viscRow (interp (e.shape ip) v.mu) (e.dndx ip ic) (e.area ip) (u ic) k +
        ∑ ic, viscRow (interp (e.shape ip) v.mu) (e.dndx ip ic) (e.area ip) (d ic) k := by
      rw [← Finset.sum_add_distrib]
      exact Finset.sum_congr rfl fun ic _ => viscRow_lin _ _ _ _ _ _
    have h3 : ∀ c : K, ∑ ic, e.adv ip ic * c * d ic k = c * interp (e.adv ip) (fun ic => d ic k) := by
      intro c; rw [interp, Finset.mul_sum]; exact Finset.sum_congr rfl fun _ _ => by ring
    rw [h1, h2, Finset.sum_add_distrib, h3]; ring
  simp only [this, Finset.sum_add_distrib]
  ring

/-- **C84** Momentum mass term (with the pressure gradient held fixed). -/
theorem c84_momentumMass (b : Bdf K) (df : K) (e : Scv nn nip K) (rho : Levels nn K)
    (un unm1 Gp : Fin nn → Fin nd → K) :
    ExactNewton (fun (u : Fin nn × Fin nd → K) =>
      momentumMass b df e rho ⟨fun n i => u (n, i), un, unm1⟩ Gp) := by
  rintro q d s s' ⟨n, k⟩
  rw [act_sub, momentumMass_rhs, momentumMass_rhs, momentumMass_act]
  rw [add_sub_cancel_left, add_sub_cancel_left, add_sub_cancel_left, ← Finset.sum_sub_distrib]
  refine Finset.sum_congr rfl fun ip _ => ?_
  by_cases h : n = e.node ip
  · simp only [h, if_true]
    have h1 : coordIp (e.shape ip) (fun n i => (q + d) (n, i)) k =
      coordIp (e.shape ip) (fun n i => q (n, i)) k + coordIp (e.shape ip) (fun n i => d (n, i)) k :=
      coordIp_lin (e.shape ip) (fun n i => q (n, i)) (fun n i => d (n, i)) k
    rw [h1]
    have h2 : ∀ c x : K, ∑ ic, e.shape ip ic * b.g1 * x * c / b.dt * d (ic, k) =
        b.g1 * x * c / b.dt * coordIp (e.shape ip) (fun n i => d (n, i)) k := by
      intro c x; rw [coordIp, Finset.mul_sum]; exact Finset.sum_congr rfl fun _ _ => by ring
    rw [h2]; ring
  · simp [h]

/-- **C84** Momentum mesh-motion (GCL) term. -/
theorem c84_momentumGcl (e : Scv nn nip K) (rho divV : Fin nn → K) :
    ExactNewton (fun (u : Fin nn × Fin nd → K) => momentumGcl e rho divV (fun n i => u (n, i))) := by
  rintro q d s s' ⟨n, k⟩
  rw [act_sub, momentumGcl_rhs, momentumGcl_rhs, momentumGcl_act]
  rw [add_sub_cancel_left, add_sub_cancel_left, add_sub_cancel_left, ← Finset.sum_sub_distrib]
  refine Finset.sum_congr rfl fun ip _ => ?_
  by_cases h : n = e.node ip
  · simp only [h, if_true]
    have h1 : coordIp (e.shape ip) (fun n i => (q + d) (n, i)) k =
      coordIp (e.shape ip) (fun n i => q (n, i)) k + coordIp (e.shape ip) (fun n i => d (n, i)) k :=
      coordIp_lin (e.shape ip) (fun n i => q (n, i)) (fun n i => d (n, i)) k
    rw [h1]
    have h2 : ∀ x y z : K, ∑ ic, e.shape ip ic * x * y * z * d (ic, k) =
        x * y * z * coordIp (e.shape ip) (fun n i => d (n, i)) k := by
      intro x y z; rw [coordIp, Finset.mul_sum]; exact Finset.sum_congr rfl fun _ _ => by ring
    rw [h2]; ring
  · simp [h]

/-! ### Continuity -/

theorem gradSum (g : Fin nn → Fin nd → K) (a : Fin nd → K) (d : Fin nn → K) :
    ∑ ic, (∑ j, -(g ic j) * a j) * d ic = -∑ j, (∑ ic, g ic j * d ic) * a j := by
  simp only [Finset.sum_mul]
  rw [Finset.sum_comm, ← Finset.sum_neg_distrib]
  refine Finset.sum_congr rfl fun _ _ => ?_
  rw [← Finset.sum_neg_distrib]; exact Finset.sum_congr rfl fun _ _ => by ring

theorem mdot_shift (pts : K) (A P D G a : Fin nd → K) :
    ∑ j, (A j - pts * ((P j + D j) - G j)) * a j =
      ∑ j, (A j - pts * (P j - G j)) * a j + pts * -∑ j, D j * a j := by
  rw [mul_neg, ← neg_mul, Finset.mul_sum, ← Finset.sum_add_distrib]
  exact Finset.sum_congr rfl fun _ _ => by ring

theorem scsMdot_lin (pts : K) (N : Fin nn → K) (g : Fin nn → Fin nd → K) (a : Fin nd → K)
    (v : FlowNodes nn nd K) (d : Fin nn → K) :
    scsMdot pts N g a { v with p := v.p + d } = scsMdot pts N g a v +
      pts * ∑ ic, (∑ j, -(g ic j) * a j) * d ic := by
  rw [gradSum]
  simp only [scsMdot, rowLin]
  exact mdot_shift pts _ (fun j => ∑ ic, g ic j * v.p ic) (fun j => ∑ ic, g ic j * d ic) _ a

/-- **C84** Continuity (pressure Poisson): the matrix is the exact derivative of the mass residual when the
two gradient operators agree, i.e. unless `reduced_sensitivities` is on without shifting. -/
theorem c84_continuityAdv (pts : K) (hpts : pts ≠ 0) (e : Scs nn nip nd K) (v : FlowNodes nn nd K) :
    ExactNewton (fun p => continuityAdv pts e e.dndx { v with p := p }) := by
  refine newton_of _ (fun p a => -∑ ip, lrs a (e.il ip) (e.ir ip)
      (scsMdot pts (e.shape ip) (e.dndx ip) (e.area ip) { v with p := p } / pts)) _
    (fun q s a => by rw [continuityAdv_rhs, sub_eq_add_neg])
    (fun q s d a => continuityAdv_act pts e e.dndx { v with p := q } s d a) (fun p d a => ?_)
  rw [← neg_add', ← Finset.sum_add_distrib]
  congr 1
  refine Finset.sum_congr rfl fun ip _ => ?_
  rw [← lrs_add, scsMdot_lin pts (e.shape ip) (e.dndx ip) (e.area ip) { v with p := p } d]
  congr 1
  field_simp

theorem openMdotIp_lin (pts pen : K) (f : Face nn nf nip nd K) (v : FlowNodes nn nd K) (pbc : Fin nn → K)
    (dynP : Fin nip → K) (ip : Fin nip) (d : Fin nn → K) :
    openMdotIp pts pen f { v with p := v.p + d } pbc dynP ip = openMdotIp pts pen f v pbc dynP ip +
      pts * ((∑ ic, f.shape ip ic * pen * invLength f ip * f.aMag ip * d (f.node ic)) +
        ∑ ic, (∑ j, -(f.dndx ip ic j) * f.area ip j) * d ic) := by
  have h1 : ∑ ic, f.shape ip ic * (v.p + d) (f.node ic) =
      ∑ ic, f.shape ip ic * v.p (f.node ic) + ∑ ic, f.shape ip ic * d (f.node ic) :=
    rowLin (f.shape ip) (fun ic => v.p (f.node ic)) (fun ic => d (f.node ic))
  have h2 : ∑ ic, f.shape ip ic * pen * invLength f ip * f.aMag ip * d (f.node ic) =
      pen * invLength f ip * f.aMag ip * ∑ ic, f.shape ip ic * d (f.node ic) := by
    rw [Finset.mul_sum]; exact Finset.sum_congr rfl fun _ _ => by ring
  have h3 : (∑ j, ((∑ ic, f.shape ip ic * v.rho (f.node ic) * v.vrtm (f.node ic) j) -
      pts * ((∑ ic, f.dndx ip ic j * (v.p + d) ic) - ∑ ic, f.shape ip ic * v.Gp (f.node ic) j)) *
        f.area ip j) =
      (∑ j, ((∑ ic, f.shape ip ic * v.rho (f.node ic) * v.vrtm (f.node ic) j) -
      pts * ((∑ ic, f.dndx ip ic j * v.p ic) - ∑ ic, f.shape ip ic * v.Gp (f.node ic) j)) *
        f.area ip j) + pts * ∑ ic, (∑ j, -(f.dndx ip ic j) * f.area ip j) * d ic := by
    rw [gradSum]
    simp only [rowLin]
    exact mdot_shift pts _ (fun j => ∑ ic, f.dndx ip ic j * v.p ic)
      (fun j => ∑ ic, f.dndx ip ic j * d ic) _ (f.area ip)
  simp only [openMdotIp]
  rw [h3, h1, h2]; ring

/-- **C84** Open boundary of the continuity equation. -/
theorem c84_continuityOpen (pts pen : K) (hpts : pts ≠ 0) (f : Face nn nf nip nd K)
    (v : FlowNodes nn nd K) (pbc : Fin nn → K) (dynP : Fin nip → K) :
    ExactNewton (fun p => continuityOpenElem pts pen f f.dndx { v with p := p } pbc dynP) := by
  refine newton_of _ (fun p a => -∑ ip, if a = f.near ip then
      openMdotIp pts pen f { v with p := p } pbc dynP ip / pts else 0) _
    (fun q s a => by rw [continuityOpenElem_rhs, sub_eq_add_neg])
    (fun q s d a => continuityOpenElem_act pts pen f f.dndx { v with p := q } pbc dynP s d a)
    (fun p d a => ?_)
  rw [← neg_add', ← Finset.sum_add_distrib]
  congr 1
  refine Finset.sum_congr rfl fun ip _ => ?_
  by_cases h : a = f.near ip
  · simp only [h, if_true]
    rw [openMdotIp_lin pts pen f { v with p := p } pbc dynP ip d]
    rw [add_div, mul_div_cancel_left₀ _ hpts]
  · simp [h]

/-! ### Sequences of kernels and whole meshes -/

/-- **C84** Running one exactly linearised kernel after another gives an exactly linearised assembly. -/
theorem c84_sequence {ι : Type*} [Fintype ι] (k₁ k₂ : (ι → K) → LocalSys ι K → LocalSys ι K)
    (h₁ : ExactNewton k₁) (h₂ : ExactNewton k₂) : ExactNewton (fun q s => k₂ q (k₁ q s)) := by
  intro q d s s' a
  have e1 := h₁ q d s s' a
  have e2 := h₂ q d (k₁ q s) (k₁ (q + d) s') a
  have : ∑ b, ((k₂ q (k₁ q s)).lhs a b - s.lhs a b) * d b =
      ∑ b, ((k₂ q (k₁ q s)).lhs a b - (k₁ q s).lhs a b) * d b +
      ∑ b, ((k₁ q s).lhs a b - s.lhs a b) * d b := by
    rw [← Finset.sum_add_distrib]; exact Finset.sum_congr rfl fun _ _ => by ring
  simp only [this]
  linear_combination e1 + e2

/-- **C84** On a whole mesh, of elements and boundary faces of any kind: the residual after a correction is the
residual before minus the assembled matrix times the correction.  Hence if the correction solves row `i`
of the assembled system, the residual of row `i` re-evaluated with the corrected unknown is zero. -/
theorem c84_mesh_newton {M : Type*} [DecidableEq M] [Fintype M] (ws : List (Work M K)) (q dq : M → K)
    (h : ∀ w ∈ ws, ExactNewton w.kern) (i : M) :
    (assembleWorks ws (q + dq)).rhs i =
      (assembleWorks ws q).rhs i - ∑ j, (assembleWorks ws q).mat i j * dq j := by
  suffices H : ∀ (l : List (Work M K)) (s s' : Sys M K), (∀ w ∈ l, ExactNewton w.kern) →
      s'.rhs i = s.rhs i - ∑ j, s.mat i j * dq j →
      (l.foldl (fun s w => s.applyCoeff w.dof
        (w.kern (fun a => (q + dq) (w.dof a)) ⟨fun _ _ => 0, fun _ => 0⟩)) s').rhs i =
      (l.foldl (fun s w => s.applyCoeff w.dof
        (w.kern (fun a => q (w.dof a)) ⟨fun _ _ => 0, fun _ => 0⟩)) s).rhs i -
      ∑ j, (l.foldl (fun s w => s.applyCoeff w.dof
        (w.kern (fun a => q (w.dof a)) ⟨fun _ _ => 0, fun _ => 0⟩)) s).mat i j * dq j from
    H ws _ _ h (by simp [Sys.zero])
  intro l
  induction l with
  | nil => intro s s' _ h; exact h
  | cons w l ih =>
    intro s s' hl hs
    simp only [List.foldl_cons]
    refine ih _ _ (fun w hw => hl w (by simp [hw])) ?_
    have hw := hl w (by simp) (fun a => q (w.dof a)) (fun a => dq (w.dof a))
      ⟨fun _ _ => 0, fun _ => 0⟩ ⟨fun _ _ => 0, fun _ => 0⟩
    simp only [sub_zero] at hw
    simp only [Sys.applyCoeff]
    rw [show (fun a => (q + dq) (w.dof a)) = (fun a => q (w.dof a)) + (fun a => dq (w.dof a)) from rfl]
    simp only [hw, hs, add_mul, Finset.sum_add_distrib]
    have e1 : ∑ a, (if i = w.dof a then
          (w.kern (fun a => q (w.dof a)) ⟨fun _ _ => 0, fun _ => 0⟩).rhs a -
            ∑ b, (w.kern (fun a => q (w.dof a)) ⟨fun _ _ => 0, fun _ => 0⟩).lhs a b * dq (w.dof b)
          else 0) =
        ∑ a, (if i = w.dof a then
          (w.kern (fun a => q (w.dof a)) ⟨fun _ _ => 0, fun _ => 0⟩).rhs a else 0) -
        ∑ a, (if i = w.dof a then
            ∑ b, (w.kern (fun a => q (w.dof a)) ⟨fun _ _ => 0, fun _ => 0⟩).lhs a b * dq (w.dof b)
          else 0) := by
      rw [← Finset.sum_sub_distrib]; refine Finset.sum_congr rfl fun a _ => ?_
      split_ifs <;> ring
    have e2 : ∑ j, (∑ a, ∑ b, if i = w.dof a ∧ j = w.dof b then
          (w.kern (fun a => q (w.dof a)) ⟨fun _ _ => 0, fun _ => 0⟩).lhs a b else 0) * dq j =
        ∑ a, (if i = w.dof a then
            ∑ b, (w.kern (fun a => q (w.dof a)) ⟨fun _ _ => 0, fun _ => 0⟩).lhs a b * dq (w.dof b)
          else 0) := by
      simp only [Finset.sum_mul]
      rw [Finset.sum_comm]
      refine Finset.sum_congr rfl fun a _ => ?_
      rw [Finset.sum_comm]
      by_cases ha : i = w.dof a
      · simp only [ha, true_and, if_true]
        refine Finset.sum_congr rfl fun b _ => ?_
        simp [ite_mul]
      · simp [ha]
    rw [e1, e2]; ring

/-- **C84** The corrected unknown satisfies the discrete equation of every row that was solved. -/
theorem c84_solved_row {M : Type*} [DecidableEq M] [Fintype M] (ws : List (Work M K)) (q dq : M → K)
    (h : ∀ w ∈ ws, ExactNewton w.kern) (i : M)
    (hsolve : ∑ j, (assembleWorks ws q).mat i j * dq j = (assembleWorks ws q).rhs i) :
    (assembleWorks ws (q + dq)).rhs i = 0 := by
  rw [c84_mesh_newton ws q dq h i, hsolve, sub_self]

end Nalu.Kernel
