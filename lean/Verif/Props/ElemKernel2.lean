import Verif.Props.ElemKernel

/-!
# Element kernels: consistency, mass terms, discrete continuity, boundaries (C85-C88)
-/

set_option linter.unusedSectionVars false

namespace Nalu.Kernel
open Nalu.Edge

variable {K : Type*} [Field K] [LinearOrder K] [IsStrictOrderedRing K]
variable {nn nip nf nd : ℕ}

/-! ## C85 consistency on constants and linear fields -/

theorem interp_affine (N : Fin nn → K) (hN : Unity N) (x : Fin nn → Fin nd → K) (c : K) (w : Fin nd → K) :
    interp N (fun ic => affine c w (x ic)) = affine c w (coordIp N x) := by
  simp only [interp, affine, coordIp, mul_add, Finset.sum_add_distrib, ← Finset.sum_mul]
  rw [show ∑ ic, N ic = 1 from hN, one_mul]
  congr 1
  simp only [Finset.mul_sum]
  rw [Finset.sum_comm]
  exact Finset.sum_congr rfl fun _ _ => Finset.sum_congr rfl fun _ _ => by ring

theorem grad_affine (g x : Fin nn → Fin nd → K) (h0 : GradConst g) (h1 : GradLinear g x) (c : K)
    (w : Fin nd → K) (j : Fin nd) : ∑ ic, g ic j * affine c w (x ic) = w j := by
  simp only [affine, mul_add, Finset.sum_add_distrib, ← Finset.sum_mul]
  rw [h0 j, zero_mul, zero_add]
  simp only [Finset.mul_sum]
  rw [Finset.sum_comm]
  have : ∀ i, ∑ ic, g ic j * (w i * x ic i) = w i * if i = j then 1 else 0 := by
    intro i
    rw [← h1 i j, Finset.mul_sum]; exact Finset.sum_congr rfl fun _ _ => by ring
  simp [this]

theorem diffFac_affine (mu : K) (g x : Fin nn → Fin nd → K) (a : Fin nd → K) (h0 : GradConst g)
    (h1 : GradLinear g x) (c : K) (w : Fin nd → K) :
    ∑ ic, diffFac mu (g ic) a * affine c w (x ic) = -mu * ∑ j, w j * a j := by
  simp only [diffFac, Finset.sum_mul]
  rw [Finset.sum_comm, Finset.mul_sum]
  refine Finset.sum_congr rfl fun j _ => ?_
  rw [← grad_affine g x h0 h1 c w j, Finset.sum_mul, Finset.mul_sum]
  exact Finset.sum_congr rfl fun _ _ => by ring

theorem diffFac_const (mu : K) (g : Fin nn → Fin nd → K) (a : Fin nd → K) (h0 : GradConst g) (c : K) :
    ∑ ic, diffFac mu (g ic) a * c = 0 := by
  rw [← Finset.sum_mul]
  simp only [diffFac]
  rw [Finset.sum_comm, Finset.sum_eq_zero, zero_mul]
  intro j _
  have : ∑ ic, -mu * g ic j * a j = -mu * a j * ∑ ic, g ic j := by
    rw [Finset.mul_sum]; exact Finset.sum_congr rfl fun _ _ => by ring
  rw [this, h0 j, mul_zero]

/-- **C85** A uniform scalar field is transported only by the imbalance of the mass flow rates: the residual of
node `a` changes by `-c` times the net mass outflow of `a`, whatever the diffusivity. -/
theorem c85_uniform_scalar (e : Scs nn nip nd K) (hN : ∀ ip, Unity (e.adv ip))
    (hg : ∀ ip, GradConst (e.dndx ip)) (mdot : Fin nip → K) (mu : Fin nn → K) (c : K)
    (s : LocalSys (Fin nn) K) (a : Fin nn) :
    (scalarAdvDiff e mdot mu (fun _ => c) s).rhs a = s.rhs a - c * netOut e.il e.ir mdot a := by
  rw [scalarAdvDiff_rhs]
  congr 1
  rw [← sum_lrs_net, Finset.mul_sum]
  refine Finset.sum_congr rfl fun ip _ => ?_
  rw [mul_comm c, ← lrs_smul]
  congr 1
  simp only [advDiffRow, add_mul, Finset.sum_add_distrib]
  rw [diffFac_const _ _ _ (hg ip), add_zero]
  simp only [← Finset.sum_mul]
  rw [show ∑ ic, e.adv ip ic = 1 from hN ip, one_mul]

/-- **C85** The same for the upwind kernel, with every blending option and with the limiter on or off, when the
reconstructed gradient of the uniform field is zero. -/
theorem c85_uniform_scalarUpw (o : Opts K) (e : Scs nn nip nd K) (hN : ∀ ip, Unity (e.adv ip))
    (hg : ∀ ip, GradConst (e.dndx ip)) (mdot : Fin nip → K) (v : UpwNodes nn nd K) (c : K)
    (s : LocalSys (Fin nn) K) (a : Fin nn) :
    (scalarUpw o e mdot v (fun _ => c) (fun _ _ => 0) s).rhs a =
      s.rhs a - c * netOut e.il e.ir mdot a := by
  rw [scalarUpw_rhs]
  congr 1
  rw [← sum_lrs_net, Finset.mul_sum]
  refine Finset.sum_congr rfl fun ip _ => ?_
  rw [mul_comm c, ← lrs_smul]
  congr 1
  rw [diffFac_const _ _ _ (hg ip), add_zero]
  have h1 : interp (e.adv ip) (fun _ => c) = c := by
    rw [interp, ← Finset.sum_mul, show ∑ ic, e.adv ip ic = 1 from hN ip, one_mul]
  simp only [upwAdv, h1, extrapolate, mul_zero, Finset.sum_const_zero, zero_mul, add_zero, sub_zero,
    upwFlux]
  split_ifs <;> ring

/-- **C85** Exactness on linear fields: central advection carries the exact value of the field at the
integration point and diffusion the exact flux `-mu grad q . A`. -/
theorem c85_linear_scalar (e : Scs nn nip nd K) (x : Fin nn → Fin nd → K) (hN : ∀ ip, Unity (e.adv ip))
    (hg : ∀ ip, GradConst (e.dndx ip)) (hg1 : ∀ ip, GradLinear (e.dndx ip) x) (mdot : Fin nip → K)
    (mu : Fin nn → K) (c : K) (w : Fin nd → K) (s : LocalSys (Fin nn) K) (a : Fin nn) :
    (scalarAdvDiff e mdot mu (fun ic => affine c w (x ic)) s).rhs a = s.rhs a -
      netOut e.il e.ir (fun ip => mdot ip * affine c w (coordIp (e.adv ip) x) -
        interp (e.shape ip) mu * ∑ j, w j * e.area ip j) a := by
  rw [scalarAdvDiff_rhs]
  congr 1
  rw [← sum_lrs_net]
  refine Finset.sum_congr rfl fun ip _ => ?_
  congr 1
  simp only [advDiffRow, add_mul, Finset.sum_add_distrib]
  have hA : ∑ ic, e.adv ip ic * mdot ip * affine c w (x ic) =
      mdot ip * affine c w (coordIp (e.adv ip) x) := by
    rw [← interp_affine (e.adv ip) (hN ip) x c w, interp, Finset.mul_sum]
    exact Finset.sum_congr rfl fun _ _ => by ring
  rw [diffFac_affine _ _ _ _ (hg ip) (hg1 ip), hA]; ring

/-- **C85** On a linear field with its exact gradient and second-order upwinding (`hoUpwind = 1`, limiter off)
the upwind kernel gives the same residual as the central one, at every Peclet number and for every
choice of the blending parameters. -/
theorem c85_linear_scalarUpw (o : Opts K) (hl : o.useLimiter = false) (ho : o.hoUpwind = 1)
    (e : Scs nn nip nd K) (hN : ∀ ip, Unity (e.adv ip)) (mdot : Fin nip → K) (v : UpwNodes nn nd K)
    (c : K) (w : Fin nd → K) (s : LocalSys (Fin nn) K) (a : Fin nn) :
    (scalarUpw o e mdot v (fun ic => affine c w (v.x ic)) (fun _ => w) s).rhs a =
      (scalarAdvDiff e mdot v.mu (fun ic => affine c w (v.x ic)) s).rhs a := by
  rw [scalarUpw_rhs, scalarAdvDiff_rhs]
  congr 1
  refine Finset.sum_congr rfl fun ip _ => ?_
  congr 1
  simp only [advDiffRow, add_mul, Finset.sum_add_distrib]
  congr 1
  have hI := interp_affine (e.adv ip) (hN ip) v.x c w
  have hL : affine c w (v.x (e.il ip)) + ∑ j, (coordIp (e.adv ip) v.x j - v.x (e.il ip) j) * w j =
      affine c w (coordIp (e.adv ip) v.x) := by
    simp only [affine]
    rw [add_assoc, ← Finset.sum_add_distrib]
    congr 1
    exact Finset.sum_congr rfl fun _ _ => by ring
  have hR : affine c w (v.x (e.ir ip)) - ∑ j, (v.x (e.ir ip) j - coordIp (e.adv ip) v.x j) * w j =
      affine c w (coordIp (e.adv ip) v.x) := by
    simp only [affine]
    rw [add_sub_assoc, ← Finset.sum_sub_distrib]
    congr 1
    exact Finset.sum_congr rfl fun _ _ => by ring
  have hA : ∑ ic, e.adv ip ic * mdot ip * affine c w (v.x ic) =
      mdot ip * affine c w (coordIp (e.adv ip) v.x) := by
    rw [← hI, interp, Finset.mul_sum]; exact Finset.sum_congr rfl fun _ _ => by ring
  rw [hA]
  simp only [upwAdv, extrapolate, hl, ho, mul_one, hI, hL, hR, upwFlux, Bool.false_eq_true, if_false]
  split_ifs <;> ring

/-- **C85** The viscous force on a linear velocity field `u_i = c_i + sum_j W_ij x_j`: the symmetric part of the
gradient only, less two thirds of the divergence when requested.  In particular a rigid rotation
(`W` antisymmetric) feels no viscous force. -/
theorem c85_linear_velocity (inc : K) (e : Scs nn nip nd K) (x : Fin nn → Fin nd → K)
    (hN : ∀ ip, Unity (e.adv ip)) (hg : ∀ ip, GradConst (e.dndx ip))
    (hg1 : ∀ ip, GradLinear (e.dndx ip) x) (mdot : Fin nip → K) (mu : Fin nn → K) (c : Fin nd → K)
    (W : Fin nd → Fin nd → K) (s : LocalSys (Fin nn × Fin nd) K) (n : Fin nn) (k : Fin nd) :
    (momentumAdvDiff inc e mdot mu (fun ic i => affine (c i) (W i) (x ic)) s).rhs (n, k) = s.rhs (n, k) -
      netOut e.il e.ir (fun ip => mdot ip * affine (c k) (W k) (coordIp (e.adv ip) x) -
        interp (e.shape ip) mu * ((∑ j, (W k j + W j k) * e.area ip j) -
          2 / 3 * (∑ i, W i i) * e.area ip k * inc)) n := by
  rw [momentumAdvDiff_rhs]
  congr 1
  rw [← sum_lrs_net]
  refine Finset.sum_congr rfl fun ip _ => ?_
  congr 1
  have h1 : coordIp (e.adv ip) (fun ic i => affine (c i) (W i) (x ic)) k =
      affine (c k) (W k) (coordIp (e.adv ip) x) := interp_affine (e.adv ip) (hN ip) x (c k) (W k)
  have h2 : divU (e.dndx ip) (fun ic i => affine (c i) (W i) (x ic)) = ∑ i, W i i := by
    simp only [divU]
    rw [Finset.sum_comm]
    refine Finset.sum_congr rfl fun j _ => ?_
    rw [← grad_affine (e.dndx ip) x (hg ip) (hg1 ip) (c j) (W j) j]
    exact Finset.sum_congr rfl fun _ _ => by ring
  have h3 : ∑ ic, viscRow (interp (e.shape ip) mu) (e.dndx ip ic) (e.area ip)
      (fun i => affine (c i) (W i) (x ic)) k =
      -(interp (e.shape ip) mu) * ∑ j, (W k j + W j k) * e.area ip j := by
    simp only [viscRow, Finset.sum_add_distrib]
    have a1 : ∑ ic, (∑ j, -(interp (e.shape ip) mu) * e.dndx ip ic j * e.area ip j) *
        affine (c k) (W k) (x ic) = -(interp (e.shape ip) mu) * ∑ j, W k j * e.area ip j :=
      diffFac_affine _ _ x _ (hg ip) (hg1 ip) (c k) (W k)
    have a2 : ∑ ic, ∑ j, -(interp (e.shape ip) mu) * e.dndx ip ic k * e.area ip j *
        affine (c j) (W j) (x ic) = -(interp (e.shape ip) mu) * ∑ j, W j k * e.area ip j := by
      rw [Finset.sum_comm, Finset.mul_sum]
      refine Finset.sum_congr rfl fun j _ => ?_
      rw [← grad_affine (e.dndx ip) x (hg ip) (hg1 ip) (c j) (W j) k, Finset.sum_mul, Finset.mul_sum]
      exact Finset.sum_congr rfl fun _ _ => by ring
    rw [a1, a2, ← mul_add, ← Finset.sum_add_distrib]
    congr 1
    exact Finset.sum_congr rfl fun _ _ => by ring
  rw [h1, h2, h3]; ring

/-- **C85** Rigid-body motion: translation plus rotation is stress-free, with or without the divergence term. -/
theorem c85_rigid_motion (inc : K) (e : Scs nn nip nd K) (x : Fin nn → Fin nd → K)
    (hN : ∀ ip, Unity (e.adv ip)) (hg : ∀ ip, GradConst (e.dndx ip))
    (hg1 : ∀ ip, GradLinear (e.dndx ip) x) (mdot : Fin nip → K) (mu : Fin nn → K) (c : Fin nd → K)
    (W : Fin nd → Fin nd → K) (hW : ∀ i j, W i j = -W j i) (s : LocalSys (Fin nn × Fin nd) K)
    (n : Fin nn) (k : Fin nd) :
    (momentumAdvDiff inc e mdot mu (fun ic i => affine (c i) (W i) (x ic)) s).rhs (n, k) = s.rhs (n, k) -
      netOut e.il e.ir (fun ip => mdot ip * affine (c k) (W k) (coordIp (e.adv ip) x)) n := by
  rw [c85_linear_velocity inc e x hN hg hg1]
  have h1 : ∀ ip, ∑ j, (W k j + W j k) * e.area ip j = 0 := fun ip =>
    Finset.sum_eq_zero fun j _ => by rw [hW k j]; ring
  have h2 : ∑ i, W i i = 0 := Finset.sum_eq_zero fun i _ => by linarith [hW i i]
  simp only [h1, h2]
  simp

/-- **C85** Uniform pressure with zero reconstructed gradient does not drive mass flow: the mass flow rate is the
interpolated `rho u . A`. -/
theorem c85_uniform_pressure (pts : K) (e : Scs nn nip nd K) (hg : ∀ ip, GradConst (e.dndx ip))
    (rho : Fin nn → K) (u : Fin nn → Fin nd → K) (p0 : K) (ip : Fin nip) :
    scsMdot pts (e.shape ip) (e.dndx ip) (e.area ip) ⟨rho, u, fun _ => p0, fun _ _ => 0⟩ =
      ∑ j, (∑ ic, e.shape ip ic * rho ic * u ic j) * e.area ip j := by
  simp only [scsMdot, mul_zero, Finset.sum_const_zero, sub_zero]
  refine Finset.sum_congr rfl fun j _ => ?_
  rw [← Finset.sum_mul, hg ip j]; ring

/-- **C85** A linear pressure field with its exact gradient likewise: the pressure stabilisation vanishes. -/
theorem c85_linear_pressure (pts : K) (e : Scs nn nip nd K) (x : Fin nn → Fin nd → K)
    (hN : ∀ ip, Unity (e.shape ip)) (hg : ∀ ip, GradConst (e.dndx ip))
    (hg1 : ∀ ip, GradLinear (e.dndx ip) x) (rho : Fin nn → K) (u : Fin nn → Fin nd → K) (p0 : K)
    (w : Fin nd → K) (ip : Fin nip) :
    scsMdot pts (e.shape ip) (e.dndx ip) (e.area ip)
        ⟨rho, u, fun ic => affine p0 w (x ic), fun _ => w⟩ =
      ∑ j, (∑ ic, e.shape ip ic * rho ic * u ic j) * e.area ip j := by
  simp only [scsMdot]
  refine Finset.sum_congr rfl fun j _ => ?_
  rw [grad_affine _ x (hg ip) (hg1 ip), ← Finset.sum_mul, show ∑ ic, e.shape ip ic = 1 from hN ip]
  ring

/-! ## C86 time terms and body forces -/

/-- The amount of `rho q` the mass term sees in the element at one time level. -/
def content (e : Scv nn nip K) (rho q : Fin nn → K) : K :=
  ∑ ip, interp (e.shape ip) rho * interp (e.shape ip) q * e.vol ip

theorem sum_node (node : Fin nip → Fin nn) (f : Fin nip → K) :
    ∑ a, ∑ ip, (if a = node ip then f ip else 0) = ∑ ip, f ip := by
  rw [Finset.sum_comm]; simp

/-- **C86** The scalar mass term takes from the element exactly the discrete rate of change of its content:
`-(γ1 C^{n+1} + γ2 C^n + γ3 C^{n-1})/dt`. -/
theorem c86_scalar_content (b : Bdf K) (e : Scv nn nip K) (rho q : Levels nn K)
    (s : LocalSys (Fin nn) K) :
    ∑ a, (scalarMass b e rho q s).rhs a = ∑ a, s.rhs a -
      (b.g1 * content e rho.np1 q.np1 + b.g2 * content e rho.n q.n + b.g3 * content e rho.nm1 q.nm1) /
        b.dt := by
  simp only [scalarMass_rhs, Finset.sum_add_distrib, sum_node]
  rw [sub_eq_add_neg]
  congr 1
  simp only [content, Finset.mul_sum]
  rw [← Finset.sum_add_distrib, ← Finset.sum_add_distrib, div_eq_mul_inv, Finset.sum_mul,
    ← Finset.sum_neg_distrib]
  exact Finset.sum_congr rfl fun _ _ => by ring

/-- **C86** A field that does not change in time contributes nothing, for every consistent time scheme
(`γ1 + γ2 + γ3 = 0`). -/
theorem c86_scalar_steady (b : Bdf K) (hb : b.g1 + b.g2 + b.g3 = 0) (e : Scv nn nip K)
    (rho q : Fin nn → K) (s : LocalSys (Fin nn) K) (a : Fin nn) :
    (scalarMass b e ⟨rho, rho, rho⟩ ⟨q, q, q⟩ s).rhs a = s.rhs a := by
  rw [scalarMass_rhs]
  simp only [← add_mul, mul_assoc]
  rw [hb]; simp

/-- **C86** With a lumped mass matrix (shape functions evaluated at the nodes: shifted) the mass matrix is
diagonal, with entry `γ1 rho V/dt` of each sub-control volume at its own node. -/
theorem c86_lumped_diagonal (b : Bdf K) (e : Scv nn nip K)
    (hl : ∀ ip ic, e.shape ip ic = if ic = e.node ip then 1 else 0) (rho q : Levels nn K)
    (s : LocalSys (Fin nn) K) (a c : Fin nn) :
    (scalarMass b e rho q s).lhs a c = s.lhs a c + if a = c then
      ∑ ip, (if a = e.node ip then b.g1 * rho.np1 a * e.vol ip / b.dt else 0) else 0 := by
  rw [scalarMass_lhs]
  congr 1
  by_cases h : a = c
  · subst h
    rw [if_pos rfl]
    refine Finset.sum_congr rfl fun ip _ => ?_
    by_cases hn : a = e.node ip
    · simp only [interp, hl]; simp [hn]
    · simp [hn]
  · rw [if_neg h]
    refine Finset.sum_eq_zero fun ip _ => ?_
    by_cases hn : a = e.node ip
    · rw [if_pos hn, hl, if_neg (by rw [← hn]; exact fun hc => h hc.symm)]; simp
    · rw [if_neg hn]

/-- **C86** Momentum: the total force on the element in direction `k` is minus the rate of change of its momentum
minus the volume integral of the nodal pressure gradient (multiplied by density only with
`densFac = 1`). -/
theorem c86_momentum_content (b : Bdf K) (df : K) (e : Scv nn nip K) (rho : Levels nn K)
    (u : VLevels nn nd K) (Gp : Fin nn → Fin nd → K) (s : LocalSys (Fin nn × Fin nd) K) (k : Fin nd) :
    ∑ n, (momentumMass b df e rho u Gp s).rhs (n, k) = ∑ n, s.rhs (n, k) -
      (b.g1 * content e rho.np1 (fun n => u.np1 n k) + b.g2 * content e rho.n (fun n => u.n n k) +
        b.g3 * content e rho.nm1 (fun n => u.nm1 n k)) / b.dt -
      ∑ ip, interp (e.shape ip) (fun n => Gp n k) * e.vol ip *
        (df * interp (e.shape ip) rho.np1 + (1 - df)) := by
  simp only [momentumMass_rhs, Finset.sum_add_distrib, sum_node]
  rw [sub_sub, ← sub_neg_eq_add]
  congr 1
  simp only [content, Finset.mul_sum]
  rw [← Finset.sum_add_distrib, ← Finset.sum_add_distrib, div_eq_mul_inv, Finset.sum_mul,
    ← Finset.sum_add_distrib, ← Finset.sum_neg_distrib]
  refine Finset.sum_congr rfl fun ip _ => ?_
  simp only [interp, coordIp]
  ring

/-- **C86** Steady momentum with no pressure gradient feels no mass term. -/
theorem c86_momentum_steady (b : Bdf K) (hb : b.g1 + b.g2 + b.g3 = 0) (df : K) (e : Scv nn nip K)
    (rho : Fin nn → K) (u : Fin nn → Fin nd → K) (s : LocalSys (Fin nn × Fin nd) K) (n : Fin nn)
    (k : Fin nd) :
    (momentumMass b df e ⟨rho, rho, rho⟩ ⟨u, u, u⟩ (fun _ _ => 0) s).rhs (n, k) = s.rhs (n, k) := by
  rw [momentumMass_rhs]
  simp only [← add_mul, mul_assoc]
  rw [hb]; simp [coordIp]

/-- **C86** Buoyancy: the force on the element is the excess mass over the reference density times gravity, and it
vanishes at the reference density. -/
theorem c86_buoyancy (rhoRef : K) (grav : Fin nd → K) (e : Scv nn nip K) (hN : ∀ ip, Unity (e.shape ip))
    (rho : Fin nn → K) (s : LocalSys (Fin nn × Fin nd) K) (k : Fin nd) :
    ∑ n, (buoyancy rhoRef grav e rho s).rhs (n, k) = ∑ n, s.rhs (n, k) +
        ((∑ ip, interp (e.shape ip) rho * e.vol ip) - rhoRef * ∑ ip, e.vol ip) * grav k ∧
    ∀ n, (buoyancy rhoRef grav e (fun _ => rhoRef) s).rhs (n, k) = s.rhs (n, k) := by
  constructor
  · simp only [buoyancy_rhs, Finset.sum_add_distrib, sum_node]
    congr 1
    rw [Finset.mul_sum, ← Finset.sum_sub_distrib, Finset.sum_mul]
    exact Finset.sum_congr rfl fun _ _ => by ring
  · intro n
    rw [buoyancy_rhs]
    have : ∀ ip, interp (e.shape ip) (fun _ => rhoRef) = rhoRef := fun ip => by
      rw [interp, ← Finset.sum_mul, show ∑ ic, e.shape ip ic = 1 from hN ip, one_mul]
    simp [this]

/-- **C86** The Boussinesq source equals the variable-density source evaluated with the linearised equation of state
`rho = rhoRef (1 - beta (T - Tref))`, at every node and for every temperature field. -/
theorem c86_boussinesq_linearises (rhoRef beta tRef : K) (grav : Fin nd → K) (e : Scv nn nip K)
    (hN : ∀ ip, Unity (e.shape ip)) (T : Fin nn → K) (s : LocalSys (Fin nn × Fin nd) K) (n : Fin nn)
    (k : Fin nd) :
    (boussinesq rhoRef beta tRef grav e T s).rhs (n, k) =
      (buoyancy rhoRef grav e (fun ic => rhoRef * (1 - beta * (T ic - tRef))) s).rhs (n, k) := by
  rw [boussinesq_rhs, buoyancy_rhs]
  congr 1
  refine Finset.sum_congr rfl fun ip _ => ?_
  have : interp (e.shape ip) (fun ic => rhoRef * (1 - beta * (T ic - tRef))) =
      rhoRef * (1 - beta * (interp (e.shape ip) T - tRef)) := by
    have h1 : ∀ ic, e.shape ip ic * (rhoRef * (1 - beta * (T ic - tRef))) =
        e.shape ip ic * (rhoRef * (1 + beta * tRef)) - rhoRef * beta * (e.shape ip ic * T ic) :=
      fun ic => by ring
    simp only [interp, h1, Finset.sum_sub_distrib, ← Finset.sum_mul, ← Finset.mul_sum]
    rw [show ∑ ic, e.shape ip ic = 1 from hN ip]; ring
  rw [this]
  split_ifs <;> ring

/-- **C86** Moving meshes: for a field constant in time, the mass term evaluated with frozen volumes plus the GCL
term is exactly `-rho q div(V)` per volume: a uniform field on a uniformly expanding mesh loses
`c div(V) V`. -/
theorem c86_gcl_uniform (e : Scv nn nip K) (hN : ∀ ip, Unity (e.shape ip)) (rho divV : Fin nn → K) (c : K)
    (s : LocalSys (Fin nn) K) (a : Fin nn) :
    (scalarGcl e rho divV (fun _ => c) s).rhs a = s.rhs a - c * ∑ ip, if a = e.node ip then
      interp (e.shape ip) rho * interp (e.shape ip) divV * e.vol ip else 0 := by
  rw [scalarGcl_rhs, Finset.mul_sum]
  congr 1
  refine Finset.sum_congr rfl fun ip _ => ?_
  have : interp (e.shape ip) (fun _ => c) = c := by
    rw [interp, ← Finset.sum_mul, show ∑ ic, e.shape ip ic = 1 from hN ip, one_mul]
  rw [this]; split_ifs <;> ring

end Nalu.Kernel
