import Verif.Proofs.Fem2
import Verif.Props.ElemKernel
import Mathlib.Algebra.Order.BigOperators.Group.Finset

/-!
# C143-C145: the finite-element kernels are Galerkin, Newton-exact, and diffusion is symmetric semi-definite
-/

set_option linter.unusedSectionVars false

namespace Nalu.Fem
open Nalu.Edge Nalu.Kernel

variable {K : Type*} [Field K] [LinearOrder K] [IsStrictOrderedRing K]
variable {nn nip nf nd : ℕ}

/-! ## C143: weak forms -/

theorem val_swap (N : Fin nn → K) (w : Fin nn → K) (x : K) : ∑ a, w a * (N a * x) = val N w * x := by
  rw [val, Finset.sum_mul]; exact Finset.sum_congr rfl fun _ _ => by ring

theorem grad_swap' (g : Fin nn → Fin nd → K) (w : Fin nn → K) (h : Fin nd → K) (x : K) :
    ∑ a, w a * ((∑ j, g a j * h j) * x) = dot (grad g w) h * x := by
  rw [← grad_swap, Finset.sum_mul]; exact Finset.sum_congr rfl fun _ _ => by ring

theorem val_swap_c (N : Fin nn → K) (w : Fin nn × Fin nd → K) (i : Fin nd) (x : K) :
    ∑ a, w (a, i) * (N a * x) = val N (comp w i) * x := val_swap N (comp w i) x

theorem grad_swap_c (g : Fin nn → Fin nd → K) (w : Fin nn × Fin nd → K) (i : Fin nd) (h : Fin nd → K) (x : K) :
    ∑ a, w (a, i) * ((∑ j, g a j * h j) * x) = dot (grad g (comp w i)) h * x := grad_swap' g (comp w i) h x

/-- Diffusion: for every test function, the residual is minus the quadrature of `mu grad w . grad q`, and the
matrix is the same bilinear form. -/
theorem c143_diffusion (e : Elem nn nip nd K) (mu q w d : Fin nn → K) (s : LocalSys (Fin nn) K) :
    tested (scalarDiff e mu q) s w =
        -quad e (fun ip => val (e.shape ip) mu * dot (grad (e.dndx ip) w) (grad (e.dndx ip) q)) ∧
      form (scalarDiff e mu q) s w d =
        quad e fun ip => val (e.shape ip) mu * dot (grad (e.dndx ip) w) (grad (e.dndx ip) d) := by
  constructor
  · rw [tested_of _ s w _ (scalarDiff_rhs e mu q s), quad, ← Finset.sum_neg_distrib]
    refine Finset.sum_congr rfl fun ip _ => ?_
    simp only [mul_neg, Finset.sum_neg_distrib, mul_assoc]
    rw [grad_swap', Elem.fac]
    change -(_ * (val _ _ * _)) = _
    ring
  · rw [form_of _ s w d _ (fun a => scalarDiff_act e mu q s d a), quad]
    refine Finset.sum_congr rfl fun ip _ => ?_
    simp only [mul_assoc]
    rw [grad_swap', Elem.fac]
    change _ * (val _ _ * _) = _
    ring

/-- Advection (integrated by parts): the residual tested with `w` is the quadrature of
`(rho u . grad w) q`. -/
theorem c143_advection (e : Elem nn nip nd K) (rho : Fin nn → K) (u : Fin nn → Fin nd → K) (q w d : Fin nn → K)
    (s : LocalSys (Fin nn) K) :
    tested (scalarAdv e rho u q) s w = quad e (fun ip =>
        dot (grad (e.dndx ip) w) (fun j => val (e.shape ip) fun c => rho c * u c j) * val (e.shape ip) q) ∧
      form (scalarAdv e rho u q) s w d = -quad e (fun ip =>
        dot (grad (e.dndx ip) w) (fun j => val (e.shape ip) fun c => rho c * u c j) * val (e.shape ip) d) := by
  have hr : ∀ ip, rhoU (e.shape ip) rho u = fun j => val (e.shape ip) fun c => rho c * u c j := by
    intro ip; funext j; simp only [rhoU, val, mul_assoc]
  constructor
  · rw [tested_of _ s w _ (scalarAdv_rhs e rho u q s), quad]
    refine Finset.sum_congr rfl fun ip _ => ?_
    simp only [mul_assoc, hr]
    rw [grad_swap', Elem.fac]
    rfl
  · rw [form_of _ s w d _ (fun a => scalarAdv_act e rho u q s d a), quad, ← Finset.sum_neg_distrib]
    refine Finset.sum_congr rfl fun ip _ => ?_
    simp only [mul_assoc, mul_neg, Finset.sum_neg_distrib, hr]
    rw [grad_swap', Elem.fac]
    rfl

/-- Accumulation: consistent (not lumped) mass matrix; the residual is minus the quadrature of `w` times the
backward difference of `rho q`. -/
theorem c143_mass (b : Bdf K) (e : Elem nn nip nd K) (rho q : Levels nn K) (w d : Fin nn → K)
    (s : LocalSys (Fin nn) K) :
    tested (scalarMass b e rho q) s w = -quad e (fun ip => val (e.shape ip) w *
        ((b.g1 * (val (e.shape ip) rho.np1 * val (e.shape ip) q.np1) +
          b.g2 * (val (e.shape ip) rho.n * val (e.shape ip) q.n) +
          b.g3 * (val (e.shape ip) rho.nm1 * val (e.shape ip) q.nm1)) / b.dt)) ∧
      form (scalarMass b e rho q) s w d = quad e fun ip => b.g1 / b.dt * val (e.shape ip) rho.np1 *
        (val (e.shape ip) w * val (e.shape ip) d) := by
  constructor
  · rw [tested_of _ s w _ (scalarMass_rhs b e rho q s), quad, ← Finset.sum_neg_distrib]
    refine Finset.sum_congr rfl fun ip _ => ?_
    simp only [mul_neg, Finset.sum_neg_distrib, mul_div_assoc, mul_assoc (e.shape ip _)]
    rw [val_swap, Elem.fac]
    change -(_ * ((b.g1 * val _ _ * val _ _ + b.g2 * val _ _ * val _ _ + b.g3 * val _ _ * val _ _) / b.dt * _)) = _
    ring
  · rw [form_of _ s w d _ (fun a => scalarMass_act b e rho q s d a), quad]
    refine Finset.sum_congr rfl fun ip _ => ?_
    simp only [mul_div_assoc, mul_assoc (e.shape ip _)]
    rw [val_swap, Elem.fac]
    change _ * (b.g1 * val _ _ * (val _ _ / b.dt) * _) = _
    ring

/-- Heat capacity: `rho`, `cp` and the backward difference of the temperature are interpolated separately. -/
theorem c143_heat_mass (b : Bdf K) (e : Elem nn nip nd K) (rho cp : Fin nn → K) (t : Levels nn K)
    (w d : Fin nn → K) (s : LocalSys (Fin nn) K) :
    tested (heatMass b e rho cp t) s w = -quad e (fun ip => val (e.shape ip) w *
        (val (e.shape ip) rho * val (e.shape ip) cp *
          ((b.g1 * val (e.shape ip) t.np1 + b.g2 * val (e.shape ip) t.n + b.g3 * val (e.shape ip) t.nm1) / b.dt))) ∧
      form (heatMass b e rho cp t) s w d = quad e fun ip =>
        b.g1 / b.dt * (val (e.shape ip) rho * val (e.shape ip) cp) *
          (val (e.shape ip) w * val (e.shape ip) d) := by
  constructor
  · rw [tested_of _ s w _ (heatMass_rhs b e rho cp t s), quad, ← Finset.sum_neg_distrib]
    refine Finset.sum_congr rfl fun ip _ => ?_
    simp only [mul_neg, Finset.sum_neg_distrib, mul_assoc (e.shape ip _)]
    rw [val_swap, Elem.fac]
    change -(_ * ((b.g1 * val _ _ + b.g2 * val _ _ + b.g3 * val _ _) / b.dt * (val _ _ * val _ _) * _)) = _
    ring
  · rw [form_of _ s w d _ (fun a => heatMass_act b e rho cp t s d a), quad]
    refine Finset.sum_congr rfl fun ip _ => ?_
    simp only [mul_assoc (e.shape ip _)]
    rw [val_swap, Elem.fac]
    change _ * (b.g1 * val _ _ / b.dt * (val _ _ * val _ _) * _) = _
    ring

/-- The stabilized mass flux: interpolated `rho u` minus `c` times (element pressure gradient minus projected
nodal gradient). -/
def massFlux (c : K) (e : Elem nn nip nd K) (v : FlowNodes nn nd K) (ip : Fin nip) (j : Fin nd) : K :=
  val (e.shape ip) (fun n => v.rho n * v.vrtm n j) -
    c * (grad (e.dndx ip) v.p j - val (e.shape ip) fun n => v.Gp n j)

theorem stabFlux_eq (c : K) (e : Elem nn nip nd K) (v : FlowNodes nn nd K) (ip : Fin nip) :
    stabFlux c (e.shape ip) (e.dndx ip) v = massFlux c e v ip := by
  funext j; simp only [stabFlux, massFlux, rhoU, val, grad, mul_assoc]

/-- Continuity: `(1/tau) * quadrature of (mass flux) . grad w`, and the matrix is the Laplacian. -/
theorem c143_continuity (pts : K) (e : Elem nn nip nd K) (v : FlowNodes nn nd K) (w d : Fin nn → K)
    (s : LocalSys (Fin nn) K) :
    tested (continuityAdv pts e v) s w =
        quad e (fun ip => dot (grad (e.dndx ip) w) (massFlux pts e v ip)) / pts ∧
      form (continuityAdv pts e v) s w d =
        quad e fun ip => dot (grad (e.dndx ip) w) (grad (e.dndx ip) d) := by
  constructor
  · rw [tested_of _ s w _ (continuityAdv_rhs pts e v s), quad, Finset.sum_div]
    refine Finset.sum_congr rfl fun ip _ => ?_
    simp only [mul_div_assoc, stabFlux_eq]
    rw [grad_swap', Elem.fac]; ring
  · rw [form_of _ s w d _ (fun a => continuityAdv_act pts e v s d a), quad]
    refine Finset.sum_congr rfl fun ip _ => ?_
    rw [grad_swap', Elem.fac]

theorem sum_pair (f : Fin nn × Fin nd → K) : ∑ a, f a = ∑ i, ∑ n, f (n, i) := by
  rw [Fintype.sum_prod_type, Finset.sum_comm]

/-- Projected nodal gradient: `w_j G_j + (div w) q`, integrated by parts. -/
theorem c143_png (e : Elem nn nip nd K) (q : Fin nn → K) (G : Fin nn → Fin nd → K) (w d : Fin nn × Fin nd → K)
    (s : LocalSys (Fin nn × Fin nd) K) :
    tested (png e q G) s w = -quad e (fun ip =>
        (∑ j, val (e.shape ip) (comp w j) * val (e.shape ip) fun c => G c j) +
          (∑ j, grad (e.dndx ip) (comp w j) j) * val (e.shape ip) q) ∧
      form (png e q G) s w d = quad e fun ip =>
        ∑ j, val (e.shape ip) (comp w j) * val (e.shape ip) (comp d j) := by
  constructor
  · rw [tested_of _ s w _ (fun a => png_rhs e q G s a.1 a.2), quad, ← Finset.sum_neg_distrib]
    refine Finset.sum_congr rfl fun ip _ => ?_
    rw [sum_pair, add_mul, Finset.sum_mul, Finset.sum_mul, Finset.sum_mul, ← Finset.sum_add_distrib,
      ← Finset.sum_neg_distrib]
    refine Finset.sum_congr rfl fun j _ => ?_
    simp only [val, grad, comp, interp, Elem.fac]
    rw [Finset.sum_mul, Finset.sum_mul, Finset.sum_mul, Finset.sum_mul, ← Finset.sum_add_distrib,
      ← Finset.sum_neg_distrib]
    exact Finset.sum_congr rfl fun _ _ => by ring
  · rw [form_of _ s w d _ (fun a => png_act e q G s d a.1 a.2), quad]
    refine Finset.sum_congr rfl fun ip _ => ?_
    rw [sum_pair, Finset.sum_mul]
    refine Finset.sum_congr rfl fun j _ => ?_
    simp only [val, comp, Elem.fac]
    rw [Finset.sum_mul, Finset.sum_mul]
    exact Finset.sum_congr rfl fun _ _ => by ring

/-- Momentum accumulation and pressure gradient. -/
theorem c143_momentum_mass (b : Bdf K) (e : Elem nn nip nd K) (rho : Levels nn K) (u : VLevels nn nd K)
    (Gp : Fin nn → Fin nd → K) (w d : Fin nn × Fin nd → K) (s : LocalSys (Fin nn × Fin nd) K) :
    tested (momentumMass b e rho u Gp) s w = -quad e (fun ip => ∑ i, val (e.shape ip) (comp w i) *
        ((b.g1 * val (e.shape ip) rho.np1 * val (e.shape ip) (fun c => u.np1 c i) +
          b.g2 * val (e.shape ip) rho.n * val (e.shape ip) (fun c => u.n c i) +
          b.g3 * val (e.shape ip) rho.nm1 * val (e.shape ip) (fun c => u.nm1 c i)) / b.dt +
          val (e.shape ip) fun c => Gp c i)) ∧
      form (momentumMass b e rho u Gp) s w d = quad e fun ip => b.g1 / b.dt * val (e.shape ip) rho.np1 *
        ∑ i, val (e.shape ip) (comp w i) * val (e.shape ip) (comp d i) := by
  constructor
  · rw [tested_of _ s w _ (fun a => momentumMass_rhs b e rho u Gp s a.1 a.2), quad, ← Finset.sum_neg_distrib]
    refine Finset.sum_congr rfl fun ip _ => ?_
    rw [sum_pair, Finset.sum_mul, ← Finset.sum_neg_distrib]
    refine Finset.sum_congr rfl fun i _ => ?_
    simp only [mul_neg, Finset.sum_neg_distrib, mul_assoc (e.shape ip _)]
    rw [val_swap_c, Elem.fac]
    change -(_ * (((b.g1 * val _ _ * _ + b.g2 * val _ _ * _ + b.g3 * val _ _ * _) / b.dt + _) * _)) = _
    ring
  · rw [form_of _ s w d _ (fun a => momentumMass_act b e rho u Gp s d a.1 a.2), quad]
    refine Finset.sum_congr rfl fun ip _ => ?_
    rw [sum_pair, Finset.mul_sum, Finset.sum_mul]
    refine Finset.sum_congr rfl fun i _ => ?_
    simp only [mul_assoc (e.shape ip _)]
    rw [val_swap_c, Elem.fac]
    change _ * (b.g1 * val _ _ * val _ (comp d i) / b.dt * _) = _
    ring

/-- Momentum advection as the constructor configures it (`skewFac_ = 1`): `(m . grad w_i) u_i` with the same
stabilized mass flux as continuity when pressure stabilization is on. -/
theorem c143_momentum_adv (pts incP : K) (e : Elem nn nip nd K) (v : FlowNodes nn nd K) (u : Fin nn → Fin nd → K)
    (w d : Fin nn × Fin nd → K) (s : LocalSys (Fin nn × Fin nd) K) :
    tested (momentumAdv pts incP 1 e v u) s w = quad e (fun ip =>
        ∑ i, dot (grad (e.dndx ip) (comp w i)) (massFlux (incP * pts) e v ip) * val (e.shape ip) fun c => u c i) ∧
      form (momentumAdv pts incP 1 e v u) s w d = -quad e (fun ip =>
        ∑ i, dot (grad (e.dndx ip) (comp w i)) (massFlux (incP * pts) e v ip) * val (e.shape ip) (comp d i)) := by
  constructor
  · rw [tested_of _ s w _ (fun a => momentumAdv_rhs pts incP 1 e v u s a.1 a.2), quad]
    refine Finset.sum_congr rfl fun ip _ => ?_
    rw [sum_pair, Finset.sum_mul]
    refine Finset.sum_congr rfl fun i _ => ?_
    simp only [sub_self, zero_mul, sub_zero, one_mul, mul_assoc, stabFlux_eq]
    rw [grad_swap_c, Elem.fac]
  · rw [form_of _ s w d _ (fun a => momentumAdv_act pts incP 1 e v u s d a.1 a.2), quad, ← Finset.sum_neg_distrib]
    refine Finset.sum_congr rfl fun ip _ => ?_
    rw [sum_pair, Finset.sum_mul, ← Finset.sum_neg_distrib]
    refine Finset.sum_congr rfl fun i _ => ?_
    simp only [sub_self, zero_mul, sub_zero, one_mul, mul_assoc, stabFlux_eq, mul_neg, Finset.sum_neg_distrib]
    rw [grad_swap_c, Elem.fac]
    rfl

theorem c143_body_force (e : Elem nn nip nd K) (f : Fin nd → K) (w : Fin nn × Fin nd → K)
    (s : LocalSys (Fin nn × Fin nd) K) :
    tested (bodyForce e f) s w = quad e fun ip => ∑ i, val (e.shape ip) (comp w i) * f i := by
  rw [tested_of _ s w _ (fun a => bodyForce_rhs e f s a.1 a.2), quad]
  refine Finset.sum_congr rfl fun ip _ => ?_
  rw [sum_pair, Finset.sum_mul]
  refine Finset.sum_congr rfl fun i _ => ?_
  simp only [mul_assoc (e.shape ip _)]
  rw [val_swap_c, Elem.fac]; ring

/-! ## C144: Newton -/

theorem interp_add (N q d : Fin nn → K) : interp N (q + d) = interp N q + interp N d := by
  simp only [interp, Pi.add_apply, mul_add, Finset.sum_add_distrib]

theorem grad_add (g : Fin nn → Fin nd → K) (q d : Fin nn → K) (j : Fin nd) :
    grad g (q + d) j = grad g q j + grad g d j := by
  simp only [grad, Pi.add_apply, mul_add, Finset.sum_add_distrib]

theorem dotg_add (h : Fin nd → K) (g : Fin nn → Fin nd → K) (q d : Fin nn → K) :
    ∑ j, h j * grad g (q + d) j = ∑ j, h j * grad g q j + ∑ j, h j * grad g d j := by
  simp only [grad_add, mul_add, Finset.sum_add_distrib]

theorem c144_diffusion (e : Elem nn nip nd K) (mu : Fin nn → K) : ExactNewton (scalarDiff e mu) := by
  refine newton_of _ _ _ (fun q s a => scalarDiff_rhs e mu q s a)
    (fun q s d a => scalarDiff_act e mu q s d a) ?_
  intro q d a
  rw [← Finset.sum_sub_distrib]
  exact Finset.sum_congr rfl fun ip _ => by rw [dotg_add]; ring

theorem c144_advection (e : Elem nn nip nd K) (rho : Fin nn → K) (u : Fin nn → Fin nd → K) :
    ExactNewton (scalarAdv e rho u) := by
  refine newton_of _ _ _ (fun q s a => scalarAdv_rhs e rho u q s a)
    (fun q s d a => scalarAdv_act e rho u q s d a) ?_
  intro q d a
  rw [← Finset.sum_sub_distrib]
  exact Finset.sum_congr rfl fun ip _ => by rw [interp_add]; ring

theorem c144_mass (b : Bdf K) (e : Elem nn nip nd K) (rho : Levels nn K) (qn qnm1 : Fin nn → K) :
    ExactNewton fun q => scalarMass b e rho ⟨q, qn, qnm1⟩ := by
  refine newton_of _ _ _ (fun q s a => scalarMass_rhs b e rho ⟨q, qn, qnm1⟩ s a)
    (fun q s d a => scalarMass_act b e rho ⟨q, qn, qnm1⟩ s d a) ?_
  intro q d a
  rw [← Finset.sum_sub_distrib]
  exact Finset.sum_congr rfl fun ip _ => by simp only; rw [interp_add]; ring

theorem c144_heat_mass (b : Bdf K) (e : Elem nn nip nd K) (rho cp tn tnm1 : Fin nn → K) :
    ExactNewton fun t => heatMass b e rho cp ⟨t, tn, tnm1⟩ := by
  refine newton_of _ _ _ (fun q s a => heatMass_rhs b e rho cp ⟨q, tn, tnm1⟩ s a)
    (fun q s d a => heatMass_act b e rho cp ⟨q, tn, tnm1⟩ s d a) ?_
  intro q d a
  rw [← Finset.sum_sub_distrib]
  exact Finset.sum_congr rfl fun ip _ => by simp only; rw [interp_add]; ring

/-- Continuity: exact derivative with respect to the pressure (the nodal gradient held). -/
theorem c144_continuity (pts : K) (hp : pts ≠ 0) (e : Elem nn nip nd K) (v : FlowNodes nn nd K) :
    ExactNewton fun p => continuityAdv pts e { v with p := p } := by
  refine newton_of _ _ _ (fun q s a => continuityAdv_rhs pts e { v with p := q } s a)
    (fun q s d a => continuityAdv_act pts e { v with p := q } s d a) ?_
  intro q d a
  rw [← Finset.sum_sub_distrib]
  refine Finset.sum_congr rfl fun ip _ => ?_
  have h : ∑ j, e.dndx ip a j * stabFlux pts (e.shape ip) (e.dndx ip) { v with p := q + d } j =
      ∑ j, e.dndx ip a j * stabFlux pts (e.shape ip) (e.dndx ip) { v with p := q } j -
        pts * ∑ j, e.dndx ip a j * grad (e.dndx ip) d j := by
    rw [Finset.mul_sum, ← Finset.sum_sub_distrib]
    refine Finset.sum_congr rfl fun j _ => ?_
    simp only [stabFlux, grad, Pi.add_apply, mul_add, Finset.sum_add_distrib]
    rw [rhoU]; ring
  rw [h]; field_simp

/-- Projected nodal gradient: the nodal gradient is the unknown. -/
theorem c144_png (e : Elem nn nip nd K) (q : Fin nn → K) :
    ExactNewton fun G : Fin nn × Fin nd → K => png e q fun n j => G (n, j) := by
  refine newton_of _ _ _ (fun G s a => png_rhs e q (fun n j => G (n, j)) s a.1 a.2)
    (fun G s d a => png_act e q (fun n j => G (n, j)) s d a.1 a.2) ?_
  intro q d a
  rw [← Finset.sum_sub_distrib]
  refine Finset.sum_congr rfl fun ip _ => ?_
  simp only [Pi.add_apply, mul_add, Finset.sum_add_distrib]; ring

theorem c144_momentum_mass (b : Bdf K) (e : Elem nn nip nd K) (rho : Levels nn K) (un unm1 Gp : Fin nn → Fin nd → K) :
    ExactNewton fun u : Fin nn × Fin nd → K => momentumMass b e rho ⟨fun n i => u (n, i), un, unm1⟩ Gp := by
  refine newton_of _ _ _ (fun u s a => momentumMass_rhs b e rho ⟨fun n i => u (n, i), un, unm1⟩ Gp s a.1 a.2)
    (fun u s d a => momentumMass_act b e rho ⟨fun n i => u (n, i), un, unm1⟩ Gp s d a.1 a.2) ?_
  intro q d a
  rw [← Finset.sum_sub_distrib]
  refine Finset.sum_congr rfl fun ip _ => ?_
  simp only [val, Pi.add_apply, mul_add, Finset.sum_add_distrib]; ring

theorem c144_momentum_adv (pts incP : K) (e : Elem nn nip nd K) (v : FlowNodes nn nd K) :
    ExactNewton fun u : Fin nn × Fin nd → K => momentumAdv pts incP 1 e v fun n i => u (n, i) := by
  refine newton_of _ _ _ (fun u s a => momentumAdv_rhs pts incP 1 e v (fun n i => u (n, i)) s a.1 a.2)
    (fun u s d a => momentumAdv_act pts incP 1 e v (fun n i => u (n, i)) s d a.1 a.2) ?_
  intro q d a
  rw [← Finset.sum_sub_distrib]
  refine Finset.sum_congr rfl fun ip _ => ?_
  simp only [val, Pi.add_apply, mul_add, Finset.sum_add_distrib, sub_self, zero_mul, sub_zero]; ring

/-- Viscous stress: exact when the (explicit) dilatational term is off. -/
theorem c144_momentum_diff (e : Elem nn nip nd K) (mu : Fin nn → K) :
    ExactNewton fun u : Fin nn × Fin nd → K => momentumDiff 0 e mu fun n i => u (n, i) := by
  refine newton_of _ _ _ (fun u s a => momentumDiff_rhs 0 e mu (fun n i => u (n, i)) s a.1 a.2)
    (fun u s d a => momentumDiff_act 0 e mu (fun n i => u (n, i)) s d a.1 a.2) ?_
  intro q d a
  rw [← Finset.sum_sub_distrib]
  refine Finset.sum_congr rfl fun ip _ => ?_
  simp only [grad, Pi.add_apply, mul_add, Finset.sum_add_distrib, mul_zero, sub_zero]; ring

theorem trace_add (f : Face nn nf nip nd K) (ip : Fin nip) (q d : Fin nn → K) :
    onFace f ip (q + d) = onFace f ip q + onFace f ip d := by
  simp only [onFace, Pi.add_apply, mul_add, Finset.sum_add_distrib]

theorem ite_sub {p : Prop} [Decidable p] (x y : K) :
    ((if p then x else 0) - if p then y else 0) = if p then x - y else 0 := by
  by_cases h : p <;> simp [h]

theorem c144_continuity_open (pts pen : K) (hp : pts ≠ 0) (f : Face nn nf nip nd K) (v : FlowNodes nn nd K)
    (pbc : Fin nn → K) (dynP : Fin nip → K) :
    ExactNewton fun p => continuityOpen pts pen f { v with p := p } pbc dynP := by
  refine newton_of _ _ _ (fun q s a => continuityOpen_rhs pts pen f { v with p := q } pbc dynP s a)
    (fun q s d a => continuityOpen_act pts pen f { v with p := q } pbc dynP s d a) ?_
  intro q d a
  rw [← Finset.sum_sub_distrib]
  refine Finset.sum_congr rfl fun ip _ => ?_
  rw [← Finset.sum_sub_distrib]
  refine Finset.sum_congr rfl fun ir _ => ?_
  rw [ite_sub]
  congr 1
  have h : openFlux pts pen f { v with p := q + d } pbc dynP ip =
      openFlux pts pen f { v with p := q } pbc dynP ip +
        pts * (pen * invLength f ip * onFace f ip d - dot (grad (f.dndx ip) d) (f.normal ip)) := by
    have h2 : ∀ j, ∑ ic, f.dndx ip ic j * (q + d) ic =
        ∑ ic, f.dndx ip ic j * q ic + grad (f.dndx ip) d j := fun j => by
      simp only [grad, Pi.add_apply, mul_add, Finset.sum_add_distrib]
    simp only [openFlux, trace_add, h2, dot]
    have h3 : ∀ A B G : Fin nd → K, ∑ j, (A j - pts * (B j + grad (f.dndx ip) d j - G j)) * f.normal ip j =
        ∑ j, (A j - pts * (B j - G j)) * f.normal ip j -
          pts * ∑ j, grad (f.dndx ip) d j * f.normal ip j := by
      intro A B G
      rw [Finset.mul_sum, ← Finset.sum_sub_distrib]
      exact Finset.sum_congr rfl fun _ _ => by ring
    rw [h3]; ring
  rw [h]; field_simp; ring

theorem c144_scalar_open (m : Fin nip → K) (f : Face nn nf nip nd K) (qbc : Fin nn → K) :
    ExactNewton fun q => scalarOpen m f q qbc := by
  refine newton_of _ _ _ (fun q s a => scalarOpen_rhs m f q qbc s a)
    (fun q s d a => scalarOpen_act m f q qbc s d a) ?_
  intro q d a
  rw [← Finset.sum_sub_distrib]
  refine Finset.sum_congr rfl fun ip _ => ?_
  rw [← Finset.sum_sub_distrib]
  refine Finset.sum_congr rfl fun ir _ => ?_
  rw [ite_sub, trace_add]
  congr 1
  by_cases h : m ip > 0
  · simp only [h, if_true]; ring
  · simp [h]

theorem c144_flux_penalty (pen : K) (f : Face nn nf nip nd K) (mu qbc : Fin nn → K) :
    ExactNewton fun q => fluxPenalty pen f mu q qbc := by
  refine newton_of _ _ _ (fun q s a => fluxPenalty_rhs pen f mu q qbc s a)
    (fun q s d a => fluxPenalty_act pen f mu q qbc s d a) ?_
  intro q d a
  rw [← Finset.sum_sub_distrib]
  refine Finset.sum_congr rfl fun ip _ => ?_
  rw [← Finset.sum_sub_distrib]
  refine Finset.sum_congr rfl fun ir _ => ?_
  rw [ite_sub]
  congr 1
  have h : penaltyFlux pen f mu (q + d) qbc ip = penaltyFlux pen f mu q qbc ip +
      onFace f ip mu * (pen * invLength f ip * onFace f ip d - dot (grad (f.dndx ip) d) (f.normal ip)) := by
    have h2 : ∀ j, ∑ ic, f.dndx ip ic j * (q + d) ic =
        ∑ ic, f.dndx ip ic j * q ic + grad (f.dndx ip) d j := fun j => by
      simp only [grad, Pi.add_apply, mul_add, Finset.sum_add_distrib]
    simp only [penaltyFlux, trace_add, h2, dot, mul_add, add_mul, Finset.sum_add_distrib, mul_sub,
      Finset.mul_sum, mul_assoc]
    ring
  rw [h]; ring

/-- The open momentum kernel (dilatational term off, mass flux held). -/
theorem c144_momentum_open (m : Fin nip → K) (f : Face nn nf nip nd K) (rho mu : Fin nn → K) (o : OpenMom nn nd K)
    (h0 : o.incDivU = 0) :
    ExactNewton fun u : Fin nn × Fin nd → K => momentumOpen m f rho mu { o with u := fun n i => u (n, i) } := by
  refine newton_of _ _ _ (fun u s a => momentumOpen_rhs m f rho mu { o with u := fun n i => u (n, i) } s a.1 a.2)
    (fun u s d a => momentumOpen_act m f rho mu { o with u := fun n i => u (n, i) } s d a.1 a.2) ?_
  intro q d a
  rw [← Finset.sum_sub_distrib]
  refine Finset.sum_congr rfl fun ip _ => ?_
  rw [← Finset.sum_sub_distrib]
  refine Finset.sum_congr rfl fun ir _ => ?_
  rw [ite_sub]
  congr 1
  have ht : ∀ i, traction (onFace f ip mu) (f.dndx ip) (f.normal ip) (fun n i => (q + d) (n, i)) i =
      traction (onFace f ip mu) (f.dndx ip) (f.normal ip) (fun n i => q (n, i)) i +
        traction (onFace f ip mu) (f.dndx ip) (f.normal ip) (fun n i => d (n, i)) i := by
    intro i
    simp only [traction, ← mul_add, ← Finset.sum_add_distrib]
    congr 1
    refine Finset.sum_congr rfl fun j _ => ?_
    simp only [grad, Pi.add_apply, mul_add, Finset.sum_add_distrib]; ring
  have hg : tang (f.normal ip) (traction (onFace f ip mu) (f.dndx ip) (f.normal ip)
        fun n i => (q + d) (n, i)) a.2 =
      tang (f.normal ip) (traction (onFace f ip mu) (f.dndx ip) (f.normal ip) fun n i => q (n, i)) a.2 +
        tang (f.normal ip) (traction (onFace f ip mu) (f.dndx ip) (f.normal ip) fun n i => d (n, i)) a.2 := by
    simp only [tang, ht, mul_add, Finset.sum_add_distrib]; ring
  have hd : ∀ u : Fin nn → Fin nd → K,
      divPart (onFace f ip mu) o.incDivU (f.dndx ip) u (f.normal ip) a.2 = 0 := by
    intro u; simp [divPart, h0]
  simp only [hg, hd]
  by_cases h : m ip > 0
  · simp only [h, if_true, openVel]
    have : onFace f ip (fun n => (q + d) (n, a.2)) =
        onFace f ip (fun n => q (n, a.2)) + onFace f ip fun n => d (n, a.2) :=
      trace_add f ip (fun n => q (n, a.2)) fun n => d (n, a.2)
    rw [this]; ring
  · simp only [h, if_false, openVel]; ring

/-! ## C145: the diffusion matrix -/

/-- Symmetric. -/
theorem c145_symmetric (e : Elem nn nip nd K) (mu q w d : Fin nn → K) (s : LocalSys (Fin nn) K) :
    form (scalarDiff e mu q) s w d = form (scalarDiff e mu q) s d w := by
  rw [(c143_diffusion e mu q w d s).2, (c143_diffusion e mu q d w s).2]
  simp only [quad, dot]
  refine Finset.sum_congr rfl fun ip _ => ?_
  congr 2
  exact Finset.sum_congr rfl fun _ _ => by ring

/-- Positive semi-definite for a non-negative coefficient at the integration points. -/
theorem c145_nonneg (e : Elem nn nip nd K) (mu q w : Fin nn → K) (s : LocalSys (Fin nn) K)
    (hm : ∀ ip, 0 ≤ val (e.shape ip) mu) (hf : ∀ ip, 0 ≤ e.detJ ip * e.weight ip) :
    0 ≤ form (scalarDiff e mu q) s w w := by
  rw [(c143_diffusion e mu q w w s).2]
  exact Finset.sum_nonneg fun ip _ => mul_nonneg
    (mul_nonneg (hm ip) (Finset.sum_nonneg fun j _ => mul_self_nonneg _)) (hf ip)

/-- Definite up to fields whose gradient vanishes at every integration point. -/
theorem c145_null (e : Elem nn nip nd K) (mu q w : Fin nn → K) (s : LocalSys (Fin nn) K)
    (hm : ∀ ip, 0 < val (e.shape ip) mu) (hf : ∀ ip, 0 < e.detJ ip * e.weight ip) :
    form (scalarDiff e mu q) s w w = 0 ↔ ∀ ip j, grad (e.dndx ip) w j = 0 := by
  rw [(c143_diffusion e mu q w w s).2, quad, Finset.sum_eq_zero_iff_of_nonneg]
  · constructor
    · intro h ip j
      have h1 := h ip (Finset.mem_univ _)
      have h2 : dot (grad (e.dndx ip) w) (grad (e.dndx ip) w) = 0 := by
        rcases mul_eq_zero.mp h1 with h3 | h3
        · rcases mul_eq_zero.mp h3 with h4 | h4
          · exact absurd h4 (hm ip).ne'
          · exact h4
        · exact absurd h3 (hf ip).ne'
      rw [dot, Finset.sum_eq_zero_iff_of_nonneg fun _ _ => mul_self_nonneg _] at h2
      exact mul_self_eq_zero.mp (h2 j (Finset.mem_univ _))
    · intro h ip _
      have : dot (grad (e.dndx ip) w) (grad (e.dndx ip) w) = 0 := by
        rw [dot]; exact Finset.sum_eq_zero fun j _ => by rw [h ip j, mul_zero]
      rw [this, mul_zero, zero_mul]
  · intro ip _
    exact mul_nonneg (mul_nonneg (hm ip).le (Finset.sum_nonneg fun j _ => mul_self_nonneg _)) (hf ip).le

/-- The accumulation matrix is symmetric positive semi-definite. -/
theorem c145_mass (b : Bdf K) (e : Elem nn nip nd K) (rho q : Levels nn K) (w : Fin nn → K)
    (s : LocalSys (Fin nn) K) (hb : 0 ≤ b.g1 / b.dt) (hm : ∀ ip, 0 ≤ val (e.shape ip) rho.np1)
    (hf : ∀ ip, 0 ≤ e.detJ ip * e.weight ip) :
    (∀ d, form (scalarMass b e rho q) s w d = form (scalarMass b e rho q) s d w) ∧
      0 ≤ form (scalarMass b e rho q) s w w := by
  refine ⟨fun d => ?_, ?_⟩
  · rw [(c143_mass b e rho q w d s).2, (c143_mass b e rho q d w s).2]
    simp only [quad]
    exact Finset.sum_congr rfl fun ip _ => by ring
  · rw [(c143_mass b e rho q w w s).2]
    exact Finset.sum_nonneg fun ip _ => mul_nonneg
      (mul_nonneg (mul_nonneg hb (hm ip)) (mul_self_nonneg _)) (hf ip)

/-- Concrete element: a linear bar `[0, 2]` in one dimension with one midpoint. -/
def bar : Elem 2 1 1 ℚ where
  shape := fun _ _ => 1 / 2
  dndx := fun _ a _ => if a = 0 then -1 / 2 else 1 / 2
  detJ := fun _ => 1
  weight := fun _ => 2

/-- The bar's stiffness with coefficient 3: `3/2`. -/
example : ((scalarDiff bar (fun _ => 3) (fun _ => 0) ⟨fun _ _ => 0, fun _ => 0⟩).lhs 0 0 = 3 / 2) ∧
    (∀ ip, 0 < val (bar.shape ip) fun _ => 3) ∧ ∀ ip, 0 < bar.detJ ip * bar.weight ip := by
  refine ⟨by decide +kernel, ?_, ?_⟩
  · intro ip; simp [val, bar]
  · intro ip; simp [bar]

end Nalu.Fem
