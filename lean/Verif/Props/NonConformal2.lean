import Verif.Props.NonConformal
import Verif.Props.ElemKernel4

/-!
# Non-conformal interfaces: whole-interface balance, consistency, linearisation (C90-C92)
-/

set_option linter.unusedSectionVars false

namespace Nalu.NC
open Nalu.Edge Nalu.Kernel

variable {K : Type*} [Field K] [LinearOrder K] [IsStrictOrderedRing K]
variable {nc no fc fo nd : ℕ}

/-! ## C90 whole interface -/

/-- Two matching Gauss points of an interface, with the global nodes of the two elements and the mass flow rate from
the first to the second. -/
structure Pair (M : Type) (nd : ℕ) (K : Type*) [Field K] [LinearOrder K] [IsStrictOrderedRing K] where
  nc : ℕ
  fc : ℕ
  no : ℕ
  fo : ℕ
  p : Point nc fc no fo nd K
  p' : Point no fo nc fc nd K
  nodeC : Fin nc → M
  nodeO : Fin no → M
  mdot : K
  mirror : Mirror p p'

variable {M : Type}

/-- The two units of assembly work of a pair for a transported scalar. -/
def Pair.scalarWorks (eta : K) (mu : M → K) (P : Pair M nd K) : List (Work M K) :=
  [⟨Row P.nc P.no, Sum.elim P.nodeC P.nodeO,
      scalarNC eta P.mdot P.p (fun a => mu (P.nodeC a)) (fun a => mu (P.nodeO a))⟩,
   ⟨Row P.no P.nc, Sum.elim P.nodeO P.nodeC,
      scalarNC eta (-P.mdot) P.p' (fun a => mu (P.nodeO a)) (fun a => mu (P.nodeC a))⟩]

theorem scalarNC_total (eta mdot : K) (p : Point nc fc no fo nd K) (muC : Fin nc → K) (muO : Fin no → K)
    (q : Row nc no → K) (s : LocalSys (Row nc no) K) :
    ∑ a, (scalarNC eta mdot p muC muO q s).rhs a = ∑ a, s.rhs a -
      scalarFlux eta mdot p muC muO (fun b => q (.inl b)) (fun b => q (.inr b)) := by
  simp only [scalarNC_rhs, Finset.sum_sub_distrib, Finset.sum_ite_eq', Finset.mem_univ, if_true]

/-- **C90** A mesh in two parts joined by a non-conformal interface whose Gauss points match in pairs: with conservative
kernels in the interior, the assembled right-hand side sums to zero. Nothing is created or lost at the
interface, for every field, diffusivity and mass flow rate. -/
theorem c90_whole_interface [DecidableEq M] [Fintype M] (eta : K) (mu q : M → K) (inner : List (Work M K))
    (h : ∀ w ∈ inner, ∀ ql, Conservative (w.kern ql)) (pairs : List (Pair M nd K)) :
    ∑ i, (assembleWorks (inner ++ pairs.flatMap (Pair.scalarWorks eta mu)) q).rhs i = 0 := by
  rw [assemble_total, List.map_append, List.sum_append]
  have h1 := (c83_mesh_total inner q h).1
  rw [assemble_total] at h1
  rw [h1, zero_add]
  induction pairs with
  | nil => simp
  | cons P l ih =>
    rw [List.flatMap_cons, List.map_append, List.sum_append, ih, add_zero]
    simp only [Pair.scalarWorks, List.map_cons, List.map_nil, List.sum_cons, List.sum_nil]
    have e1 := scalarNC_total eta P.mdot P.p (fun a => mu (P.nodeC a)) (fun a => mu (P.nodeO a))
      (fun a => q (Sum.elim P.nodeC P.nodeO a)) ⟨fun _ _ => 0, fun _ => 0⟩
    have e2 := scalarNC_total eta (-P.mdot) P.p' (fun a => mu (P.nodeO a)) (fun a => mu (P.nodeC a))
      (fun a => q (Sum.elim P.nodeO P.nodeC a)) ⟨fun _ _ => 0, fun _ => 0⟩
    simp only [Sum.elim_inl, Sum.elim_inr, Finset.sum_const_zero, zero_sub] at e1 e2
    rw [c90_scalar_flux eta P.mdot P.mirror] at e2
    exact (congrArg₂ (fun a b => a + (b + 0)) e1 e2).trans (by ring)

/-- The two units of work of a pair for the continuity equation; `G` is the projected nodal pressure gradient. -/
def Pair.contWorks (o : MdotOpts K) (rho : M → K) (u v G : M → Fin nd → K) (P : Pair M nd K) :
    List (Work M K) :=
  let c : FlowSide P.nc nd K := ⟨fun a => rho (P.nodeC a), fun a => u (P.nodeC a), fun a => v (P.nodeC a),
    fun a => G (P.nodeC a)⟩
  let f : FlowSide P.no nd K := ⟨fun a => rho (P.nodeO a), fun a => u (P.nodeO a), fun a => v (P.nodeO a),
    fun a => G (P.nodeO a)⟩
  [⟨Row P.nc P.no, Sum.elim P.nodeC P.nodeO, continuityNC o P.p c f⟩,
   ⟨Row P.no P.nc, Sum.elim P.nodeO P.nodeC, continuityNC o P.p' f c⟩]

theorem continuityNC_total (o : MdotOpts K) (p : Point nc fc no fo nd K) (c : FlowSide nc nd K)
    (f : FlowSide no nd K) (pr : Row nc no → K) (s : LocalSys (Row nc no) K) :
    ∑ a, (continuityNC o p c f pr s).rhs a = ∑ a, s.rhs a -
      ncMdot o p c f (fun b => pr (.inl b)) (fun b => pr (.inr b)) / o.pts := by
  simp only [continuityNC_rhs, Finset.sum_sub_distrib, Finset.sum_ite_eq', Finset.mem_univ, if_true]

/-- **C90** The same for mass: the continuity equation over both parts of the mesh sums to zero, provided that on a
moving mesh the two sides of each pair see the same normal mesh mass flux (on a static mesh nothing is
assumed). -/
theorem c90_whole_interface_mass [DecidableEq M] [Fintype M] (o : MdotOpts K) (rho : M → K)
    (u v G : M → Fin nd → K) (pr : M → K) (inner : List (Work M K))
    (h : ∀ w ∈ inner, ∀ ql, Conservative (w.kern ql)) (pairs : List (Pair M nd K))
    (hv : ∀ P ∈ pairs, o.motion * ∑ j, (P.p.cur.val fun a => rho (P.nodeC a) * v (P.nodeC a) j) * P.p.cN j =
      o.motion * ∑ j, (P.p.opp.val fun a => rho (P.nodeO a) * v (P.nodeO a) j) * P.p.cN j) :
    ∑ i, (assembleWorks (inner ++ pairs.flatMap (Pair.contWorks o rho u v G)) pr).rhs i = 0 := by
  rw [assemble_total, List.map_append, List.sum_append]
  have h1 := (c83_mesh_total inner pr h).1
  rw [assemble_total] at h1
  rw [h1, zero_add]
  induction pairs with
  | nil => simp
  | cons P l ih =>
    rw [List.flatMap_cons, List.map_append, List.sum_append,
      ih (fun Q hQ => hv Q (List.mem_cons_of_mem _ hQ)), add_zero]
    simp only [Pair.contWorks, List.map_cons, List.map_nil, List.sum_cons, List.sum_nil]
    have e1 := continuityNC_total o P.p ⟨fun a => rho (P.nodeC a), fun a => u (P.nodeC a),
      fun a => v (P.nodeC a), fun a => G (P.nodeC a)⟩ ⟨fun a => rho (P.nodeO a), fun a => u (P.nodeO a),
      fun a => v (P.nodeO a), fun a => G (P.nodeO a)⟩
      (fun a => pr (Sum.elim P.nodeC P.nodeO a)) ⟨fun _ _ => 0, fun _ => 0⟩
    have e2 := continuityNC_total o P.p' ⟨fun a => rho (P.nodeO a), fun a => u (P.nodeO a),
      fun a => v (P.nodeO a), fun a => G (P.nodeO a)⟩ ⟨fun a => rho (P.nodeC a), fun a => u (P.nodeC a),
      fun a => v (P.nodeC a), fun a => G (P.nodeC a)⟩
      (fun a => pr (Sum.elim P.nodeO P.nodeC a)) ⟨fun _ _ => 0, fun _ => 0⟩
    simp only [Sum.elim_inl, Sum.elim_inr, Finset.sum_const_zero, zero_sub] at e1 e2
    have e3 := c90_mass_flux o P.mirror ⟨fun a => rho (P.nodeC a), fun a => u (P.nodeC a),
      fun a => v (P.nodeC a), fun a => G (P.nodeC a)⟩ ⟨fun a => rho (P.nodeO a), fun a => u (P.nodeO a),
      fun a => v (P.nodeO a), fun a => G (P.nodeO a)⟩ (fun a => pr (P.nodeC a)) (fun a => pr (P.nodeO a))
      (hv P List.mem_cons_self)
    rw [e3] at e2
    exact (congrArg₂ (fun a b => a + (b + 0)) e1 e2).trans (by ring)

/-! ## C91 consistency -/

theorem val_affine {nn nf : ℕ} (s : Side nn nf nd K) (hN : Unity s.N) (x : Fin nn → Fin nd → K) (c : K)
    (w : Fin nd → K) : s.val (fun a => affine c w (x a)) = affine c w (s.pos x) :=
  interp_affine s.N hN (fun ic => x (s.ord ic)) c w

theorem val_const {nn nf : ℕ} (s : Side nn nf nd K) (hN : Unity s.N) (c : K) : s.val (fun _ => c) = c := by
  rw [Side.val, ← Finset.sum_mul, show ∑ ic, s.N ic = 1 from hN, one_mul]

theorem gradFlux_affine {nn nf : ℕ} (s : Side nn nf nd K) (x : Fin nn → Fin nd → K) (hs : s.Consistent x)
    (n : Fin nd → K) (c : K) (w : Fin nd → K) :
    s.gradFlux n (fun a => affine c w (x a)) = -∑ j, w j * n j := by
  rw [gradFlux_grad]
  congr 1
  refine Finset.sum_congr rfl fun j _ => ?_
  rw [Side.grad, grad_affine _ x hs.gradConst hs.gradLinear]

theorem gradFlux_const {nn nf : ℕ} (s : Side nn nf nd K) (hs : GradConst s.dndx)
    (n : Fin nd → K) (c : K) : s.gradFlux n (fun _ => c) = 0 := by
  rw [gradFlux_grad]
  have : ∀ j, s.grad (fun _ => c) j = 0 := fun j => by rw [Side.grad, ← Finset.sum_mul, hs j, zero_mul]
  simp [this]

theorem through_cN (p : Point nc fc no fo nd K) (ha : p.amag ≠ 0) (w : Fin nd → K) :
    (∑ j, w j * p.cN j) * p.amag = p.through w := by
  rw [Finset.sum_mul, Point.through]
  refine Finset.sum_congr rfl fun j _ => ?_
  rw [Point.cN]; field_simp

/-- **C91** A uniform field crosses the interface unchanged: the flux is `mdot` times the value, whatever the shape of
the two surfaces, their normals and the diffusivities. -/
theorem c91_uniform (eta mdot : K) (p : Point nc fc no fo nd K) (hc : Unity p.cur.N) (ho : Unity p.opp.N)
    (gc : GradConst p.cur.dndx) (go : GradConst p.opp.dndx) (muC : Fin nc → K) (muO : Fin no → K) (c : K) :
    scalarFlux eta mdot p muC muO (fun _ => c) (fun _ => c) = mdot * c := by
  simp only [scalarFlux, gradFlux_const _ gc, gradFlux_const _ go, val_const _ hc, val_const _ ho, ncAdv]
  ring

/-- **C91** A linear field is transported exactly: the flux is the mean diffusivity times minus the gradient through the
face, plus `mdot` times the value at the point; the penalty and the upwinding do not act.  Needed: both
sides put the Gauss point at the same place and the surfaces are parallel there. -/
theorem c91_linear (eta mdot : K) (p : Point nc fc no fo nd K) (xC : Fin nc → Fin nd → K)
    (xO : Fin no → Fin nd → K) (hc : p.cur.Consistent xC) (ho : p.opp.Consistent xO)
    (hx : p.cur.pos xC = p.opp.pos xO) (hn : ∀ j, p.oN j = -p.cN j) (ha : p.amag ≠ 0)
    (muC : Fin nc → K) (muO : Fin no → K) (c : K) (w : Fin nd → K) :
    scalarFlux eta mdot p muC muO (fun a => affine c w (xC a)) (fun a => affine c w (xO a)) =
      -((p.cur.val muC + p.opp.val muO) / 2 * p.through w) + mdot * affine c w (p.cur.pos xC) := by
  have hn' : p.oN = fun j => -p.cN j := funext hn
  simp only [scalarFlux, gradFlux_affine _ _ hc, gradFlux_affine _ _ ho, val_affine _ hc.unity,
    val_affine _ ho.unity, ncAdv, ← hx, hn', mul_neg, Finset.sum_neg_distrib]
  rw [← through_cN p ha]
  ring

/-- **C91** When the surfaces are not parallel the diffusive flux of a linear field is the mean of what each side computes
with its own normal, still without a contribution of the penalty. -/
theorem c91_linear_oblique (eta mdot : K) (p : Point nc fc no fo nd K) (xC : Fin nc → Fin nd → K)
    (xO : Fin no → Fin nd → K) (hc : p.cur.Consistent xC) (ho : p.opp.Consistent xO)
    (hx : p.cur.pos xC = p.opp.pos xO) (muC : Fin nc → K) (muO : Fin no → K) (c : K) (w : Fin nd → K) :
    scalarFlux eta mdot p muC muO (fun a => affine c w (xC a)) (fun a => affine c w (xO a)) =
      -((p.cur.val muC * ∑ j, w j * p.cN j) - p.opp.val muO * ∑ j, w j * p.oN j) / 2 * p.amag +
        mdot * affine c w (p.cur.pos xC) := by
  simp only [scalarFlux, gradFlux_affine _ _ hc, gradFlux_affine _ _ ho, val_affine _ hc.unity,
    val_affine _ ho.unity, ncAdv, ← hx]
  ring

/-- **C91** Mass flow rate: for a linear pressure with its exact nodal gradient on both sides, the rate through the point
is the mean of the two interpolated mass fluxes through the current face, less the mesh motion; the
penalty and the pressure stabilisation vanish. -/
theorem c91_mdot_linear_pressure (o : MdotOpts K) (p : Point nc fc no fo nd K) (xC : Fin nc → Fin nd → K)
    (xO : Fin no → Fin nd → K) (hc : p.cur.Consistent xC) (ho : p.opp.Consistent xO)
    (hx : p.cur.pos xC = p.opp.pos xO) (hn : ∀ j, p.oN j = -p.cN j) (ha : p.amag ≠ 0)
    (c : FlowSide nc nd K) (f : FlowSide no nd K) (p0 : K) (w : Fin nd → K)
    (hcG : ∀ a, c.G a = w) (hfG : ∀ a, f.G a = w) :
    ncMdot o p c f (fun a => affine p0 w (xC a)) (fun a => affine p0 w (xO a)) =
      p.through (fun j => ((p.cur.val fun a => c.rho a * c.u a j) + p.opp.val fun a => f.rho a * f.u a j) / 2 -
        o.motion * p.cur.val fun a => c.rho a * c.v a j) := by
  have hs1 : ∀ j, p.cur.grad (fun a => affine p0 w (xC a)) j = w j := fun j => by
    rw [Side.grad, grad_affine _ xC hc.gradConst hc.gradLinear]
  have hs2 : ∀ j, p.opp.grad (fun a => affine p0 w (xO a)) j = w j := fun j => by
    rw [Side.grad, grad_affine _ xO ho.gradConst ho.gradLinear]
  simp only [ncMdot, hs1, hs2, hcG, hfG, val_const _ hc.unity, val_const _ ho.unity, sub_self, zero_mul,
    mul_zero, Finset.sum_const_zero, sub_zero, val_affine _ hc.unity, val_affine _ ho.unity, ← hx, add_zero]
  rw [← through_cN p ha]
  congr 1
  refine Finset.sum_congr rfl fun j _ => ?_
  rw [hn j]; ring

/-- **C91** A single-valued stream moving with the mesh crosses nothing: the rate is zero. -/
theorem c91_mdot_rigid (o : MdotOpts K) (hm : o.motion = 1) (p : Point nc fc no fo nd K)
    (xC : Fin nc → Fin nd → K)
    (xO : Fin no → Fin nd → K) (hc : p.cur.Consistent xC) (ho : p.opp.Consistent xO)
    (hx : p.cur.pos xC = p.opp.pos xO) (hn : ∀ j, p.oN j = -p.cN j) (ha : p.amag ≠ 0)
    (c : FlowSide nc nd K) (f : FlowSide no nd K) (p0 : K) (w : Fin nd → K)
    (hcG : ∀ a, c.G a = w) (hfG : ∀ a, f.G a = w) (hv : ∀ a j, c.v a j = c.u a j)
    (hu : ∀ j, (p.cur.val fun a => c.rho a * c.u a j) = p.opp.val fun a => f.rho a * f.u a j) :
    ncMdot o p c f (fun a => affine p0 w (xC a)) (fun a => affine p0 w (xO a)) = 0 := by
  rw [c91_mdot_linear_pressure o p xC xO hc ho hx hn ha c f p0 w hcG hfG, hm, Point.through]
  refine Finset.sum_eq_zero fun j _ => ?_
  simp only [hv, hu]; ring

theorem stress_affine {nn nf : ℕ} (s : Side nn nf nd K) (x : Fin nn → Fin nd → K) (hs : s.Consistent x)
    (inc mu : K) (n : Fin nd → K) (c : Fin nd → K) (W : Fin nd → Fin nd → K) (i : Fin nd) :
    s.stress inc mu n (fun a k => affine (c k) (W k) (x a)) i =
      -(mu * ∑ j, (W i j + W j i) * n j) + 2 / 3 * mu * (∑ j, W j j * n j) * inc := by
  have hd : ∀ k j, ∑ ic, s.dndx ic j * affine (c k) (W k) (x ic) = W k j :=
    fun k j => grad_affine _ x hs.gradConst hs.gradLinear _ _ j
  simp only [Side.stress, Finset.sum_add_distrib]
  have e1 : ∑ ic, ∑ j, -mu * s.dndx ic j * n j * affine (c i) (W i) (x ic) = -(mu * ∑ j, W i j * n j) := by
    rw [Finset.sum_comm, Finset.mul_sum, ← Finset.sum_neg_distrib]
    refine Finset.sum_congr rfl fun j _ => ?_
    rw [← hd i j, Finset.sum_mul, Finset.mul_sum, ← Finset.sum_neg_distrib]
    exact Finset.sum_congr rfl fun _ _ => by ring
  have e2 : ∑ ic, ∑ j, -mu * s.dndx ic i * n j * affine (c j) (W j) (x ic) = -(mu * ∑ j, W j i * n j) := by
    rw [Finset.sum_comm, Finset.mul_sum, ← Finset.sum_neg_distrib]
    refine Finset.sum_congr rfl fun j _ => ?_
    rw [← hd j i, Finset.sum_mul, Finset.mul_sum, ← Finset.sum_neg_distrib]
    exact Finset.sum_congr rfl fun _ _ => by ring
  have e3 : ∑ ic, ∑ j, 2 / 3 * mu * s.dndx ic j * affine (c j) (W j) (x ic) * n j * inc =
      2 / 3 * mu * (∑ j, W j j * n j) * inc := by
    rw [Finset.sum_comm, Finset.mul_sum, Finset.sum_mul]
    refine Finset.sum_congr rfl fun j _ => ?_
    rw [← hd j j, Finset.sum_mul, Finset.mul_sum, Finset.sum_mul]
    exact Finset.sum_congr rfl fun _ _ => by ring
  rw [e1, e2, e3]
  simp only [add_mul, Finset.sum_add_distrib]
  ring

/-- **C91** Momentum, linear velocity `u_i = c_i + W_i . x`: the flux is minus the mean viscosity times the symmetric
stress through the face, plus `mdot u`.  Partial: only without the divergence term of the stress (the
option `divU_stress_scaling` zero, its default); with it the statement would need
`2/3 mu (div u) A_i`, which the code does not compute (`c91_divU_wrong`). -/
theorem c91_momentum_linear_partial (eta mdot : K) (p : Point nc fc no fo nd K) (xC : Fin nc → Fin nd → K)
    (xO : Fin no → Fin nd → K) (hc : p.cur.Consistent xC) (ho : p.opp.Consistent xO)
    (hx : p.cur.pos xC = p.opp.pos xO) (hn : ∀ j, p.oN j = -p.cN j) (ha : p.amag ≠ 0)
    (muC : Fin nc → K) (muO : Fin no → K) (c : Fin nd → K) (W : Fin nd → Fin nd → K) (i : Fin nd) :
    momFlux eta 0 mdot p muC muO (fun a k => affine (c k) (W k) (xC a)) (fun a k => affine (c k) (W k) (xO a)) i =
      -((p.cur.val muC + p.opp.val muO) / 2 * p.through (fun j => W i j + W j i)) +
        mdot * affine (c i) (W i) (p.cur.pos xC) := by
  have hn' : p.oN = fun j => -p.cN j := funext hn
  simp only [momFlux, stress_affine _ _ hc, stress_affine _ _ ho, val_affine _ hc.unity,
    val_affine _ ho.unity, ncAdv, ← hx, hn', mul_neg, Finset.sum_neg_distrib]
  rw [← through_cN p ha]
  ring

/-- **C91** A rigid motion of the fluid (translation and rotation) feels no viscous force at the interface, with or without
the divergence term. -/
theorem c91_rigid_motion (eta inc mdot : K) (p : Point nc fc no fo nd K) (xC : Fin nc → Fin nd → K)
    (xO : Fin no → Fin nd → K) (hc : p.cur.Consistent xC) (ho : p.opp.Consistent xO)
    (hx : p.cur.pos xC = p.opp.pos xO)
    (muC : Fin nc → K) (muO : Fin no → K) (c : Fin nd → K) (W : Fin nd → Fin nd → K)
    (hW : ∀ i j, W i j = -W j i) (i : Fin nd) :
    momFlux eta inc mdot p muC muO (fun a k => affine (c k) (W k) (xC a)) (fun a k => affine (c k) (W k) (xO a))
      i = mdot * affine (c i) (W i) (p.cur.pos xC) := by
  have h0 : ∀ j, W j j = 0 := fun j => by have := hW j j; linarith
  have h1 : ∀ j, W i j + W j i = 0 := fun j => by rw [hW i j]; ring
  simp only [momFlux, stress_affine _ _ hc, stress_affine _ _ ho, val_affine _ hc.unity,
    val_affine _ ho.unity, ncAdv, ← hx, h0, h1, zero_mul, Finset.sum_const_zero]
  ring

/-- **C91** Nodal gradient: a field both sides agree on contributes its value times the area vector over the dual volume. -/
theorem c91_gradient (p : Point nc fc no fo nd K) (xC : Fin nc → Fin nd → K) (xO : Fin no → Fin nd → K)
    (hc : Unity p.cur.N) (ho : Unity p.opp.N) (hx : p.cur.pos xC = p.opp.pos xO) (vol c : K) (w : Fin nd → K)
    (j : Fin nd) :
    gradNC p vol (fun a => affine c w (xC a)) (fun a => affine c w (xO a)) j =
      affine c w (p.cur.pos xC) * p.area j / vol := by
  simp only [gradNC, val_affine _ hc, val_affine _ ho, ← hx]
  ring

/-! ## C92 linearisation -/

theorem scalarFlux_add (eta mdot : K) (p : Point nc fc no fo nd K) (muC qC dC : Fin nc → K)
    (muO qO dO : Fin no → K) :
    scalarFlux eta mdot p muC muO (fun a => qC a + dC a) (fun a => qO a + dO a) =
      scalarFlux eta mdot p muC muO qC qO + scalarFlux eta mdot p muC muO dC dO := by
  simp only [scalarFlux, gradFlux_add, val_add, ncAdv]; ring

/-- **C92** Scalar transport across the interface: the matrix is the exact derivative of the residual, in the columns of
both elements. -/
theorem c92_scalar (eta mdot : K) (p : Point nc fc no fo nd K) (muC : Fin nc → K) (muO : Fin no → K) :
    ExactNewton (scalarNC eta mdot p muC muO) := by
  refine newton_of _ (fun q a => -if a = .inl p.near then
      scalarFlux eta mdot p muC muO (fun b => q (.inl b)) (fun b => q (.inr b)) else 0)
    (fun d a => if a = .inl p.near then
      scalarFlux eta mdot p muC muO (fun b => d (.inl b)) (fun b => d (.inr b)) else 0)
    (fun q s a => by rw [scalarNC_rhs, sub_eq_add_neg]) (fun q s d a => scalarNC_act ..) (fun q d a => ?_)
  have e := scalarFlux_add eta mdot p muC (fun b => q (.inl b)) (fun b => d (.inl b)) muO (fun b => q (.inr b))
    (fun b => d (.inr b))
  simp only [Pi.add_apply]
  split_ifs
  · rw [e]; ring
  · simp

/-- **C92** Pure diffusion likewise. -/
theorem c92_scalar_diffusion (p : Point nc fc no fo nd K) (muC : Fin nc → K) (muO : Fin no → K) :
    ExactNewton (scalarDiffNC p muC muO) := by
  have : scalarDiffNC p muC muO = scalarNC 0 0 p muC muO := by funext q s; exact scalarDiffNC_eq p muC muO q s
  rw [this]; exact c92_scalar 0 0 p muC muO

/-- **C92** Momentum: exact without the divergence term of the stress (its default). -/
theorem c92_momentum_partial (eta mdot : K) (p : Point nc fc no fo nd K) (muC : Fin nc → K) (muO : Fin no → K) :
    ExactNewton (momentumNC eta 0 mdot p muC muO) := by
  refine newton_of _ (fun u a => if a.1 = .inl p.near then
      -momFlux eta 0 mdot p muC muO (fun b i => u (.inl b, i)) (fun b i => u (.inr b, i)) a.2 else 0)
    (fun d a => if a.1 = .inl p.near then
      momFlux eta 0 mdot p muC muO (fun b i => d (.inl b, i)) (fun b i => d (.inr b, i)) a.2 else 0)
    (fun q s a => momentumNC_rhs eta 0 mdot p muC muO q s a)
    (fun q s d a => momentumNC_act eta 0 mdot p muC muO q s d a) (fun u d a => ?_)
  have e := momFlux_add eta 0 mdot p muC muO (fun b i => u (.inl b, i)) (fun b i => d (.inl b, i))
    (fun b i => u (.inr b, i)) (fun b i => d (.inr b, i)) a.2
  simp only [Pi.add_apply]
  split_ifs
  · rw [e]; ring
  · simp

/-- **C92** Continuity: the matrix is the exact derivative of the mass residual with respect to pressure. -/
theorem c92_continuity (o : MdotOpts K) (ho : o.pts ≠ 0) (p : Point nc fc no fo nd K) (c : FlowSide nc nd K)
    (f : FlowSide no nd K) : ExactNewton (continuityNC o p c f) := by
  refine newton_of _ (fun q a => -if a = .inl p.near then
      ncMdot o p c f (fun b => q (.inl b)) (fun b => q (.inr b)) / o.pts else 0) _
    (fun q s a => by rw [continuityNC_rhs, sub_eq_add_neg]) (fun q s d a => continuityNC_act o ho p c f q s d a)
    (fun q d a => ?_)
  have e := ncMdot_lin o p c f (fun b => q (.inl b)) (fun b => d (.inl b)) (fun b => q (.inr b))
    (fun b => d (.inr b))
  simp only [Pi.add_apply]
  split_ifs
  · rw [e]; field_simp; ring
  · simp

/-- **C92** Continuity of the volume-of-fluid form likewise. -/
theorem c92_continuity_vof (o : MdotOpts K) (ho : o.pts ≠ 0) (vo : VofOpts nd K) (p : Point nc fc no fo nd K)
    (c : FlowSide nc nd K) (f : FlowSide no nd K) (wc : VofSide nc K) (wo : VofSide no K) :
    ExactNewton (continuityVofNC o vo p c f wc wo) := by
  refine newton_of _ (fun q a => -if a = .inl p.near then
      ncVdot o vo p c f wc wo (fun b => q (.inl b)) (fun b => q (.inr b)) / o.pts else 0) _
    (fun q s a => by rw [continuityVofNC_rhs, sub_eq_add_neg])
    (fun q s d a => continuityVofNC_act o ho vo p c f wc wo q s d a)
    (fun q d a => ?_)
  have e := ncVdot_lin o vo p c f wc wo (fun b => q (.inl b)) (fun b => d (.inl b)) (fun b => q (.inr b))
    (fun b => d (.inr b))
  simp only [Pi.add_apply]
  split_ifs
  · rw [e]; field_simp; ring
  · simp

/-- **C92** The continuity rows assembled with the solved pressure are the mass flow rates computed afterwards: what the
linear system balances is what `ComputeMdotNonConformal` reports. -/
theorem c92_mdot_after_solve (o : MdotOpts K) (ho : o.pts ≠ 0) (p : Point nc fc no fo nd K)
    (c : FlowSide nc nd K) (f : FlowSide no nd K) (pr dp : Row nc no → K) (s : LocalSys (Row nc no) K) :
    ((continuityNC o p c f pr s).rhs (.inl p.near) - s.rhs (.inl p.near) -
      ∑ b, ((continuityNC o p c f pr s).lhs (.inl p.near) b - s.lhs (.inl p.near) b) * dp b) * o.pts =
    -ncMdot o p c f (fun a => pr (.inl a) + dp (.inl a)) (fun a => pr (.inr a) + dp (.inr a)) := by
  rw [← c92_continuity o ho p c f pr dp s s (.inl p.near), continuityNC_rhs]
  simp only [Pi.add_apply, if_true]
  field_simp
  ring

/-- **C92** Projected nodal gradient across the interface. -/
theorem c92_png (fac : K) (p : Point nc fc no fo nd K) (qC : Fin nc → K) (qO : Fin no → K) :
    ExactNewton (pngNC fac p qC qO) := by
  refine newton_of _ (fun G a => if a.1 = .inl p.near then
      (1 / 2 * (p.cur.val qC + p.opp.val qO) * p.area a.2 +
        1 / 2 * (1 / p.cur.invLen p.cN + 1 / p.opp.invLen p.oN) * fac *
        ((p.cur.val fun b => G (.inl b, a.2)) - p.opp.val fun b => G (.inr b, a.2)) * p.amag) else 0) _
    (fun q s a => pngNC_rhs fac p qC qO q s a) (fun q s d a => pngNC_act fac p qC qO q s d a) (fun G d a => ?_)
  have e1 := val_add p.cur (fun b => G (.inl b, a.2)) (fun b => d (.inl b, a.2))
  have e2 := val_add p.opp (fun b => G (.inr b, a.2)) (fun b => d (.inr b, a.2))
  simp only [Pi.add_apply]
  split_ifs
  · rw [e1, e2]; ring
  · simp

/-- **C92** Volume fraction: exact when upwinding is on (the default). -/
theorem c92_vof_partial (vdot : K) (p : Point nc fc no fo nd K) : ExactNewton (vofNC 1 vdot p) := by
  refine newton_of _ (fun q a => -if a = .inl p.near then
      ncAdv 1 vdot (p.cur.val fun b => q (.inl b)) (p.opp.val fun b => q (.inr b)) else 0) _
    (fun q s a => by rw [vofNC_rhs, sub_eq_add_neg]) (fun q s d a => vofNC_act 1 vdot p q s d a) (fun q d a => ?_)
  have e1 := val_add p.cur (fun b => q (.inl b)) (fun b => d (.inl b))
  have e2 := val_add p.opp (fun b => q (.inr b)) (fun b => d (.inr b))
  simp only [Pi.add_apply]
  split_ifs
  · rw [e1, e2]; simp only [ncAdv]; ring
  · simp

end Nalu.NC
