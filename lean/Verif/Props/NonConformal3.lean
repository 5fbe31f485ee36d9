import Verif.Props.NonConformal2

/-!
# Non-conformal interfaces: upwinding and penalty (C93), concrete interfaces
-/

set_option linter.unusedSectionVars false

namespace Nalu.NC
open Nalu.Edge Nalu.Kernel

variable {K : Type*} [Field K] [LinearOrder K] [IsStrictOrderedRing K]
variable {nc no fc fo nd : ℕ}

/-! ## C93 upwinding, penalty, length scale -/

theorem gradFlux_zero {nn nf : ℕ} (s : Side nn nf nd K) (n : Fin nd → K) : s.gradFlux n (fun _ => 0) = 0 := by
  simp [Side.gradFlux]

theorem val_zero {nn nf : ℕ} (s : Side nn nf nd K) : s.val (fun _ => (0 : K)) = 0 := by simp [Side.val]

/-- **C93** Upwinding on: without diffusion the flux is `mdot` times the value on the side the flow comes from. -/
theorem c93_upwind (mdot : K) (p : Point nc fc no fo nd K) (qC : Fin nc → K) (qO : Fin no → K) :
    scalarFlux 1 mdot p (fun _ => 0) (fun _ => 0) qC qO =
      mdot * if 0 ≤ mdot then p.cur.val qC else p.opp.val qO := by
  simp only [scalarFlux, val_zero, penalty, mul_zero, zero_mul, sub_zero, zero_div, add_zero, zero_add, ncAdv]
  split_ifs with h
  · rw [abs_of_nonneg h]; ring
  · rw [abs_of_neg (not_le.mp h)]; ring

/-- **C93** Upwinding off: the mean of the two sides. -/
theorem c93_central (mdot : K) (p : Point nc fc no fo nd K) (qC : Fin nc → K) (qO : Fin no → K) :
    scalarFlux 0 mdot p (fun _ => 0) (fun _ => 0) qC qO = mdot * ((p.cur.val qC + p.opp.val qO) / 2) := by
  simp only [scalarFlux, val_zero, penalty, mul_zero, zero_mul, sub_zero, zero_div, add_zero, zero_add, ncAdv]
  ring

/-- **C93** The volume-fraction residual upwinds whatever the option says. -/
theorem c93_vof_always_upwind (eta vdot : K) (p : Point nc fc no fo nd K) (q : Row nc no → K)
    (s : LocalSys (Row nc no) K) :
    (vofNC eta vdot p q s).rhs (.inl p.near) = s.rhs (.inl p.near) -
      vdot * if 0 ≤ vdot then p.cur.val (fun a => q (.inl a)) else p.opp.val (fun a => q (.inr a)) := by
  rw [vofNC_rhs, if_pos rfl]
  congr 1
  simp only [ncAdv]
  split_ifs with h
  · rw [abs_of_nonneg h]; ring
  · rw [abs_of_neg (not_le.mp h)]; ring

/-- **C93** The length in the penalty is the depth of the element behind the face: when the nodes of the face lie in a
plane with unit normal `n` and all other nodes at depth `h` behind it, the inverse length is `1/h`. -/
theorem c93_inverse_length {nn nf : ℕ} (s : Side nn nf nd K) (x : Fin nn → Fin nd → K) (hs : s.Consistent x)
    (n : Fin nd → K) (hn : ∑ j, n j * n j = 1) (hi : Function.Injective s.ord) (d h : K) (hh : h ≠ 0)
    (hf : ∀ ic, ∑ j, n j * x (s.ord ic) j = d)
    (ho : ∀ a, (∀ ic, s.ord ic ≠ a) → ∑ j, n j * x a j = d - h) : s.invLen n = 1 / h := by
  have e0 : ∑ a, ∑ j, s.dndx a j * n j = 0 := by
    rw [Finset.sum_comm]
    refine Finset.sum_eq_zero fun j _ => ?_
    rw [← Finset.sum_mul, hs.gradConst j, zero_mul]
  have e1 : ∑ a, (∑ j, s.dndx a j * n j) * (∑ i, n i * x a i) = 1 := by
    calc ∑ a, (∑ j, s.dndx a j * n j) * (∑ i, n i * x a i)
        = ∑ a, ∑ j, ∑ i, n j * n i * (s.dndx a j * x a i) := by
          refine Finset.sum_congr rfl fun a _ => ?_
          rw [Finset.sum_mul]
          refine Finset.sum_congr rfl fun j _ => ?_
          rw [Finset.mul_sum]
          exact Finset.sum_congr rfl fun i _ => by ring
      _ = ∑ j, ∑ i, n j * n i * ∑ a, s.dndx a j * x a i := by
          rw [Finset.sum_comm]
          refine Finset.sum_congr rfl fun j _ => ?_
          rw [Finset.sum_comm]
          exact Finset.sum_congr rfl fun i _ => by rw [Finset.mul_sum]
      _ = ∑ j, n j * n j := by
          refine Finset.sum_congr rfl fun j _ => ?_
          have e : ∀ i, n j * n i * ∑ a, s.dndx a j * x a i = if i = j then n j * n i else 0 := fun i => by
            rw [hs.gradLinear i j]; split_ifs <;> simp
          simp only [e, Finset.sum_ite_eq', Finset.mem_univ, if_true]
      _ = 1 := hn
  have e2 : ∑ a, (∑ j, s.dndx a j * n j) * ((∑ i, n i * x a i) - (d - h)) = 1 := by
    simp only [mul_sub, Finset.sum_sub_distrib, ← Finset.sum_mul, e1, e0]
    ring
  have e3 : ∑ a, (∑ j, s.dndx a j * n j) * ((∑ i, n i * x a i) - (d - h)) = s.invLen n * h := by
    rw [Side.invLen, Finset.sum_mul, ← Finset.sum_image (s := Finset.univ) (g := s.ord)
      (f := fun a => (∑ j, s.dndx a j * n j) * h) (fun a _ b _ hab => hi hab)]
    symm
    apply Finset.sum_subset_zero_on_sdiff (Finset.subset_univ _)
    · intro a ha
      have : ∀ ic, s.ord ic ≠ a := by
        intro ic hic
        simp only [Finset.mem_sdiff, Finset.mem_univ, true_and, Finset.mem_image, not_exists] at ha
        exact ha ic hic
      rw [ho a this, sub_self, mul_zero]
    · intro a ha
      obtain ⟨ic, _, rfl⟩ := Finset.mem_image.mp ha
      rw [hf ic]; ring
  rw [e3] at e2
  field_simp
  exact e2

/-- **C93** The jump is dissipated, never fed: flux times jump is the mean diffusive flux times the jump, plus the change
of `mdot q^2/2`, plus a non-negative multiple of the squared jump. -/
theorem c93_jump_dissipation (eta mdot : K) (he : 0 ≤ eta) (p : Point nc fc no fo nd K) (ha : 0 ≤ p.amag)
    (muC : Fin nc → K) (muO : Fin no → K) (hc : 0 ≤ p.cur.val muC) (ho : 0 ≤ p.opp.val muO)
    (lc : 0 ≤ p.cur.invLen p.cN) (lo : 0 ≤ p.opp.invLen p.oN) :
    ∃ k, 0 ≤ k ∧ ∀ (qC : Fin nc → K) (qO : Fin no → K),
      scalarFlux eta mdot p muC muO qC qO * (p.cur.val qC - p.opp.val qO) =
        (p.cur.gradFlux p.cN qC * p.cur.val muC - p.opp.gradFlux p.oN qO * p.opp.val muO) / 2 * p.amag *
          (p.cur.val qC - p.opp.val qO) +
        mdot * ((p.cur.val qC) ^ 2 / 2 - (p.opp.val qO) ^ 2 / 2) +
        k * (p.cur.val qC - p.opp.val qO) ^ 2 := by
  refine ⟨penalty p muC muO * p.amag + eta * |mdot| / 2, ?_, fun qC qO => ?_⟩
  · have h1 : 0 ≤ penalty p muC muO := by
      rw [penalty]
      have := mul_nonneg hc lc
      have := mul_nonneg ho lo
      linarith
    have h2 := mul_nonneg h1 ha
    have h3 := mul_nonneg he (abs_nonneg mdot)
    linarith
  · simp only [scalarFlux, ncAdv]; ring

/-- **C93** A pressure excess on one side drives mass to the other: raising the pressure of the whole current element by
`dp` adds `tau (1/h_c + 1/h_o)/2 dp A` to the mass flow rate out of it. -/
theorem c93_pressure_drives (o : MdotOpts K) (p : Point nc fc no fo nd K) (xC : Fin nc → Fin nd → K)
    (xO : Fin no → Fin nd → K) (hc : p.cur.Consistent xC) (_ho : p.opp.Consistent xO) (c : FlowSide nc nd K)
    (f : FlowSide no nd K) (pC : Fin nc → K) (pO : Fin no → K) (dp : K) :
    ncMdot o p c f (fun a => pC a + dp) pO = ncMdot o p c f pC pO +
      o.pts * ((p.cur.invLen p.cN + p.opp.invLen p.oN) / 2 * dp) * p.amag := by
  have e := ncMdot_lin o p c f pC (fun _ => dp) pO (fun _ => 0)
  simp only [add_zero] at e
  rw [e, presFlux, gradFlux_const _ hc.gradConst, gradFlux_zero, val_const _ hc.unity, val_zero]
  ring

/-- **C93** The penalty of the projected nodal gradient has the opposite sign: with `include_png_penalty` on (the
default) the interface row of a nodal gradient that jumps by `2 g` across the interface is
`(V - 2 A (h_c + h_o)/2) g` when the control volume of the row is `V`: the jump is taken away from the mass
matrix instead of added to it. -/
theorem c93_png_penalty_sign (p : Point nc fc no fo nd K) (hc : Unity p.cur.N) (ho : Unity p.opp.N)
    (qC : Fin nc → K) (qO : Fin no → K) (G : Row nc no × Fin nd → K) (V g : K) (i : Fin nd)
    (s : LocalSys (Row nc no × Fin nd) K) (d : Row nc no × Fin nd → K)
    (hdC : ∀ a, d (.inl a, i) = g) (hdO : ∀ a, d (.inr a, i) = -g)
    (hs : act s d (.inl p.near, i) = V * g) :
    act (pngNC 1 p qC qO G s) d (.inl p.near, i) =
      (V - (1 / p.cur.invLen p.cN + 1 / p.opp.invLen p.oN) * p.amag) * g := by
  rw [pngNC_act, hs, if_pos rfl]
  simp only [hdC, hdO, val_const _ hc, val_const _ ho]
  ring

/-! ## A concrete interface

Current element `[-1,0] x [0,1]`, opposing element `[0,2] x [-1,2]`, Gauss point `(0, 1/4)`: the meshes do not
match. -/

/-- Coordinates of the current element. -/
def exXC : Fin 4 → Fin 2 → ℚ := ![![-1, 0], ![0, 0], ![0, 1], ![-1, 1]]
/-- Coordinates of the opposing element. -/
def exXO : Fin 4 → Fin 2 → ℚ := ![![0, -1], ![2, -1], ![2, 2], ![0, 2]]
/-- The Gauss point. -/
def exPoint : Point 4 2 4 2 2 ℚ where
  cur := ⟨![1, 2], ![3 / 4, 1 / 4], ![![-3 / 4, 0], ![3 / 4, -1], ![1 / 4, 1], ![-1 / 4, 0]]⟩
  opp := ⟨![3, 0], ![5 / 12, 7 / 12], ![![-7 / 24, -1 / 3], ![7 / 24, 0], ![5 / 24, 0], ![-5 / 24, 1 / 3]]⟩
  area := ![1 / 2, 0]
  amag := 1 / 2
  oGen := ![-1, 0]
  near := 1
  useCurrentNormal := false

theorem exCur : exPoint.cur.Consistent exXC :=
  ⟨by unfold Unity; decide +kernel, by unfold GradConst; decide +kernel, by unfold GradLinear; decide +kernel⟩
theorem exOpp : exPoint.opp.Consistent exXO :=
  ⟨by unfold Unity; decide +kernel, by unfold GradConst; decide +kernel, by unfold GradLinear; decide +kernel⟩
theorem exPos : exPoint.cur.pos exXC = exPoint.opp.pos exXO := by decide +kernel
theorem exNormal : ∀ j, exPoint.oN j = -exPoint.cN j := by decide +kernel

/-- C91 applies: a linear field crosses the non-matching interface with diffusivities 1 and 3. -/
example : scalarFlux 1 5 exPoint (fun _ => 1) (fun _ => 3) (fun a => affine 7 ![2, 4] (exXC a))
    (fun a => affine 7 ![2, 4] (exXO a)) = -2 + 5 * 8 := by
  rw [c91_linear 1 5 exPoint exXC exXO exCur exOpp exPos exNormal (by decide +kernel)]
  decide +kernel

/-- C93 applies: depths 1 and 2. -/
example : exPoint.cur.invLen exPoint.cN = 1 / 1 :=
  c93_inverse_length _ exXC exCur _ (by decide +kernel) (by decide +kernel) 0 1 (by decide +kernel)
    (by decide +kernel) (by decide +kernel)
example : exPoint.opp.invLen exPoint.oN = 1 / 2 :=
  c93_inverse_length _ exXO exOpp _ (by decide +kernel) (by decide +kernel) 0 2 (by decide +kernel)
    (by decide +kernel) (by decide +kernel)

/-- The point seen from the other side. -/
def exMirror : Point 4 2 4 2 2 ℚ where
  cur := exPoint.opp
  opp := exPoint.cur
  area := ![-1 / 2, 0]
  amag := 1 / 2
  oGen := ![1, 0]
  near := 0
  useCurrentNormal := false

theorem exMirrored : Mirror exPoint exMirror :=
  ⟨rfl, rfl, by decide +kernel, by decide +kernel, by decide +kernel, by decide +kernel⟩

/-- C90 applies, with a flux that is not zero. -/
example : scalarFlux 1 5 exPoint (fun _ => 1) (fun _ => 3) ![1, 2, 3, 4] ![7, 0, 1, 2] ≠ 0 ∧
    scalarFlux 1 (-5) exMirror (fun _ => 3) (fun _ => 1) ![7, 0, 1, 2] ![1, 2, 3, 4] =
      -scalarFlux 1 5 exPoint (fun _ => 1) (fun _ => 3) ![1, 2, 3, 4] ![7, 0, 1, 2] :=
  ⟨by decide +kernel, c90_scalar_flux 1 5 exMirrored _ _ _ _⟩

/-- A pair for `c90_whole_interface`, joining nodes 0..3 and 4..7. -/
example : Pair (Fin 8) 2 ℚ :=
  ⟨4, 2, 4, 2, exPoint, exMirror, ![0, 1, 2, 3], ![4, 5, 6, 7], 5, exMirrored⟩

/-- **C91** With the divergence term on, the viscous flux of the pure expansion `u = x` differs from
`-mu (2 W - 2/3 tr W) A`: a tangential component appears that the stress does not have. -/
theorem c91_divU_wrong :
    momFlux 1 1 0 exPoint (fun _ => 1) (fun _ => 1) exXC exXO 1 ≠ 0 ∧
    -(∑ j, ((if (1 : Fin 2) = j then 2 else 0) - (if (1 : Fin 2) = j then (2 / 3 * 2 : ℚ) else 0)) * exPoint.area j) = 0 := by
  decide +kernel

/-- **C92** Without upwinding the volume-fraction matrix is not the derivative of its residual. -/
theorem c92_vof_central_not_newton : ¬ ExactNewton (vofNC (0 : ℚ) 5 exPoint) := by
  intro h
  have := h 0 (fun a => if a = .inl 1 then 1 else 0) ⟨fun _ _ => 0, fun _ => 0⟩ ⟨fun _ _ => 0, fun _ => 0⟩ (.inl 1)
  revert this
  decide +kernel

/-- **C93** On this interface the assembled jump mode of the projected gradient has a negative coefficient: the control
volume behind half the face is `1/4`, and `1/4 - 2 * 3/2 * 1/2 < 0`. -/
theorem c93_png_indefinite :
    (1 / 4 - (1 / exPoint.cur.invLen exPoint.cN + 1 / exPoint.opp.invLen exPoint.oN) * exPoint.amag : ℚ) < 0 := by
  decide +kernel

end Nalu.NC
