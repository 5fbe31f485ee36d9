import Verif.Props.HeatTransfer
import Mathlib.Order.Monotone.Basic
import Mathlib.Tactic.GCongr

/-!
# Properties of conjugate heat transfer: the solid's side

* C120: the boundary condition of the solid.
* C121: the Robin parameter.
-/

namespace Nalu.Cht
open Nalu.Edge Nalu.Kernel Nalu.Vof Finset

variable {N : Type*} [DecidableEq N] {nd nn nf nip : ℕ} {R : Type*} [Fintype R]

/-! ## C120 -/

/-- Specification: heat through the surface of an integration point of the solid's wall. -/
noncomputable def wallHeat (e : SolidFace nf nip nd) (alpha q tRef T : Fin nf → ℝ) (ip : Fin nip) : ℝ :=
  (interp (e.shape ip) q + interp (e.shape ip) alpha * (interp (e.shape ip) tRef - interp (e.shape ip) T)) * e.magA ip

theorem solidWall_rhs (e : SolidFace nf nip nd) (alpha q tRef T : Fin nf → ℝ) (s : LocalSys (Fin nf) ℝ) (a : Fin nf) :
    (solidWall e alpha q tRef T s).rhs a = s.rhs a + ∑ ip, if a = e.node ip then wallHeat e alpha q tRef T ip else 0 := by
  rw [solidWall, loop_rhs (a := a)]
  intro ip s
  rw [loop_rhs (a := a) (δ := fun _ => 0) (h := by intro k s; simp)]
  simp [wallHeat]

theorem solidWall_lhs (e : SolidFace nf nip nd) (alpha q tRef T : Fin nf → ℝ) (s : LocalSys (Fin nf) ℝ) (a b : Fin nf) :
    (solidWall e alpha q tRef T s).lhs a b =
      s.lhs a b + ∑ ip, if a = e.node ip then e.shape ip b * (interp (e.shape ip) alpha * e.magA ip) else 0 := by
  rw [solidWall, loop_lhs (a := a) (b := b)]
  intro ip s
  rw [loop_lhs (a := a) (b := b) (δ := fun ic => if a = e.node ip ∧ b = ic then e.shape ip ic * (interp (e.shape ip) alpha * e.magA ip) else 0)]
  · simp only [addR_lhs]
    congr 1
    by_cases h : a = e.node ip
    · simp [h]
    · simp [h]
  · intro k s
    simp only [addL_lhs]

theorem solidWall_act (e : SolidFace nf nip nd) (alpha q tRef T : Fin nf → ℝ) (s : LocalSys (Fin nf) ℝ) (d : Fin nf → ℝ) (a : Fin nf) :
    act (solidWall e alpha q tRef T s) d a = act s d a + ∑ ip, if a = e.node ip then
      ∑ ic, e.shape ip ic * (interp (e.shape ip) alpha * e.magA ip) * d ic else 0 :=
  act_of_node _ _ d a e.node (fun ip ic => e.shape ip ic * (interp (e.shape ip) alpha * e.magA ip))
    fun b => solidWall_lhs e alpha q tRef T s a b

/-- **C120** The matrix of the solid's wall condition is the exact derivative of its heat. -/
theorem c120_newton (e : SolidFace nf nip nd) (alpha q tRef : Fin nf → ℝ) : ExactNewton fun T s => solidWall e alpha q tRef T s := by
  refine node_newton e.node _ (fun T ip => wallHeat e alpha q tRef T ip) _ (fun T s a => solidWall_rhs e alpha q tRef T s a)
    (fun T s d a => solidWall_act e alpha q tRef T s d a) ?_
  intro T d ip
  simp only [wallHeat, interp, Pi.add_apply, mul_add, Finset.sum_add_distrib]
  have : ∑ ic, e.shape ip ic * ((∑ ic, e.shape ip ic * alpha ic) * e.magA ip) * d ic =
      (∑ ic, e.shape ip ic * alpha ic) * (∑ ic, e.shape ip ic * d ic) * e.magA ip := by
    generalize (∑ ic, e.shape ip ic * alpha ic) = A
    rw [Finset.mul_sum, Finset.sum_mul]
    exact Finset.sum_congr rfl fun ic _ => by ring
  rw [this]
  ring

/-- **C120** The heat that enters the solid is the heat through the wall, counted once. -/
theorem c120_total (e : SolidFace nf nip nd) (alpha q tRef T : Fin nf → ℝ) (s : LocalSys (Fin nf) ℝ) :
    ∑ a, (solidWall e alpha q tRef T s).rhs a = ∑ a, s.rhs a + ∑ ip, wallHeat e alpha q tRef T ip := by
  simp only [solidWall_rhs, Finset.sum_add_distrib]
  congr 1
  rw [Finset.sum_comm]
  simp

/-- **C120** No heat flows at equilibrium, and heat flows from hot to cold: into the solid where it is not hotter than the reference, out of
it where it is not colder. -/
theorem c120_direction (e : SolidFace nf nip nd) (hs : ∀ ip ic, 0 ≤ e.shape ip ic) (alpha tRef T : Fin nf → ℝ) (ha : ∀ n, 0 ≤ alpha n)
    (s : LocalSys (Fin nf) ℝ) (a : Fin nf) :
    (T = tRef → (solidWall e alpha 0 tRef T s).rhs a = s.rhs a) ∧
    ((∀ n, T n ≤ tRef n) → s.rhs a ≤ (solidWall e alpha 0 tRef T s).rhs a) ∧
    ((∀ n, tRef n ≤ T n) → (solidWall e alpha 0 tRef T s).rhs a ≤ s.rhs a) := by
  have hi : ∀ ip, 0 ≤ interp (e.shape ip) alpha := fun ip => Finset.sum_nonneg fun ic _ => mul_nonneg (hs ip ic) (ha ic)
  have hm : ∀ ip, 0 ≤ e.magA ip := fun ip => Real.sqrt_nonneg _
  have h0 : ∀ ip, interp (e.shape ip) (0 : Fin nf → ℝ) = 0 := fun ip => by simp [interp]
  rw [solidWall_rhs]
  refine ⟨?_, ?_, ?_⟩
  · rintro rfl
    simp [wallHeat, h0]
  · intro h
    have : 0 ≤ ∑ ip, if a = e.node ip then wallHeat e alpha 0 tRef T ip else 0 := by
      refine Finset.sum_nonneg fun ip _ => ?_
      split_ifs
      · refine mul_nonneg ?_ (hm ip)
        rw [h0, zero_add]
        exact mul_nonneg (hi ip) (sub_nonneg.mpr (Finset.sum_le_sum fun ic _ => mul_le_mul_of_nonneg_left (h ic) (hs ip ic)))
      · exact le_rfl
    linarith
  · intro h
    have : ∑ ip, (if a = e.node ip then wallHeat e alpha 0 tRef T ip else 0) ≤ 0 := by
      refine Finset.sum_nonpos fun ip _ => ?_
      split_ifs
      · refine mul_nonpos_of_nonpos_of_nonneg ?_ (hm ip)
        rw [h0, zero_add]
        exact mul_nonpos_of_nonneg_of_nonpos (hi ip)
          (sub_nonpos.mpr (Finset.sum_le_sum fun ic _ => mul_le_mul_of_nonneg_left (h ic) (hs ip ic)))
      · exact le_rfl
    linarith

/-- Specification: shifted shape functions (the integration point is at its node); used by the edge scheme. -/
def Lumped (e : SolidFace nf nip nd) : Prop := ∀ ip ic, e.shape ip ic = if ic = e.node ip then 1 else 0

theorem lumped_interp {e : SolidFace nf nip nd} (h : Lumped e) (ip : Fin nip) (q : Fin nf → ℝ) : interp (e.shape ip) q = q (e.node ip) := by
  simp [interp, h ip]

/-- **C120** With shifted shape functions the condition only adds to the diagonal, and not less than nothing. -/
theorem c120_diagonal (e : SolidFace nf nip nd) (hl : Lumped e) (alpha q tRef T : Fin nf → ℝ) (ha : ∀ n, 0 ≤ alpha n)
    (s : LocalSys (Fin nf) ℝ) (a b : Fin nf) :
    (a ≠ b → (solidWall e alpha q tRef T s).lhs a b = s.lhs a b) ∧ s.lhs a a ≤ (solidWall e alpha q tRef T s).lhs a a := by
  constructor
  · intro hab
    rw [solidWall_lhs, Finset.sum_eq_zero, add_zero]
    intro ip _
    split_ifs with h
    · rw [hl ip, if_neg (fun e' => hab (h.trans e'.symm)), zero_mul]
    · rfl
  · rw [solidWall_lhs]
    have : 0 ≤ ∑ ip, if a = e.node ip then e.shape ip a * (interp (e.shape ip) alpha * e.magA ip) else 0 := by
      refine Finset.sum_nonneg fun ip _ => ?_
      split_ifs with h
      · rw [lumped_interp hl, hl ip, if_pos h, one_mul]
        exact mul_nonneg (ha _) (Real.sqrt_nonneg _)
      · exact le_rfl
    linarith

/-- Heat entering the solid at mesh node `n` from a list of wall faces with their nodes, each assembled into zeroed local arrays. -/
noncomputable def solidHeat (faces : List (SolidFace nf nip nd × (Fin nf → N))) (d : SolidData N) (T : N → ℝ) (n : N) : ℝ :=
  (faces.map fun en => ∑ a, if en.2 a = n then (solidWall en.1 (fun i => d.alpha (en.2 i)) (fun i => d.q (en.2 i)) (fun i => d.tRef (en.2 i))
    (fun i => T (en.2 i)) ⟨fun _ _ => 0, fun _ => 0⟩).rhs a else 0).sum

/-- Wall area of the solid at node `n`. -/
noncomputable def solidArea (faces : List (SolidFace nf nip nd × (Fin nf → N))) (n : N) : ℝ :=
  (faces.map fun en => ∑ ip, if en.2 (en.1.node ip) = n then en.1.magA ip else 0).sum

theorem solidHeat_lumped (faces : List (SolidFace nf nip nd × (Fin nf → N))) (hl : ∀ en ∈ faces, Lumped en.1) (d : SolidData N) (T : N → ℝ)
    (n : N) : solidHeat faces d T n = solidArea faces n * (d.q n + d.alpha n * (d.tRef n - T n)) := by
  rw [solidHeat, solidArea, ← List.sum_map_mul_right]
  congr 1
  refine List.map_congr_left fun en hen => ?_
  simp only [solidWall_rhs, zero_add]
  rw [Finset.sum_mul]
  have : ∀ a, (if en.2 a = n then ∑ ip, (if a = en.1.node ip then wallHeat en.1 (fun i => d.alpha (en.2 i)) (fun i => d.q (en.2 i))
      (fun i => d.tRef (en.2 i)) (fun i => T (en.2 i)) ip else 0) else 0) =
      ∑ ip, if a = en.1.node ip then (if en.2 (en.1.node ip) = n then en.1.magA ip else 0) * (d.q n + d.alpha n * (d.tRef n - T n)) else 0 := by
    intro a
    split_ifs with h
    · refine Finset.sum_congr rfl fun ip _ => ?_
      split_ifs with h1 h2
      · simp only [wallHeat, lumped_interp (hl en hen)]
        rw [h2]; ring
      · rw [← h1] at h2; exact absurd h h2
      · rfl
    · refine (Finset.sum_eq_zero fun ip _ => ?_).symm
      split_ifs with h1 h2
      · rw [← h1] at h2; exact absurd h2 h
      · rw [zero_mul]
      · rfl
  simp only [this]
  rw [Finset.sum_comm]
  simp

/-- **C120** Energy is conserved across the interface, convection coupling: when the solid's wall temperature is the fluid's, the heat that
enters the solid at a node is the heat `Σ -k ∂T/∂n A` that leaves the fluid there (edge scheme, matching wall areas). -/
theorem c120_interface_convection (f : Fluid nd N) (ips : R → List (EdgeIp nd N)) (faces : List (SolidFace nf nip nd × (Fin nf → N)))
    (hl : ∀ en ∈ faces, Lumped en.1) (T : N → ℝ) {n : N} (hT : f.temp n ≠ 0) (hh : (edgeWall f ips).htc n ≠ 0) (hmatch : T n = f.temp n)
    (harea : solidArea faces n = nodeTotal ips (·.nodeR) (fun v => Real.sqrt v.asq) n) :
    solidHeat faces (convection (edgeWall f ips)) T n = nodeTotal ips (·.nodeR)
      (fun v => f.cond v.nodeR * (f.temp v.nodeL - f.temp v.nodeR) * v.asq * (1 / v.axdx f) - v.nonOrth f * f.nocFac) n := by
  rw [solidHeat_lumped faces hl, harea]
  simp only [convection, zero_add]
  rw [hmatch, c119_balance_edge f ips hT hh]
  obtain ⟨h1, -, h3, h4, -⟩ := edge_sums f ips n
  have hA : nodeTotal ips (·.nodeR) (fun v : EdgeIp nd N => Real.sqrt v.asq) n ≠ 0 := by
    intro h0
    apply hh
    simp only [edgeWall, Wall.normalize]
    rw [h1, h0]; simp
  simp only [edgeWall, Wall.normalize]
  rw [h1, h4, mul_div_cancel₀ _ hA]

/-- **C120** The same for the element scheme. -/
theorem c120_interface_convection_elem (f : Fluid nd N) (ips : R → List (ElemIp nn nf nd N))
    (faces : List (SolidFace nf nip nd × (Fin nf → N))) (hl : ∀ en ∈ faces, Lumped en.1) (T : N → ℝ) {n : N} (hT : f.temp n ≠ 0)
    (hh : (elemWall f ips).htc n ≠ 0) (hmatch : T n = f.temp n)
    (harea : solidArea faces n = nodeTotal ips (fun v => v.node v.near) (fun v => v.aMag) n) :
    solidHeat faces (convection (elemWall f ips)) T n =
      nodeTotal ips (fun v => v.node v.near) (fun v => -(v.bip f.cond * v.dTdA f.temp)) n := by
  rw [solidHeat_lumped faces hl, harea]
  simp only [convection, zero_add]
  rw [hmatch, c119_balance_elem f ips hT hh]
  obtain ⟨h1, -, h3, h4, -⟩ := elem_sums f ips n
  have hA : nodeTotal ips (fun v => v.node v.near) (fun v : ElemIp nn nf nd N => v.aMag) n ≠ 0 := by
    intro h0
    apply hh
    simp only [elemWall, Wall.normalize]
    rw [h1, h0]; simp
  simp only [elemWall, Wall.normalize]
  rw [h1, h4, mul_div_cancel₀ _ hA]

/-- **C120** Robin coupling: when the solid's wall temperature agrees with the fluid's, the heat is the interpolated heat flux of the fluid
for any shape functions and any Robin parameter. -/
theorem c120_interface_robin (e : SolidFace nf nip nd) (m : Fin nf → N) (w : Wall N) (temp T : N → ℝ) (h : ∀ i, T (m i) = temp (m i)) (ip : Fin nip) :
    wallHeat e (fun i => (robinCoupling w temp).alpha (m i)) (fun i => (robinCoupling w temp).q (m i)) (fun i => (robinCoupling w temp).tRef (m i))
      (fun i => T (m i)) ip = interp (e.shape ip) (fun i => w.q (m i)) * e.magA ip := by
  simp only [wallHeat, robinCoupling, h, sub_self, mul_zero, add_zero]

/-! ## C121 -/

theorem root_mul {chi : ℝ} (h : 0 ≤ chi) :
    (1 + chi + Real.sqrt (chi * (chi + 2))) * (1 + chi - Real.sqrt (chi * (chi + 2))) = 1 := by
  have : Real.sqrt (chi * (chi + 2)) * Real.sqrt (chi * (chi + 2)) = chi * (chi + 2) :=
    Real.mul_self_sqrt (mul_nonneg h (by linarith))
  linear_combination -this

/-- **C121** Closed form: the Robin parameter is `√(χ(χ+2)) k/h`; it is positive for a positive time step, conductivity and length. -/
theorem c121_closed {chi : ℝ} (hc : 0 ≤ chi) (kappa h : ℝ) : couplingParameter kappa h chi = Real.sqrt (chi * (chi + 2)) * kappa / h := by
  have hs := Real.sqrt_nonneg (chi * (chi + 2))
  have hp : 0 < 1 + chi + Real.sqrt (chi * (chi + 2)) := by linarith
  have : 1 / (1 + chi + Real.sqrt (chi * (chi + 2))) = 1 + chi - Real.sqrt (chi * (chi + 2)) := by
    rw [div_eq_iff hp.ne', mul_comm]; exact (root_mul hc).symm
  simp only [couplingParameter, this]
  ring

/-- **C121** Bounds: between the conductances of the heat capacity alone and of capacity plus conduction. -/
theorem c121_bounds {chi kappa h : ℝ} (hc : 0 < chi) (hk : 0 < kappa) (hh : 0 < h) :
    chi * kappa / h < couplingParameter kappa h chi ∧ couplingParameter kappa h chi < (1 + chi) * kappa / h ∧ 0 < couplingParameter kappa h chi := by
  have h1 : chi < Real.sqrt (chi * (chi + 2)) := Real.lt_sqrt_of_sq_lt (by nlinarith)
  have h2 : Real.sqrt (chi * (chi + 2)) < 1 + chi := (Real.sqrt_lt' (by linarith)).mpr (by nlinarith)
  rw [c121_closed hc.le]
  refine ⟨by gcongr, by gcongr, ?_⟩
  have : 0 < Real.sqrt (chi * (chi + 2)) := hc.trans h1
  positivity

/-- **C121** A smaller time step gives a larger Robin parameter. -/
theorem c121_monotone {chi chi' kappa h : ℝ} (hc : 0 ≤ chi) (hcc : chi < chi') (hk : 0 < kappa) (hh : 0 < h) :
    couplingParameter kappa h chi < couplingParameter kappa h chi' := by
  rw [c121_closed hc, c121_closed (hc.trans hcc.le)]
  have : Real.sqrt (chi * (chi + 2)) < Real.sqrt (chi' * (chi' + 2)) :=
    Real.sqrt_lt_sqrt (mul_nonneg hc (by linarith)) (by nlinarith)
  gcongr

/-- Specification: one backward Euler step, started from zero, of heat conduction in a half space of uniform spacing `h`: node `i+1`
balances the heat stored in its volume `h` against the conduction from its neighbours. -/
def HalfSpaceStep (rho cp kappa h dt : ℝ) (T : ℕ → ℝ) : Prop :=
  ∀ i, rho * cp * h * T (i + 1) / dt = kappa * (T i - T (i + 1)) / h + kappa * (T (i + 2) - T (i + 1)) / h

/-- Specification: heat that must enter at the wall in that step: heat stored in the half volume of the wall node plus conduction to the
next node. -/
noncomputable def wallInflow (rho cp kappa h dt : ℝ) (T : ℕ → ℝ) : ℝ := rho * cp * (h / 2) * T 0 / dt + kappa * (T 0 - T 1) / h

/-- **C121** The Robin parameter is the impedance of the discrete half space: for every temperature that satisfies the step and stays
bounded away from the wall, the heat entering at the wall is exactly `α T₀`. -/
theorem c121_impedance {rho cp kappa h dt : ℝ} (hr : 0 < rho) (hcp : 0 < cp) (hk : 0 < kappa) (hh : 0 < h) (hdt : 0 < dt) (T : ℕ → ℝ)
    (hT : HalfSpaceStep rho cp kappa h dt T) (B : ℝ) (hB : ∀ i, |T i| ≤ B) :
    wallInflow rho cp kappa h dt T = couplingParameter kappa h (rho * cp * h * h / (2 * kappa * dt)) * T 0 := by
  set chi := rho * cp * h * h / (2 * kappa * dt) with hchi
  have hc : 0 < chi := by positivity
  set s := Real.sqrt (chi * (chi + 2)) with hs
  have hs0 : 0 < s := Real.sqrt_pos.mpr (by positivity)
  have hss : s * s = chi * (chi + 2) := Real.mul_self_sqrt (by positivity)
  have hrec : ∀ i, T (i + 2) = 2 * (1 + chi) * T (i + 1) - T i := by
    intro i
    have := hT i
    rw [hchi]
    field_simp at this ⊢
    linear_combination -this
  -- the growing part
  let D : ℕ → ℝ := fun i => T (i + 1) - (1 + chi - s) * T i
  have hD : ∀ i, D (i + 1) = (1 + chi + s) * D i := by
    intro i
    simp only [D]
    rw [show i + 1 + 1 = i + 2 from rfl, hrec i]
    linear_combination -(T i) * hss
  have hDn : ∀ i, D i = (1 + chi + s) ^ i * D 0 := by
    intro i
    induction i with
    | zero => simp
    | succ i ih => rw [hD, ih, pow_succ]; ring
  have hD0 : D 0 = 0 := by
    by_contra hne
    have hpos : 0 < |D 0| := abs_pos.mpr hne
    have hbd : ∀ i, |D i| ≤ B + |1 + chi - s| * B := by
      intro i
      calc |D i| ≤ |T (i + 1)| + |(1 + chi - s) * T i| := abs_sub _ _
        _ ≤ B + |1 + chi - s| * B := by
          rw [abs_mul]
          exact add_le_add (hB _) (mul_le_mul_of_nonneg_left (hB _) (abs_nonneg _))
    obtain ⟨i, hi⟩ := pow_unbounded_of_one_lt ((B + |1 + chi - s| * B) / |D 0|) (show (1 : ℝ) < 1 + chi + s by linarith)
    have h1 := hbd i
    rw [hDn i, abs_mul, abs_of_pos (by positivity : (0 : ℝ) < (1 + chi + s) ^ i)] at h1
    rw [div_lt_iff₀ hpos] at hi
    linarith
  have h1 : T 1 = (1 + chi - s) * T 0 := by
    have : T (0 + 1) - (1 + chi - s) * T 0 = 0 := hD0
    simpa [sub_eq_zero] using this
  rw [c121_closed hc.le, wallInflow, h1, ← hs]
  have e : rho * cp * (h / 2) / dt = chi * kappa / h := by rw [hchi]; field_simp
  have : rho * cp * (h / 2) * T 0 / dt = chi * kappa / h * T 0 := by rw [← e]; ring
  rw [this]
  field_simp
  ring

/-- **C121** With the exact impedance the coupling converges at once: if the fluid's heat flux responds to its wall temperature as
`q(T) = q₀ - α T`, the Robin condition imposes the true flux for the new temperature, whatever temperature it was linearised about. -/
theorem c121_one_step (q0 alpha tRef T : ℝ) : (q0 - alpha * tRef) + alpha * (tRef - T) = q0 - alpha * T := by ring

/-- **C121** The nodal Robin parameter (edge scheme) is the area average of the parameters of its faces: it is positive, and within their
bounds. -/
theorem c121_nodal (f : Fluid nd N) (ips : R → List (EdgeIp nd N)) (hw : WallOutward f ips) (hr : ∀ n, 0 < f.rho n) (hcp : ∀ n, 0 < f.cp n)
    (hk : ∀ n, 0 < f.cond n) (hdt : 0 < f.dt) (n : N) (hn : ∃ k, ∃ v ∈ ips k, v.nodeR = n) :
    0 < (edgeWall f ips).robin n ∧ ∀ lo hi, (∀ k, ∀ v ∈ ips k, v.nodeR = n → lo ≤ v.alpha f ∧ v.alpha f ≤ hi) →
      lo ≤ (edgeWall f ips).robin n ∧ (edgeWall f ips).robin n ≤ hi := by
  have hA : 0 < nodeTotal ips (·.nodeR) (fun v : EdgeIp nd N => Real.sqrt v.asq) n :=
    nodeTotal_pos _ _ _ _ (fun k v hv _ => Real.sqrt_pos.mpr (hw k v hv).2) hn
  obtain ⟨h1, -, -, -, h5⟩ := edge_sums f ips n
  have e : (edgeWall f ips).robin n = nodeTotal ips (·.nodeR) (fun v => v.alpha f * Real.sqrt v.asq) n /
      nodeTotal ips (·.nodeR) (fun v => Real.sqrt v.asq) n := by
    simp only [edgeWall, Wall.normalize]
    rw [h1, h5]
  rw [e]
  constructor
  · refine div_pos (nodeTotal_pos _ _ _ _ (fun k v hv _ => ?_) hn) hA
    have hs := Real.sqrt_pos.mpr (hw k v hv).2
    have hlen : 0 < v.edgeLen f := div_pos (hw k v hv).1 hs
    refine mul_pos (c121_bounds ?_ (hk _) hlen).2.2 hs
    have := hr v.nodeR
    have := hcp v.nodeR
    have := hk v.nodeR
    positivity
  · intro lo hi hb
    rw [le_div_iff₀ hA, div_le_iff₀ hA, mul_comm lo, mul_comm hi, ← nodeTotal_mul, ← nodeTotal_mul]
    constructor
    · refine nodeTotal_le _ _ _ _ _ fun k v hv hvn => ?_
      have := mul_le_mul_of_nonneg_left (hb k v hv hvn).1 (Real.sqrt_nonneg v.asq)
      linarith
    · refine nodeTotal_le _ _ _ _ _ fun k v hv hvn => ?_
      have := mul_le_mul_of_nonneg_left (hb k v hv hvn).2 (Real.sqrt_nonneg v.asq)
      linarith

/-! ## The hypotheses are met -/

/-- A wall node `1` above a fluid node `0`, unit distance and area. -/
def exIps : Fin 1 → List (EdgeIp 1 (Fin 2)) := fun _ => [⟨0, 1, fun _ => 1⟩]
/-- Fluid fields of the example. -/
def exFluid : Fluid 1 (Fin 2) := ⟨fun n _ => n.val, fun n => if n = 0 then 400 else 300, fun _ => 1, fun _ => 2, fun _ => 3, fun _ _ => 0, 1, 0⟩

theorem ex_outward : WallOutward exFluid exIps := by
  intro k v hv
  simp only [exIps, List.mem_singleton] at hv
  subst hv
  constructor <;> simp [EdgeIp.axdx, EdgeIp.asq, exFluid]

example : exFluid.temp 1 ≠ 0 ∧ 0 < (edgeWall exFluid exIps).htc 1 :=
  ⟨by simp [exFluid], (c119_coefficient_edge exFluid exIps ex_outward (by simp [exFluid]) ⟨0, ⟨0, 1, fun _ => 1⟩, by simp [exIps], rfl⟩).2
    (by simp [exFluid])⟩

/-- A bounded solution of the half-space step: the geometric one, for `χ = 1/4` (ratio one half). -/
example : HalfSpaceStep 1 1 2 1 1 (fun i => (1/2 : ℝ) ^ i) ∧ ∀ i, |(1/2 : ℝ) ^ i| ≤ 1 := by
  constructor
  · intro i
    simp only [pow_succ]
    ring
  · intro i
    rw [abs_of_pos (by positivity)]
    exact pow_le_one₀ (by norm_num) (by norm_num)

end Nalu.Cht
