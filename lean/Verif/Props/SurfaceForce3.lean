import Verif.Props.SurfaceForce2

/-!
# What a wall point contributes (C110)
-/

set_option linter.unusedSectionVars false

namespace Nalu.Force
open Nalu.Wall Nalu.Kernel

variable {M : Type*} {nd : ℕ}

theorem tangential_zero (n : Fin nd → ℝ) (i : Fin nd) : tangential n (fun _ => 0) i = 0 := by
  rw [tangential_eq]; simp [orthPart]

/-- Specification: Newtonian stress on the wall, `-mu (grad u + grad u^T) n`. -/
def newtonian (mu : ℝ) (g : Fin nd → Fin nd → ℝ) (n : Fin nd → ℝ) (i : Fin nd) : ℝ := -(mu * ∑ j, (g i j + g j i) * n j)

theorem traction_eq (mu : ℝ) (g : Fin nd → Fin nd → ℝ) (n : Fin nd → ℝ) (i : Fin nd) : traction mu g n i = newtonian mu g n i := by
  simp only [traction, newtonian, Finset.mul_sum, ← Finset.sum_neg_distrib]
  exact Finset.sum_congr rfl fun j _ => by ring

theorem plain_tau (divFac : ℝ) (F : Fields M nd) (f : Face M nd) (ip : Fin f.nip) :
    (plainPoint divFac F f ip).tauA = tangentialSpeed (unitNormal (f.area ip))
      (newtonian (f.val ip F.mu) (F.dudx (f.node (f.near ip))) (unitNormal (f.area ip))) (fun _ => 0) * aMag (f.area ip) := by
  simp only [plainPoint, tangentialSpeed, tangential_zero, sub_zero]
  rw [show traction (f.val ip F.mu) (F.dudx (f.node (f.near ip))) (unitNormal (f.area ip)) = newtonian _ _ _ from
    funext fun i => traction_eq _ _ _ i]

/-- **C110** The shear stress at a point is the length of the tangential part of the Newtonian wall stress: its square is that of the
stress less that of the normal part, and it vanishes exactly where the stress is normal to the wall. -/
theorem c110_tau_tangential (divFac : ℝ) (F : Fields M nd) (f : Face M nd) (ip : Fin f.nip) (ha : f.area ip ≠ 0) :
    let a := f.area ip
    let n := unitNormal a
    let t := newtonian (f.val ip F.mu) (F.dudx (f.node (f.near ip))) n
    let c := plainPoint divFac F f ip
    0 ≤ c.tauA ∧ c.tauA ^ 2 = (∑ i, t i ^ 2 - (∑ i, n i * t i) ^ 2) * aMag a ^ 2 ∧
      (c.tauA = 0 ↔ ∃ q : ℝ, ∀ i, t i = q * n i) := by
  intro a n t c
  have hn : ∑ j, n j * n j = 1 := c67_unit_normal a ha
  obtain ⟨h1, h2, h3⟩ := c67_tangential_speed n t (fun _ => 0) hn
  have hp := aMag_pos a ha
  have e : c.tauA = tangentialSpeed n t (fun _ => 0) * aMag a := plain_tau divFac F f ip
  simp only [sub_zero] at h1 h3
  refine ⟨by rw [e]; exact mul_nonneg h2 hp.le, by rw [e, mul_pow, h1], ?_⟩
  rw [e, mul_eq_zero, ← h3]
  exact ⟨fun h => h.resolve_right hp.ne', Or.inl⟩

/-- **C110** The viscous force at a point is the Newtonian wall stress (with the two-thirds divergence term if switched on) times the
area, whatever the gradient. -/
theorem c110_viscous_force (divFac : ℝ) (F : Fields M nd) (f : Face M nd) (ip : Fin f.nip) (ha : f.area ip ≠ 0) (i : Fin nd) :
    (plainPoint divFac F f ip).vF i = aMag (f.area ip) *
      (newtonian (f.val ip F.mu) (F.dudx (f.node (f.near ip))) (unitNormal (f.area ip)) i +
        divFac * (2 / 3 * f.val ip F.mu * ∑ j, F.dudx (f.node (f.near ip)) j j) * unitNormal (f.area ip) i) := by
  have hp := (aMag_pos _ ha).ne'
  have e : ∀ j, f.area ip j = aMag (f.area ip) * unitNormal (f.area ip) j := fun j => by
    simp only [unitNormal]; field_simp
  simp only [plainPoint, newtonian]
  rw [Finset.sum_congr rfl fun j _ => show -f.val ip F.mu * (F.dudx (f.node (f.near ip)) i j + F.dudx (f.node (f.near ip)) j i) *
    f.area ip j = -(aMag (f.area ip) * f.val ip F.mu) * ((F.dudx (f.node (f.near ip)) i j + F.dudx (f.node (f.near ip)) j i) *
      unitNormal (f.area ip) j) by rw [e j]; ring]
  rw [← Finset.mul_sum]
  rw [show 2 / 3 * f.val ip F.mu * (∑ j, F.dudx (f.node (f.near ip)) j j) * divFac * f.area ip i = 2 / 3 * f.val ip F.mu *
    (∑ j, F.dudx (f.node (f.near ip)) j j) * divFac * (aMag (f.area ip) * unitNormal (f.area ip) i) by rw [← e i]]
  ring

/-- **C110** Simple shear along `t` with rate `s` over a wall with normal `n`: force `-mu s` per area along `t`, shear stress
`mu |s|`, and `y+` satisfies `y+ ^ 2 = rho |s| d ^ 2 / mu` with `d` the distance the code takes. -/
theorem c110_simple_shear (divFac : ℝ) (F : Fields M nd) (f : Face M nd) (ip : Fin f.nip) (ha : f.area ip ≠ 0)
    (s : ℝ) (t : Fin nd → ℝ) (ht : ∑ i, t i * t i = 1) (htn : ∑ i, unitNormal (f.area ip) i * t i = 0)
    (hg : ∀ i j, F.dudx (f.node (f.near ip)) i j = s * t i * unitNormal (f.area ip) j)
    (hmu : 0 < f.val ip F.mu) (hrho : 0 < f.val ip F.rho) :
    (∀ i, (plainPoint divFac F f ip).vF i = -(f.val ip F.mu * s * aMag (f.area ip)) * t i) ∧
    (plainPoint divFac F f ip).tauA = f.val ip F.mu * |s| * aMag (f.area ip) ∧
    (plainPoint divFac F f ip).yplus ^ 2 = f.val ip F.rho * |s| / f.val ip F.mu *
      normalDistance (unitNormal (f.area ip)) (F.x (f.opp ip)) (F.x (f.node (f.near ip))) ^ 2 := by
  set n := unitNormal (f.area ip) with hndef
  have hn : ∑ j, n j * n j = 1 := c67_unit_normal _ ha
  have hp := aMag_pos _ ha
  set mu := f.val ip F.mu with hmudef
  have hnt : ∀ i, newtonian mu (F.dudx (f.node (f.near ip))) n i = -(mu * s) * t i := fun i => by
    simp only [newtonian, hg]
    have : ∀ j, (s * t i * n j + s * t j * n i) * n j = s * t i * (n j * n j) + s * n i * (n j * t j) := fun j => by ring
    simp only [this, Finset.sum_add_distrib, ← Finset.mul_sum, hn, htn]
    ring
  have hdiv : ∑ j, F.dudx (f.node (f.near ip)) j j = 0 := by
    simp only [hg]
    have : ∀ j, s * t j * n j = s * (n j * t j) := fun j => by ring
    simp only [this, ← Finset.mul_sum, htn, mul_zero]
  have hspeed : tangentialSpeed n (newtonian mu (F.dudx (f.node (f.near ip))) n) (fun _ => 0) = mu * |s| := by
    obtain ⟨h1, h2, -⟩ := c67_tangential_speed n (newtonian mu (F.dudx (f.node (f.near ip))) n) (fun _ => 0) hn
    simp only [sub_zero, hnt] at h1
    have a1 : ∀ i, (-(mu * s) * t i) ^ 2 = (mu * s) ^ 2 * (t i * t i) := fun i => by ring
    have a2 : ∀ i, n i * (-(mu * s) * t i) = -(mu * s) * (n i * t i) := fun i => by ring
    simp only [a1, a2, ← Finset.mul_sum, ht, htn, mul_zero, mul_one] at h1
    have h4 : (mu * s) ^ 2 - 0 ^ 2 = (mu * |s|) ^ 2 := by rw [mul_pow, mul_pow, sq_abs]; ring
    rw [h4] at h1
    exact (pow_left_inj₀ h2 (mul_nonneg hmu.le (abs_nonneg s)) two_ne_zero).mp h1
  refine ⟨fun i => ?_, ?_, ?_⟩
  · rw [c110_viscous_force divFac F f ip ha i, ← hndef, ← hmudef, hnt, hdiv]; ring
  · rw [plain_tau, ← hndef, ← hmudef, hspeed]
  · have e : (plainPoint divFac F f ip).yplus = f.val ip F.rho * normalDistance n (F.x (f.opp ip)) (F.x (f.node (f.near ip))) / mu *
        Real.sqrt (tangentialSpeed n (newtonian mu (F.dudx (f.node (f.near ip))) n) (fun _ => 0) / f.val ip F.rho) := by
      simp only [plainPoint, tangentialSpeed, tangential_zero, sub_zero]
      rw [show traction (f.val ip F.mu) (F.dudx (f.node (f.near ip))) (unitNormal (f.area ip)) = newtonian _ _ _ from
        funext fun i => traction_eq _ _ _ i]
    rw [e, hspeed, mul_pow, Real.sq_sqrt (div_nonneg (mul_nonneg hmu.le (abs_nonneg s)) hrho.le)]
    field_simp

/-- **C110** The distance in `y+` is the length of the componentwise product of normal and edge, four times the wall distance of the wall
functions: the distance to the wall for a normal along an axis (`c68_wall_distance_axis_partial`), too small by up to `sqrt nDim`
otherwise. -/
theorem c110_distance (a xL xR : Fin nd → ℝ) : normalDistance (unitNormal a) xL xR = 4 * wallDistance a xL xR := by
  have e : ∀ j, unitNormal a j * (xR j - xL j) * unitNormal a j * (xR j - xL j) =
      4 ^ 2 * (a j / aMag a * (1 / 4 * (xR j - xL j)) * (a j / aMag a) * (1 / 4 * (xR j - xL j))) := fun j => by
    simp only [unitNormal]; ring
  simp only [normalDistance, wallDistance, e, ← Finset.mul_sum]
  rw [Real.sqrt_mul (by positivity), Real.sqrt_sq (by norm_num)]

/-! ## Wall functions -/

/-- **C110** Wall function: `tau` times area is the length of the viscous force, which is tangential; with the friction velocity solving the
law of the wall above the critical `y+` it is `rho utau ^ 2` times area. -/
theorem c110_wall_function (o : WallOpts) (W : WallData M nd) (F : Fields M nd) (f : Face M nd) (ip : Fin f.nip)
    (ha : f.area ip ≠ 0)
    (hlam : 0 ≤ lambda o.elog o.kappa o.yplusCrit (f.val ip F.rho) (f.val ip F.mu) (W.yp f ip) (W.utau f ip) (aMag (f.area ip))) :
    let c := wallFnPoint o W F f ip
    0 ≤ c.tauA ∧ c.tauA ^ 2 = ∑ i, c.vF i ^ 2 ∧ ∑ i, unitNormal (f.area ip) i * c.vF i = 0 ∧
    (0 < o.kappa → 0 < o.elog → 1 ≤ o.elog * o.yplusCrit → 0 ≤ f.val ip F.rho → o.yplusCrit < c.yplus →
      LawOfTheWall o.elog o.kappa (tangentialSpeed (unitNormal (f.area ip)) (fun j => f.val ip fun m => F.u m j)
        (fun j => f.val ip fun m => F.ubc m j)) (W.yp f ip) (f.val ip F.rho) (f.val ip F.mu) (W.utau f ip) →
      c.tauA = f.val ip F.rho * W.utau f ip ^ 2 * aMag (f.area ip)) := by
  intro c
  have hn := c67_unit_normal (f.area ip) ha
  have hp := aMag_pos _ ha
  have hs : c.tauA = lambda o.elog o.kappa o.yplusCrit (f.val ip F.rho) (f.val ip F.mu) (W.yp f ip) (W.utau f ip)
      (aMag (f.area ip)) * tangentialSpeed (unitNormal (f.area ip)) (fun j => f.val ip fun m => F.u m j)
        (fun j => f.val ip fun m => F.ubc m j) := rfl
  have hv : ∀ i, c.vF i = -wallRhs (lambda o.elog o.kappa o.yplusCrit (f.val ip F.rho) (f.val ip F.mu) (W.yp f ip) (W.utau f ip)
      (aMag (f.area ip))) (unitNormal (f.area ip)) (fun j => f.val ip fun m => F.u m j) (fun j => f.val ip fun m => F.ubc m j) i :=
    fun i => (neg_neg _).symm
  generalize hlm : lambda o.elog o.kappa o.yplusCrit (f.val ip F.rho) (f.val ip F.mu) (W.yp f ip) (W.utau f ip)
      (aMag (f.area ip)) = lam at *
  have h0 : 0 ≤ c.tauA := by rw [hs]; exact mul_nonneg hlam (Real.sqrt_nonneg _)
  have hsq : c.tauA ^ 2 = ∑ i, c.vF i ^ 2 := by
    rw [hs, mul_pow, tangentialSpeed, Real.sq_sqrt (Finset.sum_nonneg fun i _ => mul_self_nonneg _), Finset.mul_sum]
    refine Finset.sum_congr rfl fun i _ => ?_
    rw [hv]; simp only [wallRhs]; ring
  refine ⟨h0, hsq, ?_, ?_⟩
  · have := (c67_force_tangential_and_opposing lam (unitNormal (f.area ip)) (fun j => f.val ip fun m => F.u m j)
      (fun j => f.val ip fun m => F.ubc m j) hn).1
    simp only [hv, mul_neg, Finset.sum_neg_distrib, this, neg_zero]
  · intro hk hE hEy hr hy hlaw
    have := c67_force_is_wall_shear_stress (area := aMag (f.area ip)) (yplusCrit := o.yplusCrit) (unitNormal (f.area ip))
      (fun j => f.val ip fun m => F.u m j) (fun j => f.val ip fun m => F.ubc m j) hk hE hEy hy hlaw
    rw [hlm] at this
    have h2 : c.tauA ^ 2 = (f.val ip F.rho * W.utau f ip ^ 2 * aMag (f.area ip)) ^ 2 := by
      rw [hsq, ← this]; exact Finset.sum_congr rfl fun i _ => by rw [hv]; ring
    exact (pow_left_inj₀ h0 (by positivity) two_ne_zero).mp h2

/-- **C110** Projected wall function.  Without the boundary-layer equation (`odeFac = 0`) the point contributes what the wall function
contributes for the velocity at the projected point.  With it (`odeFac = 1`) force and `tau` have the size `rho utau ^ 2` times area
and the force points along the slip velocity. -/
theorem c110_projected (o : WallOpts) (W : WallData M nd) (F : Fields M nd) (f : Face M nd) (ip : Fin f.nip) :
    let n := unitNormal (f.area ip)
    let ub : Fin nd → ℝ := fun j => f.val ip fun m => F.ubc m j
    let uT := tangentialSpeed n (W.uProj f ip) ub
    let c := projectedPoint o W F f ip
    (W.odeFac f ip = 0 →
      let lam := lambda o.elog o.kappa o.yplusCrit (f.val ip F.rho) (f.val ip F.mu) (W.yp f ip) (W.utau f ip) (aMag (f.area ip))
      (∀ i, c.vF i = -wallRhs lam n (W.uProj f ip) ub i) ∧ c.tauA = lam * uT) ∧
    (W.odeFac f ip = 1 → c.tauA = f.val ip F.rho * W.utau f ip ^ 2 * aMag (f.area ip) ∧
      (uT ≠ 0 → ∑ i, c.vF i ^ 2 = c.tauA ^ 2 ∧
        ∀ i, c.vF i = c.tauA * ((tangential n (W.uProj f ip) i - tangential n ub i) / uT))) := by
  intro n ub uT c
  refine ⟨fun h => ?_, fun h => ?_⟩
  · refine ⟨fun i => ?_, ?_⟩
    · simp only [c, projectedPoint, h, wallRhs, n, ub]; ring
    · simp only [c, projectedPoint, h, uT, n, ub]; ring
  · have ht : c.tauA = f.val ip F.rho * W.utau f ip ^ 2 * aMag (f.area ip) := by simp only [c, projectedPoint, h]; ring
    refine ⟨ht, fun hT => ?_⟩
    have hv : ∀ i, c.vF i = c.tauA * ((tangential n (W.uProj f ip) i - tangential n ub i) / uT) := fun i => by
      rw [ht]; simp only [c, projectedPoint, h, n, ub, uT]; ring
    refine ⟨?_, hv⟩
    have e : ∀ i, c.vF i ^ 2 = c.tauA ^ 2 / uT ^ 2 * ((tangential n (W.uProj f ip) i - tangential n ub i) *
        (tangential n (W.uProj f ip) i - tangential n ub i)) := fun i => by rw [hv]; ring
    simp only [e, ← Finset.mul_sum]
    rw [show ∑ i, (tangential n (W.uProj f ip) i - tangential n ub i) * (tangential n (W.uProj f ip) i - tangential n ub i) = uT ^ 2 from
      (Real.sq_sqrt (Finset.sum_nonneg fun i _ => mul_self_nonneg _)).symm]
    field_simp

/-! ## Cases -/

/-- A wall of one square face, area `(0, -2)` for a fluid above, one node below another. -/
noncomputable def oneFace : Face (Fin 2) 2 :=
  { nf := 1, nip := 1, shape := fun _ _ => 1, area := fun _ => ![0, -2], near := fun _ => 0, node := fun _ => 0, opp := fun _ => 1 }

/-- Couette flow `u = (3 y, 0)` over it, pressure 5. -/
noncomputable def couette : Fields (Fin 2) 2 :=
  { x := ![![1, 0], ![1, 1 / 2]], p := fun _ => 5, rho := fun _ => 1, mu := fun _ => 1 / 10,
    dudx := fun _ => ![![0, 3], ![0, 0]], u := ![![0, 0], ![3 / 2, 0]], ubc := fun _ => ![0, 0] }

/-- Its point. -/
def ip0 : Fin oneFace.nip := (0 : Fin 1)

theorem oneFace_area : oneFace.area ip0 = ![0, -2] := rfl

theorem oneFace_node (i) : oneFace.node i = 0 := rfl

theorem oneFace_mag : aMag (oneFace.area ip0) = 2 := by
  simp only [aMag, oneFace_area, Fin.sum_univ_two, Matrix.cons_val_zero, Matrix.cons_val_one]
  rw [show (0 : ℝ) * 0 + -2 * -2 = 2 ^ 2 by norm_num]; exact Real.sqrt_sq (by norm_num)

theorem oneFace_val (q : Fin 2 → ℝ) : oneFace.val ip0 q = q 0 := by
  show ∑ _ic : Fin 1, (1 : ℝ) * q 0 = q 0
  simp

/-- The fluid drags the wall along `+x` with `mu s A = 3/10 * 2` and presses it down with 10; the moment about the origin follows. -/
example : let r := report couette.x (fun _ => 0) [points (plainPoint 0 couette) [oneFace]]
    r.fP 0 = 0 ∧ r.fP 1 = -10 ∧ r.fV 0 = 3 / 5 ∧ r.fV 1 = 0 ∧ r.mo 2 = -10 := by
  intro r
  obtain ⟨h1, h2, h3, -, -⟩ := c109_totals couette.x (fun _ => 0) [points (plainPoint 0 couette) [oneFace]]
  have e : (points (plainPoint 0 couette) [oneFace]) = [plainPoint 0 couette oneFace ip0] := rfl
  obtain ⟨c, hc⟩ : ∃ c, c = plainPoint 0 couette oneFace ip0 := ⟨_, rfl⟩
  have v0 : c.vF 0 = 3 / 5 := by
    rw [hc]; simp [plainPoint, oneFace_val, oneFace_area, couette, Fin.sum_univ_two]; norm_num
  have v1 : c.vF 1 = 0 := by
    rw [hc]; simp [plainPoint, oneFace_val, oneFace_area, couette, Fin.sum_univ_two]
  have p0 : c.pF 0 = 0 := by
    rw [hc]; simp [plainPoint, oneFace_val, oneFace_area, couette]
  have p1 : c.pF 1 = -10 := by
    rw [hc]; simp [plainPoint, oneFace_val, oneFace_area, couette]; norm_num
  have nn : c.node = 0 := by rw [hc]; rfl
  rw [e, ← hc] at h1 h2 h3
  refine ⟨?_, ?_, ?_, ?_, ?_⟩
  · refine Eq.trans (by rw [hc]; rfl) ((h1 0).trans ?_); simp [pad, p0]
  · refine Eq.trans (by rw [hc]; rfl) ((h1 1).trans ?_); simp [pad, p1]
  · refine Eq.trans (by rw [hc]; rfl) ((h2 0).trans ?_); simp [pad, v0]
  · refine Eq.trans (by rw [hc]; rfl) ((h2 1).trans ?_); simp [pad, v1]
  · refine Eq.trans (by rw [hc]; rfl) ((h3 2).trans ?_); simp [pad, cross, v0, v1, p0, p1, nn, couette]

/-- Hypotheses of `c110_simple_shear` for it: `s = -3` along `x`. -/
example : oneFace.area ip0 ≠ 0 ∧ (∑ i : Fin 2, (![1, 0] : Fin 2 → ℝ) i * ![1, 0] i = 1) ∧
    (∑ i : Fin 2, unitNormal (oneFace.area ip0) i * (![1, 0] : Fin 2 → ℝ) i = 0) ∧
    (∀ i j, couette.dudx 0 i j = -3 * ![1, 0] i * unitNormal (oneFace.area ip0) j) := by
  refine ⟨fun h => ?_, by simp, ?_, fun i j => ?_⟩
  · have := congrFun h 1; simp [oneFace_area] at this
  · simp only [unitNormal, oneFace_mag]; simp [oneFace_area]
  · simp only [unitNormal, oneFace_mag]; fin_cases i <;> fin_cases j <;> simp [oneFace_area, couette]

/-- Two points at one node: average of shear 1 on area 1 and 4 on area 2 is 3. -/
example : let c1 : Contribution (Fin 1) 2 := ⟨0, 1, 0, 0, 1, 7⟩
    let c2 : Contribution (Fin 1) 2 := ⟨0, 2, 0, 0, 8, 7⟩
    (drive 4 2 [(.plain, [c1]), (.plain, [c2])] ⟨fun _ _ => 9, fun _ => 9, fun _ => 9, fun _ _ => 9⟩).tau 0 = 3 ∧
    (drive 4 2 [(.plain, [c1]), (.plain, [c2])] ⟨fun _ _ => 9, fun _ => 9, fun _ => 9, fun _ _ => 9⟩).yplus 0 = 7 ∧
    (drive 4 2 [(.plain, [c1]), (.wallFn, [c2])] ⟨fun _ _ => 9, fun _ => 9, fun _ => 9, fun _ _ => 9⟩).tau 0 = 5 ∧
    (drive 5 2 [(.plain, [c1]), (.plain, [c2])] ⟨fun _ _ => 9, fun _ => 9, fun _ => 9, fun _ _ => 9⟩).tau 0 = 9 := by
  refine ⟨?_, ?_, ?_, ?_⟩ <;> simp [drive, Nodal.zero, Nodal.addArea, Nodal.addPoint] <;> norm_num

end Nalu.Force
