import Verif.Proofs.WallElem
import Mathlib.Tactic.Ring
import Mathlib.Tactic.Linarith
import Mathlib.Tactic.FieldSimp
import Mathlib.Tactic.FinCases
import Mathlib.Tactic.NormNum

/-!
# Wall functions of the element scheme: C209, C210, C211
-/

set_option linter.unusedSectionVars false

namespace Nalu.WallElem
open Nalu.Edge Nalu.Kernel Nalu.Force Nalu.Wall Nalu.Legacy

variable {M : Type*} {nd : ℕ}

/-! ## C209: the three implementations agree -/

/-- **C209** The flat-array algorithm assembles what the kernel assembles and writes nothing else. -/
theorem c209_legacy_is_kernel (o : WallOpts) {w : WallWs} {f : Face M nd} {W : WallData M nd} (hw : w.Holds f W) (F : Fields M nd)
    (a : Fin 4 → ℕ → ℝ) (s0 : Flat ℝ) :
    AgreesV s0
      (wallLegacy o f.nf f.nip nd w (gather1 f.nf (fun ic => F.rho (f.node ic)) (a 0)) (gather1 f.nf (fun ic => F.mu (f.node ic)) (a 1))
        (gather2 f.nf nd (fun ic => F.u (f.node ic)) (a 2)) (gather2 f.nf nd (fun ic => F.ubc (f.node ic)) (a 3))
        (s0.zeroed (f.nf * nd * (f.nf * nd)) (f.nf * nd)))
      (wallKernel o W F f zeroSys) :=
  (wallLegacy_rel o hw F a (Rel.zero encV s0)).agreesV

private theorem lumped_val {f : Face M nd} (h : Lumped f) (ip : Fin f.nip) (q : M → ℝ) : f.val ip q = q (f.node (f.near ip)) := by
  simp [Face.val, h ip]

/-- **C209** With the shifted rule the kernel assembles what the edge scheme assembles. -/
theorem c209_lumped_is_edge (o : WallOpts) (W : WallData M nd) (F : Fields M nd) {f : Face M nd} (h : Lumped f)
    (s : LocalSys (Fin f.nf × Fin nd) ℝ) :
    (∀ a, (wallKernel o W F f s).rhs a = (wallEdge o W F f s).rhs a) ∧ ∀ a b, (wallKernel o W F f s).lhs a b = (wallEdge o W F f s).lhs a b := by
  have hr : ∀ n i, (wallEdge o W F f s).rhs (n, i) = s.rhs (n, i) + scattered f (fun ip =>
      wallRhs (lamAt o W F f ip) (unitNormal (f.area ip)) (fun j => f.val ip fun m => F.u m j) (fun j => f.val ip fun m => F.ubc m j)) n i := by
    intro n i
    rw [wallEdge, scattered]
    refine loop_rhs _ _ s (n, i) fun ip s => ?_
    rw [loop_rhs _ (fun k => if (n, i) = (f.near ip, k) then wallRhs (lamAt o W F f ip) (unitNormal (f.area ip))
      (fun j => f.val ip fun m => F.u m j) (fun j => f.val ip fun m => F.ubc m j) k else 0) s (n, i) (fun k s => ?_)]
    · congr 1
      by_cases hn : n = f.near ip
      · simp [hn]
      · simp [hn]
    · rw [addR_rhs]
      congr 1
      · refine (loop_rhs _ (fun _ => 0) s _ fun j s => ?_).trans (by simp)
        beta_reduce
        split_ifs <;> simp
      · simp only [lumped_val h, lamAt]
        rfl
  have hl : ∀ n i c j, (wallEdge o W F f s).lhs (n, i) (c, j) = s.lhs (n, i) (c, j) +
      ∑ ip, if n = f.near ip then wallLhs (lamAt o W F f ip) (unitNormal (f.area ip)) i j * f.shape ip c else 0 := by
    intro n i c j
    rw [wallEdge]
    refine loop_lhs _ _ s _ _ fun ip s => ?_
    rw [loop_lhs _ (fun k => ∑ l, if (n, i) = (f.near ip, k) ∧ (c, j) = (f.near ip, l)
      then wallLhs (lamAt o W F f ip) (unitNormal (f.area ip)) k l else 0) s _ _ (fun k s => ?_)]
    · congr 1
      by_cases hn : n = f.near ip
      · rw [if_pos hn, h ip]
        by_cases hc : c = f.near ip
        · simp only [hn, hc, Prod.mk.injEq, true_and, if_true, mul_one]
          rw [Finset.sum_eq_single i, Finset.sum_eq_single j]
          · simp
          · intro b _ hb; exact if_neg fun hh => hb hh.2.symm
          · simp
          · intro b _ hb; exact Finset.sum_eq_zero fun l _ => if_neg fun hh => hb hh.1.symm
          · simp
        · simp [hc]
      · simp [hn]
    · rw [addR_lhs]
      refine loop_lhs _ _ s _ _ fun l s => ?_
      by_cases hkl : k = l
      · subst hkl
        simp only [if_true, addL_lhs, wallLhs, lumped_val h, lamAt]
        rfl
      · simp only [if_neg hkl, addL_lhs, wallLhs, lumped_val h, lamAt]
        rfl
  exact ⟨fun a => by rw [wallKernel_rhs, hr], fun a b => by rw [wallKernel_lhs, hl]⟩

/-! ## C210: the wall force of the element scheme -/

private theorem val_add (f : Face M nd) (ip : Fin f.nip) (p q : M → ℝ) : (f.val ip fun m => p m + q m) = f.val ip p + f.val ip q := by
  simp only [Face.val, mul_add, Finset.sum_add_distrib]

/-- **C210** With the friction velocity and wall distance held, the matrix is the exact derivative of the residual: moving the nodal velocities by
`d` changes the residual by minus the matrix applied to `d`. -/
theorem c210_exact_newton (o : WallOpts) (W : WallData M nd) (F : Fields M nd) (f : Face M nd) (d : M → Fin nd → ℝ) (n : Fin f.nf) (i : Fin nd) :
    (wallKernel o W (moved F d) f zeroSys).rhs (n, i) =
      (wallKernel o W F f zeroSys).rhs (n, i) - ∑ c, ∑ j, (wallKernel o W F f zeroSys).lhs (n, i) (c, j) * d (f.node c) j := by
  simp only [wallKernel_rhs, wallKernel_lhs, zeroSys, zero_add, scattered]
  have hlam : ∀ ip, lamAt o W (moved F d) f ip = lamAt o W F f ip := fun ip => rfl
  have e : ∀ ip, wallRhs (lamAt o W F f ip) (unitNormal (f.area ip)) (fun j => f.val ip fun m => (moved F d).u m j)
      (fun j => f.val ip fun m => (moved F d).ubc m j) i =
      wallRhs (lamAt o W F f ip) (unitNormal (f.area ip)) (fun j => f.val ip fun m => F.u m j) (fun j => f.val ip fun m => F.ubc m j) i -
        ∑ c, ∑ j, wallLhs (lamAt o W F f ip) (unitNormal (f.area ip)) i j * f.shape ip c * d (f.node c) j := by
    intro ip
    have := (c67_jacobian (lamAt o W F f ip) (unitNormal (f.area ip)) (fun j => f.val ip fun m => F.u m j)
      (fun j => f.val ip fun m => F.ubc m j) (fun j => f.val ip fun m => d m j)).1 i
    simp only [moved, val_add]
    rw [this]
    congr 1
    rw [Finset.sum_comm]
    refine Finset.sum_congr rfl fun j _ => ?_
    rw [Face.val, Finset.mul_sum]
    exact Finset.sum_congr rfl fun c _ => by ring
  simp only [hlam, e, Finset.sum_mul]
  have : ∀ c : Fin f.nf, (∑ j : Fin nd, ∑ ip, (if n = f.near ip then wallLhs (lamAt o W F f ip) (unitNormal (f.area ip)) i j * f.shape ip c else 0)
      * d (f.node c) j) = ∑ ip, if n = f.near ip then ∑ j, wallLhs (lamAt o W F f ip) (unitNormal (f.area ip)) i j * f.shape ip c * d (f.node c) j
      else 0 := by
    intro c
    rw [Finset.sum_comm]
    refine Finset.sum_congr rfl fun ip _ => ?_
    split_ifs <;> simp
  simp only [this]
  rw [Finset.sum_comm, ← Finset.sum_sub_distrib]
  refine Finset.sum_congr rfl fun ip _ => ?_
  split_ifs <;> simp

/-- **C210** The momentum given to the nodes of a face is minus the viscous force the post-processing reports for it, component by component. -/
theorem c210_sum_is_reported_force (o : WallOpts) (W : WallData M nd) (F : Fields M nd) (f : Face M nd) (i : Fin nd) :
    ∑ n, (wallKernel o W F f zeroSys).rhs (n, i) = -∑ ip, (wallFnPoint o W F f ip).vF i := by
  simp only [wallKernel_rhs, zeroSys, zero_add, scattered]
  rw [Finset.sum_comm, ← Finset.sum_neg_distrib]
  refine Finset.sum_congr rfl fun ip _ => ?_
  rw [Finset.sum_ite_eq' Finset.univ (f.near ip), if_pos (Finset.mem_univ _)]
  rfl

/-- **C210** What a point contributes is `-lambda` times the slip: the interpolated velocity relative to the wall without its normal part. -/
theorem c210_rows (o : WallOpts) (W : WallData M nd) (F : Fields M nd) (f : Face M nd) (n : Fin f.nf) (i : Fin nd) :
    (wallKernel o W F f zeroSys).rhs (n, i) = scattered f (fun ip i =>
      -(Wall.lambda o.elog o.kappa o.yplusCrit (f.val ip F.rho) (f.val ip F.mu) (W.yp f ip) (W.utau f ip) (Wall.aMag (f.area ip)) *
        slip (unitNormal (f.area ip)) (fun j => f.val ip fun m => F.u m j - F.ubc m j) i)) n i := by
  rw [wallKernel_rhs]
  simp only [zeroSys, zero_add, scattered, wallRhs, lamAt]
  refine Finset.sum_congr rfl fun ip _ => ?_
  congr 3
  have hs : ∀ j, (f.val ip fun m => F.u m j - F.ubc m j) = (f.val ip fun m => F.u m j) - f.val ip fun m => F.ubc m j := by
    intro j; simp only [Face.val, mul_sub, Finset.sum_sub_distrib]
  rw [tangential_eq, tangential_eq]
  simp only [orthPart, slip, hs, mul_sub, Finset.sum_sub_distrib]
  ring

/-- **C210** A face whose nodes move with the wall receives nothing, and no force acts along the normal of a plane face. -/
theorem c210_no_slip_no_normal (o : WallOpts) (W : WallData M nd) (F : Fields M nd) (f : Face M nd) :
    ((∀ ic, F.u (f.node ic) = F.ubc (f.node ic)) → ∀ n i, (wallKernel o W F f zeroSys).rhs (n, i) = 0) ∧
    ∀ e : Fin nd → ℝ, (∀ ip, f.area ip ≠ 0 ∧ unitNormal (f.area ip) = e) → ∀ n, ∑ i, e i * (wallKernel o W F f zeroSys).rhs (n, i) = 0 := by
  constructor
  · intro h n i
    rw [c210_rows, scattered]
    refine Finset.sum_eq_zero fun ip _ => ?_
    have hv : ∀ j, (f.val ip fun m => F.u m j - F.ubc m j) = 0 := fun j => by simp [Face.val, h]
    simp [slip, hv]
  · intro e he n
    simp only [c210_rows, scattered, Finset.mul_sum]
    rw [Finset.sum_comm]
    refine Finset.sum_eq_zero fun ip _ => ?_
    split_ifs
    · rw [(he ip).2]
      have h1 : ∑ j, e j * e j = 1 := by rw [← (he ip).2]; exact c67_unit_normal _ (he ip).1
      set lam := Wall.lambda _ _ _ _ _ _ _ _
      set v : Fin nd → ℝ := fun j => f.val ip fun m => F.u m j - F.ubc m j
      have : ∀ i, e i * -(lam * slip e v i) = -(lam * (e i * v i)) + lam * (∑ j, e j * v j) * (e i * e i) := fun i => by
        simp only [slip]; ring
      simp only [this, Finset.sum_add_distrib, Finset.sum_neg_distrib, ← Finset.mul_sum, h1]
      ring
    · simp

/-- **C210** When the whole face slips with one velocity `v` relative to the wall, the wall takes energy out: the power is minus the sum of `lambda`
times the squared slip, and is not positive. -/
theorem c210_dissipates (o : WallOpts) (W : WallData M nd) (F : Fields M nd) (f : Face M nd) (v : Fin nd → ℝ)
    (hN : ∀ ip, ∑ ic, f.shape ip ic = 1) (hv : ∀ ic i, F.u (f.node ic) i - F.ubc (f.node ic) i = v i) (ha : ∀ ip, f.area ip ≠ 0)
    (hk : 0 < o.kappa) (hE : 0 < o.elog) (hEy : 1 ≤ o.elog * o.yplusCrit)
    (hd : ∀ ip, 0 < f.val ip F.rho ∧ 0 < f.val ip F.mu ∧ 0 < W.yp f ip ∧ 0 < W.utau f ip) :
    let power := ∑ n, ∑ i, v i * (wallKernel o W F f zeroSys).rhs (n, i)
    power = -∑ ip, Wall.lambda o.elog o.kappa o.yplusCrit (f.val ip F.rho) (f.val ip F.mu) (W.yp f ip) (W.utau f ip) (Wall.aMag (f.area ip)) *
      len (slip (unitNormal (f.area ip)) v) ^ 2 ∧ power ≤ 0 := by
  have key : ∑ n, ∑ i, v i * (wallKernel o W F f zeroSys).rhs (n, i) =
      -∑ ip, Wall.lambda o.elog o.kappa o.yplusCrit (f.val ip F.rho) (f.val ip F.mu) (W.yp f ip) (W.utau f ip) (Wall.aMag (f.area ip)) *
      len (slip (unitNormal (f.area ip)) v) ^ 2 := by
    have hval : ∀ ip, (fun j => f.val ip fun m => F.u m j - F.ubc m j) = v := by
      intro ip; funext j
      simp only [Face.val, hv, ← Finset.sum_mul, hN, one_mul]
    simp only [c210_rows, scattered, hval, Finset.mul_sum]
    have : ∀ n : Fin f.nf, (∑ i, ∑ ip, v i * (if n = f.near ip then -(Wall.lambda o.elog o.kappa o.yplusCrit (f.val ip F.rho) (f.val ip F.mu) (W.yp f ip)
        (W.utau f ip) (Wall.aMag (f.area ip)) * slip (unitNormal (f.area ip)) v i) else 0)) =
        ∑ ip, if n = f.near ip then ∑ i, v i * -(Wall.lambda o.elog o.kappa o.yplusCrit (f.val ip F.rho) (f.val ip F.mu) (W.yp f ip)
        (W.utau f ip) (Wall.aMag (f.area ip)) * slip (unitNormal (f.area ip)) v i) else 0 := by
      intro n
      rw [Finset.sum_comm]
      refine Finset.sum_congr rfl fun ip _ => ?_
      split_ifs <;> simp
    simp only [this]
    rw [Finset.sum_comm, ← Finset.sum_neg_distrib]
    refine Finset.sum_congr rfl fun ip _ => ?_
    rw [Finset.sum_ite_eq' Finset.univ (f.near ip), if_pos (Finset.mem_univ _)]
    have h1 := c67_unit_normal _ (ha ip)
    rw [len, Real.sq_sqrt (Finset.sum_nonneg fun i _ => sq_nonneg _)]
    set lam := Wall.lambda _ _ _ _ _ _ _ _
    set e := unitNormal (f.area ip)
    set c := ∑ j, e j * v j with hc
    have e1 : ∀ i, v i * -(lam * slip e v i) = -(lam * (v i * v i)) + lam * c * (e i * v i) := fun i => by simp only [slip, ← hc]; ring
    have e2 : ∀ i, slip e v i ^ 2 = v i * v i - 2 * c * (e i * v i) + c * c * (e i * e i) := fun i => by simp only [slip, ← hc]; ring
    simp only [e1, e2, Finset.sum_add_distrib, Finset.sum_sub_distrib, Finset.sum_neg_distrib, ← Finset.mul_sum, h1, ← hc]
    ring
  refine ⟨key, ?_⟩
  rw [key]
  refine neg_nonpos.mpr (Finset.sum_nonneg fun ip _ => mul_nonneg (c67_coefficient_pos hk hE hEy ?_ ?_ ?_ ?_ (aMag_pos _ (ha ip))).le (sq_nonneg _))
  exacts [(hd ip).1, (hd ip).2.1, (hd ip).2.2.1, (hd ip).2.2.2]

/-! ## C211: the projected wall function -/

/-- **C211** The projected algorithm adds nothing to the matrix, and the momentum it gives to the nodes of a face is minus the viscous force the
post-processing reports. -/
theorem c211_rhs_only_and_reported (o : WallOpts) (W : WallData M nd) (F : Fields M nd) (f : Face M nd) :
    (∀ a b, (wallProjected o W F f zeroSys).lhs a b = 0) ∧
    ∀ i, ∑ n, (wallProjected o W F f zeroSys).rhs (n, i) = -∑ ip, (projectedPoint o W F f ip).vF i := by
  refine ⟨fun a b => by rw [wallProjected_lhs]; rfl, fun i => ?_⟩
  simp only [wallProjected_rhs, zeroSys, zero_add, scattered]
  rw [Finset.sum_comm, ← Finset.sum_neg_distrib]
  refine Finset.sum_congr rfl fun ip _ => ?_
  rw [Finset.sum_ite_eq' Finset.univ (f.near ip), if_pos (Finset.mem_univ _)]

private theorem tan_slip (e u w : Fin nd → ℝ) (i : Fin nd) : tangential e u i - tangential e w i = slip e (fun j => u j - w j) i := by
  rw [tangential_eq, tangential_eq]
  simp only [orthPart, slip, mul_sub, Finset.sum_sub_distrib]
  ring

private theorem speed_len (e u w : Fin nd → ℝ) : tangentialSpeed e u w = len (slip e fun j => u j - w j) := by
  simp only [tangentialSpeed, len, tan_slip, sq]

/-- The slip at the projected point. -/
noncomputable def projSlip (W : WallData M nd) (F : Fields M nd) (f : Face M nd) (ip : Fin f.nip) : Fin nd → ℝ :=
  slip (unitNormal (f.area ip)) fun j => W.uProj f ip j - f.val ip fun m => F.ubc m j

private theorem proj_vF (o : WallOpts) (W : WallData M nd) (F : Fields M nd) (f : Face M nd) (ip : Fin f.nip) (i : Fin nd) :
    (projectedPoint o W F f ip).vF i = (lamAt o W F f ip * (1 - W.odeFac f ip) + W.odeFac f ip * f.val ip F.rho * W.utau f ip * W.utau f ip *
      Wall.aMag (f.area ip)) * projSlip W F f ip i * (1 / ((1 - W.odeFac f ip) + W.odeFac f ip * len (projSlip W F f ip))) := by
  simp only [projectedPoint, projSlip, speed_len, tan_slip, lamAt]

/-- **C211** Without the ODE (`odeFac = 0`) the force at a point is `-lambda` times the slip at the projected point. -/
theorem c211_log_law (o : WallOpts) (W : WallData M nd) (F : Fields M nd) (f : Face M nd) (h0 : ∀ ip, W.odeFac f ip = 0)
    (n : Fin f.nf) (i : Fin nd) :
    (wallProjected o W F f zeroSys).rhs (n, i) = scattered f (fun ip i =>
      -(Wall.lambda o.elog o.kappa o.yplusCrit (f.val ip F.rho) (f.val ip F.mu) (W.yp f ip) (W.utau f ip) (Wall.aMag (f.area ip)) *
        projSlip W F f ip i)) n i := by
  rw [wallProjected_rhs]
  simp only [zeroSys, zero_add, scattered, proj_vF, h0, lamAt]
  refine Finset.sum_congr rfl fun ip _ => ?_
  split_ifs
  · ring
  · rfl

/-- **C211** With the ODE (`odeFac = 1`) and a point that slips, the force is the wall shear stress `rho*utau^2` times the area, against the slip:
its length is exactly that, and it is a negative multiple of the slip. -/
theorem c211_ode_force (o : WallOpts) (W : WallData M nd) (F : Fields M nd) (f : Face M nd) (ip : Fin f.nip) (h1 : W.odeFac f ip = 1)
    (hs : projSlip W F f ip ≠ 0) (hr : 0 ≤ f.val ip F.rho) :
    (∀ i, -(projectedPoint o W F f ip).vF i = -(f.val ip F.rho * W.utau f ip ^ 2 * Wall.aMag (f.area ip) / len (projSlip W F f ip)) *
      projSlip W F f ip i) ∧
    len (fun i => -(projectedPoint o W F f ip).vF i) = f.val ip F.rho * W.utau f ip ^ 2 * Wall.aMag (f.area ip) := by
  have hv : ∀ i, -(projectedPoint o W F f ip).vF i = -(f.val ip F.rho * W.utau f ip ^ 2 * Wall.aMag (f.area ip) / len (projSlip W F f ip)) *
      projSlip W F f ip i := by
    intro i
    rw [proj_vF, h1, sub_self, mul_zero, zero_add, zero_add, one_mul, one_mul]
    ring
  refine ⟨hv, ?_⟩
  have hsum : 0 < ∑ i, projSlip W F f ip i ^ 2 := by
    obtain ⟨k, hk⟩ := Function.ne_iff.1 hs
    exact Finset.sum_pos' (fun j _ => sq_nonneg _) ⟨k, Finset.mem_univ k, by simpa [sq] using mul_self_pos.2 hk⟩
  have hl : 0 < len (projSlip W F f ip) := Real.sqrt_pos.2 hsum
  have hA : 0 ≤ f.val ip F.rho * W.utau f ip ^ 2 * Wall.aMag (f.area ip) := by
    have : 0 ≤ Wall.aMag (f.area ip) := Real.sqrt_nonneg _
    positivity
  rw [len]
  simp only [hv, mul_pow, ← Finset.mul_sum]
  rw [Real.sqrt_mul (sq_nonneg _), neg_sq, Real.sqrt_sq (div_nonneg hA hl.le), ← len, div_mul_cancel₀ _ hl.ne']

/-- **C211** (finding) With the ODE the force is divided by the slip speed: where the fluid moves with the wall — a flow at rest — the code computes
`1.0/0.0` and multiplies it by zero, which is not a number in floating point.  The denominator is zero exactly there. -/
theorem c211_ode_denominator (W : WallData M nd) (F : Fields M nd) (f : Face M nd) (ip : Fin f.nip) (h1 : W.odeFac f ip = 1) :
    (1 - W.odeFac f ip) + W.odeFac f ip * len (projSlip W F f ip) = 0 ↔ projSlip W F f ip = 0 := by
  rw [h1, sub_self, zero_add, one_mul, len, Real.sqrt_eq_zero (Finset.sum_nonneg fun i _ => sq_nonneg _)]
  constructor
  · intro h
    funext i
    have := (Finset.sum_eq_zero_iff_of_nonneg fun i _ => sq_nonneg _).1 h i (Finset.mem_univ i)
    simpa using this
  · intro h; simp [h]

/-! ## A face -/

/-- A plane two-node wall `y = 0` with two points. -/
noncomputable def demoFace : Face (Fin 2) 2 where
  nf := 2
  nip := 2
  shape := ![![3 / 4, 1 / 4], ![1 / 4, 3 / 4]]
  area := fun _ => ![0, -2]
  near := id
  node := id
  opp := id

/-- Uniform flow along a resting wall. -/
def demoFields : Fields (Fin 2) 2 where
  x := fun _ _ => 0
  p := fun _ => 0
  rho := fun _ => 1
  mu := fun _ => 1
  dudx := fun _ _ _ => 0
  u := fun _ => ![3, 0]
  ubc := fun _ _ => 0

/-- Wall data in the viscous sublayer, with the ODE. -/
def demoWall : WallData (Fin 2) 2 where
  yp := fun _ _ => 1
  utau := fun _ _ => 2
  uProj := fun _ _ => ![3, 4]
  odeFac := fun _ _ => 1

/-- The hypotheses of `c210_dissipates` hold on the face; `c211_ode_force` applies to it. -/
example : (∀ ip, ∑ ic, demoFace.shape ip ic = 1) ∧ (∀ ic i, demoFields.u (demoFace.node ic) i - demoFields.ubc (demoFace.node ic) i = ![3, 0] i) ∧
    (∀ ip, demoFace.area ip ≠ 0) ∧ (∀ ip, 0 < demoFace.val ip demoFields.rho ∧ 0 < demoFace.val ip demoFields.mu ∧ 0 < demoWall.yp demoFace ip ∧
      0 < demoWall.utau demoFace ip) ∧ ∀ ip, demoWall.odeFac demoFace ip = 1 ∧ projSlip demoWall demoFields demoFace ip ≠ 0 := by
  have hN : ∀ ip, ∑ ic, demoFace.shape ip ic = 1 := by
    intro ip
    change ∑ ic : Fin 2, (![![3 / 4, 1 / 4], ![1 / 4, 3 / 4]] : Fin 2 → Fin 2 → ℝ) ip ic = 1
    change Fin 2 at ip
    rw [Fin.sum_univ_two]
    fin_cases ip <;> simp <;> norm_num
  have hval : ∀ ip, (∑ ic, demoFace.shape ip ic * (1 : ℝ)) = 1 := by intro ip; rw [← Finset.sum_mul, hN, one_mul]
  refine ⟨hN, ?_, ?_, ?_, ?_⟩
  · intro ic i; simp [demoFields]
  · intro ip h; have := congrFun h 1; simp [demoFace] at this
  · intro ip
    have h1 : demoFace.val ip demoFields.rho = 1 := hval ip
    have h2 : demoFace.val ip demoFields.mu = 1 := hval ip
    rw [h1, h2]; norm_num [demoWall]
  · intro ip
    refine ⟨rfl, fun h => ?_⟩
    have := congrFun h 0
    simp [projSlip, slip, unitNormal, demoFace, demoWall, demoFields, Face.val, Fin.sum_univ_two] at this

/-- Flat arrays that hold the face. -/
noncomputable example : ∃ w : WallWs, w.Holds demoFace demoWall :=
  ⟨{ shape := gather2 2 2 ![![3 / 4, 1 / 4], ![1 / 4, 3 / 4]] 0, areaVec := gather2 2 2 (fun _ => ![0, -2]) 0, near := id, yp := fun _ => 1, utau := fun _ => 2 },
    fun ip ic => gather2_get .., fun ip j => gather2_get .., fun _ => rfl, fun _ => rfl, fun _ => rfl⟩

end Nalu.WallElem
