import Verif.Props.Vof2
import Verif.Props.Vof4
import Verif.Props.ElemKernel4

/-!
# Evaporation (C108) and concrete cases for C103-C108
-/

set_option linter.unusedSectionVars false

namespace Nalu.Vof
open Nalu.Edge Nalu.Kernel
open Nalu.NC (VofOpts)

variable {K : Type*} [Field K] [LinearOrder K] [IsStrictOrderedRing K]
variable {nn nip nf nd : ℕ} {M : Type*}

theorem vofEvaporation_rhs (o : EvapOpts K) (rhoL : K) (e : Scv nn nip K) (g : Fin nip → Fin nn → Fin nd → K)
    (q : Fin nn → K) (s : LocalSys (Fin nn) K) (a : Fin nn) :
    (vofEvaporation o rhoL e g q s).rhs a = s.rhs a + ∑ ip, if a = e.node ip then
      -(o.c * evapRate o (e.shape ip) (g ip) q / rhoL * e.vol ip) else 0 := by
  rw [vofEvaporation, loop_rhs (a := a)]
  intro ip s; simp

theorem continuityEvaporation_rhs (o : EvapOpts K) (rhoL rhoG : K) (e : Scv nn nip K)
    (g : Fin nip → Fin nn → Fin nd → K) (q : Fin nn → K) (s : LocalSys (Fin nn) K) (a : Fin nn) :
    (continuityEvaporation o rhoL rhoG e g q s).rhs a = s.rhs a + ∑ ip, if a = e.node ip then
      -(o.c * evapRate o (e.shape ip) (g ip) q * (1 / rhoG - 1 / rhoL) * e.vol ip) else 0 := by
  rw [continuityEvaporation, loop_rhs (a := a)]
  intro ip s; simp

/-- The running interpolant: after the loop the first component is the interpolated volume fraction, the second the sum
of the gradients weighted by the partial sums of the interpolation. -/
theorem evapState_eq : ∀ {nn : ℕ} (N : Fin nn → K) (g : Fin nn → Fin nd → K) (q : Fin nn → K),
    evapState N g q = (∑ ic, N ic * q ic, fun j => ∑ ic, (∑ k, if k ≤ ic then N k * q k else 0) * g ic j)
  | 0, N, g, q => by simp [evapState, loop]
  | n + 1, N, g, q => by
    have ih := evapState_eq (fun i : Fin n => N i.castSucc) (fun i => g i.castSucc) (fun i => q i.castSucc)
    unfold evapState loop at ih ⊢
    rw [List.finRange_succ_last, List.foldl_append, List.foldl_map, ih]
    simp only [List.foldl_cons, List.foldl_nil, Fin.sum_univ_castSucc, Fin.castSucc_le_castSucc_iff, Fin.le_last, if_true]
    refine Prod.ext rfl (funext fun j => ?_)
    have h : ∀ x : Fin n, ¬ (Fin.last n ≤ x.castSucc) := fun x => not_le.mpr (Fin.castSucc_lt_last x)
    simp [h]

/-- **C108** The gradient used by the evaporation model is the sum of the shape function gradients weighted by the partial
sums of the interpolation, not by the nodal values. -/
theorem c108_gradient_used (N : Fin nn → K) (g : Fin nn → Fin nd → K) (q : Fin nn → K) (j : Fin nd) :
    (evapState N g q).1 = ∑ ic, N ic * q ic ∧
      (evapState N g q).2 j = ∑ ic, (∑ k, if k ≤ ic then N k * q k else 0) * g ic j := by
  rw [evapState_eq]; exact ⟨rfl, rfl⟩

/-- **C108** For a uniform volume fraction the gradient used is not zero in general; it is `c Σ_ic (Σ_{k ≤ ic} N_k) ∇N_ic`. -/
theorem c108_uniform_defect (N : Fin nn → K) (g : Fin nn → Fin nd → K) (c : K) (j : Fin nd) :
    (evapState N g fun _ => c).2 j = c * ∑ ic, (∑ k, if k ≤ ic then N k else 0) * g ic j := by
  rw [(c108_gradient_used N g _ j).2, Finset.mul_sum]
  refine Finset.sum_congr rfl fun ic _ => ?_
  have : (∑ k, if k ≤ ic then N k * c else 0) = c * ∑ k, if k ≤ ic then N k else 0 := by
    rw [Finset.mul_sum]
    exact Finset.sum_congr rfl fun k _ => by split_ifs <;> ring
  rw [this]; ring

/-- **C108** The volume source of continuity and the sink of liquid volume describe the same mass transfer: at every node
the source of continuity is `ρ_L (1/ρ_G - 1/ρ_L)` times the one of the volume fraction equation. -/
theorem c108_consistent (o : EvapOpts K) (rhoL rhoG : K) (hL : rhoL ≠ 0) (e : Scv nn nip K)
    (g : Fin nip → Fin nn → Fin nd → K) (q : Fin nn → K) (s s' : LocalSys (Fin nn) K) (a : Fin nn) :
    (continuityEvaporation o rhoL rhoG e g q s').rhs a - s'.rhs a =
      rhoL * (1 / rhoG - 1 / rhoL) * ((vofEvaporation o rhoL e g q s).rhs a - s.rhs a) := by
  rw [continuityEvaporation_rhs, vofEvaporation_rhs, add_sub_cancel_left, add_sub_cancel_left, Finset.mul_sum]
  refine Finset.sum_congr rfl fun ip _ => ?_
  split_ifs
  · generalize (1 / rhoG - 1 / rhoL) = t
    field_simp
  · ring

/-- **C108** Evaporation leaves the matrix alone. -/
theorem c108_no_matrix (o : EvapOpts K) (rhoL rhoG : K) (e : Scv nn nip K) (g : Fin nip → Fin nn → Fin nd → K)
    (q : Fin nn → K) (s : LocalSys (Fin nn) K) (a b : Fin nn) :
    (vofEvaporation o rhoL e g q s).lhs a b = s.lhs a b ∧
      (continuityEvaporation o rhoL rhoG e g q s).lhs a b = s.lhs a b := by
  constructor
  · exact loop_inv (fun t : LocalSys (Fin nn) K => t.lhs a b = s.lhs a b) _ (fun ip t h => by simpa using h) s rfl
  · exact loop_inv (fun t : LocalSys (Fin nn) K => t.lhs a b = s.lhs a b) _ (fun ip t h => by simpa using h) s rfl

/-- **C108** No evaporation where the interpolated volume fraction is 0 or 1. -/
theorem c108_pure_phase (o : EvapOpts K) (h0 : o.loc 0 = 0) (h1 : o.loc 1 = 0) (rhoL rhoG : K) (e : Scv nn nip K)
    (g : Fin nip → Fin nn → Fin nd → K) (q : Fin nn → K)
    (hq : ∀ ip, (∑ ic, e.shape ip ic * q ic) = 0 ∨ (∑ ic, e.shape ip ic * q ic) = 1) (s : LocalSys (Fin nn) K)
    (a : Fin nn) :
    (vofEvaporation o rhoL e g q s).rhs a = s.rhs a ∧ (continuityEvaporation o rhoL rhoG e g q s).rhs a = s.rhs a := by
  have hr : ∀ ip, evapRate o (e.shape ip) (g ip) q = 0 := by
    intro ip
    simp only [evapRate, evapState_eq]
    rcases hq ip with h | h <;> simp [h, h0, h1]
  rw [vofEvaporation_rhs, continuityEvaporation_rhs]
  simp [hr]

/-- **C108** Evaporation only removes liquid, and expands the mixture if the gas is lighter than the liquid (both sources
enter with a minus sign), whatever the sign of the constant `c`. -/
theorem c108_sign (o : EvapOpts K) (hj : 0 ≤ o.jm) (hl : ∀ x, 0 ≤ o.loc x) (hs : ∀ x, 0 ≤ o.sqrt x) (rhoL rhoG : K)
    (hG : 0 < rhoG) (hGL : rhoG ≤ rhoL) (e : Scv nn nip K) (hv : ∀ ip, 0 ≤ e.vol ip)
    (g : Fin nip → Fin nn → Fin nd → K) (q : Fin nn → K) (s : LocalSys (Fin nn) K) (a : Fin nn) :
    (vofEvaporation o rhoL e g q s).rhs a ≤ s.rhs a ∧ (continuityEvaporation o rhoL rhoG e g q s).rhs a ≤ s.rhs a := by
  have hL : 0 < rhoL := lt_of_lt_of_le hG hGL
  have hr : ∀ ip, 0 ≤ o.c * evapRate o (e.shape ip) (g ip) q := by
    intro ip
    simp only [evapRate]
    have : o.c * (o.c * o.loc (evapState (e.shape ip) (g ip) q).1 *
        o.sqrt (∑ j, (evapState (e.shape ip) (g ip) q).2 j * (evapState (e.shape ip) (g ip) q).2 j) * o.jm) =
        (o.c * o.c) * (o.loc (evapState (e.shape ip) (g ip) q).1 *
        o.sqrt (∑ j, (evapState (e.shape ip) (g ip) q).2 j * (evapState (e.shape ip) (g ip) q).2 j) * o.jm) := by ring
    rw [this]
    exact mul_nonneg (mul_self_nonneg _) (mul_nonneg (mul_nonneg (hl _) (hs _)) hj)
  have hd : 0 ≤ 1 / rhoG - 1 / rhoL := sub_nonneg.mpr (one_div_le_one_div_of_le hG hGL)
  rw [vofEvaporation_rhs, continuityEvaporation_rhs]
  constructor
  · have : (∑ ip, if a = e.node ip then -(o.c * evapRate o (e.shape ip) (g ip) q / rhoL * e.vol ip) else 0) ≤ 0 := by
      refine Finset.sum_nonpos fun ip _ => ?_
      split_ifs
      · exact neg_nonpos.mpr (mul_nonneg (div_nonneg (hr ip) hL.le) (hv ip))
      · exact le_rfl
    linarith
  · have : (∑ ip, if a = e.node ip then -(o.c * evapRate o (e.shape ip) (g ip) q * (1 / rhoG - 1 / rhoL) * e.vol ip)
        else 0) ≤ 0 := by
      refine Finset.sum_nonpos fun ip _ => ?_
      split_ifs
      · exact neg_nonpos.mpr (mul_nonneg (mul_nonneg (hr ip) hd) (hv ip))
      · exact le_rfl
    linarith

/-- **C108** The source is quadratic in the constant `c` of the model (it multiplies the rate and again the source). -/
theorem c108_constant_squared (o : EvapOpts K) (t rhoL : K) (e : Scv nn nip K)
    (g : Fin nip → Fin nn → Fin nd → K) (q : Fin nn → K) (s s' : LocalSys (Fin nn) K) (a : Fin nn) :
    (vofEvaporation { o with c := t * o.c } rhoL e g q s').rhs a - s'.rhs a =
      t ^ 2 * ((vofEvaporation o rhoL e g q s).rhs a - s.rhs a) := by
  rw [vofEvaporation_rhs, vofEvaporation_rhs, add_sub_cancel_left, add_sub_cancel_left, Finset.mul_sum]
  refine Finset.sum_congr rfl fun ip _ => ?_
  split_ifs
  · simp only [evapRate]; ring
  · ring

/-! ## Concrete cases

A bar of two elements (`barElem`, nodes 0, 1, 2) between two end faces, volume fraction 1, 1/2, 0, densities 1000, 500, 1,
`σκ = 2`, pressure `7 + 2α`. -/

def opts1 : VofOpts 1 ℚ := ⟨![-10], 0, fun _ => 1⟩

def dropFields (G : Fin 3 → Fin 1 → ℚ) : VofFields (Fin 3) 1 ℚ :=
  ⟨![1000, 500, 1], fun _ _ => 0, G, fun _ => 1, fun _ => 2, ![1, 1 / 2, 0], ![9, 8, 7], fun _ _ => 0⟩

def dropP : Fin 3 → ℚ := ![9, 8, 7]

def dropElems : List (ElemRec (Fin 3) 1 ℚ) := [barElem 0 1, barElem 1 2]
def dropBnd : List (Bool × FaceRec (Fin 3) 1 ℚ) := [(true, barFace 1 2 1 1), (false, barFace 0 1 0 (-1))]

/-- `c103_laplace` applies: the static drop is in equilibrium. -/
example (G) : Accelerating opts1 (dropFields G) dropP dropElems dropBnd (fun _ => 0) := by
  refine c103_laplace opts1 (fun _ => rfl) (fun _ => by simp [opts1]) _ _ _ ⟨?_, ?_, ?_, ?_⟩ 7 2 ?_ _ ?_ ?_ ?_ ?_
  · intro e he ip; simp only [dropElems, List.mem_cons, List.not_mem_nil, or_false] at he
    rcases he with rfl | rfl <;> (revert ip; unfold Unity; decide +kernel)
  · intro e he ip; simp only [dropBnd, List.mem_cons, List.not_mem_nil, or_false] at he
    rcases he with rfl | rfl <;> (revert ip; unfold Unity; decide +kernel)
  · intro e he ip; simp only [dropElems, List.mem_cons, List.not_mem_nil, or_false] at he
    rcases he with rfl | rfl <;> (revert ip; unfold GradConst; decide +kernel)
  · intro e he ip; simp only [dropBnd, List.mem_cons, List.not_mem_nil, or_false] at he
    rcases he with rfl | rfl <;> (revert ip; unfold GradConst; decide +kernel)
  · intro m; simp [dropFields]
  · simp only [dropFields]; decide +kernel
  · intro m; rfl
  · intro e he ip; simp only [dropElems, List.mem_cons, List.not_mem_nil, or_false] at he
    rcases he with rfl | rfl <;> (revert ip; simp only [elemRho, dropFields]; decide +kernel)
  · intro e he ip; simp only [dropBnd, List.mem_cons, List.not_mem_nil, or_false] at he
    rcases he with rfl | rfl <;> (revert ip; simp only [faceRho, dropFields]; decide +kernel)

/-- Every node is touched by some area. -/
example : ∀ i j, touching dropElems dropBnd i j ≠ 0 := by decide +kernel

/-- The same state with the pressure of a liquid without surface tension has a non-zero nodal gradient, so the hypothesis is
not vacuous. -/
example : pawGradient opts1 (dropFields fun _ _ => 0) dropElems dropBnd (fun _ => 7) 1 0 ≠ 0 := by decide +kernel

/-- An accelerating column (`c103_hydrostatic`): uniform density 2, gravity -10, acceleration 3, `p = 1 - 14 x + 2 α`. -/
def colOpts : VofOpts 1 ℚ := ⟨![-10], 1, fun _ => 1⟩
def colFields (G : Fin 3 → Fin 1 → ℚ) : VofFields (Fin 3) 1 ℚ :=
  ⟨fun _ => 2, fun _ _ => 0, G, fun _ => 1, fun _ => 2, ![1, 1 / 2, 0], ![3, -12, -27], fun _ _ => 0⟩
def colP : Fin 3 → ℚ := ![3, -12, -27]

example : pawGradient colOpts (colFields fun _ _ => 0) dropElems dropBnd colP = fun _ _ => 3 := by decide +kernel

/-- A solved balanced-force system that was not balanced before (C104): in- and outflow, rates not zero. -/
def flowFields : VofFields (Fin 3) 1 ℚ :=
  ⟨![4, 2, 1], ![![1], ![2], ![3]], fun _ _ => 0, fun _ => 1, fun _ => 2, ![1, 1 / 2, 0], fun _ => 0, fun _ _ => 3⟩

example : ∃ dp : Fin 3 → ℚ, (∀ i, ∑ j, (vofContinuity barBdf 2 opts1 flowFields dropElems [barFace 1 2 1 1]
    [barFace 0 1 0 (-1)] (fun _ => 0)).mat i j * dp j =
    (vofContinuity barBdf 2 opts1 flowFields dropElems [barFace 1 2 1 1] [barFace 0 1 0 (-1)] (fun _ => 0)).rhs i) ∧
    (vofContinuity barBdf 2 opts1 flowFields dropElems [barFace 1 2 1 1] [barFace 0 1 0 (-1)] (fun _ => 0)).rhs 0 ≠ 0 := by
  refine ⟨![47 / 4, 7 / 4, -3 / 4], ?_⟩
  decide +kernel

/-- The end face and the surface of a bar element with literal sizes. -/
def endFace : Face 2 1 1 1 ℚ := (barFace 1 2 1 1).face
def barScs : Scs 2 1 1 ℚ := (barElem 0 1).scs
def barScv : Scv 2 2 ℚ := (barElem 0 1).scv
def z0 : Fin 1 := 0
def noSys : LocalSys (Fin 2) ℚ := ⟨fun _ _ => 0, fun _ => 0⟩

/-- With the localised surface tension (`loc = α(1-α)`) the rate stored for the other equations differs from the one of the
continuity kernel on the end face at local node 1 (`c104_open_stored` without its hypothesis). -/
example : openVdotStored 1 2 ⟨![0], 0, fun a => a * (1 - a)⟩ endFace
    ⟨fun _ => 1, fun _ _ => 0, fun _ => 0, fun _ _ => 0, fun _ => 1, fun _ => 1, ![1 / 2, 1]⟩ (fun _ => 0) (fun _ => 0) z0 ≠
    openVdotKernel 1 2 ⟨![0], 0, fun a => a * (1 - a)⟩ endFace
    ⟨fun _ => 1, fun _ _ => 0, fun _ => 0, fun _ _ => 0, fun _ => 1, fun _ => 1, ![1 / 2, 1]⟩ (fun _ => 0) (fun _ => 0) z0 := by
  decide +kernel

/-- Two bar elements meeting at a non-conformal interface, `α` = 1, 1/2 | 1/2, 0, `σκ = 2`, `p = 2α`, at rest. -/
def ncPoint : NC.Point 2 1 2 1 1 ℚ :=
  ⟨⟨![1], fun _ => 1, ![![-1], ![1]]⟩, ⟨![0], fun _ => 1, ![![-1], ![1]]⟩, ![1], 1, ![-1], 1, false⟩
def ncRest : NC.FlowSide 2 1 ℚ := ⟨fun _ => 1, fun _ _ => 0, fun _ _ => 0, fun _ _ => 0⟩
def ncL : NC.VofSide 2 ℚ := ⟨![1, 1 / 2], fun _ => 2⟩
def ncR : NC.VofSide 2 ℚ := ⟨![1 / 2, 0], fun _ => 2⟩

/-- The hypotheses of `c103_nonconformal_defect` hold and the spurious rate is not zero. -/
example : (∀ j, imbalance opts1 (ncPoint.cur.val ncRest.rho) (ncPoint.cur.val ncL.sk) (ncPoint.cur.val ncL.vof)
      (ncPoint.cur.grad ![2, 1]) (ncPoint.cur.grad ncL.vof) j = 0) ∧
    (∀ j, imbalance opts1 (ncPoint.opp.val ncRest.rho) (ncPoint.opp.val ncR.sk) (ncPoint.opp.val ncR.vof)
      (ncPoint.opp.grad ![1, 0]) (ncPoint.opp.grad ncR.vof) j = 0) ∧
    ncPoint.cur.val ![2, 1] = ncPoint.opp.val ![1, 0] ∧
    NC.ncVdot ⟨1, 1, 0⟩ opts1 ncPoint ncRest ncRest ncL ncR ![2, 1] ![1, 0] = 2 := by decide +kernel

/-- Smoothing of the bar (C105): the total `1/2·1 + 1·1/4 + 1/2·0` is kept, the values change. -/
example : smoothVof (1 / 4) ![1 / 2, 1, 1 / 2] dropElems 2 ![1, 1 / 4, 0] 0 ≠ 1 ∧
    ∑ i, ![1 / 2, 1, 1 / 2] i * smoothVof (1 / 4) ![1 / 2, 1, 1 / 2] dropElems 2 ![1, 1 / 4, 0] i = (3 / 4 : ℚ) := by
  decide +kernel

/-- Clipping (C105): a value beyond the upper limit is cut, one within is not. -/
example : updateAndClip (1 / 100 : ℚ) (9 / 10) (1 / 5) = 101 / 100 ∧ updateAndClip (1 / 100 : ℚ) (9 / 10) (1 / 20) = 19 / 20 := by
  decide +kernel

/-- Two elements of the bar seen by the interface normal (C106). -/
def scvBar (i j : Fin 3) : ScvRec (Fin 3) 1 ℚ := ⟨2, 2, fun _ => 1 / 2, id, fun _ => ![![-1], ![1]], ![i, j]⟩

example : (∀ i, ![1 / 2, 1, 1 / 2] i = dualVolume [scvBar 0 1, scvBar 1 2] i) ∧ (∀ i, (![1 / 2, 1, 1 / 2] : Fin 3 → ℚ) i ≠ 0) ∧
    (∀ ip, GradConst ((scvBar 0 1).dndx ip)) ∧ (∀ ip, GradLinear ((scvBar 0 1).dndx ip) fun a => ![![0], ![1], ![2]] ((scvBar 0 1).node a)) ∧
    (∀ ip, GradLinear ((scvBar 1 2).dndx ip) fun a => ![![0], ![1], ![2]] ((scvBar 1 2).node a)) := by
  unfold GradConst GradLinear
  decide +kernel

/-- Curvature of a non-planar normal field is not zero. -/
example : interfaceCurvature ![1 / 2, 1, 1 / 2] [scvBar 0 1, scvBar 1 2] (fun m _ => ![0, 1 / 2, 1] m) 1 = (-1 / 2 : ℚ) := by
  decide +kernel

/-- Flow from the right to the left node: the upwind linearisation has a defect (C107). -/
example : ¬ ExactNewton (fun q => vofScsUpw ⟨0, 1, 1, false, 1, 1, fun _ => 0⟩ barScs (fun _ => -1) (fun _ _ => 0) q
    (fun _ _ => (0 : ℚ))) := by
  intro h
  have := h (fun _ => 0) (fun _ => 1) noSys noSys 0
  revert this
  decide +kernel

/-- A uniform mixture evaporates although there is no interface (C108): node 1 of the element `0 1`. -/
example : (vofEvaporation ⟨1, 1, fun a => a * (1 - a), fun x => x⟩ 1 barScv (fun _ => ![![-1], ![1]])
    (fun _ => 1 / 2) noSys).rhs (1 : Fin 2) = (-1 / 32 : ℚ) := by decide +kernel

/-- A pure phase does not. -/
example : ∀ ip, (∑ ic, barScv.shape ip ic * (fun _ => 1) ic) = (1 : ℚ) := by decide +kernel

end Nalu.Vof
