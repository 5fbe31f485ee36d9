import Verif.Model.Boundary
import Verif.Props.ElemKernel
import Verif.Props.Edge
import Mathlib.Tactic.Positivity
import Mathlib.Algebra.BigOperators.Field
import Mathlib.Algebra.Order.Ring.Rat

/-!
# C131: imposed boundary fluxes and the dynamic pressure
-/

set_option linter.unusedSectionVars false
set_option linter.unusedSimpArgs false

namespace Nalu.Bc
open Nalu.Edge Nalu.Kernel Finset

variable {K : Type*} [Field K] [LinearOrder K] [IsStrictOrderedRing K] {nf nip : ℕ} {N : Type*} [DecidableEq N]

theorem scalarFlux_rhs (f : FluxFace nf nip K) (q : Fin nf → K) (s : LocalSys (Fin nf) K) (a : Fin nf) :
    (scalarFlux f q s).rhs a = s.rhs a + ∑ ip, if a = f.node ip then (∑ ic, f.shape ip ic * q ic) * f.amag ip else 0 := by
  rw [scalarFlux]
  exact loop_rhs _ _ _ _ fun ip s => by rw [addR_rhs]

theorem scalarFlux_lhs (f : FluxFace nf nip K) (q : Fin nf → K) (s : LocalSys (Fin nf) K) (a b : Fin nf) :
    (scalarFlux f q s).lhs a b = s.lhs a b := by
  rw [scalarFlux, loop_lhs (δ := fun _ => 0)]
  · simp
  · intro ip s; simp

theorem normalGradient_eq (f : FluxFace nf nip K) (grad evisc cp : Fin nf → K) (s : LocalSys (Fin nf) K) (a : Fin nf) :
    (normalGradient f grad evisc cp s).rhs a = s.rhs a + ∑ ip, if a = f.node ip then
      -((∑ ic, f.shape ip ic * evisc ic) * (∑ ic, f.shape ip ic * cp ic) * (∑ ic, f.shape ip ic * grad ic)) * f.amag ip else 0 := by
  rw [normalGradient]
  refine loop_rhs _ _ _ _ fun ip s => ?_
  rw [addR_rhs]
  congr 1
  split_ifs
  · ring
  · rfl

theorem normalGradient_lhs (f : FluxFace nf nip K) (grad evisc cp : Fin nf → K) (s : LocalSys (Fin nf) K) (a b : Fin nf) :
    (normalGradient f grad evisc cp s).lhs a b = s.lhs a b := by
  rw [normalGradient, loop_lhs (δ := fun _ => 0)]
  · simp
  · intro ip s; simp

/-- The total of the right-hand side after faces have been scattered, for any per-face contribution. -/
theorem faces_total [Fintype N] (fs : List (FluxRec N K)) (c : (f : FluxRec N K) → LocalSys (Fin f.nf) K) (s : Sys N K) :
    ∑ i, (fs.foldl (fun s f => s.applyCoeff f.node (c f)) s).rhs i = ∑ i, s.rhs i + (fs.map fun f => ∑ a, (c f).rhs a).sum := by
  induction fs generalizing s with
  | nil => simp
  | cons f l ih =>
    rw [List.foldl_cons, ih, List.map_cons, List.sum_cons, ← add_assoc]
    congr 1
    simp only [Sys.applyCoeff, sum_add_distrib]
    congr 1
    rw [sum_comm]
    simp

theorem faces_mat (fs : List (FluxRec N K)) (c : (f : FluxRec N K) → LocalSys (Fin f.nf) K) (h : ∀ f a b, (c f).lhs a b = 0)
    (s : Sys N K) (i j : N) : (fs.foldl (fun s f => s.applyCoeff f.node (c f)) s).mat i j = s.mat i j := by
  induction fs generalizing s with
  | nil => rfl
  | cons f l ih =>
    rw [List.foldl_cons, ih]
    simp [Sys.applyCoeff, h]

theorem faces_local (fs : List (FluxRec N K)) (c : (f : FluxRec N K) → LocalSys (Fin f.nf) K) (s : Sys N K) (i : N)
    (h : ∀ f ∈ fs, ∀ a, f.node a ≠ i) : (fs.foldl (fun s f => s.applyCoeff f.node (c f)) s).rhs i = s.rhs i := by
  induction fs generalizing s with
  | nil => rfl
  | cons f l ih =>
    rw [List.foldl_cons, ih _ (fun g hg => h g (by simp [hg]))]
    simp only [Sys.applyCoeff, add_eq_left]
    exact sum_eq_zero fun a _ => if_neg (fun e => h f (by simp) a e.symm)

/-- Area of a face. -/
def faceArea (f : FluxRec N K) : K := ∑ ip, f.face.amag ip

/-- **C131** The total a flux boundary condition adds to the equation is the integral of the imposed flux over the faces: the sum over
all integration points of the interpolated flux times the area; the matrix is not touched, nor any node off the boundary. -/
theorem c131_flux_total [Fintype N] (q : N → K) (fs : List (FluxRec N K)) (s : Sys N K) :
    ∑ i, (assembleFlux q fs s).rhs i = ∑ i, s.rhs i +
      (fs.map fun f => ∑ ip, (∑ ic, f.face.shape ip ic * q (f.node ic)) * f.face.amag ip).sum ∧
    (∀ i j, (assembleFlux q fs s).mat i j = s.mat i j) ∧
    ∀ i, (∀ f ∈ fs, ∀ a, f.node a ≠ i) → (assembleFlux q fs s).rhs i = s.rhs i := by
  refine ⟨?_, fun i j => ?_, fun i hi => ?_⟩
  · rw [assembleFlux, faces_total]
    congr 2
    refine List.map_congr_left fun f _ => ?_
    simp only [scalarFlux_rhs, zero_add]
    rw [sum_comm]
    simp
  · exact faces_mat fs _ (fun f a b => scalarFlux_lhs _ _ _ a b) s i j
  · exact faces_local fs _ s i hi

/-- **C131** A uniform flux: the total is the flux times the area of the boundary. -/
theorem c131_flux_uniform [Fintype N] (c : K) (fs : List (FluxRec N K)) (hu : ∀ f ∈ fs, ∀ ip, Unity (f.face.shape ip)) (s : Sys N K) :
    ∑ i, (assembleFlux (fun _ => c) fs s).rhs i = ∑ i, s.rhs i + c * (fs.map faceArea).sum := by
  rw [(c131_flux_total (fun _ => c) fs s).1]
  congr 1
  rw [← List.sum_map_mul_left]
  congr 1
  refine List.map_congr_left fun f hf => ?_
  rw [faceArea, mul_sum]
  refine sum_congr rfl fun ip _ => ?_
  rw [← sum_mul, hu f hf ip, one_mul]

/-- **C131** An imposed normal temperature gradient `g` (direction into the domain) with uniform effective viscosity `m` and specific
heat `h` removes the heat `m h g` per unit area; the matrix is not touched. -/
theorem c131_gradient_uniform [Fintype N] (g m h : K) (fs : List (FluxRec N K)) (hu : ∀ f ∈ fs, ∀ ip, Unity (f.face.shape ip))
    (s : Sys N K) :
    ∑ i, (assembleGradient (fun _ => g) (fun _ => m) (fun _ => h) fs s).rhs i = ∑ i, s.rhs i - m * h * g * (fs.map faceArea).sum ∧
    ∀ i j, (assembleGradient (fun _ => g) (fun _ => m) (fun _ => h) fs s).mat i j = s.mat i j := by
  refine ⟨?_, fun i j => faces_mat fs _ (fun f a b => normalGradient_lhs _ _ _ _ _ a b) s i j⟩
  rw [assembleGradient, faces_total, sub_eq_add_neg]
  congr 1
  rw [← neg_mul, ← List.sum_map_mul_left]
  congr 1
  refine List.map_congr_left fun f hf => ?_
  simp only [normalGradient_eq, zero_add]
  rw [sum_comm, faceArea, mul_sum]
  refine sum_congr rfl fun ip _ => ?_
  have h1 : ∀ c : K, ∑ ic, f.face.shape ip ic * c = c := fun c => by rw [← sum_mul, hu f hf ip, one_mul]
  simp only [h1, sum_ite_eq', mem_univ, if_true]

/-- **C131** A varying gradient: every integration point contributes the product of the three interpolated factors. -/
theorem c131_gradient_total [Fintype N] (g m h : N → K) (fs : List (FluxRec N K)) (s : Sys N K) :
    ∑ i, (assembleGradient g m h fs s).rhs i = ∑ i, s.rhs i - (fs.map fun f => ∑ ip,
      (∑ ic, f.face.shape ip ic * m (f.node ic)) * (∑ ic, f.face.shape ip ic * h (f.node ic)) *
        (∑ ic, f.face.shape ip ic * g (f.node ic)) * f.face.amag ip).sum := by
  rw [assembleGradient, faces_total, sub_eq_add_neg]
  congr 1
  rw [neg_eq_neg_one_mul, ← List.sum_map_mul_left]
  congr 1
  refine List.map_congr_left fun f _ => ?_
  simp only [normalGradient_eq, zero_add]
  rw [sum_comm, mul_sum]
  refine sum_congr rfl fun ip _ => ?_
  simp only [sum_ite_eq', mem_univ, if_true]
  ring

/-- **C131** Inflow through an open boundary sees the specified pressure as a *total* pressure: static pressure (specified minus dynamic,
as the continuity equation uses it) plus the kinetic energy of the entrained normal velocity `u = mdot/(rho A)` is the specified value.
Outflow sees it as the static pressure.  The dynamic pressure is never negative. -/
theorem c131_total_pressure (pSpec mdot rho amag : K) (hr : 0 < rho) (ha : 0 < amag) :
    (mdot < 0 → (pSpec - dynamicP mdot rho amag) + 1 / 2 * rho * (mdot / (rho * amag)) ^ 2 = pSpec) ∧
    (0 ≤ mdot → pSpec - dynamicP mdot rho amag = pSpec) ∧ 0 ≤ dynamicP mdot rho amag ∧
    (dynamicP mdot rho amag = 0 ↔ 0 ≤ mdot) := by
  have hp : 0 < rho * amag := mul_pos hr ha
  have hneg : mdot < 0 → dynamicP mdot rho amag = 1 / 2 * rho * (mdot / (rho * amag)) ^ 2 := by
    intro h
    rw [dynamicP, if_pos (div_neg_of_neg_of_pos h hp)]; ring
  have hpos : 0 ≤ mdot → dynamicP mdot rho amag = 0 := by
    intro h
    rw [dynamicP, if_neg (not_lt.2 (div_nonneg h hp.le))]
  have hgt : mdot < 0 → 0 < dynamicP mdot rho amag := by
    intro h
    rw [hneg h]
    have : mdot / (rho * amag) ≠ 0 := div_ne_zero h.ne hp.ne'
    positivity
  refine ⟨fun h => by rw [hneg h]; ring, fun h => by rw [hpos h, sub_zero], ?_, ?_, hpos⟩
  · rcases lt_or_ge mdot 0 with h | h
    · exact (hgt h).le
    · rw [hpos h]
  · intro h
    by_contra hc
    exact absurd h (hgt (not_le.1 hc)).ne'

/-- **C131** The dynamic pressure is the same whether one grows the mass flow rate or shrinks the area: it depends on the mass flux only,
and grows with its square. -/
theorem c131_dynamic_scaling (mdot rho amag c : K) (hc : 0 < c) :
    dynamicP (c * mdot) rho (c * amag) = dynamicP mdot rho amag ∧ dynamicP (c * mdot) rho amag = c ^ 2 * dynamicP mdot rho amag := by
  constructor
  · have : c * mdot / (rho * (c * amag)) = mdot / (rho * amag) := by
      rw [show rho * (c * amag) = c * (rho * amag) by ring, mul_div_mul_left _ _ hc.ne']
    simp only [dynamicP, this]
  · have : c * mdot / (rho * amag) = c * (mdot / (rho * amag)) := by rw [mul_div_assoc]
    simp only [dynamicP, this]
    by_cases h : mdot / (rho * amag) < 0
    · rw [if_pos h, if_pos (mul_neg_of_pos_of_neg hc h)]; ring
    · rw [if_neg h, if_neg (not_lt.2 (mul_nonneg hc.le (not_lt.1 h))), mul_zero]

/-! Concrete faces: a two-node face of length 4 split at its midpoint. -/

/-- Shape functions at quarter points. -/
def demoFlux : FluxRec (Fin 3) ℚ := ⟨2, 2, ⟨![![3 / 4, 1 / 4], ![1 / 4, 3 / 4]], fun _ => 2, id⟩, ![0, 2]⟩

example : ∀ ip, Unity (demoFlux.face.shape ip) := by
  intro ip; change ∑ ic, _ = _; revert ip; decide +kernel
example : (assembleFlux (fun _ => 5) [demoFlux] ⟨fun _ _ => 0, fun _ => 0⟩).rhs 2 = 10 := by decide +kernel
example : dynamicP (-6 : ℚ) 2 1 = 9 := by decide +kernel

end Nalu.Bc
