import Verif.Model.TurbElem
import Verif.Spec.TurbElem
import Verif.Props.Turbulence
import Verif.Props.ElemKernel

/-! # Lemmas about the turbulence source kernels -/

namespace Nalu.TurbElem
open Nalu.Edge Nalu.Kernel Nalu.Turb Nalu.TurbElem.Spec

variable {nn nip nd : ℕ}

theorem srcLoop_integrates (e : Scv nn nip ℝ) (pt : Fin nip → ℝ × ℝ) :
    Integrates (srcLoop e pt) e.node e.vol e.shape (fun ip => (pt ip).1) (fun ip => (pt ip).2) := by
  intro s a
  constructor
  · unfold srcLoop
    rw [loop_rhs (δ := fun ip => if a = e.node ip then (pt ip).1 * e.vol ip else 0) (a := a), Finset.sum_filter]
    · simp only [eq_comm]
    · intro ip s
      rw [loop_rhs (δ := fun _ => 0) (a := a)]
      · simp
      · intro k s; simp
  · intro b
    unfold srcLoop
    rw [loop_lhs (δ := fun ip => if a = e.node ip then e.shape ip b * (pt ip).2 * e.vol ip else 0) (a := a) (b := b),
      Finset.sum_filter]
    · simp only [eq_comm]
    · intro ip s
      rw [loop_lhs (δ := fun ic => if a = e.node ip ∧ b = ic then e.shape ip ic * (pt ip).2 * e.vol ip else 0) (a := a) (b := b)]
      · by_cases h : a = e.node ip
        · simp [h]
        · simp [h]
      · intro k s; simp

theorem integrates_congr {k : LocalSys (Fin nn) ℝ → LocalSys (Fin nn) ℝ} {node : Fin nip → Fin nn} {vol : Fin nip → ℝ}
    {N : Fin nip → Fin nn → ℝ} {src coef src' coef' : Fin nip → ℝ} (h : Integrates k node vol N src coef)
    (h1 : src = src') (h2 : coef = coef') : Integrates k node vol N src' coef' := h1 ▸ h2 ▸ h

theorem ksgs_integrates (ratio lr : ℝ) (e : Scv nn nip ℝ) (f : Nodes nn nd) (Gju : Fin nn → Fin nd → Fin nd → ℝ)
    (dsq : Fin nn → ℝ) :
    Integrates (ksgsElem ratio lr e f Gju dsq) e.node e.vol (fun ip b => if b = e.node ip then 1 else 0)
      (fun ip => (ksgsPt ratio lr (f.cEps (e.node ip)) (f.rho (e.node ip)) (f.tke (e.node ip)) (f.dualVol (e.node ip))
        (f.tvisc (e.node ip)) (f.visc (e.node ip)) (dsq (e.node ip)) (Gju (e.node ip))).1)
      (fun ip => (ksgsPt ratio lr (f.cEps (e.node ip)) (f.rho (e.node ip)) (f.tke (e.node ip)) (f.dualVol (e.node ip))
        (f.tvisc (e.node ip)) (f.visc (e.node ip)) (dsq (e.node ip)) (Gju (e.node ip))).2) := by
  intro s a
  constructor
  · unfold ksgsElem
    rw [loop_rhs (a := a) (δ := fun ip => if a = e.node ip then (ksgsPt ratio lr (f.cEps (e.node ip)) (f.rho (e.node ip))
      (f.tke (e.node ip)) (f.dualVol (e.node ip)) (f.tvisc (e.node ip)) (f.visc (e.node ip)) (dsq (e.node ip))
      (Gju (e.node ip))).1 * e.vol ip else 0), Finset.sum_filter]
    · simp only [eq_comm]
    · intro ip s; simp
  · intro b
    unfold ksgsElem
    rw [loop_lhs (a := a) (b := b) (δ := fun ip => if a = e.node ip ∧ b = e.node ip then (ksgsPt ratio lr (f.cEps (e.node ip)) (f.rho (e.node ip))
      (f.tke (e.node ip)) (f.dualVol (e.node ip)) (f.tvisc (e.node ip)) (f.visc (e.node ip)) (dsq (e.node ip))
      (Gju (e.node ip))).2 * e.vol ip else 0), Finset.sum_filter]
    · congr 1
      refine Finset.sum_congr rfl fun ip _ => ?_
      by_cases h : a = e.node ip
      · by_cases h2 : b = e.node ip
        · simp [h, h2]
        · simp [h, h2]
      · simp [h, Ne.symm h]
    · intro ip s; simp

theorem rodi_integrates (beta pr : ℝ) (g : Fin nd → ℝ) (e : Scv nn nip ℝ) (tvisc cp : Fin nn → ℝ) (dh : Fin nn → Fin nd → ℝ) :
    Integrates (rodiElem beta pr g e tvisc cp dh) e.node e.vol e.shape
      (fun ip => rodiPt beta pr (tvisc (e.node ip)) (cp (e.node ip)) g (dh (e.node ip))) (fun _ => 0) := by
  intro s a
  constructor
  · unfold rodiElem
    rw [loop_rhs (a := a) (δ := fun ip => if a = e.node ip then
      rodiPt beta pr (tvisc (e.node ip)) (cp (e.node ip)) g (dh (e.node ip)) * e.vol ip else 0), Finset.sum_filter]
    · simp only [eq_comm]
    · intro ip s; simp
  · intro b
    unfold rodiElem
    rw [loop_lhs (a := a) (b := b) (δ := fun _ => 0)]
    · simp
    · intro ip s; simp

/-- `τ:∇u` without dilatation is `2 μ_t S:S`. -/
theorem gradProduct_eq (tvisc : ℝ) (g : Fin nd → Fin nd → ℝ) : gradProduct g * tvisc = production tvisc g := by
  rw [c70_production_is_strain, strainMag, Real.sq_sqrt]
  · unfold production strain
    have : ∀ i j : Fin nd, 1 / 2 * (g i j + g j i) * (1 / 2 * (g i j + g j i)) = (g i j + g j i) / 2 * ((g i j + g j i) / 2) := by
      intro i j; ring
    simp only [this]; ring
  · refine mul_nonneg (by norm_num) (Finset.sum_nonneg fun i _ => Finset.sum_nonneg fun j _ => mul_self_nonneg _)

theorem production_nonneg {tvisc : ℝ} (h : 0 ≤ tvisc) (g : Fin nd → Fin nd → ℝ) : 0 ≤ production tvisc g :=
  mul_nonneg (by linarith) (Finset.sum_nonneg fun i _ => Finset.sum_nonneg fun j _ => mul_self_nonneg _)

theorem kePk_one (rho tke tvisc : ℝ) (g : Fin nd → Fin nd → ℝ) :
    kePk 1 rho tke tvisc g = productionDilatation tvisc rho tke g := by
  unfold kePk productionDilatation
  congr 1
  have hs : ∀ i j : Fin nd, (2 * tvisc * (strain g i j - if i = j then (∑ l, g l l) / 3 else 0) -
      if i = j then 2 / 3 * rho * tke else 0) * g i j = tvisc * (g i j * (g i j + g j i)) -
        if i = j then (2 * tvisc * ((∑ l, g l l) / 3) + 2 / 3 * rho * tke) * g i j else 0 := by
    intro i j
    unfold strain
    split_ifs <;> ring
  simp only [hs, Finset.sum_sub_distrib, ← Finset.mul_sum, Finset.sum_ite_eq, Finset.mem_univ, if_true]
  unfold gradProduct
  ring

theorem kePk_zero (rho tke tvisc : ℝ) (h : 0 ≤ tvisc) (g : Fin nd → Fin nd → ℝ) :
    kePk 0 rho tke tvisc g = production tvisc g := by
  rw [← gradProduct_eq]
  unfold kePk
  simp only [mul_zero, sub_zero]
  rw [mul_comm tvisc]
  exact max_eq_right (by rw [gradProduct_eq]; exact production_nonneg h g)

end Nalu.TurbElem
