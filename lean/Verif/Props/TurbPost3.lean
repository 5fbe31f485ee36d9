import Verif.Props.TurbPost2
import Mathlib.Analysis.SpecialFunctions.Pow.Real

/-!
# C287–C290: dynamic procedure for the subgrid kinetic energy, low-Reynolds source
-/

namespace Nalu.TurbPost

variable {n : ℕ}

/-- Specification: a node's patch — at least one element, all admissible. -/
structure Patch (els : List (El n)) : Prop where
  ne : els ≠ []
  good : ∀ e ∈ els, e.Good

theorem Patch.vol_pos {els : List (El n)} (h : Patch els) : 0 < (els.map El.vol).sum :=
  vsum_pos els El.vol h.ne fun e he => (h.good e he).vol_pos

theorem filtered_congr {els : List (El n)} {x y : (e : El n) → Fin e.numIp → ℝ}
    (h : ∀ e ∈ els, ∀ q, x e q = y e q) : filtered els x = filtered els y := by
  unfold filtered
  congr 1
  exact congrArg List.sum (List.map_congr_left fun e he => Finset.sum_congr rfl fun q _ => by rw [h e he q])

theorem filtered_add (els : List (El n)) (x y : (e : El n) → Fin e.numIp → ℝ) :
    filtered els (fun e q => x e q + y e q) = filtered els x + filtered els y := by
  unfold filtered
  simp only [add_mul, Finset.sum_add_distrib, List.sum_map_add, add_div]

theorem filtered_smul (els : List (El n)) (c : ℝ) (x : (e : El n) → Fin e.numIp → ℝ) :
    filtered els (fun e q => c * x e q) = c * filtered els x := by
  unfold filtered
  simp only [mul_assoc, ← Finset.mul_sum, List.sum_map_mul_left, mul_div_assoc]

theorem filtered_sub (els : List (El n)) (x y : (e : El n) → Fin e.numIp → ℝ) :
    filtered els (fun e q => x e q - y e q) = filtered els x - filtered els y := by
  have h := filtered_add els x (fun e q => (-1) * y e q)
  rw [filtered_smul] at h
  rw [show filtered els x - filtered els y = filtered els x + -1 * filtered els y by ring, ← h]
  exact filtered_congr fun e _ q => by ring

theorem filtered_const {els : List (El n)} (h : Patch els) (c : ℝ) : filtered els (fun _ _ => c) = c := by
  have h1 := filtered_smul els c (fun _ _ => 1)
  simp only [mul_one] at h1
  rw [h1]
  unfold filtered
  simp only [one_mul]
  have : (els.map fun e => ∑ q, e.scv q).sum / (els.map El.vol).sum = 1 := div_self h.vol_pos.ne'
  rw [this, mul_one]

theorem filtered_sum (els : List (El n)) {ι : Type*} (s : Finset ι) (x : ι → (e : El n) → Fin e.numIp → ℝ) :
    filtered els (fun e q => ∑ i ∈ s, x i e q) = ∑ i ∈ s, filtered els (x i) := by
  classical
  induction s using Finset.induction_on with
  | empty =>
    simp only [Finset.sum_empty]
    unfold filtered; simp
  | insert a s ha ih =>
    rw [Finset.sum_insert ha, ← ih, ← filtered_add]
    exact filtered_congr fun e _ q => Finset.sum_insert ha

theorem filtered_nonneg {els : List (El n)} (h : Patch els) {x : (e : El n) → Fin e.numIp → ℝ}
    (hx : ∀ e ∈ els, ∀ q, 0 ≤ x e q) : 0 ≤ filtered els x := by
  refine div_nonneg (List.sum_nonneg fun y hy => ?_) h.vol_pos.le
  obtain ⟨e, he, rfl⟩ := List.mem_map.1 hy
  exact Finset.sum_nonneg fun q _ => mul_nonneg (hx e he q) ((h.good e he).scv_pos q).le

theorem filtered_pos {els : List (El n)} (h : Patch els) {x : (e : El n) → Fin e.numIp → ℝ}
    (hx : ∀ e ∈ els, ∀ q, 0 < x e q) : 0 < filtered els x := by
  refine div_pos (vsum_pos els (fun e => ∑ q, x e q * e.scv q) h.ne fun e he => ?_) h.vol_pos
  exact Finset.sum_pos (fun q _ => mul_pos (hx e he q) ((h.good e he).scv_pos q))
    ⟨⟨0, (h.good e he).ip_pos⟩, Finset.mem_univ _⟩

/-- The filter's variance is nonnegative. -/
theorem filtered_var {els : List (El n)} (h : Patch els) (x : (e : El n) → Fin e.numIp → ℝ) :
    0 ≤ filtered els (fun e q => x e q * x e q) - filtered els x * filtered els x := by
  set m := filtered els x with hm
  have h1 : 0 ≤ filtered els (fun e q => (x e q - m) ^ 2) := filtered_nonneg h fun e _ q => sq_nonneg _
  have h2 : filtered els (fun e q => (x e q - m) ^ 2)
      = filtered els (fun e q => x e q * x e q) - 2 * m * m + m * m := by
    rw [show (fun (e : El n) (q : Fin e.numIp) => (x e q - m) ^ 2)
      = fun e q => (x e q * x e q - 2 * m * x e q) + m * m by funext e q; ring]
    rw [filtered_add els (fun e q => x e q * x e q - 2 * m * x e q) (fun _ _ => m * m), filtered_const h,
      filtered_sub els (fun e q => x e q * x e q) (fun e q => 2 * m * x e q), filtered_smul, ← hm]
  linarith

/-! ## C287 -/

theorem fDensity_pos {els : List (El n)} (h : Patch els) : 0 < fDensity els :=
  filtered_pos h fun e he q => El.ip_pos' (h.good e he) q _ (h.good e he).rho_pos

theorem ktestRaw_nonneg {els : List (El n)} (h : Patch els) : 0 ≤ ktestRaw els := by
  unfold ktestRaw fKinetic
  rw [filtered_sum els Finset.univ
    (fun i (e : El n) q => 1 / 2 * (e.ip q fun ic => e.u ic i) * (e.ip q fun ic => e.u ic i)),
    ← Finset.sum_sub_distrib]
  refine Finset.sum_nonneg fun i _ => ?_
  have := filtered_var h (fun e q => e.ip q fun ic => e.u ic i)
  rw [show (fun (e : El n) (q : Fin e.numIp) => 1 / 2 * (e.ip q fun ic => e.u ic i) * (e.ip q fun ic => e.u ic i))
    = fun e q => 1 / 2 * ((e.ip q fun ic => e.u ic i) * (e.ip q fun ic => e.u ic i)) by funext e q; ring,
    filtered_smul els (1 / 2) (fun e q => (e.ip q fun ic => e.u ic i) * (e.ip q fun ic => e.u ic i))]
  unfold fVelocity
  linarith

theorem sum_sym_mul (s d : Fin n → Fin n → ℝ) (hs : ∀ i j, s i j = 1 / 2 * (d i j + d j i)) :
    ∑ i, ∑ j, s i j * d i j = ∑ i, ∑ j, s i j * s i j := by
  have hsym : ∀ i j, s i j = s j i := fun i j => by rw [hs, hs]; ring
  have h1 : ∑ i, ∑ j, s i j * d i j = ∑ i, ∑ j, s i j * d j i := by
    rw [Finset.sum_comm]
    exact Finset.sum_congr rfl fun i _ => Finset.sum_congr rfl fun j _ => by rw [hsym i j]
  have h2 : ∑ i, ∑ j, s i j * s i j = 1 / 2 * (∑ i, ∑ j, s i j * d i j + ∑ i, ∑ j, s i j * d j i) := by
    rw [← Finset.sum_add_distrib, Finset.mul_sum]
    refine Finset.sum_congr rfl fun i _ => ?_
    rw [← Finset.sum_add_distrib, Finset.mul_sum]
    exact Finset.sum_congr rfl fun j _ => by
      nth_rewrite 2 [hs i j]; ring
  rw [h2, ← h1]; ring

theorem sij_eq (g : Fin n → Fin n → ℝ) (i j : Fin n) : sij g i j = 1 / 2 * (dij g i j + dij g j i) := by
  unfold sij dij
  by_cases h : i = j
  · subst h; simp; ring
  · simp [h, Ne.symm h, eq_comm]

theorem fStrain_eq (els : List (El n)) (i j : Fin n) :
    fStrain els i j = 1 / 2 * (fGrad els i j + fGrad els j i) := by
  unfold fStrain fGrad
  rw [← filtered_add els, ← filtered_smul]
  exact filtered_congr fun e _ q => sij_eq _ i j

theorem dissipation_resolved_nonneg {els : List (El n)} (h : Patch els) :
    0 ≤ fSijDij els - ∑ i, ∑ j, fStrain els i j * fGrad els i j := by
  rw [sum_sym_mul _ _ (fStrain_eq els)]
  unfold fSijDij
  rw [filtered_congr (y := fun e q => ∑ i, ∑ j, sij (e.grad q e.u) i j * sij (e.grad q e.u) i j)
    fun e _ q => sum_sym_mul _ _ (sij_eq _)]
  rw [filtered_sum els Finset.univ (fun i (e : El n) q => ∑ j, sij (e.grad q e.u) i j * sij (e.grad q e.u) i j),
    ← Finset.sum_sub_distrib]
  refine Finset.sum_nonneg fun i _ => ?_
  rw [filtered_sum els Finset.univ (fun j (e : El n) q => sij (e.grad q e.u) i j * sij (e.grad q e.u) i j),
    ← Finset.sum_sub_distrib]
  exact Finset.sum_nonneg fun j _ => filtered_var h fun e q => sij (e.grad q e.u) i j

theorem ktest_pos (els : List (El n)) : 0 < ktest els := lt_of_lt_of_le (by positivity) (le_max_left _ _)

theorem fFilter_pos {els : List (El n)} (h : Patch els) : 0 < fFilter els :=
  Real.rpow_pos_of_pos h.vol_pos _

/-- Specification: the quadratic form of the (negated) Leonard stress. -/
noncomputable def leonardForm (els : List (El n)) (c : Fin n → ℝ) : ℝ :=
  -∑ i, ∑ j, c i * c j * leonard els i j

theorem leonardForm_nonneg {els : List (El n)} (h : Patch els) (c : Fin n → ℝ) : 0 ≤ leonardForm els c := by
  set a := fDensity els with ha
  have hapos : 0 < a := fDensity_pos h
  let v : (e : El n) → Fin e.npe → ℝ := fun e ic => ∑ i, c i * e.u ic i
  set b := filtered els (fun e q => e.ip q fun ic => e.rho ic * v e ic) with hb
  set cc := filtered els (fun e q => e.ip q fun ic => e.rho ic * v e ic * v e ic) with hcc
  have hb' : b = ∑ i, c i * fRhoU els i := by
    rw [hb]
    unfold fRhoU
    simp only [← filtered_smul]
    rw [← filtered_sum]
    refine filtered_congr fun e _ q => ?_
    simp only [El.ip, v, Finset.mul_sum]
    rw [Finset.sum_comm]
    exact Finset.sum_congr rfl fun i _ => Finset.sum_congr rfl fun ic _ => by ring
  have hc' : cc = ∑ i, ∑ j, c i * c j * fRhoUU els i j := by
    rw [hcc]
    unfold fRhoUU
    simp only [← filtered_smul]
    have : ∀ i, ∑ j, filtered els (fun e q => c i * c j * (e.ip q fun ic => e.rho ic * e.u ic i * e.u ic j))
        = filtered els (fun e q => ∑ j, c i * c j * (e.ip q fun ic => e.rho ic * e.u ic i * e.u ic j)) :=
      fun i => (filtered_sum els Finset.univ _).symm
    simp only [this]
    rw [← filtered_sum]
    refine filtered_congr fun e _ q => ?_
    have key : ∀ ic, e.rho ic * v e ic * v e ic
        = ∑ i, ∑ j, c i * c j * (e.rho ic * e.u ic i * e.u ic j) := fun ic => by
      simp only [v]
      rw [mul_assoc, Finset.sum_mul_sum, Finset.mul_sum]
      refine Finset.sum_congr rfl fun i _ => ?_
      rw [Finset.mul_sum]
      exact Finset.sum_congr rfl fun j _ => by ring
    simp only [El.ip, key, Finset.mul_sum]
    rw [Finset.sum_comm]
    refine Finset.sum_congr rfl fun i _ => ?_
    rw [Finset.sum_comm]
    refine Finset.sum_congr rfl fun j _ => Finset.sum_congr rfl fun ic _ => by ring
  have hform : leonardForm els c = cc - b * b / a := by
    unfold leonardForm leonard
    rw [← ha, hc', hb', Finset.sum_mul_sum, Finset.sum_div, ← Finset.sum_sub_distrib, ← Finset.sum_neg_distrib]
    refine Finset.sum_congr rfl fun i _ => ?_
    rw [Finset.sum_div, ← Finset.sum_sub_distrib, ← Finset.sum_neg_distrib]
    exact Finset.sum_congr rfl fun j _ => by ring
  rw [hform]
  have h1 : 0 ≤ filtered els (fun e q => e.ip q fun ic => e.rho ic * (v e ic - b / a) ^ 2) :=
    filtered_nonneg h fun e he q => El.ip_nonneg (h.good e he) q _ fun ic =>
      mul_nonneg ((h.good e he).rho_pos ic).le (sq_nonneg _)
  have h2 : filtered els (fun e q => e.ip q fun ic => e.rho ic * (v e ic - b / a) ^ 2)
      = cc - 2 * (b / a) * b + (b / a) ^ 2 * a := by
    have : ∀ e : El n, ∀ q, (e.ip q fun ic => e.rho ic * (v e ic - b / a) ^ 2)
        = ((e.ip q fun ic => e.rho ic * v e ic * v e ic) - 2 * (b / a) * (e.ip q fun ic => e.rho ic * v e ic))
          + (b / a) ^ 2 * e.ip q e.rho := by
      intro e q
      simp only [El.ip, Finset.mul_sum]
      rw [← Finset.sum_sub_distrib, ← Finset.sum_add_distrib]
      exact Finset.sum_congr rfl fun ic _ => by ring
    rw [filtered_congr fun e _ q => this e q,
      filtered_add els (fun e q => (e.ip q fun ic => e.rho ic * v e ic * v e ic)
        - 2 * (b / a) * (e.ip q fun ic => e.rho ic * v e ic)) (fun e q => (b / a) ^ 2 * e.ip q e.rho),
      filtered_sub els (fun e q => e.ip q fun ic => e.rho ic * v e ic * v e ic)
        (fun e q => 2 * (b / a) * (e.ip q fun ic => e.rho ic * v e ic)),
      filtered_smul els (2 * (b / a)) (fun e q => e.ip q fun ic => e.rho ic * v e ic),
      filtered_smul els ((b / a) ^ 2) (fun e q => e.ip q e.rho), ← hcc, ← hb]
    rfl
  rw [h2] at h1
  have h3 : cc - 2 * (b / a) * b + (b / a) ^ 2 * a = cc - b * b / a := by field_simp; ring
  linarith

/-- **C287** The dynamic procedure is realisable on every admissible patch: the test-filter kinetic energy
is nonnegative before it is clipped, the subtest-scale stress it is compared with is positive
semidefinite, the dissipation constant is nonnegative before it is clipped when the effective viscosity is
nonnegative, and the stored dissipation constant is at least `1e-16`. -/
theorem c287_realizable (els : List (El n)) (h : Patch els) (evisc : ℝ) :
    0 ≤ ktestRaw els ∧ (∀ c, 0 ≤ leonardForm els c) ∧
    (0 ≤ evisc → 0 ≤ cEpsRaw els evisc) ∧ 1 / 10 ^ 16 ≤ cEps els evisc := by
  refine ⟨ktestRaw_nonneg h, leonardForm_nonneg h, fun he => ?_, le_max_left _ _⟩
  unfold cEpsRaw
  exact div_nonneg (mul_nonneg (by positivity) (dissipation_resolved_nonneg h))
    (div_nonneg (mul_nonneg (fDensity_pos h).le (Real.rpow_nonneg (ktest_pos els).le _)) (fFilter_pos h).le)

/-! ## C288 -/

/-- **C288** The clipping of the viscosity constant keeps the effective viscosity of the subgrid model
positive: whatever the flow, laminar plus turbulent viscosity is at least `1 − lamFraction` times the
laminar one (computed with the density, volume and kinetic energy the constant was clipped with). -/
theorem c288_effective_viscosity (els : List (El n)) (lam fmu dualVol rho visc tke : ℝ)
    (hl : 0 ≤ lam) (hf0 : 0 ≤ fmu) (hf1 : fmu ≤ 1) (hV : 0 < dualVol) (hr : 0 < rho) (hv : 0 ≤ visc) :
    (1 - lam) * visc ≤ visc + tviscKsgs n fmu (cmu els lam dualVol rho visc tke) rho tke dualVol := by
  set F := dualVol ^ (1 / (n : ℝ)) with hF
  have hFp : 0 < F := Real.rpow_pos_of_pos hV _
  set s := Real.sqrt (max tke (1 / 10 ^ 16)) with hs
  have hsp : 0 < s := Real.sqrt_pos.2 (lt_of_lt_of_le (by positivity) (le_max_right _ _))
  have hts : Real.sqrt tke ≤ s := Real.sqrt_le_sqrt (le_max_left _ _)
  have hc : -visc * lam / (rho * F * s) ≤ cmu els lam dualVol rho visc tke := le_max_left _ _
  unfold tviscKsgs
  rw [← hF]
  generalize cmu els lam dualVol rho visc tke = c at *
  have hk : 0 ≤ fmu * rho * Real.sqrt tke * F := by positivity
  have h1 : -visc * lam / (rho * F * s) * (fmu * rho * Real.sqrt tke * F) ≤ c * (fmu * rho * Real.sqrt tke * F) :=
    mul_le_mul_of_nonneg_right hc hk
  have h2 : -visc * lam / (rho * F * s) * (fmu * rho * Real.sqrt tke * F)
      = -(visc * lam * (fmu * (Real.sqrt tke / s))) := by field_simp
  have h3 : Real.sqrt tke / s ≤ 1 := (div_le_one hsp).2 hts
  have h4 : fmu * (Real.sqrt tke / s) ≤ 1 := by
    calc fmu * (Real.sqrt tke / s) ≤ 1 * 1 := mul_le_mul hf1 h3 (by positivity) zero_le_one
      _ = 1 := by norm_num
  have h5 : visc * lam * (fmu * (Real.sqrt tke / s)) ≤ visc * lam := by
    calc _ ≤ visc * lam * 1 := mul_le_mul_of_nonneg_left h4 (by positivity)
      _ = _ := mul_one _
  have h6 : fmu * c * rho * Real.sqrt tke * F = c * (fmu * rho * Real.sqrt tke * F) := by ring
  rw [h6]
  linarith

/-- **C288** The clip only ever raises the constant, and leaves it alone unless it would lower the
effective viscosity below the bound. -/
theorem c288_clip_inactive (els : List (El n)) (lam dualVol rho visc tke : ℝ) (hV : 0 < dualVol) (hr : 0 < rho)
    (ht : 1 / 10 ^ 16 ≤ tke) :
    cmuRaw els ≤ cmu els lam dualVol rho visc tke ∧
    ((1 - lam) * visc ≤ visc + tviscKsgs n 1 (cmuRaw els) rho tke dualVol →
      cmu els lam dualVol rho visc tke = cmuRaw els) := by
  refine ⟨le_max_right _ _, fun h => max_eq_right ?_⟩
  have hFp : 0 < dualVol ^ (1 / (n : ℝ)) := Real.rpow_pos_of_pos hV _
  have htp : 0 < tke := lt_of_lt_of_le (by positivity) ht
  have hsp : 0 < Real.sqrt tke := Real.sqrt_pos.2 htp
  rw [max_eq_left ht, div_le_iff₀ (by positivity)]
  unfold tviscKsgs at h
  nlinarith

/-! ## C289 -/

/-- Specification: the same patch seen from a frame moving with velocity `-U`. -/
noncomputable def El.boost (U : Fin n → ℝ) (e : El n) : El n := { e with u := fun ic i => e.u ic i + U i }

theorem filtered_boost (U : Fin n → ℝ) (els : List (El n)) (x : (e : El n) → Fin e.numIp → ℝ) :
    filtered (els.map (El.boost U)) x = filtered els fun e q => x (e.boost U) q := by
  unfold filtered
  rw [List.map_map, List.map_map]
  rfl

theorem ip_boost {e : El n} (h : e.Good) (q : Fin e.numIp) (f : Fin e.npe → ℝ) (c : ℝ) :
    (e.ip q fun ic => f ic + c) = e.ip q f + c := by
  unfold El.ip
  simp only [mul_add, Finset.sum_add_distrib]
  rw [← Finset.sum_mul, h.shp_sum q, one_mul]

theorem grad_boost {e : El n} (h : e.Good) (U : Fin n → ℝ) (q : Fin e.numIp) (i j : Fin n) :
    (e.boost U).grad q (e.boost U).u i j = e.grad q e.u i j := by
  show ∑ ic, (e.u ic i + U i) * e.dndx q ic j = ∑ ic, e.u ic i * e.dndx q ic j
  simp only [add_mul, Finset.sum_add_distrib]
  rw [← Finset.mul_sum, h.dndx_sum q j, mul_zero, add_zero]

theorem boost_density (U : Fin n → ℝ) (els : List (El n)) : fDensity (els.map (El.boost U)) = fDensity els :=
  filtered_boost U els _

theorem boost_vol (U : Fin n → ℝ) (els : List (El n)) : fVolume (els.map (El.boost U)) = fVolume els := by
  unfold fVolume; rw [List.map_map]; rfl

theorem boost_vel {els : List (El n)} (h : Patch els) (U : Fin n → ℝ) (i : Fin n) :
    fVelocity (els.map (El.boost U)) i = fVelocity els i + U i := by
  unfold fVelocity
  rw [filtered_boost]
  have h1 := filtered_add els (fun e q => e.ip q fun ic => e.u ic i) (fun _ _ => U i)
  rw [filtered_const h] at h1
  refine Eq.trans ?_ h1
  exact filtered_congr fun e he q => ip_boost (h.good e he) q _ _

theorem boost_rhoU (els : List (El n)) (U : Fin n → ℝ) (i : Fin n) :
    fRhoU (els.map (El.boost U)) i = fRhoU els i + U i * fDensity els := by
  unfold fRhoU fDensity
  rw [filtered_boost, ← filtered_smul, ← filtered_add els]
  refine filtered_congr fun e he q => ?_
  show ∑ ic, e.shp q ic * (e.rho ic * (e.u ic i + U i)) = ∑ ic, e.shp q ic * (e.rho ic * e.u ic i) + U i * ∑ ic, e.shp q ic * e.rho ic
  rw [Finset.mul_sum, ← Finset.sum_add_distrib]
  exact Finset.sum_congr rfl fun ic _ => by ring

theorem boost_rhoUU (els : List (El n)) (U : Fin n → ℝ) (i j : Fin n) :
    fRhoUU (els.map (El.boost U)) i j
      = fRhoUU els i j + U j * fRhoU els i + U i * fRhoU els j + U i * U j * fDensity els := by
  unfold fRhoUU fRhoU fDensity
  rw [filtered_boost, ← filtered_smul, ← filtered_smul, ← filtered_smul, ← filtered_add els, ← filtered_add els,
    ← filtered_add els]
  refine filtered_congr fun e he q => ?_
  show ∑ ic, e.shp q ic * (e.rho ic * (e.u ic i + U i) * (e.u ic j + U j))
    = ∑ ic, e.shp q ic * (e.rho ic * e.u ic i * e.u ic j) + U j * ∑ ic, e.shp q ic * (e.rho ic * e.u ic i)
      + U i * ∑ ic, e.shp q ic * (e.rho ic * e.u ic j) + U i * U j * ∑ ic, e.shp q ic * e.rho ic
  rw [Finset.mul_sum, Finset.mul_sum, Finset.mul_sum, ← Finset.sum_add_distrib, ← Finset.sum_add_distrib,
    ← Finset.sum_add_distrib]
  exact Finset.sum_congr rfl fun ic _ => by ring

theorem boost_leonard {els : List (El n)} (h : Patch els) (U : Fin n → ℝ) (i j : Fin n) :
    leonard (els.map (El.boost U)) i j = leonard els i j := by
  unfold leonard
  rw [boost_rhoU, boost_rhoU, boost_rhoUU, boost_density]
  have := (fDensity_pos h).ne'
  field_simp
  ring

theorem boost_strain {els : List (El n)} (h : Patch els) (U : Fin n → ℝ) (i j : Fin n) :
    fStrain (els.map (El.boost U)) i j = fStrain els i j ∧ fGrad (els.map (El.boost U)) i j = fGrad els i j := by
  unfold fStrain fGrad
  rw [filtered_boost, filtered_boost]
  constructor <;>
  · refine filtered_congr fun e he q => ?_
    rw [show (e.boost U).grad q (e.boost U).u = e.grad q e.u from
      funext fun i => funext fun j => grad_boost (h.good e he) U q i j]

theorem boost_sijdij {els : List (El n)} (h : Patch els) (U : Fin n → ℝ) :
    fSijDij (els.map (El.boost U)) = fSijDij els := by
  unfold fSijDij
  rw [filtered_boost]
  refine filtered_congr fun e he q => ?_
  rw [show (e.boost U).grad q (e.boost U).u = e.grad q e.u from
    funext fun i => funext fun j => grad_boost (h.good e he) U q i j]

theorem boost_ktest {els : List (El n)} (h : Patch els) (U : Fin n → ℝ) :
    ktestRaw (els.map (El.boost U)) = ktestRaw els := by
  unfold ktestRaw fKinetic
  rw [filtered_boost]
  rw [filtered_congr (y := fun e q => ∑ i, (1 / 2 * (e.ip q fun ic => e.u ic i) * (e.ip q fun ic => e.u ic i)
      + (U i * (e.ip q fun ic => e.u ic i) + 1 / 2 * U i * U i))) fun e he q => Finset.sum_congr rfl fun i _ => by
      have : ((e.boost U).ip q fun ic => (e.boost U).u ic i) = (e.ip q fun ic => e.u ic i) + U i :=
        ip_boost (h.good e he) q _ _
      rw [this]; ring]
  rw [filtered_sum els Finset.univ (fun i (e : El n) q => 1 / 2 * (e.ip q fun ic => e.u ic i) * (e.ip q fun ic => e.u ic i)
      + (U i * (e.ip q fun ic => e.u ic i) + 1 / 2 * U i * U i)),
    filtered_sum els Finset.univ (fun i (e : El n) q => 1 / 2 * (e.ip q fun ic => e.u ic i) * (e.ip q fun ic => e.u ic i)),
    ← Finset.sum_sub_distrib, ← Finset.sum_sub_distrib]
  refine Finset.sum_congr rfl fun i _ => ?_
  rw [filtered_add els (fun e q => 1 / 2 * (e.ip q fun ic => e.u ic i) * (e.ip q fun ic => e.u ic i))
      (fun e q => U i * (e.ip q fun ic => e.u ic i) + 1 / 2 * U i * U i),
    filtered_add els (fun e q => U i * (e.ip q fun ic => e.u ic i)) (fun _ _ => 1 / 2 * U i * U i),
    filtered_smul els (U i) (fun e q => e.ip q fun ic => e.u ic i), filtered_const h, boost_vel h U i]
  unfold fVelocity
  ring

/-- **C289** Both dynamic constants are Galilean invariant: adding one velocity to the whole flow changes
neither of them. -/
theorem c289_galilean (els : List (El n)) (h : Patch els) (U : Fin n → ℝ) (evisc lam dualVol rho visc tke : ℝ) :
    cEps (els.map (El.boost U)) evisc = cEps els evisc ∧
    cmu (els.map (El.boost U)) lam dualVol rho visc tke = cmu els lam dualVol rho visc tke := by
  have hk : ktest (els.map (El.boost U)) = ktest els := by unfold ktest; rw [boost_ktest h]
  have hf : fFilter (els.map (El.boost U)) = fFilter els := by unfold fFilter; rw [boost_vol]
  constructor
  · unfold cEps cEpsRaw
    simp only [(boost_strain h U _ _).1, (boost_strain h U _ _).2, boost_sijdij h, boost_density, hk, hf]
  · unfold cmu cmuRaw modelM
    simp only [(boost_strain h U _ _).1, boost_leonard h, boost_density, hk, hf]

/-- **C289** In a uniform flow the model switches off: the viscosity constant is zero and the dissipation
constant is at its floor. -/
theorem c289_uniform_flow (els : List (El n)) (h : Patch els) (U : Fin n → ℝ) (hU : ∀ e ∈ els, ∀ ic i, e.u ic i = U i)
    (evisc lam dualVol rho visc tke : ℝ) (hl : 0 ≤ lam) (hv : 0 ≤ visc) (hr : 0 < rho) (hV : 0 < dualVol) :
    cEps els evisc = 1 / 10 ^ 16 ∧ cmu els lam dualVol rho visc tke = 0 := by
  have hg : ∀ e ∈ els, ∀ q, e.grad q e.u = fun _ _ => 0 := fun e he q => by
    funext i j
    unfold El.grad
    simp only [hU e he]
    rw [← Finset.mul_sum, (h.good e he).dndx_sum q j, mul_zero]
  have hs0 : sij (fun (_ _ : Fin n) => (0 : ℝ)) = fun _ _ => 0 := by
    funext i j; unfold sij; simp
  have hS : ∀ i j, fStrain els i j = 0 := fun i j => by
    unfold fStrain
    rw [filtered_congr (y := fun _ _ => 0) fun e he q => by rw [hg e he q, hs0], filtered_const h]
  have hSD : fSijDij els = 0 := by
    unfold fSijDij
    rw [filtered_congr (y := fun _ _ => 0) fun e he q => by rw [hg e he q, hs0]; simp, filtered_const h]
  constructor
  · unfold cEps cEpsRaw
    simp only [hS, hSD]
    simp
  · unfold cmu cmuRaw modelM
    simp only [hS]
    simp only [mul_zero, Finset.sum_const_zero, zero_div]
    refine max_eq_right (div_nonpos_of_nonpos_of_nonneg (by nlinarith) (by positivity))

/-! ## C290 -/

/-- **C290** The low-Reynolds source (squared gradient of the root of the kinetic energy) is nonnegative at
every node, zero when the kinetic energy is constant, and exact when its root is linear on the patch: the
squared slope, provided the sub-control volumes attached to the node add up to its dual volume. -/
theorem c290_dsqrtk (els : List ((e : El n) × Fin e.npe)) (hg : ∀ p ∈ els, p.1.Good)
    (hV : ∀ p ∈ els, ∀ ic, 0 < p.1.dualVol ic) :
    0 ≤ dsqNode els ∧
    (∀ k0, (∀ p ∈ els, ∀ ic, p.1.k ic = k0) → dsqNode els = 0) ∧
    (∀ (V : ℝ) (s : Fin n → ℝ) (c : ℝ) (x : (e : El n) → Fin e.npe → Fin n → ℝ), 0 < V →
      (∀ p ∈ els, p.1.dualVol p.2 = V) →
      (els.map fun p => ∑ q, if p.1.ipNode q = p.2 then p.1.scv q else 0).sum = V →
      (∀ p ∈ els, ∀ ic, Real.sqrt (p.1.k ic) = c + ∑ l, s l * x p.1 ic l) →
      (∀ p ∈ els, ∀ q j l, ∑ ic, p.1.dndx q ic j * x p.1 ic l = if j = l then 1 else 0) →
      dsqNode els = ∑ j, s j ^ 2) := by
  refine ⟨?_, fun k0 hk => ?_, fun V s c x hVp hd hsum hlin hx => ?_⟩
  · refine List.sum_nonneg fun y hy => ?_
    obtain ⟨p, hp, rfl⟩ := List.mem_map.1 hy
    refine Finset.sum_nonneg fun q _ => ?_
    split_ifs
    · exact div_nonneg (mul_nonneg (Finset.sum_nonneg fun j _ => mul_self_nonneg _) ((hg p hp).scv_pos q).le)
        (hV p hp _).le
    · exact le_rfl
  · refine List.sum_eq_zero fun y hy => ?_
    obtain ⟨p, hp, rfl⟩ := List.mem_map.1 hy
    refine Finset.sum_eq_zero fun q _ => ?_
    have : dsqIp p.1 q = 0 := by
      unfold dsqIp
      refine Finset.sum_eq_zero fun j _ => ?_
      simp only [hk p hp]
      rw [← Finset.sum_mul, (hg p hp).dndx_sum q j, zero_mul, zero_mul]
    rw [this]; simp
  · have hip : ∀ p ∈ els, ∀ q, dsqIp p.1 q = ∑ j, s j ^ 2 := fun p hp q => by
      unfold dsqIp
      refine Finset.sum_congr rfl fun j _ => ?_
      have : ∑ ic, p.1.dndx q ic j * Real.sqrt (p.1.k ic) = s j := by
        simp only [hlin p hp, mul_add, Finset.sum_add_distrib]
        rw [← Finset.sum_mul, (hg p hp).dndx_sum q j, zero_mul, zero_add]
        simp only [Finset.mul_sum]
        rw [Finset.sum_comm]
        have : ∀ l, ∑ ic, p.1.dndx q ic j * (s l * x p.1 ic l) = s l * (if j = l then 1 else 0) := fun l => by
          rw [← hx p hp q j l, Finset.mul_sum]
          exact Finset.sum_congr rfl fun ic _ => by ring
        simp [this]
      rw [this]; ring
    unfold dsqNode
    have : (els.map fun p => ∑ q, if p.1.ipNode q = p.2 then
        dsqIp p.1 q * p.1.scv q / p.1.dualVol (p.1.ipNode q) else 0)
        = els.map fun p => (∑ j, s j ^ 2) / V * ∑ q, if p.1.ipNode q = p.2 then p.1.scv q else 0 :=
      List.map_congr_left fun p hp => by
        rw [Finset.mul_sum]
        refine Finset.sum_congr rfl fun q _ => ?_
        split_ifs with h
        · rw [hip p hp q, h, hd p hp]; ring
        · simp
    rw [this, List.sum_map_mul_left, hsum]
    field_simp

/-- The hypotheses are met by a one-triangle patch; it is not trivial — a shear is seen by the procedure. -/
theorem c287_example :
    Patch [tri ![![0, 0], ![0, 0], ![1, 0]] (fun _ _ => 0)] ∧
    fStrain [tri ![![0, 0], ![0, 0], ![1, 0]] (fun _ _ => 0)] 0 1 = 1 / 2 := by
  refine ⟨⟨by simp, by simp only [List.mem_singleton, forall_eq]; exact tri_good _ _⟩, ?_⟩
  unfold fStrain filtered
  simp only [List.map_cons, List.map_nil, sij]
  dsimp only [tri, El.vol, El.grad]
  simp only [Fin.sum_univ_three, Fin.sum_univ_two]
  simp
  have : (Finset.univ : Finset (Fin 3)).card = 3 := by simp
  erw [this]
  norm_num

end Nalu.TurbPost
