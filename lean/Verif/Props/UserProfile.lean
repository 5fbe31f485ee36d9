import Verif.Proofs.UserProfile
import Verif.Model.MeshMotion
import Mathlib.Analysis.SpecialFunctions.Pow.Continuity

/-! # Profile user functions: properties C237-C243 -/

namespace Nalu.UserFn
open Verif.Pde Real Filter Topology

/-! ## C237: walls that move with the mesh -/

/-- The wall velocity of the wind-energy user function is the mesh velocity of the block it names, at every point and time: the
rotation rate used for the mesh is the prescribed one times the same blending factor. -/
theorem c237_wind_energy_is_mesh_velocity (omega blend : ℝ) (axis centroid x : Fin 3 → ℝ) (i : Fin 3) :
    windEnergy 3 omega (fun k => axis (Fin.ofNat 3 k)) (fun k => centroid (Fin.ofNat 3 k)) blend (fun k => x (Fin.ofNat 3 k)) i
      = Verif.Motion.meshVelocity (omega * blend) axis centroid x i := by
  fin_cases i <;> simp [windEnergy, auxCross, Verif.Motion.meshVelocity, Verif.Motion.crossProduct, Fin.ofNat] <;> ring

/-- The same in two dimensions for a rotation about the normal of the plane. -/
theorem c237_wind_energy_two_dim (omega blend : ℝ) (c x : ℕ → ℝ) :
    windEnergy 2 omega (fun k => if k = 2 then 1 else 0) c blend x 0 = -(omega * blend) * (x 1 - c 1)
    ∧ windEnergy 2 omega (fun k => if k = 2 then 1 else 0) c blend x 1 = omega * blend * (x 0 - c 0) := by
  constructor <;> simp [windEnergy, auxCross] <;> ring

/-- The six-degree-of-freedom wall velocity is the six-degree-of-freedom mesh velocity. -/
theorem c237_mesh_motion_is_mesh_velocity (omega centroid disp vel x : Fin 3 → ℝ) (i : Fin 3) :
    meshMotionAux 3 (fun k => omega (Fin.ofNat 3 k)) (fun k => centroid (Fin.ofNat 3 k)) (fun k => disp (Fin.ofNat 3 k))
      (fun k => vel (Fin.ofNat 3 k)) (fun k => x (Fin.ofNat 3 k)) i
      = Verif.Motion.meshVelocitySixDof omega vel centroid disp x i := by
  fin_cases i <;> simp [meshMotionAux, auxCross, Verif.Motion.meshVelocitySixDof, Verif.Motion.crossProduct, Fin.ofNat]

/-- The blending factor is 1 without a specification, and otherwise strictly between 0 and 1 and one half at the transition
time. -/
theorem c237_blend (c1 c2 t : ℝ) : windBlend none t = 1 ∧ 0 < windBlend (some (c1, c2)) t ∧ windBlend (some (c1, c2)) t < 1 ∧
    windBlend (some (c1, c2)) c1 = 1 / 2 := by
  refine ⟨rfl, ?_, ?_, ?_⟩
  · simp only [windBlend, Nalu.Peclet.tanhFunction]
    have := neg_one_lt_tanh ((t - c1) / c2)
    linarith
  · simp only [windBlend, Nalu.Peclet.tanhFunction]
    have := tanh_lt_one ((t - c1) / c2)
    linarith
  · simp [windBlend, Nalu.Peclet.tanhFunction]; norm_num

/-- Non-vacuity: unit rotation about `z`, point (1,2,3). -/
example : windEnergy 3 1 (fun k => if k = 2 then 1 else 0) (fun _ => 0) 1 (fun k => k + 1) 0 = -2 ∧
    windEnergy 3 1 (fun k => if k = 2 then 1 else 0) (fun _ => 0) 1 (fun k => k + 1) 1 = 1 := by
  constructor <;> norm_num [windEnergy, auxCross]

/-! ## C238: laminar flow in a rectangular duct -/

/-- Every truncation of the series satisfies the momentum equation `mu lap w = dp/dz` exactly, at every point. -/
theorem c238_momentum {dpdz mu a b : ℝ} (hmu : mu ≠ 0) (N : ℕ) (p : Pt) : mu * lap (ductW dpdz mu a b N) p = dpdz :=
  duct_lap hmu N p

/-- Every truncation vanishes on the two walls `y = ±b`. -/
theorem c238_walls_y {dpdz mu a b : ℝ} (hb : b ≠ 0) (N : ℕ) (p : Pt) (h : p 1 = b ∨ p 1 = -b) :
    ductW dpdz mu a b N p = 0 := by
  have key : ∑ n ∈ Finset.range N, ductTerm a b n (p 0) (p 1) = 0 := by
    apply Finset.sum_eq_zero
    intro n _
    rcases h with h | h <;> rw [h]
    · exact (ductTerm_wall hb n _).1
    · exact (ductTerm_wall hb n _).2
  have h2 : b * b - p 1 * p 1 = 0 := by rcases h with h | h <;> rw [h] <;> ring
  rw [ductW, key, h2]; ring

/-- On the other two walls the value tends to zero with the number of terms. -/
theorem c238_walls_x {dpdz mu a b : ℝ} (hb : 0 < b) (p : Pt) (hx : p 0 = a ∨ p 0 = -a) (h1 : -b ≤ p 1) (h2 : p 1 ≤ b) :
    Tendsto (fun N => ductW dpdz mu a b N p) atTop (𝓝 0) := by
  have e : ∀ n, ductTerm a b n (p 0) (p 1) = ductTerm a b n a (p 1) := by
    intro n
    rcases hx with h | h <;> rw [h]
    unfold ductTerm; rw [mul_neg, cosh_neg]
  have hs := (duct_series (a := a) hb h1 h2).tendsto_sum_nat
  have : Tendsto (fun N => -1 / 2 / mu * dpdz * (b * b - p 1 * p 1 - 4 / b * ∑ n ∈ Finset.range N, ductTerm a b n a (p 1))) atTop
      (𝓝 (-1 / 2 / mu * dpdz * (b * b - p 1 * p 1 - 4 / b * (b / 4 * (b * b - p 1 * p 1))))) :=
    (tendsto_const_nhds.sub (hs.const_mul (4 / b))).const_mul _
  have hz : -1 / 2 / mu * dpdz * (b * b - p 1 * p 1 - 4 / b * (b / 4 * (b * b - p 1 * p 1))) = 0 := by
    have : 4 / b * (b / 4 * (b * b - p 1 * p 1)) = b * b - p 1 * p 1 := by field_simp
    rw [this]; ring
  rw [hz] at this
  refine this.congr ?_
  intro N
  simp only [ductW, e]

/-- The profile is symmetric about both mid-planes. -/
theorem c238_symmetric (dpdz mu a b : ℝ) (N : ℕ) (p q : Pt) (hx : q 0 = p 0 ∨ q 0 = -p 0) (hy : q 1 = p 1 ∨ q 1 = -p 1) :
    ductW dpdz mu a b N q = ductW dpdz mu a b N p := by
  have e : ∀ n, ductTerm a b n (q 0) (q 1) = ductTerm a b n (p 0) (p 1) := by
    intro n
    unfold ductTerm
    rcases hx with h | h <;> rcases hy with h' | h' <;> rw [h, h'] <;> simp only [mul_neg, cos_neg, cosh_neg]
  have e2 : q 1 * q 1 = p 1 * p 1 := by rcases hy with h' | h' <;> rw [h'] <;> ring
  simp only [ductW, e, e2]

/-- Non-vacuity: without series terms this is the plane channel profile; its centre value is positive for a pressure drop. -/
example : ductW (-0.0016) (1/10^4) (1/2) 1 0 ![0, 0, 0, 0] = 8 := by
  simp [ductW]; norm_num

/-! ## C239: temperature around a cylinder -/

/-- The angle is the one measured from the upstream (negative x) direction towards positive y, in degrees, in the range of the
table. -/
theorem c239_angle {h k x y : ℝ} (hne : ¬ (x = h ∧ y = k)) :
    ∃ r > 0, x = h - r * cos (cylTheta h k x y * π / 180) ∧ y = k + r * sin (cylTheta h k x y * π / 180) ∧
      0 ≤ cylTheta h k x y ∧ cylTheta h k x y ≤ 360 := cylTheta_spec hne

/-- For every strictly increasing table of at least two rows the search ends within `rows + 1` calls and the value is the
piecewise linear interpolation, constant outside. -/
theorem c239_interpolation {K : Type*} [Field K] [LinearOrder K] [IsStrictOrderedRing K] (dat : ℤ → K × K) (n : ℤ) (hn : 1 ≤ n)
    (hs : ∀ i j, 0 ≤ i → i < j → j ≤ n → (dat i).1 < (dat j).1) {fuel : ℕ} (hf : n + 2 ≤ fuel) (z : K) :
    (z ≤ (dat 0).1 → cylInterp dat fuel n z = some (dat 0).2) ∧
    ((dat n).1 ≤ z → cylInterp dat fuel n z = some (dat n).2) ∧
    (∀ i, 0 ≤ i → i < n → (dat i).1 ≤ z → z ≤ (dat (i+1)).1 →
      cylInterp dat fuel n z = some ((dat i).2 * (((dat (i+1)).1 - z) / ((dat (i+1)).1 - (dat i).1)) +
        (dat (i+1)).2 * ((z - (dat i).1) / ((dat (i+1)).1 - (dat i).1)))) := by
  refine ⟨cylInterp_below dat n hn hs hf, cylInterp_above dat n hn hs hf, fun i h0 h1 h2 h3 => ?_⟩
  rw [cylInterp_cell dat n hn hs hf h0 h1 h2 h3]
  have hd : (dat (i+1)).1 - (dat i).1 ≠ 0 := sub_ne_zero.2 (hs i (i+1) h0 (by omega) (by omega)).ne'
  simp only [cylLocal]
  congr 1
  field_simp
  ring

theorem cylData_increasing : ∀ i j : ℤ, 0 ≤ i → i < j → j ≤ 24 → (cylData i).1 < (cylData j).1 := by
  have key : ∀ a b : Fin 25, a < b → (cylRows.getD a (0, 0)).1 < (cylRows.getD b (0, 0)).1 := by decide
  intro i j h0 h1 h2
  have := key ⟨i.toNat, by omega⟩ ⟨j.toNat, by omega⟩ (by rw [Fin.lt_def]; simp only; omega)
  simp only [cylData]
  exact_mod_cast this

theorem cylData_range (i : ℤ) (h0 : 0 ≤ i) (h1 : i ≤ 24) : 34.2773284912 ≤ (cylData i).2 ∧ (cylData i).2 ≤ 42.0815200806 := by
  have key : ∀ a : Fin 25, 342773284912 ≤ (cylRows.getD a (0, 0)).2 ∧ (cylRows.getD a (0, 0)).2 ≤ 420815200806 := by decide
  have := key ⟨i.toNat, by omega⟩
  simp only [cylData]
  obtain ⟨a, b⟩ := this
  have a' : (342773284912 : ℝ) ≤ ((cylRows.getD i.toNat (0, 0)).2 : ℝ) := by exact_mod_cast a
  have b' : ((cylRows.getD i.toNat (0, 0)).2 : ℝ) ≤ 420815200806 := by exact_mod_cast b
  constructor
  · rw [le_div_iff₀ (by positivity)]; norm_num at a' ⊢; linarith
  · rw [div_le_iff₀ (by positivity)]; norm_num at b' ⊢; linarith

theorem cylRow24 : cylRows.getD (24 : ℤ).toNat (0, 0) = (360, 348567771912) := by decide
theorem cylRow0 : cylRows.getD (0 : ℤ).toNat (0, 0) = (0, 348567771912) := by decide

/-- Off the axis the temperature is always found, between the coldest and the hottest measured value, in kelvin. -/
theorem c239_temperature_range (h k x y : ℝ) (hne : ¬ (x = h ∧ y = k)) :
    ∃ T, cylTemp h k x y = some T ∧ 307.4273284912 ≤ T ∧ T ≤ 315.2315200806 := by
  obtain ⟨r, _, _, _, ht0, ht1⟩ := cylTheta_spec hne
  have z0 : (cylData 0).1 = 0 := by simp only [cylData, cylRow0]; norm_num
  have z24 : (cylData 24).1 = 360 := by simp only [cylData, cylRow24]; norm_num
  obtain ⟨i, a, b, c, d⟩ := exists_cell_int cylData (cylTheta h k x y) 24 (by rw [z0]; exact ht0)
    (by push_cast; rw [z24]; exact ht1) (by norm_num)
  push_cast at b
  have hc := cylInterp_cell cylData 24 (by norm_num) cylData_increasing (fuel := 32) (by norm_num) a b c d
  have hb := cylLocal_bounds cylData (cylData_increasing i (i+1) a (by omega) (by omega)) c d
    (cylData_range i a (by omega)) (cylData_range (i+1) (by omega) (by omega))
  refine ⟨_, by rw [cylTemp, hc]; rfl, ?_, ?_⟩
  · norm_num at hb ⊢; linarith
  · norm_num at hb ⊢; linarith

/-- The two ends of the table agree, so there is no jump where the angle wraps from 360 to 0. -/
theorem c239_wraps : (cylData 0).2 = (cylData 24).2 ∧ (cylData 0).1 = 0 ∧ (cylData 24).1 = 360 := by
  refine ⟨?_, ?_, ?_⟩ <;> simp only [cylData, cylRow24, cylRow0] <;> norm_num

/-! ## C240: conduction between concentric spheres -/

/-- The prescribed temperature is harmonic away from the centre, takes the two boundary values on the two spheres, and between
the spheres lies between them. -/
theorem c240_concentric (ti t1 ri r1 : ℝ) (hri : 0 < ri) (hr : ri < r1) (p : Pt) (hp : p 0 * p 0 + p 1 * p 1 + p 2 * p 2 ≠ 0) :
    lap (concentric ti t1 ri r1) p = 0
    ∧ (p 0 * p 0 + p 1 * p 1 + p 2 * p 2 = ri * ri → concentric ti t1 ri r1 p = ti)
    ∧ (p 0 * p 0 + p 1 * p 1 + p 2 * p 2 = r1 * r1 → concentric ti t1 ri r1 p = t1)
    ∧ (ri * ri ≤ p 0 * p 0 + p 1 * p 1 + p 2 * p 2 → p 0 * p 0 + p 1 * p 1 + p 2 * p 2 ≤ r1 * r1 → ti ≤ t1 →
        ti ≤ concentric ti t1 ri r1 p ∧ concentric ti t1 ri r1 p ≤ t1) := by
  have hr1 : 0 < r1 := hri.trans hr
  have hD : 0 < 1 / ri - 1 / r1 := sub_pos.2 (one_div_lt_one_div_of_lt hri hr)
  refine ⟨?_, ?_, ?_, ?_⟩
  · rw [concentric_eq]; exact invR_harmonic hp _ _
  · intro h
    simp only [concentric, h, sqrt_mul_self hri.le]; ring
  · intro h
    simp only [concentric, h, sqrt_mul_self hr1.le]
    rw [mul_div_assoc, div_self hD.ne']; ring
  · intro h1 h2 ht
    have hR1 : ri ≤ sqrt (p 0 * p 0 + p 1 * p 1 + p 2 * p 2) := by
      rw [← sqrt_mul_self hri.le]; exact sqrt_le_sqrt h1
    have hR2 : sqrt (p 0 * p 0 + p 1 * p 1 + p 2 * p 2) ≤ r1 := by
      rw [← sqrt_mul_self hr1.le]; exact sqrt_le_sqrt h2
    simp only [concentric]
    set R := sqrt (p 0 * p 0 + p 1 * p 1 + p 2 * p 2)
    have hRp : 0 < R := lt_of_lt_of_le hri hR1
    have f1 : 0 ≤ 1 / ri - 1 / R := sub_nonneg.2 (one_div_le_one_div_of_le hri hR1)
    have f2 : 1 / ri - 1 / R ≤ 1 / ri - 1 / r1 := by linarith [one_div_le_one_div_of_le hRp hR2]
    have w0 : 0 ≤ (1 / ri - 1 / R) / (1 / ri - 1 / r1) := div_nonneg f1 hD.le
    have w1 : (1 / ri - 1 / R) / (1 / ri - 1 / r1) ≤ 1 := (div_le_one hD).2 f2
    rw [mul_div_assoc]
    constructor
    · nlinarith [mul_nonneg (sub_nonneg.2 ht) w0]
    · nlinarith [mul_le_mul_of_nonneg_left w1 (sub_nonneg.2 ht)]

/-- Non-vacuity: a point on the inner sphere of the class. -/
example : (![0.03, 0, 0, 0] : Pt) 0 * (![0.03, 0, 0, 0] : Pt) 0 + (![0.03, 0, 0, 0] : Pt) 1 * (![0.03, 0, 0, 0] : Pt) 1
    + (![0.03, 0, 0, 0] : Pt) 2 * (![0.03, 0, 0, 0] : Pt) 2 = 0.03 * 0.03 := by simp

/-! ## C241: inflow profiles -/

/-- Power-law pipe: the centreline value at the centre, zero at and beyond the wall, in between at every point, and not
increasing with the distance from the axis. -/
theorem c241_pipe (uc xc yc R n : ℝ) (hu : 0 ≤ uc) (hR : 0 < R) (hn : 0 < n) :
    pipeVelocity uc xc yc R n xc yc = uc
    ∧ (∀ x y, R * R ≤ (x - xc) * (x - xc) + (y - yc) * (y - yc) → pipeVelocity uc xc yc R n x y = 0)
    ∧ (∀ x y, 0 ≤ pipeVelocity uc xc yc R n x y ∧ pipeVelocity uc xc yc R n x y ≤ uc)
    ∧ (∀ x y x' y', (x - xc) * (x - xc) + (y - yc) * (y - yc) ≤ (x' - xc) * (x' - xc) + (y' - yc) * (y' - yc) →
        pipeVelocity uc xc yc R n x' y' ≤ pipeVelocity uc xc yc R n x y) := by
  have he : 0 < 1 / n := by positivity
  refine ⟨?_, ?_, ?_, ?_⟩
  · simp [pipeVelocity]
  · intro x y h
    have h1 : R ≤ sqrt ((x - xc) * (x - xc) + (y - yc) * (y - yc)) := by
      rw [← sqrt_mul_self hR.le]; exact sqrt_le_sqrt h
    simp only [pipeVelocity]
    rw [max_eq_left (by rw [sub_nonpos, one_le_div hR]; exact h1), zero_rpow he.ne', mul_zero]
  · intro x y
    simp only [pipeVelocity]
    set w := max 0 (1 - sqrt ((x - xc) * (x - xc) + (y - yc) * (y - yc)) / R)
    have h0 : 0 ≤ w := le_max_left _ _
    have h1 : w ≤ 1 := max_le zero_le_one (by
      have : 0 ≤ sqrt ((x - xc) * (x - xc) + (y - yc) * (y - yc)) / R := by positivity
      linarith)
    have h2 : w ^ (1 / n) ≤ 1 := rpow_le_one h0 h1 he.le
    exact ⟨mul_nonneg hu (rpow_nonneg h0 _), by nlinarith⟩
  · intro x y x' y' h
    simp only [pipeVelocity]
    apply mul_le_mul_of_nonneg_left _ hu
    apply rpow_le_rpow (le_max_left _ _) _ he.le
    apply max_le_max (le_refl _)
    have := div_le_div_of_nonneg_right (sqrt_le_sqrt h) hR.le
    linarith

/-- Atmospheric power law: the known speed at the known height, never below the ground value, increasing with height. -/
theorem c241_powerlaw (uK yK n : ℝ) (hu : 0 ≤ uK) (hy : 1 / 10 ^ 16 ≤ yK) (hn : 0 < n) :
    powerlawVelocity uK yK n yK = uK
    ∧ (∀ y y', y ≤ y' → powerlawVelocity uK yK n y ≤ powerlawVelocity uK yK n y')
    ∧ (∀ y, 0 ≤ powerlawVelocity uK yK n y) := by
  have hyp : 0 < yK := lt_of_lt_of_le (by positivity) hy
  have he : 0 < 1 / n := by positivity
  refine ⟨?_, ?_, ?_⟩
  · simp only [powerlawVelocity]; rw [max_eq_right hy, div_self hyp.ne', one_rpow, mul_one]
  · intro y y' h
    simp only [powerlawVelocity]
    apply mul_le_mul_of_nonneg_left _ hu
    apply rpow_le_rpow _ _ he.le
    · exact div_nonneg (le_trans (by positivity) (le_max_left _ _)) hyp.le
    · exact div_le_div_of_nonneg_right (max_le_max (le_refl _) h) hyp.le
  · intro y
    simp only [powerlawVelocity]
    exact mul_nonneg hu (rpow_nonneg (div_nonneg (le_trans (by positivity) (le_max_left _ _)) hyp.le) _)

/-- Pulse: the prescribed velocity up to and including the pulse time, zero afterwards. -/
theorem c241_pulse (u : ℕ → ℝ) (T t : ℝ) (i : ℕ) :
    (t ≤ T → pulseVelocity u T t i = u i) ∧ (T < t → pulseVelocity u T t i = 0) :=
  ⟨fun h => by simp [pulseVelocity, not_lt.2 h], fun h => by simp [pulseVelocity, h]⟩

/-- Gaussian: the height at the centre, symmetric, positive, below the height elsewhere, and the standard deviation where it
should be. -/
theorem c241_gaussian (a b c : ℝ) (ha : 0 < a) (hc : c ≠ 0) :
    gaussian a b c b = a ∧ (∀ d, gaussian a b c (b + d) = gaussian a b c (b - d))
    ∧ (∀ s, 0 < gaussian a b c s ∧ gaussian a b c s ≤ a) ∧ (∀ s, s ≠ b → gaussian a b c s < a)
    ∧ gaussian a b c (b + c) = a * exp (-(1 / 2)) := by
  have hcc : 0 < c * c := mul_self_pos.2 hc
  refine ⟨by simp [gaussian], fun d => ?_, fun s => ⟨?_, ?_⟩, fun s hs => ?_, ?_⟩
  · simp only [gaussian]; congr 2; ring
  · exact mul_pos ha (exp_pos _)
  · simp only [gaussian]
    have : exp (-(1 / 2) * (s - b) * (s - b) / (c * c)) ≤ 1 := by
      rw [exp_le_one_iff]
      apply div_nonpos_of_nonpos_of_nonneg _ hcc.le
      nlinarith [mul_self_nonneg (s - b)]
    nlinarith
  · simp only [gaussian]
    have : exp (-(1 / 2) * (s - b) * (s - b) / (c * c)) < 1 := by
      rw [exp_lt_one_iff]
      apply div_neg_of_neg_of_pos _ hcc
      nlinarith [mul_self_pos.2 (sub_ne_zero.2 hs)]
    nlinarith
  · simp only [gaussian]
    have : -(1 / 2) * (b + c - b) * (b + c - b) / (c * c) = -(1 / 2) := by field_simp; ring
    rw [this]

/-- Sinusoidal pipe profile: zero at every multiple of `1/a`, periodic with period `2/a`, bounded by the magnitude. -/
theorem c241_sin_pipe (umag a : ℝ) (ha : a ≠ 0) (pert : ℕ → ℝ) (i : ℕ) :
    (∀ m : ℤ, sinPipe umag a pert (m / a) i = 0) ∧ (∀ z, sinPipe umag a pert (z + 2 / a) i = sinPipe umag a pert z i)
    ∧ (∀ z, |sinPipe umag a pert z i| ≤ |umag| * |pert i|) := by
  refine ⟨fun m => ?_, fun z => ?_, fun z => ?_⟩
  · simp only [sinPipe]
    rw [show π * a * (m / a) = m * π by field_simp, sin_int_mul_pi]; ring
  · simp only [sinPipe]
    rw [show π * a * (z + 2 / a) = π * a * z + 2 * π by field_simp, sin_add_two_pi]
  · simp only [sinPipe]
    rw [abs_mul, abs_mul]
    have := abs_sin_le_one (π * a * z)
    have h1 := mul_le_mul_of_nonneg_left this (abs_nonneg umag)
    rw [mul_one] at h1
    exact mul_le_mul_of_nonneg_right h1 (abs_nonneg _)

/-! ## C242: perturbed initial flows -/

/-- The perturbed boundary layer is divergence free at every point above the wall. -/
theorem c242_boundary_layer_solenoidal (A kx ky thick uInf : ℝ) (hk : ky ≠ 0) (p : Pt) :
    div (blVelocity A kx ky thick uInf) p = 0 := by
  have h0 : HasPD 0 (blVelocity A kx ky thick uInf 0) (A * (-sin (kx * p 0) * kx) * cos (ky * p 1) * blDamp thick (p 2)) p := by
    show HasPD 0 (fun p => blMean thick uInf (p 2) + A * cos (kx * p 0) * cos (ky * p 1) * blDamp thick (p 2)) _ p
    have hm : HasPD 0 (fun p => blMean thick uInf (p 2)) 0 p := by
      unfold HasPD
      simp only [Function.update_of_ne (show (2 : Fin 4) ≠ 0 by decide)]
      exact hasDerivAt_const _ _
    have hd : HasPD 0 (fun p => blDamp thick (p 2)) 0 p := by
      unfold HasPD
      simp only [Function.update_of_ne (show (2 : Fin 4) ≠ 0 by decide)]
      exact hasDerivAt_const _ _
    refine HasPD.congr (HasPD.add hm (HasPD.mul (a := A * (-sin (kx * p 0) * kx) * cos (ky * p 1)) ?_ hd)) ?_
    · refine HasPD.congr (by hpd) ?_; ring
    · ring
  have h1 : HasPD 1 (blVelocity A kx ky thick uInf 1) (A * kx / ky * sin (kx * p 0) * (cos (ky * p 1) * ky) * blDamp thick (p 2)) p := by
    show HasPD 1 (fun p => A * kx / ky * sin (kx * p 0) * sin (ky * p 1) * blDamp thick (p 2)) _ p
    have hd : HasPD 1 (fun p => blDamp thick (p 2)) 0 p := by
      unfold HasPD
      simp only [Function.update_of_ne (show (2 : Fin 4) ≠ 1 by decide)]
      exact hasDerivAt_const _ _
    refine HasPD.congr (HasPD.mul (a := A * kx / ky * sin (kx * p 0) * (cos (ky * p 1) * ky)) ?_ hd) ?_
    · refine HasPD.congr (by hpd) ?_; ring
    · ring
  rw [Nalu.Exact.div_of h0 h1 (HasPD.const 0)]
  field_simp
  ring

/-- It vanishes at the wall, its mean reaches the free-stream value at five thicknesses and stays within it, and the
perturbation never exceeds the amplitude. -/
theorem c242_boundary_layer_bounds (A kx ky thick uInf : ℝ) (ht : 0 < thick) (hu : 0 ≤ uInf) (p : Pt) :
    (p 2 = 0 → ∀ i, blVelocity A kx ky thick uInf i p = 0)
    ∧ (5 * thick ≤ p 2 → blMean thick uInf (p 2) = uInf)
    ∧ (0 ≤ p 2 → 0 ≤ blMean thick uInf (p 2) ∧ blMean thick uInf (p 2) ≤ uInf)
    ∧ (0 ≤ p 2 → |blVelocity A kx ky thick uInf 0 p - blMean thick uInf (p 2)| ≤ |A|) := by
  refine ⟨?_, ?_, ?_, ?_⟩
  · intro h i
    have hd : blDamp thick 0 = 0 := by simp [blDamp]
    have hm : blMean thick uInf 0 = 0 := by
      simp only [blMean, zero_div]
      rw [zero_rpow (by norm_num), min_eq_left zero_le_one, zero_mul]
    fin_cases i
    · show blMean thick uInf (p 2) + A * cos (kx * p 0) * cos (ky * p 1) * blDamp thick (p 2) = 0
      rw [h, hd, hm]; ring
    · show A * kx / ky * sin (kx * p 0) * sin (ky * p 1) * blDamp thick (p 2) = 0
      rw [h, hd]; ring
    · rfl
  · intro h
    have h1 : 1 ≤ p 2 / (5 * thick) := by rw [one_le_div (by linarith)]; exact h
    simp only [blMean]
    rw [min_eq_right (one_le_rpow h1 (by norm_num)), one_mul]
  · intro h
    have h1 : 0 ≤ p 2 / (5 * thick) := by positivity
    have h2 : 0 ≤ min ((p 2 / (5 * thick)) ^ ((1 : ℝ) / 7)) 1 := le_min (rpow_nonneg h1 _) zero_le_one
    have h3 : min ((p 2 / (5 * thick)) ^ ((1 : ℝ) / 7)) 1 ≤ 1 := min_le_right _ _
    simp only [blMean]
    exact ⟨mul_nonneg h2 hu, by nlinarith⟩
  · intro h
    have hz : 0 ≤ p 2 / thick := by positivity
    have hdamp0 : 0 ≤ blDamp thick (p 2) := by unfold blDamp; positivity
    have hdamp1 : blDamp thick (p 2) ≤ 1 := by
      have e : blDamp thick (p 2) = (p 2 / thick) * exp (1 - p 2 / thick) := by
        unfold blDamp
        rw [sub_eq_add_neg, exp_add, neg_div, exp_neg 1]
        field_simp
      rw [e]
      have h1 : p 2 / thick ≤ exp (p 2 / thick - 1) := by
        have := add_one_le_exp (p 2 / thick - 1); linarith
      calc p 2 / thick * exp (1 - p 2 / thick) ≤ exp (p 2 / thick - 1) * exp (1 - p 2 / thick) :=
            mul_le_mul_of_nonneg_right h1 (exp_pos _).le
        _ = 1 := by rw [← exp_add]; simp
    show |blMean thick uInf (p 2) + A * cos (kx * p 0) * cos (ky * p 1) * blDamp thick (p 2) - blMean thick uInf (p 2)| ≤ |A|
    rw [add_sub_cancel_left, abs_mul, abs_mul, abs_mul, abs_of_nonneg hdamp0]
    have c1 := abs_cos_le_one (kx * p 0)
    have c2 := abs_cos_le_one (ky * p 1)
    have a0 := abs_nonneg A
    calc |A| * |cos (kx * p 0)| * |cos (ky * p 1)| * blDamp thick (p 2)
        ≤ |A| * 1 * 1 * 1 := by gcongr
      _ = |A| := by ring

/-- The perturbed plug flow satisfies no slip on both walls, is periodic in the streamwise and in the third direction with the
lengths of the domain, and the perturbation is at most a twentieth of the base profile. -/
theorem c242_plug (um Lx Ly Lz : ℝ) (hx : Lx ≠ 0) (hz : Lz ≠ 0) (x y z : ℝ) :
    (∀ i, plugVelocity um Lx Ly Lz x 0 z i = 0) ∧ (∀ i, plugVelocity um Lx Ly Lz x Ly z i = 0)
    ∧ plugVelocity um Lx Ly Lz (x + Lx) y z = plugVelocity um Lx Ly Lz x y z
    ∧ plugVelocity um Lx Ly Lz x y (z + Lz) = plugVelocity um Lx Ly Lz x y z
    ∧ (∀ i, |plugVelocity um Lx Ly Lz x y z i - (if i = 0 then plugBase um Ly y else 0)| ≤ 0.05 * |plugBase um Ly y|) := by
  have hb0 : plugBase um Ly 0 = 0 := by simp [plugBase]
  have hb1 : plugBase um Ly Ly = 0 := by simp [plugBase]
  have px (c : ℕ) (L s : ℝ) (hL : L ≠ 0) : (2 * c * π / L) * (s + L) = (2 * c * π / L) * s + c * (2 * π) := by
    field_simp
  refine ⟨?_, ?_, ?_, ?_, ?_⟩
  · intro i; fin_cases i <;> simp [plugVelocity, hb0]
  · intro i; fin_cases i <;> simp [plugVelocity, hb1]
  · have e1 := px 4 Lx x hx
    have e2 := px 2 Lx x hx
    push_cast at e1 e2
    norm_num at e1 e2
    simp only [plugVelocity]
    rw [e1, e2]
    rw [show (4 : ℝ) * (2 * π) = ((4 : ℕ) : ℝ) * (2 * π) by norm_num, show (2 : ℝ) * (2 * π) = ((2 : ℕ) : ℝ) * (2 * π) by norm_num,
      sin_add_nat_mul_two_pi, cos_add_nat_mul_two_pi, sin_add_nat_mul_two_pi]
  · have e1 := px 2 Lz z hz
    have e2 := px 1 Lz z hz
    push_cast at e1 e2
    norm_num at e1 e2
    simp only [plugVelocity]
    rw [e1, e2]
    rw [show (2 : ℝ) * (2 * π) = ((2 : ℕ) : ℝ) * (2 * π) by norm_num,
      sin_add_nat_mul_two_pi, cos_add_nat_mul_two_pi, cos_add_two_pi]
  · intro i
    have key : ∀ B s c : ℝ, |s| ≤ 1 → |c| ≤ 1 → |0.05 * B * s * c| ≤ 0.05 * |B| := by
      intro B s c hs hc
      rw [abs_mul, abs_mul, abs_mul, abs_of_nonneg (by norm_num : (0 : ℝ) ≤ 0.05)]
      calc 0.05 * |B| * |s| * |c| ≤ 0.05 * |B| * 1 * 1 := by gcongr
        _ = 0.05 * |B| := by ring
    fin_cases i
    · show |plugBase um Ly y + 0.05 * plugBase um Ly y * sin (8 * π / Lx * x) * cos (4 * π / Lz * z) - plugBase um Ly y| ≤ _
      rw [add_sub_cancel_left]
      exact key _ _ _ (abs_sin_le_one _) (abs_cos_le_one _)
    · show |0.05 * plugBase um Ly y * cos (8 * π / Lx * x) * sin (4 * π / Lz * z) - 0| ≤ _
      rw [sub_zero]
      exact key _ _ _ (abs_cos_le_one _) (abs_sin_le_one _)
    · show |0.05 * plugBase um Ly y * sin (4 * π / Lx * x) * cos (2 * π / Lz * z) - 0| ≤ _
      rw [sub_zero]
      exact key _ _ _ (abs_sin_le_one _) (abs_cos_le_one _)

/-! ## C243: initial mixture fraction and volume fraction fields -/

/-- Whatever the parameters (scale factor between 0 and 1), the field stays within [0,1]; it is 0 below and 1 above the
perturbed layer. -/
theorem c243_mixfrac_bounded (aX tX yTr dTr surf x y : ℝ) (h0 : 0 ≤ surf) (h1 : surf ≤ 1) :
    0 ≤ rtMixFrac aX tX yTr dTr surf x y ∧ rtMixFrac aX tX yTr dTr surf x y ≤ 1
    ∧ (0 ≤ dTr → y - aX * cos (2 * tX * π * x) < yTr - dTr / 2 → rtMixFrac aX tX yTr dTr surf x y = 0)
    ∧ (0 ≤ dTr → yTr + dTr / 2 < y - aX * cos (2 * tX * π * x) → rtMixFrac aX tX yTr dTr surf x y = 1) := by
  have e : y + -aX * cos (2 * tX * π * x) = y - aX * cos (2 * tX * π * x) := by ring
  simp only [rtMixFrac, e]
  set yy := y - aX * cos (2 * tX * π * x)
  have s1 := neg_one_le_sin (π * yy / dTr)
  have s2 := sin_le_one (π * yy / dTr)
  refine ⟨?_, ?_, ?_, ?_⟩
  · split_ifs
    · exact le_refl _
    · exact zero_le_one
    · nlinarith
  · split_ifs
    · exact zero_le_one
    · exact le_refl _
    · nlinarith
  · intro _ h; rw [if_pos h]
  · intro hd h; rw [if_neg (by linarith), if_pos h]

/-- The layer joins the two streams continuously when the ratio of its height to its thickness is an odd integer and the scale
is one, as with the default values 1 and 0.2; at the two ends of the layer the value is then exactly 0 and 1. -/
theorem c243_layer_ends_partial (aX tX dTr x y : ℝ) (m : ℤ) (hd : 0 < dTr) :
    (y - aX * cos (2 * tX * π * x) = (2 * m + 1) * dTr - dTr / 2 → rtMixFrac aX tX ((2 * m + 1) * dTr) dTr 1 x y = 0)
    ∧ (y - aX * cos (2 * tX * π * x) = (2 * m + 1) * dTr + dTr / 2 → rtMixFrac aX tX ((2 * m + 1) * dTr) dTr 1 x y = 1) := by
  have e : y + -aX * cos (2 * tX * π * x) = y - aX * cos (2 * tX * π * x) := by ring
  simp only [rtMixFrac, e]
  set yy := y - aX * cos (2 * tX * π * x)
  constructor
  · intro h
    rw [h, if_neg (lt_irrefl _), if_neg (by linarith)]
    rw [show π * ((2 * m + 1) * dTr - dTr / 2) / dTr = π / 2 + m * (2 * π) by field_simp; ring, sin_add_int_mul_two_pi,
      sin_pi_div_two]
    ring
  · intro h
    rw [h, if_neg (by linarith), if_neg (lt_irrefl _)]
    rw [show π * ((2 * m + 1) * dTr + dTr / 2) / dTr = -(π / 2) + ((m + 1 : ℤ) : ℝ) * (2 * π) by push_cast; field_simp; ring,
      sin_add_int_mul_two_pi, sin_neg, sin_pi_div_two]
    ring

/-- The missing part: for an even ratio the layer is upside down, one at its lower end and zero at its upper end. -/
theorem c243_layer_inverted (aX tX dTr x y : ℝ) (m : ℤ) (hd : 0 < dTr) :
    (y - aX * cos (2 * tX * π * x) = 2 * m * dTr - dTr / 2 → rtMixFrac aX tX (2 * m * dTr) dTr 1 x y = 1)
    ∧ (y - aX * cos (2 * tX * π * x) = 2 * m * dTr + dTr / 2 → rtMixFrac aX tX (2 * m * dTr) dTr 1 x y = 0) := by
  have e : y + -aX * cos (2 * tX * π * x) = y - aX * cos (2 * tX * π * x) := by ring
  simp only [rtMixFrac, e]
  set yy := y - aX * cos (2 * tX * π * x)
  constructor
  · intro h
    rw [h, if_neg (lt_irrefl _), if_neg (by linarith)]
    rw [show π * (2 * m * dTr - dTr / 2) / dTr = -(π / 2) + m * (2 * π) by field_simp; ring, sin_add_int_mul_two_pi,
      sin_neg, sin_pi_div_two]
    ring
  · intro h
    rw [h, if_neg (by linarith), if_neg (lt_irrefl _)]
    rw [show π * (2 * m * dTr + dTr / 2) / dTr = π / 2 + m * (2 * π) by field_simp; ring,
      sin_add_int_mul_two_pi, sin_pi_div_two]
    ring

/-- The two indicator fields take the values 0 and 1 only: 1 inside the box, and 1 below the wavy surface. -/
theorem c243_indicators (x z lambda a0 s height : ℝ) :
    (recMixFrac x z = 1 ↔ x < 1.228 ∧ z < 0.55) ∧ (recMixFrac x z = 0 ↔ ¬ (x < 1.228 ∧ z < 0.55))
    ∧ (sinVof lambda a0 s height = 1 ↔ height < a0 * cos (2 * π * s / lambda))
    ∧ (sinVof lambda a0 s height = 0 ↔ a0 * cos (2 * π * s / lambda) ≤ height) := by
  refine ⟨?_, ?_, ?_, ?_⟩
  · unfold recMixFrac; split_ifs with h <;> simp [h]
  · unfold recMixFrac; split_ifs with h <;> simp [h]
  · unfold sinVof; split_ifs with h
    · simp; exact h
    · simp at h ⊢; exact h
  · unfold sinVof; split_ifs with h
    · simp; exact h
    · simp at h ⊢; exact h

end Nalu.UserFn
