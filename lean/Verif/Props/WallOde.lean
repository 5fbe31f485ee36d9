import Verif.Proofs.WallOde
import Mathlib.Topology.Order.IntermediateValue
import Mathlib.Topology.Algebra.Order.Field
import Mathlib.Tactic.NormNum
import Mathlib.Tactic.Continuity

/-!
# The one-dimensional wall model: C212–C216
-/

namespace Nalu.WallOde

/-! ## C212: the grid -/

private theorem rpow_n {bias : ℝ} (hb : 0 < bias) {n : ℕ} : bias ^ ((n : ℝ) / ((n : ℝ) - 1)) = (bias ^ (1 / ((n : ℝ) - 1))) ^ n := by
  rw [← Real.rpow_natCast, ← Real.rpow_mul hb.le]
  congr 1; ring

private theorem dy_pow (r L1 : ℝ) (k : ℕ) : dy r L1 k = L1 * r ^ k := by
  induction k with
  | zero => simp [dy]
  | succ k ih => rw [dy, ih, pow_succ]; ring

private theorem coord_geom {r : ℝ} (hr : r ≠ 1) (L1 : ℝ) (k : ℕ) : coord (dy r L1) k = L1 * ((1 - r ^ k) / (1 - r)) := by
  have h1 : (1 : ℝ) - r ≠ 0 := fun h => hr (by linarith)
  induction k with
  | zero => simp [coord]
  | succ k ih => rw [coord, ih, dy_pow, pow_succ]; field_simp; ring

private theorem ratio_ne {bias : ℝ} (hb : 0 < bias) (hb1 : bias ≠ 1) {n : ℕ} (hn : 2 ≤ n) : bias ^ (1 / ((n : ℝ) - 1)) ≠ 1 := by
  have hn' : (2 : ℝ) ≤ n := by exact_mod_cast hn
  have hpos : (0 : ℝ) < 1 / ((n : ℝ) - 1) := by have : (0 : ℝ) < (n : ℝ) - 1 := by linarith
                                                positivity
  intro h
  rcases lt_or_gt_of_ne hb1 with hlt | hgt
  · have := Real.rpow_lt_one hb.le hlt hpos; linarith
  · have := Real.one_lt_rpow hgt hpos; linarith

private theorem geom_pos {r : ℝ} (hr0 : 0 < r) (hr : r ≠ 1) {n : ℕ} (hn : 1 ≤ n) : 0 < (1 - r) / (1 - r ^ n) := by
  rcases lt_or_gt_of_ne hr with h | h
  · have := pow_lt_one₀ hr0.le h (by omega : n ≠ 0)
    exact div_pos (by linarith) (by linarith)
  · have := one_lt_pow₀ h (by omega : n ≠ 0)
    exact div_pos_of_neg_of_neg (by linarith) (by linarith)

/-- **C212** The grid between the wall point and the projected point starts at zero, ends exactly at their distance, is strictly increasing, each
segment is the previous one times a fixed ratio and the last is `bias` times the first; for every number of points from three and every bias other
than one. -/
theorem c212_grid {bias : ℝ} (hb : 0 < bias) (hb1 : bias ≠ 1) {N : ℕ} (hN : 3 ≤ N) {L : ℝ} (hL : 0 < L) :
    let x := odeGrid bias L N
    x 0 = 0 ∧ x (N - 1) = L ∧ (∀ k, x k < x (k + 1)) ∧
    (∃ r, 0 < r ∧ ∀ k, x (k + 2) - x (k + 1) = r * (x (k + 1) - x k)) ∧ x (N - 1) - x (N - 2) = bias * (x 1 - x 0) := by
  obtain ⟨n, rfl⟩ : ∃ n, N = n + 1 := ⟨N - 1, by omega⟩
  have hn : 2 ≤ n := by omega
  simp only [odeGrid, Nat.add_sub_cancel]
  have hr0 : 0 < bias ^ (1 / ((n : ℝ) - 1)) := Real.rpow_pos_of_pos hb _
  have hr := ratio_ne hb hb1 hn
  have hbias : (bias ^ (1 / ((n : ℝ) - 1))) ^ (n - 1) = bias := by
    have hn' : (2 : ℝ) ≤ n := by exact_mod_cast hn
    have h1 : ((n - 1 : ℕ) : ℝ) = (n : ℝ) - 1 := by rw [Nat.cast_sub (by omega)]; simp
    rw [← Real.rpow_natCast, ← Real.rpow_mul hb.le, h1, one_div, inv_mul_cancel₀ (by linarith), Real.rpow_one]
  rw [firstLength, rpow_n hb]
  generalize bias ^ (1 / ((n : ℝ) - 1)) = r at *
  have hg := geom_pos hr0 hr (by omega : 1 ≤ n)
  have h1 : (1 : ℝ) - r ≠ 0 := fun h => hr (by linarith)
  have hL1 : 0 < L * (1 - r) / (1 - r ^ n) := by rw [mul_div_assoc]; positivity
  have h2 : (1 : ℝ) - r ^ n ≠ 0 := fun h => by rw [h, div_zero] at hg; exact lt_irrefl _ hg
  have hd : ∀ k, coord (dy r (L * (1 - r) / (1 - r ^ n))) (k + 1) - coord (dy r (L * (1 - r) / (1 - r ^ n))) k =
      L * (1 - r) / (1 - r ^ n) * r ^ k := fun k => by rw [coord, dy_pow]; ring
  refine ⟨rfl, ?_, fun k => ?_, ⟨r, hr0, fun k => ?_⟩, ?_⟩
  · rw [coord_geom hr]; field_simp
  · have := hd k
    have : 0 < L * (1 - r) / (1 - r ^ n) * r ^ k := by positivity
    linarith [hd k]
  · rw [hd (k + 1), hd k, pow_succ]; ring
  · have e : n + 1 - 2 = n - 1 := by omega
    have := hd (n - 1)
    rw [Nat.sub_add_cancel (by omega : 1 ≤ n)] at this
    rw [e, this, hbias]
    have := hd 0
    rw [zero_add, pow_zero, mul_one] at this
    rw [this]; ring

/-- **C212** The projected point lies at the projected distance from the integration point, straight into the fluid, so the grid spans exactly that
distance. -/
theorem c212_projected_point {nd : ℕ} (ip area : Fin nd → ℝ) (ha : area ≠ 0) (dist : ℝ) (hd : 0 ≤ dist) :
    lTotal ip (projPoint ip area dist) = dist ∧ (∑ j, (projPoint ip area dist j - ip j) * area j = -(dist * Real.sqrt (∑ k, area k * area k))) := by
  have hs : 0 < ∑ k, area k * area k := by
    obtain ⟨k, hk⟩ := Function.ne_iff.1 ha
    exact Finset.sum_pos' (fun j _ => mul_self_nonneg _) ⟨k, Finset.mem_univ k, mul_self_pos.2 hk⟩
  have hq : Real.sqrt (∑ k, area k * area k) * Real.sqrt (∑ k, area k * area k) = ∑ k, area k * area k := Real.mul_self_sqrt hs.le
  have hq0 : 0 < Real.sqrt (∑ k, area k * area k) := Real.sqrt_pos.2 hs
  set a := Real.sqrt (∑ k, area k * area k) with hadef
  constructor
  · rw [lTotal]
    have : ∀ i, (projPoint ip area dist i - ip i) * (projPoint ip area dist i - ip i) = dist ^ 2 / (a * a) * (area i * area i) := by
      intro i; simp only [projPoint, ← hadef]; field_simp; ring
    simp only [this, ← Finset.mul_sum]
    rw [hq, div_mul_cancel₀ _ hs.ne', Real.sqrt_sq hd]
  · have : ∀ i, (projPoint ip area dist i - ip i) * area i = -(dist / a) * (area i * area i) := by
      intro i; simp only [projPoint, ← hadef]; ring
    simp only [this, ← Finset.mul_sum]
    rw [← hq]; field_simp

/-- The values of the code: 50 points, bias 200, unit distance. -/
example : odeGrid 200 1 50 0 = 0 ∧ odeGrid 200 1 50 49 = 1 :=
  let h := c212_grid (bias := 200) (by norm_num) (by norm_num) (N := 50) (by norm_num) (L := 1) one_pos
  ⟨h.1, h.2.1⟩

/-! ## C213: the tridiagonal solver -/

/-- **C213** When no pivot vanishes, `tdma` returns the solution of the system it was given, the only one, and touches nothing beyond it. -/
theorem c213_tdma {m : ℕ} (hm : 1 ≤ m) (ns : ℕ → Row) (u : ℕ → ℝ) (hp : ∀ k < m, (forward m ns k).Ap ≠ 0) :
    SolvesTri m ns (tdma m ns u) ∧ (∀ v, SolvesTri m ns v → ∀ k < m, v k = tdma m ns u k) ∧ ∀ k, m ≤ k → tdma m ns u k = u k := by
  have hp' : ∀ k < m, piv ns k ≠ 0 := fun k hk => by have := hp k hk; rwa [forward_get m ns hk] at this
  refine ⟨(elim_iff hp' _).2 (tdma_elim hm hp' u), fun v hv => ?_, (backward_get hm _ u).1⟩
  exact elim_unique hp' ((elim_iff hp' v).1 hv) (tdma_elim hm hp' u)

/-- **C213** No pivot vanishes for a diagonally dominant system, whatever its size. -/
theorem c213_dominant {m : ℕ} (ns : ℕ → Row) (hd : Dominant m ns) : ∀ k < m, (forward m ns k).Ap ≠ 0 := fun k hk => by
  rw [forward_get m ns hk]; exact piv_ne hd k hk

/-- The system `2,-1 / -1,2,-1 / -1,2` is dominant, for every size. -/
example (m : ℕ) : Dominant m (fun k => ⟨if k = 0 then 0 else -1, 2, -1, 1⟩) := by
  refine ⟨fun k _ => ?_, by norm_num, fun k _ _ => by norm_num⟩
  beta_reduce; split_ifs <;> norm_num

/-! ## C214: the profile carries one stress -/

section profile
variable {o : OdeOpts} {uEx uW rho mu tau : ℝ} {p : Pt}

private theorem visc_ge {x : ℕ → ℝ} {k : ℕ} (hk : o.kappa ≥ 0) (hr : 0 ≤ rho) (hx : x 0 ≤ x k) :
    mu ≤ viscAt o.aplus tau rho mu o.kappa x k := by
  simp only [viscAt]
  have h1 : 0 ≤ Real.sqrt (tau / rho) := Real.sqrt_nonneg _
  have h2 : 0 ≤ x k - x 0 := by linarith
  have : 0 ≤ o.kappa * rho * Real.sqrt (tau / rho) * (x k - x 0) *
    (1 - Real.exp (-((x k - x 0) * Real.sqrt (rho * tau) / mu) / o.aplus)) * (1 - Real.exp (-((x k - x 0) * Real.sqrt (rho * tau) / mu) / o.aplus)) := by
    rw [mul_assoc]
    exact mul_nonneg (by positivity) (mul_self_nonneg _)
  linarith

private theorem mono_le {x : ℕ → ℝ} (hx : ∀ k, x k < x (k + 1)) : ∀ k, x 0 ≤ x k := by
  intro k
  induction k with
  | zero => exact le_refl _
  | succ k ih => exact ih.trans (hx k).le

private theorem fac_neg {x v : ℕ → ℝ} (hx : ∀ k, x k < x (k + 1)) (hv : ∀ k, 0 < v k) (k : ℕ) : fac x v k < 0 := by
  have h1 := hx k
  have h2 := hv k
  have h3 := hv (k + 1)
  have : fac x v k = -((1 / 2) * (v (k + 1) + v k) / (x (k + 1) - x k)) := by rw [fac]; ring
  rw [this]
  have h4 : 0 < x (k + 1) - x k := by linarith
  have : 0 < (1 / 2) * (v (k + 1) + v k) / (x (k + 1) - x k) := by positivity
  linarith

private theorem stress_fac (x v u : ℕ → ℝ) (k : ℕ) : stress x v u k = -(fac x v k * (u (k + 1) - u k)) := by
  rw [stress, fac]; ring

/-- The solution of the profile system: boundary values and constant stress. -/
private theorem system_solution {m : ℕ} (hm : 2 ≤ m) {x v u : ℕ → ℝ} {ns : ℕ → Row}
    (h : SolvesTri m (dirichlet (dirichlet (assemble m x v ns) 0 uW) (m - 1) uEx) u) :
    u 0 = uW ∧ u (m - 1) = uEx ∧ ∀ k, k + 1 < m → stress x v u k = stress x v u 0 := by
  refine ⟨?_, ?_, ?_⟩
  · have := h 0 (by omega)
    have e := system_get x v ns uW uEx (by omega : 0 < m)
    rw [if_neg (by omega : ¬ 0 + 1 = m), if_pos rfl] at e
    rw [e] at this
    simpa using this
  · have := h (m - 1) (by omega)
    have e := system_get x v ns uW uEx (by omega : m - 1 < m)
    rw [if_pos (by omega : m - 1 + 1 = m)] at e
    rw [e] at this
    simpa using this
  · intro k
    induction k with
    | zero => intro _; rfl
    | succ k ih =>
      intro hk
      rw [← ih (by omega)]
      have := h (k + 1) (by omega)
      have e := system_get x v ns uW uEx (by omega : k + 1 < m)
      rw [if_neg (by omega : ¬ k + 1 + 1 = m), if_neg (by omega : ¬ k + 1 = 0)] at e
      rw [e, if_neg (by omega : ¬ k + 1 = 0), if_neg (by omega : ¬ k + 1 + 1 = m)] at this
      simp only [Nat.add_sub_cancel] at this
      rw [stress_fac, stress_fac]
      linarith

private theorem sum_resistance {x v u : ℕ → ℝ} {P : ℝ} (hx : ∀ k, x k < x (k + 1)) (hv : ∀ k, 0 < v k) (n : ℕ)
    (h : ∀ k < n, stress x v u k = P) : u n - u 0 = P * resistance x v n := by
  induction n with
  | zero => simp [resistance]
  | succ n ih =>
    have h1 := ih fun k hk => h k (by omega)
    have h2 := h n (by omega)
    rw [resistance, Finset.sum_range_succ, mul_add]
    rw [resistance] at h1
    rw [← h1, ← h2, stress]
    have a := hv n
    have b := hv (n + 1)
    have c : x (n + 1) - x n ≠ 0 := by have := hx n; intro h; linarith
    field_simp; ring

private theorem resistance_pos {x v : ℕ → ℝ} (hx : ∀ k, x k < x (k + 1)) (hv : ∀ k, 0 < v k) {n : ℕ} (hn : 1 ≤ n) : 0 < resistance x v n := by
  refine Finset.sum_pos (fun k _ => ?_) ⟨0, Finset.mem_range.2 (by omega)⟩
  have := hx k; have := hv k; have := hv (k + 1)
  exact div_pos (by linarith) (by linarith)

/-- **C214** For a given wall shear stress the profile takes the wall velocity at the wall and the exchange velocity at the projected point, carries
one and the same stress through every segment, namely the velocity difference over the total resistance, and rises monotonically when the exchange
velocity is the larger. -/
theorem c214_profile (hm : 2 ≤ o.numPoints) (hx : ∀ k, p.coords k < p.coords (k + 1)) (hk : 0 ≤ o.kappa) (hr : 0 ≤ rho) (hmu : 0 < mu) :
    let v := viscAt o.aplus tau rho mu o.kappa p.coords
    let u := (profile o uEx uW rho mu tau p).vel
    u 0 = uW ∧ u (o.numPoints - 1) = uEx ∧
    (∀ k, k + 1 < o.numPoints → stress p.coords v u k = (uEx - uW) / resistance p.coords v (o.numPoints - 1)) ∧
    (uW ≤ uEx → ∀ k, k + 1 < o.numPoints → u k ≤ u (k + 1)) := by
  intro v u
  have hv : ∀ k, 0 < v k := fun k => lt_of_lt_of_le hmu (visc_ge hk hr (mono_le hx k))
  have hdom := system_dominant hm p.coords v p.mat uW uEx (fun k _ => fac_neg hx hv k)
  obtain ⟨h1, -, -⟩ := c213_tdma (by omega : 1 ≤ o.numPoints) _ p.vel (c213_dominant _ hdom)
  obtain ⟨h2, h3, h4⟩ := system_solution hm h1
  have hR := resistance_pos hx hv (by omega : 1 ≤ o.numPoints - 1)
  have hs := sum_resistance hx hv (o.numPoints - 1) (fun k hk => h4 k (by omega))
  rw [h2, h3] at hs
  have hst : ∀ k, k + 1 < o.numPoints → stress p.coords v u k = (uEx - uW) / resistance p.coords v (o.numPoints - 1) := by
    intro k hk
    exact (h4 k hk).trans (by rw [eq_div_iff hR.ne']; exact hs.symm)
  refine ⟨h2, h3, hst, fun hle k hk => ?_⟩
  have := hst k hk
  have h0 : 0 ≤ (uEx - uW) / resistance p.coords v (o.numPoints - 1) := div_nonneg (by linarith) hR.le
  rw [← this, stress] at h0
  have a := hv k
  have b := hv (k + 1)
  have c := hx k
  have h5 := (mul_nonneg_iff_of_pos_left (by linarith : 0 < (v k + v (k + 1)) / 2)).1 h0
  rw [le_div_iff₀ (by linarith)] at h5
  linarith

/-! ## C215: the wall shear stress -/

/-- The stress read off the profile is the closed form, whatever the state of the point was. -/
theorem tauOf_profile (hm : 2 ≤ o.numPoints) (hx : ∀ k, p.coords k < p.coords (k + 1)) (hk : 0 ≤ o.kappa) (hr : 0 ≤ rho) (hmu : 0 < mu) :
    tauOf mu (profile o uEx uW rho mu tau p) = wallStress o p.coords (uEx - uW) rho mu tau := by
  obtain ⟨-, -, h, -⟩ := c214_profile (o := o) (uEx := uEx) (uW := uW) (tau := tau) hm hx hk hr hmu
  have h0 := h 0 (by omega)
  have hv : ∀ k, 0 < viscAt o.aplus tau rho mu o.kappa p.coords k := fun k => lt_of_lt_of_le hmu (visc_ge hk hr (mono_le hx k))
  rw [wallStress]
  simp only [tauOf]
  rw [← h0, stress, zero_add]
  have a := hv 0
  have b := hv 1
  have c : (viscAt o.aplus tau rho mu o.kappa p.coords 0 + viscAt o.aplus tau rho mu o.kappa p.coords 1) / 2 ≠ 0 := by
    have : 0 < (viscAt o.aplus tau rho mu o.kappa p.coords 0 + viscAt o.aplus tau rho mu o.kappa p.coords 1) / 2 := by linarith
    exact this.ne'
  rw [mul_div_cancel_left₀ _ c, mul_div_assoc]
  rfl

private theorem visc_mono {x : ℕ → ℝ} (hx : ∀ k, x k < x (k + 1)) (hk : 0 ≤ o.kappa) (hr : 0 ≤ rho) (hmu : 0 < mu) (ha : 0 < o.aplus) (k : ℕ) :
    viscAt o.aplus tau rho mu o.kappa x k ≤ viscAt o.aplus tau rho mu o.kappa x (k + 1) := by
  simp only [viscAt]
  have h0 := mono_le hx k
  have h1 := hx k
  have hs : 0 ≤ Real.sqrt (rho * tau) := Real.sqrt_nonneg _
  have hb : ∀ y : ℝ, 0 ≤ y → 0 ≤ 1 - Real.exp (-(y * Real.sqrt (rho * tau) / mu) / o.aplus) := by
    intro y hy
    have : Real.exp (-(y * Real.sqrt (rho * tau) / mu) / o.aplus) ≤ 1 := by
      rw [Real.exp_le_one_iff, neg_div]
      have : 0 ≤ y * Real.sqrt (rho * tau) / mu / o.aplus := by positivity
      linarith
    linarith
  have hm : 1 - Real.exp (-((x k - x 0) * Real.sqrt (rho * tau) / mu) / o.aplus) ≤
      1 - Real.exp (-((x (k + 1) - x 0) * Real.sqrt (rho * tau) / mu) / o.aplus) := by
    have : Real.exp (-((x (k + 1) - x 0) * Real.sqrt (rho * tau) / mu) / o.aplus) ≤ Real.exp (-((x k - x 0) * Real.sqrt (rho * tau) / mu) / o.aplus) := by
      apply Real.exp_le_exp.2
      rw [neg_div, neg_div]
      apply neg_le_neg
      gcongr
    linarith
  have hc : 0 ≤ o.kappa * rho * Real.sqrt (tau / rho) := by positivity
  have b1 := hb (x k - x 0) (by linarith)
  have y1 : 0 ≤ x k - x 0 := by linarith
  have y2 : 0 ≤ x (k + 1) - x 0 := by linarith
  have b2 := hb (x (k + 1) - x 0) y2
  have h1' := h1.le
  refine add_le_add (le_refl _) ?_
  refine mul_le_mul (mul_le_mul (mul_le_mul_of_nonneg_left (by linarith) hc) hm b1 (by positivity)) hm b1 (mul_nonneg (by positivity) b2)

/-- **C215** Whatever stress the viscosity was computed with, the stress read off the profile lies between the laminar value over the whole distance
and the laminar value over the first segment. -/
theorem c215_bounds (hm : 2 ≤ o.numPoints) {x : ℕ → ℝ} (hx : ∀ k, x k < x (k + 1)) (hk : 0 ≤ o.kappa) (hr : 0 ≤ rho) (hmu : 0 < mu)
    (ha : 0 < o.aplus) {U : ℝ} (hU : 0 ≤ U) :
    mu * U / (x (o.numPoints - 1) - x 0) ≤ wallStress o x U rho mu tau ∧ wallStress o x U rho mu tau ≤ mu * U / (x 1 - x 0) := by
  have hv : ∀ k, 0 < viscAt o.aplus tau rho mu o.kappa x k := fun k => lt_of_lt_of_le hmu (visc_ge hk hr (mono_le hx k))
  have hvm := visc_mono (o := o) (tau := tau) hx hk hr hmu ha
  rw [wallStress]
  set v := viscAt o.aplus tau rho mu o.kappa x
  set n := o.numPoints - 1 with hn
  have hR := resistance_pos hx hv (by omega : 1 ≤ n)
  have hv0 : 0 < (v 0 + v 1) / 2 := by have := hv 0; have := hv 1; linarith
  have hmono : ∀ k, (v 0 + v 1) / 2 ≤ (v k + v (k + 1)) / 2 := by
    intro k
    induction k with
    | zero => exact le_refl _
    | succ k ih => have := hvm k; have := hvm (k + 1); linarith
  have htel : ∀ n, ∑ k ∈ Finset.range n, (x (k + 1) - x k) = x n - x 0 := fun n => Finset.sum_range_sub x n
  have hup : resistance x v n * ((v 0 + v 1) / 2) ≤ x n - x 0 := by
    rw [resistance, Finset.sum_mul, ← htel]
    refine Finset.sum_le_sum fun k _ => ?_
    have := hx k
    rw [div_mul_eq_mul_div, div_le_iff₀ (lt_of_lt_of_le hv0 (hmono k))]
    exact mul_le_mul_of_nonneg_left (hmono k) (by linarith)
  have hlo : x 1 - x 0 ≤ resistance x v n * ((v 0 + v 1) / 2) := by
    have h1 : (x (0 + 1) - x 0) / ((v 0 + v (0 + 1)) / 2) ≤ resistance x v n := by
      rw [resistance]
      refine Finset.single_le_sum (f := fun k => (x (k + 1) - x k) / ((v k + v (k + 1)) / 2)) (fun k _ => ?_) (Finset.mem_range.2 (by omega))
      have := hx k
      exact div_nonneg (by linarith) (lt_of_lt_of_le hv0 (hmono k)).le
    rw [div_le_iff₀ hv0] at h1
    exact h1
  have hden : 0 < resistance x v n * ((v 0 + v 1) / 2) := mul_pos hR hv0
  have e : mu * (U / resistance x v n / ((v 0 + v 1) / 2)) = mu * U / (resistance x v n * ((v 0 + v 1) / 2)) := by rw [div_div, mul_div_assoc]
  rw [e]
  have hx1 : 0 < x 1 - x 0 := by have := hx 0; simpa using this
  exact ⟨div_le_div_of_nonneg_left (by positivity) hden hup, div_le_div_of_nonneg_left (by positivity) hx1 hlo⟩

private theorem stress_continuous (hm : 2 ≤ o.numPoints) {x : ℕ → ℝ} (hx : ∀ k, x k < x (k + 1)) (hk : 0 ≤ o.kappa) (hr : 0 ≤ rho)
    (hmu : 0 < mu) (U : ℝ) : Continuous fun tau => wallStress o x U rho mu tau := by
  have hv : ∀ tau k, 0 < viscAt o.aplus tau rho mu o.kappa x k := fun tau k => lt_of_lt_of_le hmu (visc_ge hk hr (mono_le hx k))
  have hc : ∀ k, Continuous fun tau => viscAt o.aplus tau rho mu o.kappa x k := by
    intro k; simp only [viscAt]; fun_prop
  unfold wallStress
  simp only
  refine continuous_const.mul (Continuous.div (Continuous.div continuous_const ?_ fun tau => ?_) (((hc 0).add (hc 1)).div_const _) fun tau => ?_)
  · unfold resistance
    refine continuous_finsetSum _ fun k _ => Continuous.div continuous_const (((hc k).add (hc (k + 1))).div_const _) fun tau => ?_
    have := hv tau k; have := hv tau (k + 1)
    intro h; linarith
  · exact (resistance_pos hx (hv tau) (by omega : 1 ≤ o.numPoints - 1)).ne'
  · have := hv tau 0; have := hv tau 1
    intro h; linarith

/-- **C215** The iteration has something to find: a stress that reproduces itself exists between the two laminar values. -/
theorem c215_fixed_point_exists (hm : 2 ≤ o.numPoints) {x : ℕ → ℝ} (hx : ∀ k, x k < x (k + 1)) (hk : 0 ≤ o.kappa) (hr : 0 ≤ rho) (hmu : 0 < mu)
    (ha : 0 < o.aplus) {U : ℝ} (hU : 0 ≤ U) :
    ∃ tau, mu * U / (x (o.numPoints - 1) - x 0) ≤ tau ∧ tau ≤ mu * U / (x 1 - x 0) ∧ wallStress o x U rho mu tau = tau := by
  set a := mu * U / (x (o.numPoints - 1) - x 0)
  set b := mu * U / (x 1 - x 0)
  have hab : a ≤ b := (c215_bounds (tau := 0) hm hx hk hr hmu ha hU).1.trans (c215_bounds (tau := 0) hm hx hk hr hmu ha hU).2
  have hc : ContinuousOn (fun t => wallStress o x U rho mu t - t) (Set.Icc a b) :=
    ((stress_continuous hm hx hk hr hmu U).sub continuous_id).continuousOn
  have h1 : (0 : ℝ) ∈ Set.Icc (wallStress o x U rho mu b - b) (wallStress o x U rho mu a - a) :=
    ⟨by linarith [(c215_bounds (tau := b) hm hx hk hr hmu ha hU).2], by linarith [(c215_bounds (tau := a) hm hx hk hr hmu ha hU).1]⟩
  obtain ⟨t, ht, h0⟩ := intermediate_value_Icc' hab hc h1
  exact ⟨t, ht.1, ht.2, by linarith⟩

private theorem profile_coords (tau : ℝ) (p : Pt) : (profile o uEx uW rho mu tau p).coords = p.coords := rfl

private theorem abs_of_sqrt (a b : ℝ) : Real.sqrt ((a - b) * (a - b)) = |a - b| := Real.sqrt_mul_self_eq_abs _

private theorem loop_spec (hm : 2 ≤ o.numPoints) (hk : 0 ≤ o.kappa) (hr : 0 ≤ rho) (hmu : 0 < mu) :
    ∀ (k : ℕ) (tau : ℝ) (p : Pt), (∀ k, p.coords k < p.coords (k + 1)) →
    let T := wallStress o p.coords (uEx - uW) rho mu
    let r := solveLoop o uEx uW rho mu k tau p
    r.1.coords = p.coords ∧ r.1.tauWall = p.tauWall ∧
    (r.2.2 = true → |T r.2.1 - r.2.1| < o.tol ∧ ∃ j < k, r.2.1 = T^[j] tau) ∧
    (r.2.2 = false → r.2.1 = T^[k] tau ∧ ∀ j < k, o.tol ≤ |T^[j + 1] tau - T^[j] tau|) := by
  intro k
  induction k with
  | zero =>
    intro tau p _
    exact ⟨rfl, rfl, by simp [solveLoop], fun _ => ⟨rfl, fun j hj => absurd hj (Nat.not_lt_zero j)⟩⟩
  | succ k ih =>
    intro tau p hx
    have hT := tauOf_profile (o := o) (uEx := uEx) (uW := uW) (tau := tau) hm hx hk hr hmu
    simp only [solveLoop, abs_of_sqrt, hT]
    by_cases hc : |wallStress o p.coords (uEx - uW) rho mu tau - tau| < o.tol
    · simp only [if_pos hc]
      refine ⟨rfl, rfl, fun _ => ⟨hc, 0, Nat.succ_pos k, rfl⟩, by simp⟩
    · simp only [if_neg hc]
      obtain ⟨h1, h2, h3, h4⟩ := ih (wallStress o p.coords (uEx - uW) rho mu tau) (profile o uEx uW rho mu tau p) hx
      rw [profile_coords] at h1 h3 h4
      refine ⟨h1, h2, fun h => ⟨(h3 h).1, ?_⟩, fun h => ⟨(h4 h).1, fun j hj => ?_⟩⟩
      · obtain ⟨j, hj, he⟩ := (h3 h).2
        exact ⟨j + 1, by omega, he⟩
      · cases j with
        | zero => exact not_lt.1 hc
        | succ j => exact (h4 h).2 j (by omega)

/-- **C215** What `solve` returns.  `utau` is the friction velocity of a stress `tau` obtained from the guess by repeating the profile map; if
`converged` is set, that stress reproduces itself to the tolerance; if not, `maxIter` maps were applied and at none of them was the change below the
tolerance. -/
theorem c215_solve (hm : 2 ≤ o.numPoints) (hx : ∀ k, p.coords k < p.coords (k + 1)) (hk : 0 ≤ o.kappa) (hr : 0 < rho) (hmu : 0 < mu)
    (ht : p.tauWall ≤ 0) (tauP : ℝ) :
    let T := wallStress o p.coords (uEx - uW) rho mu
    let r := solve o uEx uW rho mu tauP p
    ∃ tau, r.2.1 = Real.sqrt (tau / rho) ∧ (r.2.2 = true → |T tau - tau| < o.tol ∧ ∃ j < o.maxIter, tau = T^[j] tauP) ∧
      (r.2.2 = false → tau = T^[o.maxIter] tauP ∧ ∀ j < o.maxIter, o.tol ≤ |T^[j + 1] tauP - T^[j] tauP|) := by
  simp only [solve]
  rw [if_neg (by simpa using ht)]
  obtain ⟨-, -, h3, h4⟩ := loop_spec (o := o) (uEx := uEx) (uW := uW) hm hk hr.le hmu o.maxIter tauP { p with iterations := o.maxIter } hx
  exact ⟨_, rfl, h3, h4⟩

/-- **C215** For an exchange velocity not below the wall velocity and a positive guess the returned friction velocity determines the stress:
`rho*utau^2` reproduces itself to the tolerance when `converged` is set, and it is the guess or lies between the two laminar values. -/
theorem c215_utau (hm : 2 ≤ o.numPoints) (hx : ∀ k, p.coords k < p.coords (k + 1)) (hk : 0 ≤ o.kappa) (hr : 0 < rho) (hmu : 0 < mu)
    (ha : 0 < o.aplus) (ht : p.tauWall ≤ 0) {tauP : ℝ} (hP : 0 ≤ tauP) (hU : uW ≤ uEx) :
    let T := wallStress o p.coords (uEx - uW) rho mu
    let r := solve o uEx uW rho mu tauP p
    (r.2.2 = true → |T (rho * r.2.1 ^ 2) - rho * r.2.1 ^ 2| < o.tol) ∧
    (rho * r.2.1 ^ 2 = tauP ∨ mu * (uEx - uW) / (p.coords (o.numPoints - 1) - p.coords 0) ≤ rho * r.2.1 ^ 2 ∧
      rho * r.2.1 ^ 2 ≤ mu * (uEx - uW) / (p.coords 1 - p.coords 0)) := by
  intro T r
  obtain ⟨tau, h1, h2, h3⟩ := c215_solve (o := o) (uEx := uEx) (uW := uW) hm hx hk hr hmu ht tauP
  have hb : ∀ t, mu * (uEx - uW) / (p.coords (o.numPoints - 1) - p.coords 0) ≤ T t ∧ T t ≤ mu * (uEx - uW) / (p.coords 1 - p.coords 0) :=
    fun t => c215_bounds hm hx hk hr.le hmu ha (by linarith)
  have hL : 0 ≤ mu * (uEx - uW) / (p.coords (o.numPoints - 1) - p.coords 0) := by
    have := mono_le hx (o.numPoints - 1)
    exact div_nonneg (mul_nonneg hmu.le (by linarith)) (by linarith)
  have hit : ∀ j, T^[j] tauP = tauP ∨ ∃ t, T^[j] tauP = T t := by
    intro j
    cases j with
    | zero => exact Or.inl rfl
    | succ j => exact Or.inr ⟨T^[j] tauP, by rw [Function.iterate_succ_apply']⟩
  have htau : tau = tauP ∨ ∃ t, tau = T t := by
    cases hc : (solve o uEx uW rho mu tauP p).2.2 with
    | true => obtain ⟨-, j, -, he⟩ := h2 hc; rw [he]; exact hit j
    | false => rw [(h3 hc).1]; exact hit _
  have h0 : 0 ≤ tau := by
    rcases htau with h | ⟨t, h⟩
    · rw [h]; exact hP
    · rw [h]; exact hL.trans (hb t).1
  have hsq : rho * r.2.1 ^ 2 = tau := by
    change rho * (solve o uEx uW rho mu tauP p).2.1 ^ 2 = tau
    rw [h1, Real.sq_sqrt (div_nonneg h0 hr.le)]
    field_simp
  rw [hsq]
  refine ⟨fun hc => (h2 hc).1, ?_⟩
  rcases htau with h | ⟨t, h⟩
  · exact Or.inl h
  · right; rw [h]; exact hb t

/-- **C215** The friction velocity of a point of the projected wall function: the fluid at the exchange point moves with `uTan` relative to the wall, and
`rho*utau^2` is the stress of the guess `yplusCrit*mu/(rho*yp)` or lies between the two laminar values of that speed over the whole distance and over the
first interval; if `converged` is set it reproduces itself to the tolerance. -/
theorem c215_utau_ode (hm : 2 ≤ o.numPoints) (hx : ∀ k, p.coords k < p.coords (k + 1)) (hk : 0 ≤ o.kappa) (hr : 0 < rho) (hmu : 0 < mu)
    (ha : 0 < o.aplus) (ht : p.tauWall ≤ 0) {uTan : ℝ} (hU : 0 ≤ uTan) (yplusCrit yp : ℝ) :
    let T := wallStress o p.coords uTan rho mu
    let r := utauOde o yplusCrit uTan rho mu yp p
    (r.2.2 = true → |T (rho * r.2.1 ^ 2) - rho * r.2.1 ^ 2| < o.tol) ∧
    (rho * r.2.1 ^ 2 = rho * (yplusCrit * mu / rho / yp) ^ 2 ∨ mu * uTan / (p.coords (o.numPoints - 1) - p.coords 0) ≤ rho * r.2.1 ^ 2 ∧
      rho * r.2.1 ^ 2 ≤ mu * uTan / (p.coords 1 - p.coords 0)) := by
  have hg : 0 ≤ rho * (yplusCrit * mu / rho / yp) * (yplusCrit * mu / rho / yp) := by
    rw [mul_assoc]; exact mul_nonneg hr.le (mul_self_nonneg _)
  have h := c215_utau (o := o) (uEx := uTan) (uW := 0) hm hx hk hr hmu ha ht
    (tauP := rho * (yplusCrit * mu / rho / yp) * (yplusCrit * mu / rho / yp)) (by linarith) hU
  simp only [sub_zero] at h
  simp only [utauOde, pow_two, ← mul_assoc] at h ⊢
  exact h

/-- **C215** A fluid that moves with the wall has no friction: with at least two iterations the loop ends with a stress below the tolerance. -/
theorem c215_no_slip (hm : 2 ≤ o.numPoints) (hx : ∀ k, p.coords k < p.coords (k + 1)) (hk : 0 ≤ o.kappa) (hr : 0 < rho) (hmu : 0 < mu)
    (ht : p.tauWall ≤ 0) {tauP : ℝ} (hit : 2 ≤ o.maxIter) (htol : 0 < o.tol) :
    let r := solve o uW uW rho mu tauP p
    r.2.2 = true ∧ rho * r.2.1 ^ 2 < o.tol := by
  intro r
  have hT : ∀ t, wallStress o p.coords (uW - uW) rho mu t = 0 := fun t => by simp [wallStress]
  obtain ⟨tau, h1, h2, h3⟩ := c215_solve (o := o) (uEx := uW) (uW := uW) hm hx hk hr hmu ht tauP
  have hc : (solve o uW uW rho mu tauP p).2.2 = true := by
    by_contra h
    rw [Bool.not_eq_true] at h
    have := (h3 h).2 1 (by omega)
    rw [Function.iterate_succ_apply', Function.iterate_one, hT, hT] at this
    simp at this
    linarith
  refine ⟨hc, ?_⟩
  have h4 := (h2 hc).1
  rw [hT, zero_sub, abs_neg] at h4
  change rho * (solve o uW uW rho mu tauP p).2.1 ^ 2 < o.tol
  rw [h1]
  rcases le_or_gt 0 tau with h | h
  · rw [Real.sq_sqrt (div_nonneg h hr.le), mul_div_cancel₀ _ hr.ne']
    exact lt_of_le_of_lt (le_abs_self _) h4
  · rw [Real.sqrt_eq_zero_of_nonpos (div_nonpos_of_nonpos_of_nonneg h.le hr.le)]
    simpa using htol

/-- **C215** `solve` has no memory: after any history of calls it returns what it returns on a new point.  (`tauWall_`, meant to carry the last
stress as the next initial guess, is never written.) -/
theorem c215_no_memory {nd : ℕ} {ip pt : Fin nd → ℝ} (hb : 0 < o.bias) (hb1 : o.bias ≠ 1) (hN : 3 ≤ o.numPoints) (hL : 0 < lTotal ip pt)
    (hk : 0 ≤ o.kappa) (hreach : Reach o ip pt p) (hr : 0 ≤ rho) (hmu : 0 < mu) (tauP : ℝ) :
    (solve o uEx uW rho mu tauP p).2 = (solve o uEx uW rho mu tauP (Pt.new o ip pt)).2 := by
  have hx : ∀ k, (Pt.new o ip pt).coords k < (Pt.new o ip pt).coords (k + 1) := (c212_grid hb hb1 hN hL).2.2.1
  have hcoords : ∀ (uEx uW rho mu : ℝ) (k : ℕ) (tau : ℝ) (p : Pt), (solveLoop o uEx uW rho mu k tau p).1.coords = p.coords ∧
      (solveLoop o uEx uW rho mu k tau p).1.tauWall = p.tauWall := by
    intro uEx uW rho mu k
    induction k with
    | zero => intro tau p; exact ⟨rfl, rfl⟩
    | succ k ih =>
      intro tau p
      simp only [solveLoop]
      split_ifs
      · exact ⟨rfl, rfl⟩
      · exact ih _ _
  have hinv : p.coords = (Pt.new o ip pt).coords ∧ p.tauWall = -1 := by
    induction hreach with
    | new => exact ⟨rfl, rfl⟩
    | solve a b c d e _ ih =>
      obtain ⟨h1, h2⟩ := hcoords a b c d o.maxIter _ _
      exact ⟨h1.trans ih.1, h2.trans ih.2⟩
  have hloop : ∀ (k : ℕ) (tau : ℝ) (p q : Pt), p.coords = q.coords → (∀ k, q.coords k < q.coords (k + 1)) →
      (solveLoop o uEx uW rho mu k tau p).2 = (solveLoop o uEx uW rho mu k tau q).2 := by
    intro k
    induction k with
    | zero => intro tau p q _ _; rfl
    | succ k ih =>
      intro tau p q hpq hx
      have h1 := tauOf_profile (o := o) (uEx := uEx) (uW := uW) (tau := tau) (p := p) (by omega) (by rw [hpq]; exact hx) hk hr hmu
      have h2 := tauOf_profile (o := o) (uEx := uEx) (uW := uW) (tau := tau) (p := q) (by omega) hx hk hr hmu
      simp only [solveLoop, h1, h2, hpq]
      split_ifs
      · rfl
      · exact ih _ _ _ hpq hx
  have hn : (Pt.new o ip pt).tauWall = -1 := rfl
  have e : ∀ t, (solveLoop o uEx uW rho mu o.maxIter t { p with iterations := o.maxIter }).2 =
      (solveLoop o uEx uW rho mu o.maxIter t { Pt.new o ip pt with iterations := o.maxIter }).2 := fun t => hloop o.maxIter t _ _ hinv.1 hx
  simp only [solve]
  rw [e, hinv.2, hn]
  rfl

/-- **C215** (partial: the stress is not the one carried) At a positive stress the eddy viscosity at the first point off the wall is positive, but the
wall stress is read with the laminar viscosity alone: what is returned is smaller than the stress the profile carries through every segment. -/
theorem c215_reported_below_carried_partial (hm : 2 ≤ o.numPoints) (hx : ∀ k, p.coords k < p.coords (k + 1)) (hk : 0 < o.kappa) (hr : 0 < rho)
    (hmu : 0 < mu) (ha : 0 < o.aplus) (htau : 0 < tau) (hU : uW < uEx) :
    let q := profile o uEx uW rho mu tau p
    ∀ k, k + 1 < o.numPoints → tauOf mu q < stress p.coords (viscAt o.aplus tau rho mu o.kappa p.coords) q.vel k := by
  intro q k hkk
  obtain ⟨-, -, h, -⟩ := c214_profile (o := o) (uEx := uEx) (uW := uW) (tau := tau) hm hx hk.le hr.le hmu
  change tauOf mu (profile o uEx uW rho mu tau p) < _
  rw [h k hkk, tauOf_profile hm hx hk.le hr.le hmu, wallStress]
  have hv : ∀ k, 0 < viscAt o.aplus tau rho mu o.kappa p.coords k := fun k => lt_of_lt_of_le hmu (visc_ge hk.le hr.le (mono_le hx k))
  have hR := resistance_pos hx hv (by omega : 1 ≤ o.numPoints - 1)
  set P := (uEx - uW) / resistance p.coords (viscAt o.aplus tau rho mu o.kappa p.coords) (o.numPoints - 1) with hP
  have hPp : 0 < P := div_pos (by linarith) hR
  have h0 : viscAt o.aplus tau rho mu o.kappa p.coords 0 = mu := by simp [viscAt]
  have h1 : mu < viscAt o.aplus tau rho mu o.kappa p.coords 1 := by
    simp only [viscAt]
    have y : 0 < p.coords 1 - p.coords 0 := by have := hx 0; simpa using this
    have s : 0 < Real.sqrt (rho * tau) := Real.sqrt_pos.2 (by positivity)
    have s2 : 0 < Real.sqrt (tau / rho) := Real.sqrt_pos.2 (by positivity)
    have e : Real.exp (-((p.coords 1 - p.coords 0) * Real.sqrt (rho * tau) / mu) / o.aplus) < 1 := by
      rw [Real.exp_lt_one_iff, neg_div]
      have : 0 < (p.coords 1 - p.coords 0) * Real.sqrt (rho * tau) / mu / o.aplus := by positivity
      linarith
    have e' : 0 < 1 - Real.exp (-((p.coords 1 - p.coords 0) * Real.sqrt (rho * tau) / mu) / o.aplus) := by linarith
    have : 0 < o.kappa * rho * Real.sqrt (tau / rho) * (p.coords 1 - p.coords 0) *
      (1 - Real.exp (-((p.coords 1 - p.coords 0) * Real.sqrt (rho * tau) / mu) / o.aplus)) *
      (1 - Real.exp (-((p.coords 1 - p.coords 0) * Real.sqrt (rho * tau) / mu) / o.aplus)) := by positivity
    linarith
  rw [h0, ← mul_div_assoc, div_lt_iff₀ (by linarith)]
  nlinarith

end profile

/-- The constants of the code. -/
noncomputable def codeOpts : OdeOpts where
  aplus := 17
  kappa := 41 / 100
  tol := 1 / 1000000
  maxIter := 1000
  numPoints := 50
  bias := 200

/-- A new point at distance one: the hypotheses of the theorems hold with the constants of the code. -/
example : let p := Pt.new codeOpts (fun _ : Fin 2 => 0) ![0, 1]
    0 < lTotal (fun _ : Fin 2 => (0 : ℝ)) ![0, 1] ∧ (∀ k, p.coords k < p.coords (k + 1)) ∧ p.tauWall ≤ 0 ∧ 2 ≤ codeOpts.numPoints ∧ 0 < codeOpts.kappa ∧
      0 < codeOpts.aplus ∧ 2 ≤ codeOpts.maxIter ∧ 0 < codeOpts.tol := by
  have h : 0 < lTotal (fun _ : Fin 2 => (0 : ℝ)) ![0, 1] := by simp [lTotal, Fin.sum_univ_two]
  refine ⟨h, (c212_grid (by norm_num [codeOpts]) (by norm_num [codeOpts]) (by norm_num [codeOpts]) h).2.2.1, ?_, ?_, ?_, ?_, ?_, ?_⟩ <;>
    norm_num [codeOpts, Pt.new]

/-! ## C216: the owning element of a projected point -/

section search
variable {I : Type*} {rank : ℕ} {isIn : ℕ → ℝ × I}

private theorem pick_spec (l : List Pair) : ∀ w : Owner I,
    let r := pick rank isIn l w
    r.best ≤ w.best ∧ (∀ q ∈ l, q.proc = rank → r.best ≤ (isIn q.box).1) ∧
    (r = w ∨ ∃ q ∈ l, q.proc = rank ∧ (isIn q.box).1 < w.best ∧ r = ⟨some q.box, some (isIn q.box).2, (isIn q.box).1⟩) := by
  induction l with
  | nil => intro w; exact ⟨le_refl _, by simp, Or.inl rfl⟩
  | cons q l ih =>
    intro w
    simp only [pick]
    by_cases h : rank = q.proc
    · rw [if_pos h]
      by_cases hb : (isIn q.box).1 < w.best
      · rw [if_pos hb]
        obtain ⟨h1, h2, h3⟩ := ih ⟨some q.box, some (isIn q.box).2, (isIn q.box).1⟩
        refine ⟨h1.trans hb.le, ?_, ?_⟩
        · intro q' hq' hp
          rcases List.mem_cons.1 hq' with rfl | hm
          · exact h1
          · exact h2 q' hm hp
        · right
          rcases h3 with h3 | ⟨q', hm, hp, hlt, he⟩
          · exact ⟨q, List.mem_cons_self, h.symm, hb, h3⟩
          · exact ⟨q', List.mem_cons_of_mem _ hm, hp, hlt.trans hb, he⟩
      · rw [if_neg hb]
        obtain ⟨h1, h2, h3⟩ := ih w
        refine ⟨h1, ?_, ?_⟩
        · intro q' hq' hp
          rcases List.mem_cons.1 hq' with rfl | hm
          · exact h1.trans (not_lt.1 hb)
          · exact h2 q' hm hp
        · rcases h3 with h3 | ⟨q', hm, hp, hlt, he⟩
          · exact Or.inl h3
          · exact Or.inr ⟨q', List.mem_cons_of_mem _ hm, hp, hlt, he⟩
    · rw [if_neg h]
      obtain ⟨h1, h2, h3⟩ := ih w
      refine ⟨h1, ?_, ?_⟩
      · intro q' hq' hp
        rcases List.mem_cons.1 hq' with rfl | hm
        · exact absurd hp.symm h
        · exact h2 q' hm hp
      · rcases h3 with h3 | ⟨q', hm, hp, hlt, he⟩
        · exact Or.inl h3
        · exact Or.inr ⟨q', List.mem_cons_of_mem _ hm, hp, hlt, he⟩

/-- **C216** If the coarse search found an element for the point on its own rank, at a parametric distance below the initial bound, the point gets an
element of that list, with the parametric coordinates computed in that element, and no other element of the list is nearer. -/
theorem c216_nearest_owner (bestRef : ℝ) (pairs : List Pair) (id : ℕ) (q0 : Pair) (h0 : q0 ∈ pairs) (hid : q0.id = id) (hp : q0.proc = rank)
    (hb : (isIn q0.box).1 < bestRef) :
    ∃ q ∈ pairs, q.id = id ∧ q.proc = rank ∧
      completeSearch bestRef rank isIn pairs id = some ⟨some q.box, some (isIn q.box).2, (isIn q.box).1⟩ ∧
      ∀ q' ∈ pairs, q'.id = id → q'.proc = rank → (isIn q.box).1 ≤ (isIn q'.box).1 := by
  have hmem : q0 ∈ candidates pairs id := List.mem_filter.2 ⟨h0, by simpa using hid⟩
  have hne : (candidates pairs id).isEmpty = false := by
    cases hc : candidates pairs id with
    | nil => rw [hc] at hmem; simp at hmem
    | cons => rfl
  obtain ⟨h1, h2, h3⟩ := pick_spec (rank := rank) (isIn := isIn) (candidates pairs id) ⟨none, none, bestRef⟩
  rcases h3 with h3 | ⟨q, hq, hqp, -, he⟩
  · have := h2 q0 hmem hp
    rw [h3] at this
    exact absurd hb (not_lt.2 this)
  · have hq' := List.mem_filter.1 hq
    refine ⟨q, hq'.1, by simpa using hq'.2, hqp, ?_, fun q' hm hid' hp' => ?_⟩
    · rw [completeSearch, hne, he]; rfl
    · have := h2 q' (List.mem_filter.2 ⟨hm, by simpa using hid'⟩) hp'
      rwa [he] at this

/-- **C216** The search stops the run when no pair at all carries the id of the point. -/
theorem c216_throws (bestRef : ℝ) (pairs : List Pair) (id : ℕ) : completeSearch bestRef rank isIn pairs id = none ↔ ∀ q ∈ pairs, q.id ≠ id := by
  rw [completeSearch]
  cases hc : (candidates pairs id).isEmpty with
  | true =>
    simp only [if_true, true_iff]
    intro q hq hid
    have : q ∈ candidates pairs id := List.mem_filter.2 ⟨hq, by simpa using hid⟩
    rw [List.isEmpty_iff.1 hc] at this
    simp at this
  | false =>
    simp only [Bool.false_eq_true, if_false, reduceCtorEq, false_iff, not_forall, not_not]
    cases h : candidates pairs id with
    | nil => rw [h] at hc; simp at hc
    | cons q l =>
      have hm : q ∈ candidates pairs id := by rw [h]; exact List.mem_cons_self
      have := List.mem_filter.1 hm
      exact ⟨q, this.1, by simpa using this.2⟩

/-- **C216** (partial: an unowned point can pass) The check compares ids only, and every rank numbers its points from zero: a point of this rank that
no element contains is not reported when another rank has a point of the same number that was found; it keeps no element, and the algorithm goes on
to use its owning element. -/
theorem c216_collision_hides_unowned_partial (bestRef : ℝ) (pairs : List Pair) (id : ℕ) (hown : ∀ q ∈ pairs, q.id = id → q.proc ≠ rank)
    (hother : ∃ q ∈ pairs, q.id = id) : ∃ w, completeSearch bestRef rank isIn pairs id = some w ∧ w.elem = none := by
  have hne : completeSearch bestRef rank isIn pairs id ≠ none := by
    rw [ne_eq, c216_throws]
    push Not
    exact hother
  obtain ⟨w, hw⟩ := Option.ne_none_iff_exists'.1 hne
  refine ⟨w, hw, ?_⟩
  obtain ⟨-, -, h3⟩ := pick_spec (rank := rank) (isIn := isIn) (candidates pairs id) ⟨none, none, bestRef⟩
  rw [completeSearch] at hw
  split_ifs at hw with hc
  injection hw with hw
  rcases h3 with h3 | ⟨q, hq, hqp, -, -⟩
  · rw [← hw, h3]
  · have := List.mem_filter.1 hq
    exact absurd hqp (hown q this.1 (by simpa using this.2))

/-- Two ranks, the first with two candidates: the nearer is taken. -/
example : completeSearch 1e16 0 (fun b => ((b : ℝ), b)) [⟨0, 0, 2⟩, ⟨0, 1, 0⟩, ⟨0, 0, 1⟩] 0 = some ⟨some 1, some 1, ((1 : ℕ) : ℝ)⟩ := by
  norm_num [completeSearch, candidates, pick]

end search

end Nalu.WallOde
