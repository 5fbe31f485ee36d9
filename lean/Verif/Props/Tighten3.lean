import Verif.Props.Turbulence
import Mathlib.Topology.Order.Basic
import Mathlib.Topology.Algebra.Order.Field
import Mathlib.Analysis.SpecialFunctions.Trigonometric.DerivHyp

/-!
# Tightened statements after mutation batch 8 (turbulence closures)
-/

namespace Nalu.Turb
open Filter Topology

/-! ## C70: the SST blending functions are Menter's -/

/-- Menter's second blending function: `tanh(arg²)`, `arg = max(2√k/(β* ω d), 500 ν/(ω d²))`, with kinematic
viscosity `ν`. -/
noncomputable def menterF2 (betaStar nu k w d : ℝ) : ℝ :=
  Real.tanh ((max (2 * Real.sqrt k / (betaStar * w * d)) (500 * nu / (w * d ^ 2))) ^ 2)

/-- Menter's first blending function: `tanh(arg⁴)`,
`arg = min(max(√k/(β* ω d), 500 ν/(ω d²)), 4 ρ σ k/(CD d²))`, `CD = max(2 ρ σ ∇k·∇ω/ω, clip)`. -/
noncomputable def menterF1 (betaStar sigma clip rho nu k w d gkgw : ℝ) : ℝ :=
  Real.tanh ((min (max (Real.sqrt k / (betaStar * w * d)) (500 * nu / (w * d ^ 2)))
    (4 * rho * sigma * k / (max (2 * rho * sigma * gkgw / w) clip * d ^ 2))) ^ 4)

/-- **C70** The blending functions evaluated by the code are Menter's, with `nu = mu/rho`. -/
theorem c70_blending_exact {n : ℕ} (betaStar sigma clip visc rho k w d : ℝ) (dk dw : Fin n → ℝ) :
    fTwo betaStar visc rho k w d = menterF2 betaStar (visc / rho) k w d ∧
    fOne betaStar sigma clip visc rho k w d dk dw
      = menterF1 betaStar sigma clip rho (visc / rho) k w d (∑ j, dk j * dw j) := by
  have h1 : trbDiss betaStar k w d = Real.sqrt k / (betaStar * w * d) := by
    unfold trbDiss; rw [div_div, div_div]; ring_nf
  have h2 : lamDiss visc rho w d = 500 * (visc / rho) / (w * d ^ 2) := by
    unfold lamDiss; rw [div_div _ w, mul_div_assoc, pow_two]
  constructor
  · unfold fTwo menterF2
    rw [h1, h2, ← mul_div_assoc]
    simp only [pow_two]
  · unfold fOne menterF1
    simp only [h1, h2, div_div, pow_two]
    congr 1
    ring

/-- The arguments fall off with the wall distance. -/
theorem arg_antitone {a b c : ℝ} (ha : 0 ≤ a) (hb : 0 < b) (hc : 0 ≤ c) {d d' : ℝ} (hd : 0 < d) (h : d ≤ d') :
    max (a / (b * d')) (c / (b * d' ^ 2)) ≤ max (a / (b * d)) (c / (b * d ^ 2)) := by
  have hd' : 0 < d' := hd.trans_le h
  apply max_le_max
  · apply div_le_div_of_nonneg_left ha (by positivity)
    exact mul_le_mul_of_nonneg_left h hb.le
  · apply div_le_div_of_nonneg_left hc (by positivity)
    have : d ^ 2 ≤ d' ^ 2 := pow_le_pow_left₀ hd.le h 2
    exact mul_le_mul_of_nonneg_left this hb.le

private lemma tanh_mono {x y : ℝ} (h : x ≤ y) : Real.tanh x ≤ Real.tanh y := by
  rw [Real.tanh_eq_sinh_div_cosh, Real.tanh_eq_sinh_div_cosh, div_le_div_iff₀ (Real.cosh_pos _) (Real.cosh_pos _)]
  have : 0 ≤ Real.sinh (y - x) := Real.sinh_nonneg_iff.2 (by linarith)
  rw [Real.sinh_sub] at this
  linarith

/-- **C70** Away from the wall `F2` does not increase. -/
theorem c70_fTwo_antitone {betaStar visc rho k w : ℝ} (hb : 0 < betaStar) (hv : 0 ≤ visc) (hr : 0 < rho)
    (hw : 0 < w) {d d' : ℝ} (hd : 0 < d) (h : d ≤ d') :
    fTwo betaStar visc rho k w d' ≤ fTwo betaStar visc rho k w d := by
  have hd' : 0 < d' := hd.trans_le h
  have hk := Real.sqrt_nonneg k
  unfold fTwo
  apply tanh_mono
  have h0 : 0 ≤ max (2 * trbDiss betaStar k w d') (lamDiss visc rho w d') := by
    apply le_max_of_le_left
    unfold trbDiss; positivity
  apply mul_self_le_mul_self h0
  apply max_le_max
  · unfold trbDiss
    have : Real.sqrt k / betaStar / w / d' ≤ Real.sqrt k / betaStar / w / d :=
      div_le_div_of_nonneg_left (by positivity) hd h
    linarith
  · unfold lamDiss
    exact div_le_div_of_nonneg_left (by positivity) (by positivity) (mul_le_mul h h hd.le hd'.le)

/-- **C70** Far from walls `F2` vanishes, so that the SST viscosity turns into `rho*k/omega`. -/
theorem c70_fTwo_far (betaStar visc rho k w : ℝ) :
    Tendsto (fun d => fTwo betaStar visc rho k w d) atTop (𝓝 0) := by
  have h1 : Tendsto (fun d => trbDiss betaStar k w d) atTop (𝓝 0) := by
    unfold trbDiss
    exact tendsto_const_nhds.div_atTop tendsto_id
  have h2 : Tendsto (fun d => lamDiss visc rho w d) atTop (𝓝 0) := by
    unfold lamDiss
    exact tendsto_const_nhds.div_atTop (tendsto_id.atTop_mul_atTop₀ tendsto_id)
  have h3 : Tendsto (fun d => max (2 * trbDiss betaStar k w d) (lamDiss visc rho w d)) atTop (𝓝 0) := by
    have := (h1.const_mul 2).max h2
    simpa using this
  have h4 := h3.mul h3
  have hc : Continuous Real.tanh := by
    have : Real.tanh = fun x => Real.sinh x / Real.cosh x := by
      funext x; exact Real.tanh_eq_sinh_div_cosh x
    rw [this]
    exact Real.continuous_sinh.div Real.continuous_cosh fun x => (Real.cosh_pos x).ne'
  have := (hc.tendsto (0 * 0)).comp h4
  simpa [fTwo, Function.comp_def, Real.tanh_zero] using this

example : (0 : ℝ) < 9 / 100 ∧ (0 : ℝ) ≤ 1 / 1000 ∧ (0 : ℝ) < 1 ∧ (1 : ℝ) ≤ 2 := by norm_num

/-! ## C75: flags and maximum -/

/-- **C75** At a node the low flag is raised exactly when the returned value is below the lower bound, the high
flag exactly when it is above the upper bound, and a raised flag means the stored value is that bound. -/
theorem c75_flags (delta z dz : ℝ) (hd : 0 ≤ delta) :
    ((clipUpdate delta z dz).2.1 = true ↔ z + dz < -delta) ∧
    ((clipUpdate delta z dz).2.2 = true ↔ 1 + delta < z + dz) ∧
    ((clipUpdate delta z dz).2.1 = true → (clipUpdate delta z dz).1 = -delta) ∧
    ((clipUpdate delta z dz).2.2 = true → (clipUpdate delta z dz).1 = 1 + delta) := by
  unfold clipUpdate
  by_cases h1 : z + dz < 0 - delta
  · have h2 : ¬ 1 + delta < z + dz := by linarith
    have h3 : z + dz < -delta := by linarith
    simp [h1, h2, h3]
  · have h3 : ¬ z + dz < -delta := by intro h; apply h1; linarith
    by_cases h2 : 1 + delta < z + dz
    · simp [h1, h2, h3]
    · simp [h1, h2, h3]

example : clipUpdate (1 / 10) (1 / 2) (-1) = (-(1 / 10), true, false) := by
  unfold clipUpdate; norm_num

private lemma step_max (delta : ℝ) (vs : List ℝ) : ∀ s : ClipStat,
    s.maxZ ≤ (vs.foldl (clipStep delta) s).maxZ ∧
    (∀ v ∈ vs, ¬ v < 0 - delta → 1 + delta < v → v ≤ (vs.foldl (clipStep delta) s).maxZ) ∧
    ((vs.foldl (clipStep delta) s).maxZ = s.maxZ ∨ (vs.foldl (clipStep delta) s).maxZ ∈ vs) := by
  induction vs with
  | nil => intro s; simp
  | cons v l ih =>
    intro s
    rw [List.foldl_cons]
    obtain ⟨i1, i2, i3⟩ := ih (clipStep delta s v)
    have hs : s.maxZ ≤ (clipStep delta s v).maxZ ∧
        ((clipStep delta s v).maxZ = s.maxZ ∨ (clipStep delta s v).maxZ = v) ∧
        (¬ v < 0 - delta → 1 + delta < v → v ≤ (clipStep delta s v).maxZ) := by
      unfold clipStep
      by_cases h1 : v < 0 - delta
      · rw [if_pos h1]; exact ⟨le_rfl, Or.inl rfl, fun h => absurd h1 h⟩
      · by_cases h2 : 1 + delta < v
        · simp only [h1, h2, if_false, if_true, le_max_right, true_and, not_false_eq_true, le_max_left,
            forall_const, and_true]
          rcases max_choice v s.maxZ with h | h
          · right; exact h
          · left; exact h
        · rw [if_neg h1, if_neg h2]; exact ⟨le_rfl, Or.inl rfl, fun _ h => absurd h h2⟩
    refine ⟨hs.1.trans i1, ?_, ?_⟩
    · intro x hx a b
      rcases List.mem_cons.1 hx with rfl | hx
      · exact (hs.2.2 a b).trans i1
      · exact i2 x hx a b
    · rcases i3 with h | h
      · rcases hs.2.1 with h' | h'
        · left; rw [h, h']
        · right; rw [h, h']; exact List.mem_cons_self ..
      · right; exact List.mem_cons_of_mem _ h

/-- **C75 (partial, as `c75_diagnostics_partial`)** When some value was above the upper bound, the reported maximum is
the greatest of the values the solver returned above the bound, over all processes. -/
theorem c75_maximum_partial (delta large : ℝ) (hd : 0 ≤ delta) (ranks : List (List ℝ)) (hlg : -large ≤ 1 + delta)
    (hpos : 0 < (clipGlobal delta large ranks).high) :
    (clipGlobal delta large ranks).maxZ ∈ ranks.flatten ∧
    ∀ v ∈ ranks.flatten, 1 + delta < v → v ≤ (clipGlobal delta large ranks).maxZ := by
  have fold : ∀ (l : List (List ℝ)) (m : ℝ),
      m ≤ (l.map (clipLocal delta large)).foldl (fun m s => max m s.maxZ) m ∧
      (∀ r ∈ l, (clipLocal delta large r).maxZ ≤ (l.map (clipLocal delta large)).foldl (fun m s => max m s.maxZ) m) ∧
      ((l.map (clipLocal delta large)).foldl (fun m s => max m s.maxZ) m = m ∨
        ∃ r ∈ l, (l.map (clipLocal delta large)).foldl (fun m s => max m s.maxZ) m = (clipLocal delta large r).maxZ) := by
    intro l
    induction l with
    | nil => intro m; simp
    | cons a l ih =>
      intro m
      rw [List.map_cons, List.foldl_cons]
      obtain ⟨i1, i2, i3⟩ := ih (max m (clipLocal delta large a).maxZ)
      refine ⟨(le_max_left _ _).trans i1, ?_, ?_⟩
      · intro r hr
        rcases List.mem_cons.1 hr with rfl | hr
        · exact (le_max_right _ _).trans i1
        · exact i2 r hr
      · rcases i3 with h | ⟨r, hr, h⟩
        · rcases max_choice m (clipLocal delta large a).maxZ with h2 | h2
          · left; rw [h, h2]
          · right; exact ⟨a, by simp, by rw [h, h2]⟩
        · right; exact ⟨r, List.mem_cons_of_mem _ hr, h⟩
  have hle : ∀ v ∈ ranks.flatten, 1 + delta < v → v ≤ (clipGlobal delta large ranks).maxZ := by
    intro v hv hvl
    obtain ⟨r, hr, hvr⟩ := List.mem_flatten.1 hv
    refine ((step_max delta r _).2.1 v hvr (by linarith) hvl).trans ((fold ranks (-large)).2.1 r hr)
  refine ⟨?_, hle⟩
  have hh := (c75_diagnostics_partial delta (max large (-delta)) ranks (le_max_right _ _)).2.1
  have hsame : (clipGlobal delta large ranks).high = (clipGlobal delta (max large (-delta)) ranks).high := by
    have : ∀ (lg : ℝ) (r : List ℝ) (s s' : ClipStat), s.high = s'.high →
        (r.foldl (clipStep delta) s).high = (r.foldl (clipStep delta) s').high := by
      intro _ r
      induction r with
      | nil => intro s s' h; exact h
      | cons v r ih =>
        intro s s' h
        rw [List.foldl_cons, List.foldl_cons]
        apply ih
        unfold clipStep
        split_ifs <;> simp [h]
    unfold clipGlobal
    simp only [List.map_map]
    congr 1
    apply List.map_congr_left
    intro r _
    exact this large r _ _ rfl
  rw [hsame, hh] at hpos
  obtain ⟨v0, hv0⟩ := List.exists_mem_of_length_pos hpos
  obtain ⟨hv0m, hv0l⟩ := List.mem_filter.1 hv0
  have hv0l : ¬ v0 < 0 - delta ∧ 1 + delta < v0 := by simpa using hv0l
  have hlt : -large < (clipGlobal delta large ranks).maxZ := by
    have := hle v0 hv0m hv0l.2
    linarith [hv0l.2]
  rcases (fold ranks (-large)).2.2 with h | ⟨r, hr, h⟩
  · exact absurd h (ne_of_gt hlt)
  · have hm : (clipGlobal delta large ranks).maxZ = (clipLocal delta large r).maxZ := h
    rw [hm] at hlt ⊢
    rcases (step_max delta r ⟨0, 0, large, -large⟩).2.2 with h2 | h2
    · exact absurd h2 (ne_of_gt hlt)
    · exact List.mem_flatten.2 ⟨r, hr, h2⟩

end Nalu.Turb
