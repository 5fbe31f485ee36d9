import Verif.Proofs.HdfTable

/-!
# C193–C194: the converters of property tables
-/

namespace Nalu.HdfTable
open Spec

/-! ## C193: converters -/

theorem augment_sum : ∀ (zs : List ℝ) (l : ℝ), (augment zs l).sum = l
  | [], l => by simp [augment]
  | z :: zs, l => by simp [augment, augment_sum]

theorem augment_length : ∀ (zs : List ℝ) (l : ℝ), (augment zs l).length = zs.length + 1
  | [], l => by simp [augment]
  | z :: zs, l => by simp [augment, augment_length]

theorem augment_nonneg : ∀ {zs : List ℝ} {l : ℝ}, (∀ z ∈ zs, 0 ≤ z) → 0 ≤ l → ∀ x ∈ augment zs l, 0 ≤ x
  | [], l, _, hl, x, hx => by simp [augment] at hx; linarith
  | z :: zs, l, h, hl, x, hx => by
    rw [augment] at hx
    rcases List.mem_cons.1 hx with rfl | hx
    · exact le_min (h z (List.mem_cons_self ..)) hl
    · exact augment_nonneg (fun z hz => h z (List.mem_cons_of_mem _ hz)) (by linarith [min_le_right z l]) x hx

theorem augment_real : ∀ {zs : List ℝ} {l : ℝ}, (∀ z ∈ zs, 0 ≤ z) → zs.sum ≤ l → augment zs l = zs ++ [l - zs.sum]
  | [], l, _, _ => by simp [augment]
  | z :: zs, l, h, hs => by
    simp only [List.sum_cons] at hs
    have h1 : 0 ≤ zs.sum := List.sum_nonneg fun z hz => h z (List.mem_cons_of_mem _ hz)
    rw [augment, min_eq_left (by linarith), augment_real (fun z hz => h z (List.mem_cons_of_mem _ hz)) (by linarith)]
    simp [sub_sub]

theorem mixProp_zip : ∀ (zs ps : List ℝ), mixProp zs ps = (zs.zipWith (· * ·) ps).sum
  | [], _ => by simp [mixProp]
  | _ :: _, [] => by simp [mixProp]
  | z :: zs, p :: ps => by simp [mixProp, mixProp_zip zs ps]

/-- C193: the mixture fractions used are those given when these are possible; otherwise they are cut so that all streams, the last one included, are
non-negative and add up to one. -/
theorem c193_streams (zs : List ℝ) :
    (augment zs 1).length = zs.length + 1 ∧ (augment zs 1).sum = 1 ∧ ((∀ z ∈ zs, 0 ≤ z) → ∀ x ∈ augment zs 1, 0 ≤ x) ∧
      ((∀ z ∈ zs, 0 ≤ z) → zs.sum ≤ 1 → augment zs 1 = zs ++ [1 - zs.sum]) :=
  ⟨augment_length zs 1, augment_sum zs 1, fun h => augment_nonneg h zero_le_one, augment_real⟩

theorem mixProp_bounds {lo hi : ℝ} : ∀ {ws ps : List ℝ}, ws.length = ps.length → (∀ x ∈ ws, 0 ≤ x) → (∀ p ∈ ps, lo ≤ p ∧ p ≤ hi) →
    lo * ws.sum ≤ mixProp ws ps ∧ mixProp ws ps ≤ hi * ws.sum
  | [], ps, _, _, _ => by simp [mixProp]
  | w :: ws, [], h, _, _ => by simp at h
  | w :: ws, p :: ps, h, hw, hp => by
    obtain ⟨h1, h2⟩ := mixProp_bounds (ws := ws) (ps := ps) (by simpa using h) (fun x hx => hw x (List.mem_cons_of_mem _ hx))
      fun x hx => hp x (List.mem_cons_of_mem _ hx)
    have a := hw w (List.mem_cons_self ..)
    obtain ⟨b1, b2⟩ := hp p (List.mem_cons_self ..)
    simp only [mixProp, List.sum_cons]
    constructor <;> nlinarith

/-- C193: a property mixed from the streams lies between the smallest and the largest stream property. -/
theorem c193_mixture_bounds {zs ps : List ℝ} {lo hi : ℝ} (hz : ∀ z ∈ zs, 0 ≤ z) (hl : ps.length = zs.length + 1) (hp : ∀ p ∈ ps, lo ≤ p ∧ p ≤ hi) :
    lo ≤ mixProp (augment zs 1) ps ∧ mixProp (augment zs 1) ps ≤ hi := by
  have := mixProp_bounds (by rw [augment_length, hl]) (augment_nonneg hz zero_le_one) hp
  rwa [augment_sum, mul_one, mul_one] at this

/-- C193: the enthalpy converter undoes the local scaling: the enthalpy that lies `t` times the local range above the local minimum is sent to the
reference enthalpy `t` above the reference minimum. -/
theorem c193_enthalpy_inverse {a hmin : List ℝ} {refMin t : ℝ} {zs : List ℝ} (hz : ∀ z ∈ zs, 0 ≤ z) (hs : zs.sum ≤ 1)
    (ha : 1 / 10 ^ 16 < |blend zs a|) : hStar a hmin refMin zs (blend zs hmin + t * blend zs a) = refMin + t := by
  have e : ∀ ps, mixProp (augment zs 1) ps = blend zs ps := fun ps => by rw [augment_real hz hs, mixProp_zip]; rfl
  unfold hStar
  simp only [e]
  rw [if_pos ha]
  have h0 : blend zs a ≠ 0 := by
    intro h; rw [h, abs_zero] at ha
    exact absurd ha (by norm_num)
  field_simp
  ring

/-- C193: where the streams have no enthalpy range the reference minimum is returned; nothing is divided by zero. -/
theorem c193_enthalpy_degenerate {a hmin : List ℝ} {refMin h : ℝ} {zs : List ℝ} (hz : ∀ z ∈ zs, 0 ≤ z) (hs : zs.sum ≤ 1)
    (ha : blend zs a = 0) : hStar a hmin refMin zs h = refMin := by
  have e : ∀ ps, mixProp (augment zs 1) ps = blend zs ps := fun ps => by rw [augment_real hz hs, mixProp_zip]; rfl
  unfold hStar
  simp only [e]
  rw [if_neg (by rw [ha]; norm_num)]

/-- Two streams, half of each: the blend is the mean. -/
example : blend [1 / 2] [3, 5] = 4 ∧ hStar [1, 3] [0, 2] 7 [1 / 2] 5 = 9 := by
  have h : blend [1 / 2] [1, 3] = 2 := by norm_num [blend]
  have h' : blend [1 / 2] [0, 2] = 1 := by norm_num [blend]
  refine ⟨by norm_num [blend], ?_⟩
  have := c193_enthalpy_inverse (a := [1, 3]) (hmin := [0, 2]) (refMin := 7) (t := 2) (zs := [1 / 2]) (by simp) (by norm_num) (by rw [h]; norm_num)
  rw [h, h'] at this
  norm_num at this
  exact this

/-- C193: at the stoichiometric mixture the dissipation converter returns its input, and it is proportional to the input everywhere. -/
theorem c193_delta_chi {sp c2 zst : ℝ} (h : 1 / 10 ^ 12 ≤ fChi sp c2 zst) (z chi s : ℝ) :
    deltaChi sp c2 zst zst chi = chi ∧ deltaChi sp c2 zst z (s * chi) = s * deltaChi sp c2 zst z chi ∧ (0 ≤ chi → 0 ≤ deltaChi sp c2 zst z chi) := by
  have hp : 0 < fChi sp c2 zst := lt_of_lt_of_le (by positivity) h
  refine ⟨?_, ?_, ?_⟩
  · unfold deltaChi; rw [max_eq_left h]; field_simp
  · unfold deltaChi; ring
  · intro hc
    unfold deltaChi
    exact div_nonneg (mul_nonneg hc hp.le) (le_max_of_le_right (by positivity))

/-- C193 (counterexample): the table inside the dissipation converter is never wired, so its lookup point is the buffer it was allocated with and not
the mixture fraction and variance of the query: they have no influence on the result. -/
theorem c193_chi_inner_counterexample (sp c2 zst : ℝ) (zr vr : Var) (spline : List ℝ → ℝ) (z v z' v' chi : ℝ) :
    chiConv sp c2 zst (file [zr, vr] spline) [0, 0] [z, v, chi] = chiConv sp c2 zst (file [zr, vr] spline) [0, 0] [z', v', chi] ∧
      chiConv sp c2 zst (file [zr, vr] spline) [0, 0] [z, v, chi] =
        some (chi * fChi sp c2 zst / max (spline [coord zr 0, coord vr 0]) (1 / 10 ^ 12)) := by
  obtain ⟨c, h, -⟩ := check_eq [zr, vr] fun _ => 0
  have hq : ∀ i, query (file [zr, vr] spline) (innerWiring (file [zr, vr] spline)) [] i [0, 0] =
      some (spline [coord zr 0, coord vr 0], [0, 0], c) := by
    intro i
    unfold query
    rw [show fill _ _ _ _ = some [0, 0] from rfl]
    simp only [List.map_cons, List.map_nil] at h
    simp only [Option.bind_some, file, List.map_cons, List.map_nil, h, Option.map_some]
  unfold chiConv
  simp [hq]

/-- C193 (partial: the mixture fraction and its variance do not enter, see `c193_chi_inner_counterexample`): the result is proportional to the
dissipation rate given. -/
theorem c193_chi_proportional_partial (sp c2 zst : ℝ) (vars : List Var) (spline : List ℝ → ℝ) (b : List ℝ) (hb : b.length = vars.length) (z v : ℝ) :
    ∃ k, ∀ chi, chiConv sp c2 zst (file vars spline) b [z, v, chi] = some (k * chi) := by
  have hc : ∀ (vars : List Var) (b : List ℝ), b.length = vars.length →
      ∃ r, check (vars.map Var.lo) (vars.map Var.hi) (vars.map Var.log) b = some r := by
    intro vars
    induction vars with
    | nil => intro b hb; obtain rfl := List.length_eq_zero_iff.1 hb; exact ⟨_, rfl⟩
    | cons u vs ih =>
      intro b hb
      cases b with
      | nil => simp at hb
      | cons x b =>
        obtain ⟨r, hr⟩ := ih b (by simpa using hb)
        simp only [List.map_cons, check, hr, Option.map_some]
        exact ⟨_, rfl⟩
  obtain ⟨r, hr⟩ := hc vars b hb
  refine ⟨fChi sp c2 zst / max (spline r.1) (1 / 10 ^ 12), fun chi => ?_⟩
  unfold chiConv query
  rw [show fill (innerWiring (file vars spline)) [] [z, v, chi] b = some b from rfl]
  simp only [Option.bind_some, file, hr, Option.map_some]
  simp
  ring

/-! ## C194: the profiles -/

theorem errorf_odd (sp x : ℝ) (hx : x ≠ 0) : errorf sp (-x) = -errorf sp x := by
  unfold errorf
  simp only [abs_neg, neg_mul_neg, neg_mul, mul_neg]
  split_ifs with h1 h2 h3 h3
  · ring
  · exfalso; apply hx; linarith
  · ring
  · ring
  · exfalso; linarith

theorem invErrorf_zero (sp c2 : ℝ) : invErrorf sp c2 0 = 0 := by
  unfold invErrorf
  have h0 : errorf sp 0 = 0 := by unfold errorf; simp
  simp [invGuess, invNewton, h0]

theorem invErrorf_neg (sp c2 x : ℝ) : invErrorf sp c2 (-x) = -invErrorf sp c2 x := by
  rcases eq_or_ne x 0 with rfl | hx
  · rw [neg_zero, invErrorf_zero, neg_zero]
  · unfold invErrorf
    rcases lt_or_gt_of_ne hx with h | h
    · have h' : ¬ -x < 0 := by linarith
      simp only [if_pos h, if_neg h']; ring
    · have h' : ¬ x < 0 := by linarith
      have h'' : -x < 0 := by linarith
      simp only [if_pos h'', if_neg h']; rw [neg_neg]; ring

/-- C194: the error function and its inverse are odd as computed. -/
theorem c194_erf_odd (sp c2 x : ℝ) : errorf sp (-x) = -errorf sp x ∧ invErrorf sp c2 (-x) = -invErrorf sp c2 x := by
  refine ⟨?_, invErrorf_neg sp c2 x⟩
  rcases eq_or_ne x 0 with rfl | hx
  · unfold errorf; simp
  · exact errorf_odd sp x hx

/-- C194: the dissipation profile is positive, at most one, one at equal mixing and symmetric in the two streams. -/
theorem c194_chi_profile (sp c2 z : ℝ) : 0 < fChi sp c2 z ∧ fChi sp c2 z ≤ 1 ∧ fChi sp c2 (1 - z) = fChi sp c2 z ∧ fChi sp c2 (1 / 2) = 1 := by
  refine ⟨Real.exp_pos _, ?_, ?_, ?_⟩
  · unfold fChi
    rw [Real.exp_le_one_iff]
    nlinarith [sq_nonneg (invErrorf sp c2 (1 - 2 * z))]
  · unfold fChi
    rw [show 1 - 2 * (1 - z) = -(1 - 2 * z) by ring, invErrorf_neg, neg_sq]
  · unfold fChi
    rw [show (1 : ℝ) - 2 * (1 / 2) = 0 by ring, invErrorf_zero]
    simp

/-- C194: with one mixture fraction the heat-loss profile is the tent with its top at stoichiometry, whatever the heat loss there, and zero for
impossible mixtures. -/
theorem c194_gamma_tent {zst g z : ℝ} (h0 : 0 < zst) (h1 : zst < 1) (hg : g ≠ 0) :
    (z ≤ 1 → fGamma1 zst g z = tent zst z) ∧ (1 < z → fGamma1 zst g z = 0) ∧ (0 ≤ z → 0 ≤ fGamma1 zst g z ∧ fGamma1 zst g z ≤ 1) ∧
      fGamma1 zst g 0 = 0 ∧ fGamma1 zst g zst = 1 ∧ fGamma1 zst g 1 = 0 := by
  have h2 : (1 : ℝ) - zst ≠ 0 := by linarith
  have ht : ∀ z, z ≤ 1 → fGamma1 zst g z = tent zst z := by
    intro z hz
    unfold fGamma1 tent
    rw [if_neg (by linarith)]
    split_ifs
    · field_simp
    · field_simp
  have hz : ∀ z, 1 < z → fGamma1 zst g z = 0 := by intro z hz; unfold fGamma1; rw [if_pos hz]
  refine ⟨ht z, hz z, ?_, ?_, ?_, ?_⟩
  · intro hp
    by_cases h : z ≤ 1
    · rw [ht z h]
      unfold tent
      have h3 : 0 < 1 - zst := by linarith
      split_ifs with hle
      · exact ⟨div_nonneg hp h0.le, (div_le_one h0).2 hle⟩
      · exact ⟨div_nonneg (by linarith) h3.le, (div_le_one h3).2 (by linarith)⟩
    · rw [hz z (not_le.1 h)]; exact ⟨le_refl _, zero_le_one⟩
  · rw [ht 0 zero_le_one]; unfold tent; rw [if_pos h0.le, zero_div]
  · rw [ht zst h1.le]; unfold tent; rw [if_pos le_rfl, div_self h0.ne']
  · rw [ht 1 le_rfl]; unfold tent; rw [if_neg (by linarith), sub_self, zero_div]

/-- C194: the heat-loss converter returns its input at stoichiometry and never divides by less than `1e-12`. -/
theorem c194_delta_gamma {zst g : ℝ} (h0 : 0 < zst) (h1 : zst < 1) (hg : g ≠ 0) (gamma z : ℝ) :
    deltaGamma1 zst g zst gamma = gamma ∧ |deltaGamma1 zst g z gamma| ≤ 10 ^ 12 * |gamma| := by
  obtain ⟨-, -, -, -, ht, -⟩ := c194_gamma_tent (z := z) h0 h1 hg
  unfold deltaGamma1
  constructor
  · rw [ht, max_eq_left (by norm_num), div_one]
  · rw [abs_div, abs_of_pos (lt_max_of_lt_right (by positivity) : (0 : ℝ) < max (fGamma1 zst g z) (1 / 10 ^ 12)), div_le_iff₀ (lt_max_of_lt_right (by positivity))]
    have : 1 ≤ (10 : ℝ) ^ 12 * max (fGamma1 zst g z) (1 / 10 ^ 12) := by
      have := le_max_right (fGamma1 zst g z) (1 / 10 ^ 12)
      calc (1 : ℝ) = 10 ^ 12 * (1 / 10 ^ 12) := by norm_num
        _ ≤ _ := by gcongr
    nlinarith [abs_nonneg gamma]

theorem dist2_scale {p q : ℝ × ℝ} {k u v : ℝ} (h1 : p.1 - q.1 = k * u) (h2 : p.2 - q.2 = k * v) (hk : 0 ≤ k) :
    dist2 p q = k * Real.sqrt (u * u + v * v) := by
  unfold dist2
  rw [h1, h2, show k * u * (k * u) + k * v * (k * v) = k ^ 2 * (u * u + v * v) by ring, Real.sqrt_mul (sq_nonneg k), Real.sqrt_sq hk]

theorem small_pos : 0 < small := by unfold small; positivity

theorem meet_axes {a b x y : ℝ} (ha : small < a) (hb : small < b) (hx : x = 0 ∨ small < x) (hy : y = 0 ∨ small < y) :
    meet (x, y) (0, 0) (a, 0) (0, b) = (x / (x / a + y / b), y / (x / a + y / b)) := by
  have hs := small_pos
  have ha0 : a ≠ 0 := by linarith
  have hb0 : b ≠ 0 := by linarith
  have hna : ¬ |a| < small := by rw [abs_of_pos (by linarith)]; linarith
  have hnb : ¬ |b| < small := by rw [abs_of_pos (by linarith)]; linarith
  have nonneg : ∀ {t : ℝ}, (t = 0 ∨ small < t) → 0 ≤ t := by rintro t (rfl | h) <;> linarith
  have hx0 := nonneg hx
  have hy0 := nonneg hy
  have hpos : ∀ {t : ℝ}, small < t → ¬ |t| < small := by intro t h; rw [abs_of_pos (by linarith)]; linarith
  unfold meet isect ratio
  simp only [sub_zero, zero_sub, abs_neg, hna, hnb, if_false]
  refine Prod.ext ?_ ?_
  · dsimp only
    rcases hx with rfl | hx
    · simp [hs]
    · have hx' : 0 < x := by linarith
      rw [if_neg (hpos hx), if_neg (hpos hx)]
      have h1 : 0 < y * a + x * b := by nlinarith
      have h2 : -y / -x - -b / a ≠ 0 := by
        have : -y / -x - -b / a = (y * a + x * b) / (x * a) := by field_simp; ring
        rw [this]; positivity
      have h3 : x / a + y / b ≠ 0 := by
        have : x / a + y / b = (y * a + x * b) / (a * b) := by field_simp; ring
        rw [this]; positivity
      rw [div_eq_div_iff h2 h3]
      field_simp
      ring
  · dsimp only
    rcases hy with rfl | hy
    · simp [hs]
    · have hy' : 0 < y := by linarith
      rw [if_neg (hpos hy), if_neg (hpos hy)]
      have h1 : 0 < y * a + x * b := by nlinarith
      have h2 : -x / -y - a / -b ≠ 0 := by
        have : -x / -y - a / -b = (y * a + x * b) / (y * b) := by field_simp; ring
        rw [this]; positivity
      have h3 : x / a + y / b ≠ 0 := by
        have : x / a + y / b = (y * a + x * b) / (a * b) := by field_simp; ring
        rw [this]; positivity
      rw [div_eq_div_iff h2 h3]
      field_simp
      ring

/-- C194: with two mixture fractions and the stoichiometric points `(a, 0)` and `(0, b)` the profile is linear up to the stoichiometric line, where it
is the linear blend of the two heat losses, and falls linearly along each ray from the origin to zero on the line of pure streams; it is normalised
with the larger heat loss. -/
theorem c194_gamma_two {a b x y g1 g2 : ℝ} (ha : 1 / 10 ^ 16 < a) (hb : 1 / 10 ^ 16 < b) (ha' : a ≤ 1 - 1 / 10 ^ 15) (hb' : b ≤ 1 - 1 / 10 ^ 15)
    (hx : x = 0 ∨ 1 / 10 ^ 16 < x) (hy : y = 0 ∨ 1 / 10 ^ 16 < y) (hxy : x + y ≤ 1) :
    fGamma2 (a, 0) (0, b) g1 g2 (x, y) =
      (if x / a + y / b ≤ 1 then g1 * (x / a) + g2 * (y / b)
        else (g1 * (x / a) + g2 * (y / b)) * ((1 - x - y) / (x / a + y / b - x - y))) / if |g1| < |g2| then g2 else g1 := by
  change small < a at ha
  change small < b at hb
  change x = 0 ∨ small < x at hx
  change y = 0 ∨ small < y at hy
  have hs := small_pos
  have hss : 2 * small < 1 / 10 ^ 15 := by unfold small; norm_num
  have hs1 : small < 1 := by unfold small; norm_num
  have nonneg : ∀ {t : ℝ}, (t = 0 ∨ small < t) → 0 ≤ t := by rintro t (rfl | h) <;> linarith
  have hx0 := nonneg hx
  have hy0 := nonneg hy
  have a0 : 0 < a := by linarith
  have b0 : 0 < b := by linarith
  unfold fGamma2 corners
  rw [if_neg (by simp only; linarith)]
  simp only [ha, hb, hs, and_self, if_true]
  rw [meet_axes ha hb hx hy, meet_axes hs1 hs1 hx hy]
  simp only [div_one]
  congr 1
  by_cases hz : x = 0 ∧ y = 0
  · obtain ⟨rfl, rfl⟩ := hz
    have : dist2 ((0 : ℝ), (0 : ℝ)) (0, 0) = 0 := by unfold dist2; simp
    simp [this, not_lt.2 hs.le]
  have hsum : 0 < x + y := by
    rcases hx with rfl | hx
    · rcases hy with rfl | hy
      · simp at hz
      · linarith
    · linarith
  have hR : small < Real.sqrt (x * x + y * y) := by
    apply Real.lt_sqrt_of_sq_lt
    rcases hx with rfl | hx
    · rcases hy with rfl | hy
      · simp at hz
      · nlinarith
    · nlinarith
  have hR2 : (x + y) / 2 ≤ Real.sqrt (x * x + y * y) := by
    apply Real.le_sqrt_of_sq_le; nlinarith [sq_nonneg (x - y), mul_nonneg hx0 hy0]
  set R := Real.sqrt (x * x + y * y) with hRdef
  have hxa : x ≤ x / a := by rw [le_div_iff₀ a0]; nlinarith
  have hyb : y ≤ y / b := by rw [le_div_iff₀ b0]; nlinarith
  have s0 : 0 < x / a + y / b := by linarith
  set s := x / a + y / b with hsdef
  have d1 : dist2 (x, y) (0, 0) = R := by
    rw [dist2_scale (k := 1) (u := x) (v := y) (by simp) (by simp) zero_le_one, one_mul]
  have d2 : dist2 (x / s, y / s) (0, 0) = R / s := by
    rw [dist2_scale (k := 1 / s) (u := x) (v := y) (by simp; ring) (by simp; ring) (by positivity)]; ring
  have d3 : dist2 (x / (x + y), y / (x + y)) (0, 0) = R / (x + y) := by
    rw [dist2_scale (k := 1 / (x + y)) (u := x) (v := y) (by simp; ring) (by simp; ring) (by positivity)]; ring
  have q0 : 0 < Real.sqrt (a * a + b * b) := Real.sqrt_pos.2 (by positivity)
  have d4 : dist2 (a, 0) (x / s, y / s) = y / b / s * Real.sqrt (a * a + b * b) := by
    have := dist2_scale (p := (a, 0)) (q := (x / s, y / s)) (k := y / b / s) (u := a) (v := -b) (by
      dsimp only
      have : s * a - x = y / b * a := by rw [hsdef]; field_simp; ring
      field_simp at this ⊢
      linarith) (by simp; field_simp) (by positivity)
    rw [this]; congr 2; ring
  have d5 : dist2 (a, 0) (0, b) = Real.sqrt (a * a + b * b) := by
    have := dist2_scale (p := (a, 0)) (q := (0, b)) (k := 1) (u := a) (v := -b) (by simp) (by simp) zero_le_one
    rw [this, one_mul]; congr 1; ring
  have hg : g1 + (g2 - g1) * (y / b / s * Real.sqrt (a * a + b * b)) / Real.sqrt (a * a + b * b) = (g1 * (x / a) + g2 * (y / b)) / s := by
    rw [← mul_assoc, mul_div_assoc, div_self q0.ne', mul_one]
    field_simp
    rw [hsdef]; field_simp; ring
  rw [d1, d2, d3, d4, d5, hg]
  have hcond : R ≤ R / s ↔ s ≤ 1 := by
    rw [le_div_iff₀ s0]
    constructor
    · intro h; nlinarith
    · intro h; nlinarith
  simp only [hcond]
  split_ifs with c1 c2 c3 c4
  · have : R ≠ 0 := by linarith
    field_simp
  · exfalso; apply c2
    have : R ≤ R / s := hcond.2 c1
    linarith
  · have d6 : dist2 (x, y) (x / (x + y), y / (x + y)) = (1 / (x + y) - 1) * R := by
      have hk : 0 ≤ 1 / (x + y) - 1 := by
        rw [sub_nonneg, le_div_iff₀ hsum]; linarith
      have := dist2_scale (p := (x, y)) (q := (x / (x + y), y / (x + y))) (k := 1 / (x + y) - 1) (u := -x) (v := -y)
        (by dsimp only; ring) (by dsimp only; ring) hk
      rw [this]; congr 2; ring
    have hle : x + y ≤ s := by linarith
    have d7 : dist2 (x / s, y / s) (x / (x + y), y / (x + y)) = (1 / (x + y) - 1 / s) * R := by
      have hk : 0 ≤ 1 / (x + y) - 1 / s := by
        rw [sub_nonneg]; exact one_div_le_one_div_of_le hsum hle
      have := dist2_scale (p := (x / s, y / s)) (q := (x / (x + y), y / (x + y))) (k := 1 / (x + y) - 1 / s) (u := -x) (v := -y)
        (by dsimp only; ring) (by dsimp only; ring) hk
      rw [this]; congr 2; ring
    rw [d6, d7]
    have hsx : 0 < s - (x + y) := by linarith
    have : s - x - y ≠ 0 := by linarith
    have hR0 : R ≠ 0 := by linarith
    have hsum' := hsum.ne'
    rw [show 1 / (x + y) - 1 = (1 - x - y) / (x + y) by field_simp; ring, show 1 / (x + y) - 1 / s = (s - x - y) / ((x + y) * s) by field_simp; ring]
    field_simp
  · exfalso; apply c4
    have hle : x + y ≤ s := by linarith
    have d7 : dist2 (x / s, y / s) (x / (x + y), y / (x + y)) = (1 / (x + y) - 1 / s) * R := by
      have hk : 0 ≤ 1 / (x + y) - 1 / s := by
        rw [sub_nonneg]; exact one_div_le_one_div_of_le hsum hle
      have := dist2_scale (p := (x / s, y / s)) (q := (x / (x + y), y / (x + y))) (k := 1 / (x + y) - 1 / s) (u := -x) (v := -y)
        (by dsimp only; ring) (by dsimp only; ring) hk
      rw [this]; congr 2; ring
    rw [d7]
    set m : ℝ := 1 - 1 / 10 ^ 15 with hm
    have m0 : 0 < m := by rw [hm]; norm_num
    have hxm : x / m ≤ x / a := div_le_div_of_nonneg_left hx0 a0 ha'
    have hym : y / m ≤ y / b := div_le_div_of_nonneg_left hy0 b0 hb'
    have hsm : (x + y) / m ≤ s := by rw [add_div]; linarith
    have h1s : 1 / s ≤ m / (x + y) := by
      rw [div_le_div_iff₀ s0 hsum]
      rw [div_le_iff₀ m0] at hsm
      linarith
    have hk : (1 - m) / (x + y) ≤ 1 / (x + y) - 1 / s := by rw [sub_div]; linarith
    have h1m : 0 < 1 - m := by rw [hm]; norm_num
    have hk0 : 0 < (1 - m) / (x + y) := by positivity
    calc small < (1 - m) / 2 := by rw [hm]; linarith
      _ = (1 - m) / (x + y) * ((x + y) / 2) := by field_simp
      _ ≤ (1 / (x + y) - 1 / s) * R := mul_le_mul hk hR2 (by positivity) (hk0.le.trans hk)
  · exfalso
    apply c3
    rw [le_div_iff₀ hsum]
    nlinarith

/-- C194: impossible mixtures have no heat loss, and neither have the pure streams. -/
theorem c194_gamma_two_zero {s1 s2 z : ℝ × ℝ} {g1 g2 : ℝ} : (1 < z.1 + z.2 → fGamma2 s1 s2 g1 g2 z = 0) := by
  intro h; unfold fGamma2; rw [if_pos h]

/-- C194: the two ends of the stoichiometric line carry their own heat losses, relative to the larger one. -/
theorem c194_gamma_two_ends {a b g1 g2 : ℝ} (ha : 1 / 10 ^ 16 < a) (hb : 1 / 10 ^ 16 < b) (ha' : a ≤ 1 - 1 / 10 ^ 15) (hb' : b ≤ 1 - 1 / 10 ^ 15) :
    fGamma2 (a, 0) (0, b) g1 g2 (a, 0) = g1 / (if |g1| < |g2| then g2 else g1) ∧
      fGamma2 (a, 0) (0, b) g1 g2 (0, b) = g2 / (if |g1| < |g2| then g2 else g1) := by
  have h0 : (0 : ℝ) < 1 / 10 ^ 16 := by positivity
  have h1 : (0 : ℝ) < 1 / 10 ^ 15 := by positivity
  have a0 : a ≠ 0 := by linarith
  have b0 : b ≠ 0 := by linarith
  constructor
  · rw [c194_gamma_two ha hb ha' hb' (Or.inr ha) (Or.inl rfl) (by linarith), if_pos (by rw [div_self a0]; simp)]
    simp [div_self a0]
  · rw [c194_gamma_two ha hb ha' hb' (Or.inl rfl) (Or.inr hb) (by linarith), if_pos (by rw [div_self b0]; simp)]
    simp [div_self b0]

/-- C194 (counterexample): the order in which the two stoichiometric points are listed matters: `(0, b)` first puts the origin of the rays at the wrong
corner, and a mixture without the second stream gets no heat loss. -/
theorem c194_order_counterexample : fGamma2 (1 / 2, 0) (0, 1 / 2) 1 1 (1 / 4, 0) = 1 / 2 ∧ fGamma2 (0, 1 / 2) (1 / 2, 0) 1 1 (1 / 4, 0) = 0 := by
  constructor
  · rw [c194_gamma_two (by norm_num) (by norm_num) (by norm_num) (by norm_num) (by norm_num) (by norm_num) (by norm_num)]
    norm_num
  · have hm1 : meet (1 / 4, 0) (0, 1) (0, 1 / 2) (1 / 2, 0) = (1 / 6, 1 / 3) := by
      norm_num [meet, isect, ratio, small]
    have hm2 : meet (1 / 4, 0) (0, 1) (0, 0) (1, 0) = (1 / 4, 0) := by
      norm_num [meet, isect, ratio, small]
    have hc : corners (0, 1 / 2) (1 / 2, 0) = ((0, 1), (0, 0), (1, 0)) := by norm_num [corners, small]
    unfold fGamma2
    rw [hc]
    simp only [hm1, hm2]
    have hz : dist2 ((1 / 4 : ℝ), (0 : ℝ)) (1 / 4, 0) = 0 := by unfold dist2; simp
    have h1 : ¬ dist2 ((1 / 4 : ℝ), (0 : ℝ)) (0, 1) ≤ dist2 ((1 / 6 : ℝ), (1 / 3 : ℝ)) (0, 1) := by
      unfold dist2
      rw [not_le]
      exact Real.sqrt_lt_sqrt (by norm_num) (by norm_num)
    have h2 : small < dist2 ((1 / 6 : ℝ), (1 / 3 : ℝ)) (1 / 4, 0) := by
      unfold dist2
      apply Real.lt_sqrt_of_sq_lt
      norm_num [small]
    rw [if_neg h1, if_pos le_rfl, if_pos h2, hz]
    norm_num

end Nalu.HdfTable
