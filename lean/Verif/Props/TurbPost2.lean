import Verif.Model.TurbPost
import Mathlib.Algebra.BigOperators.Field
import Mathlib.Algebra.Order.BigOperators.Ring.Finset
import Mathlib.Algebra.Order.Chebyshev
import Mathlib.Tactic.FieldSimp
import Mathlib.Tactic.LinearCombination
import Mathlib.Tactic.NormNum
import Mathlib.Tactic.Linarith
import Mathlib.Tactic.Positivity
import Mathlib.Tactic.FinCases
import Mathlib.Data.Fin.VecNotation

/-!
# C283–C286: mean resolved kinetic energy, dissipation rate, production
-/

namespace Nalu.TurbPost

open Nalu.Averaging

/-! ## C283 -/

theorem localKe_eq {n : ℕ} (nodes : List (ℝ × (Fin n → ℝ))) :
    localKe nodes = ((nodes.map Prod.fst).sum, (nodes.map fun p => 1 / 2 * (∑ i, p.2 i ^ 2) * p.1).sum) := by
  unfold localKe
  induction nodes using List.reverseRecOn with
  | nil => rfl
  | append_singleton l p ih =>
    rw [List.foldl_append, ih]
    simp only [List.foldl_cons, List.foldl_nil, List.map_append, List.map_cons, List.map_nil,
      List.sum_append, List.sum_singleton, Prod.mk.injEq, true_and]
    have : ∑ i, p.2 i * p.2 i = ∑ i, p.2 i ^ 2 := Finset.sum_congr rfl fun i _ => by ring
    rw [this]; ring

theorem meanKe_eq {n : ℕ} (ranks : List (List (ℝ × (Fin n → ℝ)))) :
    meanKe ranks = (ranks.flatten.map fun p => 1 / 2 * (∑ i, p.2 i ^ 2) * p.1).sum
      / (ranks.flatten.map Prod.fst).sum := by
  unfold meanKe
  have : (ranks.map localKe).foldl (fun s p => (s.1 + p.1, s.2 + p.2)) (0, 0)
      = ((ranks.flatten.map Prod.fst).sum, (ranks.flatten.map fun p => 1 / 2 * (∑ i, p.2 i ^ 2) * p.1).sum) := by
    induction ranks using List.reverseRecOn with
    | nil => rfl
    | append_singleton l p ih =>
      rw [List.map_append, List.foldl_append, ih]
      simp only [List.map_cons, List.map_nil, List.foldl_cons, List.foldl_nil, localKe_eq,
        List.flatten_append, List.flatten_singleton, List.map_append, List.sum_append]
  rw [this]

theorem wsum_nonneg {ι : Type*} (l : List ι) (v f : ι → ℝ) (hv : ∀ p ∈ l, 0 < v p) (hf : ∀ p ∈ l, 0 ≤ f p) :
    0 ≤ (l.map fun p => f p * v p).sum :=
  List.sum_nonneg fun x hx => by
    obtain ⟨p, hp, rfl⟩ := List.mem_map.1 hx
    exact mul_nonneg (hf p hp) (hv p hp).le

theorem vsum_pos {ι : Type*} (l : List ι) (v : ι → ℝ) (hne : l ≠ []) (hv : ∀ p ∈ l, 0 < v p) :
    0 < (l.map v).sum := by
  cases l with
  | nil => exact absurd rfl hne
  | cons p l =>
    rw [List.map_cons, List.sum_cons]
    have : 0 ≤ (l.map v).sum := List.sum_nonneg fun x hx => by
      obtain ⟨q, hq, rfl⟩ := List.mem_map.1 hx
      exact (hv q (List.mem_cons_of_mem _ hq)).le
    linarith [hv p List.mem_cons_self]

/-- A weighted mean lies between any bounds of its values. -/
theorem wmean_bounds {ι : Type*} (l : List ι) (v f : ι → ℝ) (hne : l ≠ []) (hv : ∀ p ∈ l, 0 < v p)
    (lo hi : ℝ) (hf : ∀ p ∈ l, lo ≤ f p ∧ f p ≤ hi) :
    lo ≤ (l.map fun p => f p * v p).sum / (l.map v).sum ∧
      (l.map fun p => f p * v p).sum / (l.map v).sum ≤ hi := by
  have hpos := vsum_pos l v hne hv
  have h1 : lo * (l.map v).sum ≤ (l.map fun p => f p * v p).sum := by
    rw [← List.sum_map_mul_left]
    exact List.sum_le_sum fun p hp => mul_le_mul_of_nonneg_right (hf p hp).1 (hv p hp).le
  have h2 : (l.map fun p => f p * v p).sum ≤ hi * (l.map v).sum := by
    rw [← List.sum_map_mul_left]
    exact List.sum_le_sum fun p hp => mul_le_mul_of_nonneg_right (hf p hp).2 (hv p hp).le
  exact ⟨(le_div_iff₀ hpos).2 h1, (div_le_iff₀ hpos).2 h2⟩

/-- **C283** The printed mean resolved kinetic energy is the volume-weighted mean of half the squared speed
over the selected nodes: it does not depend on how the nodes are distributed over the ranks or ordered,
it lies between the smallest and the largest nodal kinetic energy and is nonnegative. -/
theorem c283_mean_ke {n : ℕ} (ranks : List (List (ℝ × (Fin n → ℝ))))
    (hne : ranks.flatten ≠ []) (hv : ∀ p ∈ ranks.flatten, 0 < p.1) :
    meanKe ranks = (ranks.flatten.map fun p => p.1 * (1 / 2 * ∑ i, p.2 i ^ 2)).sum
      / (ranks.flatten.map Prod.fst).sum ∧
    (∀ ranks', ranks'.flatten.Perm ranks.flatten → meanKe ranks' = meanKe ranks) ∧
    (∀ lo hi, (∀ p ∈ ranks.flatten, lo ≤ 1 / 2 * ∑ i, p.2 i ^ 2 ∧ 1 / 2 * ∑ i, p.2 i ^ 2 ≤ hi) →
      lo ≤ meanKe ranks ∧ meanKe ranks ≤ hi) ∧
    0 ≤ meanKe ranks := by
  refine ⟨?_, fun ranks' h => ?_, fun lo hi h => ?_, ?_⟩
  · rw [meanKe_eq]; simp only [mul_comm]
  · rw [meanKe_eq, meanKe_eq, (h.map _).sum_eq, (h.map Prod.fst).sum_eq]
  · rw [meanKe_eq]; exact wmean_bounds _ _ _ hne hv lo hi h
  · rw [meanKe_eq]
    exact div_nonneg (wsum_nonneg _ _ _ hv fun p _ => by positivity) (vsum_pos _ _ hne hv).le

/-- The hypotheses are met by two ranks with three nodes; the mean is exact. -/
theorem c283_example :
    meanKe [[((1 : ℝ), ![1, 0]), (2, ![0, 2])], [(1, ![1, 1])]] = (1 / 2 * 1 + 2 * 2 + 1 * 1) / 4 := by
  rw [meanKe_eq]; norm_num [Fin.sum_univ_two]

/-! ## C284–C285: dissipation rate -/

/-- Specification: an element with admissible geometry and properties — it has an integration point, its
sub-control volumes are positive, its interpolation weights nonnegative with sum one, the derivatives of
the shape functions sum to zero, and density is positive. -/
structure El.Good {n : ℕ} (e : El n) : Prop where
  ip_pos : 0 < e.numIp
  scv_pos : ∀ q, 0 < e.scv q
  shp_nonneg : ∀ q ic, 0 ≤ e.shp q ic
  shp_sum : ∀ q, ∑ ic, e.shp q ic = 1
  dndx_sum : ∀ q j, ∑ ic, e.dndx q ic j = 0
  rho_pos : ∀ ic, 0 < e.rho ic

theorem El.Good.vol_pos {n : ℕ} {e : El n} (h : e.Good) : 0 < e.vol :=
  Finset.sum_pos (fun q _ => h.scv_pos q) ⟨⟨0, h.ip_pos⟩, Finset.mem_univ _⟩

theorem El.ip_nonneg {n : ℕ} {e : El n} (h : e.Good) (q) (f : Fin e.npe → ℝ) (hf : ∀ ic, 0 ≤ f ic) :
    0 ≤ e.ip q f := Finset.sum_nonneg fun ic _ => mul_nonneg (h.shp_nonneg q ic) (hf ic)

theorem El.ip_pos' {n : ℕ} {e : El n} (h : e.Good) (q) (f : Fin e.npe → ℝ) (hf : ∀ ic, 0 < f ic) :
    0 < e.ip q f := by
  refine lt_of_le_of_ne (El.ip_nonneg h q f fun ic => (hf ic).le) fun h0 => ?_
  have hz : ∀ ic ∈ Finset.univ, e.shp q ic * f ic = 0 :=
    (Finset.sum_eq_zero_iff_of_nonneg fun ic _ => mul_nonneg (h.shp_nonneg q ic) (hf ic).le).1 h0.symm
  have : ∑ ic, e.shp q ic = 0 := Finset.sum_eq_zero fun ic hic =>
    (mul_eq_zero.1 (hz ic hic)).resolve_right (hf ic).ne'
  rw [h.shp_sum q] at this
  exact one_ne_zero this

/-- Specification: twice the dynamic viscosity times the square of the (for Favre averages trace-reduced)
strain rate of the fluctuation. -/
noncomputable def strainSq {n : ℕ} (g : Fin n → Fin n → ℝ) : ℝ := ∑ i, ∑ j, ((g i j + g j i) / 2) ^ 2

theorem tauDu_eq {n : ℕ} (fav : Bool) (mu : ℝ) (g : Fin n → Fin n → ℝ) :
    tauDu fav mu g = 2 * mu * (strainSq g - (if fav then 1 / 3 else 0) * (∑ i, g i i) ^ 2) := by
  unfold tauDu strainSq
  set d := ∑ i, g i i with hd
  have hsym : ∑ i, ∑ j, (g i j + g j i) * g i j = ∑ i, ∑ j, (g i j + g j i) * g j i := by
    rw [Finset.sum_comm]
    exact Finset.sum_congr rfl fun i _ => Finset.sum_congr rfl fun j _ => by ring
  have hs : ∑ i, ∑ j, ((g i j + g j i) / 2) ^ 2 = ∑ i, ∑ j, 1 / 2 * (g i j + g j i) * g i j := by
    have h1 : ∑ i, ∑ j, ((g i j + g j i) / 2) ^ 2
        = 1 / 4 * (∑ i, ∑ j, (g i j + g j i) * g i j + ∑ i, ∑ j, (g i j + g j i) * g j i) := by
      rw [← Finset.sum_add_distrib, Finset.mul_sum]
      refine Finset.sum_congr rfl fun i _ => ?_
      rw [← Finset.sum_add_distrib, Finset.mul_sum]
      exact Finset.sum_congr rfl fun j _ => by ring
    rw [h1, ← hsym]
    have h2 : ∑ i, ∑ j, 1 / 2 * (g i j + g j i) * g i j = 1 / 2 * ∑ i, ∑ j, (g i j + g j i) * g i j := by
      simp only [Finset.mul_sum, mul_assoc]
    rw [h2]; ring
  rw [hs]
  set c : ℝ := if fav = true then 1 else 0 with hc
  have hc3 : (if fav = true then (1 / 3 : ℝ) else 0) = 1 / 3 * c := by rw [hc]; split_ifs <;> norm_num
  rw [hc3]
  have hd2 : ∑ i, ∑ j, (if i = j then (1 : ℝ) else 0) * g i j = d := by
    rw [hd]
    exact Finset.sum_congr rfl fun i _ => by simp
  calc _ = ∑ i, ∑ j, (2 * mu * (1 / 2 * (g i j + g j i) * g i j)
        - 2 * mu * (1 / 3 * d * c) * ((if i = j then (1 : ℝ) else 0) * g i j)) := by
        refine Finset.sum_congr rfl fun i _ => Finset.sum_congr rfl fun j _ => by ring
    _ = 2 * mu * (∑ i, ∑ j, 1 / 2 * (g i j + g j i) * g i j)
        - 2 * mu * (1 / 3 * d * c) * ∑ i, ∑ j, (if i = j then (1 : ℝ) else 0) * g i j := by
        simp only [Finset.sum_sub_distrib, Finset.mul_sum]
    _ = _ := by rw [hd2]; ring

theorem div_sq_le {n : ℕ} (g : Fin n → Fin n → ℝ) : (∑ i, g i i) ^ 2 ≤ n * strainSq g := by
  have h1 : (∑ i, g i i) ^ 2 ≤ n * ∑ i, g i i ^ 2 := by
    have := sq_sum_le_card_mul_sum_sq (s := (Finset.univ : Finset (Fin n))) (f := fun i => g i i)
    simpa using this
  refine h1.trans (mul_le_mul_of_nonneg_left ?_ (Nat.cast_nonneg n))
  unfold strainSq
  refine Finset.sum_le_sum fun i _ => ?_
  have := Finset.single_le_sum (f := fun j => ((g i j + g j i) / 2) ^ 2) (fun j _ => sq_nonneg _)
    (Finset.mem_univ i)
  refine le_trans (le_of_eq ?_) this
  ring

theorem strainSq_nonneg {n : ℕ} (g : Fin n → Fin n → ℝ) : 0 ≤ strainSq g :=
  Finset.sum_nonneg fun _ _ => Finset.sum_nonneg fun _ _ => sq_nonneg _

theorem tauDu_nonneg {n : ℕ} (hn : n ≤ 3) (fav : Bool) (mu : ℝ) (hmu : 0 ≤ mu) (g : Fin n → Fin n → ℝ) :
    0 ≤ tauDu fav mu g := by
  rw [tauDu_eq]
  have h1 := div_sq_le g
  have h2 : (n : ℝ) * strainSq g ≤ 3 * strainSq g :=
    mul_le_mul_of_nonneg_right (by exact_mod_cast hn) (strainSq_nonneg g)
  have h3 := strainSq_nonneg g
  refine mul_nonneg (by positivity) ?_
  split_ifs <;> linarith

theorem elemDissipation_nonneg {n : ℕ} (hn : n ≤ 3) (fav : Bool) (e : El n) (h : e.Good)
    (hmu : ∀ ic, 0 ≤ e.mu ic) : 0 ≤ elemDissipation fav e := by
  refine div_nonneg (Finset.sum_nonneg fun q _ => div_nonneg (mul_nonneg (h.scv_pos q).le
    (tauDu_nonneg hn fav _ (El.ip_nonneg h q _ hmu) _)) (El.ip_nonneg h q _ fun ic => (h.rho_pos ic).le))
    h.vol_pos.le

/-- **C284** (integration-point value) The dissipation of the fluctuation is twice the viscosity times the
squared strain rate — minus, for Favre averages, a third of the squared divergence — it is nonnegative in
up to three dimensions, and it vanishes for a rigid motion. -/
theorem c284_dissipation_pointwise {n : ℕ} (fav : Bool) (mu : ℝ) (g : Fin n → Fin n → ℝ) :
    tauDu fav mu g = 2 * mu * (strainSq g - (if fav then 1 / 3 else 0) * (∑ i, g i i) ^ 2) ∧
    (n ≤ 3 → 0 ≤ mu → 0 ≤ tauDu fav mu g) ∧
    ((∀ i j, g i j = -g j i) → tauDu fav mu g = 0) := by
  refine ⟨tauDu_eq fav mu g, fun hn hmu => tauDu_nonneg hn fav mu hmu g, fun h => ?_⟩
  rw [tauDu_eq]
  have hd : ∑ i, g i i = 0 := Finset.sum_eq_zero fun i _ => by linarith [h i i]
  have hs : strainSq g = 0 := Finset.sum_eq_zero fun i _ => Finset.sum_eq_zero fun j _ => by
    rw [h i j]; ring
  rw [hd, hs]; ring

/-- Specification: the history of one element, one entry per call of `execute`: filter weights and the
element's data. -/
noncomputable def dissipationRun {n : ℕ} (fav : Bool) (h : List (Weights ℝ × El n)) : ℝ :=
  h.foldl (fun r p => dissipationPass fav p.1 r p.2) 0

theorem dissipationRun_nonneg {n : ℕ} (hn : n ≤ 3) (fav : Bool) (h : List (Weights ℝ × El n))
    (hw : ∀ p ∈ h, 0 ≤ p.1.zero ∧ 0 ≤ p.1.dt ∧ 0 < p.1.cur)
    (he : ∀ p ∈ h, p.2.Good ∧ ∀ ic, 0 ≤ p.2.mu ic) : 0 ≤ dissipationRun fav h := by
  unfold dissipationRun
  induction h using List.reverseRecOn with
  | nil => exact le_rfl
  | append_singleton l p ih =>
    rw [List.foldl_append]
    simp only [List.foldl_cons, List.foldl_nil]
    have ih' := ih (fun p hp => hw p (List.mem_append_left _ hp)) fun p hp => he p (List.mem_append_left _ hp)
    obtain ⟨h1, h2, h3⟩ := hw p (by simp)
    obtain ⟨g1, g2⟩ := he p (by simp)
    unfold dissipationPass
    split_ifs with hold
    · exact div_nonneg (add_nonneg (mul_nonneg (mul_nonneg ih' hold.le) h1)
        (mul_nonneg (elemDissipation_nonneg hn fav p.2 g1 g2) h2)) h3.le
    · exact ih'

theorem project_eq (els : List (ℝ × ℝ)) :
    project els = (els.map fun p => p.2 * p.1).sum / (els.map Prod.fst).sum := by
  unfold project
  have h1 : ∀ (l : List (ℝ × ℝ)) (f : ℝ × ℝ → ℝ) (a : ℝ), l.foldl (fun s p => s + f p) a = a + (l.map f).sum := by
    intro l f
    induction l with
    | nil => intro a; simp
    | cons p l ih => intro a; rw [List.foldl_cons, ih, List.map_cons, List.sum_cons]; ring
  rw [h1 els (fun p => p.2 * p.1), h1 els Prod.fst, zero_add, zero_add]

/-- **C284** For every history of calls, every admissible mesh and nonnegative viscosity, the element
dissipation rate is nonnegative in two and three dimensions, and the nodal projection lies between the
smallest and the largest value of the elements around the node — so it is nonnegative as well. -/
theorem c284_dissipation_nonneg {n : ℕ} (hn : n ≤ 3) (fav : Bool)
    (around : List (ℝ × List (Weights ℝ × El n))) (hne : around ≠ []) (hvol : ∀ a ∈ around, 0 < a.1)
    (hw : ∀ a ∈ around, ∀ p ∈ a.2, 0 ≤ p.1.zero ∧ 0 ≤ p.1.dt ∧ 0 < p.1.cur)
    (he : ∀ a ∈ around, ∀ p ∈ a.2, p.2.Good ∧ ∀ ic, 0 ≤ p.2.mu ic) :
    (∀ a ∈ around, 0 ≤ dissipationRun fav a.2) ∧
    (∀ lo hi, (∀ a ∈ around, lo ≤ dissipationRun fav a.2 ∧ dissipationRun fav a.2 ≤ hi) →
      lo ≤ project (around.map fun a => (a.1, dissipationRun fav a.2)) ∧
      project (around.map fun a => (a.1, dissipationRun fav a.2)) ≤ hi) ∧
    0 ≤ project (around.map fun a => (a.1, dissipationRun fav a.2)) := by
  have h0 : ∀ a ∈ around, 0 ≤ dissipationRun fav a.2 := fun a ha =>
    dissipationRun_nonneg hn fav a.2 (hw a ha) (he a ha)
  refine ⟨h0, fun lo hi hb => ?_, ?_⟩
  · rw [project_eq, List.map_map, List.map_map]
    exact wmean_bounds around (fun a => a.1) (fun a => dissipationRun fav a.2) hne hvol lo hi hb
  · rw [project_eq, List.map_map, List.map_map]
    exact div_nonneg (wsum_nonneg around (fun a => a.1) (fun a => dissipationRun fav a.2) hvol h0)
      (vsum_pos around (fun a => a.1) hne hvol).le

/-- Specification: the filter clock of a fresh classic run whose window is never full: the k-th call has
`old` = time elapsed before it and `cur` = time elapsed after it. -/
def clock : ℝ → List ℝ → List (Weights ℝ)
  | _, [] => []
  | t, dt :: dts => ⟨t, 1, t + dt, dt⟩ :: clock (t + dt) dts

theorem clock_zip {n : ℕ} (fav : Bool) (dts : List ℝ) (es : List (El n)) (hl : dts.length = es.length)
    (hdt : ∀ d ∈ dts, 0 < d) (t : ℝ) (ht : 0 < t) (r : ℝ) :
    ((clock t dts).zip es).foldl (fun r p => dissipationPass fav p.1 r p.2) r * (t + dts.sum)
      = r * t + (List.zipWith (fun d e => d * elemDissipation fav e) dts es).sum := by
  induction dts generalizing t r es with
  | nil => simp [clock]
  | cons d dts ih =>
    cases es with
    | nil => simp at hl
    | cons e es =>
      have hd := hdt d List.mem_cons_self
      have htd : 0 < t + d := by linarith
      simp only [clock, List.zip_cons_cons, List.foldl_cons, List.sum_cons, List.zipWith_cons_cons]
      have := ih es (by simpa using hl) (fun x hx => hdt x (List.mem_cons_of_mem _ hx)) (t + d) htd
        (dissipationPass fav ⟨t, 1, t + d, d⟩ r e)
      rw [← add_assoc, this]
      unfold dissipationPass
      simp only [if_pos ht]
      field_simp
      ring

/-- **C285** (finding) On a fresh run the element dissipation rate times the averaging time is the time
integral of the samples *from the second call on*: the first call is skipped but its step counts in the
averaging time, so the reported mean is too small by the missing first sample (for a steady rate, by the
factor one minus first step over averaging time). -/
theorem c285_dissipation_mean_partial {n : ℕ} (fav : Bool) (d0 : ℝ) (dts : List ℝ) (e0 : El n) (es : List (El n))
    (hl : dts.length = es.length) (h0 : 0 < d0) (hdt : ∀ d ∈ dts, 0 < d) :
    dissipationRun fav ((clock 0 (d0 :: dts)).zip (e0 :: es)) =
      (List.zipWith (fun d e => d * elemDissipation fav e) dts es).sum / (d0 + dts.sum) := by
  have hs : 0 ≤ dts.sum := List.sum_nonneg fun d hd => (hdt d hd).le
  have hpos : d0 + dts.sum ≠ 0 := by linarith
  rw [eq_div_iff hpos]
  unfold dissipationRun
  simp only [clock, List.zip_cons_cons, List.foldl_cons, zero_add]
  have h1 : dissipationPass fav ⟨0, 1, d0, d0⟩ 0 e0 = 0 := by
    unfold dissipationPass; simp
  rw [h1, clock_zip fav dts es hl hdt d0 h0]
  ring

/-- **C285** (finding, wrong mean) For a steady dissipation rate the reported average differs from it after
every number of calls. -/
theorem c285_dissipation_mean_wrong {n : ℕ} (fav : Bool) (dt : ℝ) (hdt : 0 < dt) (m : ℕ) (e : El n)
    (he : elemDissipation fav e ≠ 0) :
    dissipationRun fav ((clock 0 (List.replicate (m + 1) dt)).zip (List.replicate (m + 1) e)) =
      m / (m + 1) * elemDissipation fav e ∧
    dissipationRun fav ((clock 0 (List.replicate (m + 1) dt)).zip (List.replicate (m + 1) e))
      ≠ elemDissipation fav e := by
  have h : dissipationRun fav ((clock 0 (List.replicate (m + 1) dt)).zip (List.replicate (m + 1) e)) =
      m / (m + 1) * elemDissipation fav e := by
    rw [List.replicate_succ, List.replicate_succ, c285_dissipation_mean_partial fav dt _ e _ (by simp) hdt
      (by intro d hd; rw [List.eq_of_mem_replicate hd]; exact hdt)]
    simp only [List.zipWith_replicate, List.sum_replicate, min_self, nsmul_eq_mul]
    have : (m : ℝ) + 1 ≠ 0 := by positivity
    have h2 : dt + m * dt ≠ 0 := by positivity
    field_simp
    ring
  refine ⟨h, ?_⟩
  rw [h]
  intro h1
  have hm : (m : ℝ) + 1 ≠ 0 := by positivity
  have : (m : ℝ) / (m + 1) = 1 := mul_right_cancel₀ he (by rw [h1, one_mul])
  rw [div_eq_one_iff_eq hm] at this
  linarith

/-! ## C286: production -/

/-- Specification: packed storage of a symmetric tensor in the order written by the stress averages. -/
noncomputable def pack (n : ℕ) (R : ℕ → ℕ → ℝ) : List ℝ := (packedPairs n).map fun p => R p.1 p.2

theorem stressMap_pack (n : ℕ) (hn : n = 2 ∨ n = 3) (R : ℕ → ℕ → ℝ) (hR : ∀ i j, R i j = R j i)
    (i j : Fin n) : (pack n R).getD (stressMap n i j) 0 = R i j := by
  rcases hn with rfl | rfl
  · have : pack 2 R = [R 0 0, R 0 1, R 1 1] := by
      unfold pack packedPairs; simp [List.range, List.range.loop, List.range']
    rw [this]
    fin_cases i <;> fin_cases j <;> simp [stressMap, hR 1 0]
  · have : pack 3 R = [R 0 0, R 0 1, R 0 2, R 1 1, R 1 2, R 2 2] := by
      unfold pack packedPairs; simp [List.range, List.range.loop, List.range']
    rw [this]
    fin_cases i <;> fin_cases j <;> simp [stressMap, hR 1 0, hR 2 0, hR 2 1]

/-- **C286** In two and three dimensions, with every node storing a symmetric stress in the packed order
of the averages, the production at an integration point is minus the interpolated mean density times the
full contraction of the stress of the nearest node with the mean-velocity gradient; the nodal value is the
volume integral over the surrounding elements divided by their volume. -/
theorem c286_production {n : ℕ} (hn : n = 2 ∨ n = 3) (els : List (El n)) (R : (e : El n) → Fin e.npe → ℕ → ℕ → ℝ)
    (hR : ∀ e ∈ els, ∀ ic i j, R e ic i j = R e ic j i)
    (hst : ∀ e ∈ els, ∀ ic, e.stress ic = pack n (R e ic)) :
    nodeProduction els =
      (els.map fun e => ∑ q, e.scv q * (-(e.ip q e.rho) *
        ∑ i : Fin n, ∑ j : Fin n, R e (e.ipNode q) i j * e.grad q e.um i j)).sum
      / (els.map fun e => ∑ q, e.scv q).sum := by
  unfold nodeProduction
  have h1 : ∀ (l : List (ℝ × ℝ)) (f : ℝ × ℝ → ℝ) (a : ℝ), l.foldl (fun s p => s + f p) a = a + (l.map f).sum := by
    intro l f
    induction l with
    | nil => intro a; simp
    | cons p l ih => intro a; rw [List.foldl_cons, ih, List.map_cons, List.sum_cons]; ring
  rw [h1 _ Prod.snd, h1 _ Prod.fst, List.map_map, List.map_map, zero_add, zero_add]
  congr 1
  refine congrArg List.sum (List.map_congr_left fun e he => ?_)
  simp only [Function.comp, elemProduction]
  refine Finset.sum_congr rfl fun q _ => ?_
  unfold prodIp
  rw [hst e he]
  simp only [stressMap_pack n hn (R e (e.ipNode q)) (hR e he (e.ipNode q))]
  ring

/-- **C286** Production is computed from Favre averages exactly when velocity is Favre-averaged, otherwise
from Reynolds averages, and is refused exactly when the stress it needs is not being averaged. -/
theorem c286_source (fields : List String) (ra fa : Bool) :
    (prodSource fields ra fa = .favre ↔ "velocity" ∈ fields ∧ fa = true) ∧
    (prodSource fields ra fa = .reynolds ↔ "velocity" ∉ fields ∧ ra = true) ∧
    (prodSource fields ra fa = .refused ↔ (if "velocity" ∈ fields then fa else ra) = false) := by
  unfold prodSource
  cases ra <;> cases fa <;> by_cases h : "velocity" ∈ fields <;> simp [h]

/-- A linear triangle with the sub-control volumes of the code's Tri3 volume element; witness for the
hypotheses of this file. -/
noncomputable def tri (u um : Fin 3 → Fin 2 → ℝ) : El 2 where
  numIp := 3
  npe := 3
  shp q ic := if q = ic then 7 / 12 else 5 / 24
  dndx _ ic j := (![![-1, -1], ![1, 0], ![0, 1]] : Fin 3 → Fin 2 → ℝ) ic j
  scv _ := 1 / 6
  ipNode q := q
  rho _ := 1
  mu _ := 1
  u := u
  um := um
  stress _ := [1, 2, 3]
  k _ := 1
  dualVol _ := 1 / 6

theorem tri_good (u um : Fin 3 → Fin 2 → ℝ) : (tri u um).Good where
  ip_pos := by show 0 < 3; norm_num
  scv_pos q := by show (0 : ℝ) < 1 / 6; norm_num
  shp_nonneg q ic := by dsimp only [tri]; split_ifs <;> norm_num
  shp_sum q := by
    change Fin 3 at q
    show ∑ ic : Fin 3, (if q = ic then (7 / 12 : ℝ) else 5 / 24) = 1
    fin_cases q <;> rw [Fin.sum_univ_three] <;> simp <;> norm_num
  dndx_sum q j := by
    show ∑ ic : Fin 3, (![![-1, -1], ![1, 0], ![0, 1]] : Fin 3 → Fin 2 → ℝ) ic j = 0
    rw [Fin.sum_univ_three]
    fin_cases j <;> simp
  rho_pos _ := by show (0 : ℝ) < 1; norm_num

/-- The hypotheses of C284–C286 are met and the quantities are not trivial: pure strain of the fluctuation
dissipates, and the mean shear produces. -/
theorem c284_example :
    (tri (fun _ _ => 0) ![![0, 0], ![1, 0], ![0, -1]]).Good ∧
    elemDissipation true (tri (fun _ _ => 0) ![![0, 0], ![1, 0], ![0, -1]]) = 4 ∧
    nodeProduction [tri (fun _ _ => 0) ![![0, 0], ![0, 0], ![1, 0]]] = -2 := by
  refine ⟨tri_good _ _, ?_, ?_⟩
  · unfold elemDissipation
    simp only [tauDu_eq]
    dsimp only [tri, El.vol, El.ip, El.grad, strainSq]
    simp only [Fin.sum_univ_three, Fin.sum_univ_two]
    simp
    norm_num
    erw [Fin.sum_univ_three]
    simp
    norm_num
  · unfold nodeProduction elemProduction
    simp only [List.map_cons, List.map_nil, List.foldl_cons, List.foldl_nil, prodIp]
    dsimp only [tri, El.vol, El.ip, El.grad, stressMap]
    simp only [Fin.sum_univ_three, Fin.sum_univ_two]
    simp
    norm_num
    erw [Fin.sum_univ_three]
    simp
    norm_num

end Nalu.TurbPost
