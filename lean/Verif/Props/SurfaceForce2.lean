import Verif.Props.SurfaceForce

/-!
# Nodal wall shear stress and y+; the driver (C109 nodal sum, C110)
-/

set_option linter.unusedSectionVars false

namespace Nalu.Force
open Nalu.Wall Nalu.Kernel

variable {M : Type*} {nd : ℕ}

/-! ## Specification of the nodal fields -/

/-- All points with the kind of the algorithm that visits them, as often as they are visited. -/
def tagged (algs : List (Kind × List (Contribution M nd))) : List (Kind × Contribution M nd) :=
  algs.flatMap fun a => a.2.map fun c => (a.1, c)

/-- Those at a node. -/
def visits [DecidableEq M] (algs : List (Kind × List (Contribution M nd))) (m : M) : List (Kind × Contribution M nd) :=
  (tagged algs).filter fun t => t.2.node = m

/-- Area around a node seen by algorithms of a kind. -/
def wallArea [DecidableEq M] (algs : List (Kind × List (Contribution M nd))) (k : Kind) (m : M) : ℝ :=
  (((visits algs m).filter fun t => t.1 = k).map fun t => t.2.aMag).sum

/-! ## Closed form -/

theorem foldl_tagged {S : Type*} (g : Kind → S → Contribution M nd → S) (algs : List (Kind × List (Contribution M nd))) (s : S) :
    algs.foldl (fun s a => a.2.foldl (g a.1) s) s = (tagged algs).foldl (fun s t => g t.1 s t.2) s := by
  induction algs generalizing s with
  | nil => rfl
  | cons a l ih =>
    simp only [List.foldl_cons, tagged, List.flatMap_cons, List.foldl_append, List.foldl_map]
    exact ih _

variable [DecidableEq M]

theorem areas_fold (l : List (Kind × Contribution M nd)) (s : Nodal M nd) :
    let r := l.foldl (fun s t => s.addArea t.1 t.2) s
    (∀ k m, r.area k m = s.area k m + (((l.filter fun t => t.2.node = m).filter fun t => t.1 = k).map fun t => t.2.aMag).sum) ∧
      r.pForce = s.pForce ∧ r.tau = s.tau ∧ r.yplus = s.yplus := by
  induction l generalizing s with
  | nil => simp
  | cons t l ih =>
    obtain ⟨h1, h2, h3, h4⟩ := ih (s.addArea t.1 t.2)
    refine ⟨fun k m => ?_, h2, h3, h4⟩
    simp only [List.foldl_cons, h1]
    by_cases hm : t.2.node = m
    · by_cases hk : t.1 = k
      · simp [Nodal.addArea, hm, hk, add_assoc]
      · have hk' : ¬ k = t.1 := fun h => hk h.symm
        simp [Nodal.addArea, hm, hk, hk']
    · have hm' : ¬ m = t.2.node := fun h => hm h.symm
      simp [Nodal.addArea, hm, hm']

theorem points_fold (l : List (Kind × Contribution M nd)) (s : Nodal M nd) :
    let r := l.foldl (fun s t => s.addPoint t.1 t.2) s
    r.area = s.area ∧
    (∀ m i, r.pForce m i = s.pForce m i + ((l.filter fun t => t.2.node = m).map fun t => t.2.pF i).sum) ∧
    (∀ m, r.tau m = s.tau m + ((l.filter fun t => t.2.node = m).map fun t => t.2.tauA / s.area t.1 m).sum) ∧
    (∀ m, r.yplus m = s.yplus m +
      ((l.filter fun t => t.2.node = m).map fun t => t.2.yplus * t.2.aMag / s.area t.1 m).sum) := by
  induction l generalizing s with
  | nil => simp
  | cons t l ih =>
    obtain ⟨h1, h2, h3, h4⟩ := ih (s.addPoint t.1 t.2)
    refine ⟨h1, fun m i => ?_, fun m => ?_, fun m => ?_⟩
    · simp only [List.foldl_cons, h2]
      by_cases hm : t.2.node = m
      · simp [Nodal.addPoint, hm, add_assoc]
      · have hm' : ¬ m = t.2.node := fun h => hm h.symm
        simp [Nodal.addPoint, hm, hm']
    · simp only [List.foldl_cons, h3]
      by_cases hm : t.2.node = m
      · simp [Nodal.addPoint, hm, add_assoc]
      · have hm' : ¬ m = t.2.node := fun h => hm h.symm
        simp [Nodal.addPoint, hm, hm']
    · simp only [List.foldl_cons, h4]
      by_cases hm : t.2.node = m
      · simp [Nodal.addPoint, hm, add_assoc]
      · have hm' : ¬ m = t.2.node := fun h => hm h.symm
        simp [Nodal.addPoint, hm, hm']

/-- **C110** The nodal fields after an active step: sums over the visits to the node, shear stress and `y+` divided by the area of the
visiting kind. -/
theorem c110_nodal_fields (step freq : ℕ) (algs : List (Kind × List (Contribution M nd))) (s : Nodal M nd)
    (h : step % freq = 0) (m : M) :
    (∀ i, (drive step freq algs s).pForce m i = ((visits algs m).map fun t => t.2.pF i).sum) ∧
    (drive step freq algs s).tau m = ((visits algs m).map fun t => t.2.tauA / wallArea algs t.1 m).sum ∧
    (drive step freq algs s).yplus m = ((visits algs m).map fun t => t.2.yplus * t.2.aMag / wallArea algs t.1 m).sum := by
  simp only [drive, h, if_true]
  rw [foldl_tagged (fun k s c => Nodal.addArea k s c), foldl_tagged (fun k s c => Nodal.addPoint k s c)]
  obtain ⟨a1, a2, a3, a4⟩ := areas_fold (tagged algs) s.zero
  obtain ⟨-, p2, p3, p4⟩ := points_fold (tagged algs) ((tagged algs).foldl (fun s t => s.addArea t.1 t.2) s.zero)
  refine ⟨fun i => ?_, ?_, ?_⟩
  · rw [p2, a2]; simp [Nodal.zero, visits]
  · rw [p3, a3]; simp only [a1]; simp [Nodal.zero, visits, wallArea]
  · rw [p4, a4]; simp only [a1]; simp [Nodal.zero, visits, wallArea]

/-- **C110** On other steps the fields keep the values of the last active step; on an active step they do not depend on what was there
before. -/
theorem c110_driver (step freq : ℕ) (algs : List (Kind × List (Contribution M nd))) (s s' : Nodal M nd) :
    (step % freq ≠ 0 → drive step freq algs s = s) ∧ (step % freq = 0 → drive step freq algs s = drive step freq algs s') := by
  refine ⟨fun h => by simp [drive, h], fun h => ?_⟩
  simp only [drive, h, if_true, Nodal.zero]

/-! ## Averages -/

theorem div_sum (l : List (Kind × Contribution M nd)) (g : Kind × Contribution M nd → ℝ) (A : ℝ) :
    (l.map fun t => g t / A).sum = (l.map g).sum / A := by
  induction l with
  | nil => simp
  | cons a l ih => simp only [List.map_cons, List.sum_cons, ih, add_div]

theorem sum_between (l : List (Kind × Contribution M nd)) (g w : Kind × Contribution M nd → ℝ) (lo hi : ℝ)
    (h : ∀ t ∈ l, lo * w t ≤ g t ∧ g t ≤ hi * w t) :
    lo * (l.map w).sum ≤ (l.map g).sum ∧ (l.map g).sum ≤ hi * (l.map w).sum := by
  induction l with
  | nil => simp
  | cons a l ih =>
    obtain ⟨i1, i2⟩ := ih fun t ht => h t (List.mem_cons_of_mem _ ht)
    obtain ⟨j1, j2⟩ := h a (List.mem_cons_self ..)
    simp only [List.map_cons, List.sum_cons, mul_add]
    exact ⟨by linarith, by linarith⟩

theorem sum_area_pos (l : List (Kind × Contribution M nd)) (hne : l ≠ []) (hA : ∀ t ∈ l, 0 < t.2.aMag) :
    0 < (l.map fun t => t.2.aMag).sum :=
  List.sum_pos _ (fun y hy => by obtain ⟨t, ht, rfl⟩ := List.mem_map.mp hy; exact hA t ht) (by simpa using hne)

/-- **C110** At a node visited by algorithms of one kind, wall shear stress and `y+` are area-weighted averages: between the least and
the largest value of the points there. -/
theorem c110_average (step freq : ℕ) (algs : List (Kind × List (Contribution M nd))) (s : Nodal M nd)
    (h : step % freq = 0) (m : M) (k : Kind) (hne : visits algs m ≠ []) (hk : ∀ t ∈ visits algs m, t.1 = k)
    (hA : ∀ t ∈ visits algs m, 0 < t.2.aMag) :
    (∀ lo hi, (∀ t ∈ visits algs m, lo * t.2.aMag ≤ t.2.tauA ∧ t.2.tauA ≤ hi * t.2.aMag) →
      lo ≤ (drive step freq algs s).tau m ∧ (drive step freq algs s).tau m ≤ hi) ∧
    (∀ lo hi, (∀ t ∈ visits algs m, lo ≤ t.2.yplus ∧ t.2.yplus ≤ hi) →
      lo ≤ (drive step freq algs s).yplus m ∧ (drive step freq algs s).yplus m ≤ hi) := by
  obtain ⟨-, h2, h3⟩ := c110_nodal_fields step freq algs s h m
  have hW : wallArea algs k m = ((visits algs m).map fun t => t.2.aMag).sum := by
    unfold wallArea; rw [List.filter_eq_self.mpr fun t ht => by simpa using hk t ht]
  have hP := sum_area_pos _ hne hA
  constructor
  · intro lo hi hb
    have e : (drive step freq algs s).tau m = ((visits algs m).map fun t => t.2.tauA).sum / wallArea algs k m := by
      rw [h2, ← div_sum]
      exact congrArg List.sum (List.map_congr_left fun t ht => by rw [hk t ht])
    obtain ⟨b1, b2⟩ := sum_between (visits algs m) (fun t => t.2.tauA) (fun t => t.2.aMag) lo hi hb
    rw [e, hW, le_div_iff₀ hP, div_le_iff₀ hP]
    exact ⟨b1, b2⟩
  · intro lo hi hb
    have e : (drive step freq algs s).yplus m =
        ((visits algs m).map fun t => t.2.yplus * t.2.aMag).sum / wallArea algs k m := by
      rw [h3, ← div_sum]
      exact congrArg List.sum (List.map_congr_left fun t ht => by rw [hk t ht])
    obtain ⟨b1, b2⟩ := sum_between (visits algs m) (fun t => t.2.yplus * t.2.aMag) (fun t => t.2.aMag) lo hi fun t ht =>
      ⟨mul_le_mul_of_nonneg_right (hb t ht).1 (hA t ht).le, mul_le_mul_of_nonneg_right (hb t ht).2 (hA t ht).le⟩
    rw [e, hW, le_div_iff₀ hP, div_le_iff₀ hP]
    exact ⟨b1, b2⟩

theorem kind_split (l : List (Kind × Contribution M nd)) (k k' : Kind) (hkk : k ≠ k') (h : ∀ t ∈ l, t.1 = k ∨ t.1 = k')
    (g : Kind × Contribution M nd → ℝ) :
    (l.map g).sum = ((l.filter fun t => t.1 = k).map g).sum + ((l.filter fun t => t.1 = k').map g).sum := by
  induction l with
  | nil => simp
  | cons a l ih =>
    have := ih fun t ht => h t (List.mem_cons_of_mem _ ht)
    rcases h a (List.mem_cons_self ..) with ha | ha
    · have hn : ¬ a.1 = k' := fun e => hkk (ha.symm.trans e)
      simp only [List.map_cons, List.sum_cons, this, List.filter_cons]
      simp [ha, hkk]; ring
    · have hn : ¬ a.1 = k := fun e => hkk (e.symm.trans ha)
      simp only [List.map_cons, List.sum_cons, this, List.filter_cons]
      simp [ha, hkk.symm]; ring

/-- **C110** Where surfaces of two kinds meet, their averages are added, not averaged: a shear stress that is the same at all points is
reported twofold at the shared nodes. -/
theorem c110_mixed_kinds_add (step freq : ℕ) (algs : List (Kind × List (Contribution M nd))) (s : Nodal M nd)
    (h : step % freq = 0) (m : M) (k k' : Kind) (hkk : k ≠ k') (hk : ∀ t ∈ visits algs m, t.1 = k ∨ t.1 = k')
    (hA : ∀ t ∈ visits algs m, 0 < t.2.aMag) (h1 : ∃ t ∈ visits algs m, t.1 = k) (h2 : ∃ t ∈ visits algs m, t.1 = k')
    (tau : ℝ) (ht : ∀ t ∈ visits algs m, t.2.tauA = tau * t.2.aMag) :
    (drive step freq algs s).tau m = 2 * tau := by
  obtain ⟨-, e, -⟩ := c110_nodal_fields step freq algs s h m
  rw [e, kind_split _ k k' hkk hk]
  have one : ∀ q, (∃ t ∈ visits algs m, t.1 = q) → ((((visits algs m).filter fun t => t.1 = q).map
      fun t => t.2.tauA / wallArea algs t.1 m).sum) = tau := by
    rintro q ⟨t0, ht0, hq⟩
    have hP : 0 < wallArea algs q m := sum_area_pos _
      (List.ne_nil_of_mem (List.mem_filter.mpr ⟨ht0, by simpa using hq⟩)) fun t ht => hA t (List.mem_filter.mp ht).1
    have e1 : (((visits algs m).filter fun t => t.1 = q).map fun t => t.2.tauA / wallArea algs t.1 m) =
        ((visits algs m).filter fun t => t.1 = q).map fun t => tau * t.2.aMag / wallArea algs q m := by
      refine List.map_congr_left fun t hm => ?_
      obtain ⟨hm1, hm2⟩ := List.mem_filter.mp hm
      have hm2 : t.1 = q := by simpa using hm2
      rw [ht t hm1, hm2]
    rw [e1, div_sum, List.sum_map_mul_left]
    rw [show (((visits algs m).filter fun t => t.1 = q).map fun t => t.2.aMag).sum = wallArea algs q m from rfl]
    field_simp
  rw [one k h1, one k' h2]; ring

theorem tagged_append (a b : List (Kind × List (Contribution M nd))) : tagged (a ++ b) = tagged a ++ tagged b := by
  simp [tagged]

theorem visits_append (a b : List (Kind × List (Contribution M nd))) (m : M) : visits (a ++ b) m = visits a m ++ visits b m := by
  simp [visits, tagged_append]

/-- **C110** Listing the same surfaces twice leaves shear stress and `y+` as they are and doubles the nodal pressure force. -/
theorem c110_listed_twice (step freq : ℕ) (algs : List (Kind × List (Contribution M nd))) (s : Nodal M nd)
    (h : step % freq = 0) (m : M) :
    (drive step freq (algs ++ algs) s).tau m = (drive step freq algs s).tau m ∧
    (drive step freq (algs ++ algs) s).yplus m = (drive step freq algs s).yplus m ∧
    ∀ i, (drive step freq (algs ++ algs) s).pForce m i = 2 * (drive step freq algs s).pForce m i := by
  obtain ⟨e1, e2, e3⟩ := c110_nodal_fields step freq algs s h m
  obtain ⟨f1, f2, f3⟩ := c110_nodal_fields step freq (algs ++ algs) s h m
  have hW : ∀ k, wallArea (algs ++ algs) k m = 2 * wallArea algs k m := fun k => by
    simp only [wallArea, visits_append, List.filter_append, List.map_append, List.sum_append]; ring
  have half : ∀ (l : List (Kind × Contribution M nd)) (g : Kind × Contribution M nd → ℝ),
      ((l ++ l).map fun t => g t / (2 * wallArea algs t.1 m)).sum = (l.map fun t => g t / wallArea algs t.1 m).sum := by
    intro l g
    rw [List.map_append, List.sum_append, ← List.sum_map_add]
    refine congrArg List.sum (List.map_congr_left fun t _ => ?_)
    rw [mul_comm, ← div_div]; ring
  refine ⟨?_, ?_, fun i => ?_⟩
  · rw [e2, f2]; simp only [visits_append, hW]; exact half _ _
  · rw [e3, f3]; simp only [visits_append, hW]; exact half _ _
  · rw [e1, f1, visits_append, List.map_append, List.sum_append]; ring

/-- **C109** Nodal pressure forces add up to the reported pressure force. -/
theorem c109_nodal_sum [Fintype M] (step freq : ℕ) (algs : List (Kind × List (Contribution M nd))) (s : Nodal M nd)
    (h : step % freq = 0) (x : M → Fin nd → ℝ) (c : Fin 3 → ℝ) (i : Fin nd) (hi : i.val < 3) :
    ∑ m, (drive step freq algs s).pForce m i = (report x c (algs.map (·.2))).fP ⟨i.val, hi⟩ := by
  simp only [fun m => (c110_nodal_fields step freq algs s h m).1 i]
  rw [(c109_totals x c _).1]
  have e : (algs.map (·.2)).flatten = (tagged algs).map (·.2) := by
    simp only [tagged]
    induction algs with
    | nil => rfl
    | cons a l ih => simp [List.flatMap_cons, Function.comp_def] at ih ⊢; rw [ih]
  rw [e]
  simp only [visits, List.map_map]
  generalize tagged algs = l
  induction l with
  | nil => simp
  | cons t l ih =>
    simp only [List.map_cons, List.sum_cons, ← ih, Function.comp]
    have : ∀ m, (((t :: l).filter fun t => t.2.node = m).map fun t => t.2.pF i).sum =
        (if t.2.node = m then t.2.pF i else 0) + ((l.filter fun t => t.2.node = m).map fun t => t.2.pF i).sum := fun m => by
      rw [List.filter_cons]; by_cases hm : t.2.node = m <;> simp [hm]
    simp only [this, Finset.sum_add_distrib, Finset.sum_ite_eq, Finset.mem_univ, if_true]
    simp [pad]

/-- **C110** The reported extremes of `y+` are attained at wall points and bound all of them, as long as `|y+|` is at most 1e8. -/
theorem c110_extremes (x : M → Fin nd → ℝ) (c : Fin 3 → ℝ) (ranks : List (List (Contribution M nd))) (hne : ranks.flatten ≠ [])
    (hb : ∀ k ∈ ranks.flatten, |k.yplus| ≤ 100000000) :
    (∃ k ∈ ranks.flatten, (report x c ranks).ymin = k.yplus) ∧ (∃ k ∈ ranks.flatten, (report x c ranks).ymax = k.yplus) ∧
    ∀ k ∈ ranks.flatten, (report x c ranks).ymin ≤ k.yplus ∧ k.yplus ≤ (report x c ranks).ymax := by
  obtain ⟨-, -, -, h4, h5⟩ := c109_totals x c ranks
  have b1 := ((h4 _).mp le_rfl).2
  have b2 := ((h5 _).mp le_rfl).2
  have ex : ∀ (l : List (Contribution M nd)), l ≠ [] → (∃ k ∈ l, ∀ j ∈ l, k.yplus ≤ j.yplus) ∧ (∃ k ∈ l, ∀ j ∈ l, j.yplus ≤ k.yplus) := by
    intro l
    induction l with
    | nil => simp
    | cons a l ih =>
      intro _
      by_cases hl : l = []
      · subst hl; simp
      · obtain ⟨⟨u, hu, hu'⟩, v, hv, hv'⟩ := ih hl
        constructor
        · rcases le_total a.yplus u.yplus with hc | hc
          · exact ⟨a, List.mem_cons_self .., fun j hj => (List.mem_cons.mp hj).elim (fun e => e ▸ le_rfl) fun e => hc.trans (hu' j e)⟩
          · exact ⟨u, List.mem_cons_of_mem _ hu, fun j hj => (List.mem_cons.mp hj).elim (fun e => e ▸ hc) fun e => hu' j e⟩
        · rcases le_total v.yplus a.yplus with hc | hc
          · exact ⟨a, List.mem_cons_self .., fun j hj => (List.mem_cons.mp hj).elim (fun e => e ▸ le_rfl) fun e => (hv' j e).trans hc⟩
          · exact ⟨v, List.mem_cons_of_mem _ hv, fun j hj => (List.mem_cons.mp hj).elim (fun e => e ▸ hc) fun e => hv' j e⟩
  obtain ⟨⟨u, hu, hu'⟩, v, hv, hv'⟩ := ex _ hne
  refine ⟨⟨u, hu, le_antisymm (b1 u hu) ((h4 _).mpr ⟨(abs_le.mp (hb u hu)).2, hu'⟩)⟩,
    ⟨v, hv, le_antisymm ((h5 _).mpr ⟨(abs_le.mp (hb v hv)).1, hv'⟩) (b2 v hv)⟩, fun k hk => ⟨b1 k hk, b2 k hk⟩⟩

end Nalu.Force
