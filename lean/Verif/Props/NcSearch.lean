import Verif.Model.NcSearch
import Mathlib.Tactic.Linarith
import Mathlib.Tactic.Ring
import Mathlib.Tactic.FieldSimp
import Mathlib.Algebra.Order.BigOperators.Group.Finset
import Mathlib.Algebra.BigOperators.Fin

/-!
# Search and ghosting of non-conformal interfaces (C94-C96)
-/

set_option linter.unusedSectionVars false

namespace Nalu.NcSearch

variable {K : Type*} [Field K] [LinearOrder K] [IsStrictOrderedRing K]

/-! ## C94 the opposing face -/

/-- The faces the search found for the Gauss point `id` of rank `rank`. -/
def ownFaces (rank : ℕ) (pairs : Pairs) (id : ℕ) : List ℕ :=
  (pairs.filter fun p => p.1 = ⟨id, rank⟩).map fun p => p.2.id

theorem scan_spec (rank : ℕ) (dyn : Bool) (dist gap : ℕ → K) (saved : K) (l : Pairs) (st : Scan K) :
    let own := (l.filter fun p => p.1.proc = rank).map fun p => p.2.id
    let r := (l.foldl (scanStep rank dyn dist gap saved) st).dg
    r.id = st.dg.id ∧ r.old = st.dg.old ∧ r.all = st.dg.all ++ own ∧ r.bestX ≤ st.dg.bestX ∧
      (∀ g ∈ own, r.bestX ≤ dist g) ∧
      ((r.bestX = st.dg.bestX ∧ r.opp = st.dg.opp) ∨
        ∃ f ∈ own, r.opp = some f ∧ r.bestX = dist f ∧ dist f < st.dg.bestX) := by
  induction l generalizing st with
  | nil => simp
  | cons p l ih =>
    simp only [List.foldl_cons]
    have h := ih (scanStep rank dyn dist gap saved st p)
    by_cases hp : p.1.proc = rank
    · by_cases hd : dist p.2.id < st.dg.bestX
      · have hs : (scanStep rank dyn dist gap saved st p).dg.bestX = dist p.2.id := by
          simp [scanStep, hp, hd]
        have ho : (scanStep rank dyn dist gap saved st p).dg.opp = some p.2.id := by
          simp [scanStep, hp, hd]
        have ha : (scanStep rank dyn dist gap saved st p).dg.all = st.dg.all ++ [p.2.id] := by
          simp [scanStep, hp, hd]
        have hi : (scanStep rank dyn dist gap saved st p).dg.id = st.dg.id := by simp [scanStep, hp, hd]
        have hl : (scanStep rank dyn dist gap saved st p).dg.old = st.dg.old := by simp [scanStep, hp, hd]
        simp only [hs, ho, ha, hi, hl] at h
        obtain ⟨h1, h2, h3, h4, h5, h6⟩ := h
        simp only [List.filter_cons, hp, decide_true, if_true, List.map_cons, List.mem_cons]
        refine ⟨h1, h2, by rw [h3]; simp, h4.trans hd.le, ?_, ?_⟩
        · rintro g (rfl | hg)
          · exact h4
          · exact h5 g hg
        · right
          rcases h6 with ⟨h7, h8⟩ | ⟨f, hf, h7, h8, h9⟩
          · exact ⟨p.2.id, Or.inl rfl, h8, h7, hd⟩
          · exact ⟨f, Or.inr hf, h7, h8, h9.trans hd⟩
      · have hs : scanStep rank dyn dist gap saved st p =
            ⟨{ st.dg with all := st.dg.all ++ [p.2.id] }, st.nd⟩ := by simp [scanStep, hp, hd]
        rw [hs] at h ⊢
        obtain ⟨h1, h2, h3, h4, h5, h6⟩ := h
        simp only [List.filter_cons, hp, decide_true, if_true, List.map_cons, List.mem_cons]
        refine ⟨h1, h2, by rw [h3]; simp, h4, ?_, ?_⟩
        · rintro g (rfl | hg)
          · exact h4.trans (not_lt.mp hd)
          · exact h5 g hg
        · rcases h6 with h6 | ⟨f, hf, h7⟩
          · exact Or.inl h6
          · exact Or.inr ⟨f, Or.inr hf, h7⟩
    · have hs : scanStep rank dyn dist gap saved st p = st := by simp [scanStep, hp]
      rw [hs] at h ⊢
      simpa [List.filter_cons, hp] using h

theorem own_candidates (rank : ℕ) (pairs : Pairs) (id : ℕ) :
    ((candidates pairs id).filter fun p => p.1.proc = rank).map (fun p => p.2.id) = ownFaces rank pairs id := by
  rw [candidates, ownFaces, List.filter_filter]
  congr 1
  apply List.filter_congr
  intro p _
  rcases p with ⟨⟨a, b⟩, _⟩
  simp only [Key.mk.injEq]
  by_cases h1 : a = id <;> by_cases h2 : b = rank <;> simp [h1, h2]

theorem mapM_some {α β : Type*} (f : α → Option β) (l : List α) (r : List β) (h : l.mapM f = some r) :
    List.Forall₂ (fun a b => f a = some b) l r := by
  induction l generalizing r with
  | nil => simp at h; subst h; exact .nil
  | cons a l ih =>
    rw [List.mapM_cons] at h
    cases hf : f a with
    | none => simp [hf] at h
    | some b =>
      simp only [hf, Option.bind_eq_bind, Option.bind_some] at h
      cases hl : l.mapM f with
      | none => simp [hl] at h
      | some bs =>
        simp only [hl, Option.bind_some, Option.pure_def, Option.some.injEq] at h
        subst h
        exact .cons hf (ih bs hl)

/-- **C94** When the fine search ends normally, a Gauss point for which the search found faces has the nearest of
them (the smallest number returned by `isInElement`, provided it is below the reference value) as its opposing
face, and remembers all of them. -/
theorem c94_nearest_face (rank : ℕ) (dyn : Bool) (dist gap : ℕ → ℕ → K) (pairs : Pairs) (ref : K) (reuse : Bool)
    (dgs out : List (Dg K))
    (h : completeSearch rank dyn dist gap pairs (dgs.map (Dg.reset ref reuse)) = some out) :
    List.Forall₂ (fun g r => r.id = g.id ∧ r.all = ownFaces rank pairs g.id ∧
      ((∃ f ∈ ownFaces rank pairs g.id, dist g.id f < ref) →
        ∃ f ∈ ownFaces rank pairs g.id, r.opp = some f ∧ r.bestX = dist g.id f ∧
          ∀ f' ∈ ownFaces rank pairs g.id, dist g.id f ≤ dist g.id f')) dgs out := by
  have h1 := mapM_some _ _ _ h
  rw [List.forall₂_map_left_iff] at h1
  refine h1.imp fun g r hgr => ?_
  have hgr : completePoint rank dyn dist gap pairs (Dg.reset ref reuse g) = some r := hgr
  have hgr : (if candidates pairs g.id = [] then none else
      some ((candidates pairs g.id).foldl (scanStep rank dyn (dist g.id) (gap g.id) g.near)
        ⟨{ g with old := if reuse then g.old else g.all, bestX := ref, all := [] }, none⟩).dg) = some r := hgr
  by_cases hc : candidates pairs g.id = []
  · rw [if_pos hc] at hgr; simp at hgr
  rw [if_neg hc] at hgr
  simp only [Option.some.injEq] at hgr
  have hs := scan_spec rank dyn (dist g.id) (gap g.id) g.near (candidates pairs g.id)
    ⟨{ g with old := if reuse then g.old else g.all, bestX := ref, all := [] }, none⟩
  simp only [own_candidates] at hs
  rw [hgr] at hs
  obtain ⟨h2, -, h3, h4, h5, h6⟩ := hs
  refine ⟨h2, by simpa using h3, ?_⟩
  rintro ⟨f, hf, hlt⟩
  rcases h6 with ⟨h7, _⟩ | ⟨f', hf', h7, h8, _⟩
  · have := h5 f hf
    rw [h7] at this
    exact absurd hlt (not_lt.mpr this)
  · exact ⟨f', hf', h7, h8, fun k hk => h8 ▸ h5 k hk⟩

/-- **C94** A Gauss point without any face aborts the search.  Partial: when no other rank's point with the same local
number appears among the pairs this rank received (in a serial run always); otherwise the missing match
goes unnoticed, `c94_missing_match_unnoticed`. -/
theorem c94_no_silent_miss_partial (rank : ℕ) (dyn : Bool) (dist gap : ℕ → ℕ → K) (pairs : Pairs)
    (dgs : List (Dg K)) (g : Dg K) (hg : g ∈ dgs) (hmiss : ownFaces rank pairs g.id = [])
    (hforeign : ∀ p ∈ pairs, p.1.id = g.id → p.1.proc = rank) :
    completeSearch rank dyn dist gap pairs dgs = none := by
  cases h : completeSearch rank dyn dist gap pairs dgs with
  | none => rfl
  | some out =>
    exfalso
    have h1 := mapM_some _ _ _ h
    obtain ⟨r, hr, hgr⟩ : ∃ r, r ∈ out ∧ completePoint rank dyn dist gap pairs g = some r := by
      clear h hmiss hforeign
      induction h1 with
      | nil => simp at hg
      | cons hab _ ih =>
        rcases List.mem_cons.mp hg with rfl | hg'
        · exact ⟨_, List.mem_cons_self, hab⟩
        · obtain ⟨r, hr, h2⟩ := ih hg'
          exact ⟨r, List.mem_cons_of_mem _ hr, h2⟩
    have : candidates pairs g.id = [] := by
      rw [List.eq_nil_iff_forall_not_mem]
      intro p hp
      rw [candidates, List.mem_filter, decide_eq_true_eq] at hp
      have hpr := hforeign p hp.1 hp.2
      have hk : p.1 = (⟨g.id, rank⟩ : Key) := by
        cases hp1 : p.1 with
        | mk a b =>
          rw [hp1] at hp hpr
          simp only at hp hpr
          rw [hp.2, hpr]
      have hm : p.2.id ∈ ownFaces rank pairs g.id := by
        rw [ownFaces, List.mem_map]
        exact ⟨p, List.mem_filter.mpr ⟨hp.1, by simpa using hk⟩, rfl⟩
      rw [hmiss] at hm
      exact absurd hm (List.not_mem_nil)
    simp [completePoint, this] at hgr

/-- **C94** With several ranks a missing match can go unnoticed: rank 0's Gauss point 0 has no face, but rank 1's Gauss
point 0 lies in a box of rank 0; the search ends normally and the point keeps whatever opposing face it had
before (here the stale face 7). -/
theorem c94_missing_match_unnoticed :
    ∃ (pairs : Pairs) (g : Dg ℚ), ownFaces 0 pairs g.id = [] ∧
      (completeSearch 0 false (fun _ _ => 0) (fun _ _ => 0) pairs [g]).isSome ∧
      ∀ out ∈ completeSearch 0 false (fun _ _ => (0 : ℚ)) (fun _ _ => 0) pairs [g], out.map Dg.opp = [some 7] := by
  refine ⟨[(⟨0, 1⟩, ⟨5, 0⟩)], ⟨0, some 7, 10, 1, [], []⟩, by decide, by decide, ?_⟩
  intro out ho
  simp [completeSearch, completePoint, candidates, scanStep] at ho
  subst ho
  rfl

/-- **C94** Every Gauss point that does have a face in the search is served, whatever the other ranks found: the search
never aborts because of it. -/
theorem c94_found_is_served (rank : ℕ) (dyn : Bool) (dist gap : ℕ → ℕ → K) (pairs : Pairs)
    (dgs : List (Dg K)) (h : ∀ g ∈ dgs, ownFaces rank pairs g.id ≠ []) :
    ∃ out, completeSearch rank dyn dist gap pairs dgs = some out := by
  induction dgs with
  | nil => exact ⟨[], rfl⟩
  | cons g l ih =>
    obtain ⟨out, ho⟩ := ih fun k hk => h k (List.mem_cons_of_mem _ hk)
    have hc : candidates pairs g.id ≠ [] := by
      intro h0
      apply h g List.mem_cons_self
      rw [← own_candidates, h0]; rfl
    rw [completeSearch] at ho ⊢
    rw [List.mapM_cons, ho]
    simp [completePoint, hc]

/-! ### boxes -/

theorem corners_spec (big : K) (xs : List K) :
    (∀ x ∈ xs, (corners big xs).1 ≤ x ∧ x ≤ (corners big xs).2) := by
  suffices H : ∀ (l : List K) (mm : K × K),
      let r := l.foldl (fun mm x => (min mm.1 x, max mm.2 x)) mm
      r.1 ≤ mm.1 ∧ mm.2 ≤ r.2 ∧ ∀ x ∈ l, r.1 ≤ x ∧ x ≤ r.2 from (H xs (big, -big)).2.2
  intro l
  induction l with
  | nil => intro mm; simp
  | cons a l ih =>
    intro mm
    obtain ⟨h1, h2, h3⟩ := ih (min mm.1 a, max mm.2 a)
    simp only [List.foldl_cons]
    refine ⟨h1.trans (min_le_left _ _), (le_max_left _ _).trans h2, ?_⟩
    intro x hx
    rcases List.mem_cons.mp hx with rfl | hx
    · exact ⟨h1.trans (min_le_right _ _), (le_max_right _ _).trans h2⟩
    · exact h3 x hx

/-- **C94** A Gauss point that lies on a face of the other surface (a convex combination of its nodes), or off it by no
more than the search tolerance, lies in the box of that face: the coarse search cannot miss it. -/
theorem c94_point_in_box (big pct tol : K) {n : ℕ} (x : Fin n → K) (w : Fin n → K) (hw : ∀ i, 0 ≤ w i)
    (h1 : ∑ i, w i = 1) (hp : 0 ≤ pct) (y : K) (hy : |y - ∑ i, w i * x i| ≤ tol) :
    (box big pct tol 1 (List.ofFn x)).1 ≤ y ∧ y ≤ (box big pct tol 1 (List.ofFn x)).2 := by
  have hc := corners_spec big (List.ofFn x)
  have hx : ∀ i, (corners big (List.ofFn x)).1 ≤ x i ∧ x i ≤ (corners big (List.ofFn x)).2 := fun i =>
    hc _ ((List.mem_ofFn).mpr ⟨i, rfl⟩)
  have hlo : (corners big (List.ofFn x)).1 ≤ ∑ i, w i * x i := by
    calc (corners big (List.ofFn x)).1 = ∑ i, w i * (corners big (List.ofFn x)).1 := by
          rw [← Finset.sum_mul, h1, one_mul]
      _ ≤ _ := Finset.sum_le_sum fun i _ => mul_le_mul_of_nonneg_left (hx i).1 (hw i)
  have hhi : ∑ i, w i * x i ≤ (corners big (List.ofFn x)).2 := by
    calc ∑ i, w i * x i ≤ ∑ i, w i * (corners big (List.ofFn x)).2 :=
          Finset.sum_le_sum fun i _ => mul_le_mul_of_nonneg_left (hx i).2 (hw i)
      _ = _ := by rw [← Finset.sum_mul, h1, one_mul]
  have hd : 0 ≤ pct * ((corners big (List.ofFn x)).2 - (corners big (List.ofFn x)).1) :=
    mul_nonneg hp (by linarith)
  obtain ⟨ha, hb⟩ := abs_le.mp hy
  simp only [box]
  constructor <;> linarith

/-! ## C95 dynamic tolerance -/

theorem mem_coarse (hit : Key → K → List Key) (sp : List (Key × K)) (k b : Key) :
    (k, b) ∈ coarse hit sp ↔ ∃ r, (k, r) ∈ sp ∧ b ∈ hit k r := by
  simp only [coarse, List.mem_flatMap, List.mem_map, Prod.mk.injEq]
  constructor
  · rintro ⟨s, hs, b', hb, rfl, rfl⟩; exact ⟨s.2, hs, hb⟩
  · rintro ⟨r, hr, hb⟩; exact ⟨(k, r), hr, b, hb, rfl, rfl⟩

theorem mem_key_coarse (hit : Key → K → List Key) (sp : List (Key × K)) (k : Key) :
    k ∈ (coarse hit sp).map Prod.fst ↔ ∃ r, (k, r) ∈ sp ∧ hit k r ≠ [] := by
  simp only [List.mem_map, Prod.exists, exists_and_right, exists_eq_right]
  constructor
  · rintro ⟨b, hb⟩
    obtain ⟨r, hr, hm⟩ := (mem_coarse hit sp k b).mp hb
    exact ⟨r, hr, List.ne_nil_of_mem hm⟩
  · rintro ⟨r, hr, hm⟩
    obtain ⟨b, hb⟩ := List.exists_mem_of_ne_nil _ hm
    exact ⟨b, (mem_coarse hit sp k b).mpr ⟨r, hr, hb⟩⟩

/-- The keys of a list of spheres are distinct. -/
def Distinct (sp : List (Key × K)) : Prop := ∀ s ∈ sp, ∀ t ∈ sp, s.1 = t.1 → s = t

theorem retry_spec (hit : Key → K → List Key) (n : ℕ) (num : ℕ) (hn : num + n = 10) (sp : List (Key × K))
    (pairs : Pairs) (hd : Distinct sp) (hf : ∀ s ∈ sp, s.1 ∉ pairs.map Prod.fst) :
    ((∀ s ∈ sp, ∃ k, 1 ≤ k ∧ k ≤ n ∧ hit s.1 (2 ^ k * s.2) ≠ []) ↔ (retry hit num sp pairs).isSome) ∧
    ∀ out, retry hit num sp pairs = some out →
      (∀ k b, (∀ s ∈ sp, s.1 ≠ k) → ((k, b) ∈ out ↔ (k, b) ∈ pairs)) ∧
      ∀ s ∈ sp, ∃ k, 1 ≤ k ∧ k ≤ n ∧ hit s.1 (2 ^ k * s.2) ≠ [] ∧
        (∀ j, 1 ≤ j → j < k → hit s.1 (2 ^ j * s.2) = []) ∧
        ∀ b, (s.1, b) ∈ out ↔ b ∈ hit s.1 (2 ^ k * s.2) := by
  induction n generalizing num sp pairs with
  | zero =>
    have : num = 10 := by omega
    subst this
    rw [retry]
    by_cases hs : sp = []
    · subst hs; simp
    · obtain ⟨s, hs'⟩ := List.exists_mem_of_ne_nil _ hs
      simp only [hs, if_false]
      have h10 : (10:ℕ) < 10 + 1 := by omega
      simp only [h10, if_true]
      refine ⟨⟨fun h => ?_, fun h => by simp at h⟩, fun out h => by simp at h⟩
      obtain ⟨k, h1, h2, _⟩ := h s hs'
      omega
  | succ n ih =>
    rw [retry]
    by_cases hs : sp = []
    · subst hs; simp
    have hlt : ¬ 10 < num + 1 := by omega
    simp only [hs, if_false, hlt]
    set sp2 := sp.map fun s => (s.1, 2 * s.2) with hsp2
    set pairs2 := pairs ++ coarse hit sp2 with hp2
    have m2 : ∀ t, t ∈ sp2 ↔ ∃ s ∈ sp, (s.1, 2 * s.2) = t := fun t => by rw [hsp2, List.mem_map]
    have key2 : ∀ s ∈ sp, (s.1 ∈ pairs2.map Prod.fst ↔ hit s.1 (2 * s.2) ≠ []) := by
      intro s hs
      rw [hp2, List.map_append, List.mem_append, mem_key_coarse]
      constructor
      · rintro (h | ⟨r, hr, hm⟩)
        · exact absurd h (hf s hs)
        · obtain ⟨t, ht, hte⟩ := (m2 _).mp hr
          rw [Prod.mk.injEq] at hte
          have := hd t ht s hs hte.1
          subst this
          rw [hte.2]; exact hm
      · intro h
        exact Or.inr ⟨2 * s.2, (m2 _).mpr ⟨s, hs, rfl⟩, h⟩
    have mu : ∀ t, t ∈ unfound sp2 pairs2 ↔ ∃ s ∈ sp, t = (s.1, 2 * s.2) ∧ hit s.1 (2 * s.2) = [] := by
      intro t
      rw [unfound, List.mem_filter, m2]
      constructor
      · rintro ⟨⟨s, hs, rfl⟩, h⟩
        refine ⟨s, hs, rfl, ?_⟩
        simp only [decide_eq_true_eq] at h
        rw [key2 s hs] at h
        exact not_not.mp h
      · rintro ⟨s, hs, rfl, h⟩
        refine ⟨⟨s, hs, rfl⟩, ?_⟩
        simp only [decide_eq_true_eq]
        rw [key2 s hs]
        exact not_not.mpr h
    have hd3 : Distinct (unfound sp2 pairs2) := by
      intro a ha b hb hab
      obtain ⟨s, hs, rfl, _⟩ := (mu a).mp ha
      obtain ⟨t, ht, rfl, _⟩ := (mu b).mp hb
      rw [hd s hs t ht hab]
    have hf3 : ∀ s ∈ unfound sp2 pairs2, s.1 ∉ pairs2.map Prod.fst := by
      intro a ha
      obtain ⟨s, hs, rfl, h⟩ := (mu a).mp ha
      rw [key2 s hs]
      exact not_not.mpr h
    obtain ⟨ihA, ihB⟩ := ih (num + 1) (by omega) (unfound sp2 pairs2) pairs2 hd3 hf3
    have p2 : ∀ (k : ℕ) (r : K), 2 ^ k * (2 * r) = 2 ^ (k + 1) * r := fun k r => by rw [pow_succ]; ring
    refine ⟨?_, ?_⟩
    · rw [← ihA]
      constructor
      · intro h a ha
        obtain ⟨s, hs, rfl, h0⟩ := (mu a).mp ha
        obtain ⟨k, hk1, hk2, hk3⟩ := h s hs
        have hk : k ≠ 1 := by
          rintro rfl
          rw [pow_one] at hk3
          exact hk3 h0
        refine ⟨k - 1, by omega, by omega, ?_⟩
        simp only [p2]
        rwa [Nat.sub_add_cancel hk1]
      · intro h s hs
        by_cases h0 : hit s.1 (2 * s.2) = []
        · obtain ⟨k, hk1, hk2, hk3⟩ := h _ ((mu _).mpr ⟨s, hs, rfl, h0⟩)
          exact ⟨k + 1, by omega, by omega, by rw [← p2]; exact hk3⟩
        · exact ⟨1, le_refl _, by omega, by rw [pow_one]; exact h0⟩
    · intro out ho
      obtain ⟨ihC, ihD⟩ := ihB out ho
      have mp2 : ∀ k b, (k, b) ∈ pairs2 ↔ (k, b) ∈ pairs ∨ ∃ s ∈ sp, s.1 = k ∧ b ∈ hit k (2 * s.2) := by
        intro k b
        rw [hp2, List.mem_append, mem_coarse]
        constructor
        · rintro (h | ⟨r, hr, hm⟩)
          · exact Or.inl h
          · obtain ⟨t, ht, hte⟩ := (m2 _).mp hr
            rw [Prod.mk.injEq] at hte
            exact Or.inr ⟨t, ht, hte.1, by rw [hte.2]; exact hm⟩
        · rintro (h | ⟨s, hs, rfl, hm⟩)
          · exact Or.inl h
          · exact Or.inr ⟨_, (m2 _).mpr ⟨s, hs, rfl⟩, hm⟩
      refine ⟨?_, ?_⟩
      · intro k b hk
        rw [ihC k b, mp2]
        · constructor
          · rintro (h | ⟨s, hs, h, _⟩)
            · exact h
            · exact absurd h (hk s hs)
          · exact Or.inl
        · intro a ha
          obtain ⟨s, hs, rfl, _⟩ := (mu a).mp ha
          exact hk s hs
      · intro s hs
        by_cases h0 : hit s.1 (2 * s.2) = []
        · obtain ⟨k, hk1, hk2, hk3, hk4, hk5⟩ := ihD _ ((mu _).mpr ⟨s, hs, rfl, h0⟩)
          refine ⟨k + 1, by omega, by omega, by rw [← p2]; exact hk3, ?_, ?_⟩
          · intro j hj1 hj2
            rcases Nat.lt_or_ge 1 j with h | h
            · have := hk4 (j - 1) (by omega) (by omega)
              simp only [p2] at this
              rwa [Nat.sub_add_cancel hj1] at this
            · have : j = 1 := by omega
              subst this
              rw [pow_one]; exact h0
          · intro b; rw [← p2]; exact hk5 b
        · refine ⟨1, le_refl _, by omega, by rw [pow_one]; exact h0, fun j h1 h2 => by omega, fun b => ?_⟩
          rw [ihC s.1 b, mp2, pow_one]
          · constructor
            · rintro (h | ⟨t, ht, hte, hm⟩)
              · exact absurd (List.mem_map.mpr ⟨_, h, rfl⟩) (hf s hs)
              · have := hd t ht s hs hte
                subst this
                exact hm
            · intro hm
              exact Or.inr ⟨s, hs, rfl, hm⟩
          · intro a ha hae
            obtain ⟨t, ht, rfl, h⟩ := (mu a).mp ha
            have := hd t ht s hs hae
            subst this
            exact h0 h

/-- **C95** With the dynamic tolerance the search succeeds exactly when every point meets a box within ten doublings of
its radius; each point then has the boxes met at the first radius that meets any, no more and no fewer
(points found early are not searched again). -/
theorem c95_retry_exact (hit : Key → K → List Key) (sp : List (Key × K)) (hd : Distinct sp) :
    ((dynamicSearch hit sp).isSome ↔ ∀ s ∈ sp, ∃ k ≤ 10, hit s.1 (2 ^ k * s.2) ≠ []) ∧
    ∀ out, dynamicSearch hit sp = some out → ∀ s ∈ sp, ∃ k ≤ 10, hit s.1 (2 ^ k * s.2) ≠ [] ∧
      (∀ j < k, hit s.1 (2 ^ j * s.2) = []) ∧ ∀ b, (s.1, b) ∈ out ↔ b ∈ hit s.1 (2 ^ k * s.2) := by
  have key : ∀ s ∈ sp, (s.1 ∈ (coarse hit sp).map Prod.fst ↔ hit s.1 s.2 ≠ []) := by
    intro s hs
    rw [mem_key_coarse]
    constructor
    · rintro ⟨r, hr, hm⟩
      have := hd _ hr s hs rfl
      rw [← this]; exact hm
    · intro h; exact ⟨s.2, hs, h⟩
  have mu : ∀ t, t ∈ unfound sp (coarse hit sp) ↔ t ∈ sp ∧ hit t.1 t.2 = [] := by
    intro t
    rw [unfound, List.mem_filter]
    constructor
    · rintro ⟨ht, h⟩
      simp only [decide_eq_true_eq] at h
      rw [key t ht] at h
      exact ⟨ht, not_not.mp h⟩
    · rintro ⟨ht, h⟩
      refine ⟨ht, ?_⟩
      simp only [decide_eq_true_eq]
      rw [key t ht]
      exact not_not.mpr h
  obtain ⟨hA, hB⟩ := retry_spec hit 10 0 rfl (unfound sp (coarse hit sp)) (coarse hit sp)
    (fun a ha b hb hab => hd a ((mu a).mp ha).1 b ((mu b).mp hb).1 hab)
    (fun s hs => by rw [key s ((mu s).mp hs).1]; exact not_not.mpr ((mu s).mp hs).2)
  refine ⟨?_, ?_⟩
  · rw [dynamicSearch, ← hA]
    constructor
    · intro h s hs
      by_cases h0 : hit s.1 s.2 = []
      · obtain ⟨k, _, hk2, hk3⟩ := h s ((mu s).mpr ⟨hs, h0⟩)
        exact ⟨k, hk2, hk3⟩
      · exact ⟨0, by omega, by rw [pow_zero, one_mul]; exact h0⟩
    · intro h s hs
      obtain ⟨k, hk2, hk3⟩ := h s ((mu s).mp hs).1
      refine ⟨k, ?_, hk2, hk3⟩
      rcases Nat.eq_zero_or_pos k with rfl | hk
      · rw [pow_zero, one_mul] at hk3
        exact absurd ((mu s).mp hs).2 hk3
      · exact hk
  · intro out ho s hs
    obtain ⟨hC, hD⟩ := hB out ho
    by_cases h0 : hit s.1 s.2 = []
    · obtain ⟨k, hk1, hk2, hk3, hk4, hk5⟩ := hD s ((mu s).mpr ⟨hs, h0⟩)
      refine ⟨k, hk2, hk3, fun j hj => ?_, hk5⟩
      rcases Nat.eq_zero_or_pos j with rfl | hj0
      · rw [pow_zero, one_mul]; exact h0
      · exact hk4 j hj0 hj
    · refine ⟨0, by omega, by rw [pow_zero, one_mul]; exact h0, fun j hj => absurd hj (Nat.not_lt_zero _), fun b => ?_⟩
      rw [pow_zero, one_mul, hC s.1 b, mem_coarse]
      · constructor
        · rintro ⟨r, hr, hm⟩
          have := hd _ hr s hs rfl
          rw [← this]; exact hm
        · intro hm; exact ⟨s.2, hs, hm⟩
      · intro t ht hts
        have := hd t ((mu t).mp ht).1 s hs hts
        subst this
        exact h0 ((mu t).mp ht).2

/-- **C95** The remembered distance after a search, from which the radius of the next one is made: between the gap to some
accepted face and the distance remembered before.  Partial: when no candidate is farther than the
remembered distance (the surfaces did not move apart); see `c95_radius_can_shrink`. -/
theorem c95_distance_partial (rank : ℕ) (dist gap : ℕ → K) (l : Pairs) (g : Dg K)
    (hg : ∀ p ∈ l, p.1.proc = rank → gap p.2.id ≤ g.near)
    (hsome : ∃ p ∈ l, p.1.proc = rank ∧ dist p.2.id < g.bestX) :
    let r := (l.foldl (scanStep rank true dist gap g.near) ⟨g, none⟩).dg
    r.near ≤ g.near ∧ ∃ p ∈ l, p.1.proc = rank ∧ gap p.2.id ≤ r.near := by
  suffices H : ∀ (l' : Pairs) (st : Scan K), (∀ p ∈ l', p ∈ l) →
      (st.dg.near ≤ g.near ∧ ((st.nd = none ∧ st.dg.near = g.near ∧ st.dg.bestX = g.bestX) ∨ ∃ d, st.nd = some d ∧ d ≤ st.dg.near ∧
        ∃ p ∈ l, p.1.proc = rank ∧ gap p.2.id = d)) →
      let r := l'.foldl (scanStep rank true dist gap g.near) st
      r.dg.near ≤ g.near ∧ ((r.nd = none ∧ r.dg.near = g.near ∧ r.dg.bestX = g.bestX ∧
          ∀ p ∈ l', p.1.proc = rank → ¬ dist p.2.id < g.bestX) ∨
        ∃ d, r.nd = some d ∧ d ≤ r.dg.near ∧ ∃ p ∈ l, p.1.proc = rank ∧ gap p.2.id = d) by
    obtain ⟨h1, h2⟩ := H l ⟨g, none⟩ (fun _ h => h) ⟨le_refl _, Or.inl ⟨rfl, rfl, rfl⟩⟩
    refine ⟨h1, ?_⟩
    rcases h2 with ⟨_, _, _, h5⟩ | ⟨d, _, h4, p, hp, hr, h5⟩
    · obtain ⟨p, hp, hr, hlt⟩ := hsome
      exact absurd hlt (h5 p hp hr)
    · exact ⟨p, hp, hr, h5 ▸ h4⟩
  intro l'
  induction l' with
  | nil =>
    intro st _ h
    refine ⟨h.1, ?_⟩
    rcases h.2 with ⟨a, b, c⟩ | h
    · exact Or.inl ⟨a, b, c, by simp⟩
    · exact Or.inr h
  | cons p l' ih =>
    intro st hl h
    simp only [List.foldl_cons]
    have hpl := hl p List.mem_cons_self
    have hl' : ∀ q ∈ l', q ∈ l := fun q hq => hl q (List.mem_cons_of_mem _ hq)
    by_cases hp : p.1.proc = rank
    · by_cases hd : dist p.2.id < st.dg.bestX
      · have hgap := hg p hpl hp
        set d := minD st.nd (gap p.2.id) with hdd
        have hst : (scanStep rank true dist gap g.near st p).nd = some d := by simp [scanStep, hp, hd, hdd]
        have hsn : (scanStep rank true dist gap g.near st p).dg.near =
            if d < st.dg.near then 8 / 10 * g.near + (1 - 8 / 10) * d else d := by
          simp [scanStep, hp, hd, hdd]
        have hdn : d ≤ g.near ∧ ∃ q ∈ l, q.1.proc = rank ∧ gap q.2.id = d := by
          rcases h.2 with ⟨a, b, _⟩ | ⟨e, a, b, q, hq, hqr, c⟩
          · rw [hdd, a]; exact ⟨hgap, p, hpl, hp, rfl⟩
          · rw [hdd, a]
            simp only [minD]
            rcases le_total e (gap p.2.id) with hle | hle
            · rw [min_eq_left hle]; exact ⟨b.trans h.1, q, hq, hqr, c⟩
            · rw [min_eq_right hle]; exact ⟨hgap, p, hpl, hp, rfl⟩
        have hnear : (scanStep rank true dist gap g.near st p).dg.near ≤ g.near ∧
            d ≤ (scanStep rank true dist gap g.near st p).dg.near := by
          rw [hsn]
          split_ifs with hlt
          · constructor <;> linarith [hdn.1]
          · exact ⟨hdn.1, le_refl _⟩
        obtain ⟨h1, h2⟩ := ih (scanStep rank true dist gap g.near st p) hl'
          ⟨hnear.1, Or.inr ⟨d, hst, hnear.2, hdn.2⟩⟩
        refine ⟨h1, ?_⟩
        rcases h2 with ⟨a, b, c, e⟩ | h2
        · exfalso
          have key : ∀ (m : Pairs) (s : Scan K), s.nd ≠ none →
              (m.foldl (scanStep rank true dist gap g.near) s).nd ≠ none := by
            intro m
            induction m with
            | nil => intro s hs; exact hs
            | cons q m ihm =>
              intro s hs
              simp only [List.foldl_cons]
              apply ihm
              by_cases hq : q.1.proc = rank
              · by_cases hq2 : dist q.2.id < s.dg.bestX
                · simp [scanStep, hq, hq2]
                · simpa [scanStep, hq, hq2] using hs
              · simpa [scanStep, hq] using hs
          exact key l' _ (by rw [hst]; exact Option.some_ne_none _) a
        · exact Or.inr h2
      · have hs : scanStep rank true dist gap g.near st p =
            ⟨{ st.dg with all := st.dg.all ++ [p.2.id] }, st.nd⟩ := by simp [scanStep, hp, hd]
        rw [hs]
        obtain ⟨h1, h2⟩ := ih ⟨{ st.dg with all := st.dg.all ++ [p.2.id] }, st.nd⟩ hl' h
        refine ⟨h1, ?_⟩
        rcases h2 with ⟨a, b, c, e⟩ | h2
        · by_cases hbx : st.dg.bestX = g.bestX
          · refine Or.inl ⟨a, b, c, ?_⟩
            intro q hq hqr
            rcases List.mem_cons.mp hq with rfl | hq
            · rw [← hbx]; exact hd
            · exact e q hq hqr
          · rcases h.2 with ⟨_, _, h5⟩ | ⟨d', h5, _⟩
            · exact absurd h5 hbx
            · exfalso
              have key : ∀ (m : Pairs) (s : Scan K), s.nd ≠ none →
                  (m.foldl (scanStep rank true dist gap g.near) s).nd ≠ none := by
                intro m
                induction m with
                | nil => intro s hs; exact hs
                | cons q m ihm =>
                  intro s hs
                  simp only [List.foldl_cons]
                  apply ihm
                  by_cases hq : q.1.proc = rank
                  · by_cases hq2 : dist q.2.id < s.dg.bestX
                    · simp [scanStep, hq, hq2]
                    · simpa [scanStep, hq, hq2] using hs
                  · simpa [scanStep, hq] using hs
              exact key l' ⟨{ st.dg with all := st.dg.all ++ [p.2.id] }, st.nd⟩
                (by simp [h5]) a
        · exact Or.inr h2
    · have hs : scanStep rank true dist gap g.near st p = st := by simp [scanStep, hp]
      rw [hs]
      obtain ⟨h1, h2⟩ := ih st hl' h
      refine ⟨h1, ?_⟩
      rcases h2 with ⟨a, b, c, e⟩ | h2
      · refine Or.inl ⟨a, b, c, ?_⟩
        intro q hq hqr
        rcases List.mem_cons.mp hq with rfl | hq
        · exact absurd hqr hp
        · exact e q hq hqr
      · exact Or.inr h2

/-- **C95** When the surfaces have moved apart the remembered distance can fall below the gap to every face found: with a
remembered distance 1/100 and two candidates at gaps 1 and 1/2, found in this order, it becomes 27/250, so the
next radius 27/125 reaches neither (the repeated search then has to enlarge it). -/
theorem c95_radius_can_shrink :
    let r := ([(⟨0, 0⟩, ⟨1, 0⟩), (⟨0, 0⟩, ⟨2, 0⟩)] : Pairs).foldl
      (scanStep 0 true (fun f => if f = 1 then 2 else 1) (fun f => if f = 1 then (1 : ℚ) else 1 / 2) (1 / 100))
      ⟨⟨0, none, 10, 1 / 100, [], []⟩, none⟩
    r.dg.near = 27 / 250 ∧ 2 * r.dg.near < 1 / 2 := by
  decide +kernel

/-! ## C96 ghosting -/

variable {E : Type} [DecidableEq E]

/-- The requests of one round are admissible: a rank asks only for sends of its own elements to other ranks of the
run. -/
def GoodWant (n : ℕ) (owner : E → ℕ) (want : ℕ → List (E × ℕ)) : Prop :=
  ∀ r < n, ∀ ep ∈ want r, owner ep.1 = r ∧ ep.2 ≠ r ∧ ep.2 < n

/-- All that is requested in a round. -/
def allWant (n : ℕ) (want : ℕ → List (E × ℕ)) : Finset (E × ℕ) :=
  (Finset.range n).biUnion fun r => (want r).toFinset

/-- A ghosting state that can arise. -/
def GoodState (n : ℕ) (owner : E → ℕ) (S : Finset (E × ℕ)) : Prop :=
  ∀ ep ∈ S, owner ep.1 < n ∧ ep.2 < n ∧ owner ep.1 ≠ ep.2

theorem good_allWant {n : ℕ} {owner : E → ℕ} {want : ℕ → List (E × ℕ)} (h : GoodWant n owner want) :
    GoodState n owner (allWant n want) := by
  intro ep hep
  simp only [allWant, Finset.mem_biUnion, Finset.mem_range, List.mem_toFinset] at hep
  obtain ⟨r, hr, hm⟩ := hep
  obtain ⟨h1, h2, h3⟩ := h r hr ep hm
  exact ⟨h1 ▸ hr, h3, fun h4 => h2 (by rw [← h4, h1])⟩

theorem preciseLists_eq (cur : Finset (E × ℕ)) (want : List (E × ℕ)) :
    preciseLists cur want = (want.toFinset \ cur, cur \ want.toFinset) := by
  simp only [preciseLists]
  refine Prod.ext ?_ ?_
  · simp only
    split_ifs with h
    · ext ep
      simp only [Finset.mem_sdiff]
      constructor
      · intro hw
        refine ⟨hw, fun hc => ?_⟩
        have : ep ∈ cur ∩ want.toFinset := Finset.mem_inter.mpr ⟨hc, hw⟩
        rw [h] at this; simp at this
      · exact fun hw => hw.1
    · ext ep; simp only [Finset.mem_filter, Finset.mem_inter, Finset.mem_sdiff]; tauto
  · ext ep; simp only [Finset.mem_filter, Finset.mem_inter, Finset.mem_sdiff]; tauto

/-- **C96** After a round the ghosting sends exactly the requested elements: nothing missing, nothing stale, whatever was
ghosted before, also when the code decides that nothing has to change. -/
theorem c96_round_exact (n : ℕ) (owner : E → ℕ) (S : Option (Finset (E × ℕ))) (want : ℕ → List (E × ℕ))
    (hw : GoodWant n owner want) (hS : GoodState n owner (S.getD ∅)) :
    (ghostRound n owner S want).getD ∅ = allWant n want := by
  have mw : ∀ ep, ep ∈ allWant n want ↔ ∃ r < n, ep ∈ want r := by
    intro ep; simp [allWant]
  cases S with
  | none =>
    simp only [ghostRound, Option.getD_none]
    split_ifs with h
    · rw [Option.getD_none]; exact h.1.symm
    · simp [allWant]
  | some S =>
    simp only [Option.getD_some] at hS
    simp only [ghostRound, preciseLists_eq, Option.getD_some]
    have ma : ∀ ep, ep ∈ (Finset.range n).biUnion (fun r => (want r).toFinset \ sends owner S r) ↔
        ep ∈ allWant n want ∧ ep ∉ S := by
      intro ep
      simp only [Finset.mem_biUnion, Finset.mem_range, Finset.mem_sdiff, List.mem_toFinset, sends,
        Finset.mem_filter, mw]
      constructor
      · rintro ⟨r, hr, h1, h2⟩
        exact ⟨⟨r, hr, h1⟩, fun h3 => h2 ⟨h3, (hw r hr ep h1).1⟩⟩
      · rintro ⟨⟨r, hr, h1⟩, h2⟩
        exact ⟨r, hr, h1, fun h3 => h2 h3.1⟩
    have mr : ∀ ep ∈ S, (ep.1 ∈ recvRemove n (fun r => sends owner S r \ (want r).toFinset) ep.2 ↔
        ep ∉ allWant n want) := by
      intro ep hep
      obtain ⟨g1, g2, g3⟩ := hS ep hep
      simp only [recvRemove, Finset.mem_biUnion, Finset.mem_filter, Finset.mem_range, Finset.mem_image,
        Finset.mem_sdiff, sends, List.mem_toFinset, mw]
      constructor
      · rintro ⟨r, ⟨hr, hne⟩, q, ⟨⟨⟨hq1, hq2⟩, hq3⟩, hq4⟩, hq5⟩ ⟨r', hr', hr''⟩
        have hq : q = ep := Prod.ext hq5 hq4
        subst hq
        have := (hw r' hr' q hr'').1
        rw [hq2] at this
        subst this
        exact hq3 hr''
      · intro h
        exact ⟨owner ep.1, ⟨g1, g3⟩, ep, ⟨⟨⟨hep, rfl⟩, fun h1 => h ⟨_, g1, h1⟩⟩, rfl⟩, rfl⟩
    split_ifs with h
    · rw [Option.getD_some]
      obtain ⟨h1, h2⟩ := h
      ext ep
      constructor
      · intro hep
        by_contra hc
        have := (mr ep hep).mpr hc
        rw [h2 ep.2 (Finset.mem_range.mpr (hS ep hep).2.1)] at this
        simp at this
      · intro hep
        by_contra hc
        have := (ma ep).mpr ⟨hep, hc⟩
        rw [h1] at this
        simp at this
    · rw [Option.getD_some]
      ext ep
      rw [Finset.mem_union, Finset.mem_filter, ma]
      constructor
      · rintro (⟨h1, h2⟩ | h1)
        · rw [mr ep h1] at h2
          exact not_not.mp h2
        · exact h1.1
      · intro hep
        by_cases hs : ep ∈ S
        · exact Or.inl ⟨hs, by rw [mr ep hs]; exact not_not.mpr hep⟩
        · exact Or.inr ⟨hep, hs⟩

/-- **C96** For every history of rounds from the start of the run, the ghosting is the last request and nothing else. -/
theorem c96_history (n : ℕ) (owner : E → ℕ) (rounds : List (ℕ → List (E × ℕ))) (last : ℕ → List (E × ℕ))
    (hr : ∀ w ∈ rounds, GoodWant n owner w) (hl : GoodWant n owner last) :
    ((rounds ++ [last]).foldl (ghostRound n owner) none).getD ∅ = allWant n last := by
  have H : ∀ (l : List (ℕ → List (E × ℕ))) (S : Option (Finset (E × ℕ))), (∀ w ∈ l, GoodWant n owner w) →
      GoodState n owner (S.getD ∅) → GoodState n owner ((l.foldl (ghostRound n owner) S).getD ∅) := by
    intro l
    induction l with
    | nil => intro S _ h; exact h
    | cons w l ih =>
      intro S hw hS
      simp only [List.foldl_cons]
      apply ih _ fun v hv => hw v (List.mem_cons_of_mem _ hv)
      rw [c96_round_exact n owner S w (hw w List.mem_cons_self) hS]
      exact good_allWant (hw w List.mem_cons_self)
  rw [List.foldl_append, List.foldl_cons, List.foldl_nil]
  refine c96_round_exact n owner _ last hl (H rounds none hr ?_)
  intro ep hep
  simp at hep

/-- The requests made from the pairs of a search are admissible. -/
theorem elemsToGhost_good (n : ℕ) (owner : E → ℕ) (elemOf : ℕ → E) (pairs : Pairs)
    (hp : ∀ p ∈ pairs, p.1.proc < n) (ho : ∀ p ∈ pairs, owner (elemOf p.2.id) = p.2.proc) :
    GoodWant n owner fun r => elemsToGhost elemOf r pairs := by
  intro r hr ep hep
  simp only [elemsToGhost, localPairs, List.mem_filterMap, List.mem_filter] at hep
  obtain ⟨p, ⟨hpm, _⟩, h⟩ := hep
  split_ifs at h with hc
  simp only [Option.some.injEq] at h
  subst h
  exact ⟨by rw [ho p hpm, hc.1], hc.2, hp p hpm⟩

/-- **C96** The fine search always finds the element behind a candidate face on its own rank: after the ghosting, for
every pair of the search the connected element is owned by the rank of the Gauss point or ghosted to it, and
every ghosted element belongs to some pair. -/
theorem c96_candidates_available (n : ℕ) (owner : E → ℕ) (elemOf : ℕ → E) (pairs : Pairs)
    (hp : ∀ p ∈ pairs, p.1.proc < n ∧ p.2.proc < n) (ho : ∀ p ∈ pairs, owner (elemOf p.2.id) = p.2.proc)
    (S : Option (Finset (E × ℕ))) (hS : GoodState n owner (S.getD ∅)) :
    let S' := (ghostRound n owner S fun r => elemsToGhost elemOf r pairs).getD ∅
    (∀ p ∈ pairs, owner (elemOf p.2.id) = p.1.proc ∨ (elemOf p.2.id, p.1.proc) ∈ S') ∧
    ∀ ep ∈ S', ∃ p ∈ pairs, ep = (elemOf p.2.id, p.1.proc) ∧ p.2.proc ≠ p.1.proc := by
  have hw := elemsToGhost_good n owner elemOf pairs (fun p h => (hp p h).1) ho
  rw [c96_round_exact n owner S _ hw hS]
  simp only [allWant, Finset.mem_biUnion, Finset.mem_range, List.mem_toFinset]
  refine ⟨fun p hpm => ?_, fun ep hep => ?_⟩
  · by_cases h : p.2.proc = p.1.proc
    · exact Or.inl (by rw [ho p hpm, h])
    · right
      refine ⟨p.2.proc, (hp p hpm).2, ?_⟩
      simp only [elemsToGhost, localPairs, List.mem_filterMap, List.mem_filter]
      exact ⟨p, ⟨hpm, by simp⟩, by rw [if_pos ⟨rfl, fun e => h e.symm⟩]⟩
  · obtain ⟨r, _, h⟩ := hep
    simp only [elemsToGhost, localPairs, List.mem_filterMap, List.mem_filter] at h
    obtain ⟨p, ⟨hpm, _⟩, h2⟩ := h
    split_ifs at h2 with hc
    simp only [Option.some.injEq] at h2
    exact ⟨p, hpm, h2.symm, fun e => hc.2 (by rw [← e, hc.1])⟩

/-- Two ranks, a history in which element 1 is ghosted, then dropped for element 2. -/
example : ([fun r => if r = 0 then [(1, 1)] else [], fun r => if r = 0 then [(2, 1), (2, 1)] else []].foldl
    (ghostRound 2 (fun _ : ℕ => 0)) none).getD ∅ = {(2, 1)} := by decide +kernel
example : GoodWant 2 (fun _ : ℕ => 0) (fun r => if r = 0 then [(2, 1), (2, 1)] else []) := by
  intro r hr ep hep
  have : r = 0 ∨ r = 1 := by omega
  rcases this with rfl | rfl
  · simp at hep; subst hep; decide
  · simp at hep

/-- Two points, the second found only after two doublings. -/
example : (dynamicSearch (fun k r => if k.id = 0 ∨ (3 : ℚ) ≤ r then [⟨10 + k.id, 0⟩] else [])
    [(⟨0, 0⟩, 1), (⟨1, 0⟩, 1)]) = some [(⟨0, 0⟩, ⟨10, 0⟩), (⟨1, 0⟩, ⟨11, 0⟩)] := by decide +kernel

/-- Three faces found for point 4 of rank 0, one pair of another rank: the nearest own face is taken. -/
example : (completeSearch 0 true (fun _ f => if f = 21 then (1 / 2 : ℚ) else 3 / 4) (fun _ _ => 1 / 10)
    [(⟨4, 0⟩, ⟨20, 0⟩), (⟨4, 1⟩, ⟨22, 0⟩), (⟨4, 0⟩, ⟨21, 1⟩)] [Dg.reset 1000 false ⟨4, none, 0, 1, [9], []⟩]).map
    (fun l => l.map fun g => (g.opp, g.bestX, g.all, g.old)) = some [(some 21, 1 / 2, [20, 21], [9])] := by
  decide +kernel

end Nalu.NcSearch
