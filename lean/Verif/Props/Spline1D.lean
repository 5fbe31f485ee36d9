import Verif.Props.SplineBasis
import Verif.Props.SplineLU
import Mathlib.Algebra.Polynomial.Eval.Degree

/-! # C156, C157: property tables in one dimension -/

namespace Nalu.BSpline

open Verif.Spec.BSpline Polynomial

variable {K : Type*} [Field K] [LinearOrder K]

/-! ## C157: the order of the data -/

theorem sortUnique_sorted (l : List K) : (sortUnique l).Pairwise (· < ·) := by
  unfold sortUnique
  have h1 : (l.insertionSort (· ≤ ·)).Pairwise (· ≤ ·) := List.pairwise_insertionSort _ _
  have h2 : ((l.insertionSort (· ≤ ·)).destutter (· ≠ ·)).Pairwise (· ≤ ·) :=
    h1.sublist (List.destutter_sublist _ _)
  have h3 : ((l.insertionSort (· ≤ ·)).destutter (· ≠ ·)).IsChain (· ≠ ·) := List.isChain_destutter _ _
  have h4 : ((l.insertionSort (· ≤ ·)).destutter (· ≠ ·)).IsChain (· < ·) := by
    rw [List.isChain_iff_getElem] at h3 ⊢
    intro i hi
    exact lt_of_le_of_ne (List.pairwise_iff_getElem.1 h2 _ _ _ _ (Nat.lt_succ_self i)) (h3 i hi)
  exact List.isChain_iff_pairwise.1 h4

theorem sortUnique_decreasing {l : List K} (h : l.Pairwise (· > ·)) : sortUnique l = l.reverse := by
  have hr : l.reverse.Pairwise (· < ·) := List.pairwise_reverse.2 h
  unfold sortUnique
  have : l.insertionSort (· ≤ ·) = l.reverse :=
    List.Perm.eq_of_pairwise' (List.pairwise_insertionSort _ _) (hr.imp le_of_lt)
      ((List.perm_insertionSort _ _).trans (List.reverse_perm l).symm)
  rw [this]
  exact List.destutter_of_isChain _ _ (List.Pairwise.isChain (hr.imp ne_of_lt))

/-- **C157** (acceptance): data are accepted exactly when the independent variable increases strictly or
decreases strictly; everything else — duplicates, values out of order — is an exception. -/
theorem c157_accepts (x : List K) (y : ℕ → K) :
    (sortInputs x y).isSome ↔ x.Pairwise (· < ·) ∨ x.Pairwise (· > ·) := by
  constructor
  · intro h
    unfold sortInputs at h
    simp only at h
    split at h
    · simp at h
    · split at h
      · rename_i e
        left; rw [e]; exact sortUnique_sorted x
      · split at h
        · rename_i e
          right
          have := sortUnique_sorted x
          rw [← e] at this
          exact List.pairwise_reverse.1 this
        · simp at h
  · rintro (h | h)
    · unfold sortInputs
      simp [sortUnique_strict h]
    · unfold sortInputs
      simp only [sortUnique_decreasing h, List.length_reverse, ne_eq, not_true_eq_false, if_false]
      split <;> simp

/-- **C157** (increasing data): used as they are. -/
theorem c157_increasing {x : List K} (y : ℕ → K) (h : x.Pairwise (· < ·)) : sortInputs x y = some (x, y) := by
  unfold sortInputs; simp [sortUnique_strict h]

/-- **C157** (decreasing data): both variables are reversed. -/
theorem c157_decreasing {x : List K} (y : ℕ → K) (h : x.Pairwise (· > ·)) (hn : 2 ≤ x.length) :
    sortInputs x y = some (x.reverse, fun k => y (x.length - 1 - k)) := by
  unfold sortInputs
  simp only [sortUnique_decreasing h, List.length_reverse, ne_eq, not_true_eq_false, if_false, if_true]
  rw [if_neg]
  intro e
  have h1 : x.Pairwise (· < ·) := by
    rw [e]; exact List.pairwise_reverse.2 h
  have a := List.pairwise_iff_getElem.1 h 0 1 (by omega) (by omega) (by omega)
  have b := List.pairwise_iff_getElem.1 h1 0 1 (by omega) (by omega) (by omega)
  exact absurd a (not_lt.2 b.le)

/-- **C157** (pairs kept together): the ordered data are increasing and contain exactly the data points
given — every point given is found at some place, and every place holds a point given. -/
theorem c157_pairs {x xs : List K} {y ys : ℕ → K} (h : sortInputs x y = some (xs, ys)) :
    xs.Pairwise (· < ·) ∧ xs.Perm x ∧
    (∀ k < x.length, ∃ i < x.length, xs.getD i 0 = x.getD k 0 ∧ ys i = y k) ∧
    ∀ i < x.length, ∃ k < x.length, xs.getD i 0 = x.getD k 0 ∧ ys i = y k := by
  have hs : (sortInputs x y).isSome := by rw [h]; rfl
  have hrev : ∀ k < x.length, x.reverse.getD (x.length - 1 - k) 0 = x.getD k 0 := by
    intro k hk
    simp only [List.getD_eq_getElem?_getD]
    rw [List.getElem?_reverse (by omega)]
    congr 2; omega
  rcases (c157_accepts x y).1 hs with hi | hd
  · rw [c157_increasing y hi] at h
    obtain ⟨rfl, rfl⟩ := Prod.mk.inj (Option.some.inj h)
    exact ⟨hi, List.Perm.refl _, fun k hk => ⟨k, hk, rfl, rfl⟩, fun k hk => ⟨k, hk, rfl, rfl⟩⟩
  · rcases Nat.lt_or_ge x.length 2 with hlt | hge
    · have hi : x.Pairwise (· < ·) := by
        rcases x with _ | ⟨a, _ | ⟨b, l⟩⟩
        · exact List.Pairwise.nil
        · exact List.pairwise_singleton _ _
        · simp at hlt
      rw [c157_increasing y hi] at h
      obtain ⟨rfl, rfl⟩ := Prod.mk.inj (Option.some.inj h)
      exact ⟨hi, List.Perm.refl _, fun k hk => ⟨k, hk, rfl, rfl⟩, fun k hk => ⟨k, hk, rfl, rfl⟩⟩
    · rw [c157_decreasing y hd hge] at h
      obtain ⟨rfl, rfl⟩ := Prod.mk.inj (Option.some.inj h)
      refine ⟨List.pairwise_reverse.2 hd, List.reverse_perm x, fun k hk => ?_, fun k hk => ?_⟩
      · refine ⟨x.length - 1 - k, by omega, hrev k hk, ?_⟩
        have : x.length - 1 - (x.length - 1 - k) = k := by omega
        simp only [this]
      · refine ⟨x.length - 1 - k, by omega, ?_, rfl⟩
        rw [← hrev (x.length - 1 - k) (by omega)]
        have : x.length - 1 - (x.length - 1 - k) = k := by omega
        rw [this]

example : sortInputs ([3, 2, 0] : List ℚ) (fun k => k) ≠ none ∧ sortInputs ([0, 2, 1] : List ℚ) (fun k => k) = none ∧
    sortInputs ([0, 1, 1] : List ℚ) (fun k => k) = none := by
  refine ⟨?_, ?_, ?_⟩
  · have : (sortInputs ([3, 2, 0] : List ℚ) (fun k => k)).isSome :=
      (c157_accepts _ _).2 (Or.inr (by decide +kernel))
    intro h; rw [h] at this; simp at this
  · have : ¬ (sortInputs ([0, 2, 1] : List ℚ) (fun k => k)).isSome := by
      rw [c157_accepts]; decide +kernel
    simpa using this
  · have : ¬ (sortInputs ([0, 1, 1] : List ℚ) (fun k => k)).isSome := by
      rw [c157_accepts]; decide +kernel
    simpa using this

/-! ## Scaling -/

theorem foldl_max_spec (a : K) (l : List K) :
    a ≤ l.foldl max a ∧ (∀ v ∈ l, v ≤ l.foldl max a) ∧ (l.foldl max a = a ∨ l.foldl max a ∈ l) := by
  induction l generalizing a with
  | nil => simp
  | cons b l ih =>
    obtain ⟨h1, h2, h3⟩ := ih (max a b)
    simp only [List.foldl_cons, List.mem_cons]
    refine ⟨(le_max_left a b).trans h1, ?_, ?_⟩
    · rintro v (rfl | hv)
      · exact (le_max_right a v).trans h1
      · exact h2 v hv
    · rcases h3 with h3 | h3
      · rcases max_choice a b with h | h
        · left; rw [h3, h]
        · right; left; rw [h3, h]
      · right; right; exact h3

theorem foldl_min_spec (a : K) (l : List K) :
    l.foldl min a ≤ a ∧ (∀ v ∈ l, l.foldl min a ≤ v) ∧ (l.foldl min a = a ∨ l.foldl min a ∈ l) := by
  induction l generalizing a with
  | nil => simp
  | cons b l ih =>
    obtain ⟨h1, h2, h3⟩ := ih (min a b)
    simp only [List.foldl_cons, List.mem_cons]
    refine ⟨h1.trans (min_le_left a b), ?_, ?_⟩
    · rintro v (rfl | hv)
      · exact h1.trans (min_le_right a v)
      · exact h2 v hv
    · rcases h3 with h3 | h3
      · rcases min_choice a b with h | h
        · left; rw [h3, h]
        · right; left; rw [h3, h]
      · right; right; exact h3

theorem hi_spec {x : List K} (hx : x ≠ []) :
    x.foldl max (x.headD 0) ∈ x ∧ ∀ v ∈ x, v ≤ x.foldl max (x.headD 0) := by
  obtain ⟨_, h2, h3⟩ := foldl_max_spec (x.headD 0) x
  refine ⟨?_, h2⟩
  rcases h3 with h3 | h3
  · rw [h3]
    rcases x with _ | ⟨a, l⟩
    · exact absurd rfl hx
    · simp
  · exact h3

theorem lo_spec {x : List K} (hx : x ≠ []) :
    x.foldl min (x.headD 0) ∈ x ∧ ∀ v ∈ x, x.foldl min (x.headD 0) ≤ v := by
  obtain ⟨_, h2, h3⟩ := foldl_min_spec (x.headD 0) x
  refine ⟨?_, h2⟩
  rcases h3 with h3 | h3
  · rw [h3]
    rcases x with _ | ⟨a, l⟩
    · exact absurd rfl hx
    · simp
  · exact h3

variable [IsStrictOrderedRing K]

/-- The scaled sites of increasing data. -/
theorem scaled_sites {x xs : List K} (hs : xs.Pairwise (· < ·)) (hperm : xs.Perm x) (hn : 2 ≤ x.length) :
    let hi := x.foldl max (x.headD 0)
    let lo := x.foldl min (x.headD 0)
    let uk := xs.map fun v => getUk v hi lo false
    lo < hi ∧ (∀ v ∈ x, lo ≤ v ∧ v ≤ hi) ∧ uk.Pairwise (· < ·) ∧ uk.head? = some 0 ∧ uk.getLast? = some 1 ∧
      xs.head? = some lo ∧ xs.getLast? = some hi := by
  intro hi lo uk
  have hx : x ≠ [] := by intro h; rw [h] at hn; simp at hn
  have hlen : xs.length = x.length := hperm.length_eq
  obtain ⟨hhi1, hhi2⟩ := hi_spec hx
  obtain ⟨hlo1, hlo2⟩ := lo_spec hx
  have hhead : xs.head? = some lo := by
    rw [List.head?_eq_getElem?, List.getElem?_eq_getElem (by omega)]
    congr 1
    have h1 : lo ∈ xs := hperm.mem_iff.2 hlo1
    obtain ⟨i, hi', e⟩ := List.getElem_of_mem h1
    have h2 : lo ≤ xs[0] := hlo2 _ (hperm.mem_iff.1 (List.getElem_mem _))
    rcases Nat.eq_zero_or_pos i with h0 | h0
    · subst h0; exact e
    · have := List.pairwise_iff_getElem.1 hs 0 i (by omega) hi' h0
      rw [e] at this; exact absurd this (not_lt.2 h2)
  have hlast : xs.getLast? = some hi := by
    rw [List.getLast?_eq_getElem?, List.getElem?_eq_getElem (by omega)]
    congr 1
    have h1 : hi ∈ xs := hperm.mem_iff.2 hhi1
    obtain ⟨i, hi', e⟩ := List.getElem_of_mem h1
    have h2 : xs[xs.length - 1] ≤ hi := hhi2 _ (hperm.mem_iff.1 (List.getElem_mem _))
    rcases Nat.lt_or_ge i (xs.length - 1) with h0 | h0
    · have := List.pairwise_iff_getElem.1 hs i (xs.length - 1) hi' (by omega) h0
      rw [e] at this; exact absurd this (not_lt.2 h2)
    · have : i = xs.length - 1 := by omega
      subst this; exact e
  have hlt : lo < hi := by
    have := List.pairwise_iff_getElem.1 hs 0 (xs.length - 1) (by omega) (by omega) (by omega)
    rw [List.head?_eq_getElem?, List.getElem?_eq_getElem (by omega)] at hhead
    rw [List.getLast?_eq_getElem?, List.getElem?_eq_getElem (by omega)] at hlast
    rw [Option.some.inj hhead, Option.some.inj hlast] at this; exact this
  have hpos : 0 < hi - lo := sub_pos.2 hlt
  refine ⟨hlt, fun v hv => ⟨hlo2 v hv, hhi2 v hv⟩, ?_, ?_, ?_, hhead, hlast⟩
  · rw [List.pairwise_map]
    refine hs.imp fun {a b} hab => ?_
    simp only [getUk, Bool.false_eq_true, if_false]
    exact div_lt_div_of_pos_right (sub_lt_sub_right hab lo) hpos
  · rw [List.head?_map, hhead]; simp [getUk]
  · rw [List.getLast?_map, hlast]; simp [getUk, div_self hpos.ne']

/-! ## C156: interpolation -/

omit [IsStrictOrderedRing K] in
theorem collocRow_sum {n p ix : ℕ} (h1 : p ≤ ix) (h2 : ix < n) (N v : ℕ → K) :
    ∑ c ∈ Finset.range n, collocRow ix p N c * v c = ∑ r ∈ Finset.range (p + 1), N r * v (ix - p + r) := by
  have : ∑ r ∈ Finset.range (p + 1), N r * v (ix - p + r)
      = ∑ c ∈ Finset.Ico (ix - p) (ix + 1), collocRow ix p N c * v c := by
    rw [Finset.sum_Ico_eq_sum_range]
    have e : ix + 1 - (ix - p) = p + 1 := by omega
    rw [e]
    refine Finset.sum_congr rfl fun r hr => ?_
    have := Finset.mem_range.1 hr
    unfold collocRow
    rw [if_pos (by omega)]
    have : ix - p + r - (ix - p) = r := by omega
    rw [this]
  rw [this]
  symm
  refine Finset.sum_subset (by intro k hk; simp at hk ⊢; omega) ?_
  intro k _ hk
  simp only [Finset.mem_Ico, not_and, not_lt] at hk
  unfold collocRow
  rw [if_neg (by omega), zero_mul]

/-- The value of the spline with control points `c` at parameter `u`. -/
def evalAt (n p : ℕ) (U : ℕ → K) (c : ℕ → K) (u : K) : K :=
  match findIndx (n + 2) n p u U with
  | none => 0
  | some ix => ∑ r ∈ Finset.range (p + 1), bsplinePiece U ix p (ix - p + r) u * c (ix - p + r)

theorem value_eq {s : Sp1 K} (h : Clamped s.U s.npts s.order) (hp : 1 ≤ s.order) (scratch : ℕ → K) (x : K) :
    s.value scratch x = evalAt s.npts s.order s.U s.cp (getUk x s.hi s.lo s.clip) := by
  obtain ⟨ix, e, h1, h2, _⟩ := c153_find_total h hp (getUk x s.hi s.lo s.clip)
  unfold Sp1.value evalAt
  simp only [e]
  refine Finset.sum_congr rfl fun r hr => ?_
  rw [(basisFuns_eq ix s.order _ s.U scratch h1).1 r (by have := Finset.mem_range.1 hr; omega)]

/-- What the construction yields. -/
theorem build1_some {p : ℕ} {clip : Bool} {x : List K} {y scratch : ℕ → K} {s : Sp1 K}
    (hb : build1 p clip x y scratch = some s) (hp : 1 ≤ p) (hn : p < x.length) :
    ∃ xs ys, sortInputs x y = some (xs, ys) ∧ s.order = p ∧ s.npts = x.length ∧ s.clip = clip ∧
      s.lo < s.hi ∧ (∀ v ∈ x, s.lo ≤ v ∧ v ≤ s.hi) ∧
      s.lo = x.foldl min (x.headD 0) ∧ s.hi = x.foldl max (x.headD 0) ∧
      s.knots = setKnots (xs.map fun v => getUk v s.hi s.lo false) p ∧
      Clamped s.U x.length p ∧
      (∀ i < x.length, evalAt x.length p s.U s.cp (getUk (xs.getD i 0) s.hi s.lo false) = ys i) ∧
      ∀ c : ℕ → K, (∀ i < x.length, evalAt x.length p s.U c (getUk (xs.getD i 0) s.hi s.lo false) = ys i) →
        ∀ i < x.length, s.cp i = c i := by
  unfold build1 at hb
  rcases hsi : sortInputs x y with _ | ⟨xs, ys⟩
  · rw [hsi] at hb; simp at hb
  · rw [hsi] at hb
    simp only at hb
    split at hb
    · simp at hb
    · rename_i cp hsol
      obtain ⟨hstrict, hperm, _⟩ := c157_pairs hsi
      have hlen : xs.length = x.length := hperm.length_eq
      obtain ⟨hlt, hbd, huk, hu0, hu1, _⟩ := scaled_sites hstrict hperm (by omega)
      have hs := (Option.some.inj hb).symm
      set hi := x.foldl max (x.headD 0) with hhi
      set lo := x.foldl min (x.headD 0) with hlo
      set uk := xs.map fun v => getUk v hi lo false with hukdef
      have hukl : uk.length = x.length := by rw [hukdef, List.length_map, hlen]
      obtain ⟨_, hcl, _⟩ := c153_knots hp huk hu0 hu1 (by omega)
      rw [hukl] at hcl
      have hU : s.U = fun k => (setKnots uk p).getD k 0 := by rw [hs]; rfl
      have hukg : ∀ i < x.length, uk.getD i 0 = getUk (xs.getD i 0) hi lo false := by
        intro i hi'
        simp only [List.getD_eq_getElem?_getD, hukdef, List.getElem?_map]
        rw [List.getElem?_eq_getElem (by omega)]; rfl
      have hrow : ∀ (c : ℕ → K), ∀ i < x.length,
          ∑ j ∈ Finset.range x.length, siteRow x.length p (fun k => (setKnots uk p).getD k 0) scratch
            (uk.getD i 0) j * c j
          = evalAt x.length p s.U c (getUk (xs.getD i 0) hi lo false) := by
        intro c i hi'
        rw [hukg i hi', hU]
        obtain ⟨ix, e, h1, h2, _⟩ := c153_find_total hcl hp (getUk (xs.getD i 0) hi lo false)
        unfold evalAt siteRow
        simp only [e]
        rw [collocRow_sum h1 h2]
        refine Finset.sum_congr rfl fun r hr => ?_
        rw [(basisFuns_eq ix p _ _ scratch h1).1 r (by have := Finset.mem_range.1 hr; omega)]
      refine ⟨xs, ys, rfl, ?_, ?_, ?_, ?_, ?_, ?_, ?_, ?_, ?_, ?_, ?_⟩
      · rw [hs]
      · rw [hs]
      · rw [hs]
      · rw [hs]; exact hlt
      · rw [hs]; exact hbd
      · rw [hs]
      · rw [hs]
      · rw [hs]
      · rw [hU]; exact hcl
      · intro i hi'
        have := c155_solves hsol i hi'
        rw [hrow _ i hi'] at this
        rw [← this, hs]
      · intro c hc i hi'
        have hz : Solves x.length (fun i => siteRow x.length p (fun k => (setKnots uk p).getD k 0) scratch
            (uk.getD i 0)) ys c := by
          intro k hk
          rw [hrow c k hk, ← hc k hk, hs]
        have := c155_unique hsol hz i hi'
        rw [← this, hs]

omit [IsStrictOrderedRing K] in
theorem getUk_clip_of_mem {v hi lo : K} (h : lo ≤ v ∧ v ≤ hi) (clip : Bool) :
    getUk v hi lo clip = getUk v hi lo false := by
  unfold getUk
  cases clip
  · rfl
  · simp only [if_true]; rw [max_eq_left h.1, min_eq_left h.2]; simp

/-- **C156** (interpolation): a table that could be built returns, at every data point, the value given
there — for increasing and decreasing data, with and without clipping, and for any earlier lookups. -/
theorem c156_interpolates {p : ℕ} {clip : Bool} {x : List K} {y scratch : ℕ → K} {s : Sp1 K}
    (hb : build1 p clip x y scratch = some s) (hp : 1 ≤ p) (hn : p < x.length) (scratch' : ℕ → K)
    {k : ℕ} (hk : k < x.length) : s.value scratch' (x.getD k 0) = y k := by
  obtain ⟨xs, ys, hsi, ho, hnp, hc, _, hbd, _, _, _, hcl, hint, _⟩ := build1_some hb hp hn
  obtain ⟨_, _, hpair, _⟩ := c157_pairs hsi
  obtain ⟨i, hi, e1, e2⟩ := hpair k hk
  have hmem : x.getD k 0 ∈ x := by
    rw [List.getD_eq_getElem?_getD, List.getElem?_eq_getElem hk]; exact List.getElem_mem _
  rw [value_eq (by rw [ho, hnp]; exact hcl) (by rw [ho]; exact hp), getUk_clip_of_mem (hbd _ hmem), ho, hnp,
    ← e1, hint i hi, e2]

/-- Control points of a polynomial. -/
theorem evalAt_poly {U : ℕ → K} {n p : ℕ} (h : Clamped U n p) (hp : 1 ≤ p) (f : K[X]) (hf : f.natDegree ≤ p) :
    ∃ c : ℕ → K, ∀ u, evalAt n p U c u = f.eval u := by
  obtain ⟨c, hc⟩ := c154_polynomials h f hf
  refine ⟨c, fun u => ?_⟩
  obtain ⟨ix, e, h1, h2, _⟩ := c153_find_total h hp u
  unfold evalAt
  simp only [e]
  rw [← hc ix h1 h2 u 0]
  refine Finset.sum_congr rfl fun r hr => ?_
  rw [(basisFuns_eq ix p u U 0 h1).1 r (by have := Finset.mem_range.1 hr; omega)]

theorem evalAt_congr {U : ℕ → K} {n p : ℕ} (h : Clamped U n p) (hp : 1 ≤ p) {c d : ℕ → K}
    (he : ∀ i < n, c i = d i) (u : K) : evalAt n p U c u = evalAt n p U d u := by
  obtain ⟨ix, e, h1, h2, _⟩ := c153_find_total h hp u
  unfold evalAt
  simp only [e]
  refine Finset.sum_congr rfl fun r hr => ?_
  rw [he _ (by have := Finset.mem_range.1 hr; omega)]

/-- The argument after clipping. -/
def clipped (clip : Bool) (lo hi x : K) : K := if clip then min (max x lo) hi else x

omit [IsStrictOrderedRing K] in
theorem getUk_clipped (clip : Bool) (lo hi x : K) : getUk x hi lo clip = getUk (clipped clip lo hi x) hi lo false := by
  unfold getUk clipped; cases clip <;> simp

/-- **C156** (polynomials): data taken from a polynomial of degree at most the order are reproduced
everywhere: at every argument without clipping, and at the clipped argument with it. -/
theorem c156_polynomials {p : ℕ} {clip : Bool} {x : List K} {y scratch : ℕ → K} {s : Sp1 K}
    (hb : build1 p clip x y scratch = some s) (hp : 1 ≤ p) (hn : p < x.length) (f : K[X]) (hf : f.natDegree ≤ p)
    (hy : ∀ k < x.length, y k = f.eval (x.getD k 0)) (scratch' : ℕ → K) (t : K) :
    s.value scratch' t = f.eval (clipped clip s.lo s.hi t) := by
  obtain ⟨xs, ys, hsi, ho, hnp, hc, hlt, hbd, _, _, _, hcl, hint, huniq⟩ := build1_some hb hp hn
  obtain ⟨_, _, _, hpair⟩ := c157_pairs hsi
  have hne : s.hi - s.lo ≠ 0 := (sub_pos.2 hlt).ne'
  -- the polynomial in the scaled variable
  let g : K[X] := f.comp (C (s.hi - s.lo) * X + C s.lo)
  have hg : ∀ v, g.eval (getUk v s.hi s.lo false) = f.eval v := by
    intro v
    simp only [g, eval_comp, eval_add, eval_mul, eval_C, eval_X, getUk, Bool.false_eq_true, if_false]
    congr 1
    rw [mul_div_cancel₀ _ hne]; ring
  have hgd : g.natDegree ≤ p := by
    refine (natDegree_comp_le).trans ?_
    have : (C (s.hi - s.lo) * X + C s.lo : K[X]).natDegree ≤ 1 := natDegree_linear_le
    calc f.natDegree * _ ≤ f.natDegree * 1 := Nat.mul_le_mul_left _ this
      _ ≤ p := by omega
  obtain ⟨c, hcg⟩ := evalAt_poly hcl hp g hgd
  have hcp : ∀ i < x.length, s.cp i = c i := by
    refine huniq c fun i hi => ?_
    rw [hcg, hg]
    obtain ⟨k, hk, e1, e2⟩ := hpair i hi
    rw [e1, e2, hy k hk]
  rw [value_eq (by rw [ho, hnp]; exact hcl) (by rw [ho]; exact hp), ho, hnp,
    evalAt_congr hcl hp hcp, hcg, getUk_clipped, hc, hg]

/-- **C156** (constant data): a table of a constant is that constant everywhere. -/
theorem c156_constant {p : ℕ} {clip : Bool} {x : List K} {y scratch : ℕ → K} {s : Sp1 K}
    (hb : build1 p clip x y scratch = some s) (hp : 1 ≤ p) (hn : p < x.length) (a : K)
    (hy : ∀ k < x.length, y k = a) (scratch' : ℕ → K) (t : K) : s.value scratch' t = a := by
  rw [c156_polynomials hb hp hn (C a) (by simp) (by simpa using hy), eval_C]

/-- **C156** (clipping): with clipping an argument outside the data gives the value at the nearest end. -/
theorem c156_clipping {p : ℕ} {x : List K} {y scratch : ℕ → K} {s : Sp1 K}
    (hb : build1 p true x y scratch = some s) (hp : 1 ≤ p) (hn : p < x.length) (scratch' : ℕ → K) (t : K) :
    s.value scratch' t = s.value scratch' (min (max t s.lo) s.hi) ∧
    ((∀ v ∈ x, t ≤ v) → ∀ k < x.length, (∀ v ∈ x, x.getD k 0 ≤ v) → s.value scratch' t = y k) ∧
    ((∀ v ∈ x, v ≤ t) → ∀ k < x.length, (∀ v ∈ x, v ≤ x.getD k 0) → s.value scratch' t = y k) := by
  obtain ⟨xs, ys, hsi, ho, hnp, hc, hlt, hbd, hlo, hhi, _, hcl, _⟩ := build1_some hb hp hn
  have hcl' : Clamped s.U s.npts s.order := by rw [ho, hnp]; exact hcl
  have hp' : 1 ≤ s.order := by rw [ho]; exact hp
  have hx : x ≠ [] := by intro h; rw [h] at hn; simp at hn
  have key : s.value scratch' t = s.value scratch' (min (max t s.lo) s.hi) := by
    rw [value_eq hcl' hp', value_eq hcl' hp', hc]
    congr 1
    unfold getUk
    simp only [if_true]
    congr 2
    rw [max_eq_left (le_min (le_max_right _ _) hlt.le), min_eq_left (min_le_right _ _)]
  have hget : ∀ k < x.length, x.getD k 0 ∈ x := by
    intro k hk
    rw [List.getD_eq_getElem?_getD, List.getElem?_eq_getElem hk]; exact List.getElem_mem _
  refine ⟨key, fun ht k hk hmin => ?_, fun ht k hk hmax => ?_⟩
  · have h1 : s.lo ∈ x := by rw [hlo]; exact (lo_spec hx).1
    have h2 : x.getD k 0 = s.lo := le_antisymm (hmin _ h1) (hbd _ (hget k hk)).1
    rw [key, max_eq_right (ht _ h1), min_eq_left hlt.le, ← h2]
    exact c156_interpolates hb hp hn scratch' hk
  · have h1 : s.hi ∈ x := by rw [hhi]; exact (hi_spec hx).1
    have h2 : x.getD k 0 = s.hi := le_antisymm (hbd _ (hget k hk)).2 (hmax _ h1)
    rw [key, min_eq_right ((ht _ h1).trans (le_max_left _ _)), ← h2]
    exact c156_interpolates hb hp hn scratch' hk

/-- **C156** (bounds): within the data range a lookup stays between the smallest and the largest control
point. -/
theorem c156_hull {p : ℕ} {clip : Bool} {x : List K} {y scratch : ℕ → K} {s : Sp1 K}
    (hb : build1 p clip x y scratch = some s) (hp : 1 ≤ p) (hn : p < x.length) {a b : K}
    (hab : ∀ i < x.length, a ≤ s.cp i ∧ s.cp i ≤ b) (scratch' : ℕ → K) {t : K} (ht : s.lo ≤ t ∧ t ≤ s.hi) :
    a ≤ s.value scratch' t ∧ s.value scratch' t ≤ b := by
  obtain ⟨xs, ys, hsi, ho, hnp, hc, hlt, hbd, _, _, _, hcl, _⟩ := build1_some hb hp hn
  rw [value_eq (by rw [ho, hnp]; exact hcl) (by rw [ho]; exact hp), ho, hnp, getUk_clip_of_mem ht]
  have hpos := sub_pos.2 hlt
  set u := getUk t s.hi s.lo false with hu
  have hu0 : 0 ≤ u := by
    rw [hu]; simp only [getUk, Bool.false_eq_true, if_false]
    exact div_nonneg (sub_nonneg.2 ht.1) hpos.le
  have hu1 : u ≤ 1 := by
    rw [hu]; simp only [getUk, Bool.false_eq_true, if_false]
    rw [div_le_one hpos]; exact sub_le_sub_right ht.2 _
  obtain ⟨ix, e, h1, h2, h3, h4⟩ := c153_find_total hcl hp u
  obtain ⟨h5, h6⟩ := h4 hu0 hu1
  unfold evalAt
  simp only [e]
  have hpart := piece_partition s.U ix p u h1 (hcl.distinct h1 h2)
  have hsp := span_sum s.U ix p u h1 (fun _ => 1) (ix + 1) (by omega)
  simp only [mul_one] at hsp
  rw [hsp] at hpart
  have hnn : ∀ r, 0 ≤ bsplinePiece s.U ix p (ix - p + r) u := fun r =>
    piece_nonneg hcl h1 h2 h5 h6 p le_rfl _
  constructor
  · calc a = ∑ r ∈ Finset.range (p + 1), bsplinePiece s.U ix p (ix - p + r) u * a := by
          rw [← Finset.sum_mul, hpart, one_mul]
      _ ≤ _ := Finset.sum_le_sum fun r hr => by
          have := Finset.mem_range.1 hr
          exact mul_le_mul_of_nonneg_left (hab _ (by omega)).1 (hnn r)
  · calc _ ≤ ∑ r ∈ Finset.range (p + 1), bsplinePiece s.U ix p (ix - p + r) u * b :=
          Finset.sum_le_sum fun r hr => by
            have := Finset.mem_range.1 hr
            exact mul_le_mul_of_nonneg_left (hab _ (by omega)).2 (hnn r)
      _ = b := by rw [← Finset.sum_mul, hpart, one_mul]

/-- **C156** (success depends on the abscissae only): whether a table can be built does not depend on the
dependent variable or on clipping. -/
theorem c156_success_of_sites (p : ℕ) (clip clip' : Bool) (x : List K) (y y' scratch : ℕ → K) :
    (build1 p clip x y scratch).isSome = (build1 p clip' x y' scratch).isSome := by
  unfold build1
  have hsi : ∀ y y' : ℕ → K, (∃ xs ys ys', sortInputs x y = some (xs, ys) ∧ sortInputs x y' = some (xs, ys'))
      ∨ (sortInputs x y = none ∧ sortInputs x y' = none) := by
    intro y y'
    unfold sortInputs
    simp only
    split
    · right; exact ⟨rfl, rfl⟩
    · split
      · left; exact ⟨_, _, _, rfl, rfl⟩
      · split
        · left; exact ⟨_, _, _, rfl, rfl⟩
        · right; exact ⟨rfl, rfl⟩
  rcases hsi y y' with ⟨xs, ys, ys', h1, h2⟩ | ⟨h1, h2⟩
  · rw [h1, h2]
    simp only
    have := c155_success_of_matrix x.length (fun i => siteRow x.length p
      (fun k => (setKnots (xs.map fun v => getUk v (x.foldl max (x.headD 0)) (x.foldl min (x.headD 0)) false) p).getD k 0)
      scratch
      ((xs.map fun v => getUk v (x.foldl max (x.headD 0)) (x.foldl min (x.headD 0)) false).getD i 0)) ys ys'
    revert this
    generalize solve x.length _ ys = a
    generalize solve x.length _ ys' = b
    cases a <;> cases b <;> simp
  · rw [h1, h2]

/-- **C156** (superposition): the table of a combination of two data sets is the combination of their tables. -/
theorem c156_linear {p : ℕ} {clip : Bool} {x : List K} {y z w scratch : ℕ → K} {s t v : Sp1 K}
    (hs : build1 p clip x y scratch = some s) (ht : build1 p clip x z scratch = some t)
    (hv : build1 p clip x w scratch = some v) (hp : 1 ≤ p) (hn : p < x.length) (a b : K)
    (hw : ∀ k < x.length, w k = a * y k + b * z k) (sc : ℕ → K) (q : K) :
    v.value sc q = a * s.value sc q + b * t.value sc q := by
  obtain ⟨xs, ys, hsi, ho, hnp, hc, hlt, hbd, hlo, hhi, hkn, hcl, hint, huniq⟩ := build1_some hs hp hn
  obtain ⟨xs2, zs, hsi2, ho2, hnp2, hc2, _, _, hlo2, hhi2, hkn2, hcl2, hint2, _⟩ := build1_some ht hp hn
  obtain ⟨xs3, ws, hsi3, ho3, hnp3, hc3, _, _, hlo3, hhi3, hkn3, hcl3, hint3, huniq3⟩ := build1_some hv hp hn
  -- the sites are the same
  have hsame : xs = xs2 ∧ xs = xs3 ∧ ∀ i < x.length, ws i = a * ys i + b * zs i := by
    have hsome : (sortInputs x y).isSome := by rw [hsi]; rfl
    rcases (c157_accepts x y).1 hsome with hi | hd
    · rw [c157_increasing _ hi] at hsi hsi2 hsi3
      obtain ⟨rfl, rfl⟩ := Prod.mk.inj (Option.some.inj hsi)
      obtain ⟨rfl, rfl⟩ := Prod.mk.inj (Option.some.inj hsi2)
      obtain ⟨rfl, rfl⟩ := Prod.mk.inj (Option.some.inj hsi3)
      exact ⟨rfl, rfl, hw⟩
    · rw [c157_decreasing _ hd (by omega)] at hsi hsi2 hsi3
      obtain ⟨rfl, rfl⟩ := Prod.mk.inj (Option.some.inj hsi)
      obtain ⟨rfl, rfl⟩ := Prod.mk.inj (Option.some.inj hsi2)
      obtain ⟨rfl, rfl⟩ := Prod.mk.inj (Option.some.inj hsi3)
      exact ⟨rfl, rfl, fun i hi => hw _ (by omega)⟩
  obtain ⟨rfl, rfl, hws⟩ := hsame
  have hU2 : t.U = s.U := by
    funext k; unfold Sp1.U; rw [hkn, hkn2, hlo, hhi, hlo2, hhi2]
  have hU3 : v.U = s.U := by
    funext k; unfold Sp1.U; rw [hkn, hkn3, hlo, hhi, hlo3, hhi3]
  have hcomb : ∀ u, evalAt x.length p s.U (fun i => a * s.cp i + b * t.cp i) u
      = a * evalAt x.length p s.U s.cp u + b * evalAt x.length p s.U t.cp u := by
    intro u
    unfold evalAt
    split
    · simp
    · rw [Finset.mul_sum, Finset.mul_sum, ← Finset.sum_add_distrib]
      exact Finset.sum_congr rfl fun r _ => by ring
  have hcp : ∀ i < x.length, v.cp i = a * s.cp i + b * t.cp i := by
    refine huniq3 _ fun i hi => ?_
    rw [hU3, hcomb, hlo3, hhi3, ← hlo, ← hhi, hint i hi]
    have := hint2 i hi
    rw [hU2, hlo2, hhi2, ← hlo, ← hhi] at this
    rw [this, hws i hi]
  rw [value_eq (s := v) (by rw [ho3, hnp3]; exact hcl3) (by rw [ho3]; exact hp),
    value_eq (s := s) (by rw [ho, hnp]; exact hcl) (by rw [ho]; exact hp),
    value_eq (s := t) (by rw [ho2, hnp2]; exact hcl2) (by rw [ho2]; exact hp), ho, hnp, ho2, hnp2, ho3, hnp3, hU2, hU3,
    evalAt_congr hcl hp hcp, hcomb, hc, hc2, hc3, hlo, hhi, hlo2, hhi2, hlo3, hhi3]

theorem build1_reverse {p : ℕ} (clip : Bool) {x : List K} (y scratch : ℕ → K) (h : x.Pairwise (· < ·))
    (hn : 2 ≤ x.length) :
    build1 p clip x.reverse (fun k => y (x.length - 1 - k)) scratch
      = build1 p clip x (fun k => y (x.length - 1 - (x.length - 1 - k))) scratch := by
  have hd : x.reverse.Pairwise (· > ·) := List.pairwise_reverse.2 h
  unfold build1
  rw [c157_decreasing _ hd (by simpa using hn), c157_increasing _ h, List.reverse_reverse, List.length_reverse]
  have hx : x ≠ [] := by intro e; rw [e] at hn; simp at hn
  have hx' : x.reverse ≠ [] := by simpa using hx
  have hhi : x.reverse.foldl max (x.reverse.headD 0) = x.foldl max (x.headD 0) := by
    obtain ⟨a1, a2⟩ := hi_spec hx
    obtain ⟨b1, b2⟩ := hi_spec hx'
    exact le_antisymm (a2 _ (List.mem_reverse.1 b1)) (b2 _ (List.mem_reverse.2 a1))
  have hlo : x.reverse.foldl min (x.reverse.headD 0) = x.foldl min (x.headD 0) := by
    obtain ⟨a1, a2⟩ := lo_spec hx
    obtain ⟨b1, b2⟩ := lo_spec hx'
    exact le_antisymm (b2 _ (List.mem_reverse.2 a1)) (a2 _ (List.mem_reverse.1 b1))
  simp only [hhi, hlo]

/-- **C156** (direction): data listed in decreasing order give the same table as the same data listed in
increasing order. -/
theorem c156_direction {p : ℕ} {clip : Bool} {x : List K} {y scratch : ℕ → K} {s t : Sp1 K}
    (h : x.Pairwise (· < ·)) (hp : 1 ≤ p) (hn : p < x.length) (hs : build1 p clip x y scratch = some s)
    (ht : build1 p clip x.reverse (fun k => y (x.length - 1 - k)) scratch = some t) (sc : ℕ → K) (q : K) :
    t.value sc q = s.value sc q := by
  rw [build1_reverse clip y scratch h (by omega)] at ht
  have := c156_linear hs hs ht hp hn 1 0 (fun k hk => by
    have : x.length - 1 - (x.length - 1 - k) = k := by omega
    rw [this]; ring) sc q
  rw [this]; ring

end Nalu.BSpline
