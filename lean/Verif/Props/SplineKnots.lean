import Verif.Model.BSpline
import Mathlib.Algebra.Order.BigOperators.Group.Finset
import Mathlib.Algebra.Order.Ring.Rat
import Mathlib.Tactic.FieldSimp
import Mathlib.Tactic.Ring
import Mathlib.Tactic.Linarith
import Mathlib.Tactic.NormNum
import Mathlib.Tactic.Positivity
import Mathlib.Tactic.GCongr

/-! # C153: knot vectors and the search for the knot span -/

namespace Nalu.BSpline

variable {K : Type*} [Field K] [LinearOrder K]

/-- Specification: a clamped knot vector for `n` control points and order `p`, on `[0, 1]`. -/
structure Clamped (U : ℕ → K) (n p : ℕ) : Prop where
  first : ∀ k ≤ p, U k = 0
  inc : ∀ k, p ≤ k → k < n → U k < U (k + 1)
  last : ∀ k, n ≤ k → k ≤ n + p → U k = 1

/-- The search terminates and returns an interval containing `u`, whatever the vector is, when the two ends
bracket `u`. -/
theorem findLoop_spec (u : K) (U : ℕ → K) (fuel low high : ℕ) (hl : U low ≤ u) (hh : u < U high)
    (hlt : low < high) (hf : high - low ≤ fuel) :
    ∃ ix, findLoop u U fuel low high = some ix ∧ low ≤ ix ∧ ix < high ∧ U ix ≤ u ∧ u < U (ix + 1) := by
  induction fuel generalizing low high with
  | zero => omega
  | succ fuel ih =>
    simp only [findLoop]
    set mid := (low + high) / 2 with hm
    have h1 : low ≤ mid := by omega
    have h2 : mid < high := by omega
    by_cases ha : u < U mid
    · rw [if_pos (Or.inl ha), if_pos ha]
      have hne : low ≠ mid := by
        intro h; rw [← h] at ha; exact absurd hl (not_le.2 ha)
      obtain ⟨ix, e, p1, p2, p3⟩ := ih low mid hl ha (by omega) (by omega)
      exact ⟨ix, e, p1, by omega, p3⟩
    · by_cases hb : U (mid + 1) ≤ u
      · rw [if_pos (Or.inr hb), if_neg ha]
        have hne : low ≠ mid := by
          intro h
          have : mid + 1 = high := by omega
          rw [this] at hb; exact absurd hh (not_lt.2 hb)
        obtain ⟨ix, e, p1, p2⟩ := ih mid high (not_lt.1 ha) hh h2 (by omega)
        exact ⟨ix, e, by omega, p2⟩
      · rw [if_neg (by tauto)]
        exact ⟨mid, rfl, h1, h2, not_lt.1 ha, not_le.1 hb⟩

variable [IsStrictOrderedRing K]

theorem Clamped.lt {U : ℕ → K} {n p : ℕ} (h : Clamped U n p) : p < n := by
  by_contra hc
  have h1 := h.first n (by omega)
  have h2 := h.last n le_rfl (by omega)
  rw [h1] at h2; exact zero_ne_one h2

theorem Clamped.strict {U : ℕ → K} {n p : ℕ} (h : Clamped U n p) {a b : ℕ} (hp : p ≤ a) (hab : a < b)
    (hb : b ≤ n) : U a < U b := by
  induction b, hab using Nat.le_induction with
  | base => exact h.inc a hp (by omega)
  | succ b hab ih => exact lt_trans (ih (by omega)) (h.inc b (by omega) (by omega))

theorem Clamped.mono {U : ℕ → K} {n p : ℕ} (h : Clamped U n p) {a b : ℕ} (hab : a ≤ b) (hb : b ≤ n + p) :
    U a ≤ U b := by
  have hpn := h.lt
  have key : ∀ c, p ≤ c → c ≤ n → 0 ≤ U c ∧ U c ≤ 1 := by
    intro c h1 h2
    constructor
    · rcases Nat.eq_or_lt_of_le h1 with e | e
      · rw [← e, h.first p le_rfl]
      · rw [← h.first p le_rfl]; exact (h.strict le_rfl e h2).le
    · rcases Nat.eq_or_lt_of_le h2 with e | e
      · rw [e, h.last n le_rfl (by omega)]
      · rw [← h.last n le_rfl (by omega)]; exact (h.strict h1 e le_rfl).le
  rcases Nat.le_total a p with ha | ha
  · rw [h.first a ha]
    rcases Nat.le_total b p with hb' | hb'
    · rw [h.first b hb']
    · rcases Nat.le_total b n with hb'' | hb''
      · exact (key b hb' hb'').1
      · rw [h.last b hb'' hb]; exact zero_le_one
  · rcases Nat.le_total b n with hb' | hb'
    · rcases Nat.eq_or_lt_of_le hab with e | e
      · rw [e]
      · exact (h.strict ha e hb').le
    · rw [h.last b hb' hb]
      rcases Nat.le_total a n with ha' | ha'
      · exact (key a ha ha').2
      · rw [h.last a ha' (by omega)]

/-- **C153** (search, interior): for every parameter strictly between the ends the search terminates and
returns the knot span that contains it, with all `p+1` control points of the span inside the table. -/
theorem c153_find_span {U : ℕ → K} {n p : ℕ} (h : Clamped U n p) (hp : 1 ≤ p) {u : K} (h0 : 0 < u) (h1 : u < 1) :
    ∃ ix, findIndx (n + 2) n p u U = some ix ∧ p ≤ ix ∧ ix < n ∧ U ix ≤ u ∧ u < U (ix + 1) := by
  have hlast : U (n + 1) = 1 := h.last _ (by omega) (by omega)
  unfold findIndx
  rw [h.first 0 (by omega), if_neg (not_le.2 h0), hlast, if_neg (not_le.2 h1)]
  obtain ⟨ix, e, a, b, c, d⟩ := findLoop_spec u U (n + 2) p (n + 1) (by rw [h.first p le_rfl]; exact h0.le)
    (by rw [hlast]; exact h1) (by have := h.lt; omega) (by omega)
  refine ⟨ix, e, a, ?_, c, d⟩
  by_contra hc
  have : ix = n := by omega
  subst this
  rw [h.last ix le_rfl (by omega)] at c
  exact absurd h1 (not_lt.2 c)

/-- **C153** (search, outside): parameters at or below the first end use the first span, parameters at or
above the last end the last span. -/
theorem c153_find_ends {U : ℕ → K} {n p : ℕ} (h : Clamped U n p) (hp : 1 ≤ p) (u : K) :
    (u ≤ 0 → findIndx (n + 2) n p u U = some p) ∧ (1 ≤ u → findIndx (n + 2) n p u U = some (n - 1)) := by
  have hlast : U (n + 1) = 1 := h.last _ (by omega) (by omega)
  constructor
  · intro hu
    unfold findIndx
    rw [h.first 0 (by omega), if_pos hu]
  · intro hu
    unfold findIndx
    rw [h.first 0 (by omega), if_neg (not_le.2 (lt_of_lt_of_le zero_lt_one hu)), hlast, if_pos hu]

/-- **C153** (search, every parameter): the search always terminates; the span found is not empty and its
control points exist. -/
theorem c153_find_total {U : ℕ → K} {n p : ℕ} (h : Clamped U n p) (hp : 1 ≤ p) (u : K) :
    ∃ ix, findIndx (n + 2) n p u U = some ix ∧ p ≤ ix ∧ ix < n ∧ U ix < U (ix + 1) ∧
      (0 ≤ u → u ≤ 1 → U ix ≤ u ∧ u ≤ U (ix + 1)) := by
  have hpn := h.lt
  rcases le_or_gt u 0 with h0 | h0
  · refine ⟨p, (c153_find_ends h hp u).1 h0, le_rfl, hpn, h.inc p le_rfl hpn, fun h0' _ => ?_⟩
    have : u = 0 := le_antisymm h0 h0'
    rw [this, h.first p le_rfl]
    refine ⟨le_rfl, ?_⟩
    have := h.inc p le_rfl hpn
    rw [h.first p le_rfl] at this; exact this.le
  · rcases lt_or_ge u 1 with h1 | h1
    · obtain ⟨ix, e, a, b, c, d⟩ := c153_find_span h hp h0 h1
      exact ⟨ix, e, a, b, lt_of_le_of_lt c d, fun _ _ => ⟨c, d.le⟩⟩
    · have hi := h.inc (n - 1) (by omega) (by omega)
      have hn : n - 1 + 1 = n := by omega
      refine ⟨n - 1, (c153_find_ends h hp u).2 h1, by omega, by omega, hi, fun _ h1' => ?_⟩
      have : u = 1 := le_antisymm h1' h1
      rw [hn, h.last n le_rfl (by omega)] at hi ⊢
      rw [this]; exact ⟨hi.le, le_rfl⟩

/-- **C153** (only one span): no other span contains the parameter. -/
theorem c153_span_unique {U : ℕ → K} {n p : ℕ} (h : Clamped U n p) {u : K} {i k : ℕ} (hi : i < n + p)
    (hk : k < n + p) (h1 : U i ≤ u) (h2 : u < U (i + 1)) (h3 : U k ≤ u) (h4 : u < U (k + 1)) : i = k := by
  rcases lt_trichotomy i k with hlt | he | hlt
  · exact absurd (lt_of_lt_of_le h2 (h.mono hlt hk.le)) (not_lt.2 h3)
  · exact he
  · exact absurd (lt_of_lt_of_le h4 (h.mono hlt hi.le)) (not_lt.2 h1)

/-! ## The knot vector -/

omit [IsStrictOrderedRing K] in
theorem sortUnique_strict {l : List K} (h : l.Pairwise (· < ·)) : sortUnique l = l := by
  unfold sortUnique
  rw [List.Pairwise.insertionSort_eq (h.imp le_of_lt)]
  exact List.destutter_of_isChain _ _ (List.Pairwise.isChain (h.imp ne_of_lt))

/-- Interior averages of strictly increasing sites between the ends increase strictly, and lie inside. -/
theorem knotAvg_lt {uk : List K} {p : ℕ} (hp : 1 ≤ p) (h : uk.Pairwise (· < ·)) {j : ℕ}
    (hj : j + p < uk.length) : knotAvg p uk j < knotAvg p uk (j + 1) := by
  have hpos : (0 : K) < p := by exact_mod_cast hp
  unfold knotAvg
  have hlt : ∀ m < p, uk.getD (j + m) 0 < uk.getD (j + 1 + m) 0 := by
    intro m hm
    simp only [List.getD_eq_getElem?_getD]
    rw [List.getElem?_eq_getElem (by omega), List.getElem?_eq_getElem (by omega)]
    exact List.pairwise_iff_getElem.1 h _ _ _ _ (by omega)
  have : ∑ m ∈ Finset.range p, uk.getD (j + m) 0 < ∑ m ∈ Finset.range p, uk.getD (j + 1 + m) 0 :=
    Finset.sum_lt_sum_of_nonempty ⟨0, Finset.mem_range.2 hp⟩ fun m hm => hlt m (Finset.mem_range.1 hm)
  exact div_lt_div_of_pos_right this hpos

theorem getD_bounds {uk : List K} (h : uk.Pairwise (· < ·)) (h0 : uk.head? = some 0)
    (h1 : uk.getLast? = some 1) {k : ℕ} (hk : 0 < k) (hk2 : k + 1 < uk.length) :
    0 < uk.getD k 0 ∧ uk.getD k 0 < 1 := by
  simp only [List.getD_eq_getElem?_getD]
  rw [List.getElem?_eq_getElem (by omega)]
  simp only [Option.getD_some]
  constructor
  · have := List.pairwise_iff_getElem.1 h 0 k (by omega) (by omega) hk
    rw [List.head?_eq_getElem?, List.getElem?_eq_getElem (by omega)] at h0
    rw [Option.some.inj h0] at this; exact this
  · have := List.pairwise_iff_getElem.1 h k (uk.length - 1) (by omega) (by omega) (by omega)
    rw [List.getLast?_eq_getElem?, List.getElem?_eq_getElem (by omega)] at h1
    rw [Option.some.inj h1] at this; exact this

theorem knotAvg_pos {uk : List K} {p : ℕ} (hp : 1 ≤ p) (h : uk.Pairwise (· < ·)) (h0 : uk.head? = some 0)
    (h1 : uk.getLast? = some 1) {j : ℕ} (hj : 0 < j) (hj2 : j + p < uk.length) :
    0 < knotAvg p uk j ∧ knotAvg p uk j < 1 := by
  have hpos : (0 : K) < p := by exact_mod_cast hp
  unfold knotAvg
  constructor
  · refine div_pos (Finset.sum_pos (fun m hm => ?_) ⟨0, Finset.mem_range.2 hp⟩) hpos
    have := Finset.mem_range.1 hm
    exact (getD_bounds h h0 h1 (by omega) (by omega)).1
  · rw [div_lt_one hpos]
    have : (p : K) = ∑ _m ∈ Finset.range p, (1 : K) := by simp
    rw [this]
    refine Finset.sum_lt_sum_of_nonempty ⟨0, Finset.mem_range.2 hp⟩ fun m hm => ?_
    have := Finset.mem_range.1 hm
    exact (getD_bounds h h0 h1 (by omega) (by omega)).2

/-- The step of the knot loop. -/
def knotStep (order : ℕ) (uksrt : List K) (knots : List K) (j : ℕ) : List K :=
  let tmp := knotAvg order uksrt j
  if tmp ∈ knots then knots else knots ++ [tmp]

theorem knotAvg_strict {uk : List K} {p : ℕ} (hp : 1 ≤ p) (h : uk.Pairwise (· < ·)) {i j : ℕ} (hij : i < j)
    (hj : j + p ≤ uk.length) : knotAvg p uk i < knotAvg p uk j := by
  induction j, hij using Nat.le_induction with
  | base => exact knotAvg_lt hp h (by omega)
  | succ j hij ih => exact lt_trans (ih (by omega)) (knotAvg_lt hp h (by omega))

theorem knotLoop_eq {uk : List K} {p : ℕ} (hp : 1 ≤ p) (h : uk.Pairwise (· < ·)) (h0 : uk.head? = some 0)
    (h1 : uk.getLast? = some 1) (m : ℕ) (hm : m + p < uk.length) :
    (List.range' 1 m).foldl (knotStep p uk) (List.replicate (p + 1) 0)
      = List.replicate (p + 1) 0 ++ (List.range' 1 m).map (knotAvg p uk) := by
  induction m with
  | zero => simp
  | succ m ih =>
    rw [List.range'_1_concat, List.foldl_append, ih (by omega), List.map_append]
    simp only [List.foldl_cons, List.foldl_nil, List.map_cons, List.map_nil, knotStep]
    rw [if_neg, List.append_assoc]
    simp only [List.mem_append, List.mem_replicate, List.mem_map, not_or, not_and, not_exists]
    constructor
    · intro _
      exact (knotAvg_pos hp h h0 h1 (by omega) (by omega)).1.ne'
    · intro k hk
      simp only [List.mem_range'_1] at hk
      exact (knotAvg_strict hp h (by omega) (by omega)).ne

theorem setKnots_eq {uk : List K} {p : ℕ} (hp : 1 ≤ p) (h : uk.Pairwise (· < ·)) (h0 : uk.head? = some 0)
    (h1 : uk.getLast? = some 1) (hn : p < uk.length) :
    setKnots uk p = List.replicate (p + 1) 0 ++ (List.range' 1 (uk.length - p - 1)).map (knotAvg p uk)
      ++ List.replicate (p + 1) 1 := by
  unfold setKnots
  rw [sortUnique_strict h]
  simp only
  have := knotLoop_eq hp h h0 h1 (uk.length - p - 1) (by omega)
  unfold knotStep at this
  simp only at this
  rw [this]

/-- **C153** (knot vector): for strictly increasing sites scaled to `[0, 1]`, more of them than the order,
the knot vector is clamped, has `n + p + 1` entries, none of its interior averages is discarded, and its
interior entries are the averages of `p` consecutive sites. -/
theorem c153_knots {uk : List K} {p : ℕ} (hp : 1 ≤ p) (h : uk.Pairwise (· < ·)) (h0 : uk.head? = some 0)
    (h1 : uk.getLast? = some 1) (hn : p < uk.length) :
    (setKnots uk p).length = uk.length + p + 1 ∧
    Clamped (fun k => (setKnots uk p).getD k 0) uk.length p ∧
    ∀ j, 1 ≤ j → j + p < uk.length → (setKnots uk p).getD (p + j) 0
      = (∑ m ∈ Finset.range p, uk.getD (j + m) 0) / p := by
  have e := setKnots_eq hp h h0 h1 hn
  have hlen : (setKnots uk p).length = uk.length + p + 1 := by
    rw [e]; simp; omega
  have hget : ∀ k, (setKnots uk p).getD k 0 =
      if k ≤ p then 0 else if k < uk.length then knotAvg p uk (k - p) else if k ≤ uk.length + p then 1 else 0 := by
    intro k
    rw [e, List.getD_eq_getElem?_getD]
    split
    · rename_i hk
      rw [List.getElem?_append_left (by simp; omega), List.getElem?_append_left (by simp; omega),
        List.getElem?_replicate, if_pos (by omega)]
      rfl
    · rename_i hk
      split
      · rename_i hk2
        rw [List.getElem?_append_left (by simp; omega), List.getElem?_append_right (by simp; omega),
          List.getElem?_map, List.getElem?_range']
        · simp; congr 1; omega
        · simp; omega
      · rename_i hk2
        rw [List.getElem?_append_right (by simp; omega)]
        split
        · rename_i hk3
          rw [List.getElem?_replicate, if_pos (by simp; omega)]; rfl
        · rename_i hk3
          rw [List.getElem?_replicate, if_neg (by simp; omega)]; rfl
  refine ⟨hlen, ⟨?_, ?_, ?_⟩, ?_⟩
  · intro k hk
    simp only [hget k, if_pos hk]
  · intro k hpk hkn
    simp only [hget k, hget (k + 1)]
    rw [if_neg (by omega : ¬ k + 1 ≤ p), if_pos hkn]
    by_cases e1 : k ≤ p
    · have : k = p := by omega
      rw [if_pos e1]
      by_cases e2 : k + 1 < uk.length
      · rw [if_pos e2]; exact (knotAvg_pos hp h h0 h1 (by omega) (by omega)).1
      · rw [if_neg e2, if_pos (by omega)]; exact zero_lt_one
    · rw [if_neg e1]
      by_cases e2 : k + 1 < uk.length
      · rw [if_pos e2]
        have : k + 1 - p = k - p + 1 := by omega
        rw [this]
        exact knotAvg_lt hp h (by omega)
      · rw [if_neg e2, if_pos (by omega)]
        exact (knotAvg_pos hp h h0 h1 (by omega) (by omega)).2
  · intro k hnk hk
    simp only [hget k]
    rw [if_neg (by omega), if_neg (by omega), if_pos hk]
  · intro j hj hj2
    rw [hget, if_neg (by omega), if_pos (by omega)]
    have : p + j - p = j := by omega
    rw [this]; rfl

/-- A concrete set of sites. -/
def exSites : List ℚ := [0, 1/4, 1/2, 7/10, 1]

example : exSites.Pairwise (· < ·) ∧ exSites.head? = some 0 ∧ exSites.getLast? = some 1 ∧ 2 < exSites.length := by
  decide +kernel

example : setKnots exSites 2 = [0, 0, 0, 3/8, 3/5, 1, 1, 1] := by decide +kernel

example : findIndx 7 5 2 (1/2 : ℚ) (fun k => (setKnots exSites 2).getD k 0) = some 3 := by decide +kernel

/-- **C153** (limits): with no more sites than the order the vector is too short for the search: the code
then uses control points that do not exist.  Two sites and order 3: the first parameter is given the span of
the control points `0..3`, and the last parameter a span that starts two places before control point `0`. -/
theorem c153_too_few_sites :
    findIndx 4 2 3 (0 : ℚ) (fun k => (setKnots [0, 1] 3).getD k 0) = some 3 ∧
    findIndx 4 2 3 (1 : ℚ) (fun k => (setKnots [0, 1] 3).getD k 0) = some 1 := by decide +kernel

omit [IsStrictOrderedRing K] in
/-- **C153** (limits): order 0 tables read one knot beyond the end of the vector, for every number of sites. -/
theorem c153_order_zero_reads_outside {uk : List K} (h : uk.Pairwise (· < ·)) (hne : uk ≠ []) :
    (setKnots uk 0).length ≤ uk.length + 1 := by
  rcases uk with _ | ⟨a, l⟩
  · exact absurd rfl hne
  · unfold setKnots
    rw [sortUnique_strict h]
    simp only [List.length_append, List.length_replicate]
    have : ∀ (n : ℕ) (s : ℕ) (init : List K),
        ((List.range' s n).foldl (fun knots j =>
          let tmp := knotAvg 0 (a :: l) j
          if tmp ∈ knots then knots else knots ++ [tmp]) init).length ≤ init.length + n := by
      intro n
      induction n with
      | zero => intro s init; simp
      | succ n ih =>
        intro s init
        rw [List.range'_succ, List.foldl_cons]
        refine (ih _ _).trans ?_
        simp only
        split
        · omega
        · simp; omega
    have := this ((a :: l).length - 0 - 1) 1 (List.replicate (0 + 1) 0)
    simp only [List.length_replicate, List.length_cons] at this ⊢
    omega

end Nalu.BSpline
