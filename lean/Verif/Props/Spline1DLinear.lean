import Verif.Props.Spline1D

/-! # C156: tables of order one -/

namespace Nalu.BSpline

open Verif.Spec.BSpline

variable {K : Type*} [Field K] [LinearOrder K] [IsStrictOrderedRing K]

/-- Knots of order one are the sites. -/
theorem knots_one {uk : List K} (h : uk.Pairwise (· < ·)) (h0 : uk.head? = some 0)
    (h1 : uk.getLast? = some 1) (hn : 1 < uk.length) {k : ℕ} (hk : k < uk.length) :
    (setKnots uk 1).getD (k + 1) 0 = uk.getD k 0 := by
  obtain ⟨_, hcl, havg⟩ := c153_knots le_rfl h h0 h1 hn
  rcases Nat.eq_zero_or_pos k with rfl | hpos
  · have := hcl.first 1 le_rfl
    rw [this, List.getD_eq_getElem?_getD, ← List.head?_eq_getElem?, h0]; rfl
  · rcases Nat.lt_or_ge (k + 1) uk.length with hlt | hge
    · have := havg k hpos hlt
      rw [add_comm k 1, this]; simp
    · have e : k = uk.length - 1 := by omega
      have := hcl.last (k + 1) (by omega) (by omega)
      rw [this, List.getD_eq_getElem?_getD, e, ← List.getLast?_eq_getElem?, h1]; rfl

theorem piece_one (U : ℕ → K) (i : ℕ) (u : K) :
    bsplinePiece U (i + 1) 1 i u = (U (i + 2) - u) / (U (i + 2) - U (i + 1)) ∧
    bsplinePiece U (i + 1) 1 (i + 1) u = (u - U (i + 1)) / (U (i + 2) - U (i + 1)) := by
  simp [bsplinePiece, coxDeBoor]

/-- Lookup of order one in terms of the sites. -/
theorem evalAt_one {uk : List K} (h : uk.Pairwise (· < ·)) (h0 : uk.head? = some 0)
    (h1 : uk.getLast? = some 1) (hn : 1 < uk.length) (c : ℕ → K) {k : ℕ} (hk : k + 1 < uk.length) {u : K}
    (ha : uk.getD k 0 ≤ u) (hb : u < uk.getD (k + 1) 0) :
    evalAt uk.length 1 (fun k => (setKnots uk 1).getD k 0) c u
      = (uk.getD (k + 1) 0 - u) / (uk.getD (k + 1) 0 - uk.getD k 0) * c k
        + (u - uk.getD k 0) / (uk.getD (k + 1) 0 - uk.getD k 0) * c (k + 1) := by
  obtain ⟨_, hcl, _⟩ := c153_knots le_rfl h h0 h1 hn
  have e1 := knots_one h h0 h1 hn (show k < uk.length by omega)
  have e2 := knots_one h h0 h1 hn hk
  set U : ℕ → K := fun k => (setKnots uk 1).getD k 0 with hU
  have hu0 : 0 ≤ u := by
    refine le_trans ?_ ha
    rw [← e1]
    have := hcl.mono (Nat.zero_le (k + 1)) (by omega)
    rw [hcl.first 0 (by omega)] at this; exact this
  have hu1 : u < 1 := by
    refine lt_of_lt_of_le hb ?_
    rw [← e2]
    have := hcl.mono (show k + 1 + 1 ≤ uk.length + 1 by omega) le_rfl
    rw [hcl.last (uk.length + 1) (by omega) le_rfl] at this; exact this
  obtain ⟨ix, e, p1, p2, p3, p4⟩ := c153_find_total hcl le_rfl u
  obtain ⟨q1, q2⟩ := p4 hu0 hu1.le
  have hix : ix = k + 1 := by
    rcases le_or_gt u 0 with hz | hz
    · have := (c153_find_ends hcl le_rfl u).1 hz
      rw [this] at e
      have e3 := Option.some.inj e
      -- the first site is 0, so k = 0
      by_contra hne
      have hkpos : 0 < k := by omega
      have hlt : uk.getD 0 0 < uk.getD k 0 := by
        simp only [List.getD_eq_getElem?_getD]
        rw [List.getElem?_eq_getElem (by omega), List.getElem?_eq_getElem (by omega)]
        exact List.pairwise_iff_getElem.1 h _ _ _ _ hkpos
      rw [List.getD_eq_getElem?_getD, ← List.head?_eq_getElem?, h0] at hlt
      simp only [Option.getD_some] at hlt
      exact absurd (lt_of_lt_of_le hlt (ha.trans hz)) (lt_irrefl _)
    · obtain ⟨ix', e', a1, a2, a3, a4⟩ := c153_find_span hcl le_rfl hz hu1
      rw [e] at e'
      have := Option.some.inj e'
      subst this
      exact c153_span_unique hcl (by omega) (by omega) a3 a4 (by rw [hU]; simp only; rw [e1]; exact ha)
        (by rw [hU]; simp only; rw [e2]; exact hb)
  subst hix
  unfold evalAt
  simp only [e]
  rw [Finset.sum_range_succ, Finset.sum_range_one]
  have r1 : k + 1 - 1 + 0 = k := by omega
  have r2 : k + 1 - 1 + 1 = k + 1 := by omega
  rw [r1, r2, (piece_one U k u).1, (piece_one U k u).2]
  have r3 : U (k + 2) = uk.getD (k + 1) 0 := e2
  have r4 : U (k + 1) = uk.getD k 0 := e1
  rw [r3, r4]

/-- Lookup of order one at a site. -/
theorem evalAt_one_site {uk : List K} (h : uk.Pairwise (· < ·)) (h0 : uk.head? = some 0)
    (h1 : uk.getLast? = some 1) (hn : 1 < uk.length) (c : ℕ → K) {k : ℕ} (hk : k < uk.length) :
    evalAt uk.length 1 (fun k => (setKnots uk 1).getD k 0) c (uk.getD k 0) = c k := by
  have hstrict : ∀ a b, a < b → b < uk.length → uk.getD a 0 < uk.getD b 0 := by
    intro a b hab hb
    simp only [List.getD_eq_getElem?_getD]
    rw [List.getElem?_eq_getElem (by omega), List.getElem?_eq_getElem (by omega)]
    exact List.pairwise_iff_getElem.1 h _ _ _ _ hab
  rcases Nat.lt_or_ge (k + 1) uk.length with hlt | hge
  · have hl := hstrict k (k + 1) (by omega) hlt
    rw [evalAt_one h h0 h1 hn c hlt le_rfl hl, div_self (sub_pos.2 hl).ne', sub_self, zero_div]; ring
  · have e : k = uk.length - 1 := by omega
    have hone : uk.getD k 0 = 1 := by
      rw [List.getD_eq_getElem?_getD, e, ← List.getLast?_eq_getElem?, h1]; rfl
    obtain ⟨_, hcl, _⟩ := c153_knots le_rfl h h0 h1 hn
    have e2 := knots_one h h0 h1 hn hk
    set U : ℕ → K := fun k => (setKnots uk 1).getD k 0 with hU
    have hf := (c153_find_ends hcl le_rfl (uk.getD k 0)).2 hone.ge
    unfold evalAt
    simp only [hf]
    rw [Finset.sum_range_succ, Finset.sum_range_one]
    obtain ⟨m, rfl⟩ : ∃ m, k = m + 1 := ⟨k - 1, by omega⟩
    have r0 : uk.length - 1 = m + 1 := by omega
    rw [r0]
    have r1 : m + 1 - 1 + 0 = m := by omega
    have r2 : m + 1 - 1 + 1 = m + 1 := by omega
    rw [r1, r2, (piece_one U m _).1, (piece_one U m _).2]
    have r3 : U (m + 2) = uk.getD (m + 1) 0 := e2
    have hne : uk.getD (m + 1) 0 - U (m + 1) ≠ 0 := by
      have := hcl.inc (m + 1) (by omega) (by omega)
      rw [r3] at this; exact (sub_pos.2 this).ne'
    rw [r3, sub_self, zero_div, div_self hne]; ring

theorem solve_of_identity_rows (n : ℕ) (A : ℕ → ℕ → K) (b : ℕ → K)
    (h : ∀ (c : ℕ → K), ∀ i < n, ∑ j ∈ Finset.range n, A i j * c j = c i) :
    ∃ x, solve n A b = some x ∧ ∀ i < n, x i = b i := by
  refine c155_identity n A b fun i hi j hj => ?_
  have := h (fun k => if k = j then 1 else 0) i hi
  simp only [mul_ite, mul_one, mul_zero, Finset.sum_ite_eq', Finset.mem_range, if_pos hj] at this
  exact this

/-- **C156** (order one always works): for strictly monotone data with at least two points a table of order
one can always be built, and between two neighbouring data points it is the straight line through them. -/
theorem c156_order_one (clip : Bool) {x : List K} (y scratch : ℕ → K)
    (hx : x.Pairwise (· < ·) ∨ x.Pairwise (· > ·)) (hn : 2 ≤ x.length) :
    ∃ s, build1 1 clip x y scratch = some s ∧
      ∀ (scratch' : ℕ → K) (k : ℕ), k + 1 < x.length → ∀ t,
        (x.getD k 0 ≤ t ∧ t ≤ x.getD (k + 1) 0 ∨ x.getD (k + 1) 0 ≤ t ∧ t ≤ x.getD k 0) →
        s.value scratch' t
          = y k + (t - x.getD k 0) / (x.getD (k + 1) 0 - x.getD k 0) * (y (k + 1) - y k) := by
  -- the system is the identity
  have hex : ∃ s, build1 1 clip x y scratch = some s := by
    obtain ⟨⟨xs, ys⟩, hsi⟩ := Option.isSome_iff_exists.1 ((c157_accepts x y).2 hx)
    obtain ⟨hstrict, hperm, _⟩ := c157_pairs hsi
    have hlen : xs.length = x.length := hperm.length_eq
    obtain ⟨hlt, hbd, huk, hu0, hu1, _⟩ := scaled_sites hstrict hperm hn
    unfold build1
    rw [hsi]
    simp only
    set uk := xs.map fun v => getUk v (x.foldl max (x.headD 0)) (x.foldl min (x.headD 0)) false with hukd
    have hukl : uk.length = x.length := by rw [hukd, List.length_map, hlen]
    obtain ⟨_, hcl, _⟩ := c153_knots le_rfl huk hu0 hu1 (by omega)
    rw [hukl] at hcl
    obtain ⟨cp, hcp, -⟩ := solve_of_identity_rows x.length
      (fun i => siteRow x.length 1 (fun k => (setKnots uk 1).getD k 0) scratch (uk.getD i 0)) ys (by
        intro c i hi
        have hs := evalAt_one_site huk hu0 hu1 (by omega) c (show i < uk.length by omega)
        rw [hukl] at hs
        rw [← hs]
        obtain ⟨ix, e, h1, h2, _⟩ := c153_find_total hcl le_rfl (uk.getD i 0)
        unfold evalAt siteRow
        simp only [e]
        rw [collocRow_sum h1 h2]
        refine Finset.sum_congr rfl fun r hr => ?_
        rw [(basisFuns_eq ix 1 _ _ scratch h1).1 r (by have := Finset.mem_range.1 hr; omega)])
    rw [hcp]
    exact ⟨_, rfl⟩
  obtain ⟨s, hs⟩ := hex
  refine ⟨s, hs, fun sc k hk t ht => ?_⟩
  -- the increasing lists
  obtain ⟨xs, ys, hsi, ho, hnp, hc, hlt, hbd, hlo, hhi, hkn, hcl, hint, _⟩ := build1_some hs le_rfl (by omega)
  obtain ⟨hstrict, hperm, _⟩ := c157_pairs hsi
  have hlen : xs.length = x.length := hperm.length_eq
  obtain ⟨_, _, huk, hu0, hu1, _⟩ := scaled_sites hstrict hperm hn
  rw [← hlo, ← hhi] at huk hu0 hu1
  set uk := xs.map fun v => getUk v s.hi s.lo false with hukd
  have hukl : uk.length = x.length := by rw [hukd, List.length_map, hlen]
  have hU : s.U = fun k => (setKnots uk 1).getD k 0 := by funext k; unfold Sp1.U; rw [hkn]
  have hukg : ∀ i < x.length, uk.getD i 0 = getUk (xs.getD i 0) s.hi s.lo false := by
    intro i hi'
    simp only [List.getD_eq_getElem?_getD, hukd, List.getElem?_map]
    rw [List.getElem?_eq_getElem (by omega)]; rfl
  have hcpy : ∀ i < x.length, s.cp i = ys i := by
    intro i hi
    rw [← hint i hi, hU, ← hukl, ← hukg i hi]
    exact (evalAt_one_site huk hu0 hu1 (by omega) s.cp (by omega)).symm
  have hpos := sub_pos.2 hlt
  -- between two sites of the increasing list
  have main : ∀ j, j + 1 < x.length → ∀ t, xs.getD j 0 ≤ t → t ≤ xs.getD (j + 1) 0 →
      s.value sc t = ys j + (t - xs.getD j 0) / (xs.getD (j + 1) 0 - xs.getD j 0) * (ys (j + 1) - ys j) := by
    intro j hj t h1 h2
    have hgt : xs.getD j 0 < xs.getD (j + 1) 0 := by
      simp only [List.getD_eq_getElem?_getD]
      rw [List.getElem?_eq_getElem (by omega), List.getElem?_eq_getElem (by omega)]
      exact List.pairwise_iff_getElem.1 hstrict _ _ _ _ (by omega)
    have hmem : ∀ i < x.length, s.lo ≤ xs.getD i 0 ∧ xs.getD i 0 ≤ s.hi := by
      intro i hi
      refine hbd _ (hperm.mem_iff.1 ?_)
      rw [List.getD_eq_getElem?_getD, List.getElem?_eq_getElem (by omega)]; exact List.getElem_mem _
    have htm : s.lo ≤ t ∧ t ≤ s.hi := ⟨(hmem j (by omega)).1.trans h1, h2.trans (hmem (j + 1) hj).2⟩
    rw [value_eq (by rw [ho, hnp]; exact hcl) (by rw [ho]), ho, hnp, getUk_clip_of_mem htm, hU]
    have hgd : xs.getD (j + 1) 0 - xs.getD j 0 ≠ 0 := (sub_pos.2 hgt).ne'
    rcases lt_or_eq_of_le h2 with hl | he
    · rw [← hukl]
      rw [evalAt_one huk hu0 hu1 (by omega) s.cp (k := j) (by omega)
        (by rw [hukg j (by omega)]
            simp only [getUk, Bool.false_eq_true, if_false]
            exact div_le_div_of_nonneg_right (sub_le_sub_right h1 _) hpos.le)
        (by rw [hukg (j + 1) (by omega)]
            simp only [getUk, Bool.false_eq_true, if_false]
            exact div_lt_div_of_pos_right (sub_lt_sub_right hl _) hpos)]
      rw [hukg j (by omega), hukg (j + 1) hj, hcpy j (by omega), hcpy (j + 1) hj]
      simp only [getUk, Bool.false_eq_true, if_false]
      have hp1 := hpos.ne'
      have e1 : (xs.getD (j + 1) 0 - s.lo) / (s.hi - s.lo) - (xs.getD j 0 - s.lo) / (s.hi - s.lo)
          = (xs.getD (j + 1) 0 - xs.getD j 0) / (s.hi - s.lo) := by rw [← sub_div]; congr 1; ring
      have e2 : (xs.getD (j + 1) 0 - s.lo) / (s.hi - s.lo) - (t - s.lo) / (s.hi - s.lo)
          = (xs.getD (j + 1) 0 - t) / (s.hi - s.lo) := by rw [← sub_div]; congr 1; ring
      have e3 : (t - s.lo) / (s.hi - s.lo) - (xs.getD j 0 - s.lo) / (s.hi - s.lo)
          = (t - xs.getD j 0) / (s.hi - s.lo) := by rw [← sub_div]; congr 1; ring
      rw [e1, e2, e3, div_div_div_cancel_right₀ hp1, div_div_div_cancel_right₀ hp1]
      field_simp
      ring
    · rw [he, div_self hgd, ← hukg (j + 1) hj, ← hukl, evalAt_one_site huk hu0 hu1 (by omega) s.cp (by omega),
        hcpy (j + 1) hj]
      ring
  rcases hx with hi | hd
  · rw [c157_increasing _ hi] at hsi
    obtain ⟨rfl, rfl⟩ := Prod.mk.inj (Option.some.inj hsi)
    have hgt : x.getD k 0 < x.getD (k + 1) 0 := by
      simp only [List.getD_eq_getElem?_getD]
      rw [List.getElem?_eq_getElem (by omega), List.getElem?_eq_getElem (by omega)]
      exact List.pairwise_iff_getElem.1 hi _ _ _ _ (by omega)
    rcases ht with ht | ht
    · exact main k hk t ht.1 ht.2
    · exact absurd (ht.1.trans ht.2) (not_le.2 hgt)
  · rw [c157_decreasing _ hd hn] at hsi
    obtain ⟨rfl, rfl⟩ := Prod.mk.inj (Option.some.inj hsi)
    have hgt : x.getD (k + 1) 0 < x.getD k 0 := by
      simp only [List.getD_eq_getElem?_getD]
      rw [List.getElem?_eq_getElem (by omega), List.getElem?_eq_getElem (by omega)]
      exact List.pairwise_iff_getElem.1 hd _ _ _ _ (by omega)
    have hrev : ∀ k < x.length, x.reverse.getD (x.length - 1 - k) 0 = x.getD k 0 := by
      intro k hk
      simp only [List.getD_eq_getElem?_getD]
      rw [List.getElem?_reverse (by omega)]
      congr 2; omega
    rcases ht with ht | ht
    · exact absurd (ht.1.trans ht.2) (not_le.2 hgt)
    · have e1 : x.length - 1 - (k + 1) + 1 = x.length - 1 - k := by omega
      have e2 : x.length - 1 - (x.length - 1 - (k + 1)) = k + 1 := by omega
      have e3 : x.length - 1 - (x.length - 1 - k) = k := by omega
      have := main (x.length - 1 - (k + 1)) (by omega) t (by rw [hrev _ hk]; exact ht.1)
        (by rw [e1, hrev _ (by omega)]; exact ht.2)
      rw [this, e1, hrev _ hk, hrev _ (by omega)]
      beta_reduce
      rw [e2, e3]
      have hne : x.getD k 0 - x.getD (k + 1) 0 ≠ 0 := (sub_pos.2 hgt).ne'
      have hne' : x.getD (k + 1) 0 - x.getD k 0 ≠ 0 := (sub_neg.2 hgt).ne
      field_simp
      ring

/-- A table of order three over five points can be built: the hypotheses of the other theorems are met. -/
def exX : List ℚ := [1, 2, 4, 5, 8]

example : (build1 3 false exX (fun k => k * k) 0).isSome = true := by decide +kernel
example : (build1 2 true exX (fun k => k * k) 0).isSome = true := by decide +kernel
example : (build1 2 true exX.reverse (fun k => k * k) 0).isSome = true := by decide +kernel

end Nalu.BSpline
