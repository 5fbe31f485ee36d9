import Verif.Spec.BSpline
import Verif.Props.SplineKnots
import Mathlib.Algebra.Polynomial.Roots
import Mathlib.Algebra.Polynomial.BigOperators
import Mathlib.Tactic.LinearCombination
import Mathlib.Data.Nat.Choose.Sum
import Mathlib.Algebra.CharZero.Infinite
import Mathlib.Algebra.BigOperators.Field

/-! # C154: the basis functions of the property tables -/

namespace Nalu.BSpline

open Verif.Spec.BSpline Polynomial

section field
variable {K : Type*} [Field K]

/-- State of the inner loop of pass `j`. -/
theorem basisStep_loop (left right : ℕ → K) (j : ℕ) (N : ℕ → K) (m : ℕ) :
    let t := fun r => N r / (right (r + 1) + left (j - r))
    let s := (List.range m).foldl (basisStep left right j) (N, 0)
    s.2 = (if m = 0 then 0 else left (j - (m - 1)) * t (m - 1)) ∧
    ∀ r, s.1 r = if r < m then (if r = 0 then 0 else left (j - (r - 1)) * t (r - 1)) + right (r + 1) * t r
      else N r := by
  intro t
  induction m with
  | zero => simp
  | succ m ih =>
    simp only at ih ⊢
    rw [List.range_succ, List.foldl_append]
    simp only [List.foldl_cons, List.foldl_nil]
    set s := (List.range m).foldl (basisStep left right j) (N, 0)
    obtain ⟨h1, h2⟩ := ih
    have hm : s.1 m = N m := by rw [h2 m, if_neg (by omega)]
    refine ⟨?_, ?_⟩
    · simp [basisStep, hm, t]
    · intro r
      simp only [basisStep, set]
      by_cases hr : r = m
      · subst hr
        rw [if_pos rfl, if_pos (by omega), h1, hm]
      · rw [if_neg hr, h2 r]
        by_cases h : r < m
        · rw [if_pos h, if_pos (show r < m + 1 by omega)]
        · rw [if_neg h, if_neg (show ¬ r < m + 1 by omega)]

theorem piece_support (U : ℕ → K) (i : ℕ) (u : K) (p k : ℕ) (h : ¬ (k ≤ i ∧ i ≤ k + p)) :
    bsplinePiece U i p k u = 0 := by
  unfold bsplinePiece
  induction p generalizing k with
  | zero => simp only [coxDeBoor]; rw [if_neg (by omega)]
  | succ p ih =>
    simp only [coxDeBoor]
    rw [ih k (by omega), ih (k + 1) (by omega)]; ring

theorem piece_succ (U : ℕ → K) (i : ℕ) (u : K) (p k : ℕ) :
    bsplinePiece U i (p + 1) k u = (u - U k) / (U (k + p + 1) - U k) * bsplinePiece U i p k u
      + (U (k + p + 2) - u) / (U (k + p + 2) - U (k + 1)) * bsplinePiece U i p (k + 1) u := rfl

theorem basisPass_eq (i : ℕ) (u : K) (U N : ℕ → K) (j : ℕ) (hj : j + 1 ≤ i)
    (hN : ∀ r ≤ j, N r = bsplinePiece U i j (i - j + r) u) :
    (∀ r ≤ j + 1, basisPass i u U N (j + 1) r = bsplinePiece U i (j + 1) (i - (j + 1) + r) u) ∧
    ∀ r, j + 1 < r → basisPass i u U N (j + 1) r = N r := by
  obtain ⟨h1, h2⟩ := basisStep_loop (fun m => u - U (i + 1 - m)) (fun m => U (i + m) - u) (j + 1) N (j + 1)
  have ht : ∀ r ≤ j, N r / (U (i + (r + 1)) - u + (u - U (i + 1 - (j + 1 - r))))
      = bsplinePiece U i j (i - j + r) u / (U (i - j + r + j + 1) - U (i - j + r)) := by
    intro r hr
    rw [hN r hr]
    have e1 : i + (r + 1) = i - j + r + j + 1 := by omega
    have e2 : i + 1 - (j + 1 - r) = i - j + r := by omega
    rw [e1, e2]; congr 1; ring
  have hA : ∀ r ≤ j, (if r = 0 then (0 : K) else (u - U (i + 1 - (j + 1 - (r - 1)))) *
      (N (r - 1) / (U (i + (r - 1 + 1)) - u + (u - U (i + 1 - (j + 1 - (r - 1)))))))
      = (u - U (i - (j + 1) + r)) / (U (i - (j + 1) + r + j + 1) - U (i - (j + 1) + r))
          * bsplinePiece U i j (i - (j + 1) + r) u := by
    intro r hr
    split
    · rename_i h0
      rw [piece_support U i u j _ (by omega), mul_zero]
    · rename_i h0
      rw [ht (r - 1) (by omega)]
      have e1 : i - j + (r - 1) = i - (j + 1) + r := by omega
      have e2 : i + 1 - (j + 1 - (r - 1)) = i - (j + 1) + r := by omega
      rw [e1, e2]; ring
  constructor
  · intro r hr
    simp only [basisPass, set]
    rw [piece_succ]
    by_cases hr' : r = j + 1
    · rw [if_pos hr', h1, if_neg (by omega)]
      simp only [Nat.add_sub_cancel]
      rw [ht j le_rfl, piece_support U i u j (i - (j + 1) + r + 1) (by omega), mul_zero, add_zero]
      have e1 : i - j + j = i - (j + 1) + r := by omega
      have e2 : i + 1 - (j + 1 - j) = i - (j + 1) + r := by omega
      rw [e1, e2]; ring
    · rw [if_neg hr', h2 r, if_pos (by omega), hA r (by omega)]
      beta_reduce
      rw [ht r (by omega)]
      have e1 : i + (r + 1) = i - j + r + j + 1 := by omega
      have e3 : i - (j + 1) + r + 1 = i - j + r := by omega
      have e4 : i - (j + 1) + r + j + 2 = i - j + r + j + 1 := by omega
      rw [e1, e3, e4]; ring
  · intro r hr
    simp only [basisPass, set]
    rw [if_neg (by omega), h2 r, if_neg (by omega)]

theorem basisFuns_eq (i p : ℕ) (u : K) (U N : ℕ → K) (hp : p ≤ i) :
    (∀ r ≤ p, basisFuns i p u U N r = bsplinePiece U i p (i - p + r) u) ∧
    ∀ r, p < r → basisFuns i p u U N r = N r := by
  induction p with
  | zero =>
    constructor
    · intro r hr
      have : r = 0 := by omega
      subst this
      simp [basisFuns, set, bsplinePiece, coxDeBoor]
    · intro r hr
      simp only [basisFuns, List.range_zero, List.foldl_nil, set]
      rw [if_neg (by omega)]
  | succ p ih =>
    obtain ⟨h1, h2⟩ := ih (by omega)
    have e : basisFuns i (p + 1) u U N = basisPass i u U (basisFuns i p u U N) (p + 1) := by
      simp only [basisFuns, List.range_succ, List.foldl_append, List.foldl_cons, List.foldl_nil]
    obtain ⟨g1, g2⟩ := basisPass_eq i u U (basisFuns i p u U N) p (by omega) h1
    rw [e]
    exact ⟨g1, fun r hr => by rw [g2 r hr, h2 r (by omega)]⟩

/-- The sum over the span in terms of all basis functions. -/
theorem span_sum (U : ℕ → K) (i p : ℕ) (u : K) (hp : p ≤ i) (g : ℕ → K) (n : ℕ) (hn : i < n) :
    ∑ k ∈ Finset.range n, bsplinePiece U i p k u * g k
      = ∑ r ∈ Finset.range (p + 1), bsplinePiece U i p (i - p + r) u * g (i - p + r) := by
  have : ∑ r ∈ Finset.range (p + 1), bsplinePiece U i p (i - p + r) u * g (i - p + r)
      = ∑ k ∈ Finset.Ico (i - p) (i + 1), bsplinePiece U i p k u * g k := by
    rw [Finset.sum_Ico_eq_sum_range]
    have : i + 1 - (i - p) = p + 1 := by omega
    rw [this]
  rw [this]
  symm
  refine Finset.sum_subset (by intro k hk; simp at hk ⊢; omega) ?_
  intro k _ hk
  simp only [Finset.mem_Ico, not_and, not_lt] at hk
  rw [piece_support U i u p k (by omega), zero_mul]

/-- The recursion, summed against arbitrary weights. -/
theorem piece_sum_succ (U : ℕ → K) (i p : ℕ) (u : K) (hp : p + 1 ≤ i) (g : ℕ → K) :
    ∑ k ∈ Finset.range (i + 1), bsplinePiece U i (p + 1) k u * g k
      = ∑ k ∈ Finset.range i, bsplinePiece U i p (k + 1) u *
          ((u - U (k + 1)) / (U (k + 1 + p + 1) - U (k + 1)) * g (k + 1)
            + (U (k + 1 + p + 1) - u) / (U (k + 1 + p + 1) - U (k + 1)) * g k) := by
  have e : ∀ k, bsplinePiece U i (p + 1) k u * g k
      = (u - U k) / (U (k + p + 1) - U k) * bsplinePiece U i p k u * g k
        + (U (k + 1 + p + 1) - u) / (U (k + 1 + p + 1) - U (k + 1)) * bsplinePiece U i p (k + 1) u * g k := by
    intro k
    rw [piece_succ]
    have e4 : k + 1 + p + 1 = k + p + 2 := by omega
    rw [e4]; ring
  simp only [e, Finset.sum_add_distrib]
  rw [Finset.sum_range_succ' (fun k => (u - U k) / (U (k + p + 1) - U k) * bsplinePiece U i p k u * g k),
    Finset.sum_range_succ (fun k => (U (k + 1 + p + 1) - u) / (U (k + 1 + p + 1) - U (k + 1))
      * bsplinePiece U i p (k + 1) u * g k)]
  rw [piece_support U i u p 0 (by omega), piece_support U i u p (i + 1) (by omega)]
  simp only [mul_zero, zero_mul, add_zero]
  rw [← Finset.sum_add_distrib]
  exact Finset.sum_congr rfl fun k _ => by ring

/-- Knots that the basis functions of span `i` divide by are distinct. -/
def Distinct (U : ℕ → K) (i p : ℕ) : Prop := ∀ j < p, ∀ k, k ≤ i → i ≤ k + j → U (k + j + 1) - U k ≠ 0

theorem piece_partition (U : ℕ → K) (i p : ℕ) (u : K) (hp : p ≤ i) (hd : Distinct U i p) :
    ∑ k ∈ Finset.range (i + 1), bsplinePiece U i p k u = 1 := by
  induction p with
  | zero => simp [bsplinePiece, coxDeBoor]
  | succ p ih =>
    have h := piece_sum_succ U i p u hp (fun _ => 1)
    simp only [mul_one] at h
    rw [h, ← ih (by omega) (fun j hj => hd j (by omega)), Finset.sum_range_succ' _ i,
      piece_support U i u p 0 (by omega), add_zero]
    refine Finset.sum_congr rfl fun k _ => ?_
    by_cases hs : k + 1 ≤ i ∧ i ≤ k + 1 + p
    · have := hd p (by omega) (k + 1) hs.1 hs.2
      have e : (u - U (k + 1)) / (U (k + 1 + p + 1) - U (k + 1))
          + (U (k + 1 + p + 1) - u) / (U (k + 1 + p + 1) - U (k + 1)) = 1 := by
        rw [← add_div, div_eq_one_iff_eq this]; ring
      rw [e, mul_one]
    · rw [piece_support U i u p _ hs, zero_mul]

/-- Marsden's identity. -/
theorem piece_marsden (U : ℕ → K) (i p : ℕ) (u : K) (hp : p ≤ i) (hd : Distinct U i p) (y : K) :
    ∑ k ∈ Finset.range (i + 1), bsplinePiece U i p k u * ∏ m ∈ Finset.range p, (y - U (k + 1 + m))
      = (y - u) ^ p := by
  induction p with
  | zero => simp [bsplinePiece, coxDeBoor]
  | succ p ih =>
    rw [piece_sum_succ U i p u hp, pow_succ, ← ih (by omega) (fun j hj => hd j (by omega)),
      Finset.sum_range_succ' _ i, piece_support U i u p 0 (by omega), zero_mul, add_zero, Finset.sum_mul]
    refine Finset.sum_congr rfl fun k _ => ?_
    by_cases hs : k + 1 ≤ i ∧ i ≤ k + 1 + p
    · have hne := hd p (by omega) (k + 1) hs.1 hs.2
      rw [Finset.prod_range_succ _ p, Finset.prod_range_succ' _ p]
      have e1 : ∏ m ∈ Finset.range p, (y - U (k + 1 + (m + 1)))
          = ∏ m ∈ Finset.range p, (y - U (k + 1 + 1 + m)) :=
        Finset.prod_congr rfl fun m _ => by
          have : k + 1 + (m + 1) = k + 1 + 1 + m := by omega
          rw [this]
      have e2 : k + 1 + 1 + p = k + 1 + p + 1 := by omega
      rw [e1, e2, add_zero]
      set P := ∏ m ∈ Finset.range p, (y - U (k + 1 + 1 + m))
      field_simp
      ring
    · rw [piece_support U i u p _ hs]; ring

end field

section ordered
variable {K : Type*} [Field K] [LinearOrder K]

/-- For parameters in the span the pieces are the basis functions. -/
theorem piece_eq_fn {U : ℕ → K} {i : ℕ} {u : K} (p k : ℕ)
    (hspan : ∀ k, (U k ≤ u ∧ u < U (k + 1)) ↔ k = i) : bsplinePiece U i p k u = bsplineFn U p k u := by
  unfold bsplinePiece bsplineFn
  have : (fun k => if k = i then (1 : K) else 0) = fun k => if U k ≤ u ∧ u < U (k + 1) then 1 else 0 := by
    funext k
    simp only [hspan k]
  rw [this]

/-- The recursion only looks at the degree-zero functions from `k` to `k+p`. -/
theorem coxDeBoor_congr {s t : ℕ → K} (U : ℕ → K) (u : K) (p k : ℕ) (h : ∀ m ≤ p, s (k + m) = t (k + m)) :
    coxDeBoor s U u p k = coxDeBoor t U u p k := by
  induction p generalizing k with
  | zero => simpa [coxDeBoor] using h 0 le_rfl
  | succ p ih =>
    simp only [coxDeBoor]
    rw [ih k (fun m hm => h m (by omega)), ih (k + 1) (fun m hm => by
      have := h (m + 1) (by omega)
      have e : k + 1 + m = k + (m + 1) := by omega
      rw [e]; exact this)]

variable [IsStrictOrderedRing K]

theorem Clamped.distinct {U : ℕ → K} {n p i : ℕ} (h : Clamped U n p) (hp : p ≤ i) (hi : i < n) : Distinct U i p := by
  intro j hj k hk1 hk2
  have h1 := h.mono hk1 (by omega)
  have h2 := h.inc i hp hi
  have h3 : U (i + 1) ≤ U (k + j + 1) := h.mono (by omega) (by omega)
  exact (sub_pos.2 (lt_of_le_of_lt h1 (lt_of_lt_of_le h2 h3))).ne'

/-- **C154** (Cox–de Boor): for a parameter in span `i` the values stored are the `p+1` B-spline basis
functions that are not zero there, whatever the array contained before the call; all the others vanish. -/
theorem c154_cox_de_boor {U : ℕ → K} {n p i : ℕ} (h : Clamped U n p) (hp : p ≤ i) (hi : i < n) {u : K}
    (h1 : U i ≤ u) (h2 : u < U (i + 1)) (N : ℕ → K) :
    (∀ r ≤ p, basisFuns i p u U N r = bsplineFn U p (i - p + r) u) ∧
    (∀ k < n, ¬ (i - p ≤ k ∧ k ≤ i) → bsplineFn U p k u = 0) ∧
    ∀ r, p < r → basisFuns i p u U N r = N r := by
  have key : ∀ k < n, bsplineFn U p k u = bsplinePiece U i p k u := by
    intro k hk
    unfold bsplineFn bsplinePiece
    refine coxDeBoor_congr U u p k fun m hm => ?_
    by_cases he : k + m = i
    · rw [he]; simp [h1, h2]
    · rw [if_neg he, if_neg]
      rintro ⟨a, b⟩
      by_cases hlt : k + m < n + p
      · exact he (c153_span_unique h hlt (by omega) a b h1 h2)
      · omega
  obtain ⟨g1, g2⟩ := basisFuns_eq i p u U N hp
  refine ⟨fun r hr => by rw [g1 r hr, key _ (by omega)], fun k hk hs => ?_, g2⟩
  rw [key k hk]
  exact piece_support U i u p k (by omega)

/-- **C154** (any parameter): outside the span — below the first knot, at and above the last — the values
are those of the polynomial piece of the span, independent of what the array contained. -/
theorem c154_piece (i p : ℕ) (u : K) (U N : ℕ → K) (hp : p ≤ i) :
    ∀ r ≤ p, basisFuns i p u U N r = bsplinePiece U i p (i - p + r) u := (basisFuns_eq i p u U N hp).1

/-- **C154** (partition of unity): the values add up to one, for every parameter. -/
theorem c154_partition {U : ℕ → K} {n p i : ℕ} (h : Clamped U n p) (hp : p ≤ i) (hi : i < n) (u : K) (N : ℕ → K) :
    ∑ r ∈ Finset.range (p + 1), basisFuns i p u U N r = 1 := by
  rw [← piece_partition U i p u hp (h.distinct hp hi)]
  have := span_sum U i p u hp (fun _ => 1) (i + 1) (by omega)
  simp only [mul_one] at this
  rw [this]
  exact Finset.sum_congr rfl fun r hr =>
    (basisFuns_eq i p u U N hp).1 r (by have := Finset.mem_range.1 hr; omega)

theorem piece_nonneg {U : ℕ → K} {n p i : ℕ} (h : Clamped U n p) (hp : p ≤ i) (hi : i < n) {u : K}
    (h1 : U i ≤ u) (h2 : u ≤ U (i + 1)) (q : ℕ) (hq : q ≤ p) (k : ℕ) : 0 ≤ bsplinePiece U i q k u := by
  induction q generalizing k with
  | zero => simp only [bsplinePiece, coxDeBoor]; split <;> simp
  | succ q ih =>
    rw [piece_succ]
    refine add_nonneg ?_ ?_
    · by_cases hs : k ≤ i ∧ i ≤ k + q
      · refine mul_nonneg (div_nonneg ?_ ?_) (ih (by omega) k)
        · exact sub_nonneg.2 ((h.mono hs.1 (by omega)).trans h1)
        · exact sub_nonneg.2 (h.mono (by omega) (by omega))
      · rw [piece_support U i u q k hs, mul_zero]
    · by_cases hs : k + 1 ≤ i ∧ i ≤ k + 1 + q
      · refine mul_nonneg (div_nonneg ?_ ?_) (ih (by omega) (k + 1))
        · exact sub_nonneg.2 (h2.trans (h.mono (by omega) (by omega)))
        · exact sub_nonneg.2 (h.mono (by omega) (by omega))
      · rw [piece_support U i u q (k + 1) hs, mul_zero]

/-- **C154** (positivity): inside the closed span no value is negative. -/
theorem c154_nonneg {U : ℕ → K} {n p i : ℕ} (h : Clamped U n p) (hp : p ≤ i) (hi : i < n) {u : K}
    (h1 : U i ≤ u) (h2 : u ≤ U (i + 1)) (N : ℕ → K) : ∀ r ≤ p, 0 ≤ basisFuns i p u U N r := by
  intro r hr
  rw [(basisFuns_eq i p u U N hp).1 r hr]
  exact piece_nonneg h hp hi h1 h2 p le_rfl _

/-- **C154** (Marsden's identity): for every span, parameter and `y`. -/
theorem c154_marsden {U : ℕ → K} {n p i : ℕ} (h : Clamped U n p) (hp : p ≤ i) (hi : i < n) (u y : K) (N : ℕ → K) :
    ∑ r ∈ Finset.range (p + 1), basisFuns i p u U N r * ∏ m ∈ Finset.range p, (y - U (i - p + r + 1 + m))
      = (y - u) ^ p := by
  rw [← piece_marsden U i p u hp (h.distinct hp hi) y, span_sum U i p u hp _ (i + 1) (by omega)]
  exact Finset.sum_congr rfl fun r hr => by
    rw [(basisFuns_eq i p u U N hp).1 r (by have := Finset.mem_range.1 hr; omega)]

/-- **C154** (polynomials): every polynomial of degree at most the order is a combination of the basis
functions, with the same control points in all spans and for all parameters, inside the table and outside. -/
theorem c154_polynomials {U : ℕ → K} {n p : ℕ} (h : Clamped U n p) (f : K[X]) (hf : f.natDegree ≤ p) :
    ∃ c : ℕ → K, ∀ i, p ≤ i → i < n → ∀ (u : K) (N : ℕ → K),
      ∑ r ∈ Finset.range (p + 1), basisFuns i p u U N r * c (i - p + r) = f.eval u := by
  let Q : ℕ → K[X] := fun k => ∏ m ∈ Finset.range p, (X - C (U (k + 1 + m)))
  let c : ℕ → K := fun k => ∑ j ∈ Finset.range (p + 1),
    f.coeff j * ((Q k).coeff (p - j) / ((-1) ^ j * (p.choose j : K)))
  refine ⟨c, fun i hp hi u N => ?_⟩
  have hM : ∑ r ∈ Finset.range (p + 1), C (basisFuns i p u U N r) * Q (i - p + r) = (X - C u) ^ p := by
    refine Polynomial.funext fun y => ?_
    rw [eval_finsetSum]
    simp only [eval_mul, eval_C, Q, eval_prod, eval_sub, eval_X, eval_pow]
    exact c154_marsden h hp hi u y N
  have hcoef : ∀ j ≤ p, ∑ r ∈ Finset.range (p + 1), basisFuns i p u U N r *
      ((Q (i - p + r)).coeff (p - j) / ((-1) ^ j * (p.choose j : K))) = u ^ j := by
    intro j hj
    have := congrArg (fun q => Polynomial.coeff q (p - j)) hM
    simp only [finsetSum_coeff, coeff_C_mul] at this
    have hb : ((X - C u) ^ p : K[X]).coeff (p - j) = (-1) ^ j * (p.choose j : K) * u ^ j := by
      have : (X - C u : K[X]) = X + C (-u) := by simp [sub_eq_add_neg]
      rw [this, coeff_X_add_C_pow, Nat.choose_symm hj]
      have e : p - (p - j) = j := by omega
      rw [e, neg_pow]; ring
    rw [hb] at this
    have hne : ((-1) ^ j * (p.choose j : K)) ≠ 0 := by
      refine mul_ne_zero (pow_ne_zero _ (by norm_num)) ?_
      exact_mod_cast (Nat.choose_pos hj).ne'
    rw [← Finset.sum_congr rfl (fun r _ => (mul_div_assoc (basisFuns i p u U N r) _ _)), ← Finset.sum_div, this,
      mul_div_cancel_left₀ _ hne]
  have hev : f.eval u = ∑ j ∈ Finset.range (p + 1), f.coeff j * u ^ j :=
    eval_eq_sum_range' (by omega) u
  rw [hev]
  simp only [c, Finset.mul_sum]
  rw [Finset.sum_comm]
  refine Finset.sum_congr rfl fun j hj => ?_
  rw [← hcoef j (by have := Finset.mem_range.1 hj; omega), Finset.mul_sum]
  exact Finset.sum_congr rfl fun r _ => by ring

/-- The quadratic basis of the (disabled) self test of the code: span 4, parameter 5/2. -/
example : (List.range 3).map (basisFuns 4 2 (5/2 : ℚ)
    (fun k => [0, 0, 0, 1, 2, 3, 4, 4, 5, 5, 5].getD k 0) (fun _ => 77)) = [1/8, 6/8, 1/8] := by
  decide +kernel

example : Clamped (fun k => ([0, 0, 0, 3/8, 3/5, 1, 1, 1] : List ℚ).getD k 0) 5 2 := by
  have := (c153_knots (uk := exSites) (p := 2) (by norm_num) (by decide +kernel) (by decide +kernel)
    (by decide +kernel) (by decide +kernel)).2.1
  have e : setKnots exSites 2 = [0, 0, 0, 3/8, 3/5, 1, 1, 1] := by decide +kernel
  rw [e] at this
  exact this

end ordered

end Nalu.BSpline
