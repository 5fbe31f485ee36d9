import Verif.Model.BSpline
import Mathlib.Algebra.Order.BigOperators.Group.Finset
import Mathlib.LinearAlgebra.FiniteDimensional.Lemmas
import Mathlib.LinearAlgebra.Matrix.ToLin
import Mathlib.Tactic.FieldSimp
import Mathlib.Tactic.Ring
import Mathlib.Tactic.LinearCombination
import Mathlib.Tactic.IntervalCases
import Mathlib.Tactic.Linarith
import Mathlib.Data.Rat.Defs

/-! # C155: the dense LU solver of the property tables -/

namespace Nalu.BSpline

variable {K : Type*} [Field K]

/-- Specification: `x` solves the linear system of size `n`. -/
def Solves (n : ℕ) (A : ℕ → ℕ → K) (b x : ℕ → K) : Prop :=
  ∀ i < n, ∑ j ∈ Finset.range n, A i j * x j = b i

/-- Specification: unit lower triangular part of a packed factorisation. -/
def lowerPart (M : ℕ → ℕ → K) (i k : ℕ) : K := if i = k then 1 else if k < i then M i k else 0

/-- Specification: upper triangular part of a packed factorisation. -/
def upperPart (M : ℕ → ℕ → K) (k j : ℕ) : K := if k ≤ j then M k j else 0

/-- State of column `j` after eliminating rows below `m`. -/
theorem luEntry_loop (j : ℕ) (A : ℕ → ℕ → K) (m : ℕ) :
    ∀ a c, (List.range m).foldl (luEntry j) A a c =
      if c = j ∧ a < m then
        A a j - ∑ k ∈ Finset.range (min a j), A a k * (List.range m).foldl (luEntry j) A k j
      else A a c := by
  induction m with
  | zero => intro a c; simp
  | succ m ih =>
    intro a c
    set S := (List.range m).foldl (luEntry j) A with hS
    have e : (List.range (m + 1)).foldl (luEntry j) A = luEntry j S m := by
      rw [List.range_succ, List.foldl_append]; rfl
    have hsum : ∀ a, a ≤ m → ∑ k ∈ Finset.range (min a j), A a k * luEntry j S m k j
        = ∑ k ∈ Finset.range (min a j), A a k * S k j := by
      intro a ha
      refine Finset.sum_congr rfl fun k hk => ?_
      have hk := Finset.mem_range.1 hk
      have : k ≠ m := by omega
      simp [luEntry, set2, this]
    rw [e]
    by_cases hc : c = j
    · subst hc
      by_cases ham : a = m
      · subst ham
        rw [if_pos ⟨rfl, by omega⟩, hsum a le_rfl]
        have h1 : S a c = A a c := by rw [ih a c]; simp
        have h2 : ∀ k ∈ Finset.range (min a c), S a k * S k c = A a k * S k c := by
          intro k hk
          have hk := Finset.mem_range.1 hk
          have : k ≠ c := by omega
          rw [ih a k]; simp [this]
        simp only [luEntry, set2, and_self, if_true]
        rw [h1, Finset.sum_congr rfl h2]
      · have hl : luEntry c S m a c = S a c := by simp [luEntry, set2, ham]
        rw [hl]
        by_cases hlt : a < m
        · rw [if_pos ⟨rfl, by omega⟩, hsum a hlt.le, ih a c, if_pos ⟨rfl, hlt⟩]
        · rw [if_neg (by omega), ih a c, if_neg (by omega)]
    · have hl : luEntry j S m a c = S a c := by simp [luEntry, set2, hc]
      rw [hl, ih a c]; simp [hc]

theorem luScale_loop (j : ℕ) (t : K) (A : ℕ → ℕ → K) (m : ℕ) :
    ∀ a c, (List.range m).foldl (luScale j t) A a c =
      if c = j ∧ j < a ∧ a < m then A a j * t else A a c := by
  induction m with
  | zero => intro a c; simp
  | succ m ih =>
    intro a c
    rw [List.range_succ, List.foldl_append]
    simp only [List.foldl_cons, List.foldl_nil]
    unfold luScale
    by_cases hj : j < m
    · rw [if_pos hj]
      by_cases h : a = m ∧ c = j
      · obtain ⟨rfl, rfl⟩ := h
        rw [if_pos ⟨rfl, hj, by omega⟩]
        simp only [set2, and_self, if_true]
        have := ih a c
        unfold luScale at this
        rw [this, if_neg (by omega)]
      · simp only [set2, if_neg h]
        have := ih a c
        unfold luScale at this
        rw [this]
        have : (c = j ∧ j < a ∧ a < m) ↔ (c = j ∧ j < a ∧ a < m + 1) := by omega
        simp only [this]
    · rw [if_neg hj]
      have := ih a c
      unfold luScale at this
      rw [this]
      have : (c = j ∧ j < a ∧ a < m) ↔ (c = j ∧ j < a ∧ a < m + 1) := by omega
      simp only [this]

/-- Columns other than `j` are unchanged. -/
theorem luCol_other (n : ℕ) (A : ℕ → ℕ → K) {j a c : ℕ} (h : c ≠ j) : luCol n A j a c = A a c := by
  simp only [luCol]
  rw [luScale_loop, if_neg (by tauto), luEntry_loop, if_neg (by tauto)]

/-- On and above the diagonal. -/
theorem luCol_upper (n : ℕ) (A : ℕ → ℕ → K) {j a : ℕ} (ha : a < n) (haj : a ≤ j) :
    luCol n A j a j = A a j - ∑ k ∈ Finset.range a, A a k * luCol n A j k j := by
  have hu : ∀ k ≤ j, luCol n A j k j = (List.range n).foldl (luEntry j) A k j := by
    intro k hk
    simp only [luCol]
    rw [luScale_loop, if_neg (by omega)]
  rw [hu a haj, luEntry_loop, if_pos ⟨rfl, ha⟩, min_eq_left haj]
  congr 1
  refine Finset.sum_congr rfl fun k hk => ?_
  rw [hu k (by have := Finset.mem_range.1 hk; omega)]

/-- Below the diagonal. -/
theorem luCol_lower (n : ℕ) (A : ℕ → ℕ → K) {j a : ℕ} (ha : a < n) (haj : j < a)
    (hp : luCol n A j j j ≠ 0) :
    luCol n A j a j * luCol n A j j j = A a j - ∑ k ∈ Finset.range j, A a k * luCol n A j k j := by
  have hu : ∀ k ≤ j, luCol n A j k j = (List.range n).foldl (luEntry j) A k j := by
    intro k hk
    simp only [luCol]
    rw [luScale_loop, if_neg (by omega)]
  have hl : luCol n A j a j
      = (List.range n).foldl (luEntry j) A a j * (1 / (List.range n).foldl (luEntry j) A j j) := by
    simp only [luCol]
    rw [luScale_loop, if_pos ⟨rfl, haj, ha⟩]
  have hd := hu j le_rfl
  rw [hl, hd]
  rw [hd] at hp
  rw [mul_assoc, one_div, inv_mul_cancel₀ hp, mul_one, luEntry_loop, if_pos ⟨rfl, ha⟩,
    min_eq_right haj.le]
  congr 1
  refine Finset.sum_congr rfl fun k hk => ?_
  rw [hu k (by have := Finset.mem_range.1 hk; omega)]

/-- After `m` columns. -/
theorem decompose_step (n : ℕ) (A : ℕ → ℕ → K) (m : ℕ) :
    let S := fun m => (List.range m).foldl (luCol n) A
    (∀ a c, m ≤ c → S m a c = A a c) ∧ (∀ m' ≥ m, ∀ a c, c < m → S m' a c = S m a c) := by
  intro S
  have hs : ∀ m, S (m + 1) = luCol n (S m) m := by
    intro m
    simp only [S, List.range_succ, List.foldl_append, List.foldl_cons, List.foldl_nil]
  constructor
  · induction m with
    | zero => intro a c _; simp [S]
    | succ m ih =>
      intro a c hc
      rw [hs, luCol_other n _ (by omega)]
      exact ih a c (by omega)
  · intro m' hm'
    induction m', hm' using Nat.le_induction with
    | base => intros; rfl
    | succ m' hm' ih =>
      intro a c hc
      rw [hs, luCol_other n _ (by omega)]
      exact ih a c hc

/-- The packed factors satisfy the Doolittle equations. -/
theorem decompose_eqs (n : ℕ) (A : ℕ → ℕ → K) {i j : ℕ} (hi : i < n) (hj : j < n)
    (hp : ∀ j < n, decompose n A j j ≠ 0) :
    (i ≤ j → decompose n A i j + ∑ k ∈ Finset.range i, decompose n A i k * decompose n A k j = A i j) ∧
    (j < i → decompose n A i j * decompose n A j j
      + ∑ k ∈ Finset.range j, decompose n A i k * decompose n A k j = A i j) := by
  have h := decompose_step n A
  simp only at h
  set S := fun m => (List.range m).foldl (luCol n) A with hS
  have hM : decompose n A = S n := rfl
  have hs : S (j + 1) = luCol n (S j) j := by
    simp only [S, List.range_succ, List.foldl_append, List.foldl_cons, List.foldl_nil]
  have hcol : ∀ a, decompose n A a j = luCol n (S j) j a j := by
    intro a
    rw [hM, ← hs]
    exact (h (j + 1)).2 n hj a j (by omega)
  have hpre : ∀ a k, k < j → S j a k = decompose n A a k := by
    intro a k hk
    rw [hM]
    exact ((h j).2 n hj.le a k hk).symm
  have horig : ∀ a, S j a j = A a j := fun a => (h j).1 a j le_rfl
  constructor
  · intro hij
    have := luCol_upper n (S j) hi hij
    rw [← hcol i, horig] at this
    rw [this]
    have e : ∑ k ∈ Finset.range i, S j i k * luCol n (S j) j k j
        = ∑ k ∈ Finset.range i, decompose n A i k * decompose n A k j := by
      refine Finset.sum_congr rfl fun k hk => ?_
      rw [hpre i k (by have := Finset.mem_range.1 hk; omega), hcol k]
    rw [e]; ring
  · intro hji
    have hpj := hp j hj
    rw [hcol j] at hpj
    have := luCol_lower n (S j) hi hji hpj
    rw [← hcol i, ← hcol j, horig] at this
    rw [this]
    have e : ∑ k ∈ Finset.range j, S j i k * luCol n (S j) j k j
        = ∑ k ∈ Finset.range j, decompose n A i k * decompose n A k j := by
      refine Finset.sum_congr rfl fun k hk => ?_
      rw [hpre i k (Finset.mem_range.1 hk), hcol k]
    rw [e]; ring

/-- **C155** (factorisation): unless a pivot vanishes, the packed result is a unit lower triangular matrix
times an upper triangular one, and their product is the matrix that was loaded. -/
theorem c155_factors (n : ℕ) (A : ℕ → ℕ → K) (hp : ∀ j < n, decompose n A j j ≠ 0)
    {i j : ℕ} (hi : i < n) (hj : j < n) :
    ∑ k ∈ Finset.range n, lowerPart (decompose n A) i k * upperPart (decompose n A) k j = A i j := by
  set M := decompose n A
  obtain ⟨h1, h2⟩ := decompose_eqs n A hi hj hp
  rcases Nat.lt_or_ge j i with hji | hij
  · rw [← h2 hji, ← Finset.sum_subset (s₁ := Finset.range (j + 1))
      (by intro k hk; simp at hk ⊢; omega)
      (by intro k _ hk2; simp at hk2; simp only [upperPart]; rw [if_neg (by omega), mul_zero])]
    rw [Finset.sum_range_succ, add_comm]
    congr 1
    · simp only [lowerPart, upperPart]
      rw [if_neg (by omega), if_pos hji, if_pos le_rfl]
    · refine Finset.sum_congr rfl fun k hk => ?_
      have := Finset.mem_range.1 hk
      simp only [lowerPart, upperPart]
      rw [if_neg (by omega), if_pos (by omega), if_pos (by omega)]
  · rw [← h1 hij, ← Finset.sum_subset (s₁ := Finset.range (i + 1))
      (by intro k hk; simp at hk ⊢; omega)
      (by intro k _ hk2; simp at hk2; simp only [lowerPart]; rw [if_neg (by omega), if_neg (by omega), zero_mul])]
    rw [Finset.sum_range_succ, add_comm]
    congr 1
    · simp only [lowerPart, upperPart]
      simp [hij, M]
    · refine Finset.sum_congr rfl fun k hk => ?_
      have := Finset.mem_range.1 hk
      simp only [lowerPart, upperPart]
      rw [if_neg (by omega), if_pos (by omega), if_pos (by omega)]

/-- Forward substitution. -/
theorem forward_eq (A : ℕ → ℕ → K) (b : ℕ → K) (m : ℕ) :
    (∀ i < m, forward m A b i = b i - ∑ j ∈ Finset.range i, A i j * forward m A b j) ∧
    (∀ i, m ≤ i → forward m A b i = b i) := by
  induction m with
  | zero => simp [forward]
  | succ m ih =>
    obtain ⟨ih1, ih2⟩ := ih
    have e : forward (m + 1) A b
        = set (forward m A b) m (forward m A b m - ∑ j ∈ Finset.range m, A m j * forward m A b j) := by
      simp only [forward, List.range_succ, List.foldl_append, List.foldl_cons, List.foldl_nil]
    have hlt : ∀ i < m, forward (m + 1) A b i = forward m A b i := by
      intro i hi
      rw [e]; simp only [set]; rw [if_neg (by omega)]
    have hsum : ∀ i ≤ m, ∑ j ∈ Finset.range i, A i j * forward (m + 1) A b j
        = ∑ j ∈ Finset.range i, A i j * forward m A b j := by
      intro i hi
      exact Finset.sum_congr rfl fun j hj => by
        rw [hlt j (by have := Finset.mem_range.1 hj; omega)]
    constructor
    · intro i hi
      rw [hsum i (by omega)]
      rcases Nat.lt_or_ge i m with h | h
      · rw [hlt i h]; exact ih1 i h
      · obtain rfl : i = m := by omega
        rw [e]; simp only [set, if_true]; rw [ih2 i le_rfl]
    · intro i hi
      rw [e]; simp only [set]; rw [if_neg (by omega)]; exact ih2 i (by omega)

/-- One row of the back substitution. -/
def backStep (n : ℕ) (A : ℕ → ℕ → K) (b : ℕ → K) (i : ℕ) : ℕ → K :=
  set b i ((b i - ∑ j ∈ Finset.Ico (i + 1) n, A i j * b j) / A i i)

theorem backward_step (n : ℕ) (A : ℕ → ℕ → K) (m : ℕ) : m ≤ n → ∀ b : ℕ → K,
    (∀ i, m ≤ i → (List.range m).reverse.foldl (backStep n A) b i = b i) ∧
    (∀ i < m, (List.range m).reverse.foldl (backStep n A) b i
      = (b i - ∑ j ∈ Finset.Ico (i + 1) n, A i j * (List.range m).reverse.foldl (backStep n A) b j) / A i i) := by
  induction m with
  | zero => intro _ b; simp
  | succ m ih =>
    intro hm b
    have e : (List.range (m + 1)).reverse.foldl (backStep n A) b
        = (List.range m).reverse.foldl (backStep n A) (backStep n A b m) := by
      rw [List.range_succ, List.reverse_append, List.foldl_append]; rfl
    obtain ⟨ih1, ih2⟩ := ih (by omega) (backStep n A b m)
    rw [e]
    have hb : ∀ i, i ≠ m → backStep n A b m i = b i := by
      intro i hi; simp [backStep, set, hi]
    constructor
    · intro i hi
      rw [ih1 i (by omega), hb i (by omega)]
    · intro i hi
      rcases Nat.lt_or_ge i m with h | h
      · rw [ih2 i h, hb i (by omega)]
      · obtain rfl : i = m := by omega
        rw [ih1 i le_rfl]
        have : ∑ j ∈ Finset.Ico (i + 1) n, A i j * (List.range i).reverse.foldl (backStep n A) (backStep n A b i) j
            = ∑ j ∈ Finset.Ico (i + 1) n, A i j * b j := by
          refine Finset.sum_congr rfl fun j hj => ?_
          have := Finset.mem_Ico.1 hj
          rw [ih1 j (by omega), hb j (by omega)]
        rw [this]; simp [backStep, set]

theorem backward_eq (n : ℕ) (A : ℕ → ℕ → K) (b : ℕ → K) :
    ∀ i < n, backward n A b i
      = (b i - ∑ j ∈ Finset.Ico (i + 1) n, A i j * backward n A b j) / A i i :=
  (backward_step n A n le_rfl b).2

/-- The two substitutions solve the system. -/
theorem subst_solves (n : ℕ) (A : ℕ → ℕ → K) (b : ℕ → K) (hp : ∀ j < n, decompose n A j j ≠ 0) :
    Solves n A b (backward n (decompose n A) (forward n (decompose n A) b)) := by
  intro i hi
  set M := decompose n A with hM
  set y := forward n M b with hy
  set x := backward n M y with hx
  have hU : ∀ k < n, ∑ j ∈ Finset.range n, upperPart M k j * x j = y k := by
    intro k hk
    have h := backward_eq n M y k hk
    rw [← hx] at h
    have hpk := hp k hk
    have h' : x k * M k k = y k - ∑ j ∈ Finset.Ico (k + 1) n, M k j * x j := by
      rw [h]; field_simp
    have hsub : Finset.Ico k n ⊆ Finset.range n := by
      intro j hj; simp at hj ⊢; omega
    rw [← Finset.sum_subset hsub (by
      intro j hj hj'
      simp at hj hj'
      simp only [upperPart]; rw [if_neg (by omega), zero_mul])]
    rw [Finset.sum_eq_sum_Ico_succ_bot hk]
    have e : ∑ j ∈ Finset.Ico (k + 1) n, upperPart M k j * x j = ∑ j ∈ Finset.Ico (k + 1) n, M k j * x j := by
      refine Finset.sum_congr rfl fun j hj => ?_
      have := Finset.mem_Ico.1 hj
      simp only [upperPart]; rw [if_pos (by omega)]
    rw [e]
    simp only [upperPart, le_refl, if_true]
    linear_combination h'
  have hA : ∀ j ∈ Finset.range n, A i j * x j
      = ∑ k ∈ Finset.range n, lowerPart M i k * (upperPart M k j * x j) := by
    intro j hj
    rw [← c155_factors n A hp hi (Finset.mem_range.1 hj), Finset.sum_mul]
    exact Finset.sum_congr rfl fun k _ => by ring
  rw [Finset.sum_congr rfl hA, Finset.sum_comm]
  have hB : ∀ k ∈ Finset.range n, ∑ j ∈ Finset.range n, lowerPart M i k * (upperPart M k j * x j)
      = lowerPart M i k * y k := by
    intro k hk
    rw [← Finset.mul_sum, hU k (Finset.mem_range.1 hk)]
  rw [Finset.sum_congr rfl hB]
  rw [← Finset.sum_subset (s₁ := Finset.range (i + 1)) (by intro k hk; simp at hk ⊢; omega)
    (by intro k _ hk2; simp at hk2; simp only [lowerPart]; rw [if_neg (by omega), if_neg (by omega), zero_mul])]
  rw [Finset.sum_range_succ]
  have hf := (forward_eq M b n).1 i hi
  rw [← hy] at hf
  have e : ∑ k ∈ Finset.range i, lowerPart M i k * y k = ∑ k ∈ Finset.range i, M i k * y k := by
    refine Finset.sum_congr rfl fun k hk => ?_
    have := Finset.mem_range.1 hk
    simp only [lowerPart]; rw [if_neg (by omega), if_pos this]
  rw [e]
  simp only [lowerPart, if_true, one_mul]
  rw [hf]; ring

variable [LinearOrder K]

theorem solve_some {n : ℕ} {A : ℕ → ℕ → K} {b x : ℕ → K} (h : solve n A b = some x) :
    (∀ j < n, decompose n A j j ≠ 0) ∧ x = backward n (decompose n A) (forward n (decompose n A) b) := by
  unfold solve at h
  simp only at h
  split at h
  · rename_i hall
    simp only [List.all_eq_true, List.mem_range, decide_eq_true_eq] at hall
    exact ⟨hall, (Option.some.inj h).symm⟩
  · exact absurd h (by simp)

/-- **C155** (solution): whenever the solver finishes without a zero pivot, its answer satisfies every
equation of the system. -/
theorem c155_solves {n : ℕ} {A : ℕ → ℕ → K} {b x : ℕ → K} (h : solve n A b = some x) : Solves n A b x := by
  obtain ⟨hp, rfl⟩ := solve_some h
  exact subst_solves n A b hp

theorem solves_iff_mulVec (n : ℕ) (A : ℕ → ℕ → K) (b x : ℕ → K) :
    Solves n A b x ↔
      Matrix.toLin' (Matrix.of fun i j : Fin n => A i j) (fun j : Fin n => x j) = fun i : Fin n => b i := by
  rw [Matrix.toLin'_apply]
  constructor
  · intro h
    funext i
    simp only [Matrix.mulVec, dotProduct, Matrix.of_apply]
    rw [← h i i.2, Finset.sum_range]
  · intro h i hi
    have := congrFun h ⟨i, hi⟩
    simp only [Matrix.mulVec, dotProduct, Matrix.of_apply] at this
    rw [Finset.sum_range]; exact this

/-- **C155** (uniqueness): the answer is the only solution — any vector satisfying the equations agrees with
it in every component of the system. -/
theorem c155_unique {n : ℕ} {A : ℕ → ℕ → K} {b x z : ℕ → K} (h : solve n A b = some x)
    (hz : Solves n A b z) : ∀ i < n, x i = z i := by
  obtain ⟨hp, -⟩ := solve_some h
  have hsurj : Function.Surjective (Matrix.toLin' (Matrix.of fun i j : Fin n => A i j)) := by
    intro v
    refine ⟨fun j => backward n (decompose n A)
      (forward n (decompose n A) fun k => if hk : k < n then v ⟨k, hk⟩ else 0) j, ?_⟩
    rw [(solves_iff_mulVec n A _ _).1 (subst_solves n A _ hp)]
    funext i; simp
  have hinj := LinearMap.injective_iff_surjective.2 hsurj
  have := hinj (((solves_iff_mulVec n A b x).1 (c155_solves h)).trans
    ((solves_iff_mulVec n A b z).1 hz).symm)
  intro i hi
  exact congrFun this ⟨i, hi⟩

/-- **C155** (scope of success): whether the solver succeeds depends on the matrix only, not on the right
hand side. -/
theorem c155_success_of_matrix (n : ℕ) (A : ℕ → ℕ → K) (b b' : ℕ → K) :
    (solve n A b).isSome = (solve n A b').isSome := by
  unfold solve
  simp only
  split <;> rfl

/-- **C155**: a system that already is the identity is solved by its right hand side. -/
theorem c155_identity (n : ℕ) (A : ℕ → ℕ → K) (b : ℕ → K)
    (hA : ∀ i < n, ∀ j < n, A i j = if i = j then 1 else 0) :
    ∃ x, solve n A b = some x ∧ ∀ i < n, x i = b i := by
  have hM : ∀ m, ∀ i < n, ∀ j < n,
      (List.range m).foldl (luCol n) A i j = if i = j then (1 : K) else 0 := by
    intro m
    induction m with
    | zero => simpa using hA
    | succ m ih =>
      intro i hi j hj
      rw [List.range_succ, List.foldl_append]
      simp only [List.foldl_cons, List.foldl_nil]
      set S := (List.range m).foldl (luCol n) A with hS
      by_cases hjm : j = m
      · subst hjm
        -- entries of the eliminated column
        have hB : ∀ a < n, (List.range n).foldl (luEntry j) S a j = if a = j then (1 : K) else 0 := by
          intro a ha
          rw [luEntry_loop, if_pos ⟨rfl, ha⟩, ih a ha j hj, Finset.sum_eq_zero, sub_zero]
          intro k hk
          have := Finset.mem_range.1 hk
          rw [ih a ha k (by omega), if_neg (by omega), zero_mul]
        simp only [luCol]
        rw [luScale_loop]
        split
        · rename_i h
          rw [hB i hi, if_neg (by omega), zero_mul]
        · exact hB i hi
      · rw [luCol_other n _ hjm]; exact ih i hi j hj
  have hp : ∀ j < n, decompose n A j j ≠ 0 := by
    intro j hj
    have := hM n j hj j hj
    rw [if_pos rfl] at this
    unfold decompose; rw [this]; exact one_ne_zero
  have hall : (List.range n).all (fun j => decide (decompose n A j j ≠ 0)) = true := by
    simp only [List.all_eq_true, List.mem_range, decide_eq_true_eq]; exact hp
  have hsome : solve n A b = some (backward n (decompose n A) (forward n (decompose n A) b)) := by
    unfold solve; simp only; rw [if_pos hall]
  refine ⟨_, hsome, c155_unique hsome ?_⟩
  intro i hi
  rw [Finset.sum_eq_single i]
  · rw [hA i hi i hi, if_pos rfl, one_mul]
  · intro j hj hne
    rw [hA i hi j (Finset.mem_range.1 hj), if_neg (Ne.symm hne), zero_mul]
  · intro h; exact absurd (Finset.mem_range.2 hi) h

/-- A concrete system: it is solved, with the expected answer. -/
def exA : ℕ → ℕ → ℚ := fun i j => if i = j then 2 else if i + 1 = j ∨ j + 1 = i then -1 else 0

example : ∃ x, solve 3 exA (fun i => if i = 0 then 1 else if i = 1 then 0 else 1) = some x ∧
    x 0 = 1 ∧ x 1 = 1 ∧ x 2 = 1 := by
  have h : (List.range 3).all (fun j => decide (decompose 3 exA j j ≠ 0)) = true := by decide +kernel
  refine ⟨_, by unfold solve; simp only; rw [if_pos h], ?_, ?_, ?_⟩ <;> decide +kernel

/-- No pivoting: an invertible matrix with a zero in the corner is refused. -/
theorem c155_no_pivoting :
    solve 2 (fun i j => if i = j then (0 : ℚ) else 1) (fun _ => 1) = none ∧
    Solves 2 (fun i j => if i = j then (0 : ℚ) else 1) (fun _ => 1) (fun _ => 1) := by
  constructor
  · have h : ¬ ((List.range 2).all
        (fun j => decide (decompose 2 (fun i j => if i = j then (0 : ℚ) else 1) j j ≠ 0)) = true) := by
      decide +kernel
    unfold solve; simp only; rw [if_neg h]
  · intro i hi
    interval_cases i <;> simp [Finset.sum_range_succ]

end Nalu.BSpline
