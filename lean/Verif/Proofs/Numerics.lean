import Verif.Model.Numerics
import Mathlib.Tactic.Ring
import Mathlib.Tactic.Linarith
import Mathlib.Tactic.FieldSimp
import Mathlib.Algebra.Order.BigOperators.Group.Finset
import Mathlib.Algebra.BigOperators.Ring.Finset

set_option linter.unusedSectionVars false
set_option linter.unusedSimpArgs false

namespace Verif.Numerics

/-! ### Interpolation -/

section Interp
variable {K : Type*} [Field K] [LinearOrder K]

theorem findLoop_eq (xs : ℕ → K) (x : K) (m : ℕ) (hx : x ≤ xs m) :
    ∀ (left i : ℕ), i ≤ m → m < i + left → (∀ k, i ≤ k → k < m → xs k < x) →
      findLoop xs x left i = m - 1
  | 0, i, h1, h2, _ => by omega
  | left + 1, i, h1, h2, h3 => by
    unfold findLoop
    by_cases hi : i = m
    · subst hi; rw [if_pos hx]
    · rw [if_neg (not_le.mpr (h3 i le_rfl (by omega)))]
      exact findLoop_eq xs x m hx left (i + 1) (by omega) (by omega)
        (fun k hk1 hk2 => h3 k (by omega) hk2)

theorem mono_of_step (n : ℕ) (xs : ℕ → K) (hinc : ∀ i, i + 1 < n → xs i < xs (i + 1)) :
    ∀ i j, i ≤ j → j < n → xs i ≤ xs j := by
  intro i j hij hj
  induction j, hij using Nat.le_induction with
  | base => exact le_rfl
  | succ j hij ih => exact (ih (by omega)).trans (hinc j hj).le

end Interp

/-! ### LU -/

section LU
variable {K : Type*} [Field K]

theorem subLoop_eq (a b : ℕ) (s : K) (f : ℕ → K) :
    subLoop a b s f = s - ∑ k ∈ Finset.Ico a b, f k := by
  unfold subLoop
  have h : ∀ (c : ℕ) , (List.range' a c).foldl (fun s k => s - f k) s
      = s - ∑ k ∈ Finset.Ico a (a + c), f k := by
    intro c
    induction c with
    | zero => simp
    | succ c ih =>
      rw [List.range'_concat, List.foldl_append, ih]
      simp only [List.foldl_cons, List.foldl_nil, one_mul]
      rw [← add_assoc, Finset.sum_Ico_succ_top (by omega)]
      ring
  rw [h]
  rcases le_total a b with hab | hab
  · rw [Nat.add_sub_cancel' hab]
  · rw [Nat.sub_eq_zero_of_le hab, add_zero, Finset.Ico_self, Finset.Ico_eq_empty_of_le hab]

theorem set_other (A : Mat K) {i j a b : ℕ} (v : K) (h : ¬ (a = i ∧ b = j)) :
    A.set i j v a b = A a b := by
  unfold Mat.set; rw [if_neg h]

theorem set_same (A : Mat K) (i j : ℕ) (v : K) : A.set i j v i j = v := by
  unfold Mat.set; simp

/-- Fold of updates of column `j`, rows `a, a+1, …`, each new value only depending on entries not
updated before. -/
theorem setFold (j a : ℕ) (g : Mat K → ℕ → K) (A0 : Mat K)
    (hg : ∀ A i, a ≤ i → (∀ x y, (y ≠ j ∨ x < a ∨ i ≤ x) → A x y = A0 x y) → g A i = g A0 i)
    (c : ℕ) :
    (∀ x y, (y ≠ j ∨ x < a ∨ a + c ≤ x) →
      (List.range' a c).foldl (fun A i => A.set i j (g A i)) A0 x y = A0 x y) ∧
    (∀ i, a ≤ i → i < a + c →
      (List.range' a c).foldl (fun A i => A.set i j (g A i)) A0 i j = g A0 i) := by
  induction c with
  | zero => exact ⟨fun x y _ => rfl, fun i h1 h2 => by omega⟩
  | succ c ih =>
    rw [List.range'_concat, List.foldl_append]
    simp only [List.foldl_cons, List.foldl_nil, one_mul]
    generalize (List.range' a c).foldl (fun A i => A.set i j (g A i)) A0 = B at ih ⊢
    obtain ⟨h1, h2⟩ := ih
    constructor
    · intro x y hxy
      rw [set_other _ _ (by omega)]
      exact h1 x y (by omega)
    · intro i hi1 hi2
      by_cases hi : i = a + c
      · subst hi
        rw [set_same]
        exact hg B (a + c) (by omega) h1
      · rw [set_other _ _ (by omega)]
        exact h2 i hi1 (by omega)

/-- First row loop of a column pass. -/
theorem luColumn_upper (j : ℕ) (A : Mat K) : ∀ m, m ≤ j →
    (∀ x y, (y ≠ j ∨ m ≤ x) →
      (List.range m).foldl (fun A i => luEntry j i A i) A x y = A x y) ∧
    (∀ i, i < m → (List.range m).foldl (fun A i => luEntry j i A i) A i j
      = A i j - ∑ k ∈ Finset.range i,
          A i k * (List.range m).foldl (fun A i => luEntry j i A i) A k j) := by
  intro m
  induction m with
  | zero => intro _; exact ⟨fun x y _ => rfl, fun i hi => by omega⟩
  | succ m ih =>
    intro hm
    obtain ⟨h1, h2⟩ := ih (by omega)
    rw [List.range_succ, List.foldl_append]
    simp only [List.foldl_cons, List.foldl_nil]
    generalize (List.range m).foldl (fun A i => luEntry j i A i) A = B at h1 h2 ⊢
    unfold luEntry
    constructor
    · intro x y hxy
      rw [set_other _ _ (by omega)]
      exact h1 x y (by omega)
    · intro i hi
      have hB : ∀ k, k < i → B.set m j (subLoop 0 m (B m j) fun k => B m k * B k j) k j = B k j :=
        fun k hk => set_other _ _ (by omega)
      rw [Finset.sum_congr rfl (fun k hk => by rw [hB k (Finset.mem_range.mp hk)])]
      by_cases him : i = m
      · subst him
        rw [set_same, subLoop_eq, h1 i j (Or.inr le_rfl), Finset.range_eq_Ico]
        congr 1
        refine Finset.sum_congr rfl fun k hk => ?_
        rw [Finset.mem_Ico] at hk
        rw [h1 i k (Or.inr le_rfl)]
      · rw [set_other _ _ (by omega)]
        exact h2 i (by omega)

/-- A whole column pass. -/
theorem luColumn_spec (dim : ℕ) (A : Mat K) (j : ℕ) (hj : j < dim) :
    (∀ x y, y ≠ j → luColumn dim A j x y = A x y) ∧
    (∀ i, i ≤ j → luColumn dim A j i j
      = A i j - ∑ k ∈ Finset.range i, A i k * luColumn dim A j k j) ∧
    (∀ i, j < i → i < dim → luColumn dim A j i j
      = (A i j - ∑ k ∈ Finset.range j, A i k * luColumn dim A j k j) * (1 / luColumn dim A j j j)) := by
  obtain ⟨u1, u2⟩ := luColumn_upper j A j le_rfl
  unfold luColumn
  generalize (List.range j).foldl (fun A i => luEntry j i A i) A = A1 at u1 u2 ⊢
  -- second loop
  have p2 := setFold j j (fun A i => subLoop 0 j (A i j) fun k => A i k * A k j) A1
    (by
      intro B i hi hB
      have e1 : B i j = A1 i j := hB i j (by omega)
      simp only [subLoop_eq, e1]
      congr 1
      refine Finset.sum_congr rfl fun k hk => ?_
      rw [Finset.mem_Ico] at hk
      rw [hB i k (by omega), hB k j (by omega)])
    (dim - j)
  have e2 : (List.range' j (dim - j)).foldl (fun A i => luEntry j j A i) A1
      = (List.range' j (dim - j)).foldl
        (fun A i => A.set i j ((fun A i => subLoop 0 j (A i j) fun k => A i k * A k j) A i)) A1 := rfl
  rw [e2]
  generalize (List.range' j (dim - j)).foldl
        (fun A i => A.set i j ((fun A i => subLoop 0 j (A i j) fun k => A i k * A k j) A i)) A1 = A2
    at p2 ⊢
  obtain ⟨v1, v2⟩ := p2
  simp only [subLoop_eq] at v2
  -- facts about A2
  have lo : ∀ i, i < j → A2 i j = A1 i j := fun i hi => v1 i j (by omega)
  have hi2 : ∀ i, j ≤ i → i < dim → A2 i j = A i j - ∑ k ∈ Finset.range j, A i k * A2 k j := by
    intro i h1 h2
    rw [v2 i h1 (by omega), u1 i j (Or.inr h1), ← Finset.range_eq_Ico]
    congr 1
    refine Finset.sum_congr rfl fun k hk => ?_
    have := Finset.mem_range.mp hk
    rw [u1 i k (by omega), lo k this]
  have lo2 : ∀ i, i < j → A2 i j = A i j - ∑ k ∈ Finset.range i, A i k * A2 k j := by
    intro i hi
    rw [lo i hi, u2 i hi]
    congr 1
    refine Finset.sum_congr rfl fun k hk => ?_
    have := Finset.mem_range.mp hk
    rw [lo k (by omega)]
  have oth : ∀ x y, y ≠ j → A2 x y = A x y := by
    intro x y hy
    rw [v1 x y (Or.inl hy), u1 x y (Or.inl hy)]
  by_cases hlt : j + 1 < dim
  · rw [if_pos hlt]
    have p3 := setFold j (j + 1) (fun A i => A i j * (1 / A2 j j)) A2
      (by intro B i hi hB; rw [hB i j (by omega)]) (dim - (j + 1))
    generalize (List.range' (j + 1) (dim - (j + 1))).foldl
      (fun A i => A.set i j (A i j * (1 / A2 j j))) A2 = A3 at p3 ⊢
    obtain ⟨w1, w2⟩ := p3
    have same : ∀ i, i ≤ j → A3 i j = A2 i j := fun i hi => w1 i j (by omega)
    refine ⟨fun x y hy => by rw [w1 x y (Or.inl hy), oth x y hy], fun i hi => ?_, fun i h1 h2 => ?_⟩
    · rw [same i hi]
      have : ∑ k ∈ Finset.range i, A i k * A3 k j = ∑ k ∈ Finset.range i, A i k * A2 k j :=
        Finset.sum_congr rfl fun k hk => by
          have := Finset.mem_range.mp hk
          rw [same k (by omega)]
      rw [this]
      rcases Nat.lt_or_ge i j with h | h
      · exact lo2 i h
      · have hij : i = j := by omega
        subst hij
        exact hi2 i le_rfl hj
    · rw [w2 i (by omega) (by omega), same j le_rfl, hi2 i (by omega) h2]
      congr 2
      refine Finset.sum_congr rfl fun k hk => ?_
      have := Finset.mem_range.mp hk
      rw [same k (by omega)]
  · rw [if_neg hlt]
    refine ⟨oth, fun i hi => ?_, fun i h1 h2 => by omega⟩
    rcases Nat.lt_or_ge i j with h | h
    · exact lo2 i h
    · have hij : i = j := by omega
      subst hij
      exact hi2 i le_rfl hj

/-- The factorisation equations satisfied by the stored result. -/
theorem luDecompose_spec (dim : ℕ) (A : Mat K) :
    let F := luDecompose dim A
    (∀ i j, i ≤ j → j < dim → F i j = A i j - ∑ k ∈ Finset.range i, F i k * F k j) ∧
    (∀ i j, j < i → i < dim →
      F i j = (A i j - ∑ k ∈ Finset.range j, F i k * F k j) * (1 / F j j)) := by
  have inv : ∀ m, m ≤ dim →
      let S := (List.range m).foldl (luColumn dim) A
      (∀ i j, m ≤ j → S i j = A i j) ∧
      (∀ i j, i ≤ j → j < m → S i j = A i j - ∑ k ∈ Finset.range i, S i k * S k j) ∧
      (∀ i j, j < i → i < dim → j < m →
        S i j = (A i j - ∑ k ∈ Finset.range j, S i k * S k j) * (1 / S j j)) := by
    intro m
    induction m with
    | zero =>
      intro _
      exact ⟨fun i j _ => rfl, fun i j _ h => by omega, fun i j _ _ h => by omega⟩
    | succ m ih =>
      intro hm
      obtain ⟨h0, h1, h2⟩ := ih (by omega)
      simp only at h0 h1 h2 ⊢
      rw [List.range_succ, List.foldl_append]
      simp only [List.foldl_cons, List.foldl_nil]
      generalize (List.range m).foldl (luColumn dim) A = S at h0 h1 h2 ⊢
      obtain ⟨c1, c2, c3⟩ := luColumn_spec dim S m (by omega)
      generalize luColumn dim S m = S' at c1 c2 c3 ⊢
      refine ⟨fun i j hj => ?_, fun i j hij hj => ?_, fun i j hji hi hj => ?_⟩
      · rw [c1 i j (by omega), h0 i j (by omega)]
      · by_cases hjm : j = m
        · subst hjm
          rw [c2 i hij, h0 i j le_rfl]
          congr 1
          refine Finset.sum_congr rfl fun k hk => ?_
          have := Finset.mem_range.mp hk
          rw [c1 i k (by omega)]
        · rw [c1 i j hjm, h1 i j hij (by omega)]
          congr 1
          refine Finset.sum_congr rfl fun k hk => ?_
          have := Finset.mem_range.mp hk
          rw [c1 i k (by omega), c1 k j hjm]
      · by_cases hjm : j = m
        · subst hjm
          rw [c3 i hji hi, h0 i j le_rfl]
          congr 2
          refine Finset.sum_congr rfl fun k hk => ?_
          have := Finset.mem_range.mp hk
          rw [c1 i k (by omega)]
        · rw [c1 i j hjm, h2 i j hji hi (by omega), c1 j j hjm]
          congr 2
          refine Finset.sum_congr rfl fun k hk => ?_
          have := Finset.mem_range.mp hk
          rw [c1 i k (by omega), c1 k j hjm]
  obtain ⟨-, h1, h2⟩ := inv dim le_rfl
  exact ⟨fun i j hij hj => h1 i j hij hj, fun i j hji hi => h2 i j hji hi (by omega)⟩

/-- Forward substitution. -/
theorem forward_spec (A : Mat K) (b : ℕ → K) : ∀ c,
    let y := (List.range' 1 c).foldl
      (fun r i => Function.update r i (subLoop 0 i (r i) fun j => A i j * r j)) b
    (∀ i, 1 + c ≤ i → y i = b i) ∧
    ∀ i, i < 1 + c → y i = b i - ∑ j ∈ Finset.range i, A i j * y j := by
  intro c
  induction c with
  | zero =>
    refine ⟨fun i _ => rfl, fun i hi => ?_⟩
    have : i = 0 := by omega
    subst this
    simp
  | succ c ih =>
    simp only at ih ⊢
    rw [List.range'_concat, List.foldl_append]
    simp only [List.foldl_cons, List.foldl_nil, one_mul]
    generalize (List.range' 1 c).foldl
      (fun r i => Function.update r i (subLoop 0 i (r i) fun j => A i j * r j)) b = y at ih ⊢
    obtain ⟨h1, h2⟩ := ih
    refine ⟨fun i hi => ?_, fun i hi => ?_⟩
    · rw [Function.update_of_ne (by omega), h1 i (by omega)]
    · have : ∑ j ∈ Finset.range i, A i j * Function.update y (1 + c)
          (subLoop 0 (1 + c) (y (1 + c)) fun j => A (1 + c) j * y j) j
          = ∑ j ∈ Finset.range i, A i j * y j :=
        Finset.sum_congr rfl fun j hj => by
          have := Finset.mem_range.mp hj
          rw [Function.update_of_ne (by omega)]
      rw [this]
      by_cases hic : i = 1 + c
      · subst hic
        rw [Function.update_self, subLoop_eq, h1 _ le_rfl, Finset.range_eq_Ico]
      · rw [Function.update_of_ne hic, h2 i (by omega)]

/-- One row of the back substitution. -/
theorem backRow_spec (dim : ℕ) (A : Mat K) (r : ℕ → K) (i : ℕ) (hi : i + 1 < dim) :
    backRow dim A r i
      = Function.update r i ((r i - ∑ j ∈ Finset.Ico (i + 1) dim, A i j * r j) / A i i) := by
  unfold backRow
  have h : ∀ c, (List.range' (i + 1) c).foldl
      (fun (sr : K × (ℕ → K)) j =>
        (sr.1 - A i j * sr.2 j, Function.update sr.2 i ((sr.1 - A i j * sr.2 j) / A i i))) (r i, r)
      = (r i - ∑ j ∈ Finset.Ico (i + 1) (i + 1 + c), A i j * r j,
          if c = 0 then r else
          Function.update r i ((r i - ∑ j ∈ Finset.Ico (i + 1) (i + 1 + c), A i j * r j) / A i i)) := by
    intro c
    induction c with
    | zero => simp
    | succ c ih =>
      rw [List.range'_concat, List.foldl_append, ih]
      simp only [List.foldl_cons, List.foldl_nil, one_mul]
      have hr : (if c = 0 then r else
          Function.update r i ((r i - ∑ j ∈ Finset.Ico (i + 1) (i + 1 + c), A i j * r j) / A i i))
          (i + 1 + c) = r (i + 1 + c) := by
        split_ifs
        · rfl
        · rw [Function.update_of_ne (by omega)]
      have hs : r i - ∑ j ∈ Finset.Ico (i + 1) (i + 1 + c), A i j * r j - A i (i + 1 + c) * r (i + 1 + c)
          = r i - ∑ j ∈ Finset.Ico (i + 1) (i + 1 + (c + 1)), A i j * r j := by
        rw [← add_assoc (i + 1), Finset.sum_Ico_succ_top (by omega)]
        ring
      rw [hr, hs, if_neg (Nat.succ_ne_zero c)]
      congr 1
      split_ifs
      · rfl
      · rw [Function.update_idem]
  have := h (dim - (i + 1))
  simp only at this ⊢
  rw [this]
  rw [if_neg (by omega), Nat.add_sub_cancel' (by omega)]

/-- All rows of the back substitution, from row `m-1` down to `0`. -/
theorem back_spec (dim : ℕ) (A : Mat K) : ∀ (m : ℕ) (r : ℕ → K), m + 1 ≤ dim →
    let x := (List.range m).reverse.foldl (backRow dim A) r
    (∀ i, m ≤ i → x i = r i) ∧
    ∀ i, i < m → x i = (r i - ∑ j ∈ Finset.Ico (i + 1) dim, A i j * x j) / A i i := by
  intro m
  induction m with
  | zero => intro r _; exact ⟨fun i _ => rfl, fun i hi => by omega⟩
  | succ m ih =>
    intro r hm
    simp only at ih ⊢
    rw [List.range_succ, List.reverse_append]
    simp only [List.reverse_cons, List.reverse_nil, List.nil_append, List.singleton_append,
      List.foldl_cons]
    obtain ⟨h1, h2⟩ := ih (backRow dim A r m) (by omega)
    rw [backRow_spec dim A r m (by omega)] at h1 h2 ⊢
    generalize (List.range m).reverse.foldl (backRow dim A)
      (Function.update r m ((r m - ∑ j ∈ Finset.Ico (m + 1) dim, A m j * r j) / A m m)) = x at h1 h2 ⊢
    have hge : ∀ i, m + 1 ≤ i → x i = r i := fun i hi => by
      rw [h1 i (by omega), Function.update_of_ne (by omega)]
    refine ⟨hge, fun i hi => ?_⟩
    by_cases him : i = m
    · subst him
      rw [h1 i le_rfl, Function.update_self]
      congr 2
      refine Finset.sum_congr rfl fun j hj => ?_
      rw [Finset.mem_Ico] at hj
      rw [hge j (by omega)]
    · rw [h2 i (by omega), Function.update_of_ne him]

end LU
end Verif.Numerics
