import Verif.Model.LinSys
import Mathlib.Algebra.BigOperators.Group.Finset.Basic
import Mathlib.Algebra.BigOperators.Intervals
import Mathlib.Data.Fintype.Card
import Mathlib.Data.Finset.Card
import Mathlib.Tactic.Ring
import Mathlib.Tactic.Linarith

set_option linter.unusedSectionVars false
set_option linter.unusedSimpArgs false

namespace Verif.LinSys

open Finset

section
variable {R : Type*} [AddCommMonoid R]

/-- Columns strictly increasing within the row. -/
def RowSorted (row : RowView) : Prop := ∀ i j, i < j → j < row.length → row.col i < row.col j

theorem RowSorted.inj {row : RowView} (h : RowSorted row) {i j : ℕ} (hi : i < row.length)
    (hj : j < row.length) (e : row.col i = row.col j) : i = j := by
  rcases Nat.lt_trichotomy i j with h1 | h1 | h1
  · have := h i j h1 hj; omega
  · exact h1
  · have := h j i h1 hi; omega

theorem seek_eq (row : RowView) (cur : ℕ) (p : ℕ) (hp : p < row.length) (hc : row.col p = cur)
    (off : ℕ) (hle : off ≤ p) (hne : ∀ q, off ≤ q → q < p → row.col q ≠ cur) :
    seek row cur off = p := by
  obtain ⟨k, hk⟩ : ∃ k, p - off = k := ⟨_, rfl⟩
  induction k generalizing off with
  | zero =>
    have : off = p := by omega
    subst this
    unfold seek
    simp [hc]
  | succ k ih =>
    unfold seek
    rw [if_pos ⟨hne off le_rfl (by omega), by omega⟩]
    exact ih (off + 1) (by omega) (fun q h1 h2 => hne q (by omega) h2) (by omega)

theorem generic_aux (row : RowView) (hs : RowSorted row) (ids perm : ℕ → ℕ) (input : ℕ → R)
    (N : ℕ) (hmono : ∀ i j, i ≤ j → j < N → ids i ≤ ids j)
    (hin : ∀ j < N, ∃ p < row.length, row.col p = ids j) (v : ℕ → R) (n : ℕ) (hn : n ≤ N) :
    let s := sumIntoRowGeneric row ids perm input n (0, v)
    (s.1 = 0 ∨ ∃ j < n, s.1 < row.length ∧ row.col s.1 = ids j) ∧
    (∀ p, s.2 p = if p < row.length then
        v p + ∑ j ∈ range n, (if ids j = row.col p then input (perm j) else 0) else v p) := by
  induction n with
  | zero =>
    intro s
    refine ⟨Or.inl rfl, fun p => ?_⟩
    simp [s, sumIntoRowGeneric]
  | succ n ih =>
    intro s
    obtain ⟨i1, i2⟩ := ih (by omega)
    set t := sumIntoRowGeneric row ids perm input n (0, v) with ht
    obtain ⟨p0, hp0, hcol⟩ := hin n (by omega)
    have hoff : t.1 ≤ p0 := by
      rcases i1 with h | ⟨j, hj, h1, h2⟩
      · omega
      · by_contra hc
        have := hs p0 t.1 (by omega) h1
        have := hmono j n (by omega) (by omega)
        omega
    have hseek : seek row (ids n) t.1 = p0 := by
      apply seek_eq row _ p0 hp0 hcol _ hoff
      intro q _ h2 h3
      have := hs q p0 h2 hp0
      omega
    have hs' : s = (p0, Function.update t.2 p0 (t.2 p0 + input (perm n))) := by
      simp only [s, sumIntoRowGeneric, ← ht, hseek, if_pos hp0]
    rw [hs']
    refine ⟨Or.inr ⟨n, by omega, hp0, hcol⟩, fun p => ?_⟩
    simp only
    by_cases hpp : p = p0
    · subst hpp
      rw [Function.update_self, i2, if_pos hp0, if_pos hp0, sum_range_succ, if_pos hcol.symm,
        add_assoc]
    · rw [Function.update_of_ne hpp, i2]
      by_cases hpl : p < row.length
      · rw [if_pos hpl, if_pos hpl, sum_range_succ, if_neg, add_zero]
        intro hc
        exact hpp (hs.inj hpl hp0 (by omega))
      · rw [if_neg hpl, if_neg hpl]

theorem SortOf.sum_perm {n : ℕ} {keys perm : ℕ → ℕ} (h : SortOf n keys perm) (f : ℕ → R) :
    ∑ j ∈ range n, f (perm j) = ∑ k ∈ range n, f k := by
  have himg : (range n).image perm = range n := by
    apply eq_of_subset_of_card_le
    · intro x hx
      obtain ⟨y, hy, rfl⟩ := mem_image.1 hx
      exact mem_range.2 (h.lt y (mem_range.1 hy))
    · rw [card_image_of_injOn]
      intro a ha b hb hab
      exact h.inj a (mem_range.1 (by simpa using ha)) b (mem_range.1 (by simpa using hb)) hab
  conv_rhs => rw [← himg]
  rw [sum_image]
  · intro a ha b hb hab
    exact h.inj a (mem_range.1 (by simpa using ha)) b (mem_range.1 (by simpa using hb)) hab

/-- Generic row assembly: each entry of the row gains the sum of the inputs of its column. -/
theorem generic_spec (row : RowView) (hs : RowSorted row) (n : ℕ) (keys perm : ℕ → ℕ)
    (hsort : SortOf n keys perm) (input : ℕ → R)
    (hin : ∀ k < n, ∃ p < row.length, row.col p = keys k) (v : ℕ → R) (p : ℕ) :
    (sumIntoRowGeneric row (fun k => keys (perm k)) perm input n (0, v)).2 p =
      if p < row.length then v p + ∑ k ∈ range n, (if keys k = row.col p then input k else 0)
      else v p := by
  have := (generic_aux row hs (fun k => keys (perm k)) perm input n hsort.sorted
    (fun j hj => hin (perm j) (hsort.lt j hj)) v n le_rfl).2 p
  rw [this]
  rw [hsort.sum_perm (fun k => if keys k = row.col p then input k else 0)]

/-! ### The three-dof path -/

/-- The row consists of blocks of three consecutive columns starting at multiples of three, in
increasing order. -/
structure Block3 (row : RowView) (m : ℕ) (b : ℕ → ℕ) : Prop where
  length : row.length = 3 * m
  col : ∀ q < m, ∀ d < 3, row.col (3 * q + d) = 3 * b q + d
  mono : ∀ q r, q < r → r < m → b q < b r

theorem Block3.sorted {row : RowView} {m : ℕ} {b : ℕ → ℕ} (h : Block3 row m b) : RowSorted row := by
  intro i j hij hj
  rw [h.length] at hj
  have hi3 : i = 3 * (i / 3) + i % 3 := by omega
  have hj3 : j = 3 * (j / 3) + j % 3 := by omega
  rw [hi3, hj3, h.col (i / 3) (by omega) _ (by omega), h.col (j / 3) (by omega) _ (by omega)]
  rcases Nat.lt_or_ge (i / 3) (j / 3) with hlt | hge
  · have := h.mono _ _ hlt (by omega)
    omega
  · have : i / 3 = j / 3 := by omega
    rw [this]
    omega

theorem seek3_eq (row : RowView) (m : ℕ) (b : ℕ → ℕ) (h : Block3 row m b) (q0 : ℕ) (hq0 : q0 < m)
    (q : ℕ) (hq : q ≤ q0) : seek3 row (3 * b q0) (3 * q) = some (3 * q0) := by
  obtain ⟨k, hk⟩ : ∃ k, q0 - q = k := ⟨_, rfl⟩
  induction k generalizing q with
  | zero =>
    have : q = q0 := by omega
    subst this
    have := h.col q hq0 0 (by omega)
    unfold seek3
    rw [if_neg (by simpa using this)]
  | succ k ih =>
    unfold seek3
    have h1 := h.col q (by omega) 0 (by omega)
    have h2 := h.mono q q0 (by omega) hq0
    have h3 := h.length
    rw [if_pos (by simp only [Nat.add_zero] at h1; omega), if_neg (by omega)]
    exact ih (q + 1) (by omega) (by omega)

theorem add3_apply (v : ℕ → R) (off : ℕ) (input : ℕ → R) (e p : ℕ) :
    add3 v off input e p =
      if p = off then v p + input e else if p = off + 1 then v p + input (e + 1)
      else if p = off + 2 then v p + input (e + 2) else v p := by
  unfold add3
  simp only [Function.update_apply, Nat.add_zero]
  by_cases h0 : p = off
  · subst h0
    simp
  · by_cases h1 : p = off + 1
    · subst h1
      simp
    · by_cases h2 : p = off + 2
      · subst h2
        simp
      · simp [h0, h1, h2]

/-- Rank argument: with distinct keys, position `r` of the sort holds the key with `r` smaller
keys. -/
theorem SortOf.rank {n : ℕ} {keys perm : ℕ → ℕ} (h : SortOf n keys perm)
    (hinj : ∀ i < n, ∀ j < n, keys i = keys j → i = j) {r : ℕ} (hr : r < n) :
    ((range n).filter (fun k => keys k < keys (perm r))).card = r := by
  have himg : (range r).image perm = (range n).filter (fun k => keys k < keys (perm r)) := by
    have hall : (range n).image perm = range n := by
      apply eq_of_subset_of_card_le
      · intro x hx
        obtain ⟨y, hy, rfl⟩ := mem_image.1 hx
        exact mem_range.2 (h.lt y (mem_range.1 hy))
      · rw [card_image_of_injOn]
        intro a ha b hb hab
        exact h.inj a (mem_range.1 (by simpa using ha)) b (mem_range.1 (by simpa using hb)) hab
    ext x
    simp only [mem_image, mem_range, mem_filter]
    constructor
    · rintro ⟨y, hy, rfl⟩
      refine ⟨h.lt y (by omega), ?_⟩
      have h1 := h.sorted y r (by omega) hr
      rcases Nat.lt_or_ge (keys (perm y)) (keys (perm r)) with h2 | h2
      · exact h2
      · have := h.inj y (by omega) r hr (hinj _ (h.lt y (by omega)) _ (h.lt r hr) (by omega))
        omega
    · rintro ⟨hx, hlt⟩
      have : x ∈ (range n).image perm := by rw [hall]; exact mem_range.2 hx
      obtain ⟨y, hy, rfl⟩ := mem_image.1 this
      refine ⟨y, ?_, rfl⟩
      by_contra hc
      have := h.sorted r y (by omega) (mem_range.1 hy)
      omega
  rw [← himg, card_image_of_injOn, card_range]
  intro a ha b hb hab
  simp only [coe_range, Set.mem_Iio] at ha hb
  exact h.inj a (by omega) b (by omega) hab

theorem sum_range_three (N : ℕ) (f : ℕ → R) :
    ∑ k ∈ range (3 * N), f k = ∑ i ∈ range N, (f (3 * i) + f (3 * i + 1) + f (3 * i + 2)) := by
  induction N with
  | zero => simp
  | succ N ih =>
    have e : 3 * (N + 1) = 3 * N + 1 + 1 + 1 := by ring
    rw [e, sum_range_succ, sum_range_succ, sum_range_succ, ih, sum_range_succ]
    simp only [add_assoc]

theorem card_blocks (N : ℕ) (c : ℕ → ℕ) (x d : ℕ) (hd : d < 3) (hx : ∃ i < N, c i = x)
    (hinj : ∀ i < N, ∀ j < N, c i = c j → i = j) :
    ((range (3 * N)).filter (fun k => 3 * c (k / 3) + k % 3 < 3 * x + d)).card % 3 = d := by
  rw [card_filter, sum_range_three]
  have hinner : ∀ i, ((if 3 * c (3 * i / 3) + 3 * i % 3 < 3 * x + d then 1 else 0) +
      (if 3 * c ((3 * i + 1) / 3) + (3 * i + 1) % 3 < 3 * x + d then 1 else 0) +
      (if 3 * c ((3 * i + 2) / 3) + (3 * i + 2) % 3 < 3 * x + d then 1 else 0) : ℕ) =
      if c i < x then 3 else if c i = x then d else 0 := by
    intro i
    have d0 : (3 * i) / 3 = i := by omega
    have d1 : (3 * i + 1) / 3 = i := by omega
    have d2 : (3 * i + 2) / 3 = i := by omega
    have m0 : (3 * i) % 3 = 0 := by omega
    have m1 : (3 * i + 1) % 3 = 1 := by omega
    have m2 : (3 * i + 2) % 3 = 2 := by omega
    rw [d0, d1, d2, m0, m1, m2]
    split_ifs <;> omega
  simp only [hinner]
  have key : ∀ M ≤ N, (∑ i ∈ range M, (if c i < x then 3 else if c i = x then d else 0)) % 3 =
      if ∃ i < M, c i = x then d else 0 := by
    intro M
    induction M with
    | zero => intro _; simp
    | succ M ih =>
      intro hM
      have ih := ih (by omega)
      rw [sum_range_succ]
      by_cases heq : c M = x
      · have hno : ¬ ∃ i < M, c i = x := by
          rintro ⟨i, hi, hc⟩
          have := hinj i (by omega) M (by omega) (by omega)
          omega
        rw [if_neg hno] at ih
        have hyes : ∃ i < M + 1, c i = x := ⟨M, by omega, heq⟩
        have hnl : ¬ c M < x := by omega
        rw [if_pos hyes, if_neg hnl, if_pos heq]
        omega
      · have hiff : (∃ i < M + 1, c i = x) ↔ (∃ i < M, c i = x) := by
          constructor
          · rintro ⟨i, hi, hc⟩
            rcases Nat.lt_succ_iff_lt_or_eq.1 hi with h | h
            · exact ⟨i, h, hc⟩
            · subst h; omega
          · rintro ⟨i, hi, hc⟩; exact ⟨i, by omega, hc⟩
        simp only [hiff]
        rw [← ih, if_neg heq]
        split <;> omega
  rw [key N le_rfl, if_pos hx]

/-- In the sorted list of a three-dof element with distinct nodes, every third entry is the first
component of a node. -/
theorem perm_block_start {N : ℕ} {c perm : ℕ → ℕ} (hinj : ∀ i < N, ∀ j < N, c i = c j → i = j)
    (h : SortOf (3 * N) (fun k => 3 * c (k / 3) + k % 3) perm) {j : ℕ} (hj : j < N) :
    perm (3 * j) % 3 = 0 := by
  have hk : ∀ i < 3 * N, ∀ j < 3 * N, (3 * c (i / 3) + i % 3 = 3 * c (j / 3) + j % 3) → i = j := by
    intro i hi j hj he
    have h1 : i % 3 = j % 3 := by omega
    have := hinj (i / 3) (by omega) (j / 3) (by omega) (by omega)
    omega
  have hr := h.rank hk (r := 3 * j) (by omega)
  have hlt := h.lt (3 * j) (by omega)
  have := card_blocks N c (c (perm (3 * j) / 3)) (perm (3 * j) % 3) (by omega)
    ⟨perm (3 * j) / 3, by omega, rfl⟩ hinj
  rw [hr] at this
  omega

theorem vec3_aux (row : RowView) (m : ℕ) (b : ℕ → ℕ) (h : Block3 row m b) (N : ℕ) (c perm : ℕ → ℕ)
    (hinj : ∀ i < N, ∀ j < N, c i = c j → i = j)
    (hsort : SortOf (3 * N) (fun k => 3 * c (k / 3) + k % 3) perm) (input : ℕ → R)
    (hin : ∀ i < N, ∃ q < m, b q = c i) (v : ℕ → R) (n : ℕ) (hn : n ≤ N) :
    let s := sumIntoRowVec3 row (fun k => 3 * c (perm k / 3) + perm k % 3) perm input n (some 0, v)
    (∃ q, s.1 = some (3 * q) ∧ (q = 0 ∨ ∃ j < n, q ≤ m ∧ b (q - 1) = c (perm (3 * j) / 3) ∧ 0 < q)) ∧
    (∀ p, s.2 p = if p < row.length then
        v p + ∑ j ∈ range n, (if c (perm (3 * j) / 3) = b (p / 3) then input (perm (3 * j) + p % 3)
          else 0) else v p) := by
  induction n with
  | zero =>
    intro s
    refine ⟨⟨0, rfl, Or.inl rfl⟩, fun p => ?_⟩
    simp [s, sumIntoRowVec3]
  | succ n ih =>
    intro s
    obtain ⟨⟨q, hq, hq2⟩, i2⟩ := ih (by omega)
    set t := sumIntoRowVec3 row (fun k => 3 * c (perm k / 3) + perm k % 3) perm input n (some 0, v)
      with ht
    have hlt := hsort.lt (3 * n) (by omega)
    obtain ⟨q0, hq0, hb0⟩ := hin (perm (3 * n) / 3) (by omega)
    have hst := perm_block_start hinj hsort (j := n) (by omega)
    have hle : q ≤ q0 := by
      rcases hq2 with h0 | ⟨j, hj, hqm, hbj, hpos⟩
      · omega
      · by_contra hc
        have hsj := hsort.sorted (3 * j) (3 * n) (by omega) (by omega)
        have hstj := perm_block_start hinj hsort (j := j) (by omega)
        have hne : c (perm (3 * j) / 3) ≠ c (perm (3 * n) / 3) := by
          intro he
          have hl2 := hsort.lt (3 * j) (by omega)
          have := hinj _ (by omega) _ (by omega) he
          have := hsort.inj (3 * j) (by omega) (3 * n) (by omega) (by omega)
          omega
        have hq1 : q0 ≤ q - 1 := by omega
        rcases Nat.lt_or_ge q0 (q - 1) with hl | hl
        · have := h.mono q0 (q - 1) hl (by omega)
          omega
        · have : q0 = q - 1 := by omega
          subst this
          omega
    have hseek : seek3 row (3 * c (perm (3 * n) / 3) + perm (3 * n) % 3) (3 * q) = some (3 * q0) := by
      rw [hst, Nat.add_zero, ← hb0]
      exact seek3_eq row m b h q0 hq0 q hle
    have hs' : s = (some (3 * q0 + 3), add3 t.2 (3 * q0) input (perm (3 * n))) := by
      simp only [s, sumIntoRowVec3, ← ht, hq, hseek]
    rw [hs']
    refine ⟨⟨q0 + 1, by simp [Nat.mul_add], Or.inr ⟨n, by omega, by omega, by simpa using hb0, by omega⟩⟩, ?_⟩
    intro p
    simp only [add3_apply]
    have hlen := h.length
    by_cases hp : p / 3 = q0
    · have hpl : p < row.length := by omega
      have hval : ∀ e, p = 3 * q0 + e → p % 3 = e % 3 := by intro e he; omega
      have hcb : c (perm (3 * n) / 3) = b (p / 3) := by rw [hp, hb0]
      rw [if_pos hpl, sum_range_succ, if_pos hcb, i2, if_pos hpl]
      rcases (by omega : p = 3 * q0 ∨ p = 3 * q0 + 1 ∨ p = 3 * q0 + 2) with h1 | h1 | h1
      · have : p % 3 = 0 := by omega
        rw [if_pos h1, this, Nat.add_zero, add_assoc]
      · have : p % 3 = 1 := by omega
        rw [if_neg (by omega), if_pos h1, this, add_assoc]
      · have : p % 3 = 2 := by omega
        rw [if_neg (by omega), if_neg (by omega), if_pos h1, this, add_assoc]
    · rw [if_neg (by omega), if_neg (by omega), if_neg (by omega), i2]
      by_cases hpl : p < row.length
      · rw [if_pos hpl, if_pos hpl, sum_range_succ, if_neg, add_zero]
        intro hc
        apply hp
        rcases Nat.lt_trichotomy (p / 3) q0 with h1 | h1 | h1
        · have := h.mono _ _ h1 hq0; omega
        · exact h1
        · have := h.mono _ _ h1 (by omega); omega
      · rw [if_neg hpl, if_neg hpl]

/-- Three-dof row assembly: the same specification as the generic one. -/
theorem vec3_spec (row : RowView) (m : ℕ) (b : ℕ → ℕ) (h : Block3 row m b) (N : ℕ) (c perm : ℕ → ℕ)
    (hinj : ∀ i < N, ∀ j < N, c i = c j → i = j)
    (hsort : SortOf (3 * N) (fun k => 3 * c (k / 3) + k % 3) perm) (input : ℕ → R)
    (hin : ∀ i < N, ∃ q < m, b q = c i) (v : ℕ → R) (p : ℕ) :
    (sumIntoRowVec3 row (fun k => 3 * c (perm k / 3) + perm k % 3) perm input N (some 0, v)).2 p =
      if p < row.length then
        v p + ∑ k ∈ range (3 * N), (if 3 * c (k / 3) + k % 3 = row.col p then input k else 0)
      else v p := by
  rw [(vec3_aux row m b h N c perm hinj hsort input hin v N le_rfl).2 p]
  by_cases hp : p < row.length
  · rw [if_pos hp, if_pos hp]
    congr 1
    have hlen := h.length
    have hcol : row.col p = 3 * b (p / 3) + p % 3 := by
      have := h.col (p / 3) (by omega) (p % 3) (by omega)
      rw [← this]
      congr 1
      omega
    rw [sum_range_three]
    -- inner: collapse to the component p % 3
    have hinner : ∀ i, ((if 3 * c (3 * i / 3) + 3 * i % 3 = row.col p then input (3 * i) else 0) +
        (if 3 * c ((3 * i + 1) / 3) + (3 * i + 1) % 3 = row.col p then input (3 * i + 1) else 0) +
        (if 3 * c ((3 * i + 2) / 3) + (3 * i + 2) % 3 = row.col p then input (3 * i + 2) else 0)) =
        (if c i = b (p / 3) then input (3 * i + p % 3) else 0) := by
      intro i
      have d0 : (3 * i) / 3 = i := by omega
      have d1 : (3 * i + 1) / 3 = i := by omega
      have d2 : (3 * i + 2) / 3 = i := by omega
      have m0 : (3 * i) % 3 = 0 := by omega
      have m1 : (3 * i + 1) % 3 = 1 := by omega
      have m2 : (3 * i + 2) % 3 = 2 := by omega
      rw [d0, d1, d2, m0, m1, m2, hcol]
      by_cases hc : c i = b (p / 3)
      · rw [if_pos hc, hc]
        rcases (by omega : p % 3 = 0 ∨ p % 3 = 1 ∨ p % 3 = 2) with e | e | e
        · rw [e]; simp
        · rw [e]; simp
        · rw [e]; simp
      · rw [if_neg hc, if_neg (by omega), if_neg (by omega), if_neg (by omega)]
        simp
    simp only [hinner]
    -- reorder by j ↦ perm (3 j) / 3
    have hset : SortOf N c (fun j => perm (3 * j) / 3) := by
      refine ⟨fun j hj => ?_, fun i hi j hj he => ?_, fun i j hij hj => ?_⟩
      · have := hsort.lt (3 * j) (by omega)
        omega
      · have h1 := perm_block_start hinj hsort hi
        have h2 := perm_block_start hinj hsort hj
        have := hsort.inj (3 * i) (by omega) (3 * j) (by omega) (by omega)
        omega
      · have h1 := perm_block_start hinj hsort (j := i) (by omega)
        have h2 := perm_block_start hinj hsort hj
        have := hsort.sorted (3 * i) (3 * j) (by omega) (by omega)
        omega
    rw [← hset.sum_perm (fun i => if c i = b (p / 3) then input (3 * i + p % 3) else 0)]
    apply sum_congr rfl
    intro j hj
    have h1 := perm_block_start hinj hsort (mem_range.1 hj)
    have : 3 * (perm (3 * j) / 3) = perm (3 * j) := by omega
    rw [this]
  · rw [if_neg hp, if_neg hp]

end

end Verif.LinSys
