import Verif.Props.LinSysFinal1

/-!
# C293: removal of unused slots
-/

set_option linter.unusedSimpArgs false

namespace Verif.LinSys

/-- A row as the insertions leave it (C57): `k` columns, then unused slots. -/
def UsedPrefix (row : List ℤ) (k : ℕ) : Prop :=
  k ≤ row.length ∧ (∀ j (h : j < row.length), j < k → row[j] ≠ INVALID) ∧
    ∀ j (h : j < row.length), k ≤ j → row[j] = INVALID

theorem trimmed_of_prefix (row : ℕ → ℤ) (full k : ℕ) (hk : 0 < k) (hv : ∀ j < k, row j ≠ INVALID)
    (n : ℕ) (hn : k ≤ n) (hu : ∀ j, k ≤ j → j < n → row j = INVALID) : trimmedLength row full n = k := by
  induction n with
  | zero => omega
  | succ n ih =>
    rw [trimmedLength]
    rcases Nat.lt_or_ge n k with h | h
    · rw [if_pos (hv n h)]; omega
    · rw [if_neg (by push Not; exact hu n h (by omega))]
      exact ih h (fun j h1 h2 => hu j h1 (by omega))

theorem flatten_segment (ls : List (List ℤ)) (i : ℕ) (hi : i < ls.length) (j : ℕ) (hj : j < ls[i].length) :
    ls.flatten.getD (((ls.map List.length).take i).sum + j) INVALID = ls[i][j] := by
  induction ls generalizing i with
  | nil => simp at hi
  | cons l ls ih =>
    cases i with
    | zero =>
      simp only [List.getElem_cons_zero] at hj ⊢
      rw [List.flatten_cons, List.take_zero, List.sum_nil, Nat.zero_add, List.getD_eq_getElem?_getD,
        List.getElem?_append_left hj, List.getElem?_eq_getElem hj]
      rfl
    | succ i =>
      simp only [List.getElem_cons_succ] at hj ⊢
      have h := ih i (by simpa using hi) hj
      rw [List.flatten_cons, List.map_cons, List.take_succ_cons, List.sum_cons,
        List.getD_eq_getElem?_getD, List.getElem?_append_right (by omega)]
      rw [List.getD_eq_getElem?_getD] at h
      rw [← h]
      congr 2
      omega

/-- **C293.** Removing the unused slots: if every row holds at least one column, and its columns come before
its unused slots, then afterwards every row consists of exactly its columns, in the same order; no
`INVALID` is left anywhere; the new lengths are the numbers of columns, and the rows again tile the
array.  Any number of rows, any lengths, whether or not anything has to be removed. -/
theorem c293_remove_invalid_partial (lens : List ℕ) (cols : ℕ → ℤ) (k : ℕ → ℕ)
    (hrow : ∀ i < lens.length, 0 < k i ∧
      UsedPrefix (Csr.row ⟨(computeRowPointers lens).1, cols⟩ i) (k i)) :
    let g : Csr := ⟨(computeRowPointers lens).1, cols⟩
    let r := removeInvalid g lens
    r.2 = (List.range lens.length).map k ∧ r.1.ptr = (computeRowPointers r.2).1 ∧
    ∀ i < lens.length, r.1.row i = (g.row i).take (k i) ∧ ∀ x ∈ r.1.row i, x ≠ INVALID := by
  intro g r
  have hlen : ∀ i (hi : i < lens.length), g.rowLength i = lens[i] := fun i hi => c291_row_length lens i hi
  have hptr : ∀ i ≤ lens.length, g.ptr.getD i 0 = (lens.take i).sum :=
    fun i hi => (c291_row_pointers lens).2.1 i hi
  have hk : ∀ i (hi : i < lens.length), k i ≤ lens[i] := by
    intro i hi
    have := (hrow i hi).2.1
    rw [show Csr.row ⟨(computeRowPointers lens).1, cols⟩ i = g.row i from rfl] at this
    unfold Csr.row at this
    rw [List.length_map, List.length_range, hlen i hi] at this
    exact this
  have hval : ∀ i (hi : i < lens.length), ∀ j < k i, cols (g.ptr.getD i 0 + j) ≠ INVALID := by
    intro i hi j hj
    have hj' : j < (g.row i).length := by
      unfold Csr.row; rw [List.length_map, List.length_range, hlen i hi]; have := hk i hi; omega
    have := (hrow i hi).2.2.1 j hj' hj
    simpa [Csr.row] using this
  have hinv : ∀ i (hi : i < lens.length), ∀ j, k i ≤ j → j < lens[i] →
      cols (g.ptr.getD i 0 + j) = INVALID := by
    intro i hi j hkj hj
    have hj' : j < (g.row i).length := by
      unfold Csr.row; rw [List.length_map, List.length_range, hlen i hi]; omega
    have := (hrow i hi).2.2.2 j hj' hkj
    simpa [Csr.row] using this
  have hr2 : trimmedLengths g lens = (List.range lens.length).map k := by
    unfold trimmedLengths
    apply List.ext_getElem
    · simp
    · intro i h1 h2
      simp only [List.length_map, List.length_zipIdx] at h1
      simp only [List.getElem_map, List.getElem_zipIdx, Nat.zero_add, List.getElem_range]
      exact trimmed_of_prefix _ _ _ (hrow i h1).1 (hval i h1) _ (by rw [hlen i h1]; exact hk i h1)
        (fun j h3 h4 => hinv i h1 j h3 (by rw [hlen i h1] at h4; exact h4))
  have hrsnd : r.2 = (List.range lens.length).map k := by
    simp only [r, removeInvalid]
    split_ifs <;> exact hr2
  have hsum : g.ptr.getD lens.length 0 = lens.sum := by rw [hptr _ le_rfl, List.take_length]
  have hle : ((List.range lens.length).map k).sum ≤ lens.sum := by
    have : lens = (List.range lens.length).map (fun i => lens.getD i 0) := by
      apply List.ext_getElem
      · simp
      · intro i h1 h2; simp [h1]
    conv_rhs => rw [this]
    apply List.sum_le_sum
    intro i hi
    rw [List.mem_range] at hi
    have := hk i hi
    simpa [hi] using this
  have hrows : ∀ i (hi : i < lens.length), (g.row i).take (k i) =
      (List.range (k i)).map (fun j => cols (g.ptr.getD i 0 + j)) := by
    intro i hi
    unfold Csr.row
    rw [← List.map_take, List.take_range, hlen i hi, Nat.min_eq_left (hk i hi)]
  have hmain : r.1.ptr = (computeRowPointers r.2).1 ∧ ∀ i < lens.length, r.1.row i = (g.row i).take (k i) := by
    by_cases hlt : ((List.range lens.length).map k).sum < lens.sum
    · have hr1 : r.1 = ⟨(computeRowPointers (trimmedLengths g lens)).1, fun p =>
          ((trimmedLengths g lens).zipIdx.flatMap (fun li =>
            (List.range li.1).map (fun j => g.cols (g.ptr.getD li.2 0 + j)))).getD p INVALID⟩ := by
        simp only [r, removeInvalid]
        rw [if_pos (by rw [hr2, hsum]; exact hlt)]
      rw [hrsnd, hr1, hr2]
      refine ⟨rfl, fun i hi => ?_⟩
      set K := (List.range lens.length).map k with hK
      have hKl : K.length = lens.length := by simp [hK]
      have hKi : ∀ i (h : i < K.length), K[i] = k i := by intro i h; simp [hK]
      rw [hrows i hi]
      unfold Csr.row
      have hrl : Csr.rowLength ⟨(computeRowPointers K).1, fun p =>
          (K.zipIdx.flatMap (fun li =>
            (List.range li.1).map (fun j => g.cols (g.ptr.getD li.2 0 + j)))).getD p INVALID⟩ i = k i := by
        rw [← hKi i (by omega)]
        exact c291_row_length K i (by omega)
      rw [hrl]
      apply List.map_congr_left
      intro j hj
      rw [List.mem_range] at hj
      simp only
      rw [(c291_row_pointers K).2.1 i (by omega)]
      set LL : List (List ℤ) := K.zipIdx.map (fun li =>
        (List.range li.1).map (fun j => g.cols (g.ptr.getD li.2 0 + j))) with hLL
      have hfl : K.zipIdx.flatMap (fun li =>
            (List.range li.1).map (fun j => g.cols (g.ptr.getD li.2 0 + j))) = LL.flatten := by
        rw [hLL, List.flatMap]
      have hll : LL.map List.length = K := by
        rw [hLL, List.map_map]
        apply List.ext_getElem
        · simp
        · intro n h1 h2; simp
      have hLi : i < LL.length := by rw [hLL]; simp; omega
      have hLe : LL[i] = (List.range (k i)).map (fun j => cols (g.ptr.getD i 0 + j)) := by
        simp only [hLL, List.getElem_map, List.getElem_zipIdx, Nat.zero_add, hKi]
        rfl
      have := flatten_segment LL i hLi j (by rw [hLe]; simpa using hj)
      rw [hll] at this
      rw [hfl, this]
      simp [hLe]
    · have hr1 : r.1 = g := by
        simp only [r, removeInvalid]
        rw [if_neg (by rw [hr2, hsum]; exact hlt)]
      have heq : ((List.range lens.length).map k).sum = lens.sum := by omega
      have hall : ∀ i (hi : i < lens.length), k i = lens[i] := by
        by_contra hne
        push Not at hne
        obtain ⟨i, hi, hne⟩ := hne
        have h1 : k i < lens[i] := lt_of_le_of_ne (hk i hi) hne
        have hl : lens = (List.range lens.length).map (fun i => lens.getD i 0) := by
          apply List.ext_getElem
          · simp
          · intro i h1 h2; simp [h1]
        have : ((List.range lens.length).map k).sum < ((List.range lens.length).map (fun i => lens.getD i 0)).sum := by
          apply List.sum_lt_sum
          · intro n hn
            rw [List.mem_range] at hn
            have := hk n hn
            simpa [hn] using this
          · exact ⟨i, List.mem_range.2 hi, by simpa [hi] using h1⟩
        rw [← hl] at this
        omega
      have hKl : (List.range lens.length).map k = lens := by
        apply List.ext_getElem
        · simp
        · intro i h1 h2; simp [hall i h2]
      rw [hrsnd, hr1, hKl]
      refine ⟨rfl, fun i hi => ?_⟩
      rw [List.take_of_length_le]
      unfold Csr.row
      rw [List.length_map, List.length_range, hlen i hi, hall i hi]
  refine ⟨hrsnd, hmain.1, fun i hi => ⟨hmain.2 i hi, ?_⟩⟩
  intro x hx
  rw [hmain.2 i hi, hrows i hi, List.mem_map] at hx
  obtain ⟨j, hj, rfl⟩ := hx
  exact hval i hi j (List.mem_range.1 hj)

/-- Concrete case: three rows, the first and the last with unused slots. -/
example : let r := removeInvalid ⟨(computeRowPointers [3, 1, 2]).1,
      fun p => [4, 7, INVALID, 2, 9, INVALID].getD p INVALID⟩ [3, 1, 2]
    r.2 = [2, 1, 1] ∧ r.1.ptr = [0, 2, 3, 4] ∧ (List.range 4).map r.1.cols = [4, 7, 2, 9] := by
  decide

/-- A row without any column is not emptied: it keeps all its unused slots, so `INVALID` columns stay in the
graph.  (`rowLengths(i)` is only assigned when a valid column is found.) -/
theorem c293_empty_row_kept (n : ℕ) :
    (removeInvalid ⟨(computeRowPointers [n]).1, fun _ => INVALID⟩ [n]).2 = [n] ∧
    (removeInvalid ⟨(computeRowPointers [n]).1, fun _ => INVALID⟩ [n]).1.row 0 =
      List.replicate n INVALID := by
  have ht : ∀ m, trimmedLength (fun _ => INVALID) n m = n := by
    intro m
    induction m with
    | zero => rfl
    | succ m ih => rw [trimmedLength, if_neg (by simp)]; exact ih
  have hl : trimmedLengths ⟨(computeRowPointers [n]).1, fun _ => INVALID⟩ [n] = [n] := by
    unfold trimmedLengths
    simp [ht]
  have hp : (computeRowPointers [n]).1.getD 1 0 = n := by simp [computeRowPointers]
  unfold removeInvalid
  simp only [hl, List.length_singleton, hp, List.sum_singleton, lt_irrefl, if_false]
  refine ⟨trivial, ?_⟩
  have h2 := c291_row_length [n] 0 (by simp)
  unfold Csr.row
  rw [show Csr.rowLength ⟨(computeRowPointers [n]).1, fun _ => INVALID⟩ 0 = n from h2]
  simp

end Verif.LinSys
