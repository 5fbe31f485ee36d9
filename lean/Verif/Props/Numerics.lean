import Verif.Proofs.Numerics
import Mathlib.Tactic.NormNum

set_option linter.unusedSectionVars false
set_option linter.unusedSimpArgs false

namespace Verif.Numerics

/-! ## C34 table interpolation -/
section Interp
variable {K : Type*} [Field K] [LinearOrder K] [IsStrictOrderedRing K]

/-- On every closed table interval the result is the affine interpolant of its two end points; in
particular both formulas agree at a shared knot, so the interpolant is continuous. -/
theorem c34_affine (n : ℕ) (xs ys : ℕ → K) (oob : Oob) (hinc : ∀ i, i + 1 < n → xs i < xs (i + 1))
    (j : ℕ) (hj : j + 1 < n) (x : K) (h1 : xs j ≤ x) (h2 : x ≤ xs (j + 1)) :
    linearInterp n xs ys x oob
      = some (ys j + (ys (j + 1) - ys j) * ((x - xs j) / (xs (j + 1) - xs j))) := by
  have mono := mono_of_step n xs hinc
  have hcb : checkBounds n xs x = some (.valid, 0) := by
    unfold checkBounds
    rw [if_neg (by omega), if_neg (not_lt.mpr ((mono 0 j (by omega) (by omega)).trans h1)),
      if_neg (not_lt.mpr (h2.trans (mono (j + 1) (n - 1) (by omega) (by omega))))]
  have val : ∀ m, findLoop xs x (n - 1) 1 = m →
      linearInterp n xs ys x oob
        = some ((1 - (x - xs m) / (xs (m + 1) - xs m)) * ys m
            + (x - xs m) / (xs (m + 1) - xs m) * ys (m + 1)) := by
    intro m hm
    unfold linearInterp findIndex
    rw [hcb]
    simp only [hm]
  rcases h1.lt_or_eq with hlt | heq
  · have hf : findLoop xs x (n - 1) 1 = j := by
      refine findLoop_eq xs x (j + 1) h2 (n - 1) 1 (by omega) (by omega) fun k hk1 hk2 => ?_
      exact (mono k j (by omega) (by omega)).trans_lt hlt
    rw [val j hf]
    congr 1
    ring
  · subst heq
    rcases Nat.eq_zero_or_pos j with h0 | hpos
    · subst h0
      have hf : findLoop xs (xs 0) (n - 1) 1 = 0 :=
        findLoop_eq xs (xs 0) 1 h2 (n - 1) 1 le_rfl (by omega) fun k hk1 hk2 => by omega
      rw [val 0 hf]
      congr 1
      ring
    · obtain ⟨i, rfl⟩ : ∃ i, j = i + 1 := ⟨j - 1, by omega⟩
      have hf : findLoop xs (xs (i + 1)) (n - 1) 1 = i := by
        refine findLoop_eq xs _ (i + 1) le_rfl (n - 1) 1 (by omega) (by omega) fun k hk1 hk2 => ?_
        exact (mono k i (by omega) (by omega)).trans_lt (hinc i (by omega))
      rw [val i hf]
      have : xs (i + 1) - xs i ≠ 0 := sub_ne_zero.mpr (hinc i (by omega)).ne'
      rw [div_self this]
      congr 1
      simp

/-- Knot values are returned exactly. -/
theorem c34_knots (n : ℕ) (xs ys : ℕ → K) (oob : Oob) (hn : 2 ≤ n)
    (hinc : ∀ i, i + 1 < n → xs i < xs (i + 1)) (j : ℕ) (hj : j < n) :
    linearInterp n xs ys (xs j) oob = some (ys j) := by
  rcases Nat.lt_or_ge (j + 1) n with h | h
  · rw [c34_affine n xs ys oob hinc j h (xs j) le_rfl (hinc j h).le]
    simp
  · obtain ⟨i, rfl⟩ : ∃ i, j = i + 1 := ⟨j - 1, by omega⟩
    rw [c34_affine n xs ys oob hinc i hj (xs (i + 1)) (hinc i hj).le le_rfl]
    rw [div_self (sub_ne_zero.mpr (hinc i hj).ne')]
    congr 1; ring

/-- Between two knots the result lies between their values. -/
theorem c34_bounded (n : ℕ) (xs ys : ℕ → K) (oob : Oob)
    (hinc : ∀ i, i + 1 < n → xs i < xs (i + 1))
    (j : ℕ) (hj : j + 1 < n) (x : K) (h1 : xs j ≤ x) (h2 : x ≤ xs (j + 1)) :
    ∃ y, linearInterp n xs ys x oob = some y ∧
      min (ys j) (ys (j + 1)) ≤ y ∧ y ≤ max (ys j) (ys (j + 1)) := by
  refine ⟨_, c34_affine n xs ys oob hinc j hj x h1 h2, ?_⟩
  have hd : 0 < xs (j + 1) - xs j := sub_pos.mpr (hinc j hj)
  have t0 : 0 ≤ (x - xs j) / (xs (j + 1) - xs j) := div_nonneg (sub_nonneg.mpr h1) hd.le
  have t1 : (x - xs j) / (xs (j + 1) - xs j) ≤ 1 := by
    rw [div_le_one hd]; linarith
  generalize (x - xs j) / (xs (j + 1) - xs j) = t at *
  constructor
  · rcases le_total (ys j) (ys (j + 1)) with h | h
    · rw [min_eq_left h]; nlinarith
    · rw [min_eq_right h]; nlinarith
  · rcases le_total (ys j) (ys (j + 1)) with h | h
    · rw [max_eq_right h]; nlinarith
    · rw [max_eq_left h]; nlinarith

/-- Below the table: error, end value, or the line through the first two points. -/
theorem c34_below (n : ℕ) (xs ys : ℕ → K) (hn : 2 ≤ n) (x : K) (hx : x < xs 0) :
    linearInterp n xs ys x .error = none ∧ linearInterp n xs ys x .clamp = some (ys 0) ∧
      linearInterp n xs ys x .warn = some (ys 0) ∧
      linearInterp n xs ys x .extrapolate
        = some (ys 0 + (ys 1 - ys 0) / (xs 1 - xs 0) * (x - xs 0)) := by
  have hcb : checkBounds n xs x = some (.lowlim, 0) := by
    unfold checkBounds; rw [if_neg (by omega), if_pos hx]
  have hf : findIndex n xs x = some (.lowlim, 0) := by unfold findIndex; rw [hcb]
  unfold linearInterp
  rw [hf]
  refine ⟨rfl, rfl, rfl, ?_⟩
  simp only
  rw [if_neg (by omega)]

/-- Above the table: error, end value, or the line through the last two points. -/
theorem c34_above (n : ℕ) (xs ys : ℕ → K) (hn : 2 ≤ n) (x : K) (hx : xs (n - 1) < x)
    (hx0 : xs 0 ≤ x) :
    linearInterp n xs ys x .error = none ∧ linearInterp n xs ys x .clamp = some (ys (n - 1)) ∧
      linearInterp n xs ys x .warn = some (ys (n - 1)) ∧
      linearInterp n xs ys x .extrapolate
        = some (ys (n - 2) + (ys (n - 1) - ys (n - 2)) / (xs (n - 1) - xs (n - 2))
            * (x - xs (n - 2))) := by
  have hcb : checkBounds n xs x = some (.uplim, n - 1) := by
    unfold checkBounds
    rw [if_neg (by omega), if_neg (not_lt.mpr hx0), if_pos hx]
  have hf : findIndex n xs x = some (.uplim, n - 1) := by unfold findIndex; rw [hcb]
  unfold linearInterp
  rw [hf]
  refine ⟨rfl, rfl, rfl, ?_⟩
  simp only
  rw [if_pos (by omega), show n - 1 - 1 = n - 2 by omega, show n - 2 + 1 = n - 1 by omega]

/-- A table with fewer than two entries is refused. -/
theorem c34_too_small (n : ℕ) (xs ys : ℕ → K) (x : K) (oob : Oob) (hn : n < 2) :
    linearInterp n xs ys x oob = none := by
  unfold linearInterp findIndex checkBounds
  rw [if_pos hn]

/-- A monotone table gives a monotone clamped interpolant on the whole line. -/
theorem c34_monotone (n : ℕ) (xs ys : ℕ → K) (hn : 2 ≤ n)
    (hinc : ∀ i, i + 1 < n → xs i < xs (i + 1)) (hy : ∀ i, i + 1 < n → ys i ≤ ys (i + 1))
    (x x' : K) (hxx : x ≤ x') :
    ∃ y y', linearInterp n xs ys x .clamp = some y ∧ linearInterp n xs ys x' .clamp = some y' ∧
      y ≤ y' := by
  have mono := mono_of_step n xs hinc
  have ymono : ∀ i j, i ≤ j → j < n → ys i ≤ ys j := by
    intro i j hij hj
    induction j, hij using Nat.le_induction with
    | base => exact le_rfl
    | succ j hij ih => exact (ih (by omega)).trans (hy j hj)
  -- locate a point
  have loc : ∀ z, xs 0 ≤ z → z ≤ xs (n - 1) → ∃ j, j + 1 < n ∧ xs j ≤ z ∧ z ≤ xs (j + 1) := by
    intro z hz0 hz1
    have : ∀ m, m + 1 < n → z ≤ xs (m + 1) → ∃ j, j + 1 < n ∧ xs j ≤ z ∧ z ≤ xs (j + 1) := by
      intro m
      induction m with
      | zero => intro h hz; exact ⟨0, h, hz0, hz⟩
      | succ m ih =>
        intro h hz
        rcases le_total (xs (m + 1)) z with h' | h'
        · exact ⟨m + 1, h, h', hz⟩
        · exact ih (by omega) h'
    exact this (n - 2) (by omega) (by rwa [show n - 2 + 1 = n - 1 by omega])
  have lerp : ∀ j z, j + 1 < n → xs j ≤ z → z ≤ xs (j + 1) →
      0 ≤ (z - xs j) / (xs (j + 1) - xs j) ∧ (z - xs j) / (xs (j + 1) - xs j) ≤ 1 := by
    intro j z hj h1 h2
    have hd : 0 < xs (j + 1) - xs j := sub_pos.mpr (hinc j hj)
    exact ⟨div_nonneg (sub_nonneg.mpr h1) hd.le, by rw [div_le_one hd]; linarith⟩
  have bnd : ∀ j t, j + 1 < n → 0 ≤ t → t ≤ 1 →
      ys j ≤ ys j + (ys (j + 1) - ys j) * t ∧ ys j + (ys (j + 1) - ys j) * t ≤ ys (j + 1) := by
    intro j t hj h0 h1
    have := hy j hj
    constructor <;> nlinarith
  have hmm := mono 0 (n - 1) (by omega) (by omega)
  rcases lt_or_ge x (xs 0) with hx | hx
  · refine ⟨ys 0, ?_⟩
    have e1 := (c34_below n xs ys hn x hx).2.1
    rcases lt_or_ge x' (xs 0) with hx' | hx'
    · exact ⟨ys 0, e1, (c34_below n xs ys hn x' hx').2.1, le_rfl⟩
    · rcases lt_or_ge (xs (n - 1)) x' with hu | hu
      · exact ⟨ys (n - 1), e1, (c34_above n xs ys hn x' hu hx').2.1, ymono 0 (n - 1) (by omega) (by omega)⟩
      · obtain ⟨j, hj, h1, h2⟩ := loc x' hx' hu
        refine ⟨_, e1, c34_affine n xs ys _ hinc j hj x' h1 h2, ?_⟩
        exact (ymono 0 j (by omega) (by omega)).trans
          (bnd j _ hj (lerp j x' hj h1 h2).1 (lerp j x' hj h1 h2).2).1
  · rcases lt_or_ge (xs (n - 1)) x with hu | hu
    · exact ⟨_, _, (c34_above n xs ys hn x hu hx).2.1,
        (c34_above n xs ys hn x' (hu.trans_le hxx) (hx.trans hxx)).2.1, le_rfl⟩
    · obtain ⟨j, hj, h1, h2⟩ := loc x hx hu
      refine ⟨ys j + (ys (j + 1) - ys j) * ((x - xs j) / (xs (j + 1) - xs j)), ?_⟩
      have e1 := c34_affine n xs ys .clamp hinc j hj x h1 h2
      rcases lt_or_ge (xs (n - 1)) x' with hu' | hu'
      · refine ⟨_, e1, (c34_above n xs ys hn x' hu' (hx.trans hxx)).2.1, ?_⟩
        exact (bnd j _ hj (lerp j x hj h1 h2).1 (lerp j x hj h1 h2).2).2.trans
          (ymono (j + 1) (n - 1) (by omega) (by omega))
      · obtain ⟨i, hi, g1, g2⟩ := loc x' (hx.trans hxx) hu'
        refine ⟨_, e1, c34_affine n xs ys _ hinc i hi x' g1 g2, ?_⟩
        rcases lt_trichotomy j i with hji | hji | hji
        · exact (bnd j _ hj (lerp j x hj h1 h2).1 (lerp j x hj h1 h2).2).2.trans
            ((ymono (j + 1) i hji (by omega)).trans
              (bnd i _ hi (lerp i x' hi g1 g2).1 (lerp i x' hi g1 g2).2).1)
        · subst hji
          have hd : 0 < xs (j + 1) - xs j := sub_pos.mpr (hinc j hj)
          have : (x - xs j) / (xs (j + 1) - xs j) ≤ (x' - xs j) / (xs (j + 1) - xs j) :=
            div_le_div_of_nonneg_right (by linarith) hd.le
          have hyj := hy j hj
          nlinarith
        · -- then x = x' = common knot
          have hxe : xs (i + 1) ≤ xs j := mono (i + 1) j hji (by omega)
          have hx1 : x = xs j := le_antisymm (hxx.trans (g2.trans hxe)) h1
          have hx2 : x' = xs (i + 1) := le_antisymm g2 (hxe.trans (h1.trans hxx))
          have hx3 : xs j = xs (i + 1) := by
            apply le_antisymm _ hxe
            rw [← hx2]; exact h1.trans hxx
          have hij : j = i + 1 := by
            by_contra hne
            have : i + 1 + 1 ≤ j := by omega
            have := (hinc (i + 1) (by omega)).trans_le (mono (i + 2) j this (by omega))
            exact absurd hx3 this.ne'
          subst hij
          rw [hx1, hx2, div_self (sub_ne_zero.mpr (hinc i hi).ne')]
          simp

example : ∀ i, i + 1 < 3 → (fun i => if i = 0 then (0:ℚ) else if i = 1 then 1 else 3) i
    < (fun i => if i = 0 then (0:ℚ) else if i = 1 then 1 else 3) (i + 1) := by
  intro i hi
  have : i = 0 ∨ i = 1 := by omega
  rcases this with rfl | rfl <;> norm_num
example : linearInterp 3 (fun i => if i = 0 then (0:ℚ) else if i = 1 then 1 else 3)
    (fun i => if i = 0 then (5:ℚ) else if i = 1 then 7 else 1) 2 .error = some 4 := by
  decide +kernel

end Interp

/-! ## C35 LU -/
section LU
variable {K : Type*} [Field K]

/-- For every dimension, matrix and right-hand side: if the factorisation met no zero pivot, the
vector returned by `back_subs` after `decompose` solves the original system. -/
theorem c35_lu_solves (dim : ℕ) (hdim : 1 ≤ dim) (A : Mat K) (b : ℕ → K)
    (hpiv : ∀ j, j < dim → luDecompose dim A j j ≠ 0) :
    ∃ x, (LUObj.mk dim false A).decompose.backSubs b = some x ∧
      ∀ i, i < dim → ∑ j ∈ Finset.range dim, A i j * x j = b i := by
  refine ⟨backSubs dim (luDecompose dim A) b, rfl, ?_⟩
  obtain ⟨f1, f2⟩ := luDecompose_spec dim A
  generalize luDecompose dim A = F at *
  unfold backSubs
  obtain ⟨-, y2⟩ := forward_spec F b (dim - 1)
  generalize (List.range' 1 (dim - 1)).foldl
      (fun r i => Function.update r i (subLoop 0 i (r i) fun j => F i j * r j)) b = y at y2 ⊢
  obtain ⟨x1, x2⟩ := back_spec dim F (dim - 1)
    (Function.update y (dim - 1) (y (dim - 1) / F (dim - 1) (dim - 1))) (by omega)
  generalize (List.range (dim - 1)).reverse.foldl (backRow dim F)
    (Function.update y (dim - 1) (y (dim - 1) / F (dim - 1) (dim - 1))) = x at x1 x2 ⊢
  -- U x = y
  have hU : ∀ k, k < dim → ∑ j ∈ Finset.range dim, (if k ≤ j then F k j else 0) * x j = y k := by
    intro k hk
    have e0 : ∑ j ∈ Finset.range dim, (if k ≤ j then F k j else 0) * x j
        = F k k * x k + ∑ j ∈ Finset.Ico (k + 1) dim, F k j * x j := by
      rw [Finset.range_eq_Ico, ← Finset.sum_Ico_consecutive _ (Nat.zero_le k) hk.le]
      have z : ∑ j ∈ Finset.Ico 0 k, (if k ≤ j then F k j else 0) * x j = 0 :=
        Finset.sum_eq_zero fun j hj => by
          rw [Finset.mem_Ico] at hj
          rw [if_neg (by omega), zero_mul]
      rw [z, zero_add, Finset.sum_eq_sum_Ico_succ_bot hk, if_pos le_rfl]
      congr 1
      refine Finset.sum_congr rfl fun j hj => ?_
      rw [Finset.mem_Ico] at hj
      rw [if_pos (by omega)]
    rw [e0]
    by_cases hkd : k = dim - 1
    · have : Finset.Ico (k + 1) dim = ∅ := by rw [Finset.Ico_eq_empty_iff]; omega
      rw [this, Finset.sum_empty, add_zero, x1 k (by omega), hkd, Function.update_self]
      have := hpiv (dim - 1) (by omega)
      field_simp
    · rw [x2 k (by omega), Function.update_of_ne hkd]
      have := hpiv k hk
      field_simp
      ring
  -- A = L U
  have hA : ∀ i j, i < dim → j < dim → A i j
      = (∑ k ∈ Finset.range i, F i k * (if k ≤ j then F k j else 0)) + (if i ≤ j then F i j else 0) := by
    intro i j hi hj
    by_cases hij : i ≤ j
    · rw [if_pos hij, f1 i j hij hj]
      have : ∑ k ∈ Finset.range i, F i k * (if k ≤ j then F k j else 0)
          = ∑ k ∈ Finset.range i, F i k * F k j :=
        Finset.sum_congr rfl fun k hk => by
          have := Finset.mem_range.mp hk
          rw [if_pos (by omega)]
      rw [this]; ring
    · have hji : j < i := by omega
      rw [if_neg hij, add_zero, Finset.range_eq_Ico,
        ← Finset.sum_Ico_consecutive _ (Nat.zero_le (j + 1)) hji]
      have z : ∑ k ∈ Finset.Ico (j + 1) i, F i k * (if k ≤ j then F k j else 0) = 0 :=
        Finset.sum_eq_zero fun k hk => by
          rw [Finset.mem_Ico] at hk
          rw [if_neg (by omega), mul_zero]
      rw [z, add_zero, Finset.sum_Ico_succ_top (Nat.zero_le j), if_pos le_rfl, f2 i j hji hi]
      have : ∑ k ∈ Finset.Ico 0 j, F i k * (if k ≤ j then F k j else 0)
          = ∑ k ∈ Finset.range j, F i k * F k j := by
        rw [Finset.range_eq_Ico]
        refine Finset.sum_congr rfl fun k hk => ?_
        rw [Finset.mem_Ico] at hk
        rw [if_pos (by omega)]
      rw [this]
      have := hpiv j hj
      field_simp
      ring
  intro i hi
  calc ∑ j ∈ Finset.range dim, A i j * x j
      = ∑ j ∈ Finset.range dim, ((∑ k ∈ Finset.range i, F i k * ((if k ≤ j then F k j else 0) * x j))
          + (if i ≤ j then F i j else 0) * x j) := by
        refine Finset.sum_congr rfl fun j hj => ?_
        rw [hA i j hi (Finset.mem_range.mp hj), add_mul, Finset.sum_mul]
        congr 1
        exact Finset.sum_congr rfl fun k _ => by ring
    _ = ∑ k ∈ Finset.range i, F i k * (∑ j ∈ Finset.range dim, (if k ≤ j then F k j else 0) * x j)
          + ∑ j ∈ Finset.range dim, (if i ≤ j then F i j else 0) * x j := by
        rw [Finset.sum_add_distrib, Finset.sum_comm]
        congr 1
        exact Finset.sum_congr rfl fun k _ => by rw [Finset.mul_sum]
    _ = ∑ k ∈ Finset.range i, F i k * y k + y i := by
        rw [hU i hi]
        congr 1
        refine Finset.sum_congr rfl fun k hk => ?_
        have := Finset.mem_range.mp hk
        rw [hU k (by omega)]
    _ = b i := by rw [y2 i (by omega)]; ring

/-- The solver refuses to solve before it has factorised. -/
theorem c35_not_ready (o : LUObj K) (b : ℕ → K) (h : o.ready = false) : o.backSubs b = none := by
  unfold LUObj.backSubs; rw [h]; rfl

/-- A concrete system: dimension 3, all pivots nonzero. -/
def exA : Mat ℚ := fun i j => if i = j then 4 else if i = j + 1 then 1 else if j = i + 1 then 2 else 0
example : ∀ j, j < 3 → luDecompose 3 exA j j ≠ 0 := by decide +kernel
/-- Without pivoting a regular matrix can meet a zero pivot: the hypothesis is needed. -/
example : ¬ ∀ j, j < 2 → luDecompose 2 (fun i j => if i = j then (0:ℚ) else 1) j j ≠ 0 := by
  decide +kernel

end LU
end Verif.Numerics
