import Verif.Proofs.UserTable
import Mathlib.Algebra.Order.Ring.Rat

/-! # Tabulated and linear user functions: properties C233-C236 -/

namespace Nalu.UserFn
open Verif.TableSpec

variable {K : Type*} [Field K] [LinearOrder K]

/-! ## C233: what the point loop writes -/

/-- Every point gets the function of its own coordinates in the chosen component and zero in the others; nothing outside the
bucket's data is touched, whatever the strides. -/
theorem c233_each_point_written (value : (ℕ → K) → K) (cs fs comp n : ℕ) (hc : comp < fs) (coords f : ℕ → K) :
    (∀ p, p < n → pointLoop (zeroThenSet fs comp value) cs fs coords n 0 0 f (p * fs + comp)
        = value (fun k => coords (p * cs + k)))
    ∧ (∀ p i, p < n → i < fs → i ≠ comp → pointLoop (zeroThenSet fs comp value) cs fs coords n 0 0 f (p * fs + i) = 0)
    ∧ (∀ j, n * fs ≤ j → pointLoop (zeroThenSet fs comp value) cs fs coords n 0 0 f j = f j) := by
  have hp := loop_point (zeroThenSet fs comp value) cs fs coords (zts_in fs comp value) (zts_out fs comp value hc) n 0 0 f
  refine ⟨fun p hpn => ?_, fun p i hpn hi hne => ?_, fun j hj => ?_⟩
  · have := hp p comp hpn hc
    simp only [Nat.zero_add] at this
    rw [this]; simp [zeroThenSet]
  · have := hp p i hpn hi
    simp only [Nat.zero_add] at this
    rw [this]; simp [zeroThenSet, Function.update_apply, hne, hi]
  · exact loop_after _ _ _ _ (zts_out fs comp value hc) n 0 0 f j (by omega)

/-- The mesh displacement ramp: each component its own rate times the time, at every point, nothing else touched. -/
theorem c233_ramp_written (ramp : ℕ → K) (time : K) (cs fs n : ℕ) (coords f : ℕ → K) :
    (∀ p i, p < n → i < fs → pointLoop (rampStep fs ramp time) cs fs coords n 0 0 f (p * fs + i) = ramp i * time)
    ∧ (∀ j, n * fs ≤ j → pointLoop (rampStep fs ramp time) cs fs coords n 0 0 f j = f j) := by
  have hin : ∀ (c f f' : ℕ → K) i, i < fs → (∀ k, k < fs → f k = f' k) →
      rampStep fs ramp time c f i = rampStep fs ramp time c f' i := by
    intro c f f' i hi _; simp [rampStep, hi]
  have hout : ∀ (c f : ℕ → K) i, fs ≤ i → rampStep fs ramp time c f i = f i := by
    intro c f i hi; simp only [rampStep]; rw [if_neg (by omega)]
  refine ⟨fun p i hp hi => ?_, fun j hj => loop_after _ _ _ _ hout n 0 0 f j (by omega)⟩
  have := loop_point (rampStep fs ramp time) cs fs coords hin hout n 0 0 f p i hp hi
  simp only [Nat.zero_add] at this
  rw [this]; simp [rampStep, hi]

/-- The sinusoidal mesh displacement in two dimensions: zero in the first and the given value in the second component of every
point, nothing else touched. -/
theorem c233_sin_displacement_two_dim (s : K) (cs n : ℕ) (coords f : ℕ → K) :
    (∀ p, p < n → pointLoop (sinDispStep s) cs 2 coords n 0 0 f (p * 2) = 0 ∧
      pointLoop (sinDispStep s) cs 2 coords n 0 0 f (p * 2 + 1) = s)
    ∧ (∀ j, n * 2 ≤ j → pointLoop (sinDispStep s) cs 2 coords n 0 0 f j = f j) := by
  have hin : ∀ (c f f' : ℕ → K) i, i < 2 → (∀ k, k < 2 → f k = f' k) → sinDispStep s c f i = sinDispStep s c f' i := by
    intro c f f' i hi h
    rcases (show i = 0 ∨ i = 1 by omega) with rfl | rfl <;> simp [sinDispStep, Function.update_apply]
  have hout : ∀ (c f : ℕ → K) i, 2 ≤ i → sinDispStep s c f i = f i := by
    intro c f i hi; simp only [sinDispStep, Function.update_apply]; rw [if_neg (by omega), if_neg (by omega)]
  refine ⟨fun p hp => ⟨?_, ?_⟩, fun j hj => loop_after _ _ _ _ hout n 0 0 f j (by omega)⟩
  · have := loop_point (sinDispStep s) cs 2 coords hin hout n 0 0 f p 0 hp (by omega)
    simp only [Nat.zero_add, Nat.add_zero] at this
    rw [this]; simp [sinDispStep, Function.update_apply]
  · have := loop_point (sinDispStep s) cs 2 coords hin hout n 0 0 f p 1 hp (by omega)
    simp only [Nat.zero_add] at this
    rw [this]; simp [sinDispStep, Function.update_apply]

/-- In three dimensions it leaves the third component of every point as it was. -/
theorem c233_sin_displacement_third_component_kept (s : K) (cs n : ℕ) (coords f : ℕ → K) (p : ℕ) (hp : p < n) :
    pointLoop (sinDispStep s) cs 3 coords n 0 0 f (p * 3 + 2) = f (p * 3 + 2) := by
  have hin : ∀ (c f f' : ℕ → K) i, i < 3 → (∀ k, k < 3 → f k = f' k) → sinDispStep s c f i = sinDispStep s c f' i := by
    intro c f f' i hi h
    simp only [sinDispStep, Function.update_apply]
    split
    · rfl
    · split
      · rfl
      · exact h i hi
  have hout : ∀ (c f : ℕ → K) i, 3 ≤ i → sinDispStep s c f i = f i := by
    intro c f i hi; simp only [sinDispStep, Function.update_apply]; rw [if_neg (by omega), if_neg (by omega)]
  have := loop_point (sinDispStep s) cs 3 coords hin hout n 0 0 f p 2 hp (by omega)
  simp only [Nat.zero_add] at this
  rw [this]; simp [sinDispStep, Function.update_apply]

/-- The component range handed to the implementation is always the one given to the constructor. -/
theorem c233_range (b e fs : ℕ) : evalRange b e fs = (b, e) := by
  unfold evalRange
  split
  · next h => rw [h.1, h.2]
  · rfl

/-- The missing part: the component number is not compared with the field size; a component equal to it is written past the
data of the last point. -/
theorem c233_component_not_checked_partial (value : (ℕ → K) → K) (cs fs n : ℕ) (coords f : ℕ → K) :
    pointLoop (zeroThenSet fs fs value) cs fs coords (n + 1) 0 0 f ((n + 1) * fs)
      = value (fun k => coords (n * cs + k)) := by
  have key : ∀ n co fo f, pointLoop (zeroThenSet fs fs value) cs fs coords (n + 1) co fo f (fo + (n + 1) * fs)
      = value (fun k => coords (co + n * cs + k)) := by
    intro n
    induction n with
    | zero =>
      intro co fo f
      simp only [pointLoop]
      rw [if_neg (by omega)]
      simp [zeroThenSet]
    | succ n ih =>
      intro co fo f
      rw [pointLoop, show fo + (n + 1 + 1) * fs = (fo + fs) + (n + 1) * fs by ring, ih]
      congr 1; funext k; congr 1; ring
  have := key n 0 0 f
  simpa using this

/-- Non-vacuity: a vector field of two components at two points, the second component is twice the `x` coordinate. -/
example : (List.range 5).map (pointLoop (zeroThenSet 2 1 (fun c => 2 * c 0)) 3 2
    (fun i => ((i : ℕ) : ℚ) + 1) 2 0 0 (fun _ => 9)) = [0, 2, 0, 8, 9] := by decide +kernel

/-- The linear function takes its two prescribed values and is affine. -/
theorem c233_linear_function (qL qR xL xR : K) (h : xL ≠ xR) :
    linearValue qL qR xL xR xL = qL ∧ linearValue qL qR xL xR xR = qR ∧
      ∀ w x y, linearValue qL qR xL xR (w * x + (1 - w) * y)
        = w * linearValue qL qR xL xR x + (1 - w) * linearValue qL qR xL xR y := by
  have hd : xR - xL ≠ 0 := sub_ne_zero.2 h.symm
  refine ⟨?_, ?_, ?_⟩
  · simp only [linearValue]; ring
  · simp only [linearValue]; field_simp; ring
  · intro w x y; simp only [linearValue]; ring

/-! ## C234: the one-dimensional table -/

/-- Whatever the order in which the user gives the pairs, with distinct abscissas the function evaluated is the piecewise linear
one through exactly those pairs, constant beyond the extreme ones. -/
theorem c234_table_is_piecewise_linear [IsStrictOrderedRing K] (es : List (K × K)) (h2 : 2 ≤ es.length)
    (hd : DistinctAbscissas es) :
    ∃ t, tableCtor (es.flatMap (fun e => [e.1, e.2])) = .ok t ∧ IsPiecewiseLinear es (tableInterp t) :=
  ⟨_, ctor_ok h2, spec_perm (sorted_perm es)
    (interp_spec (sorted_strict hd) (by rw [(sorted_perm es).length_eq]; omega))⟩

/-- The evaluation always succeeds and never leaves the range of the ordinates. -/
theorem c234_table_bounded [IsStrictOrderedRing K] (es : List (K × K)) (h2 : 2 ≤ es.length) (hd : DistinctAbscissas es)
    {lo hi : K} (hb : ∀ e ∈ es, lo ≤ e.2 ∧ e.2 ≤ hi) :
    ∃ t, tableCtor (es.flatMap (fun e => [e.1, e.2])) = .ok t ∧
      ∀ x, ∃ v, tableInterp t x = some v ∧ lo ≤ v ∧ v ≤ hi :=
  ⟨_, ctor_ok h2, interp_bounds (sorted_strict hd) (by rw [(sorted_perm es).length_eq]; omega)
    (fun e he => hb e ((sorted_perm es).mem_iff.1 he))⟩

/-- The order of the pairs never matters, repeated abscissas included. -/
theorem c234_order_irrelevant (es es' : List (K × K)) (h : es.Perm es') :
    tableCtor (es.flatMap (fun e => [e.1, e.2])) = tableCtor (es'.flatMap (fun e => [e.1, e.2])) := by
  simp only [tableCtor, readPairs_flat]
  have := sorted_eq_of_perm h
  simp only [sorted] at this
  rw [this]

/-- Fewer than two pairs are refused. -/
theorem c234_short_table_refused (es : List (K × K)) (h : es.length < 2) :
    tableCtor (es.flatMap (fun e => [e.1, e.2])) = .throws := by
  simp only [tableCtor, readPairs_flat]
  rw [if_pos (by rw [List.length_mergeSort]; exact h)]

/-- Components 0, 1, 2 use the coordinate, any other number the time. -/
theorem c234_variable (k : ℕ) (c : ℕ → K) (time : K) :
    (k < 3 → tableVar k c time = c k) ∧ (3 ≤ k → tableVar k c time = time) :=
  ⟨fun h => if_pos h, fun h => if_neg (by omega)⟩

/-- The missing part: an odd number of table parameters makes the constructor read past the end of the list, and a jump given
as two entries with the same abscissa is evaluated as a division by zero at that abscissa when it crosses zero upwards. -/
theorem c234_table_unchecked_partial (es : List (K × K)) (x : K) :
    (tableCtor (es.flatMap (fun e => [e.1, e.2]) ++ [x]) = .outOfBounds)
    ∧ tableInterp ([(0, 0), (1, -1), (1, 1), (2, 0)] : List (ℚ × ℚ)) 1 = none := by
  constructor
  · have : readPairs (es.flatMap (fun e => [e.1, e.2]) ++ [x]) = none := by
      induction es with
      | nil => rfl
      | cons a r ih => simp [readPairs, ih]
    simp only [tableCtor, this]
  · decide +kernel

/-- Non-vacuity: a table given out of order, its evaluation between the entries 1 and 2, and the values of the sorted table. -/
example : ∃ t, tableCtor ([2, 10, 0, 0, 1, 4] : List ℚ) = .ok t ∧ tableInterp t (3/2) = some 7 := by
  obtain ⟨t, h1, h2⟩ := c234_table_is_piecewise_linear ([(2, 10), (0, 0), (1, 4)] : List (ℚ × ℚ)) (by decide)
    (by unfold DistinctAbscissas; decide +kernel)
  refine ⟨t, h1, ?_⟩
  rw [h2.line (1, 4) (2, 10) ⟨by decide +kernel, by decide +kernel, by decide +kernel, by decide +kernel⟩ (3/2)
    (by decide +kernel) (by decide +kernel)]
  decide +kernel
example : [tableInterp ([(0, 0), (1, 4), (2, 10)] : List (ℚ × ℚ)) (-1), tableInterp [(0, 0), (1, 4), (2, 10)] (1/2),
    tableInterp [(0, 0), (1, 4), (2, 10)] 1, tableInterp [(0, 0), (1, 4), (2, 10)] 5] = [some 0, some 2, some 4, some 10] := by
  decide +kernel
example : DistinctAbscissas ([(2, 10), (0, 0), (1, 4)] : List (ℚ × ℚ)) := by
  unfold DistinctAbscissas; decide +kernel

/-! ## C235: the two-dimensional table -/

/-- In whatever cell the (clamped) point lies, the value is the bilinear interpolation of the four corner entries of that cell,
times the start-up ramp. -/
theorem c235_bilinear [IsStrictOrderedRing K] (T : Table2 K) (hxs : Increasing T.xs) (hys : Increasing T.ys)
    (h2x : 2 ≤ T.xs.length) (h2y : 2 ≤ T.ys.length) (blend time x y : K) {i j : ℕ}
    (hi : i + 1 < T.xs.length) (hj : j + 1 < T.ys.length) {a b c d s r : K}
    (ha : T.xs.getD i 0 = a) (hb : T.xs.getD (i+1) 0 = b) (hc : T.ys.getD j 0 = c) (hd : T.ys.getD (j+1) 0 = d)
    (hs : clamp (T.xs.getD 0 0) (T.xs.getD (T.xs.length - 1) 0) x = s) (hsa : a ≤ s) (hsb : s ≤ b)
    (hr : clamp (T.ys.getD 0 0) (T.ys.getD (T.ys.length - 1) 0) y = r) (hrc : c ≤ r) (hrd : r ≤ d) :
    table2Value T blend time x y =
      (T.A j i * ((b - s) / (b - a)) * ((d - r) / (d - c)) + T.A j (i+1) * ((s - a) / (b - a)) * ((d - r) / (d - c)) +
       T.A (j+1) i * ((b - s) / (b - a)) * ((r - c) / (d - c)) + T.A (j+1) (i+1) * ((s - a) / (b - a)) * ((r - c) / (d - c)))
      * min (time / blend) 1 := by
  rw [table2Value, interp2_cell T hxs hys h2x h2y x y hi hj (by rw [hs, ha, hb]; exact ⟨hsa, hsb⟩)
    (by rw [hr, hc, hd]; exact ⟨hrc, hrd⟩)]
  simp only [cellVal, hs, hr, ha, hb, hc, hd]
  ring

/-- At a grid point the value is the table entry of that grid point. -/
theorem c235_exact_at_grid_points [IsStrictOrderedRing K] (T : Table2 K) (hxs : Increasing T.xs) (hys : Increasing T.ys)
    (h2x : 2 ≤ T.xs.length) (h2y : 2 ≤ T.ys.length) (blend time : K) {i j : ℕ} (hi : i < T.xs.length) (hj : j < T.ys.length)
    (ht : 1 ≤ time / blend) :
    table2Value T blend time (T.xs.getD i 0) (T.ys.getD j 0) = T.A j i := by
  obtain ⟨i', hi', hii⟩ := exists_cell hxs h2x hi
  obtain ⟨j', hj', hjj⟩ := exists_cell hys h2y hj
  rw [table2Value, min_eq_right ht, mul_one]
  rw [interp2_cell T hxs hys h2x h2y _ _ hi' hj' ?_ ?_, clamp_node hxs h2x hi, clamp_node hys h2y hj,
    cellVal_node hys hj' hjj, cellVal_node hxs hi' hii]
  · rw [clamp_node hxs h2x hi]
    rcases hii with rfl | rfl
    · exact ⟨le_refl _, inc_le hxs (by omega) (by omega)⟩
    · exact ⟨inc_le hxs (by omega) (by omega), le_refl _⟩
  · rw [clamp_node hys h2y hj]
    rcases hjj with rfl | rfl
    · exact ⟨le_refl _, inc_le hys (by omega) (by omega)⟩
    · exact ⟨inc_le hys (by omega) (by omega), le_refl _⟩

/-- Once the ramp is over the value stays in the range of the entries at every point of space; during the ramp it is the
fraction `time / blend` of such a value. -/
theorem c235_bounded [IsStrictOrderedRing K] (T : Table2 K) (hxs : Increasing T.xs) (hys : Increasing T.ys)
    (h2x : 2 ≤ T.xs.length) (h2y : 2 ≤ T.ys.length) {lo up : K}
    (hA : ∀ j i, j < T.ys.length → i < T.xs.length → lo ≤ T.A j i ∧ T.A j i ≤ up) (blend time x y : K) :
    ∃ v, lo ≤ v ∧ v ≤ up ∧ table2Value T blend time x y = v * min (time / blend) 1
      ∧ (0 < blend → blend ≤ time → table2Value T blend time x y = v)
      ∧ (0 < blend → time ≤ blend → table2Value T blend time x y = v * (time / blend)) := by
  have h := interp2_bounds T hxs hys h2x h2y hA x y
  refine ⟨_, h.1, h.2, rfl, fun hb ht => ?_, fun hb ht => ?_⟩
  · rw [table2Value, min_eq_right ((one_le_div hb).2 ht), mul_one]
  · rw [table2Value, min_eq_left ((div_le_one hb).2 ht)]

/-- Non-vacuity: the sample table of the source comment. -/
def sampleTable : Table2 ℚ where
  xs := [-100, -50, 0, 50, 100]
  ys := [-1, 0, 1]
  A := fun j i => (([[1, 4, 7, 9, 12], [2, 5, 20, 10, 13], [3, 6, 8, 11, 14]] : List (List ℚ)).getD j []).getD i 0
example : Increasing sampleTable.xs ∧ Increasing sampleTable.ys := by
  unfold Increasing sampleTable; decide +kernel
example : table2Value sampleTable 1 2 0 0 = 20 ∧ table2Value sampleTable 1 2 (-75) (-1) = 5 / 2 ∧
    table2Value sampleTable 1 2 500 7 = 14 ∧ table2Value sampleTable 2 1 25 (1/2) = 49 / 8 := by decide +kernel

/-! ## C236: reading the two-dimensional table -/

/-- From a file with one row per grid point, abscissa by abscissa, that ends right after its last number, the stored axes and
the entry of every grid point are those of the file, and no write is out of bounds. -/
theorem c236_grid_file_stored (xs ys : List K) (h : ℕ → ℕ → K) (hx : 0 < xs.length) (hy : 0 < ys.length) :
    ∃ T, table2Ctor xs.length ys.length (gridRows xs ys h) false = .ok T ∧ T.xs = xs ∧ T.ys = ys ∧
      ∀ i j, i < xs.length → j < ys.length → T.A j i = h i j :=
  ctor_grid xs ys h hx hy

/-- Hence the function read from such a file takes the value of every row at the point of that row. -/
theorem c236_file_values_reproduced [IsStrictOrderedRing K] (xs ys : List K) (h : ℕ → ℕ → K) (hxs : Increasing xs)
    (hys : Increasing ys) (h2x : 2 ≤ xs.length) (h2y : 2 ≤ ys.length) (blend time : K) (ht : 1 ≤ time / blend) :
    ∃ T, table2Ctor xs.length ys.length (gridRows xs ys h) false = .ok T ∧
      ∀ i j, i < xs.length → j < ys.length → table2Value T blend time (xs.getD i 0) (ys.getD j 0) = h i j := by
  obtain ⟨T, h1, h2, h3, h4⟩ := ctor_grid xs ys h (by omega) (by omega)
  refine ⟨T, h1, fun i j hi hj => ?_⟩
  have := c235_exact_at_grid_points T (h2 ▸ hxs) (h3 ▸ hys) (h2 ▸ h2x) (h3 ▸ h2y) blend time (i := i) (j := j)
    (h2 ▸ hi) (h3 ▸ hj) ht
  rw [h2, h3] at this
  rw [this, h4 i j hi hj]

/-- The missing part: every such file that ends with a newline, as text files do, has its last row stored twice, and the
second copy is written outside the array. -/
theorem c236_trailing_newline_out_of_bounds_partial (xs ys : List K) (h : ℕ → ℕ → K) (hx : 0 < xs.length)
    (hy : 0 < ys.length) : table2Ctor xs.length ys.length (gridRows xs ys h) true = .outOfBounds :=
  ctor_grid_trailing xs ys h hx hy

/-- Non-vacuity: a two by two grid. -/
example : (match table2Ctor 2 2 (gridRows [0, 1] [5, 6] (fun i j => (10 * i + j : ℚ))) false with
    | .ok T => (T.xs, T.ys, T.A 0 1, T.A 1 0, table2Interp T (1/2) (11/2))
    | _ => ([], [], 0, 0, 0)) = ([0, 1], [5, 6], (10 : ℚ), 1, 11 / 2) := by decide +kernel

end Nalu.UserFn
