import Verif.Model.LinSysFinal
import Verif.Props.LinSysBuild
import Mathlib.Tactic.Linarith
import Mathlib.Tactic.Ring

/-!
# C291-C293: row pointers, rows of the further components, removal of unused slots
-/

set_option linter.unusedSimpArgs false

namespace Verif.LinSys

theorem sum_take_add_one (ls : List ℕ) (i : ℕ) (hi : i < ls.length) :
    (ls.take (i + 1)).sum = (ls.take i).sum + ls[i] := by
  rw [List.take_add_one, List.getElem?_eq_getElem hi, Option.toList_some, List.sum_append,
    List.sum_singleton]

/-! ## C291: the rows tile the column array -/

theorem ptr_fold (ls : List ℕ) : ∀ (a : List ℕ) (n : ℕ),
    ls.foldl (fun (s : List ℕ × ℕ) l => (s.1 ++ [s.2], s.2 + l)) (a, n) =
      (a ++ (List.range ls.length).map (fun i => n + (ls.take i).sum), n + ls.sum) := by
  induction ls with
  | nil => intro a n; simp
  | cons l ls ih =>
    intro a n
    rw [List.foldl_cons, ih]
    simp only [List.length_cons, List.range_succ_eq_map, List.map_cons, List.map_map, List.append_assoc,
      List.cons_append, List.nil_append, List.sum_cons, List.take_zero, List.sum_nil, Nat.add_zero]
    refine Prod.ext ?_ (by simp only; omega)
    simp only
    congr 2
    apply List.map_congr_left
    intro i _
    simp [Nat.add_assoc]

/-- **C291.** Row `i` starts where the rows before it end: entry `i` of the pointer array is the sum of the
first `i` lengths, the array has one entry more than there are rows, and the last one (also the returned
number of slots) is the sum of all lengths. -/
theorem c291_row_pointers (lens : List ℕ) :
    (computeRowPointers lens).1.length = lens.length + 1 ∧
    (∀ i ≤ lens.length, (computeRowPointers lens).1.getD i 0 = (lens.take i).sum) ∧
    (computeRowPointers lens).2 = lens.sum := by
  unfold computeRowPointers
  rw [ptr_fold]
  refine ⟨by simp, ?_, by simp⟩
  intro i hi
  simp only [List.nil_append, Nat.zero_add]
  rcases Nat.lt_or_ge i lens.length with h | h
  · rw [List.getD_eq_getElem?_getD, List.getElem?_append_left (by simpa using h)]
    simp [h]
  · have : i = lens.length := by omega
    subst this
    rw [List.getD_eq_getElem?_getD, List.getElem?_append_right (by simp)]
    simp

/-- Each row has exactly its computed length. -/
theorem c291_row_length (lens : List ℕ) (i : ℕ) (hi : i < lens.length) :
    (newCsr lens).rowLength i = lens[i] := by
  unfold Csr.rowLength newCsr
  simp only
  rw [(c291_row_pointers lens).2.1 _ (by omega), (c291_row_pointers lens).2.1 _ (by omega)]
  rw [sum_take_add_one _ _ hi]
  omega

/-- Rows do not overlap: the slots of two rows are disjoint, and all lie inside the array. -/
theorem c291_rows_disjoint (lens : List ℕ) (i j p q : ℕ) (hi : i < lens.length) (hj : j < lens.length)
    (hij : i ≠ j) (hp : p < lens[i]) (hq : q < lens[j]) :
    (newCsr lens).ptr.getD i 0 + p ≠ (newCsr lens).ptr.getD j 0 + q ∧
    (newCsr lens).ptr.getD i 0 + p < lens.sum := by
  have key : ∀ (i j : ℕ) (hi : i < lens.length) (hj : j ≤ lens.length) (hij : i < j),
      (lens.take i).sum + lens[i] ≤ (lens.take j).sum := by
    intro i j hi hj hij
    have h1 : (lens.take (i + 1)).sum = (lens.take i).sum + lens[i] := sum_take_add_one _ _ hi
    rw [← h1]
    have h2 : lens.take (i + 1) = (lens.take j).take (i + 1) := by
      rw [List.take_take]; congr 1; omega
    rw [h2]
    exact (List.take_sublist _ _).sum_le_sum (by simp)
  simp only [newCsr]
  rw [(c291_row_pointers lens).2.1 i hi.le, (c291_row_pointers lens).2.1 j hj.le]
  constructor
  · rcases Nat.lt_or_gt_of_ne hij with h | h
    · have := key i j hi hj.le h; omega
    · have := key j i hj hi.le h; omega
  · have := key i lens.length hi le_rfl hi
    rw [List.take_length] at this
    omega

example : (computeRowPointers [3, 0, 2]).1 = [0, 3, 3, 5] := by decide

/-! ## C292: all components of a node have the columns of its first row -/

/-- The entries of row `i`. -/
def Csr.row (g : Csr) (i : ℕ) : List ℤ :=
  (List.range (g.rowLength i)).map (fun j => g.cols (g.ptr.getD i 0 + j))

theorem copyRow_apply (src dst len : ℕ) (hd : src + len ≤ dst) (cols : ℕ → ℤ) (p : ℕ) :
    copyRow src dst len cols p =
      if dst ≤ p ∧ p < dst + len then cols (src + (p - dst)) else cols p := by
  unfold copyRow
  have : ∀ n ≤ len, ((List.range n).foldl
      (fun c j => Function.update c (dst + j) (c (src + j))) cols) p =
      if dst ≤ p ∧ p < dst + n then cols (src + (p - dst)) else cols p := by
    intro n
    induction n generalizing p with
    | zero => intro _; rw [if_neg (by omega)]; rfl
    | succ n ih =>
      intro hn
      rw [List.range_succ, List.foldl_append, List.foldl_cons, List.foldl_nil]
      by_cases h : p = dst + n
      · subst h
        rw [Function.update_self, ih _ (by omega), if_neg (by omega), if_pos (by omega)]
        congr 1; omega
      · rw [Function.update_of_ne h, ih _ (by omega)]
        by_cases h2 : dst ≤ p ∧ p < dst + n
        · rw [if_pos h2, if_pos (by omega)]
        · rw [if_neg h2, if_neg (by omega)]
  exact this len le_rfl

/-- Effect of the copies for one node: the `numDof` consecutive stretches of length `len` from `p` on all
become the first one; nothing else changes. -/
theorem fillNode_apply (p len n : ℕ) (cols : ℕ → ℤ) (x : ℕ) :
    ((List.range n).foldl (fun c d => copyRow p (p + len * (d + 1)) len c) cols) x =
      if p ≤ x ∧ x < p + len * (n + 1) then cols (p + (x - p) % len) else cols x := by
  induction n generalizing x with
  | zero =>
    simp only [List.range_zero, List.foldl_nil, Nat.zero_add, Nat.mul_one]
    split_ifs with h
    · rw [Nat.mod_eq_of_lt (by omega)]; congr 1; omega
    · rfl
  | succ n ih =>
    rw [List.range_succ, List.foldl_append, List.foldl_cons, List.foldl_nil,
      copyRow_apply _ _ _ (by have := Nat.mul_le_mul_left len (Nat.le_add_left 1 n); omega)]
    have he : len * (n + 1 + 1) = len * (n + 1) + len := by ring
    by_cases h : p + len * (n + 1) ≤ x ∧ x < p + len * (n + 1) + len
    · rw [if_pos h, ih, if_pos (by
        have := Nat.mul_le_mul_left len (Nat.le_add_left 1 n); omega), if_pos (by omega)]
      congr 2
      have h1 : x - p = (x - (p + len * (n + 1))) + len * (n + 1) := by omega
      rw [h1, Nat.add_mul_mod_self_left]
      congr 1; omega
    · rw [if_neg h, ih]
      by_cases h2 : p ≤ x ∧ x < p + len * (n + 1)
      · rw [if_pos h2, if_pos (by omega)]
      · rw [if_neg h2, if_neg (by omega)]

/-- Row lengths as `add_to_length` makes them: all `nd` components of a node have one length. -/
def nodeLengths (nd : ℕ) (ls : List ℕ) : List ℕ := ls.flatMap (fun l => List.replicate nd l)

theorem nodeLengths_length (nd : ℕ) (ls : List ℕ) : (nodeLengths nd ls).length = nd * ls.length := by
  unfold nodeLengths
  induction ls with
  | nil => simp
  | cons l ls ih => simp only [List.flatMap_cons, List.length_append, ih, List.length_replicate,
      List.length_cons]; ring

theorem nodeLengths_take (nd : ℕ) (ls : List ℕ) (q d : ℕ) (hq : q < ls.length) (hd : d ≤ nd) :
    ((nodeLengths nd ls).take (nd * q + d)).sum = nd * (ls.take q).sum + ls[q] * d := by
  unfold nodeLengths
  induction ls generalizing q with
  | nil => simp at hq
  | cons l ls ih =>
    cases q with
    | zero =>
      rw [Nat.mul_zero, Nat.zero_add, List.flatMap_cons, List.take_append_of_le_length (by simpa using hd)]
      simp [List.take_replicate, Nat.min_eq_left hd, Nat.mul_comm]
    | succ q =>
      have h1 : nd * (q + 1) + d = (List.replicate nd l).length + (nd * q + d) := by
        rw [List.length_replicate]; ring
      rw [List.flatMap_cons, h1, List.take_length_add_append, List.sum_append, List.sum_replicate,
        ih q (by simpa using hq)]
      simp only [List.take_succ_cons, List.sum_cons, List.getElem_cons_succ, nsmul_eq_mul, Nat.cast_id]
      ring

/-- **C292.** After `fill_in_extra_dof_rows_per_node` every component of every node has exactly the columns
its first component had, for any number of components and any row contents; pointers and lengths are
unchanged. -/
theorem c292_component_rows (nd : ℕ) (hnd : 0 < nd) (ls : List ℕ) (cols : ℕ → ℤ) (q d : ℕ)
    (hq : q < ls.length) (hd : d < nd) :
    let g : Csr := ⟨(computeRowPointers (nodeLengths nd ls)).1, cols⟩
    (fillInExtraDofRows g nd).row (nd * q + d) = g.row (nd * q) ∧
    (fillInExtraDofRows g nd).ptr = g.ptr := by
  intro g
  have hn := nodeLengths_length nd ls
  have hptr : ∀ i ≤ nd * ls.length, g.ptr.getD i 0 = ((nodeLengths nd ls).take i).sum := by
    intro i hi
    exact (c291_row_pointers (nodeLengths nd ls)).2.1 i (by omega)
  have hle : ∀ r, r < ls.length → nd * r + nd ≤ nd * ls.length := by
    intro r hr
    have := Nat.mul_le_mul_left nd hr
    rw [Nat.mul_succ] at this; exact this
  have hp : ∀ r (hr : r < ls.length) e, e ≤ nd → g.ptr.getD (nd * r + e) 0 = nd * (ls.take r).sum + ls[r] * e := by
    intro r hr e he
    rw [hptr _ (by have := hle r hr; omega), nodeLengths_take nd ls r e hr he]
  have hlen : ∀ r (hr : r < ls.length) e, e < nd → g.rowLength (nd * r + e) = ls[r] := by
    intro r hr e he
    unfold Csr.rowLength
    rw [Nat.add_assoc, hp r hr (e + 1) (by omega), hp r hr e he.le]
    have : ls[r] * (e + 1) = ls[r] * e + ls[r] := by ring
    omega
  have hp0 : ∀ r (hr : r < ls.length), g.ptr.getD (nd * r) 0 = nd * (ls.take r).sum := by
    intro r hr
    have := hp r hr 0 (Nat.zero_le _)
    simpa using this
  have hlen0 : ∀ r (hr : r < ls.length), g.rowLength (nd * r) = ls[r] := by
    intro r hr; simpa using hlen r hr 0 hnd
  have hpp : (fillInExtraDofRows g nd).ptr = g.ptr := by
    unfold fillInExtraDofRows; split <;> rfl
  refine ⟨?_, hpp⟩
  have hrl : (fillInExtraDofRows g nd).rowLength (nd * q + d) = ls[q] := by
    unfold Csr.rowLength; rw [hpp]; exact hlen q hq d hd
  unfold Csr.row
  rw [hrl, hpp, hlen0 q hq, hp q hq d hd.le, hp0 q hq]
  apply List.map_congr_left
  intro j hj
  rw [List.mem_range] at hj
  unfold fillInExtraDofRows
  split_ifs with h1
  · subst h1
    have : d = 0 := by omega
    subst this
    simp [g]
  · have hcount : (g.numRows + nd - 1) / nd = ls.length := by
      unfold Csr.numRows
      have : g.ptr.length = nd * ls.length + 1 := by
        rw [← hn]; exact (c291_row_pointers (nodeLengths nd ls)).1
      rw [this, Nat.add_sub_cancel, Nat.add_sub_assoc hnd, Nat.mul_add_div hnd,
        Nat.div_eq_of_lt (by omega)]
      rfl
    simp only [hcount]
    -- effect of the loop over nodes
    have hfold : ∀ n ≤ ls.length, ∀ x,
        ((List.range n).foldl (fun c q => fillNodeRows g nd c (nd * q)) cols) x =
          if x < nd * (ls.take n).sum then
            ((List.range n).foldl (fun c q => fillNodeRows g nd c (nd * q)) cols) x
          else cols x := by
      intro n
      induction n with
      | zero => intro _ x; simp
      | succ n ih =>
        intro hn' x
        split_ifs with hx
        · rfl
        · rw [List.range_succ, List.foldl_append, List.foldl_cons, List.foldl_nil]
          unfold fillNodeRows
          simp only
          rw [fillNode_apply, hp0 n (by omega), hlen0 n (by omega), Nat.sub_add_cancel hnd]
          have hs : nd * (ls.take (n + 1)).sum = nd * (ls.take n).sum + ls[n] * nd := by
            rw [sum_take_add_one _ _ (by omega : n < ls.length)]
            ring
          rw [if_neg (by omega)]
          have := ih (by omega) x
          rw [if_neg (by omega)] at this
          exact this
    have hkey : ∀ n ≤ ls.length, q < n →
        ((List.range n).foldl (fun c q => fillNodeRows g nd c (nd * q)) cols)
          (nd * (ls.take q).sum + ls[q] * d + j) = cols (nd * (ls.take q).sum + j) := by
      intro n
      induction n with
      | zero => intro _ h; omega
      | succ n ih =>
        intro hn' hqn
        rw [List.range_succ, List.foldl_append, List.foldl_cons, List.foldl_nil]
        unfold fillNodeRows
        simp only
        rw [fillNode_apply, hp0 n (by omega), hlen0 n (by omega), Nat.sub_add_cancel hnd]
        have hjd : ls[q] * d + j < ls[q] * nd := by
          have : ls[q] * (d + 1) ≤ ls[q] * nd := Nat.mul_le_mul_left _ hd
          rw [Nat.mul_add] at this; omega
        rcases Nat.lt_or_ge q n with h | h
        · have hmono : nd * (ls.take q).sum + ls[q] * nd ≤ nd * (ls.take n).sum := by
            have h2 : nd * (ls.take (q + 1)).sum = nd * (ls.take q).sum + ls[q] * nd := by
              rw [sum_take_add_one _ _ hq]
              ring
            rw [← h2]
            apply Nat.mul_le_mul_left
            have h3 : ls.take (q + 1) = (ls.take n).take (q + 1) := by
              rw [List.take_take]; congr 1; omega
            rw [h3]
            exact (List.take_sublist _ _).sum_le_sum (by simp)
          rw [if_neg (by omega)]
          exact ih (by omega) h
        · have hqe : n = q := by omega
          subst hqe
          rw [if_pos (by omega)]
          have h4 : nd * (ls.take n).sum + ls[n] * d + j - nd * (ls.take n).sum = j + ls[n] * d := by omega
          rw [h4, Nat.add_mul_mod_self_left, Nat.mod_eq_of_lt hj]
          have := hfold n (by omega) (nd * (ls.take n).sum + j)
          rw [if_neg (by omega)] at this
          exact this
    exact hkey ls.length le_rfl hq

/-- Concrete case: two nodes with two components, three and one columns. -/
example : (List.range 8).map (fillInExtraDofRows ⟨(computeRowPointers (nodeLengths 2 [3, 1])).1,
    fun p => [4, 7, 9, 0, 0, 0, 5, 0].getD p 0⟩ 2).cols = [4, 7, 9, 4, 7, 9, 5, 5] := by decide

end Verif.LinSys
