import Verif.Model.SolutionNorm
import Mathlib.Algebra.BigOperators.Group.Finset.Basic
import Mathlib.Algebra.Order.Chebyshev
import Mathlib.Algebra.Order.BigOperators.Group.List
import Mathlib.Tactic.Linarith
import Mathlib.Tactic.Positivity
import Mathlib.Tactic.FieldSimp

/-!
# C137: solution norms
-/

namespace Nalu.Norm
variable {N : Type*}

/-- The error of component `i` at a node. -/
def err (p : Pair N) (i : ℕ) (k : N) : ℝ := |p.dof k i - p.exact k i|

/-- Maximum of a list of numbers above the start value `lowest`. -/
noncomputable def listMax (l : List ℝ) : ℝ := l.foldl max lowest

/-! ### One array, one operation -/

/-- Keep track of the three arrays at one index. -/
structure At where
  loo : ℝ
  l1 : ℝ
  l2 : ℝ

/-- The three values stored for index `j`. -/
def Acc.at (tot j : ℕ) (a : Acc) : At := ⟨a.loo j, a.l12 j, a.l12 (j + tot)⟩

/-- What one more error does to the three values. -/
def At.add (x : At) (d : ℝ) : At := ⟨max d x.loo, x.l1 + d, x.l2 + d * d⟩

theorem compStep_count (tot off : ℕ) (p : Pair N) (k : N) (a : Acc) (i : ℕ) :
    (compStep tot off p k a i).count = a.count := rfl

theorem compStep_at {tot off : ℕ} {p : Pair N} (hoff : off + p.size ≤ tot) (k : N) (a : Acc) {i j : ℕ} (hi : i < p.size)
    (hj : j < tot) :
    (compStep tot off p k a i).at tot j = if j = off + i then (a.at tot j).add (err p i k) else a.at tot j := by
  unfold Acc.at compStep
  by_cases h : j = off + i
  · subst h
    have h1 : off + i ≠ off + tot + i := by omega
    have h2 : off + i + tot = off + tot + i := by omega
    have h3 : off + tot + i ≠ off + i := by omega
    simp only [if_true, At.add, err, Function.update_self, Function.update_of_ne h1, h2,
      Function.update_of_ne h3]
  · have h1 : j ≠ off + tot + i := by omega
    have h3 : j + tot ≠ off + tot + i := by omega
    have h4 : j + tot ≠ off + i := by omega
    simp only [if_neg h, Function.update_of_ne h, Function.update_of_ne h1, Function.update_of_ne h3,
      Function.update_of_ne h4]

theorem nodeStep_at {tot off : ℕ} {p : Pair N} (hoff : off + p.size ≤ tot) (k : N) (a : Acc) {j : ℕ} (hj : j < tot) :
    (nodeStep tot off p a k).at tot j
      = (if off ≤ j ∧ j < off + p.size then (a.at tot j).add (err p (j - off) k) else a.at tot j) ∧
    (nodeStep tot off p a k).count = a.count := by
  unfold nodeStep
  have key : ∀ L, L ≤ p.size →
      ((List.range L).foldl (compStep tot off p k) a).at tot j
        = (if off ≤ j ∧ j < off + L then (a.at tot j).add (err p (j - off) k) else a.at tot j) ∧
      ((List.range L).foldl (compStep tot off p k) a).count = a.count := by
    intro L
    induction L with
    | zero => intro _; rw [if_neg (by omega)]; exact ⟨rfl, rfl⟩
    | succ L ih =>
      intro hL
      obtain ⟨h1, h2⟩ := ih (by omega)
      rw [List.range_succ, List.foldl_append, List.foldl_cons, List.foldl_nil, compStep_count]
      refine ⟨?_, h2⟩
      rw [compStep_at hoff k _ (by omega) hj, h1]
      by_cases h : j = off + L
      · subst h
        rw [if_pos rfl, if_neg (by omega), if_pos (by omega), show off + L - off = L by omega]
      · rw [if_neg h]
        by_cases hc : off ≤ j ∧ j < off + L
        · rw [if_pos hc, if_pos (by omega)]
        · rw [if_neg hc, if_neg (by omega)]
  exact key p.size le_rfl

theorem nodes_at {tot off : ℕ} {p : Pair N} (hoff : off + p.size ≤ tot) {j : ℕ} (hj : j < tot) : ∀ (b : List N) (a : Acc),
    (b.foldl (nodeStep tot off p) a).at tot j
      = (if off ≤ j ∧ j < off + p.size then (b.map (err p (j - off))).foldl At.add (a.at tot j) else a.at tot j) ∧
    (b.foldl (nodeStep tot off p) a).count = a.count := by
  intro b
  induction b with
  | nil => intro a; simp
  | cons k b ih =>
    intro a
    obtain ⟨h1, h2⟩ := nodeStep_at hoff k a hj
    obtain ⟨i1, i2⟩ := ih (nodeStep tot off p a k)
    rw [List.foldl_cons, i2, i1, h1, h2]
    refine ⟨?_, rfl⟩
    by_cases hc : off ≤ j ∧ j < off + p.size
    · simp only [if_pos hc, List.map_cons, List.foldl_cons]
    · simp only [if_neg hc]

/-- The first index of the components of the pair after the pairs `pre`. -/
def offset (pre : List (Pair N)) : ℕ := (pre.map (·.size)).sum

theorem fields_fst (tot : ℕ) (b : List N) : ∀ (ps : List (Pair N)) (s : ℕ × Acc),
    (ps.foldl (fieldStep tot b) s).1 = s.1 + offset ps := by
  intro ps
  induction ps with
  | nil => intro s; simp [offset]
  | cons p ps ih => intro s; rw [List.foldl_cons, ih]; simp [fieldStep, offset]; omega

theorem fields_outside {tot : ℕ} (b : List N) {j : ℕ} (hj : j < tot) : ∀ (ps : List (Pair N)) (s : ℕ × Acc),
    s.1 + offset ps ≤ tot → (j < s.1 ∨ s.1 + offset ps ≤ j) →
    (ps.foldl (fieldStep tot b) s).2.at tot j = s.2.at tot j ∧ (ps.foldl (fieldStep tot b) s).2.count = s.2.count := by
  intro ps
  induction ps with
  | nil => intro s _ _; exact ⟨rfl, rfl⟩
  | cons p ps ih =>
    intro s hs ho
    have e : offset (p :: ps) = p.size + offset ps := by simp [offset]
    rw [e] at hs ho
    obtain ⟨h1, h2⟩ := nodes_at (tot := tot) (off := s.1) (p := p) (by omega) hj b s.2
    rw [List.foldl_cons]
    have hi := ih (fieldStep tot b s p) (by simp only [fieldStep]; omega)
      (by simp only [fieldStep]; omega)
    rw [hi.1, hi.2]
    simp only [fieldStep]
    rw [h1, h2, if_neg (by omega)]
    exact ⟨rfl, rfl⟩

theorem bucket_at {ps pre suf : List (Pair N)} {p : Pair N} (hps : ps = pre ++ p :: suf) (a : Acc) (b : List N) {i : ℕ}
    (hi : i < p.size) :
    (bucketStep ps a b).at (total ps) (offset pre + i)
      = (b.map (err p i)).foldl At.add (a.at (total ps) (offset pre + i)) ∧
    (bucketStep ps a b).count = a.count + b.length := by
  have ht : total ps = offset pre + (p.size + offset suf) := by
    simp [total, offset, hps]
  unfold bucketStep
  generalize total ps = tot at *
  rw [hps, List.foldl_append, List.foldl_cons]
  set a0 : Acc := { a with count := a.count + b.length } with ha0
  have hj : offset pre + i < tot := by omega
  have h1 := fields_outside (tot := tot) b hj pre (0, a0) (by simp only; omega) (by simp only; omega)
  have hf := fields_fst tot b pre (0, a0)
  simp only [zero_add] at hf
  generalize hs1 : pre.foldl (fieldStep tot b) (0, a0) = s1 at *
  have h2 := nodes_at (tot := tot) (off := s1.1) (p := p) (by omega) hj b s1.2
  have h3 := fields_outside (tot := tot) b hj suf (fieldStep tot b s1 p) (by simp only [fieldStep]; omega)
    (by simp only [fieldStep]; omega)
  rw [h3.1, h3.2]
  simp only [fieldStep]
  rw [h2.1, h2.2, h1.2, if_pos (by omega), h1.1, hf, Nat.add_sub_cancel_left]
  exact ⟨rfl, rfl⟩

theorem foldl_add_loo : ∀ (l : List ℝ) (x : At), (l.foldl At.add x).loo = l.foldl max x.loo := by
  intro l
  induction l with
  | nil => intro _; rfl
  | cons d l ih => intro x; rw [List.foldl_cons, ih, List.foldl_cons, At.add, max_comm]

theorem foldl_add_l1 : ∀ (l : List ℝ) (x : At), (l.foldl At.add x).l1 = x.l1 + l.sum := by
  intro l
  induction l with
  | nil => intro _; simp
  | cons d l ih => intro x; rw [List.foldl_cons, ih, List.sum_cons, At.add]; ring

theorem foldl_add_l2 : ∀ (l : List ℝ) (x : At), (l.foldl At.add x).l2 = x.l2 + (l.map (fun d => d * d)).sum := by
  intro l
  induction l with
  | nil => intro _; simp
  | cons d l ih => intro x; rw [List.foldl_cons, ih, List.map_cons, List.sum_cons, At.add]; ring

theorem local_at {ps pre suf : List (Pair N)} {p : Pair N} (hps : ps = pre ++ p :: suf) {i : ℕ} (hi : i < p.size) (bs : List (List N)) :
    (localNorms ps bs).at (total ps) (offset pre + i)
      = (bs.flatten.map (err p i)).foldl At.add ⟨lowest, 0, 0⟩ ∧
    (localNorms ps bs).count = bs.flatten.length := by
  have key : ∀ (bs : List (List N)) (a : Acc),
      (bs.foldl (bucketStep ps) a).at (total ps) (offset pre + i)
        = (bs.flatten.map (err p i)).foldl At.add (a.at (total ps) (offset pre + i)) ∧
      (bs.foldl (bucketStep ps) a).count = a.count + bs.flatten.length := by
    intro bs
    induction bs with
    | nil => intro a; simp
    | cons b bs ih =>
      intro a
      have h := bucket_at hps a b hi
      rw [List.foldl_cons, (ih _).1, (ih _).2, h.1, h.2, List.flatten_cons, List.map_append, List.foldl_append,
        List.length_append]
      exact ⟨rfl, by omega⟩
  have h := key bs Acc.init
  refine ⟨h.1, ?_⟩
  rw [localNorms, h.2]; simp [Acc.init]

theorem max_foldl (m : ℝ) (l : List ℝ) (hm : lowest ≤ m) : l.foldl max m = max m (listMax l) := by
  have h : ∀ (l : List ℝ) (a b : ℝ), l.foldl max (max a b) = max a (l.foldl max b) := by
    intro l
    induction l with
    | nil => intro a b; rfl
    | cons d l ih => intro a b; rw [List.foldl_cons, List.foldl_cons, max_assoc, ih]
  rw [listMax, ← h, max_eq_left hm]

theorem le_foldl_max : ∀ (l : List ℝ) (m : ℝ), m ≤ l.foldl max m := by
  intro l
  induction l with
  | nil => intro m; exact le_rfl
  | cons d l ih => intro m; exact le_trans (le_max_left _ _) (ih _)

/-- The global values at one index. -/
theorem reduce_at {ps pre suf : List (Pair N)} {p : Pair N} (hps : ps = pre ++ p :: suf) {i : ℕ} (hi : i < p.size)
    (ranks : List (List (List N))) :
    let g := reduce (ranks.map (localNorms ps))
    let e := (ranks.flatten.flatten).map (err p i)
    g.loo (offset pre + i) = listMax e ∧ g.l12 (offset pre + i) = e.sum ∧
    g.l12 (offset pre + i + total ps) = (e.map (fun d => d * d)).sum ∧ g.count = ranks.flatten.flatten.length := by
  have hl : ∀ bs : List (List N), (localNorms ps bs).loo (offset pre + i) = listMax (bs.flatten.map (err p i)) ∧
      (localNorms ps bs).l12 (offset pre + i) = (bs.flatten.map (err p i)).sum ∧
      (localNorms ps bs).l12 (offset pre + i + total ps) = ((bs.flatten.map (err p i)).map (fun d => d * d)).sum ∧
      (localNorms ps bs).count = bs.flatten.length := by
    intro bs
    have h := local_at hps hi bs
    refine ⟨?_, ?_, ?_, h.2⟩
    · have := congrArg At.loo h.1
      rw [foldl_add_loo] at this; exact this
    · have := congrArg At.l1 h.1
      rw [foldl_add_l1, zero_add] at this; exact this
    · have := congrArg At.l2 h.1
      rw [foldl_add_l2, zero_add] at this; exact this
  simp only [reduce, List.map_map]
  refine ⟨?_, ?_, ?_, ?_⟩
  · have key : ∀ (rs : List (List (List N))) (m : ℝ), lowest ≤ m →
        (rs.map (localNorms ps)).foldl (fun m r => max m (r.loo (offset pre + i))) m
          = (rs.flatten.flatten.map (err p i)).foldl max m := by
      intro rs
      induction rs with
      | nil => intro m _; rfl
      | cons r rs ih =>
        intro m hm
        rw [List.map_cons, List.foldl_cons, ih _ (le_trans hm (le_max_left _ _)), (hl r).1, List.flatten_cons,
          List.flatten_append, List.map_append, List.foldl_append, max_foldl m _ hm]
    exact key ranks lowest le_rfl
  · induction ranks with
    | nil => rfl
    | cons r rs ih =>
      rw [List.map_cons, List.sum_cons, ih, List.flatten_cons, List.flatten_append, List.map_append, List.sum_append]
      congr 1; exact (hl r).2.1
  · induction ranks with
    | nil => rfl
    | cons r rs ih =>
      rw [List.map_cons, List.sum_cons, ih, List.flatten_cons, List.flatten_append, List.map_append,
        List.sum_append]
      congr 1
      have := (hl r).2.2.1
      rw [List.map_map] at this
      exact this
  · induction ranks with
    | nil => rfl
    | cons r rs ih =>
      rw [List.map_cons, List.sum_cons, ih, List.flatten_cons, List.flatten_append, List.length_append]
      congr 1; exact (hl r).2.2.2

/-! ### The property -/

/-- All locally owned nodes of all ranks. -/
def allNodes (ranks : List (List (List N))) : List N := ranks.flatten.flatten

/-- Mean of a list of numbers. -/
noncomputable def mean (l : List ℝ) : ℝ := l.sum / (l.length : ℝ)

/-- C137: the row that must be printed for component `i` of the `j`-th pair: the largest error, the mean error and the root
mean square error over all nodes of the mesh. -/
noncomputable def specRow (ps : List (Pair N)) (nodes : List N) (step : ℕ) (time : ℝ) (j i : ℕ) (hj : j < ps.length) : Row :=
  let e := nodes.map (err ps[j] i)
  ⟨j, i, step, time, nodes.length, listMax e, mean e, Real.sqrt (mean (e.map (· ^ 2)))⟩

theorem rows_fold (tot step : ℕ) (time : ℝ) (g : Acc) : ∀ (ps : List (Pair N)) (s : ℕ × ℕ × List Row),
    ps.foldl (rowStep tot step time g) s
      = (s.1 + ps.length, s.2.1 + offset ps,
         s.2.2 ++ (List.range ps.length).flatMap (fun j =>
           fieldRows tot step time g (s.1 + j) (s.2.1 + offset (ps.take j)) ((ps.map (·.size)).getD j 0))) := by
  intro ps
  induction ps with
  | nil => intro s; simp [offset]
  | cons p ps ih =>
    intro s
    rw [List.foldl_cons, ih]
    simp only [rowStep, List.length_cons, offset, List.map_cons, List.sum_cons]
    refine Prod.ext (by simp only; omega) (Prod.ext (by simp only; omega) ?_)
    simp only
    rw [List.append_assoc]
    congr 1
    rw [List.range_succ_eq_map, List.flatMap_cons, List.flatMap_map]
    simp only [List.take_zero, List.map_nil, List.sum_nil, add_zero, List.getD_cons_zero, List.take_succ_cons,
      List.map_cons, List.sum_cons, List.getD_cons_succ]
    congr 1
    refine List.flatMap_congr ?_
    intro j _
    rw [show s.1 + 1 + j = s.1 + (j + 1) by omega, add_assoc s.2.1]

/-- C137: at an output step the rows appended are, for every pair and component in order, the maximum, mean and root mean square
error over the nodes of all ranks; at other steps nothing is written. -/
theorem c137_rows (freq : ℕ) (ps : List (Pair N)) (ranks : List (List (List N))) (step : ℕ) (time : ℝ) (file : List Row) :
    execute freq ps ranks step time file
      = if freq ∣ step then
          file ++ (List.finRange ps.length).flatMap (fun j =>
            (List.range (ps[j.1]).size).map (fun i => specRow ps (allNodes ranks) step time j.1 i j.2))
        else file := by
  unfold execute
  by_cases hd : freq ∣ step
  · rw [if_pos (Nat.mod_eq_zero_of_dvd hd), if_pos hd, rows_fold]
    congr 1
    simp only [List.nil_append, zero_add]
    rw [show List.range ps.length = (List.finRange ps.length).map Fin.val by simp, List.flatMap_map]
    refine List.flatMap_congr ?_
    intro j _
    obtain ⟨j, hj⟩ := j
    have hsz : (ps.map (·.size)).getD j 0 = (ps[j]).size := by simp [hj]
    simp only [hsz, fieldRows]
    refine List.map_congr_left ?_
    intro i hi
    have hps : ps = ps.take j ++ ps[j] :: ps.drop (j + 1) := by
      rw [← List.drop_eq_getElem_cons hj, List.take_append_drop]
    obtain ⟨h1, h2, h3, h4⟩ := reduce_at hps (List.mem_range.1 hi) ranks
    rw [h1, h2, h3, h4]
    simp only [specRow, allNodes, mean, List.length_map, pow_two]
  · rw [if_neg (fun h => hd (Nat.dvd_of_mod_eq_zero h)), if_neg hd]

/-- C137: the norms do not depend on the decomposition: two distributions of the same nodes over ranks and buckets give the same
rows, in whatever order the nodes come. -/
theorem c137_decomposition (freq : ℕ) (ps : List (Pair N)) {r1 r2 : List (List (List N))}
    (h : (allNodes r1).Perm (allNodes r2)) (step : ℕ) (time : ℝ) (file : List Row) :
    execute freq ps r1 step time file = execute freq ps r2 step time file := by
  rw [c137_rows, c137_rows]
  have hs : ∀ (j i : ℕ) (hj : j < ps.length), specRow ps (allNodes r1) step time j i hj = specRow ps (allNodes r2) step time j i hj := by
    intro j i hj
    simp only [specRow, mean, List.length_map]
    have e := h.map (err ps[j] i)
    rw [h.length_eq, e.sum_eq, (e.map (· ^ 2)).sum_eq]
    congr 1
    exact e.foldl_eq' (fun x _ y _ z => by rw [max_right_comm]) _
  simp only [hs]

theorem listMax_ge {l : List ℝ} {d : ℝ} (h : d ∈ l) : d ≤ listMax l := by
  have key : ∀ (l : List ℝ) (m : ℝ), d ∈ l → d ≤ l.foldl max m := by
    intro l
    induction l with
    | nil => intro m h; cases h
    | cons x l ih =>
      intro m h
      rcases List.mem_cons.1 h with rfl | h
      · exact le_trans (le_max_right _ _) (le_foldl_max _ _)
      · exact ih _ h
  exact key l _ h

theorem listMax_mem {l : List ℝ} (h : ∀ d ∈ l, 0 ≤ d) (hne : l ≠ []) : listMax l ∈ l := by
  have key : ∀ (l : List ℝ) (m : ℝ), l.foldl max m = m ∨ l.foldl max m ∈ l := by
    intro l
    induction l with
    | nil => intro m; exact Or.inl rfl
    | cons x l ih =>
      intro m
      rcases ih (max m x) with h | h
      · rw [List.foldl_cons, h]
        rcases max_choice m x with e | e
        · exact Or.inl e
        · right; rw [e]; exact List.mem_cons_self ..
      · exact Or.inr (List.mem_cons_of_mem _ h)
  rcases key l lowest with e | e
  · obtain ⟨d, hd⟩ := List.exists_mem_of_ne_nil _ hne
    have h1 := listMax_ge hd
    have h2 := h d hd
    have h3 : lowest < 0 := by unfold lowest; norm_num
    rw [show listMax l = lowest from e] at h1
    linarith
  · exact e

theorem sum_le_card {l : List ℝ} {m : ℝ} (h : ∀ d ∈ l, d ≤ m) : l.sum ≤ l.length * m := by
  have := List.sum_le_card_nsmul l m h
  rwa [nsmul_eq_mul] at this

theorem sq_sum_le : ∀ l : List ℝ, l.sum ^ 2 ≤ l.length * (l.map (· ^ 2)).sum := by
  intro l
  induction l with
  | nil => simp
  | cons d l ih =>
    rw [List.sum_cons, List.map_cons, List.sum_cons, List.length_cons]
    push_cast
    rcases Nat.eq_zero_or_pos l.length with h0 | hp
    · rw [List.length_eq_zero_iff] at h0; subst h0; simp
    · have hn : (0 : ℝ) < l.length := by exact_mod_cast hp
      have h2 : 2 * d * l.sum ≤ l.length * d ^ 2 + (l.map (· ^ 2)).sum := by
        have h3 : 0 ≤ ((l.length : ℝ) * d - l.sum) ^ 2 := sq_nonneg _
        have h4 : 2 * d * l.sum * l.length ≤ (l.length * d ^ 2 + (l.map (· ^ 2)).sum) * l.length := by nlinarith
        exact le_of_mul_le_mul_right h4 hn
      nlinarith

/-- C137: the printed norms are ordered, `0 ≤ L1 ≤ L2 ≤ Loo`, on every nonempty mesh. -/
theorem c137_ordered (ps : List (Pair N)) {nodes : List N} (hne : nodes ≠ []) (step : ℕ) (time : ℝ) (j i : ℕ) (hj : j < ps.length) :
    let r := specRow ps nodes step time j i hj
    0 ≤ r.l1 ∧ r.l1 ≤ r.l2 ∧ r.l2 ≤ r.loo := by
  simp only [specRow]
  set e := nodes.map (err ps[j] i) with he
  have hpos : ∀ d ∈ e, 0 ≤ d := by
    intro d hd
    obtain ⟨k, _, rfl⟩ := List.mem_map.1 hd
    exact abs_nonneg _
  have hne' : e ≠ [] := by rw [he]; simpa using hne
  have hlen : (0 : ℝ) < e.length := by exact_mod_cast List.length_pos_of_ne_nil hne'
  have hs : 0 ≤ e.sum := List.sum_nonneg hpos
  have hm0 : 0 ≤ listMax e := hpos _ (listMax_mem hpos hne')
  refine ⟨div_nonneg hs hlen.le, ?_, ?_⟩
  · apply Real.le_sqrt_of_sq_le
    simp only [mean, List.length_map]
    rw [div_pow, div_le_div_iff₀ (by positivity) hlen]
    have := sq_sum_le e
    nlinarith
  · rw [Real.sqrt_le_left hm0]
    simp only [mean, List.length_map]
    rw [div_le_iff₀ hlen]
    have h := sum_le_card (l := e.map (· ^ 2)) (m := listMax e ^ 2) (by
      intro d hd
      obtain ⟨x, hx, rfl⟩ := List.mem_map.1 hd
      exact pow_le_pow_left₀ (hpos x hx) (listMax_ge hx) 2)
    rw [List.length_map] at h
    linarith

/-- C137: any one of the three norms is zero exactly when the field equals the exact field at every node of the mesh. -/
theorem c137_zero (ps : List (Pair N)) {nodes : List N} (hne : nodes ≠ []) (step : ℕ) (time : ℝ) (j i : ℕ) (hj : j < ps.length) :
    let r := specRow ps nodes step time j i hj
    (r.loo = 0 ↔ ∀ k ∈ nodes, ps[j].dof k i = ps[j].exact k i) ∧
    (r.l1 = 0 ↔ ∀ k ∈ nodes, ps[j].dof k i = ps[j].exact k i) ∧
    (r.l2 = 0 ↔ ∀ k ∈ nodes, ps[j].dof k i = ps[j].exact k i) := by
  intro r
  obtain ⟨h0, h1, h2⟩ := c137_ordered ps hne step time j i hj
  have hz : (∀ k ∈ nodes, ps[j].dof k i = ps[j].exact k i) → r.loo = 0 := by
    intro h
    have hall : ∀ d ∈ nodes.map (err ps[j] i), d = 0 := by
      intro d hd
      obtain ⟨k, hk, rfl⟩ := List.mem_map.1 hd
      rw [err, h k hk, sub_self, abs_zero]
    exact hall _ (listMax_mem (fun d hd => (hall d hd).ge) (by simpa using hne))
  have hz1 : r.l1 = 0 → ∀ k ∈ nodes, ps[j].dof k i = ps[j].exact k i := by
    intro h k hk
    have hpos : ∀ d ∈ nodes.map (err ps[j] i), 0 ≤ d := by
      intro d hd
      obtain ⟨k, _, rfl⟩ := List.mem_map.1 hd
      exact abs_nonneg _
    have hlen : (0 : ℝ) < (nodes.map (err ps[j] i)).length := by
      rw [List.length_map]; exact_mod_cast List.length_pos_of_ne_nil hne
    have hs : (nodes.map (err ps[j] i)).sum = 0 := by
      have h' : (nodes.map (err ps[j] i)).sum / ((nodes.map (err ps[j] i)).length : ℝ) = 0 := h
      rcases div_eq_zero_iff.1 h' with e | e
      · exact e
      · exact absurd e hlen.ne'
    have hk0 : err ps[j] i k ≤ (nodes.map (err ps[j] i)).sum :=
      List.single_le_sum hpos _ (List.mem_map.2 ⟨k, hk, rfl⟩)
    have : err ps[j] i k = 0 := le_antisymm (by linarith) (abs_nonneg _)
    exact sub_eq_zero.1 (abs_eq_zero.1 this)
  have e0 : 0 ≤ r.l1 := h0
  have e1 : r.l1 ≤ r.l2 := h1
  have e2 : r.l2 ≤ r.loo := h2
  refine ⟨⟨fun h => hz1 (by linarith), hz⟩, ⟨hz1, fun h => ?_⟩, ⟨fun h => hz1 (by linarith), fun h => ?_⟩⟩
  · have := hz h; linarith
  · have := hz h; linarith

/-- C137 (negative): unlike the probe files, the norm file is emptied when the input is read, so after a restart it holds the rows of the
last run only, whatever the earlier runs wrote. -/
theorem c137_restart_truncates (freq : ℕ) (ps : List (Pair N)) (ranks : List (List (List N)))
    (first last : List (ℕ × ℝ)) (file : List Row) :
    wholeRun freq ps ranks last (wholeRun freq ps ranks first file) = wholeRun freq ps ranks last [] ∧
    ∀ r ∈ wholeRun freq ps ranks last (wholeRun freq ps ranks first file), r.step ∈ last.map (·.1) := by
  refine ⟨rfl, ?_⟩
  have key : ∀ (l : List (ℕ × ℝ)) (f : List Row), ∀ r ∈ l.foldl (fun f s => execute freq ps ranks s.1 s.2 f) f,
      r ∈ f ∨ r.step ∈ l.map (·.1) := by
    intro l
    induction l with
    | nil => intro f r hr; exact Or.inl hr
    | cons s l ih =>
      intro f r hr
      rw [List.foldl_cons] at hr
      rcases ih _ r hr with h | h
      · rw [c137_rows] at h
        split at h
        · rcases List.mem_append.1 h with h | h
          · exact Or.inl h
          · right
            obtain ⟨j, _, h⟩ := List.mem_flatMap.1 h
            obtain ⟨i, _, rfl⟩ := List.mem_map.1 h
            simp [specRow]
        · exact Or.inl h
      · exact Or.inr (by rw [List.map_cons]; exact List.mem_cons_of_mem _ h)
  intro r hr
  rcases key last [] r hr with h | h
  · cases h
  · exact h

/-- Two fields, three nodes on two ranks. -/
def exPairs : List (Pair ℕ) := [⟨2, fun k i => k + i, fun _ _ => 0⟩, ⟨1, fun _ _ => 1, fun k _ => k⟩]

example : exPairs ≠ [] ∧ allNodes [[[1], [2]], [[3]]] = [1, 2, 3] ∧
    ((execute 2 exPairs [[[1], [2]], [[3]]] 4 0 []).map (·.nodeCount)) = [3, 3, 3] := by
  refine ⟨by simp [exPairs], rfl, ?_⟩
  rw [c137_rows]
  simp [exPairs, specRow, allNodes, List.finRange_succ]
  decide

end Nalu.Norm
