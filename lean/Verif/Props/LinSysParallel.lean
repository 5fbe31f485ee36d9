import Verif.Props.LinSys
import Mathlib.Algebra.BigOperators.Group.Multiset.Basic
import Mathlib.Tactic.IntervalCases

/-!
# C22: the assembled system does not depend on the partition
-/

set_option linter.unusedSectionVars false
set_option linter.unusedSimpArgs false

namespace Verif.LinSys

open Finset


section
variable {R : Type*} [AddCommMonoid R]

/-- One process of a run: its local structure, the global ids of its local rows (owned then shared)
and columns, and the contributions it assembles, each with the permutation its sort returned. -/
structure Proc (R : Type*) where
  L : Local
  rowGid : ℕ → ℕ
  colGid : ℕ → ℕ
  elems : List (Contribution R × (ℕ → ℕ))

/-- Global id of dof `i` of a contribution. -/
def dofGid (numDof : ℕ) (nalu : ℕ → ℕ) (c : Contribution R) (i : ℕ) : ℕ :=
  GID (nalu (c.nodes.getD (i / numDof) 0)) numDof (i % numDof)

/-- The numbering facts of C18 plus "the graph has the couplings" for everything this process
assembles. -/
structure ProcOK (numDof : ℕ) (nalu : ℕ → ℕ) (P : Proc R) : Prop where
  dof : P.L.numDof = numDof
  le : P.L.maxOwned ≤ P.L.maxShared
  accepts : ∀ e ∈ P.elems, Accepts P.L e.1
  sorts : ∀ e ∈ P.elems, SortOf (numDofs P.L e.1) (dofCol P.L e.1) e.2
  row_lt : ∀ e ∈ P.elems, ∀ i < numDofs P.L e.1, dofRow P.L e.1 i < P.L.maxShared
  row_gid : ∀ e ∈ P.elems, ∀ i < numDofs P.L e.1, P.rowGid (dofRow P.L e.1 i) = dofGid numDof nalu e.1 i
  col_gid : ∀ e ∈ P.elems, ∀ i < numDofs P.L e.1, P.colGid (dofCol P.L e.1 i) = dofGid numDof nalu e.1 i

/-- Local assembly of all contributions of a process, in order. -/
def assemble (P : Proc R) (s : Sys R) : Sys R := P.elems.foldl (fun s e => sumInto P.L e.1 e.2 s) s

/-- What a process stores for the global entry `(I, J)`: owned rows stay, shared rows are exported
with `Tpetra::ADD` to the row with the same global id (src/TpetraLinearSystem.C:1757-1778), so the
global matrix is the sum of this over all processes. -/
def stored (P : Proc R) (s : Sys R) (I J : ℕ) : R :=
  (∑ a ∈ range P.L.maxOwned, if P.rowGid a = I then
    ∑ p ∈ range (P.L.ownedRow a).length, (if P.colGid ((P.L.ownedRow a).col p) = J then s.owned a p else 0)
    else 0) +
  ∑ a ∈ range (P.L.maxShared - P.L.maxOwned), if P.rowGid (a + P.L.maxOwned) = I then
    ∑ p ∈ range (P.L.sharedRow a).length, (if P.colGid ((P.L.sharedRow a).col p) = J then s.shared a p else 0)
    else 0

/-- The same for the right-hand side. -/
def storedRhs (P : Proc R) (s : Sys R) (I : ℕ) : R :=
  (∑ a ∈ range P.L.maxOwned, if P.rowGid a = I then s.ownedRhs a else 0) +
  ∑ a ∈ range (P.L.maxShared - P.L.maxOwned),
    if P.rowGid (a + P.L.maxOwned) = I then s.sharedRhs a else 0

/-- Contribution of one element to the global entry `(I, J)`, without any reference to processes. -/
def elemEntry (numDof : ℕ) (nalu : ℕ → ℕ) (c : Contribution R) (I J : ℕ) : R :=
  ∑ i ∈ range (c.nodes.length * numDof), ∑ k ∈ range (c.nodes.length * numDof),
    if dofGid numDof nalu c i = I ∧ dofGid numDof nalu c k = J then c.lhs i k else 0

/-- The same for the right-hand side. -/
def elemRhs (numDof : ℕ) (nalu : ℕ → ℕ) (c : Contribution R) (I : ℕ) : R :=
  ∑ i ∈ range (c.nodes.length * numDof), if dofGid numDof nalu c i = I then c.rhs i else 0

theorem row_collapse (L : Local) (c : Contribution R) (row : RowView) (hacc : RowAccepts L c row)
    (colGid : ℕ → ℕ) (J k : ℕ) (hk : k < numDofs L c) (x : R) :
    (∑ p ∈ range row.length, if colGid (row.col p) = J then (if dofCol L c k = row.col p then x else 0)
      else 0) = if colGid (dofCol L c k) = J then x else 0 := by
  obtain ⟨q, hq, hcol⟩ := hacc.present k hk
  rw [sum_eq_single q]
  · rw [hcol]; simp
  · intro b hb hne
    have : ¬ dofCol L c k = row.col b := by
      intro h
      exact hne (hacc.sorted.inj (mem_range.1 hb) hq (by omega))
    rw [if_neg this]
    simp
  · intro h; exact absurd (mem_range.2 hq) h

theorem added_row (L : Local) (c : Contribution R) (row : RowView) (a : ℕ)
    (hacc : ∀ i < numDofs L c, dofRow L c i = a → RowAccepts L c row) (colGid : ℕ → ℕ) (J : ℕ) :
    (∑ p ∈ range row.length, if colGid (row.col p) = J then added L c a (row.col p) else 0) =
      ∑ i ∈ range (numDofs L c), if dofRow L c i = a then
        ∑ k ∈ range (numDofs L c), (if colGid (dofCol L c k) = J then c.lhs i k else 0) else 0 := by
  have h1 : ∀ p, (if colGid (row.col p) = J then added L c a (row.col p) else 0) =
      ∑ i ∈ range (numDofs L c), ∑ k ∈ range (numDofs L c),
        if colGid (row.col p) = J then (if dofRow L c i = a ∧ dofCol L c k = row.col p then c.lhs i k else 0)
        else 0 := by
    intro p
    by_cases h : colGid (row.col p) = J
    · simp only [if_pos h]; rfl
    · simp only [if_neg h]; simp
  simp only [h1]
  rw [sum_comm]
  apply sum_congr rfl
  intro i hi
  rw [sum_comm]
  by_cases hia : dofRow L c i = a
  · rw [if_pos hia]
    apply sum_congr rfl
    intro k hk
    rw [← row_collapse L c row (hacc i (mem_range.1 hi) hia) colGid J k (mem_range.1 hk) (c.lhs i k)]
    simp only [hia, true_and]
  · rw [if_neg hia]
    apply sum_eq_zero
    intro k _
    apply sum_eq_zero
    intro p _
    simp [hia]

theorem split_rows (mo ms n : ℕ) (hle : mo ≤ ms) (rg row : ℕ → ℕ) (hrow : ∀ i < n, row i < ms) (I : ℕ)
    (F : ℕ → R) :
    (∑ a ∈ range mo, if rg a = I then ∑ i ∈ range n, (if row i = a then F i else 0) else 0) +
    (∑ a ∈ range (ms - mo), if rg (a + mo) = I then
      ∑ i ∈ range n, (if row i = a + mo then F i else 0) else 0) =
    ∑ i ∈ range n, if rg (row i) = I then F i else 0 := by
  have hO : (∑ a ∈ range mo, if rg a = I then ∑ i ∈ range n, (if row i = a then F i else 0) else 0) =
      ∑ i ∈ range n, if row i < mo then (if rg (row i) = I then F i else 0) else 0 := by
    have : ∀ a, (if rg a = I then ∑ i ∈ range n, (if row i = a then F i else 0) else 0) =
        ∑ i ∈ range n, (if row i = a then (if rg (row i) = I then F i else 0) else 0) := by
      intro a
      by_cases h : rg a = I
      · rw [if_pos h]
        apply sum_congr rfl
        intro i _
        by_cases hr : row i = a
        · rw [if_pos hr, if_pos hr, hr, if_pos h]
        · rw [if_neg hr, if_neg hr]
      · rw [if_neg h]
        symm
        apply sum_eq_zero
        intro i _
        by_cases hr : row i = a
        · rw [if_pos hr, hr, if_neg h]
        · rw [if_neg hr]
    simp only [this]
    rw [sum_comm]
    apply sum_congr rfl
    intro i _
    rw [sum_ite_eq]
    simp only [mem_range]
  have hS : (∑ a ∈ range (ms - mo), if rg (a + mo) = I then
      ∑ i ∈ range n, (if row i = a + mo then F i else 0) else 0) =
      ∑ i ∈ range n, if row i < mo then 0 else (if rg (row i) = I then F i else 0) := by
    have : ∀ a, (if rg (a + mo) = I then ∑ i ∈ range n, (if row i = a + mo then F i else 0) else 0) =
        ∑ i ∈ range n, (if row i = a + mo then (if rg (row i) = I then F i else 0) else 0) := by
      intro a
      by_cases h : rg (a + mo) = I
      · rw [if_pos h]
        apply sum_congr rfl
        intro i _
        by_cases hr : row i = a + mo
        · rw [if_pos hr, if_pos hr, hr, if_pos h]
        · rw [if_neg hr, if_neg hr]
      · rw [if_neg h]
        symm
        apply sum_eq_zero
        intro i _
        by_cases hr : row i = a + mo
        · rw [if_pos hr, hr, if_neg h]
        · rw [if_neg hr]
    simp only [this]
    rw [sum_comm]
    apply sum_congr rfl
    intro i hi
    have hr := hrow i (mem_range.1 hi)
    by_cases hlt : row i < mo
    · rw [if_pos hlt]
      apply sum_eq_zero
      intro a _
      rw [if_neg (by omega)]
    · rw [if_neg hlt, sum_eq_single (row i - mo)]
      · rw [if_pos (by omega)]
      · intro b _ hne
        rw [if_neg (by omega)]
      · intro h
        exact absurd (mem_range.2 (by omega)) h
  rw [hO, hS, ← sum_add_distrib]
  apply sum_congr rfl
  intro i _
  by_cases hlt : row i < mo
  · rw [if_pos hlt, if_pos hlt, add_zero]
  · rw [if_neg hlt, if_neg hlt, zero_add]

theorem stored_sumInto (P : Proc R) (hle : P.L.maxOwned ≤ P.L.maxShared) (c : Contribution R)
    (perm : ℕ → ℕ) (hacc : Accepts P.L c)
    (hsort : SortOf (numDofs P.L c) (dofCol P.L c) perm)
    (hlt : ∀ i < numDofs P.L c, dofRow P.L c i < P.L.maxShared) (s : Sys R) (I J : ℕ) :
    stored P (sumInto P.L c perm s) I J = stored P s I J +
      ∑ i ∈ range (numDofs P.L c), ∑ k ∈ range (numDofs P.L c),
        if P.rowGid (dofRow P.L c i) = I ∧ P.colGid (dofCol P.L c k) = J then c.lhs i k else 0 := by
  obtain ⟨h1, h2, -, -⟩ := c19_sumInto_exact P.L c hacc perm hsort s
  set F : ℕ → R := fun i => ∑ k ∈ range (numDofs P.L c),
    (if P.colGid (dofCol P.L c k) = J then c.lhs i k else 0) with hF
  have hO : ∀ a < P.L.maxOwned, (if P.rowGid a = I then
      ∑ p ∈ range (P.L.ownedRow a).length, (if P.colGid ((P.L.ownedRow a).col p) = J
        then (sumInto P.L c perm s).owned a p else 0) else 0) =
      (if P.rowGid a = I then
      ∑ p ∈ range (P.L.ownedRow a).length, (if P.colGid ((P.L.ownedRow a).col p) = J
        then s.owned a p else 0) else 0) +
      (if P.rowGid a = I then ∑ i ∈ range (numDofs P.L c), (if dofRow P.L c i = a then F i else 0) else 0) := by
    intro a ha
    by_cases h : P.rowGid a = I
    · simp only [if_pos h]
      rw [← added_row P.L c (P.L.ownedRow a) a (fun i hi he => he ▸ hacc.owned i hi (by omega)) P.colGid J,
        ← sum_add_distrib]
      apply sum_congr rfl
      intro p hp
      rw [h1 a ha p (mem_range.1 hp)]
      by_cases hJ : P.colGid ((P.L.ownedRow a).col p) = J
      · simp only [if_pos hJ]; rfl
      · simp only [if_neg hJ, add_zero]
    · simp only [if_neg h, add_zero]
  have hS : ∀ a < P.L.maxShared - P.L.maxOwned, (if P.rowGid (a + P.L.maxOwned) = I then
      ∑ p ∈ range (P.L.sharedRow a).length, (if P.colGid ((P.L.sharedRow a).col p) = J
        then (sumInto P.L c perm s).shared a p else 0) else 0) =
      (if P.rowGid (a + P.L.maxOwned) = I then
      ∑ p ∈ range (P.L.sharedRow a).length, (if P.colGid ((P.L.sharedRow a).col p) = J
        then s.shared a p else 0) else 0) +
      (if P.rowGid (a + P.L.maxOwned) = I then
        ∑ i ∈ range (numDofs P.L c), (if dofRow P.L c i = a + P.L.maxOwned then F i else 0) else 0) := by
    intro a ha
    by_cases h : P.rowGid (a + P.L.maxOwned) = I
    · simp only [if_pos h]
      have hacc' : ∀ i < numDofs P.L c, dofRow P.L c i = a + P.L.maxOwned →
          RowAccepts P.L c (P.L.sharedRow a) := by
        intro i hi he
        have := hacc.shared i hi (by omega) (by omega)
        rw [he, Nat.add_sub_cancel] at this
        exact this
      rw [← added_row P.L c (P.L.sharedRow a) (a + P.L.maxOwned) hacc' P.colGid J, ← sum_add_distrib]
      apply sum_congr rfl
      intro p hp
      rw [h2 a (by omega) p (mem_range.1 hp)]
      by_cases hJ : P.colGid ((P.L.sharedRow a).col p) = J
      · simp only [if_pos hJ]; rfl
      · simp only [if_neg hJ, add_zero]
    · simp only [if_neg h, add_zero]
  unfold stored
  rw [sum_congr rfl (fun a ha => hO a (mem_range.1 ha)),
    sum_congr rfl (fun a ha => hS a (mem_range.1 ha)), sum_add_distrib, sum_add_distrib]
  have hsplit := split_rows P.L.maxOwned P.L.maxShared (numDofs P.L c) hle P.rowGid (dofRow P.L c) hlt I F
  rw [add_add_add_comm, hsplit]
  congr 1
  apply sum_congr rfl
  intro i _
  by_cases h : P.rowGid (dofRow P.L c i) = I
  · simp only [h, if_true, true_and, hF]
  · simp only [h, if_false, false_and, sum_const_zero]

theorem storedRhs_sumInto (P : Proc R) (hle : P.L.maxOwned ≤ P.L.maxShared) (c : Contribution R)
    (perm : ℕ → ℕ) (hacc : Accepts P.L c)
    (hsort : SortOf (numDofs P.L c) (dofCol P.L c) perm)
    (hlt : ∀ i < numDofs P.L c, dofRow P.L c i < P.L.maxShared) (s : Sys R) (I : ℕ) :
    storedRhs P (sumInto P.L c perm s) I = storedRhs P s I +
      ∑ i ∈ range (numDofs P.L c), if P.rowGid (dofRow P.L c i) = I then c.rhs i else 0 := by
  obtain ⟨-, -, h3, h4⟩ := c19_sumInto_exact P.L c hacc perm hsort s
  have hO : ∀ a < P.L.maxOwned, (if P.rowGid a = I then (sumInto P.L c perm s).ownedRhs a else 0) =
      (if P.rowGid a = I then s.ownedRhs a else 0) +
      (if P.rowGid a = I then ∑ i ∈ range (numDofs P.L c), (if dofRow P.L c i = a then c.rhs i else 0) else 0) := by
    intro a ha
    rw [h3 a ha]
    by_cases h : P.rowGid a = I
    · simp only [if_pos h]
    · simp only [if_neg h, add_zero]
  have hS : ∀ a < P.L.maxShared - P.L.maxOwned,
      (if P.rowGid (a + P.L.maxOwned) = I then (sumInto P.L c perm s).sharedRhs a else 0) =
      (if P.rowGid (a + P.L.maxOwned) = I then s.sharedRhs a else 0) +
      (if P.rowGid (a + P.L.maxOwned) = I then
        ∑ i ∈ range (numDofs P.L c), (if dofRow P.L c i = a + P.L.maxOwned then c.rhs i else 0) else 0) := by
    intro a ha
    rw [h4 a (by omega)]
    by_cases h : P.rowGid (a + P.L.maxOwned) = I
    · simp only [if_pos h]
    · simp only [if_neg h, add_zero]
  unfold storedRhs
  rw [sum_congr rfl (fun a ha => hO a (mem_range.1 ha)),
    sum_congr rfl (fun a ha => hS a (mem_range.1 ha)), sum_add_distrib, sum_add_distrib]
  have hsplit := split_rows P.L.maxOwned P.L.maxShared (numDofs P.L c) hle P.rowGid (dofRow P.L c) hlt I c.rhs
  rw [add_add_add_comm, hsplit]

/-- What one process stores after assembling its elements: the sum of their contributions to the
global entry. -/
theorem stored_assemble (numDof : ℕ) (nalu : ℕ → ℕ) (P : Proc R) (hP : ProcOK numDof nalu P)
    (s : Sys R) (I J : ℕ) :
    stored P (assemble P s) I J =
      stored P s I J + (P.elems.map (fun e => elemEntry numDof nalu e.1 I J)).sum ∧
    storedRhs P (assemble P s) I =
      storedRhs P s I + (P.elems.map (fun e => elemRhs numDof nalu e.1 I)).sum := by
  have key : ∀ (es : List (Contribution R × (ℕ → ℕ))), (∀ e ∈ es, e ∈ P.elems) → ∀ s : Sys R,
      stored P (es.foldl (fun s e => sumInto P.L e.1 e.2 s) s) I J =
        stored P s I J + (es.map (fun e => elemEntry numDof nalu e.1 I J)).sum ∧
      storedRhs P (es.foldl (fun s e => sumInto P.L e.1 e.2 s) s) I =
        storedRhs P s I + (es.map (fun e => elemRhs numDof nalu e.1 I)).sum := by
    intro es
    induction es with
    | nil => intro _ s; simp
    | cons e es ih =>
      intro hmem s
      have he := hmem e (by simp)
      obtain ⟨j1, j2⟩ := ih (fun x hx => hmem x (by simp [hx])) (sumInto P.L e.1 e.2 s)
      have hn : numDofs P.L e.1 = e.1.nodes.length * numDof := by unfold numDofs; rw [hP.dof]
      rw [List.foldl_cons, j1, j2, List.map_cons, List.map_cons, List.sum_cons, List.sum_cons,
        stored_sumInto P hP.le e.1 e.2 (hP.accepts e he) (hP.sorts e he) (hP.row_lt e he),
        storedRhs_sumInto P hP.le e.1 e.2 (hP.accepts e he) (hP.sorts e he) (hP.row_lt e he),
        add_assoc, add_assoc]
      refine ⟨?_, ?_⟩
      · congr 2
        unfold elemEntry
        rw [hn]
        apply sum_congr rfl
        intro i hi
        apply sum_congr rfl
        intro k hk
        rw [hP.row_gid e he i (by rw [hn]; exact mem_range.1 hi),
          hP.col_gid e he k (by rw [hn]; exact mem_range.1 hk)]
      · congr 2
        unfold elemRhs
        rw [hn]
        apply sum_congr rfl
        intro i hi
        rw [hP.row_gid e he i (by rw [hn]; exact mem_range.1 hi)]
  exact key P.elems (fun e he => he) s

/-- The zeroed local system (`zeroSystem`, src/TpetraLinearSystem.C:1353-1372). -/
def zeroSys : Sys R := ⟨fun _ _ => 0, fun _ _ => 0, fun _ => 0, fun _ => 0⟩

theorem stored_zero (P : Proc R) (I J : ℕ) :
    stored P zeroSys I J = 0 ∧ storedRhs P zeroSys I = 0 := by
  simp [stored, storedRhs, zeroSys]

/-- Global matrix and right-hand side after `zeroSystem`, assembly on every process and
`loadComplete`: the sum over processes of what each stores. -/
def globalEntry (procs : List (Proc R)) (I J : ℕ) : R :=
  (procs.map (fun P => stored P (assemble P zeroSys) I J)).sum
/-- See `globalEntry`. -/
def globalRhs (procs : List (Proc R)) (I : ℕ) : R :=
  (procs.map (fun P => storedRhs P (assemble P zeroSys) I)).sum

/-- The global system is the sum of all element contributions, addressed by global ids alone. -/
theorem c22_global_is_serial_sum (numDof : ℕ) (nalu : ℕ → ℕ) (procs : List (Proc R))
    (hok : ∀ P ∈ procs, ProcOK numDof nalu P) (I J : ℕ) :
    globalEntry procs I J =
      ((procs.flatMap (fun P => P.elems.map (·.1))).map (fun c => elemEntry numDof nalu c I J)).sum ∧
    globalRhs procs I =
      ((procs.flatMap (fun P => P.elems.map (·.1))).map (fun c => elemRhs numDof nalu c I)).sum := by
  unfold globalEntry globalRhs
  induction procs with
  | nil => simp
  | cons P procs ih =>
    obtain ⟨i1, i2⟩ := ih (fun Q hQ => hok Q (by simp [hQ]))
    obtain ⟨a1, a2⟩ := stored_assemble numDof nalu P (hok P (by simp)) zeroSys I J
    obtain ⟨z1, z2⟩ := stored_zero P I J
    rw [List.map_cons, List.sum_cons, i1, a1, z1, zero_add, List.map_cons, List.sum_cons, i2, a2, z2,
      zero_add]
    simp only [List.flatMap_cons, List.map_append, List.sum_append, List.map_map]
    exact ⟨rfl, rfl⟩

/-- Partition independence: two runs that assemble the same elements - distributed over any numbers
of processes, in any orders, with any local numberings, graphs and sorts - produce the same global
matrix and right-hand side. -/
theorem c22_partition_independent (numDof : ℕ) (nalu : ℕ → ℕ) (run1 run2 : List (Proc R))
    (h1 : ∀ P ∈ run1, ProcOK numDof nalu P) (h2 : ∀ P ∈ run2, ProcOK numDof nalu P)
    (hsame : (run1.flatMap (fun P => P.elems.map (·.1))).Perm
      (run2.flatMap (fun P => P.elems.map (·.1)))) (I J : ℕ) :
    globalEntry run1 I J = globalEntry run2 I J ∧ globalRhs run1 I = globalRhs run2 I := by
  obtain ⟨a1, a2⟩ := c22_global_is_serial_sum numDof nalu run1 h1 I J
  obtain ⟨b1, b2⟩ := c22_global_is_serial_sum numDof nalu run2 h2 I J
  rw [a1, b1, a2, b2]
  exact ⟨(hsame.map _).sum_eq, (hsame.map _).sum_eq⟩

end

/-! ## C21, globally -/

section
variable {R : Type*} [Field R]

/-- After every process has applied its Dirichlet conditions, the exported global row of a boundary
dof with global id `I` is the identity row with right-hand side `r = bc - solution`: exactly one
process (index `o`, local row `ro`) owns the row, all local copies of the row are on the boundary
list of their process, and the diagonal is in the owner's graph. -/
theorem c21_global_row (n o : ℕ) (ho : o < n) (P : ℕ → Proc R) (ds : ℕ → List (BcDof R))
    (s t : ℕ → Sys R) (happ : ∀ q < n, applyDirichlet (P q).L (ds q) (s q) = some (t q)) (I ro : ℕ) (r : R)
    (hro : ro < (P o).L.maxOwned)
    (howner : ∀ q < n, ∀ a < (P q).L.maxOwned, (P q).rowGid a = I ↔ q = o ∧ a = ro)
    (honbc : ∃ d ∈ ds o, d.lid = ro)
    (hval : ∀ d ∈ ds o, d.lid = ro → d.bc - d.u = r)
    (hshared : ∀ q < n, ∀ a < (P q).L.maxShared - (P q).L.maxOwned,
      (P q).rowGid (a + (P q).L.maxOwned) = I → ∃ d ∈ ds q, d.lid = a + (P q).L.maxOwned)
    (hsorted : RowSorted ((P o).L.ownedRow ro))
    (hcol : ∀ p < ((P o).L.ownedRow ro).length,
      (P o).colGid (((P o).L.ownedRow ro).col p) = I ↔ ((P o).L.ownedRow ro).col p = ro)
    (hdiag : ∃ p < ((P o).L.ownedRow ro).length, ((P o).L.ownedRow ro).col p = ro) (J : ℕ) :
    ∑ q ∈ range n, stored (P q) (t q) I J = (if J = I then 1 else 0) ∧
    ∑ q ∈ range n, storedRhs (P q) (t q) I = r := by
  have hSh : ∀ q < n, (∑ a ∈ range ((P q).L.maxShared - (P q).L.maxOwned),
      if (P q).rowGid (a + (P q).L.maxOwned) = I then
      ∑ p ∈ range ((P q).L.sharedRow a).length,
        (if (P q).colGid (((P q).L.sharedRow a).col p) = J then (t q).shared a p else 0) else 0) = 0 ∧
      (∑ a ∈ range ((P q).L.maxShared - (P q).L.maxOwned),
      if (P q).rowGid (a + (P q).L.maxOwned) = I then (t q).sharedRhs a else 0) = 0 := by
    intro q hq
    constructor
    · apply sum_eq_zero
      intro a ha
      by_cases hI : (P q).rowGid (a + (P q).L.maxOwned) = I
      · rw [if_pos hI]
        obtain ⟨h1, _⟩ := c21_shared_rows (P q).L (ds q) (s q) (t q) (happ q hq) a
          (hshared q hq a (mem_range.1 ha) hI)
        apply sum_eq_zero
        intro p hp
        rw [h1 p (mem_range.1 hp), ite_self]
      · rw [if_neg hI]
    · apply sum_eq_zero
      intro a ha
      by_cases hI : (P q).rowGid (a + (P q).L.maxOwned) = I
      · rw [if_pos hI]
        exact (c21_shared_rows (P q).L (ds q) (s q) (t q) (happ q hq) a
          (hshared q hq a (mem_range.1 ha) hI)).2
      · rw [if_neg hI]
  obtain ⟨d, hd, hdl⟩ := honbc
  obtain ⟨r1, r2⟩ := c21_owned_rows (P o).L (ds o) (s o) (t o) (happ o ho) d hd (by omega)
    (fun d' hd' he => by rw [hval d' hd' (by omega), hval d hd hdl])
  rw [hdl, hval d hd hdl] at r2
  rw [hdl] at r1
  constructor
  · rw [sum_eq_single_of_mem o (mem_range.2 ho)]
    · unfold stored
      rw [(hSh o ho).1, add_zero, sum_eq_single_of_mem ro (mem_range.2 hro)]
      · rw [if_pos ((howner o ho ro hro).2 ⟨rfl, rfl⟩)]
        obtain ⟨p0, hp0, hc0⟩ := hdiag
        rw [sum_eq_single_of_mem p0 (mem_range.2 hp0)]
        · have := (hcol p0 hp0).2 hc0
          rw [this, r1 p0 hp0, if_pos hc0]
          simp only [eq_comm]
        · intro b hb hne
          have : ¬ ((P o).L.ownedRow ro).col b = ro := by
            intro h
            exact hne (hsorted.inj (mem_range.1 hb) hp0 (h.trans hc0.symm))
          rw [r1 b (mem_range.1 hb), if_neg this, ite_self]
      · intro b hb hne
        rw [if_neg]
        intro h
        exact hne ((howner o ho b (mem_range.1 hb)).1 h).2
    · intro q hq hne
      unfold stored
      rw [(hSh q (mem_range.1 hq)).1, add_zero]
      apply sum_eq_zero
      intro a ha
      rw [if_neg]
      intro h
      exact hne ((howner q (mem_range.1 hq) a (mem_range.1 ha)).1 h).1
  · rw [sum_eq_single_of_mem o (mem_range.2 ho)]
    · unfold storedRhs
      rw [(hSh o ho).2, add_zero, sum_eq_single_of_mem ro (mem_range.2 hro)]
      · rw [if_pos ((howner o ho ro hro).2 ⟨rfl, rfl⟩), r2]
      · intro b hb hne
        rw [if_neg]
        intro h
        exact hne ((howner o ho b (mem_range.1 hb)).1 h).2
    · intro q hq hne
      unfold storedRhs
      rw [(hSh q (mem_range.1 hq)).2, add_zero]
      apply sum_eq_zero
      intro a ha
      rw [if_neg]
      intro h
      exact hne ((howner q (mem_range.1 hq) a (mem_range.1 ha)).1 h).1

end

/-! Non-vacuity: one edge between nodes 1 and 2, one dof, assembled on a process that owns node 1
and shares node 2. -/

/-- local structure: node 1 is row/column 0, node 2 is row/column 1 -/
def demo22L : Local :=
  { numDof := 1, maxOwned := 1, maxShared := 2, ownedRow := fun _ => ⟨2, fun p => p⟩,
    sharedRow := fun _ => ⟨2, fun p => p⟩, rowLID := fun n => n - 1, colLID := fun n => n - 1 }
/-- the process -/
def demo22 : Proc ℤ :=
  ⟨demo22L, fun a => a + 1, fun a => a + 1, [(⟨[2, 1], fun i k => if i = k then 1 else -1, fun i => i⟩,
    fun k => 1 - k)]⟩

theorem demo22_row (c : Contribution ℤ) (hc : c.nodes = [2, 1]) :
    RowAccepts demo22L c ⟨2, fun p => p⟩ := by
  refine ⟨fun i j h _ => h, ?_, fun h => absurd h (by decide)⟩
  intro k hk
  have hk : k < 2 := by
    have : numDofs demo22L c = 2 := by simp [numDofs, hc, demo22L]
    omega
  refine ⟨_, ?_, rfl⟩
  simp only [dofCol, hc, demo22L]
  interval_cases k <;> decide

example : ProcOK 1 (fun n => n) demo22 := by
  have hall : ∀ e ∈ demo22.elems, e.1.nodes = [2, 1] ∧ e.2 = fun k => 1 - k := by
    intro e he
    simp only [demo22, List.mem_singleton] at he
    subst he
    exact ⟨rfl, rfl⟩
  have hn : ∀ e ∈ demo22.elems, numDofs demo22.L e.1 = 2 := by
    intro e he
    simp [numDofs, (hall e he).1, demo22, demo22L]
  refine ⟨rfl, by decide, ?_, ?_, ?_, ?_, ?_⟩
  · intro e he
    exact ⟨fun _ _ _ => demo22_row _ (hall e he).1, fun _ _ _ _ => demo22_row _ (hall e he).1⟩
  · intro e he
    rw [hn e he, (hall e he).2]
    refine ⟨by decide, by decide, ?_⟩
    intro i j hij hj
    simp only [dofCol, (hall e he).1]
    have : i < 2 := by omega
    interval_cases i <;> interval_cases j <;> first | omega | decide
  all_goals
    intro e he i hi
    rw [hn e he] at hi
    simp only [dofRow, dofCol, dofGid, GID, (hall e he).1, demo22, demo22L]
    interval_cases i <;> decide

end Verif.LinSys
