import Verif.Proofs.LinSysAssembly2
import Mathlib.Algebra.BigOperators.Ring.Finset
import Mathlib.Tactic.FinCases

/-!
# C19-C22: assembly of the linear system

Spec vocabulary: dof `i` of an element contribution is component `i % numDof` of node
`i / numDof`; `dofRow`/`dofCol` are its local row and column.  `Accepts` says that the couplings are
in the graph of the rows concerned (and, for three dofs per node, that the graph consists of whole
node blocks and the element has no node twice, see C20).
-/

set_option linter.unusedSectionVars false
set_option linter.unusedSimpArgs false

namespace Verif.LinSys

open Finset

section
variable {R : Type*} [AddCommMonoid R]

/-! ## C19 -/

/-- `sumInto` adds `lhs(i,k)` exactly once to the entry (row of dof `i`, column of dof `k`), adds
`rhs(i)` exactly once to the right-hand side of the row of dof `i`, and changes nothing else, for
every node order and every result the (unstable) sort may return. -/
theorem c19_sumInto_exact (L : Local) (c : Contribution R) (hacc : Accepts L c) (perm : ℕ → ℕ)
    (hsort : SortOf (numDofs L c) (dofCol L c) perm) (s : Sys R) :
    (∀ a < L.maxOwned, ∀ p < (L.ownedRow a).length,
      (sumInto L c perm s).owned a p = s.owned a p +
        ∑ i ∈ range (numDofs L c), ∑ k ∈ range (numDofs L c),
          if dofRow L c i = a ∧ dofCol L c k = (L.ownedRow a).col p then c.lhs i k else 0) ∧
    (∀ a, a + L.maxOwned < L.maxShared → ∀ p < (L.sharedRow a).length,
      (sumInto L c perm s).shared a p = s.shared a p +
        ∑ i ∈ range (numDofs L c), ∑ k ∈ range (numDofs L c),
          if dofRow L c i = a + L.maxOwned ∧ dofCol L c k = (L.sharedRow a).col p
            then c.lhs i k else 0) ∧
    (∀ a < L.maxOwned, (sumInto L c perm s).ownedRhs a = s.ownedRhs a +
        ∑ i ∈ range (numDofs L c), if dofRow L c i = a then c.rhs i else 0) ∧
    (∀ a, a + L.maxOwned < L.maxShared → (sumInto L c perm s).sharedRhs a = s.sharedRhs a +
        ∑ i ∈ range (numDofs L c), if dofRow L c i = a + L.maxOwned then c.rhs i else 0) := by
  obtain ⟨h1, h2, h3, h4⟩ := sumInto_spec L c hacc perm hsort s
  refine ⟨fun a ha p hp => ?_, fun a ha p hp => ?_, fun a ha => ?_, fun a ha => ?_⟩
  · rw [h1, if_pos ⟨ha, hp⟩]; rfl
  · rw [h2, if_pos ⟨ha, hp⟩]; rfl
  · rw [h3, if_pos ha]; rfl
  · rw [h4, if_pos ha]; rfl

/-- Memory outside the rows (positions past a row's length, rows outside the local ranges) is never
touched. -/
theorem c19_nothing_else_changes (L : Local) (c : Contribution R) (hacc : Accepts L c)
    (perm : ℕ → ℕ) (hsort : SortOf (numDofs L c) (dofCol L c) perm) (s : Sys R) :
    (∀ a p, ¬ (a < L.maxOwned ∧ p < (L.ownedRow a).length) →
      (sumInto L c perm s).owned a p = s.owned a p) ∧
    (∀ a p, ¬ (a + L.maxOwned < L.maxShared ∧ p < (L.sharedRow a).length) →
      (sumInto L c perm s).shared a p = s.shared a p) ∧
    (∀ a, ¬ a < L.maxOwned → (sumInto L c perm s).ownedRhs a = s.ownedRhs a) ∧
    (∀ a, ¬ a + L.maxOwned < L.maxShared → (sumInto L c perm s).sharedRhs a = s.sharedRhs a) := by
  obtain ⟨h1, h2, h3, h4⟩ := sumInto_spec L c hacc perm hsort s
  refine ⟨fun a p h => ?_, fun a p h => ?_, fun a h => ?_, fun a h => ?_⟩
  · rw [h1, if_neg h]
  · rw [h2, if_neg h]
  · rw [h3, if_neg h]
  · rw [h4, if_neg h]

/-- When the nodes of the contribution have different rows and columns, each addressed entry gains
exactly its own coefficient. -/
theorem c19_single_entry (L : Local) (c : Contribution R) (hacc : Accepts L c) (perm : ℕ → ℕ)
    (hsort : SortOf (numDofs L c) (dofCol L c) perm) (s : Sys R)
    (hr : ∀ i < numDofs L c, ∀ j < numDofs L c, dofRow L c i = dofRow L c j → i = j)
    (hcl : ∀ i < numDofs L c, ∀ j < numDofs L c, dofCol L c i = dofCol L c j → i = j)
    {i k p : ℕ} (hi : i < numDofs L c) (hk : k < numDofs L c) (ho : dofRow L c i < L.maxOwned)
    (hp : p < (L.ownedRow (dofRow L c i)).length)
    (hcol : (L.ownedRow (dofRow L c i)).col p = dofCol L c k) :
    (sumInto L c perm s).owned (dofRow L c i) p = s.owned (dofRow L c i) p + c.lhs i k := by
  rw [(c19_sumInto_exact L c hacc perm hsort s).1 _ ho p hp, hcol]
  congr 1
  rw [sum_eq_single i, sum_eq_single k]
  · simp
  · intro b hb hne
    rw [if_neg]
    intro h
    exact hne (hcl b (mem_range.1 hb) k hk h.2)
  · intro h; exact absurd (mem_range.2 hk) h
  · intro b hb hne
    apply sum_eq_zero
    intro x _
    rw [if_neg]
    intro h
    exact hne (hr b (mem_range.1 hb) i hi h.1)
  · intro h; exact absurd (mem_range.2 hi) h

/-! ## C20 -/

/-- On block-structured rows and for elements whose nodes are pairwise different, the unrolled
three-dof row assembly gives the same row as the generic loop would. -/
theorem c20_three_dof_agrees_partial (row : RowView) (m : ℕ) (b : ℕ → ℕ) (hb : Block3 row m b)
    (N : ℕ) (c perm : ℕ → ℕ) (hinj : ∀ i < N, ∀ j < N, c i = c j → i = j)
    (hsort : SortOf (3 * N) (fun k => 3 * c (k / 3) + k % 3) perm) (input : ℕ → R)
    (hin : ∀ i < N, ∃ q < m, b q = c i) (v : ℕ → R) :
    sumIntoRow row N 3 (fun k => 3 * c (perm k / 3) + perm k % 3) perm input v =
      (sumIntoRowGeneric row (fun k => 3 * c (perm k / 3) + perm k % 3) perm input (3 * N) (0, v)).2 := by
  funext p
  unfold sumIntoRow
  rw [if_pos rfl, vec3_spec row m b hb N c perm hinj hsort input hin v p]
  rw [generic_spec row hb.sorted (3 * N) (fun k => 3 * c (k / 3) + k % 3) perm hsort input _ v p]
  intro k hk
  obtain ⟨q, hq, hbq⟩ := hin (k / 3) (by omega)
  refine ⟨3 * q + k % 3, ?_, ?_⟩
  · rw [hb.length]; omega
  · rw [hb.col q hq _ (by omega), hbq]

end

/-- An element with the same (periodic) node twice: the two blocks of columns coincide. -/
def dupRow : RowView := ⟨3, fun p => p⟩
/-- A permutation the sort may return for the keys 0,1,2,0,1,2. -/
def dupPerm : ℕ → ℕ := fun k => (k % 2) * 3 + k / 2

theorem dupSort : SortOf (3 * 2) (fun k => 3 * ((fun _ => 0) (k / 3) : ℕ) + k % 3) dupPerm := by
  refine ⟨by decide, by decide, ?_⟩
  have : ∀ j < 6, ∀ i < 6, i ≤ j → 3 * 0 + dupPerm i % 3 ≤ 3 * 0 + dupPerm j % 3 := by decide
  intro i j hij hj
  exact this j hj i (by omega) hij

/-- C20 is false without that restriction: if an element carries a node (or a periodic image of it)
twice, the sorted ids interleave, and the unrolled loop drops the second node's contribution that
the generic loop adds. -/
theorem c20_fails_for_repeated_nodes :
    (sumIntoRow dupRow 2 3 (fun k => dupPerm k % 3) dupPerm (fun _ => (1 : ℤ)) (fun _ => 0)) 0 = 1 ∧
    (sumIntoRowGeneric dupRow (fun k => dupPerm k % 3) dupPerm (fun _ => (1 : ℤ)) 6
      (0, fun _ => 0)).2 0 = 2 := by
  constructor
  · simp only [sumIntoRow, if_true, sumIntoRowVec3]
    have h0 : seek3 dupRow (dupPerm (3 * 0) % 3) 0 = some 0 := by unfold seek3; decide
    have h1 : seek3 dupRow (dupPerm (3 * 1) % 3) (0 + 3) = none := by
      unfold seek3; decide
    simp only [h0, h1]
    decide
  · have := generic_spec (R := ℤ) dupRow (by intro i j h1 h2; exact h1) 6 (fun k => k % 3) dupPerm
      ⟨dupSort.lt, dupSort.inj, fun i j h1 h2 => by simpa using dupSort.sorted i j h1 h2⟩
      (fun _ => 1) (fun k hk => ⟨k % 3, by simp only [dupRow]; omega, rfl⟩) (fun _ => 0) 0
    rw [this]
    decide

/-! ## C21 -/

section
variable {R : Type*} [Field R]

theorem applyDirichlet_owned (L : Local) (lid : ℕ) (ho : lid < L.maxOwned) (r : R)
    (ds : List (BcDof R)) (hcons : ∀ d ∈ ds, d.lid = lid → d.bc - d.u = r) (s t : Sys R)
    (h : applyDirichlet L ds s = some t) :
    ((∃ d ∈ ds, d.lid = lid) ∨
      ((∀ p < (L.ownedRow lid).length, s.owned lid p = if (L.ownedRow lid).col p = lid then 1 else 0) ∧
        s.ownedRhs lid = r)) →
    ((∀ p < (L.ownedRow lid).length, t.owned lid p = if (L.ownedRow lid).col p = lid then 1 else 0) ∧
      t.ownedRhs lid = r) := by
  induction ds generalizing s with
  | nil =>
    simp only [applyDirichlet, List.foldl_nil, Option.some.injEq] at h
    subst h
    intro h
    rcases h with ⟨d, hd, _⟩ | h
    · simp at hd
    · exact h
  | cons d ds ih =>
    intro hor
    have hne : ∀ l : List (BcDof R), l.foldl (fun s d => s.bind (dirichletRow L d.lid d.bc d.u)) none = none := by
      intro l; induction l with
      | nil => rfl
      | cons a l ih => exact ih
    simp only [applyDirichlet, List.foldl_cons, Option.bind_some] at h
    cases hs : dirichletRow L d.lid d.bc d.u s with
    | none => rw [hs, hne] at h; exact absurd h (by simp)
    | some s1 =>
      rw [hs] at h
      refine ih (fun d hd => hcons d (by simp [hd])) s1 h ?_
      unfold dirichletRow at hs
      split at hs
      · exact absurd hs (by simp)
      · by_cases hdl : d.lid = lid
        · right
          rw [hdl, if_pos ho] at hs
          simp only [Option.some.injEq] at hs
          subst hs
          simp only [Function.update_self]
          refine ⟨fun p hp => by rw [if_pos hp], hcons d (by simp) hdl⟩
        · rcases hor with ⟨d', hd', hl'⟩ | hor
          · left
            rcases List.mem_cons.1 hd' with rfl | hd'
            · exact absurd hl' hdl
            · exact ⟨d', hd', hl'⟩
          · right
            split at hs
            · simp only [Option.some.injEq] at hs
              subst hs
              have : lid ≠ d.lid := fun e => hdl e.symm
              simp only [Function.update_of_ne this]
              exact hor
            · simp only [Option.some.injEq] at hs
              subst hs
              exact hor

theorem applyDirichlet_shared (L : Local) (a : ℕ) (ds : List (BcDof R)) (s t : Sys R)
    (h : applyDirichlet L ds s = some t) :
    ((∃ d ∈ ds, d.lid = a + L.maxOwned) ∨
      ((∀ p < (L.sharedRow a).length, s.shared a p = 0) ∧ s.sharedRhs a = 0)) →
    ((∀ p < (L.sharedRow a).length, t.shared a p = 0) ∧ t.sharedRhs a = 0) := by
  induction ds generalizing s with
  | nil =>
    simp only [applyDirichlet, List.foldl_nil, Option.some.injEq] at h
    subst h
    intro h
    rcases h with ⟨d, hd, _⟩ | h
    · simp at hd
    · exact h
  | cons d ds ih =>
    intro hor
    have hne : ∀ l : List (BcDof R), l.foldl (fun s d => s.bind (dirichletRow L d.lid d.bc d.u)) none = none := by
      intro l; induction l with
      | nil => rfl
      | cons a l ih => exact ih
    simp only [applyDirichlet, List.foldl_cons, Option.bind_some] at h
    cases hs : dirichletRow L d.lid d.bc d.u s with
    | none => rw [hs, hne] at h; exact absurd h (by simp)
    | some s1 =>
      rw [hs] at h
      refine ih s1 h ?_
      unfold dirichletRow at hs
      split at hs
      · exact absurd hs (by simp)
      · by_cases hdl : d.lid = a + L.maxOwned
        · right
          rw [hdl, if_neg (by omega)] at hs
          simp only [Option.some.injEq, Nat.add_sub_cancel] at hs
          subst hs
          simp only [Function.update_self]
          exact ⟨fun p hp => by rw [if_pos hp], trivial⟩
        · rcases hor with ⟨d', hd', hl'⟩ | hor
          · left
            rcases List.mem_cons.1 hd' with rfl | hd'
            · exact absurd hl' hdl
            · exact ⟨d', hd', hl'⟩
          · right
            split at hs
            · simp only [Option.some.injEq] at hs
              subst hs
              exact hor
            · rename_i hno
              simp only [Option.some.injEq] at hs
              subst hs
              have : a ≠ d.lid - L.maxOwned := by omega
              simp only [Function.update_of_ne this]
              exact hor

/-- After `applyDirichletBCs`, every owned Dirichlet row is the identity row with right-hand side
`bc - solution` (periodic images of a node must carry consistent data: the last one wins). -/
theorem c21_owned_rows (L : Local) (ds : List (BcDof R)) (s t : Sys R)
    (h : applyDirichlet L ds s = some t) (d : BcDof R) (hd : d ∈ ds) (ho : d.lid < L.maxOwned)
    (hcons : ∀ d' ∈ ds, d'.lid = d.lid → d'.bc - d'.u = d.bc - d.u) :
    (∀ p < (L.ownedRow d.lid).length,
      t.owned d.lid p = if (L.ownedRow d.lid).col p = d.lid then 1 else 0) ∧
    t.ownedRhs d.lid = d.bc - d.u :=
  applyDirichlet_owned L d.lid ho _ ds hcons s t h (Or.inl ⟨d, hd, rfl⟩)

/-- A process that only shares the row contributes nothing to it. -/
theorem c21_shared_rows (L : Local) (ds : List (BcDof R)) (s t : Sys R)
    (h : applyDirichlet L ds s = some t) (a : ℕ) (hd : ∃ d ∈ ds, d.lid = a + L.maxOwned) :
    (∀ p < (L.sharedRow a).length, t.shared a p = 0) ∧ t.sharedRhs a = 0 :=
  applyDirichlet_shared L a ds s t h (Or.inl hd)

/-- All other rows, and the memory behind the rows, are unchanged. -/
theorem c21_other_rows_unchanged (L : Local) (ds : List (BcDof R)) (s t : Sys R)
    (h : applyDirichlet L ds s = some t) :
    (∀ a, (∀ d ∈ ds, d.lid ≠ a) → a < L.maxOwned →
      t.owned a = s.owned a ∧ t.ownedRhs a = s.ownedRhs a) ∧
    (∀ a, (∀ d ∈ ds, d.lid ≠ a + L.maxOwned) →
      t.shared a = s.shared a ∧ t.sharedRhs a = s.sharedRhs a) := by
  induction ds generalizing s with
  | nil =>
    simp only [applyDirichlet, List.foldl_nil, Option.some.injEq] at h
    subst h
    exact ⟨fun _ _ _ => ⟨rfl, rfl⟩, fun _ _ => ⟨rfl, rfl⟩⟩
  | cons d ds ih =>
    have hne : ∀ l : List (BcDof R), l.foldl (fun s d => s.bind (dirichletRow L d.lid d.bc d.u)) none = none := by
      intro l; induction l with
      | nil => rfl
      | cons a l ih => exact ih
    simp only [applyDirichlet, List.foldl_cons, Option.bind_some] at h
    cases hs : dirichletRow L d.lid d.bc d.u s with
    | none => rw [hs, hne] at h; exact absurd h (by simp)
    | some s1 =>
      rw [hs] at h
      obtain ⟨i1, i2⟩ := ih s1 h
      have key : (∀ a, d.lid ≠ a → a < L.maxOwned → s1.owned a = s.owned a ∧ s1.ownedRhs a = s.ownedRhs a) ∧
          (∀ a, d.lid ≠ a + L.maxOwned → s1.shared a = s.shared a ∧ s1.sharedRhs a = s.sharedRhs a) := by
        unfold dirichletRow at hs
        split at hs
        · exact absurd hs (by simp)
        · split at hs
          · simp only [Option.some.injEq] at hs
            subst hs
            refine ⟨fun a hne _ => ?_, fun _ _ => ⟨rfl, rfl⟩⟩
            simp only [Function.update_of_ne (Ne.symm hne), and_self]
          · rename_i hno
            simp only [Option.some.injEq] at hs
            subst hs
            refine ⟨fun _ _ _ => ⟨rfl, rfl⟩, fun a hne => ?_⟩
            have : a ≠ d.lid - L.maxOwned := by omega
            simp only [Function.update_of_ne this, and_self]
      constructor
      · intro a ha hlt
        obtain ⟨e1, e2⟩ := i1 a (fun d' hd' => ha d' (by simp [hd'])) hlt
        obtain ⟨f1, f2⟩ := key.1 a (ha d (by simp)) hlt
        exact ⟨e1.trans f1, e2.trans f2⟩
      · intro a ha
        obtain ⟨e1, e2⟩ := i2 a (fun d' hd' => ha d' (by simp [hd']))
        obtain ⟨f1, f2⟩ := key.2 a (ha d (by simp))
        exact ⟨e1.trans f1, e2.trans f2⟩

/-- Hence an exact solution `x` of a row that is the identity row puts the solution at the
boundary value: `u + x = bc`. -/
theorem c21_solution_takes_bc_value (L : Local) (ds : List (BcDof R)) (s t : Sys R)
    (h : applyDirichlet L ds s = some t) (d : BcDof R) (hd : d ∈ ds) (ho : d.lid < L.maxOwned)
    (hcons : ∀ d' ∈ ds, d'.lid = d.lid → d'.bc - d'.u = d.bc - d.u)
    (hs : RowSorted (L.ownedRow d.lid)) (q : ℕ) (hq : q < (L.ownedRow d.lid).length)
    (hdiag : (L.ownedRow d.lid).col q = d.lid) (x : ℕ → R)
    (hsolve : ∑ p ∈ range (L.ownedRow d.lid).length,
      t.owned d.lid p * x ((L.ownedRow d.lid).col p) = t.ownedRhs d.lid) :
    d.u + x d.lid = d.bc := by
  obtain ⟨h1, h2⟩ := c21_owned_rows L ds s t h d hd ho hcons
  rw [h2, sum_eq_single q, h1 q hq, if_pos hdiag, one_mul, hdiag] at hsolve
  · rw [hsolve]; ring
  · intro b hb hne
    rw [h1 b (mem_range.1 hb), if_neg, zero_mul]
    intro hc
    exact hne (hs.inj (mem_range.1 hb) hq (hc.trans hdiag.symm))
  · intro hc; exact absurd (mem_range.2 hq) hc

/-- `resetRows`/`prepareConstraints`: the row and its right-hand side are zero afterwards and
nothing else changed. -/
theorem c21_reset_rows (L : Local) (lid : ℕ) (s t : Sys R) (h : resetRow L lid s = some t) :
    (lid < L.maxOwned → (∀ p < (L.ownedRow lid).length, t.owned lid p = 0) ∧ t.ownedRhs lid = 0) ∧
    (L.maxOwned ≤ lid → (∀ p < (L.sharedRow (lid - L.maxOwned)).length,
      t.shared (lid - L.maxOwned) p = 0) ∧ t.sharedRhs (lid - L.maxOwned) = 0) ∧
    (∀ a ≠ lid, a < L.maxOwned → t.owned a = s.owned a ∧ t.ownedRhs a = s.ownedRhs a) ∧
    (∀ a, a + L.maxOwned ≠ lid → t.shared a = s.shared a ∧ t.sharedRhs a = s.sharedRhs a) := by
  unfold resetRow at h
  split at h
  · exact absurd h (by simp)
  · split at h
    · rename_i hlt
      simp only [Option.some.injEq] at h
      subst h
      refine ⟨fun _ => ?_, fun hc => by omega, fun a hne _ => ?_, fun _ _ => ⟨rfl, rfl⟩⟩
      · simp only [Function.update_self]
        exact ⟨fun p hp => by rw [if_pos hp], trivial⟩
      · simp only [Function.update_of_ne hne, and_self]
    · rename_i hlt
      simp only [Option.some.injEq] at h
      subst h
      refine ⟨fun hc => absurd hc hlt, fun _ => ?_, fun _ _ _ => ⟨rfl, rfl⟩, fun a hne => ?_⟩
      · simp only [Function.update_self]
        exact ⟨fun p hp => by rw [if_pos hp], trivial⟩
      · have : a ≠ lid - L.maxOwned := by omega
        simp only [Function.update_of_ne this, and_self]

end

/-! Non-vacuity: a three-dof element with nodes in reverse order, one node owned, one shared. -/

/-- Two nodes `0`, `1`; node 0 owned, node 1 shared; dense block rows. -/
def demoLocal : Local :=
  { numDof := 3, maxOwned := 3, maxShared := 6, ownedRow := fun _ => ⟨6, fun p => p⟩,
    sharedRow := fun _ => ⟨6, fun p => p⟩, rowLID := fun n => 3 * n, colLID := fun n => 3 * n }
/-- The element `[1, 0]`. -/
def demoElem : Contribution ℤ := ⟨[1, 0], fun i k => 10 * i + k, fun i => i⟩
/-- The sort swaps the two blocks. -/
def demoPerm : ℕ → ℕ := fun k => if k < 3 then k + 3 else k - 3

theorem demo_rowAccepts : RowAccepts demoLocal demoElem ⟨6, fun p => p⟩ := by
  refine ⟨fun i j h _ => h, ?_, fun _ => ⟨⟨2, fun q => q, ⟨rfl, ?_, fun q r h _ => h⟩⟩, ?_, ?_⟩⟩
  · intro k hk
    have hk : k < 6 := hk
    refine ⟨_, ?_, rfl⟩
    have : ∀ k < 6, dofCol demoLocal demoElem k < 6 := by decide
    exact this k hk
  · intro q hq d hd; rfl
  · decide
  · decide

example : Accepts demoLocal demoElem := ⟨fun _ _ _ => demo_rowAccepts, fun _ _ _ _ => demo_rowAccepts⟩

example : SortOf (numDofs demoLocal demoElem) (dofCol demoLocal demoElem) demoPerm := by
  refine ⟨by decide, by decide, ?_⟩
  intro i j hij hj
  have : ∀ j < 6, ∀ i < 6, i ≤ j →
    dofCol demoLocal demoElem (demoPerm i) ≤ dofCol demoLocal demoElem (demoPerm j) := by decide
  have hj : j < 6 := hj
  exact this j hj i (by omega) hij

example : Block3 ⟨6, fun p => p⟩ 2 (fun q => q) :=
  ⟨rfl, fun _ _ _ _ => rfl, fun _ _ h _ => h⟩

/-- One owned Dirichlet dof on the demo structure succeeds. -/
example : ∃ t, applyDirichlet demoLocal [⟨1, (5 : ℚ), 2⟩] ⟨fun _ _ => 1, fun _ _ => 1, fun _ => 1, fun _ => 1⟩
    = some t ∧ t.ownedRhs 1 = 3 ∧ t.owned 1 1 = 1 ∧ t.owned 1 0 = 0 ∧ t.owned 2 0 = 1 := by
  refine ⟨_, rfl, ?_⟩
  decide +kernel

end Verif.LinSys
