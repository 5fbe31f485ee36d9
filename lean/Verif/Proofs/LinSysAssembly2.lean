import Verif.Proofs.LinSysAssembly

set_option linter.unusedSectionVars false
set_option linter.unusedSimpArgs false

namespace Verif.LinSys

open Finset

section
variable {R : Type*} [AddCommMonoid R]

/-- Local row of the `i`-th dof of the contribution (`i = node * numDof + component`). -/
def dofRow (L : Local) (c : Contribution R) (i : ℕ) : ℕ :=
  L.rowLID (c.nodes.getD (i / L.numDof) 0) + i % L.numDof

/-- Local column of the `i`-th dof of the contribution. -/
def dofCol (L : Local) (c : Contribution R) (i : ℕ) : ℕ :=
  L.colLID (c.nodes.getD (i / L.numDof) 0) + i % L.numDof

/-- Number of dofs of the contribution. -/
def numDofs (L : Local) (c : Contribution R) : ℕ := c.nodes.length * L.numDof

/-- The couplings of the contribution are in the graph of this row: columns are strictly increasing
and every column of the contribution occurs.  For three dofs per node the row must consist of whole
blocks starting at multiples of three, and the columns of the contribution's nodes must be distinct
multiples of three. -/
structure RowAccepts (L : Local) (c : Contribution R) (row : RowView) : Prop where
  sorted : RowSorted row
  present : ∀ k < numDofs L c, ∃ p < row.length, row.col p = dofCol L c k
  three : L.numDof = 3 → (∃ m b, Block3 row m b) ∧
    (∀ i < c.nodes.length, 3 ∣ L.colLID (c.nodes.getD i 0)) ∧
    (∀ i < c.nodes.length, ∀ j < c.nodes.length,
      L.colLID (c.nodes.getD i 0) = L.colLID (c.nodes.getD j 0) → i = j)

theorem sumIntoRow_spec (L : Local) (c : Contribution R) (row : RowView) (hacc : RowAccepts L c row)
    (perm : ℕ → ℕ) (hsort : SortOf (numDofs L c) (dofCol L c) perm) (input v : ℕ → R) (p : ℕ) :
    sumIntoRow row c.nodes.length L.numDof (fun k => dofCol L c (perm k)) perm input v p =
      if p < row.length then
        v p + ∑ k ∈ range (numDofs L c), (if dofCol L c k = row.col p then input k else 0)
      else v p := by
  unfold sumIntoRow
  by_cases h3 : L.numDof = 3
  · rw [if_pos h3]
    obtain ⟨⟨m, b, hb⟩, hdvd, hinj⟩ := hacc.three h3
    have hN : numDofs L c = 3 * c.nodes.length := by unfold numDofs; rw [h3, Nat.mul_comm]
    set cc : ℕ → ℕ := fun i => L.colLID (c.nodes.getD i 0) / 3 with hcc
    have hkey : ∀ k < 3 * c.nodes.length, dofCol L c k = 3 * cc (k / 3) + k % 3 := by
      intro k hk
      unfold dofCol
      rw [h3, hcc]
      obtain ⟨q, hq⟩ := hdvd (k / 3) (by omega)
      simp only [hq]
      omega
    have hsort' : SortOf (3 * c.nodes.length) (fun k => 3 * cc (k / 3) + k % 3) perm := by
      rw [hN] at hsort
      refine ⟨hsort.lt, hsort.inj, fun i j hij hj => ?_⟩
      have := hsort.sorted i j hij hj
      rw [hkey _ (hsort.lt i (by omega)), hkey _ (hsort.lt j hj)] at this
      exact this
    have hinj' : ∀ i < c.nodes.length, ∀ j < c.nodes.length, cc i = cc j → i = j := by
      intro i hi j hj he
      apply hinj i hi j hj
      obtain ⟨q, hq⟩ := hdvd i hi
      obtain ⟨r, hr⟩ := hdvd j hj
      simp only [hcc, hq, hr] at he
      rw [hq, hr]
      omega
    have hin : ∀ i < c.nodes.length, ∃ q < m, b q = cc i := by
      intro i hi
      obtain ⟨p, hp, hpc⟩ := hacc.present (3 * i) (by rw [hN]; omega)
      rw [hkey _ (by omega)] at hpc
      have hlen := hb.length
      have h1 := hb.col (p / 3) (by omega) (p % 3) (by omega)
      have e1 : 3 * (p / 3) + p % 3 = p := by omega
      have e2 : 3 * i / 3 = i := by omega
      have e3 : 3 * i % 3 = 0 := by omega
      rw [e1, hpc, e2, e3] at h1
      exact ⟨p / 3, by omega, by omega⟩
    have hspec := vec3_spec row m b hb c.nodes.length cc perm hinj' hsort' input hin v p
    -- the id arrays agree on the entries that are read
    have hcongr : ∀ n ≤ c.nodes.length, ∀ s, sumIntoRowVec3 row (fun k => dofCol L c (perm k)) perm input n s =
        sumIntoRowVec3 row (fun k => 3 * cc (perm k / 3) + perm k % 3) perm input n s := by
      intro n
      induction n with
      | zero => intro _ s; rfl
      | succ n ih =>
        intro hn s
        simp only [sumIntoRowVec3]
        rw [ih (by omega), hkey _ (hsort'.lt (3 * n) (by omega))]
    rw [hcongr _ le_rfl, hspec, hN]
    congr 2
    apply sum_congr rfl
    intro k hk
    rw [hkey k (mem_range.1 hk)]
  · rw [if_neg h3]
    exact generic_spec row hacc.sorted (numDofs L c) (dofCol L c) perm hsort input hacc.present v p

/-- Every row that receives something has the couplings in its graph. -/
structure Accepts (L : Local) (c : Contribution R) : Prop where
  owned : ∀ i < numDofs L c, dofRow L c i < L.maxOwned → RowAccepts L c (L.ownedRow (dofRow L c i))
  shared : ∀ i < numDofs L c, L.maxOwned ≤ dofRow L c i → dofRow L c i < L.maxShared →
    RowAccepts L c (L.sharedRow (dofRow L c i - L.maxOwned))

/-- What one contribution adds to row `a` (a local row number), column `col`. -/
def added (L : Local) (c : Contribution R) (a col : ℕ) : R :=
  ∑ i ∈ range (numDofs L c), ∑ k ∈ range (numDofs L c),
    if dofRow L c i = a ∧ dofCol L c k = col then c.lhs i k else 0

/-- What one contribution adds to the right-hand side of row `a`. -/
def addedRhs (L : Local) (c : Contribution R) (a : ℕ) : R :=
  ∑ i ∈ range (numDofs L c), if dofRow L c i = a then c.rhs i else 0

theorem sumInto_fold (L : Local) (c : Contribution R) (hacc : Accepts L c) (perm : ℕ → ℕ)
    (hsort : SortOf (numDofs L c) (dofCol L c) perm) (s : Sys R) (n : ℕ) (hn : n ≤ numDofs L c) :
    let t := (List.range n).foldl (sumIntoStep L c perm) s
    (∀ a p, t.owned a p = if a < L.maxOwned ∧ p < (L.ownedRow a).length then s.owned a p +
        ∑ r ∈ range n, ∑ k ∈ range (numDofs L c),
          (if dofRow L c (perm r) = a ∧ dofCol L c k = (L.ownedRow a).col p then c.lhs (perm r) k else 0)
        else s.owned a p) ∧
    (∀ a p, t.shared a p = if a + L.maxOwned < L.maxShared ∧ p < (L.sharedRow a).length then
        s.shared a p + ∑ r ∈ range n, ∑ k ∈ range (numDofs L c),
          (if dofRow L c (perm r) = a + L.maxOwned ∧ dofCol L c k = (L.sharedRow a).col p
            then c.lhs (perm r) k else 0)
        else s.shared a p) ∧
    (∀ a, t.ownedRhs a = if a < L.maxOwned then s.ownedRhs a +
        ∑ r ∈ range n, (if dofRow L c (perm r) = a then c.rhs (perm r) else 0) else s.ownedRhs a) ∧
    (∀ a, t.sharedRhs a = if a + L.maxOwned < L.maxShared then s.sharedRhs a +
        ∑ r ∈ range n, (if dofRow L c (perm r) = a + L.maxOwned then c.rhs (perm r) else 0)
        else s.sharedRhs a) := by
  induction n with
  | zero =>
    intro t
    refine ⟨?_, ?_, ?_, ?_⟩ <;> intros <;> simp [t]
  | succ n ih =>
    intro t
    obtain ⟨i1, i2, i3, i4⟩ := ih (by omega)
    have ht : t = sumIntoStep L c perm ((List.range n).foldl (sumIntoStep L c perm) s) n := by
      simp only [t, List.range_succ, List.foldl_append, List.foldl_cons, List.foldl_nil]
    clear_value t
    set u := (List.range n).foldl (sumIntoStep L c perm) s with hu
    have hlt := hsort.lt n (by omega)
    -- the row of this step
    have hrow : L.rowLID (c.nodes.getD (perm n / L.numDof) 0) + perm n % L.numDof =
        dofRow L c (perm n) := rfl
    have hids : (fun k => unsortedIds L c (perm k)) = fun k => dofCol L c (perm k) := rfl
    unfold sumIntoStep at ht
    simp only [hrow, hids] at ht
    by_cases hO : dofRow L c (perm n) < L.maxOwned
    · rw [if_pos hO] at ht
      rw [ht]
      refine ⟨?_, ?_, ?_, ?_⟩
      · intro a p
        simp only
        by_cases ha : a = dofRow L c (perm n)
        · subst ha
          rw [Function.update_self, sumIntoRow_spec L c _ (hacc.owned _ hlt hO) perm hsort, i1]
          by_cases hp : p < (L.ownedRow (dofRow L c (perm n))).length
          · rw [if_pos hp, if_pos ⟨hO, hp⟩, if_pos ⟨hO, hp⟩, sum_range_succ, add_assoc]
            simp
          · rw [if_neg hp, if_neg (fun h => hp h.2), if_neg (fun h => hp h.2)]
        · rw [Function.update_of_ne ha, i1]
          by_cases hp : a < L.maxOwned ∧ p < (L.ownedRow a).length
          · rw [if_pos hp, if_pos hp, sum_range_succ]
            have : ∀ k, (if dofRow L c (perm n) = a ∧ dofCol L c k = (L.ownedRow a).col p
                then c.lhs (perm n) k else 0) = 0 := by
              intro k; rw [if_neg]; intro h; exact ha h.1.symm
            simp [this]
          · rw [if_neg hp, if_neg hp]
      · intro a p
        simp only
        rw [i2, sum_range_succ]
        have : ∀ k, (if dofRow L c (perm n) = a + L.maxOwned ∧ dofCol L c k = (L.sharedRow a).col p
            then c.lhs (perm n) k else 0) = 0 := by
          intro k; rw [if_neg]; omega
        simp [this]
      · intro a
        simp only
        by_cases ha : a = dofRow L c (perm n)
        · subst ha
          rw [Function.update_self, i3, if_pos hO, if_pos hO, sum_range_succ, add_assoc]
          simp
        · rw [Function.update_of_ne ha, i3, sum_range_succ,
            if_neg (fun h : dofRow L c (perm n) = a => ha h.symm)]
          simp
      · intro a
        simp only
        rw [i4, sum_range_succ, if_neg (by omega : ¬ dofRow L c (perm n) = a + L.maxOwned)]
        simp
    · rw [if_neg hO] at ht
      by_cases hS : dofRow L c (perm n) < L.maxShared
      · rw [if_pos hS] at ht
        rw [ht]
        have hacc' := hacc.shared _ hlt (by omega) hS
        have hback : dofRow L c (perm n) - L.maxOwned + L.maxOwned = dofRow L c (perm n) := by omega
        refine ⟨?_, ?_, ?_, ?_⟩
        · intro a p
          simp only
          rw [i1]
          by_cases hp : a < L.maxOwned ∧ p < (L.ownedRow a).length
          · rw [if_pos hp, if_pos hp, sum_range_succ]
            have : ∀ k, (if dofRow L c (perm n) = a ∧ dofCol L c k = (L.ownedRow a).col p
                then c.lhs (perm n) k else 0) = 0 := by
              intro k; rw [if_neg]; omega
            simp [this]
          · rw [if_neg hp, if_neg hp]
        · intro a p
          simp only
          by_cases ha : a = dofRow L c (perm n) - L.maxOwned
          · subst ha
            rw [Function.update_self, sumIntoRow_spec L c _ hacc' perm hsort, i2, hback]
            by_cases hp : p < (L.sharedRow (dofRow L c (perm n) - L.maxOwned)).length
            · rw [if_pos hp, if_pos ⟨hS, hp⟩, if_pos ⟨hS, hp⟩, sum_range_succ, add_assoc]
              simp
            · rw [if_neg hp, if_neg (fun h => hp h.2), if_neg (fun h => hp h.2)]
          · rw [Function.update_of_ne ha, i2]
            by_cases hp : a + L.maxOwned < L.maxShared ∧ p < (L.sharedRow a).length
            · rw [if_pos hp, if_pos hp, sum_range_succ]
              have : ∀ k, (if dofRow L c (perm n) = a + L.maxOwned ∧ dofCol L c k = (L.sharedRow a).col p
                  then c.lhs (perm n) k else 0) = 0 := by
                intro k; rw [if_neg]; omega
              simp [this]
            · rw [if_neg hp, if_neg hp]
        · intro a
          simp only
          rw [i3]
          by_cases ha : a < L.maxOwned
          · rw [if_pos ha, if_pos ha, sum_range_succ, if_neg (by omega : ¬ dofRow L c (perm n) = a)]
            simp
          · rw [if_neg ha, if_neg ha]
        · intro a
          simp only
          by_cases ha : a = dofRow L c (perm n) - L.maxOwned
          · subst ha
            rw [Function.update_self, i4, hback, if_pos hS, if_pos hS, sum_range_succ, add_assoc]
            simp
          · rw [Function.update_of_ne ha, i4, sum_range_succ,
              if_neg (by omega : ¬ dofRow L c (perm n) = a + L.maxOwned)]
            simp
      · rw [if_neg hS] at ht
        rw [ht]
        refine ⟨?_, ?_, ?_, ?_⟩
        · intro a p
          rw [i1]
          by_cases hp : a < L.maxOwned ∧ p < (L.ownedRow a).length
          · rw [if_pos hp, if_pos hp, sum_range_succ]
            have : ∀ k, (if dofRow L c (perm n) = a ∧ dofCol L c k = (L.ownedRow a).col p
                then c.lhs (perm n) k else 0) = 0 := by
              intro k; rw [if_neg]; omega
            simp [this]
          · rw [if_neg hp, if_neg hp]
        · intro a p
          rw [i2]
          by_cases hp : a + L.maxOwned < L.maxShared ∧ p < (L.sharedRow a).length
          · rw [if_pos hp, if_pos hp, sum_range_succ]
            have : ∀ k, (if dofRow L c (perm n) = a + L.maxOwned ∧ dofCol L c k = (L.sharedRow a).col p
                then c.lhs (perm n) k else 0) = 0 := by
              intro k; rw [if_neg]; omega
            simp [this]
          · rw [if_neg hp, if_neg hp]
        · intro a
          rw [i3]
          by_cases ha : a < L.maxOwned
          · rw [if_pos ha, if_pos ha, sum_range_succ, if_neg (by omega : ¬ dofRow L c (perm n) = a)]
            simp
          · rw [if_neg ha, if_neg ha]
        · intro a
          rw [i4]
          by_cases ha : a + L.maxOwned < L.maxShared
          · rw [if_pos ha, if_pos ha, sum_range_succ,
              if_neg (by omega : ¬ dofRow L c (perm n) = a + L.maxOwned)]
            simp
          · rw [if_neg ha, if_neg ha]

theorem sumInto_spec (L : Local) (c : Contribution R) (hacc : Accepts L c) (perm : ℕ → ℕ)
    (hsort : SortOf (numDofs L c) (dofCol L c) perm) (s : Sys R) :
    let t := sumInto L c perm s
    (∀ a p, t.owned a p = if a < L.maxOwned ∧ p < (L.ownedRow a).length then
        s.owned a p + added L c a ((L.ownedRow a).col p) else s.owned a p) ∧
    (∀ a p, t.shared a p = if a + L.maxOwned < L.maxShared ∧ p < (L.sharedRow a).length then
        s.shared a p + added L c (a + L.maxOwned) ((L.sharedRow a).col p) else s.shared a p) ∧
    (∀ a, t.ownedRhs a = if a < L.maxOwned then s.ownedRhs a + addedRhs L c a else s.ownedRhs a) ∧
    (∀ a, t.sharedRhs a = if a + L.maxOwned < L.maxShared then
        s.sharedRhs a + addedRhs L c (a + L.maxOwned) else s.sharedRhs a) := by
  intro t
  obtain ⟨h1, h2, h3, h4⟩ := sumInto_fold L c hacc perm hsort s (numDofs L c) le_rfl
  refine ⟨fun a p => ?_, fun a p => ?_, fun a => ?_, fun a => ?_⟩
  · refine (h1 a p).trans ?_
    rw [hsort.sum_perm (fun i => ∑ k ∈ range (numDofs L c),
      (if dofRow L c i = a ∧ dofCol L c k = (L.ownedRow a).col p then c.lhs i k else 0))]
    rfl
  · refine (h2 a p).trans ?_
    rw [hsort.sum_perm (fun i => ∑ k ∈ range (numDofs L c),
      (if dofRow L c i = a + L.maxOwned ∧ dofCol L c k = (L.sharedRow a).col p then c.lhs i k else 0))]
    rfl
  · refine (h3 a).trans ?_
    rw [hsort.sum_perm (fun i => if dofRow L c i = a then c.rhs i else 0)]
    rfl
  · refine (h4 a).trans ?_
    rw [hsort.sum_perm (fun i => if dofRow L c i = a + L.maxOwned then c.rhs i else 0)]
    rfl

end

end Verif.LinSys
