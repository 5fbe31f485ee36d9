import Verif.Proofs.LinSysNumbering2

/-!
# C18: degrees of freedom get unique, contiguous row numbers

`MeshOK`: stk identifiers are distinct, only periodic nodes carry a foreign nalu id, and the
locally present monarch of a node is a root (this is what C36 proves of the periodic manager).
A node "has a row of its own" when its status is owned or shared and not skipped.
-/

set_option linter.unusedSectionVars false

namespace Verif.LinSys

/-- Nodes for which the linear system counts a row block. -/
def HasDof (cfg : Config) (mesh : List Node) (n : Node) : Prop :=
  isOwnedDof cfg mesh n = true ∨ isSharedDof cfg mesh n = true

theorem hasDof_mem {cfg : Config} {mesh : List Node} {n : Node} (hn : n ∈ mesh)
    (h : HasDof cfg mesh n) : n.naluId ∈ ownedIdsOf cfg mesh ++ sharedIdsOf cfg mesh := by
  rw [List.mem_append]
  rcases h with h | h
  · exact Or.inl (mem_ownedIdsOf.2 ⟨n, hn, h, rfl⟩)
  · exact Or.inr (mem_sharedIdsOf.2 ⟨n, hn, h, rfl⟩)

variable {cfg : Config} {numDof : ℕ} {mesh : List Node} {N : Numbering}

/-- Two rows coincide only for the same dof of nodes with the same (periodic) identity. -/
theorem c18_rows_disjoint (ok : MeshOK cfg mesh) (h : beginConstruction cfg numDof mesh = some N)
    {n m : Node} (hn : n ∈ mesh) (hm : m ∈ mesh) (dn : HasDof cfg mesh n) (dm : HasDof cfg mesh m)
    {d e : ℕ} (hd : d < numDof) (he : e < numDof) :
    N.entityToLID n.stkId + d = N.entityToLID m.stkId + e ↔ n.naluId = m.naluId ∧ d = e := by
  obtain ⟨-, -, -, -, -, hE⟩ := begin_spec ok h
  have mn := hasDof_mem hn dn
  have mm := hasDof_mem hm dm
  rw [hE n hn, hE m hm, if_pos mn, if_pos mm]
  constructor
  · intro heq
    have h1 := congrArg (· / numDof) heq
    have h2 := congrArg (· % numDof) heq
    have hp : 0 < numDof := by omega
    simp only [Nat.mul_add_div hp, Nat.div_eq_of_lt hd, Nat.div_eq_of_lt he, Nat.add_zero] at h1
    simp only [Nat.mul_add_mod, Nat.mod_eq_of_lt hd, Nat.mod_eq_of_lt he] at h2
    exact ⟨(List.idxOf_inj mn).1 h1, h2⟩
  · rintro ⟨h1, rfl⟩
    rw [h1]

/-- Owned blocks lie in `[0, maxOwnedRowId)`, shared blocks in `[maxOwnedRowId, maxShared)`. -/
theorem c18_owned_first (ok : MeshOK cfg mesh) (h : beginConstruction cfg numDof mesh = some N)
    {n : Node} (hn : n ∈ mesh) :
    (isOwnedDof cfg mesh n = true → N.entityToLID n.stkId + numDof ≤ N.maxOwnedRowId) ∧
    (isSharedDof cfg mesh n = true →
      N.maxOwnedRowId ≤ N.entityToLID n.stkId ∧
      N.entityToLID n.stkId + numDof ≤ N.maxSharedNotOwnedRowId) := by
  obtain ⟨h1, h2, -, -, -, hE⟩ := begin_spec ok h
  have hnd := List.nodup_append.1 (rows_nodup ok)
  constructor
  · intro ho
    have hmem := mem_ownedIdsOf.2 ⟨n, hn, ho, rfl⟩
    rw [hE n hn, if_pos (hasDof_mem hn (Or.inl ho)), List.idxOf_append_of_mem hmem, h1]
    have := List.idxOf_lt_length_of_mem hmem
    calc _ = numDof * ((ownedIdsOf cfg mesh).idxOf n.naluId + 1) := by ring
      _ ≤ _ := Nat.mul_le_mul_left _ this
  · intro hs
    have hmem := mem_sharedIdsOf.2 ⟨n, hn, hs, rfl⟩
    have hno : n.naluId ∉ ownedIdsOf cfg mesh := fun hc => hnd.2.2 _ hc _ hmem rfl
    have hrow := hasDof_mem hn (Or.inr hs)
    rw [hE n hn, if_pos hrow, h1]
    constructor
    · apply Nat.mul_le_mul_left
      rw [List.idxOf_append_of_notMem hno]
      omega
    · refine le_trans ?_ h2
      have := List.idxOf_lt_length_of_mem hrow
      calc _ = numDof * ((ownedIdsOf cfg mesh ++ sharedIdsOf cfg mesh).idxOf n.naluId + 1) := by ring
        _ ≤ _ := Nat.mul_le_mul_left _ this

/-- The row numbers in use are exactly `0 .. #rows-1`, where the number of rows is the size of the
row maps handed to the solver; `maxOwnedRowId` is the size of the owned map. -/
theorem c18_contiguous (ok : MeshOK cfg mesh) (h : beginConstruction cfg numDof mesh = some N)
    (r : ℕ) :
    N.ownedGids.length = N.maxOwnedRowId ∧
    (r < N.ownedGids.length + N.sharedGids.length ↔
      ∃ n ∈ mesh, HasDof cfg mesh n ∧ ∃ d < numDof, N.entityToLID n.stkId + d = r) := by
  obtain ⟨h1, h2, hg1, hg2, -, hE⟩ := begin_spec ok h
  rw [hg1, hg2, gidsOf_length, gidsOf_length, h1]
  refine ⟨rfl, ?_⟩
  have hlen : numDof * (ownedIdsOf cfg mesh).length + numDof * (sharedIdsOf cfg mesh).length =
      numDof * (ownedIdsOf cfg mesh ++ sharedIdsOf cfg mesh).length := by
    rw [List.length_append]; ring
  rw [hlen]
  constructor
  · intro hr
    have hp : 0 < numDof := by
      rcases Nat.eq_zero_or_pos numDof with h0 | h0
      · rw [h0] at hr; simp at hr
      · exact h0
    have hq : r / numDof < (ownedIdsOf cfg mesh ++ sharedIdsOf cfg mesh).length :=
      Nat.div_lt_of_lt_mul hr
    have hmem := List.getElem_mem hq
    have hex : ∃ n ∈ mesh, HasDof cfg mesh n ∧
        n.naluId = (ownedIdsOf cfg mesh ++ sharedIdsOf cfg mesh)[r / numDof] := by
      rcases List.mem_append.1 hmem with hm | hm
      · obtain ⟨n, hn, ho, he⟩ := mem_ownedIdsOf.1 hm
        exact ⟨n, hn, Or.inl ho, he⟩
      · obtain ⟨n, hn, ho, he⟩ := mem_sharedIdsOf.1 hm
        exact ⟨n, hn, Or.inr ho, he⟩
    obtain ⟨n, hn, hd, he⟩ := hex
    refine ⟨n, hn, hd, r % numDof, Nat.mod_lt _ hp, ?_⟩
    rw [hE n hn, if_pos (hasDof_mem hn hd), he, (rows_nodup ok).idxOf_getElem]
    exact Nat.div_add_mod r numDof
  · rintro ⟨n, hn, hd, d, hdlt, rfl⟩
    have hrow := hasDof_mem hn hd
    rw [hE n hn, if_pos hrow]
    have := List.idxOf_lt_length_of_mem hrow
    calc _ < numDof * ((ownedIdsOf cfg mesh ++ sharedIdsOf cfg mesh).idxOf n.naluId + 1) := by
          rw [Nat.mul_add]; omega
      _ ≤ _ := Nat.mul_le_mul_left _ this

/-- The local row of a dof is the position of its global id in the row maps. -/
theorem c18_row_is_position_of_gid (ok : MeshOK cfg mesh)
    (h : beginConstruction cfg numDof mesh = some N) {n : Node} (hn : n ∈ mesh)
    (hd : HasDof cfg mesh n) {d : ℕ} (hdd : d < numDof) :
    (N.ownedGids ++ N.sharedGids)[N.entityToLID n.stkId + d]? =
      some (numDof * (n.naluId - 1) + d + 1) := by
  obtain ⟨-, -, hg1, hg2, -, hE⟩ := begin_spec ok h
  have hrow := hasDof_mem hn hd
  rw [hE n hn, if_pos hrow, hg1, hg2]
  have : gidsOf numDof (ownedIdsOf cfg mesh) ++ gidsOf numDof (sharedIdsOf cfg mesh) =
      gidsOf numDof (ownedIdsOf cfg mesh ++ sharedIdsOf cfg mesh) := by
    simp [gidsOf]
  rw [this]
  exact gidsOf_getElem? _ _ _ _ hrow hdd

/-- Global row ids identify the node and the component, so rows of different processes are matched
only if they belong to the same dof (identifiers start at one). -/
theorem c18_gid_injective {a b d e : ℕ} (ha : 1 ≤ a) (hb : 1 ≤ b) (hd : d < numDof)
    (he : e < numDof) : GID a numDof d = GID b numDof e ↔ a = b ∧ d = e := by
  unfold GID
  constructor
  · intro heq
    have heq : numDof * (a - 1) + d = numDof * (b - 1) + e := by omega
    have h1 := congrArg (· / numDof) heq
    have h2 := congrArg (· % numDof) heq
    have hp : 0 < numDof := by omega
    simp only [Nat.mul_add_div hp, Nat.div_eq_of_lt hd, Nat.div_eq_of_lt he, Nat.add_zero] at h1
    simp only [Nat.mul_add_mod, Nat.mod_eq_of_lt hd, Nat.mod_eq_of_lt he] at h2
    exact ⟨by omega, h2⟩
  · rintro ⟨rfl, rfl⟩; rfl

/-- Nodes identified by periodicity get the same block, whatever their own ownership. -/
theorem c18_periodic_same_block (ok : MeshOK cfg mesh)
    (h : beginConstruction cfg numDof mesh = some N) {n m : Node} (hn : n ∈ mesh) (hm : m ∈ mesh)
    (hid : n.naluId = m.naluId) : N.entityToLID n.stkId = N.entityToLID m.stkId := by
  obtain ⟨-, -, -, -, -, hE⟩ := begin_spec ok h
  rw [hE n hn, hE m hm, hid]

/-- A periodic subject whose monarch is owned here is assembled into the monarch's owned block. -/
theorem c18_subject_of_owned (ok : MeshOK cfg mesh)
    (h : beginConstruction cfg numDof mesh = some N) {n m : Node} (hn : n ∈ mesh) (hm : m ∈ mesh)
    (hid : m.stkId = n.naluId) (ho : m.owned = true)
    (hex : ¬ (m.nonConfPart = true ∧ m.periodicPart = true)) :
    N.entityToLID n.stkId = N.entityToLID m.stkId ∧
    N.entityToLID n.stkId + numDof ≤ N.maxOwnedRowId := by
  have hroot := ok.root n hn m hm hid
  have hsame := c18_periodic_same_block ok h hn hm hroot.symm
  refine ⟨hsame, ?_⟩
  rw [hsame]
  refine (c18_owned_first ok h hm).1 ?_
  have hself : m.stkId = m.naluId := by omega
  have hnn : (cfg.nonConformal && cfg.periodic && (m.nonConfPart && m.periodicPart)) = false := by
    rcases Bool.eq_false_or_eq_true m.nonConfPart with h1 | h1 <;>
      rcases Bool.eq_false_or_eq_true m.periodicPart with h2 | h2 <;> simp [h1, h2]
    exact absurd ⟨h1, h2⟩ hex
  unfold isOwnedDof getDofStatus
  rw [hnn]
  simp [ho, hself]

/-- The construction cannot fail when every monarch is present locally (the periodic ghosting
guarantees that) and no node is both periodic and non-conformal. -/
theorem c18_succeeds (ok : MeshOK cfg mesh)
    (hst : ∀ n ∈ mesh, (getDofStatus cfg mesh n).isSome)
    (hmon : ∀ n ∈ mesh, ∃ m ∈ mesh, m.stkId = n.naluId) :
    ∃ N, beginConstruction cfg numDof mesh = some N := begin_succeeds ok hst hmon

/-- A periodic process-local mesh: owned 7, 3; subject 5 of 3; shared 4; ghost 9; subject 8 of the
ghosted monarch 9 (numbered as shared, on behalf of 9). -/
def demoMesh : List Node :=
  [⟨7, 7, true, false, false, false⟩, ⟨5, 3, true, true, false, false⟩,
   ⟨3, 3, true, true, false, false⟩, ⟨9, 9, false, false, false, false⟩,
   ⟨4, 4, false, true, false, false⟩, ⟨8, 9, true, false, false, false⟩]

example : MeshOK { periodic := true } demoMesh :=
  ⟨by decide, by decide, by decide⟩

example : (∀ n ∈ demoMesh, (getDofStatus { periodic := true } demoMesh n).isSome) ∧
    (∀ n ∈ demoMesh, ∃ m ∈ demoMesh, m.stkId = n.naluId) := by decide

example : (beginConstruction { periodic := true } 2 demoMesh).map (fun N =>
    (N.maxOwnedRowId, N.maxSharedNotOwnedRowId, N.ownedGids, N.sharedGids,
      [7, 5, 3, 9, 4, 8].map N.entityToLID)) =
    some (4, 8, [5, 6, 13, 14], [7, 8, 17, 18], [2, 0, 0, 6, 4, 6]) := by decide +kernel

end Verif.LinSys
