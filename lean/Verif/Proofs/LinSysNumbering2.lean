import Verif.Proofs.LinSysNumbering
import Mathlib.Data.Finset.Card

set_option linter.unusedSectionVars false
set_option linter.unusedSimpArgs false

namespace Verif.LinSys

/-- Assumptions on the local mesh: identifiers are distinct; only periodic nodes are renumbered;
the monarch of a node is a root (its own monarch). -/
structure MeshOK (cfg : Config) (mesh : List Node) : Prop where
  nodup : (mesh.map (·.stkId)).Nodup
  renumbered : ∀ n ∈ mesh, n.naluId ≠ n.stkId → isPeriodicNode cfg n = true
  root : ∀ n ∈ mesh, ∀ m ∈ mesh, m.stkId = n.naluId → m.naluId = n.naluId

theorem ownedDof_spec {cfg : Config} {mesh : List Node} {n : Node}
    (hr : n.naluId ≠ n.stkId → isPeriodicNode cfg n = true)
    (h : isOwnedDof cfg mesh n = true) : n.naluId = n.stkId ∧ n.owned = true := by
  unfold isOwnedDof at h
  cases hs : getDofStatus cfg mesh n with
  | none => rw [hs] at h; exact absurd h (by simp)
  | some s =>
    rw [hs] at h
    simp only at h
    unfold getDofStatus at hs
    cases hg : getEntity mesh n.naluId with
    | none =>
      simp only [hg] at hs
      split_ifs at hs <;> simp only [Option.some.injEq] at hs <;> subst hs <;> simp at h <;>
        refine ⟨?_, by assumption⟩ <;> first | omega | (by_contra hc; simp_all)
    | some m =>
      simp only [hg] at hs
      split_ifs at hs <;> simp only [Option.some.injEq] at hs <;> subst hs <;> simp at h <;>
        refine ⟨?_, by assumption⟩ <;> first | omega | (by_contra hc; simp_all)

theorem sharedDof_spec {cfg : Config} {mesh : List Node} {n : Node}
    (h : isSharedDof cfg mesh n = true) :
    (n.naluId = n.stkId → n.owned = false) ∧
    (n.naluId ≠ n.stkId → isPeriodicNode cfg n = true →
      ∀ m, getEntity mesh n.naluId = some m → m.owned = false) := by
  unfold isSharedDof at h
  cases hs : getDofStatus cfg mesh n with
  | none => rw [hs] at h; exact absurd h (by simp)
  | some s =>
    rw [hs] at h
    simp only at h
    unfold getDofStatus at hs
    constructor
    · intro hne
      have hne' : n.stkId = n.naluId := hne.symm
      simp only [if_pos hne'] at hs
      split_ifs at hs <;> simp only [Option.some.injEq] at hs <;> subst hs <;> simp at h <;>
        simp_all
    · intro hne hp m hm
      have hne' : ¬ n.stkId = n.naluId := fun e => hne e.symm
      simp only [if_neg hne', hm] at hs
      split_ifs at hs <;> simp only [Option.some.injEq] at hs <;> subst hs <;> simp at h <;>
        simp_all

/-- The naluIds that get owned rows, in row order. -/
def ownedIdsOf (cfg : Config) (mesh : List Node) : List ℕ :=
  sortedIds ((mesh.filter (isOwnedDof cfg mesh)).map (·.naluId))
/-- The naluIds that get shared rows, in row order. -/
def sharedIdsOf (cfg : Config) (mesh : List Node) : List ℕ :=
  sortedIds ((mesh.filter (isSharedDof cfg mesh)).map (·.naluId))

theorem mem_ownedIdsOf {cfg : Config} {mesh : List Node} {id : ℕ} :
    id ∈ ownedIdsOf cfg mesh ↔ ∃ n ∈ mesh, isOwnedDof cfg mesh n = true ∧ n.naluId = id := by
  unfold ownedIdsOf
  rw [mem_sortedIds]
  simp [and_assoc]

theorem mem_sharedIdsOf {cfg : Config} {mesh : List Node} {id : ℕ} :
    id ∈ sharedIdsOf cfg mesh ↔ ∃ n ∈ mesh, isSharedDof cfg mesh n = true ∧ n.naluId = id := by
  unfold sharedIdsOf
  rw [mem_sortedIds]
  simp [and_assoc]

theorem rows_nodup {cfg : Config} {mesh : List Node} (ok : MeshOK cfg mesh) :
    (ownedIdsOf cfg mesh ++ sharedIdsOf cfg mesh).Nodup := by
  refine List.nodup_append.2 ⟨sortedIds_nodup _, sortedIds_nodup _, ?_⟩
  intro a ha b hb hab
  subst hab
  obtain ⟨n, hn, hno, hna⟩ := mem_ownedIdsOf.1 ha
  obtain ⟨m, hm, hms, hma⟩ := mem_sharedIdsOf.1 hb
  obtain ⟨hroot, hown⟩ := ownedDof_spec (ok.renumbered n hn) hno
  obtain ⟨s1, s2⟩ := sharedDof_spec hms
  by_cases hmr : m.naluId = m.stkId
  · have : m = n := List.inj_on_of_nodup_map ok.nodup hm hn (by omega)
    subst this
    rw [s1 hmr] at hown
    exact absurd hown (by simp)
  · have hg : getEntity mesh m.naluId = some n := by
      have := getEntity_of_mem ok.nodup hn
      rw [← this]
      congr 1
      omega
    have := s2 hmr (ok.renumbered m hm hmr) n hg
    rw [hown] at this
    exact absurd this (by simp)

theorem ownedIds_length {cfg : Config} {mesh : List Node} (ok : MeshOK cfg mesh) :
    (ownedIdsOf cfg mesh).length = (mesh.filter (isOwnedDof cfg mesh)).length := by
  unfold ownedIdsOf
  rw [sortedIds_length_of_nodup, List.length_map]
  have : (mesh.filter (isOwnedDof cfg mesh)).map (·.naluId) =
      (mesh.filter (isOwnedDof cfg mesh)).map (·.stkId) := by
    apply List.map_congr_left
    intro n hn
    obtain ⟨h1, h2⟩ := List.mem_filter.1 hn
    exact (ownedDof_spec (ok.renumbered n h1) h2).1
  rw [this]
  exact List.Nodup.sublist (List.Sublist.map _ List.filter_sublist) ok.nodup

theorem sharedIds_length_le (cfg : Config) (mesh : List Node) :
    (sharedIdsOf cfg mesh).length ≤ (mesh.filter (isSharedDof cfg mesh)).length := by
  have h : (sharedIdsOf cfg mesh).toFinset.card = (sharedIdsOf cfg mesh).length :=
    List.toFinset_card_of_nodup (sortedIds_nodup _)
  have h2 : (sharedIdsOf cfg mesh).toFinset =
      ((mesh.filter (isSharedDof cfg mesh)).map (·.naluId)).toFinset := by
    ext x
    simp only [List.mem_toFinset, sharedIdsOf, mem_sortedIds]
  rw [← h, h2]
  refine (List.toFinset_card_le _).trans ?_
  simp

/-- Everything known about a successful numbering. -/
theorem begin_spec {cfg : Config} {numDof : ℕ} {mesh : List Node} {N : Numbering}
    (ok : MeshOK cfg mesh) (h : beginConstruction cfg numDof mesh = some N) :
    let rows := ownedIdsOf cfg mesh ++ sharedIdsOf cfg mesh
    N.maxOwnedRowId = numDof * (ownedIdsOf cfg mesh).length ∧
    numDof * rows.length ≤ N.maxSharedNotOwnedRowId ∧
    N.ownedGids = gidsOf numDof (ownedIdsOf cfg mesh) ∧
    N.sharedGids = gidsOf numDof (sharedIdsOf cfg mesh) ∧
    (∀ id, N.myLIDs id = if id ∈ rows then some (numDof * rows.idxOf id) else none) ∧
    (∀ n ∈ mesh, N.entityToLID n.stkId =
      if n.naluId ∈ rows then numDof * rows.idxOf n.naluId else invalidLID) := by
  intro rows
  have hO := numberIds_spec numDof (ownedIdsOf cfg mesh) (sortedIds_nodup _) (fun _ => none) 0 []
  have hlenO := ownedIds_length ok
  unfold beginConstruction at h
  simp only at h
  split at h
  · exact absurd h (by simp)
  · split at h
    · exact absurd h (by simp)
    · split at h
      · exact absurd h (by simp)
      · change (match mesh.foldl (fillStep mesh (numberIds numDof (sharedIdsOf cfg mesh)
            ((numberIds numDof (ownedIdsOf cfg mesh) (fun _ => none, 0, [])).1,
             (numberIds numDof (ownedIdsOf cfg mesh) (fun _ => none, 0, [])).2.1, [])).1)
             (some fun _ => invalidLID) with
          | none => none
          | some e => some (⟨_, _, (numberIds numDof (ownedIdsOf cfg mesh) (fun _ => none, 0, [])).2.2,
             (numberIds numDof (sharedIdsOf cfg mesh)
            ((numberIds numDof (ownedIdsOf cfg mesh) (fun _ => none, 0, [])).1,
             (numberIds numDof (ownedIdsOf cfg mesh) (fun _ => none, 0, [])).2.1, [])).2.2,
             (numberIds numDof (sharedIdsOf cfg mesh)
            ((numberIds numDof (ownedIdsOf cfg mesh) (fun _ => none, 0, [])).1,
             (numberIds numDof (ownedIdsOf cfg mesh) (fun _ => none, 0, [])).2.1, [])).1, e⟩ : Numbering)) = some N at h
        obtain ⟨o1, o2, o3⟩ := hO
        have hS := numberIds_spec numDof (sharedIdsOf cfg mesh) (sortedIds_nodup _)
          (numberIds numDof (ownedIdsOf cfg mesh) (fun _ => none, 0, [])).1
          (numberIds numDof (ownedIdsOf cfg mesh) (fun _ => none, 0, [])).2.1 []
        generalize hgS : numberIds numDof (sharedIdsOf cfg mesh)
            ((numberIds numDof (ownedIdsOf cfg mesh) (fun _ => none, 0, [])).1,
             (numberIds numDof (ownedIdsOf cfg mesh) (fun _ => none, 0, [])).2.1, []) = S at h hS
        generalize hgO : numberIds numDof (ownedIdsOf cfg mesh) (fun _ => none, 0, []) = O at h hS o1 o2 o3
        obtain ⟨s1, s2, s3⟩ := hS
        cases hf : mesh.foldl (fillStep mesh S.1) (some fun _ => invalidLID) with
        | none => rw [hf] at h; exact absurd h (by simp)
        | some e =>
          rw [hf] at h
          simp only [Option.some.injEq] at h
          have hnd := rows_nodup ok
          have hmy : ∀ id, S.1 id = if id ∈ rows then some (numDof * rows.idxOf id) else none := by
            intro id
            rw [s3, o3]
            have hdis := List.nodup_append.1 hnd
            by_cases h1 : id ∈ ownedIdsOf cfg mesh
            · have h2 : id ∉ sharedIdsOf cfg mesh := fun h2 => hdis.2.2 id h1 id h2 rfl
              simp only [rows, h1, h2, if_true, if_false, List.mem_append, true_or, Nat.zero_add,
                List.idxOf_append_of_mem h1]
            · by_cases h2 : id ∈ sharedIdsOf cfg mesh
              · simp only [rows, h1, h2, if_true, List.mem_append, or_true,
                  List.idxOf_append_of_notMem h1]
                rw [o1]
                simp
              · simp [rows, h1, h2]
          have hfill := fill_spec (myLIDs := S.1) ok.nodup
            (fun n hn m hm => ok.root n hn m (getEntity_some hm).1 (getEntity_some hm).2)
            mesh (fun n hn => hn) _ e hf
          subst h
          refine ⟨?_, ?_, ?_, ?_, hmy, ?_⟩
          · simp only
            rw [hlenO, Nat.mul_comm]
          · simp only [rows, List.length_append]
            rw [hlenO, Nat.mul_comm]
            exact Nat.mul_le_mul_right _ (Nat.add_le_add_left (sharedIds_length_le cfg mesh) _)
          · simp [o2]
          · simp [s2]
          · intro n hn
            simp only
            by_cases hr : n.naluId ∈ rows
            · rw [if_pos hr]
              exact hfill.1 n hn _ (by rw [hmy, if_pos hr]) (Or.inl hn)
            · rw [if_neg hr]
              exact hfill.2 n hn (by rw [hmy, if_neg hr])

theorem begin_succeeds {cfg : Config} {numDof : ℕ} {mesh : List Node} (ok : MeshOK cfg mesh)
    (hst : ∀ n ∈ mesh, (getDofStatus cfg mesh n).isSome)
    (hmon : ∀ n ∈ mesh, ∃ m ∈ mesh, m.stkId = n.naluId) :
    ∃ N, beginConstruction cfg numDof mesh = some N := by
  have hO := numberIds_spec numDof (ownedIdsOf cfg mesh) (sortedIds_nodup _) (fun _ => none) 0 []
  have hget : ∀ n ∈ mesh, (getEntity mesh n.naluId).isSome := by
    intro n hn
    obtain ⟨m, hm, he⟩ := hmon n hn
    rw [← he, getEntity_of_mem ok.nodup hm]
    rfl
  unfold beginConstruction
  simp only
  rw [if_neg, if_neg, if_neg]
  · obtain ⟨e, he⟩ := fill_ne_none (mesh := mesh) (myLIDs := (numberIds numDof (sharedIdsOf cfg mesh)
            ((numberIds numDof (ownedIdsOf cfg mesh) (fun _ => none, 0, [])).1,
             (numberIds numDof (ownedIdsOf cfg mesh) (fun _ => none, 0, [])).2.1, [])).1)
        (fun n hn _ => hget n hn) mesh (fun n hn => hn) (fun _ => invalidLID)
    unfold ownedIdsOf sharedIdsOf at he
    simp only [he]
    exact ⟨_, rfl⟩
  · simp only [Bool.not_eq_true, List.any_eq_false, Option.isNone_iff_eq_none]
    intro id hid
    have : id ∈ sharedIdsOf cfg mesh := hid
    obtain ⟨n, hn, _, rfl⟩ := mem_sharedIdsOf.1 this
    have := hget n hn
    intro hc
    rw [hc] at this
    exact absurd this (by simp)
  · push Not
    have h1 := hO.1
    unfold ownedIdsOf at h1
    rw [h1, Nat.zero_add]
    exact ownedIds_length ok
  · simp only [Bool.not_eq_true, List.any_eq_false, Option.isNone_iff_eq_none]
    intro n hn hc
    have := hst n hn
    rw [hc] at this
    exact absurd this (by simp)

end Verif.LinSys
