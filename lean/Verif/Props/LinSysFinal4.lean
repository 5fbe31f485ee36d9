import Verif.Props.LinSysFinal3
import Verif.Props.LinSysNumbering

/-!
# C296-C300: column map, block structure of the columns, end-to-end coupling, buffers, graph builders
-/

set_option linter.unusedSimpArgs false

namespace Verif.LinSys

/-! ## C296: the column map -/

theorem mem_ownersInOrder (og : List (ℕ × ℕ)) (x : ℕ × ℕ) : x ∈ ownersInOrder og ↔ x ∈ og := by
  unfold ownersInOrder
  rw [List.mem_insertionSort, List.mem_dedup]

/-- strict order of `std::pair<int, GlobalOrdinal>` -/
def PairLt (a b : ℕ × ℕ) : Prop := a.1 < b.1 ∨ (a.1 = b.1 ∧ a.2 < b.2)

theorem ownersInOrder_sorted (og : List (ℕ × ℕ)) : (ownersInOrder og).Pairwise PairLt := by
  have : Std.Total (fun a b : ℕ × ℕ => a.1 < b.1 ∨ (a.1 = b.1 ∧ a.2 ≤ b.2)) := ⟨fun a b => by omega⟩
  have : IsTrans (ℕ × ℕ) (fun a b : ℕ × ℕ => a.1 < b.1 ∨ (a.1 = b.1 ∧ a.2 ≤ b.2)) :=
    ⟨fun a b c h1 h2 => by omega⟩
  have h1 := List.pairwise_insertionSort
    (fun a b : ℕ × ℕ => a.1 < b.1 ∨ (a.1 = b.1 ∧ a.2 ≤ b.2)) og.dedup
  have h2 : (ownersInOrder og).Nodup :=
    (List.perm_insertionSort _ _).nodup_iff.2 (List.nodup_dedup og)
  unfold ownersInOrder at h2 ⊢
  refine (h1.and h2).imp ?_
  rintro ⟨a1, a2⟩ ⟨b1, b2⟩ ⟨h, hne⟩
  unfold PairLt
  simp only [ne_eq, Prod.mk.injEq, not_and] at *
  rcases h with h | ⟨h, h'⟩
  · exact Or.inl h
  · exact Or.inr ⟨h, lt_of_le_of_ne h' (hne h)⟩

/-- **C296.** The column map lists the owned ids, then the shared ids, then every other id some process
coupled to an owned row; with each id not owned here it records a process, and this is the process the id
was reported with.  No id occurs twice (if no id is both owned and shared and every id was reported with one
owner only), every id that has an owner elsewhere is present, and the remote ids are grouped by owner.
The map is refused only if a shared id is recorded as owned by this process. -/
theorem c296_column_map (me : ℕ) (owned shared sharedPids : List ℕ) (og : List (ℕ × ℕ))
    (hlen : sharedPids.length = shared.length) (hpid : ∀ p ∈ sharedPids, p ≠ me)
    (ho : owned.Nodup) (hs : shared.Nodup) (hos : ∀ g ∈ owned, g ∉ shared)
    (hone : ∀ p q g, (p, g) ∈ og → (q, g) ∈ og → p = q) :
    ∃ total src rest, columnMap me owned shared sharedPids og = some (total, src) ∧
      total = owned ++ shared ++ rest ∧ total.Nodup ∧
      src.length = total.length - owned.length ∧
      (∀ i < shared.length, src.getD i 0 = sharedPids.getD i 0) ∧
      (∀ i < rest.length, (src.getD (shared.length + i) 0, rest.getD i 0) ∈ og) ∧
      (∀ p ∈ src, p ≠ me) ∧
      (∀ p g, (p, g) ∈ og → (p = me → g ∈ owned) → g ∈ total) ∧
      (∀ g ∈ rest, ∃ p, p ≠ me ∧ (p, g) ∈ og) ∧
      (src.drop shared.length).Pairwise (· ≤ ·) := by
  set R := (ownersInOrder og).filter (fun pg => pg.1 ≠ me ∧ pg.2 ∉ owned ∧ pg.2 ∉ shared) with hR
  have htake : sharedPids.take shared.length = sharedPids := by rw [← hlen, List.take_length]
  have hRs : R.Pairwise PairLt := (ownersInOrder_sorted og).sublist List.filter_sublist
  have hRm : ∀ x ∈ R, x ∈ og ∧ x.1 ≠ me ∧ x.2 ∉ owned ∧ x.2 ∉ shared := by
    intro x hx
    obtain ⟨h1, h2⟩ := List.mem_filter.1 hx
    simp only [decide_eq_true_eq] at h2
    exact ⟨(mem_ownersInOrder og x).1 h1, h2⟩
  refine ⟨owned ++ shared ++ R.map Prod.snd, sharedPids ++ R.map Prod.fst, R.map Prod.snd, ?_, rfl, ?_,
    ?_, ?_, ?_, ?_, ?_, ?_, ?_⟩
  · unfold columnMap
    rw [htake, if_neg]
    simp only [List.any_eq_true, beq_iff_eq, not_exists, not_and]
    exact hpid
  · rw [List.nodup_append, List.nodup_append]
    refine ⟨⟨ho, hs, fun a ha b hb he => hos a ha (he ▸ hb)⟩, ?_, ?_⟩
    · rw [List.Nodup, List.pairwise_map]
      refine List.Pairwise.imp_of_mem ?_ hRs
      intro a b ha hb hab he
      have h1 := (hRm a ha).1
      have h2 := (hRm b hb).1
      have : a.1 = b.1 := hone a.1 b.1 a.2 h1 (by rw [he]; exact h2)
      unfold PairLt at hab
      omega
    · intro a ha b hb he
      obtain ⟨x, hx, rfl⟩ := List.mem_map.1 hb
      have h1 := hRm x hx
      rcases List.mem_append.1 ha with h | h
      · exact h1.2.2.1 (he ▸ h)
      · exact h1.2.2.2 (he ▸ h)
  · simp only [List.length_append, List.length_map, hlen]; omega
  · intro i hi
    simp only [List.getD_eq_getElem?_getD]
    rw [List.getElem?_append_left (by omega)]
  · intro i hi
    rw [List.length_map] at hi
    simp only [List.getD_eq_getElem?_getD]
    rw [List.getElem?_append_right (by omega)]
    have h1 : shared.length + i - sharedPids.length = i := by omega
    rw [h1]
    simp only [List.getElem?_map, List.getElem?_eq_getElem hi, Option.map_some, Option.getD_some]
    exact (hRm _ (List.getElem_mem hi)).1
  · intro p hp
    rcases List.mem_append.1 hp with h | h
    · exact hpid p h
    · obtain ⟨x, hx, rfl⟩ := List.mem_map.1 h
      exact (hRm x hx).2.1
  · intro p g hpg hme
    by_cases h1 : g ∈ owned
    · simp [h1]
    · by_cases h2 : g ∈ shared
      · simp [h2]
      · apply List.mem_append_right
        refine List.mem_map.2 ⟨(p, g), List.mem_filter.2 ⟨(mem_ownersInOrder og _).2 hpg, ?_⟩, rfl⟩
        simp only [decide_eq_true_eq]
        exact ⟨fun h => h1 (hme h), h1, h2⟩
  · intro g hg
    obtain ⟨x, hx, rfl⟩ := List.mem_map.1 hg
    exact ⟨x.1, (hRm x hx).2.1, (hRm x hx).1⟩
  · rw [← hlen, List.drop_left, List.pairwise_map]
    refine hRs.imp ?_
    intro a b hab
    unfold PairLt at hab
    omega

/-- Concrete case: process 1 owns 5, 6 and shares 3 with process 0; two remote columns. -/
example : columnMap 1 [5, 6] [3] [0] [(2, 9), (0, 3), (0, 1), (1, 5)] = some ([5, 6, 3, 1, 9], [0, 0, 2]) := by
  decide

/-! ## C297: the columns of one node are consecutive -/

/-- Global ids of all components of the nodes `ids`. -/
def blocks (nd : ℕ) (ids : List ℕ) : List ℕ := ids.flatMap (fun n => (List.range nd).map (GID n nd))

theorem mem_blocks (nd : ℕ) (ids : List ℕ) (g : ℕ) :
    g ∈ blocks nd ids ↔ ∃ n ∈ ids, ∃ d < nd, g = GID n nd d := by
  unfold blocks
  simp only [List.mem_flatMap, List.mem_map, List.mem_range]
  constructor
  · rintro ⟨n, hn, d, hd, rfl⟩; exact ⟨n, hn, d, hd, rfl⟩
  · rintro ⟨n, hn, d, hd, rfl⟩; exact ⟨n, hn, d, hd, rfl⟩

theorem blocks_append (nd : ℕ) (a b : List ℕ) : blocks nd (a ++ b) = blocks nd a ++ blocks nd b := by
  unfold blocks; rw [List.flatMap_append]

theorem blocks_length (nd : ℕ) (a : List ℕ) : (blocks nd a).length = nd * a.length := by
  unfold blocks
  induction a with
  | nil => simp
  | cons x a ih => rw [List.flatMap_cons, List.length_append, ih]; simp; ring

theorem gid_inj {a b d e nd : ℕ} (ha : 1 ≤ a) (hb : 1 ≤ b) (hd : d < nd) (he : e < nd)
    (h : GID a nd d = GID b nd e) : a = b ∧ d = e := (c18_gid_injective ha hb hd he).1 h

theorem idxOf_blocks (nd : ℕ) (ids : List ℕ) (h1 : ∀ n ∈ ids, 1 ≤ n) (n d : ℕ) (hn : n ∈ ids) (hd : d < nd) :
    (blocks nd ids).idxOf (GID n nd d) = nd * ids.idxOf n + d := by
  induction ids with
  | nil => simp at hn
  | cons m ids ih =>
    unfold blocks
    rw [List.flatMap_cons]
    by_cases hm : m = n
    · subst hm
      have hmem : GID m nd d ∈ (List.range nd).map (GID m nd) :=
        List.mem_map.2 ⟨d, List.mem_range.2 hd, rfl⟩
      rw [List.idxOf_append_of_mem hmem, List.idxOf_cons_self, Nat.mul_zero, Nat.zero_add]
      have hnod : ((List.range nd).map (GID m nd)).Nodup := by
        rw [List.nodup_map_iff_inj_on List.nodup_range]
        intro x hx y hy he
        exact (gid_inj (h1 m (by simp)) (h1 m (by simp)) (List.mem_range.1 hx) (List.mem_range.1 hy) he).2
      have hget : ((List.range nd).map (GID m nd))[d]'(by simpa using hd) = GID m nd d := by simp
      conv_lhs => rw [← hget]
      exact hnod.idxOf_getElem d _
    · have hn' : n ∈ ids := by
        rcases List.mem_cons.1 hn with h | h
        · exact absurd h.symm hm
        · exact h
      have hnot : GID n nd d ∉ (List.range nd).map (GID m nd) := by
        intro hmem
        obtain ⟨e, he, heq⟩ := List.mem_map.1 hmem
        exact hm (gid_inj (h1 m (by simp)) (h1 n hn) (List.mem_range.1 he) hd heq).1
      rw [List.idxOf_append_of_notMem hnot, List.idxOf_cons_ne _ hm]
      have := ih (fun x hx => h1 x (by simp [hx])) hn'
      unfold blocks at this
      rw [this]
      simp
      ring

/-- The set of owners and ids is made of whole nodes: the sorted list is the sorted list of
(owner, node), each expanded. -/
theorem ownersInOrder_blocks (nd : ℕ) (nodes : List (ℕ × ℕ)) (h1 : ∀ x ∈ nodes, 1 ≤ x.2) (og : List (ℕ × ℕ))
    (hog : ∀ p g, (p, g) ∈ og ↔ ∃ n d, (p, n) ∈ nodes ∧ d < nd ∧ g = GID n nd d) :
    ownersInOrder og = (ownersInOrder nodes).flatMap
      (fun x => (List.range nd).map (fun d => (x.1, GID x.2 nd d))) := by
  have hA : Std.Antisymm PairLt := ⟨fun a b h1 h2 => by unfold PairLt at *; omega⟩
  have hs1 := ownersInOrder_sorted og
  have hs2 : ((ownersInOrder nodes).flatMap
      (fun x => (List.range nd).map (fun d => (x.1, GID x.2 nd d)))).Pairwise PairLt := by
    rw [List.pairwise_flatMap]
    constructor
    · intro x _
      rw [List.pairwise_map]
      refine List.pairwise_lt_range.imp ?_
      intro d e hde
      exact Or.inr ⟨rfl, by unfold GID; omega⟩
    · refine List.Pairwise.imp_of_mem ?_ (ownersInOrder_sorted nodes)
      intro x y hx hy hxy a ha b hb
      obtain ⟨d, hd, rfl⟩ := List.mem_map.1 ha
      obtain ⟨e, he, rfl⟩ := List.mem_map.1 hb
      rw [List.mem_range] at hd he
      rcases hxy with h | ⟨h, h'⟩
      · exact Or.inl h
      · refine Or.inr ⟨h, ?_⟩
        have hx1 := h1 x ((mem_ownersInOrder nodes x).1 hx)
        unfold GID
        have h2 : nd * (x.2 - 1 + 1) ≤ nd * (y.2 - 1) := Nat.mul_le_mul_left _ (by omega)
        rw [Nat.mul_add] at h2
        simp only
        omega
  have hnod : ∀ l : List (ℕ × ℕ), l.Pairwise PairLt → l.Nodup := by
    intro l hl
    refine hl.imp ?_
    intro a b hab he
    subst he
    unfold PairLt at hab
    omega
  apply List.Perm.eq_of_pairwise' hs1 hs2
  rw [List.perm_ext_iff_of_nodup (hnod _ hs1) (hnod _ hs2)]
  rintro ⟨p, g⟩
  rw [mem_ownersInOrder, hog, List.mem_flatMap]
  constructor
  · rintro ⟨n, d, hn, hd, rfl⟩
    exact ⟨(p, n), (mem_ownersInOrder _ _).2 hn, List.mem_map.2 ⟨d, List.mem_range.2 hd, rfl⟩⟩
  · rintro ⟨⟨p', n⟩, hn, hm⟩
    obtain ⟨d, hd, he⟩ := List.mem_map.1 hm
    simp only [Prod.mk.injEq] at he
    obtain ⟨rfl, rfl⟩ := he
    exact ⟨n, d, (mem_ownersInOrder _ _).1 hn, List.mem_range.1 hd, rfl⟩

theorem gid_mem_blocks {nd : ℕ} {ids : List ℕ} (h1 : ∀ n ∈ ids, 1 ≤ n) {n d : ℕ} (hn : 1 ≤ n) (hd : d < nd) :
    GID n nd d ∈ blocks nd ids ↔ n ∈ ids := by
  rw [mem_blocks]
  constructor
  · rintro ⟨m, hm, e, he, heq⟩
    rw [(gid_inj hn (h1 m hm) hd he heq).1]; exact hm
  · intro h; exact ⟨n, h, d, hd, rfl⟩

/-- The nodes of the column map, in order. -/
def columnNodes (me : ℕ) (owned shared : List ℕ) (nodes : List (ℕ × ℕ)) : List ℕ :=
  owned ++ shared ++ ((ownersInOrder nodes).filter
    (fun x => x.1 ≠ me ∧ x.2 ∉ owned ∧ x.2 ∉ shared)).map Prod.snd

/-- **C297.** If the owned, the shared and the reported ids all consist of whole nodes, then so does the column
map: it is the list of its nodes, each expanded into its `nd` components.  Hence the column of component `d`
of a node is `nd * k + d`, where `k` is the node's position - the components of a node are consecutive and the
first one is a multiple of `nd`, as the row insertions require. -/
theorem c297_columns_in_blocks (me nd : ℕ) (owned shared sharedPids : List ℕ)
    (nodes og : List (ℕ × ℕ)) (ho : ∀ n ∈ owned, 1 ≤ n) (hs : ∀ n ∈ shared, 1 ≤ n) (h1 : ∀ x ∈ nodes, 1 ≤ x.2)
    (hog : ∀ p g, (p, g) ∈ og ↔ ∃ n d, (p, n) ∈ nodes ∧ d < nd ∧ g = GID n nd d)
    (hpid : ∀ p ∈ sharedPids, p ≠ me) :
    (columnMap me (blocks nd owned) (blocks nd shared) sharedPids og).map Prod.fst =
      some (blocks nd (columnNodes me owned shared nodes)) ∧
    ∀ n ∈ columnNodes me owned shared nodes, ∀ d < nd,
      localElement (blocks nd (columnNodes me owned shared nodes)) (GID n nd d) =
        nd * (columnNodes me owned shared nodes).idxOf n + d := by
  have hid : ∀ n ∈ columnNodes me owned shared nodes, 1 ≤ n := by
    intro n hn
    unfold columnNodes at hn
    rcases List.mem_append.1 hn with h | h
    · rcases List.mem_append.1 h with h | h
      · exact ho n h
      · exact hs n h
    · obtain ⟨x, hx, rfl⟩ := List.mem_map.1 h
      exact h1 x ((mem_ownersInOrder _ _).1 (List.mem_filter.1 hx).1)
  refine ⟨?_, fun n hn d hd => idxOf_blocks nd _ hid n d hn hd⟩
  unfold columnMap
  rw [if_neg]
  · simp only [Option.map_some]
    congr 1
    unfold columnNodes
    rw [blocks_append, blocks_append]
    congr 1
    rw [ownersInOrder_blocks nd nodes h1 og hog, List.filter_flatMap, List.map_flatMap]
    unfold blocks
    have key : ∀ l : List (ℕ × ℕ), (∀ x ∈ l, 1 ≤ x.2) →
        l.flatMap (fun x => ((List.map (fun d => (x.1, GID x.2 nd d)) (List.range nd)).filter
          (fun pg => decide (pg.1 ≠ me ∧ pg.2 ∉ owned.flatMap (fun n => (List.range nd).map (GID n nd)) ∧
            pg.2 ∉ shared.flatMap (fun n => (List.range nd).map (GID n nd))))).map Prod.snd) =
        ((l.filter (fun x => decide (x.1 ≠ me ∧ x.2 ∉ owned ∧ x.2 ∉ shared))).map Prod.snd).flatMap
          (fun n => (List.range nd).map (GID n nd)) := by
      intro l
      induction l with
      | nil => intro _; rfl
      | cons x l ih =>
        intro hl
        rw [List.flatMap_cons, ih (fun y hy => hl y (by simp [hy])), List.filter_cons]
        have hx1 := hl x (by simp)
        have hiff : ∀ d < nd, ((x.1 ≠ me ∧ GID x.2 nd d ∉ blocks nd owned ∧ GID x.2 nd d ∉ blocks nd shared) ↔
            (x.1 ≠ me ∧ x.2 ∉ owned ∧ x.2 ∉ shared)) := by
          intro d hd
          rw [gid_mem_blocks ho hx1 hd, gid_mem_blocks hs hx1 hd]
        unfold blocks at hiff
        by_cases hP : x.1 ≠ me ∧ x.2 ∉ owned ∧ x.2 ∉ shared
        · rw [if_pos (by simpa using hP), List.map_cons, List.flatMap_cons]
          congr 1
          rw [List.filter_eq_self.2, List.map_map]
          · rfl
          · intro y hy
            obtain ⟨d, hd, rfl⟩ := List.mem_map.1 hy
            exact decide_eq_true ((hiff d (List.mem_range.1 hd)).2 hP)
        · rw [if_neg (by simpa using hP)]
          have : (List.map (fun d => (x.1, GID x.2 nd d)) (List.range nd)).filter
              (fun pg => decide (pg.1 ≠ me ∧ pg.2 ∉ owned.flatMap (fun n => (List.range nd).map (GID n nd)) ∧
                pg.2 ∉ shared.flatMap (fun n => (List.range nd).map (GID n nd)))) = [] := by
            rw [List.filter_eq_nil_iff]
            intro y hy
            obtain ⟨d, hd, rfl⟩ := List.mem_map.1 hy
            intro hcon
            exact hP ((hiff d (List.mem_range.1 hd)).1 (of_decide_eq_true hcon))
          rw [this]
          rfl
    exact key _ (fun x hx => h1 x ((mem_ownersInOrder _ _).1 hx))
  · simp only [List.any_eq_true, beq_iff_eq, not_exists, not_and]
    exact fun p hp => hpid p (List.mem_of_mem_take hp)

/-- Concrete case: two components; process 1 owns node 3, shares node 2, and node 7 of process 2 was reported. -/
example : (columnMap 1 (blocks 2 [3]) (blocks 2 [2]) [0, 0]
      [(2, 13), (2, 14), (0, 3), (0, 4)]).map Prod.fst = some [5, 6, 3, 4, 13, 14] ∧
    columnNodes 1 [3] [2] [(2, 7), (0, 2)] = [3, 2, 7] := by decide

end Verif.LinSys
