import Verif.Props.LinSysGraph
import Mathlib.Algebra.Order.BigOperators.Group.List

/-!
# C58: the graph contains every coupling that will be assembled
-/

set_option linter.unusedSectionVars false
set_option linter.unusedSimpArgs false

namespace Verif.LinSys

/-- `b` has been recorded as a connection of the row of `a`. -/
def Conn (L : Local) (conns : ℕ → List ℕ) (a b : ℕ) : Prop := b ∈ conns (L.rowLID a / L.numDof)

/-- Every recorded connection is kept. -/
def Grows (c c' : ℕ → List ℕ) : Prop := ∀ i x, x ∈ c i → x ∈ c' i

theorem insertConnection_spec (L : Local) (conns : ℕ → List ℕ) (a b : ℕ) :
    Grows conns (insertConnection L conns a b) ∧ Conn L (insertConnection L conns a b) a b := by
  unfold insertConnection Conn Grows
  simp only
  split
  · exact ⟨fun _ _ h => h, by assumption⟩
  · constructor
    · intro i x hx
      by_cases hi : i = L.rowLID a / L.numDof
      · subst hi; rw [Function.update_self]; simp [hx]
      · rw [Function.update_of_ne hi]; exact hx
    · rw [Function.update_self]; simp

theorem addLater_spec (L : Local) (nalu : ℕ → ℕ) (a : ℕ) (bs : List ℕ) (conns : ℕ → List ℕ) :
    Grows conns (addLater L nalu a bs conns) ∧
    ∀ b ∈ bs, Conn L (addLater L nalu a bs conns) a b ∨ Conn L (addLater L nalu a bs conns) b a := by
  induction bs generalizing conns with
  | nil => exact ⟨fun _ _ h => h, by simp⟩
  | cons b bs ih =>
    rw [addLater]
    set c1 := (if nalu a < nalu b then insertConnection L conns a b else insertConnection L conns b a)
      with hc1
    obtain ⟨i1, i2⟩ := ih c1
    have hg : Grows conns c1 ∧ (Conn L c1 a b ∨ Conn L c1 b a) := by
      rw [hc1]
      split
      · exact ⟨(insertConnection_spec L conns a b).1, Or.inl (insertConnection_spec L conns a b).2⟩
      · exact ⟨(insertConnection_spec L conns b a).1, Or.inr (insertConnection_spec L conns b a).2⟩
    refine ⟨fun i x h => i1 i x (hg.1 i x h), fun x hx => ?_⟩
    rcases List.mem_cons.1 hx with rfl | hx
    · rcases hg.2 with h | h
      · exact Or.inl (i1 _ _ h)
      · exact Or.inr (i1 _ _ h)
    · exact i2 x hx

theorem addConnections_spec (L : Local) (nalu : ℕ → ℕ) (ns : List ℕ) (conns : ℕ → List ℕ) :
    Grows conns (addConnections L nalu ns conns) ∧
    ∀ a ∈ ns, ∀ b ∈ ns, Conn L (addConnections L nalu ns conns) a b ∨
      Conn L (addConnections L nalu ns conns) b a := by
  induction ns generalizing conns with
  | nil => exact ⟨fun _ _ h => h, by simp⟩
  | cons a as ih =>
    rw [addConnections]
    obtain ⟨s1, s2⟩ := insertConnection_spec L conns a a
    set c0 := insertConnection L conns a a with hc0
    obtain ⟨l1, l2⟩ := addLater_spec L nalu a as c0
    set c1 := addLater L nalu a as c0 with hc1
    obtain ⟨i1, i2⟩ := ih c1
    refine ⟨fun i x h => i1 i x (l1 i x (s1 i x h)), fun x hx y hy => ?_⟩
    rcases List.mem_cons.1 hx with rfl | hx
    · rcases List.mem_cons.1 hy with rfl | hy
      · exact Or.inl (i1 _ _ (l1 _ _ s2))
      · rcases l2 y hy with h | h
        · exact Or.inl (i1 _ _ h)
        · exact Or.inr (i1 _ _ h)
    · rcases List.mem_cons.1 hy with hya | hy
      · rw [hya]
        rcases l2 x hx with h | h
        · exact Or.inr (i1 _ _ h)
        · exact Or.inl (i1 _ _ h)
      · exact i2 x hx y hy

theorem buildConnections_spec (L : Local) (nalu : ℕ → ℕ) (ents : List (List ℕ)) :
    ∀ ns ∈ ents, ∀ a ∈ ns, ∀ b ∈ ns, Conn L (buildConnections L nalu ents) a b ∨
      Conn L (buildConnections L nalu ents) b a := by
  have key : ∀ (ents : List (List ℕ)) (c : ℕ → List ℕ),
      Grows c (ents.foldl (fun conns ns => addConnections L nalu ns conns) c) ∧
      ∀ ns ∈ ents, ∀ a ∈ ns, ∀ b ∈ ns,
        Conn L (ents.foldl (fun conns ns => addConnections L nalu ns conns) c) a b ∨
        Conn L (ents.foldl (fun conns ns => addConnections L nalu ns conns) c) b a := by
    intro ents
    induction ents with
    | nil => intro c; exact ⟨fun _ _ h => h, by simp⟩
    | cons e es ih =>
      intro c
      rw [List.foldl_cons]
      obtain ⟨a1, a2⟩ := addConnections_spec L nalu e c
      obtain ⟨i1, i2⟩ := ih (addConnections L nalu e c)
      refine ⟨fun i x h => i1 i x (a1 i x h), fun ns hns a ha b hb => ?_⟩
      rcases List.mem_cons.1 hns with rfl | hns
      · rcases a2 a ha b hb with h | h
        · exact Or.inl (i1 _ _ h)
        · exact Or.inr (i1 _ _ h)
      · exact i2 ns hns a ha b hb
  exact (key ents _).2

/-- Row entities: block `i` is headed by `rows[i]`, and an entity with the same row has the same
column (both follow the nalu id, C18); the columns are multiples of the block size and, as 32-bit local
ordinals, stay below the marker `INVALID = 2^31 - 1`. -/
structure RowsOK (L : Local) (rows : List ℕ) (nodes : ℕ → Prop) : Prop where
  dof : 0 < L.numDof
  head : ∀ a, nodes a → ∃ e, rows[L.rowLID a / L.numDof]? = some e ∧ L.rowLID e = L.rowLID a ∧
    L.colLID e = L.colLID a
  col : ∀ a, nodes a → L.numDof ∣ L.colLID a
  headCol : ∀ e ∈ rows, L.numDof ∣ L.colLID e
  small : ∀ a, nodes a → L.colLID a + L.numDof ≤ 2147483647
  headSmall : ∀ e ∈ rows, L.colLID e + L.numDof ≤ 2147483647

/-- Some call inserts column `c` into row `r`. -/
def Inserted (calls : List (ℕ × List ℕ)) (r c : ℕ) : Prop := ∃ x ∈ calls, x.1 = r ∧ c ∈ x.2

theorem inserted_of_conn (L : Local) (rows : List ℕ) (nodes : ℕ → Prop) (h : RowsOK L rows nodes)
    (conns : ℕ → List ℕ) (a b : ℕ) (ha : nodes a) (hb : nodes b) (hc : Conn L conns a b) :
    Inserted (graphCalls L rows conns) (L.rowLID a) (L.colLID b) ∧
    Inserted (graphCalls L rows conns) (L.rowLID b) (L.colLID a) := by
  obtain ⟨e, he, hr, hcol⟩ := h.head a ha
  unfold Conn at hc
  have hne : conns (L.rowLID a / L.numDof) ≠ [] := by
    intro h0; rw [h0] at hc; simp at hc
  have hmem : (e, L.rowLID a / L.numDof) ∈ rows.zipIdx := List.mem_zipIdx_iff_getElem?.2 he
  have h1 : Inserted (graphCalls L rows conns) (L.rowLID a) (L.colLID b) := by
    refine ⟨(L.rowLID e, (conns (L.rowLID a / L.numDof)).map L.colLID), ?_, hr, ?_⟩
    · unfold graphCalls
      rw [List.mem_flatMap]
      refine ⟨_, hmem, ?_⟩
      simp only
      rw [if_neg hne]
      exact List.mem_cons_self
    · exact List.mem_map.2 ⟨b, hc, rfl⟩
  refine ⟨h1, ?_⟩
  by_cases hbe : b = e
  · subst hbe
    rw [hr, ← hcol]
    exact h1
  · refine ⟨(L.rowLID b, [L.colLID e]), ?_, rfl, by simp [hcol]⟩
    unfold graphCalls
    rw [List.mem_flatMap]
    refine ⟨_, hmem, ?_⟩
    simp only
    rw [if_neg hne, List.mem_cons]
    right
    exact List.mem_map.2 ⟨b, by simp [hc, hbe], rfl⟩

/-- For every pair of nodes of every entity used to build the graph, the calls that fill the graph
insert both couplings. -/
theorem c58_couplings_inserted (L : Local) (nalu : ℕ → ℕ) (ents : List (List ℕ)) (rows : List ℕ)
    (hrows : RowsOK L rows (fun a => ∃ ns ∈ ents, a ∈ ns)) (ns : List ℕ) (hns : ns ∈ ents) (a b : ℕ)
    (ha : a ∈ ns) (hb : b ∈ ns) :
    Inserted (graphCalls L rows (buildConnections L nalu ents)) (L.rowLID a) (L.colLID b) := by
  rcases buildConnections_spec L nalu ents ns hns a ha b hb with h | h
  · exact (inserted_of_conn L rows _ hrows _ a b ⟨ns, hns, ha⟩ ⟨ns, hns, hb⟩ h).1
  · exact (inserted_of_conn L rows _ hrows _ b a ⟨ns, hns, hb⟩ ⟨ns, hns, ha⟩ h).2

/-- number of columns inserted into row `r` -/
def insertCount (calls : List (ℕ × List ℕ)) (r : ℕ) : ℕ :=
  ((calls.filter (fun c => c.1 = r)).map (fun c => c.2.length)).sum

theorem insertCount_append (a b : List (ℕ × List ℕ)) (r : ℕ) :
    insertCount (a ++ b) r = insertCount a r + insertCount b r := by
  simp [insertCount]

/-- The computed row length is exactly what the insertions need, counted with repetitions. -/
theorem c58_row_length (L : Local) (rows : List ℕ) (conns : ℕ → List ℕ) (r : ℕ) :
    graphRowLength L rows conns r = L.numDof * insertCount (graphCalls L rows conns) r := by
  unfold graphRowLength graphCalls
  generalize rows.zipIdx = zs
  induction zs with
  | nil => simp [insertCount]
  | cons z zs ih =>
    rw [List.map_cons, List.sum_cons, ih, List.flatMap_cons, insertCount_append, Nat.mul_add]
    congr 1
    by_cases he : conns z.2 = []
    · simp [he, insertCount]
    · rw [if_neg he]
      have hc : ∀ (x : ℕ × List ℕ) l, insertCount (x :: l) r =
          (if x.1 = r then x.2.length else 0) + insertCount l r := by
        intro x l
        unfold insertCount
        by_cases hx : x.1 = r
        · simp [hx]
        · simp [hx]
      rw [hc, Nat.mul_add]
      congr 1
      · by_cases hr : L.rowLID z.1 = r
        · simp [hr]
        · simp [hr]
      · generalize (conns z.2).filter (fun b => b ≠ z.1) = bs
        induction bs with
        | nil => simp [insertCount]
        | cons b bs ihb =>
          rw [List.map_cons, List.sum_cons, List.map_cons, hc, Nat.mul_add, ihb]
          congr 1
          by_cases hr : L.rowLID b = r
          · simp [hr]
          · simp [hr]

theorem build_fold {nd cap : ℕ} (hnd : 0 < nd) (calls : List (ℕ × List ℕ))
    (hdiv : ∀ c ∈ calls, ∀ x ∈ c.2, nd ∣ x)
    (hsm : ∀ c ∈ calls, ∀ x ∈ c.2, x + nd ≤ 2147483647) (row : ℕ → ℤ) (m : ℕ) (b : ℕ → ℕ)
    (h : GraphRow nd cap row m b)
    (hcap : nd * (m + (calls.map (fun c => c.2.length)).sum) ≤ cap) :
    ∃ m' b', GraphRow nd cap
      (calls.foldl (fun row c => insertIndices nd cap (c.2.map (Nat.cast : ℕ → ℤ)) row) row) m' b' ∧
      (∀ x, (∃ q < m', b' q = x) ↔ (∃ q < m, b q = x) ∨ ∃ c ∈ calls, nd * x ∈ c.2) ∧
      m' ≤ m + (calls.map (fun c => c.2.length)).sum := by
  induction calls generalizing row m b with
  | nil => exact ⟨m, b, h, fun x => by simp, by simp⟩
  | cons c calls ih =>
    rw [List.foldl_cons]
    obtain ⟨cs, hcs⟩ : ∃ cs : List ℕ, c.2 = cs.map (fun y => nd * y) := by
      refine ⟨c.2.map (fun x => x / nd), ?_⟩
      rw [List.map_map]
      symm
      refine (List.map_congr_left (g := id) ?_).trans (List.map_id _)
      intro x hx
      exact Nat.mul_div_cancel' (hdiv c (by simp) x hx)
    have hlen : c.2.length = cs.length := by rw [hcs]; simp
    rw [List.map_cons, List.sum_cons, hlen] at hcap
    have hmap : c.2.map (Nat.cast : ℕ → ℤ) = cs.map (fun y => ((nd * y : ℕ) : ℤ)) := by
      rw [hcs, List.map_map]; rfl
    have hc1 : nd * (m + cs.length) ≤ cap := le_trans (Nat.mul_le_mul_left _ (by omega)) hcap
    have hfi := findInvalid_eq h hnd 0 (Nat.zero_le _)
    have hsmc : ∀ y ∈ cs, nd * y + nd ≤ 2147483647 := fun y hy =>
      hsm c (by simp) _ (by rw [hcs]; exact List.mem_map.2 ⟨y, hy, rfl⟩)
    -- also need the new count bounded
    have hstep : ∃ m1 b1, GraphRow nd cap (insertIndices nd cap (cs.map (fun y => ((nd * y : ℕ) : ℤ))) row) m1 b1 ∧
        (∀ x, (∃ q < m1, b1 q = x) ↔ (∃ q < m, b q = x) ∨ x ∈ cs) ∧ m1 ≤ m + cs.length := by
      obtain ⟨m1, b1, g1, x1, -⟩ := c57_insert_indices hnd cs row m b h hsmc hc1
      refine ⟨m1, b1, g1, x1, ?_⟩
      -- blocks are distinct and contained in old ∪ cs
      have hsub : (Finset.range m1).image b1 ⊆ (Finset.range m).image b ∪ cs.toFinset := by
        intro x hx
        obtain ⟨q, hq, rfl⟩ := Finset.mem_image.1 hx
        rcases (x1 (b1 q)).1 ⟨q, Finset.mem_range.1 hq, rfl⟩ with ⟨r, hr, he⟩ | hm
        · exact Finset.mem_union_left _ (Finset.mem_image.2 ⟨r, Finset.mem_range.2 hr, he⟩)
        · exact Finset.mem_union_right _ (List.mem_toFinset.2 hm)
      have hcard : ((Finset.range m1).image b1).card = m1 := by
        rw [Finset.card_image_of_injOn, Finset.card_range]
        intro q hq r hr he
        simp only [Finset.coe_range, Set.mem_Iio] at hq hr
        rcases Nat.lt_trichotomy q r with hl | hl | hl
        · have := g1.mono q r hl hr; omega
        · exact hl
        · have := g1.mono r q hl hq; omega
      have h2 := Finset.card_le_card hsub
      have h3 := Finset.card_union_le ((Finset.range m).image b) cs.toFinset
      have h4 := Finset.card_image_le (s := Finset.range m) (f := b)
      have h5 := List.toFinset_card_le cs
      rw [Finset.card_range] at h4
      omega
    obtain ⟨m1, b1, g1, x1, hm1⟩ := hstep
    rw [hmap]
    have hcap2 : nd * (m1 + (calls.map (fun c => c.2.length)).sum) ≤ cap :=
      le_trans (Nat.mul_le_mul_left _ (by omega)) hcap
    obtain ⟨m2, b2, g2, x2, hm2⟩ := ih (fun c hc => hdiv c (by simp [hc])) (fun c hc => hsm c (by simp [hc])) _ m1 b1 g1 hcap2
    refine ⟨m2, b2, g2, fun x => ?_, by rw [List.map_cons, List.sum_cons, hlen]; omega⟩
    rw [x2, x1]
    have hmem : nd * x ∈ c.2 ↔ x ∈ cs := by
      rw [hcs]
      constructor
      · intro hx
        obtain ⟨y, hy, he⟩ := List.mem_map.1 hx
        rw [← Nat.eq_of_mul_eq_mul_left hnd he]
        exact hy
      · intro hx; exact List.mem_map.2 ⟨x, hx, rfl⟩
    simp only [List.mem_cons, exists_eq_or_imp, hmem, or_assoc]

theorem mem_conns (L : Local) (nalu : ℕ → ℕ) (ents : List (List ℕ)) (i x : ℕ)
    (hx : x ∈ buildConnections L nalu ents i) : ∃ ns ∈ ents, x ∈ ns := by
  have hins : ∀ (P : ℕ → Prop) (c : ℕ → List ℕ) (a b : ℕ), P b → (∀ i y, y ∈ c i → P y) →
      ∀ i y, y ∈ insertConnection L c a b i → P y := by
    intro P c a b hb hc i y hy
    unfold insertConnection at hy
    split at hy
    · exact hc i y hy
    · by_cases hi : i = L.rowLID a / L.numDof
      · subst hi
        rw [Function.update_self, List.mem_append] at hy
        rcases hy with hy | hy
        · exact hc _ y hy
        · simp only [List.mem_singleton] at hy; rw [hy]; exact hb
      · rw [Function.update_of_ne hi] at hy
        exact hc i y hy
  have hlater : ∀ (P : ℕ → Prop) (a : ℕ), P a → ∀ bs : List ℕ, (∀ b ∈ bs, P b) → ∀ c : ℕ → List ℕ,
      (∀ i y, y ∈ c i → P y) → ∀ i y, y ∈ addLater L nalu a bs c i → P y := by
    intro P a ha bs
    induction bs with
    | nil => intro _ c hc; exact hc
    | cons b bs ih =>
      intro hbs c hc
      rw [addLater]
      apply ih (fun b' hb' => hbs b' (by simp [hb']))
      split
      · exact hins P c a b (hbs b (by simp)) hc
      · exact hins P c b a ha hc
  have hadd : ∀ (P : ℕ → Prop) (ns : List ℕ), (∀ b ∈ ns, P b) → ∀ c : ℕ → List ℕ,
      (∀ i y, y ∈ c i → P y) → ∀ i y, y ∈ addConnections L nalu ns c i → P y := by
    intro P ns
    induction ns with
    | nil => intro _ c hc; exact hc
    | cons a as ih =>
      intro hns c hc
      rw [addConnections]
      apply ih (fun b' hb' => hns b' (by simp [hb']))
      apply hlater P a (hns a (by simp)) as (fun b' hb' => hns b' (by simp [hb']))
      exact hins P c a a (hns a (by simp)) hc
  have hbuild : ∀ (es : List (List ℕ)), (∀ ns ∈ es, ns ∈ ents) → ∀ c : ℕ → List ℕ,
      (∀ i y, y ∈ c i → ∃ ns ∈ ents, y ∈ ns) →
      ∀ i y, y ∈ es.foldl (fun conns ns => addConnections L nalu ns conns) c i → ∃ ns ∈ ents, y ∈ ns := by
    intro es
    induction es with
    | nil => intro _ c hc; exact hc
    | cons e es ih =>
      intro hes c hc
      rw [List.foldl_cons]
      apply ih (fun ns hns => hes ns (by simp [hns]))
      exact hadd (fun y => ∃ ns ∈ ents, y ∈ ns) e (fun b hb => ⟨e, hes e (by simp), hb⟩) c hc
  exact hbuild ents (fun _ h => h) (fun _ => []) (by simp) i x hx

/-- End to end: build the graph from a set of entities; then the row of any node of any of these
entities is a legal target of `sumInto` for that entity's contribution (C19 applies, nothing is
dropped), for any numbers of dofs (for three dofs: if no node repeats). -/
theorem c58_built_graph_accepts {R : Type*} [AddCommMonoid R] (L : Local) (nalu : ℕ → ℕ)
    (ents : List (List ℕ)) (rows : List ℕ) (hrows : RowsOK L rows (fun a => ∃ ns ∈ ents, a ∈ ns))
    (c : Contribution R) (hc : c.nodes ∈ ents) (a : ℕ) (ha : a ∈ c.nodes)
    (hdist : L.numDof = 3 → ∀ i < c.nodes.length, ∀ j < c.nodes.length,
      L.colLID (c.nodes.getD i 0) = L.colLID (c.nodes.getD j 0) → i = j) :
    let row := builtRow L rows (buildConnections L nalu ents) (L.rowLID a)
    let full := graphRowLength L rows (buildConnections L nalu ents) (L.rowLID a)
    RowAccepts L c ⟨trimmedLength row full full, fun p => (row p).toNat⟩ := by
  intro row full
  set conns := buildConnections L nalu ents with hconns
  have hdivAll : ∀ x ∈ graphCalls L rows conns, ∀ y ∈ x.2, L.numDof ∣ y := by
    intro x hx y hy
    unfold graphCalls at hx
    rw [List.mem_flatMap] at hx
    obtain ⟨z, hz, hx⟩ := hx
    have hz1 : z.1 ∈ rows := by
      have := List.mem_zipIdx_iff_getElem?.1 hz
      exact List.mem_of_getElem? this
    split at hx
    · simp at hx
    · rcases List.mem_cons.1 hx with rfl | hx
      · simp only at hy
        obtain ⟨w, hw, rfl⟩ := List.mem_map.1 hy
        obtain ⟨ns, hns, hwn⟩ := mem_conns L nalu ents z.2 w hw
        exact hrows.col w ⟨ns, hns, hwn⟩
      · obtain ⟨w, hw, rfl⟩ := List.mem_map.1 hx
        simp only [List.mem_singleton] at hy
        rw [hy]
        exact hrows.headCol _ hz1
  have hsmAll : ∀ x ∈ graphCalls L rows conns, ∀ y ∈ x.2, y + L.numDof ≤ 2147483647 := by
    intro x hx y hy
    unfold graphCalls at hx
    rw [List.mem_flatMap] at hx
    obtain ⟨z, hz, hx⟩ := hx
    have hz1 : z.1 ∈ rows := by
      have := List.mem_zipIdx_iff_getElem?.1 hz
      exact List.mem_of_getElem? this
    split at hx
    · simp at hx
    · rcases List.mem_cons.1 hx with rfl | hx
      · simp only at hy
        obtain ⟨w, hw, rfl⟩ := List.mem_map.1 hy
        obtain ⟨ns, hns, hwn⟩ := mem_conns L nalu ents z.2 w hw
        exact hrows.small w ⟨ns, hns, hwn⟩
      · obtain ⟨w, hw, rfl⟩ := List.mem_map.1 hx
        simp only [List.mem_singleton] at hy
        rw [hy]
        exact hrows.headSmall _ hz1
  obtain ⟨m, b, g, hx, -⟩ := build_fold hrows.dof
    ((graphCalls L rows conns).filter (fun c => c.1 = L.rowLID a))
    (fun x hx => hdivAll x (List.mem_filter.1 hx).1)
    (fun x hx => hsmAll x (List.mem_filter.1 hx).1) (fun _ => INVALID) 0 (fun _ => 0)
    (c57_empty_row L.numDof full)
    (by rw [Nat.zero_add]; exact (c58_row_length L rows conns (L.rowLID a)).ge)
  have g' : GraphRow L.numDof full row m b := g
  have hin : ∀ i < c.nodes.length, ∃ q < m, L.colLID (c.nodes.getD i 0) = L.numDof * b q := by
    intro i hi
    have hmem : c.nodes.getD i 0 ∈ c.nodes := by
      rw [List.getD_eq_getElem?_getD, List.getElem?_eq_getElem hi]; exact List.getElem_mem hi
    obtain ⟨x, hxm, hx1, hx2⟩ := c58_couplings_inserted L nalu ents rows hrows c.nodes hc a _ ha hmem
    obtain ⟨y, hy⟩ := hrows.col _ ⟨c.nodes, hc, hmem⟩
    obtain ⟨q, hq, hbq⟩ := (hx y).2 (Or.inr ⟨x, List.mem_filter.2 ⟨hxm, by simpa using hx1⟩, by rw [← hy]; exact hx2⟩)
    exact ⟨q, hq, by rw [hbq, hy]⟩
  have hm : 0 < m := by
    obtain ⟨i, hi, hgi⟩ := List.mem_iff_getElem.1 ha
    obtain ⟨q, hq, _⟩ := hin i hi
    omega
  have htrim := c57_trimmed_length g' hrows.dof hm
  rw [htrim]
  exact c57_row_accepts L c hrows.dof g' hin hdist

/-- identity numbering, two dofs, three nodes -/
def exLocal : Local where
  numDof := 2
  maxOwned := 6
  maxShared := 6
  ownedRow := fun _ => ⟨0, id⟩
  sharedRow := fun _ => ⟨0, id⟩
  rowLID := fun n => 2 * n
  colLID := fun n => 2 * n

/-- Concrete case: two elements sharing a node. -/
example : RowsOK exLocal [0, 1, 2]
    (fun a => ∃ ns ∈ [[0, 1], [2, 1]], a ∈ ns) := by
  have h3 : ∀ a, (∃ ns ∈ [[0, 1], [2, 1]], a ∈ ns) → a = 0 ∨ a = 1 ∨ a = 2 := by
    intro a ha; simp at ha; omega
  refine ⟨by decide, ?_, fun a _ => ⟨a, rfl⟩, fun a _ => ⟨a, rfl⟩, ?_, by decide⟩
  · intro a ha
    rcases h3 a ha with rfl | rfl | rfl <;> exact ⟨_, rfl, rfl, rfl⟩
  · intro a ha
    rcases h3 a ha with rfl | rfl | rfl <;> decide

end Verif.LinSys
