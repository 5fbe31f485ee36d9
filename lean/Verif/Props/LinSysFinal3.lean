import Verif.Props.LinSysFinal2

/-!
# C293 (shared rows), C294 (messages), C295 (owner's rows)
-/

set_option linter.unusedSimpArgs false

namespace Verif.LinSys

/-! ## C293: the rows of shared, not owned unknowns are not trimmed -/

theorem calls_div_small (L : Local) (nalu : ℕ → ℕ) (ents : List (List ℕ)) (rows : List ℕ)
    (hrows : RowsOK L rows (fun a => ∃ ns ∈ ents, a ∈ ns)) :
    ∀ x ∈ graphCalls L rows (buildConnections L nalu ents), ∀ y ∈ x.2,
      L.numDof ∣ y ∧ y + L.numDof ≤ 2147483647 := by
  intro x hx y hy
  unfold graphCalls at hx
  rw [List.mem_flatMap] at hx
  obtain ⟨z, hz, hx⟩ := hx
  have hz1 : z.1 ∈ rows := by
    have := List.mem_zipIdx_iff_getElem?.1 hz
    exact List.mem_of_getElem? this
  split at hx
  · simp at hx
  · rcases List.mem_cons.1 hx with rfl | hx
    · simp only at hy
      obtain ⟨w, hw, rfl⟩ := List.mem_map.1 hy
      obtain ⟨ns, hns, hwn⟩ := mem_conns L nalu ents z.2 w hw
      exact ⟨hrows.col w ⟨ns, hns, hwn⟩, hrows.small w ⟨ns, hns, hwn⟩⟩
    · obtain ⟨w, hw, rfl⟩ := List.mem_map.1 hx
      simp only [List.mem_singleton] at hy
      rw [hy]
      exact ⟨hrows.headCol _ hz1, hrows.headSmall _ hz1⟩

/-- All columns inserted into row `r`, with repetitions. -/
def insertedInto (calls : List (ℕ × List ℕ)) (r : ℕ) : List ℕ :=
  (calls.filter (fun c => c.1 = r)).flatMap (fun c => c.2)

/-- `remove_invalid_indices` is applied to the owned rows only (src/TpetraLinearSystem.C:1298).  A row whose
insertions repeat a column - which happens as soon as two periodic images of one node are connected to it,
or the node's own image occurs in an element - therefore keeps an `INVALID` slot at its end if the unknown
is shared and not owned. -/
theorem c293_repeated_column_leaves_invalid (L : Local) (nalu : ℕ → ℕ) (ents : List (List ℕ))
    (rows : List ℕ) (hrows : RowsOK L rows (fun a => ∃ ns ∈ ents, a ∈ ns)) (r : ℕ)
    (hdup : ¬ (insertedInto (graphCalls L rows (buildConnections L nalu ents)) r).Nodup) :
    builtRow L rows (buildConnections L nalu ents) r
      (graphRowLength L rows (buildConnections L nalu ents) r - 1) = INVALID := by
  set conns := buildConnections L nalu ents with hconns
  have hds := calls_div_small L nalu ents rows hrows
  set calls := (graphCalls L rows conns).filter (fun c => c.1 = r) with hcalls
  obtain ⟨m, b, g, hx, -⟩ := build_fold hrows.dof calls
    (fun x hx y hy => (hds x (List.mem_filter.1 hx).1 y hy).1)
    (fun x hx y hy => (hds x (List.mem_filter.1 hx).1 y hy).2) (fun _ => INVALID) 0 (fun _ => 0)
    (c57_empty_row L.numDof (graphRowLength L rows conns r))
    (by rw [Nat.zero_add]; exact (c58_row_length L rows conns r).ge)
  have hlen := c58_row_length L rows conns r
  have hflat : (calls.map (fun c => c.2.length)).sum = (insertedInto (graphCalls L rows conns) r).length := by
    unfold insertedInto
    rw [List.length_flatMap]
  have hm : m ≤ (insertedInto (graphCalls L rows conns) r).dedup.length := by
    have hsub : (Finset.range m).image (fun q => L.numDof * b q) ⊆
        (insertedInto (graphCalls L rows conns) r).toFinset := by
      intro y hy
      obtain ⟨q, hq, rfl⟩ := Finset.mem_image.1 hy
      rcases (hx (b q)).1 ⟨q, Finset.mem_range.1 hq, rfl⟩ with ⟨q', hq', _⟩ | ⟨c, hc, hc2⟩
      · omega
      · rw [List.mem_toFinset]
        exact List.mem_flatMap.2 ⟨c, hc, hc2⟩
    have hcard : ((Finset.range m).image (fun q => L.numDof * b q)).card = m := by
      rw [Finset.card_image_of_injOn, Finset.card_range]
      intro q hq q' hq' he
      simp only [Finset.coe_range, Set.mem_Iio] at hq hq'
      have he' : b q = b q' := Nat.eq_of_mul_eq_mul_left hrows.dof he
      rcases Nat.lt_trichotomy q q' with hl | hl | hl
      · have := g.mono q q' hl hq'; omega
      · exact hl
      · have := g.mono q' q hl hq; omega
    have := Finset.card_le_card hsub
    rw [hcard, List.card_toFinset] at this
    exact this
  have hlt : (insertedInto (graphCalls L rows conns) r).dedup.length <
      (insertedInto (graphCalls L rows conns) r).length := by
    have h1 := (List.dedup_sublist (insertedInto (graphCalls L rows conns) r)).length_le
    rcases Nat.lt_or_ge (insertedInto (graphCalls L rows conns) r).dedup.length
      (insertedInto (graphCalls L rows conns) r).length with h | h
    · exact h
    · exact absurd (List.dedup_eq_self.1 ((List.dedup_sublist _).eq_of_length (by omega))) hdup
  have hfull : graphRowLength L rows conns r = L.numDof * (insertedInto (graphCalls L rows conns) r).length := by
    rw [hlen]; unfold insertCount; rw [← hflat]
  have hlt2 : L.numDof * m < graphRowLength L rows conns r := by
    rw [hfull]
    exact Nat.mul_lt_mul_of_pos_left (by omega) hrows.dof
  exact g.unused _ (by omega) (by omega)

/-- two periodic images `0` and `3` of one node (same row, same column), one component -/
def exPeriodic : Local where
  numDof := 1
  maxOwned := 0
  maxShared := 3
  ownedRow := fun _ => ⟨0, id⟩
  sharedRow := fun _ => ⟨0, id⟩
  rowLID := fun n => if n = 3 then 0 else n
  colLID := fun n => if n = 3 then 0 else n

/-- Concrete case: the line elements 0-1, 1-2, 2-3 of a periodic domain. -/
example : RowsOK exPeriodic [0, 1, 2] (fun a => ∃ ns ∈ [[0, 1], [1, 2], [2, 3]], a ∈ ns) ∧
    ¬ (insertedInto (graphCalls exPeriodic [0, 1, 2]
        (buildConnections exPeriodic (fun n => if n = 3 then 1 else n + 1) [[0, 1], [1, 2], [2, 3]])) 0).Nodup := by
  refine ⟨?_, by decide⟩
  have h3 : ∀ a, (∃ ns ∈ [[0, 1], [1, 2], [2, 3]], a ∈ ns) → a = 0 ∨ a = 1 ∨ a = 2 ∨ a = 3 := by
    intro a ha; simp at ha; omega
  refine ⟨by decide, ?_, fun a _ => ⟨exPeriodic.colLID a, by simp [exPeriodic]⟩,
    fun a _ => ⟨exPeriodic.colLID a, by simp [exPeriodic]⟩, ?_, by decide⟩
  · intro a ha
    rcases h3 a ha with rfl | rfl | rfl | rfl <;> exact ⟨_, rfl, rfl, rfl⟩
  · intro a ha
    rcases h3 a ha with rfl | rfl | rfl | rfl <;> decide

/-! ## C294: the owner of a row reads exactly what was sent to it -/

theorem unpackCols_pack (cols : List (ℕ × ℕ)) (rest : List ℕ) :
    unpackCols cols.length (cols.flatMap (fun c => [c.1, c.2]) ++ rest) = (cols, rest) := by
  induction cols with
  | nil => rfl
  | cons c cols ih =>
    simp only [List.length_cons, List.flatMap_cons, List.cons_append, List.nil_append, unpackCols,
      List.drop_succ_cons, List.drop_zero, List.getD_cons_zero, List.getD_cons_succ]
    rw [ih]

theorem unpackAll_pack (ms : List Msg) : ∀ fuel, (ms.flatMap packMsg).length < fuel →
    unpackAll fuel (ms.flatMap packMsg) = ms.map (fun m => (m.row, m.cols)) := by
  induction ms with
  | nil =>
    intro fuel h
    cases fuel with
    | zero => omega
    | succ f => rfl
  | cons m ms ih =>
    intro fuel h
    cases fuel with
    | zero => omega
    | succ f =>
      rw [List.flatMap_cons] at h ⊢
      simp only [packMsg, List.cons_append, unpackAll, List.getD_cons_zero, List.drop_succ_cons,
        List.drop_zero, Nat.mul_div_cancel _ (by decide : 0 < 2)]
      rw [unpackCols_pack]
      simp only [List.map_cons]
      rw [ih f (by simp only [packMsg, List.length_append, List.length_cons] at h; omega)]

/-- **C294.** What process `q` reads from its receive buffers is exactly the list of records the processes
packed for it - same rows, same columns and owners, in the sending order - for any number of processes and
records; it reads them twice (once for the lengths, once for the insertion) with the same result. -/
theorem c294_received (procs : List GraphProc) (q : ℕ) :
    received procs q = (procs.flatMap (fun P => (sendMsgs P).filter (fun m => m.dest = q))).map
      (fun m => (m.row, m.cols)) := by
  unfold received
  rw [List.map_flatMap]
  congr 1
  funext P
  simp only [sendBuffer]
  exact unpackAll_pack _ _ (Nat.lt_succ_self _)

/-- The records of a process describe exactly its insertions into shared rows: whenever it inserts the
column of node `b` into the row of a shared node `a`, the owner of `a` gets a record with the row of `a` and
the column of `b` together with the owner of `b`. -/
theorem c294_every_shared_coupling_sent (P : GraphProc) (a b : ℕ) (e : ℕ) (i : ℕ) (hi : P.rows[i]? = some e)
    (hc : (a = e ∧ b ∈ P.conns i ∧ P.shared e) ∨ (b = e ∧ a ∈ P.conns i ∧ a ≠ e ∧ P.shared a)) :
    ∃ m ∈ sendMsgs P, m.dest = P.owner a ∧ m.row = GID (P.nalu a) P.L.numDof 0 ∧
      (GID (P.nalu b) P.L.numDof 0, P.owner b) ∈ m.cols := by
  have hz : (e, i) ∈ P.rows.zipIdx := List.mem_zipIdx_iff_getElem?.2 hi
  rcases hc with ⟨rfl, hb, hs⟩ | ⟨rfl, ha, hne, hs⟩
  · refine ⟨⟨P.owner a, GID (P.nalu a) P.L.numDof 0,
        (P.conns i).map (fun b => (GID (P.nalu b) P.L.numDof 0, P.owner b))⟩, ?_, rfl, rfl, ?_⟩
    · unfold sendMsgs
      rw [List.mem_flatMap]
      exact ⟨(a, i), hz, by simp [hs]⟩
    · exact List.mem_map.2 ⟨b, hb, rfl⟩
  · refine ⟨⟨P.owner a, GID (P.nalu a) P.L.numDof 0, [(GID (P.nalu b) P.L.numDof 0, P.owner b)]⟩,
      ?_, rfl, rfl, by simp⟩
    unfold sendMsgs
    rw [List.mem_flatMap]
    refine ⟨(b, i), hz, List.mem_append_right _ ?_⟩
    exact List.mem_map.2 ⟨a, List.mem_filter.2 ⟨ha, by simp [hne, hs]⟩, rfl⟩

/-- Conversely nothing is sent that is not such a coupling, and nothing to a process other than the owner. -/
theorem c294_only_couplings_sent (P : GraphProc) (m : Msg) (hm : m ∈ sendMsgs P) (c : ℕ × ℕ) (hc : c ∈ m.cols) :
    ∃ a b e i, P.rows[i]? = some e ∧
      ((a = e ∧ b ∈ P.conns i ∧ P.shared e) ∨ (b = e ∧ a ∈ P.conns i ∧ a ≠ e ∧ P.shared a)) ∧
      m.dest = P.owner a ∧ m.row = GID (P.nalu a) P.L.numDof 0 ∧
      c = (GID (P.nalu b) P.L.numDof 0, P.owner b) := by
  unfold sendMsgs at hm
  rw [List.mem_flatMap] at hm
  obtain ⟨⟨e, i⟩, hz, hm⟩ := hm
  have hi := List.mem_zipIdx_iff_getElem?.1 hz
  rcases List.mem_append.1 hm with hm | hm
  · split_ifs at hm with hs
    · rw [List.mem_singleton] at hm
      subst hm
      obtain ⟨b, hb, rfl⟩ := List.mem_map.1 hc
      exact ⟨e, b, e, i, hi, Or.inl ⟨rfl, hb, hs⟩, rfl, rfl, rfl⟩
    · simp at hm
  · obtain ⟨a, ha, rfl⟩ := List.mem_map.1 hm
    obtain ⟨ha1, ha2⟩ := List.mem_filter.1 ha
    simp only [decide_eq_true_eq] at ha2
    simp only [List.mem_singleton] at hc
    exact ⟨a, e, e, i, hi, Or.inr ⟨rfl, ha1, ha2.1, ha2.2⟩, rfl, rfl, hc⟩

/-! ## C295: the rows of the owner -/

theorem addReceivedLength_apply (nd lid n : ℕ) (lens : ℕ → ℕ) (x : ℕ) :
    addReceivedLength nd lid n lens x = lens x + if lid ≤ x ∧ x < lid + nd then n * nd else 0 := by
  unfold addReceivedLength
  have : ∀ k, ((List.range k).foldl
      (fun l d => Function.update l (lid + d) (l (lid + d) + n * nd)) lens) x =
      lens x + if lid ≤ x ∧ x < lid + k then n * nd else 0 := by
    intro k
    induction k generalizing x with
    | zero => rw [if_neg (by omega)]; rfl
    | succ k ih =>
      rw [List.range_succ, List.foldl_append, List.foldl_cons, List.foldl_nil]
      by_cases h : x = lid + k
      · subst h
        rw [Function.update_self, ih, if_neg (by omega), if_pos (by omega)]
        omega
      · rw [Function.update_of_ne h, ih]
        by_cases h2 : lid ≤ x ∧ x < lid + k
        · rw [if_pos h2, if_pos (by omega)]
        · rw [if_neg h2, if_neg (by omega)]
  exact this nd

/-- **C295.** Lengths: component `d` of the node whose first row is `r` gets, on top of its local length,
`numDof` slots for every column received for that node (with repetitions), the same for all components. -/
theorem c295_received_lengths (nd : ℕ) (lidOf : ℕ → ℕ) (rs : List (ℕ × List (ℕ × ℕ)))
    (halign : ∀ m ∈ rs, nd ∣ lidOf m.1) (lens : ℕ → ℕ) (r d : ℕ) (hr : nd ∣ r) (hd : d < nd) :
    receivedLengths nd lidOf rs lens (r + d) =
      lens (r + d) + nd * ((rs.filter (fun m => lidOf m.1 = r)).map (fun m => m.2.length)).sum := by
  unfold receivedLengths
  induction rs generalizing lens with
  | nil => simp
  | cons m rs ih =>
    rw [List.foldl_cons, ih (fun m' hm' => halign m' (by simp [hm'])), addReceivedLength_apply]
    obtain ⟨u, hu⟩ := halign m (by simp)
    obtain ⟨v, hv⟩ := hr
    have hiff : (lidOf m.1 ≤ r + d ∧ r + d < lidOf m.1 + nd) ↔ lidOf m.1 = r := by
      constructor
      · rintro ⟨h1, h2⟩
        rw [hu, hv] at *
        have h3 : u < v + 1 := by
          by_contra hcon
          have : nd * (v + 1) ≤ nd * u := Nat.mul_le_mul_left _ (by omega)
          rw [Nat.mul_add] at this; omega
        have h4 : v < u + 1 := by
          by_contra hcon
          have : nd * (u + 1) ≤ nd * v := Nat.mul_le_mul_left _ (by omega)
          rw [Nat.mul_add] at this; omega
        have : u = v := by omega
        rw [this]
      · intro h; omega
    rw [List.filter_cons]
    by_cases h : lidOf m.1 = r
    · rw [if_pos (hiff.2 h), if_pos (by simpa using h), List.map_cons, List.sum_cons]
      ring
    · rw [if_neg (fun hh => h (hiff.1 hh)), if_neg (by simpa using h)]
      omega

/-- **C295.** Row contents: with that capacity the owner's row, after the local and the received insertions,
holds exactly the columns inserted locally and the columns received for it, sorted, each once. -/
theorem c295_final_row (L : Local) (nalu : ℕ → ℕ) (ents : List (List ℕ)) (rows : List ℕ)
    (hrows : RowsOK L rows (fun a => ∃ ns ∈ ents, a ∈ ns)) (lidOf colOf : ℕ → ℕ)
    (rs : List (ℕ × List (ℕ × ℕ)))
    (hcol : ∀ m ∈ rs, ∀ c ∈ m.2, L.numDof ∣ colOf c.1 ∧ colOf c.1 + L.numDof ≤ 2147483647) (r : ℕ) :
    let conns := buildConnections L nalu ents
    let cap := graphRowLength L rows conns r +
      L.numDof * ((rs.filter (fun m => lidOf m.1 = r)).map (fun m => m.2.length)).sum
    ∃ m b, GraphRow L.numDof cap (finalRow L rows conns lidOf colOf rs cap r) m b ∧
      ∀ x, (∃ q < m, b q = x) ↔
        Inserted (graphCalls L rows conns) r (L.numDof * x) ∨
        ∃ msg ∈ rs, lidOf msg.1 = r ∧ ∃ c ∈ msg.2, colOf c.1 = L.numDof * x := by
  intro conns cap
  have hds := calls_div_small L nalu ents rows hrows
  set extra : List (ℕ × List ℕ) := rs.map (fun m => (lidOf m.1, m.2.map (fun c => colOf c.1))) with hextra
  have hextra' : ∀ x ∈ extra, ∀ y ∈ x.2, L.numDof ∣ y ∧ y + L.numDof ≤ 2147483647 := by
    intro x hx y hy
    rw [hextra, List.mem_map] at hx
    obtain ⟨m, hm, rfl⟩ := hx
    simp only [List.mem_map] at hy
    obtain ⟨c, hc, rfl⟩ := hy
    exact hcol m hm c hc
  have hall : ∀ x ∈ (graphCalls L rows conns ++ extra).filter (fun c => c.1 = r), ∀ y ∈ x.2,
      L.numDof ∣ y ∧ y + L.numDof ≤ 2147483647 := by
    intro x hx y hy
    rcases List.mem_append.1 (List.mem_filter.1 hx).1 with h | h
    · exact hds x h y hy
    · exact hextra' x h y hy
  have hcount : L.numDof * ((((graphCalls L rows conns ++ extra).filter (fun c => c.1 = r)).map
      (fun c => c.2.length)).sum) = cap := by
    rw [List.filter_append, List.map_append, List.sum_append, Nat.mul_add]
    congr 1
    · exact (c58_row_length L rows conns r).symm
    · congr 1
      rw [hextra, List.filter_map, List.map_map]
      simp [Function.comp_def]
  obtain ⟨m, b, g, hx, -⟩ := build_fold hrows.dof
    ((graphCalls L rows conns ++ extra).filter (fun c => c.1 = r))
    (fun x hx y hy => (hall x hx y hy).1) (fun x hx y hy => (hall x hx y hy).2)
    (fun _ => INVALID) 0 (fun _ => 0) (c57_empty_row L.numDof cap)
    (by rw [Nat.zero_add]; exact hcount.le)
  refine ⟨m, b, g, fun x => ?_⟩
  rw [hx x]
  constructor
  · rintro (⟨q, hq, _⟩ | ⟨c, hc, hc2⟩)
    · omega
    · obtain ⟨h1, h2⟩ := List.mem_filter.1 hc
      simp only [decide_eq_true_eq] at h2
      rcases List.mem_append.1 h1 with h | h
      · exact Or.inl ⟨c, h, h2, hc2⟩
      · rw [hextra, List.mem_map] at h
        obtain ⟨msg, hmsg, rfl⟩ := h
        simp only [List.mem_map] at hc2
        obtain ⟨cc, hcc, he⟩ := hc2
        exact Or.inr ⟨msg, hmsg, h2, cc, hcc, he⟩
  · rintro (⟨c, hc, h1, h2⟩ | ⟨msg, hmsg, h1, c, hc, h2⟩)
    · exact Or.inr ⟨c, List.mem_filter.2 ⟨List.mem_append_left _ hc, by simpa using h1⟩, h2⟩
    · refine Or.inr ⟨(lidOf msg.1, msg.2.map (fun c => colOf c.1)), List.mem_filter.2
        ⟨List.mem_append_right _ (List.mem_map.2 ⟨msg, hmsg, rfl⟩), by simpa using h1⟩, ?_⟩
      exact List.mem_map.2 ⟨c, hc, h2⟩

end Verif.LinSys
