import Verif.Props.LinSysFinal4

/-!
# C298-C300: every coupling reaches the owner's row; message buffers; the other graph builders
-/

set_option linter.unusedSimpArgs false

namespace Verif.LinSys

/-! ## C298: end to end -/

/-- One process with its entities: the connections are those of `addConnections` over its node lists, the row
list is indexed by the local numbering (`RowsOK`), and nodes of one row (a node and its periodic images) have
one identifier, one owner and one status. -/
structure GraphProcOK (P : GraphProc) (ents : List (List ℕ)) : Prop where
  rows : RowsOK P.L P.rows (fun a => ∃ ns ∈ ents, a ∈ ns)
  conns : P.conns = buildConnections P.L P.nalu ents
  same : ∀ a, (∃ ns ∈ ents, a ∈ ns) → ∀ e, P.rows[P.L.rowLID a / P.L.numDof]? = some e →
    P.nalu e = P.nalu a ∧ P.owner e = P.owner a ∧ P.shared e = P.shared a

/-- Whenever two nodes `a`, `b` share an entity on a process where `a` is shared but not owned, that process
tells the owner of `a` about the coupling. -/
theorem c298_owner_is_told (P : GraphProc) (ents : List (List ℕ)) (h : GraphProcOK P ents) (ns : List ℕ)
    (hns : ns ∈ ents) (a b : ℕ) (ha : a ∈ ns) (hb : b ∈ ns) (hs : P.shared a = true) :
    ∃ m ∈ sendMsgs P, m.dest = P.owner a ∧ m.row = GID (P.nalu a) P.L.numDof 0 ∧
      (GID (P.nalu b) P.L.numDof 0, P.owner b) ∈ m.cols := by
  have hA : ∃ ns ∈ ents, a ∈ ns := ⟨ns, hns, ha⟩
  have hB : ∃ ns ∈ ents, b ∈ ns := ⟨ns, hns, hb⟩
  obtain ⟨ea, hea, -, -⟩ := h.rows.head a hA
  obtain ⟨eb, heb, -, -⟩ := h.rows.head b hB
  obtain ⟨na, oa, sa⟩ := h.same a hA ea hea
  obtain ⟨nb, ob, -⟩ := h.same b hB eb heb
  have hself : Conn P.L P.conns a a ∨ Conn P.L P.conns a a := by
    rw [h.conns]
    exact buildConnections_spec P.L P.nalu ents ns hns a ha a ha
  have hab : Conn P.L P.conns a b ∨ Conn P.L P.conns b a := by
    rw [h.conns]
    exact buildConnections_spec P.L P.nalu ents ns hns a ha b hb
  rcases hab with hc | hc
  · obtain ⟨m, hm, h1, h2, h3⟩ := c294_every_shared_coupling_sent P ea b ea _ hea
      (Or.inl ⟨rfl, hc, by rw [sa]; exact hs⟩)
    exact ⟨m, hm, by rw [h1, oa], by rw [h2, na], h3⟩
  · by_cases he : a = eb
    · -- `a` heads the row of `b`: both are the same unknown
      have hcb : a ∈ P.conns (P.L.rowLID b / P.L.numDof) := hc
      obtain ⟨m, hm, h1, h2, h3⟩ := c294_every_shared_coupling_sent P eb a eb _ heb
        (Or.inl ⟨rfl, hcb, by rw [← he]; exact hs⟩)
      refine ⟨m, hm, by rw [h1, ← he], by rw [h2, ← he], ?_⟩
      rw [he, nb, ob] at h3
      exact h3
    · obtain ⟨m, hm, h1, h2, h3⟩ := c294_every_shared_coupling_sent P a eb eb _ heb
        (Or.inr ⟨rfl, hc, he, hs⟩)
      exact ⟨m, hm, h1, h2, by rw [nb, ob] at h3; exact h3⟩

/-- What the owner `Q` (process number `q`) makes of the received records. -/
structure OwnerOK (Q : GraphProc) (ents : List (List ℕ)) (procs : List GraphProc) (q : ℕ)
    (cols : List ℕ) : Prop where
  proc : GraphProcOK Q ents
  /-- the columns are those of the column map, in blocks (C297) -/
  small : Q.L.numDof * cols.length ≤ 2147483647
  pos : ∀ n ∈ cols, 1 ≤ n
  /-- every reported column is in the column map (C296) -/
  present : ∀ m ∈ received procs q, ∀ c ∈ m.2, ∃ n ∈ cols, c.1 = GID n Q.L.numDof 0

/-- The hypothesis `present` follows from the column map: a node reported with an owner is a node of the column
map, provided the nodes reported as owned by this process are owned here. -/
theorem c298_reported_nodes_present (me : ℕ) (owned shared : List ℕ) (nodes : List (ℕ × ℕ)) (p n : ℕ)
    (h : (p, n) ∈ nodes) (hme : p = me → n ∈ owned) : n ∈ columnNodes me owned shared nodes := by
  unfold columnNodes
  by_cases h1 : n ∈ owned
  · simp [h1]
  · by_cases h2 : n ∈ shared
    · simp [h2]
    · apply List.mem_append_right
      refine List.mem_map.2 ⟨(p, n), List.mem_filter.2 ⟨(mem_ownersInOrder _ _).2 h, ?_⟩, rfl⟩
      simp only [decide_eq_true_eq]
      exact ⟨fun hp => h1 (hme hp), h1, h2⟩

/-- **C298.** Any number of processes: if on process `P` the nodes `a` and `b` belong to one element (or face,
edge, non-conformal pair, ...) and the unknown of `a` is owned by process `q`, then in the graph of process
`q`, after the exchange, the row of `a` contains the column of `b`; the row is sorted, free of duplicates and
fits its computed length.  So an element contribution assembled on any process has a slot to be added into
at the owner. -/
theorem c298_owner_row_has_every_coupling (procs : List GraphProc) (P Q : GraphProc) (entsP entsQ : List (List ℕ))
    (hP : GraphProcOK P entsP) (hPin : P ∈ procs) (q : ℕ) (lidOf : ℕ → ℕ) (cols : List ℕ)
    (hQ : OwnerOK Q entsQ procs q cols) (hdof : P.L.numDof = Q.L.numDof)
    (ns : List ℕ) (hns : ns ∈ entsP) (a b : ℕ) (ha : a ∈ ns) (hb : b ∈ ns)
    (hs : P.shared a = true) (ho : P.owner a = q) (hpos : 1 ≤ P.nalu b) :
    let r := lidOf (GID (P.nalu a) Q.L.numDof 0)
    let rs := received procs q
    let colOf := localElement (blocks Q.L.numDof cols)
    let cap := graphRowLength Q.L Q.rows (buildConnections Q.L Q.nalu entsQ) r +
      Q.L.numDof * ((rs.filter (fun m => lidOf m.1 = r)).map (fun m => m.2.length)).sum
    P.nalu b ∈ cols ∧
    ∃ m blk, GraphRow Q.L.numDof cap
        (finalRow Q.L Q.rows (buildConnections Q.L Q.nalu entsQ) lidOf colOf rs cap r) m blk ∧
      ∃ k < m, blk k = cols.idxOf (P.nalu b) ∧
        colOf (GID (P.nalu b) Q.L.numDof 0) = Q.L.numDof * blk k := by
  intro r rs colOf cap
  have hnd := hQ.proc.rows.dof
  obtain ⟨m, hm, hdest, hrow, hcolm⟩ := c298_owner_is_told P entsP hP ns hns a b ha hb hs
  have hrec : (m.row, m.cols) ∈ rs := by
    rw [show rs = received procs q from rfl, c294_received]
    refine List.mem_map.2 ⟨m, List.mem_flatMap.2 ⟨P, hPin, List.mem_filter.2 ⟨hm, ?_⟩⟩, rfl⟩
    simp [hdest, ho]
  have hcolLid : ∀ msg ∈ rs, ∀ c ∈ msg.2, ∃ n ∈ cols, c.1 = GID n Q.L.numDof 0 ∧
      colOf c.1 = Q.L.numDof * cols.idxOf n := by
    intro msg hmsg c hc
    obtain ⟨n, hn, he⟩ := hQ.present msg hmsg c hc
    refine ⟨n, hn, he, ?_⟩
    rw [he]
    have := idxOf_blocks Q.L.numDof cols hQ.pos n 0 hn hnd
    simpa [colOf, localElement] using this
  obtain ⟨n, hn, hne, hnc⟩ := hcolLid _ hrec _ hcolm
  have hnb : P.nalu b = n := by
    simp only [hdof] at hne
    exact (gid_inj hpos (hQ.pos n hn) hnd hnd hne).1
  have hok : ∀ msg ∈ rs, ∀ c ∈ msg.2, Q.L.numDof ∣ colOf c.1 ∧ colOf c.1 + Q.L.numDof ≤ 2147483647 := by
    intro msg hmsg c hc
    obtain ⟨n', hn', -, he⟩ := hcolLid msg hmsg c hc
    refine ⟨⟨_, he⟩, ?_⟩
    rw [he]
    have h1 := List.idxOf_lt_length_of_mem hn'
    have h2 : Q.L.numDof * (cols.idxOf n' + 1) ≤ Q.L.numDof * cols.length := Nat.mul_le_mul_left _ h1
    rw [Nat.mul_add] at h2
    have := hQ.small
    omega
  obtain ⟨mm, blk, g, hx⟩ := c295_final_row Q.L Q.nalu entsQ Q.rows hQ.proc.rows lidOf colOf rs hok r
  refine ⟨by rw [hnb]; exact hn, mm, blk, g, ?_⟩
  have hcol2 : colOf (GID (P.nalu b) Q.L.numDof 0) = Q.L.numDof * cols.idxOf n := by
    simp only [hdof] at hnc
    exact hnc
  obtain ⟨k, hk, hbk⟩ := (hx (cols.idxOf n)).2 (Or.inr ⟨(m.row, m.cols), hrec, by
    simp only [r]; rw [hrow, hdof], _, hcolm, hnc⟩)
  exact ⟨k, hk, by rw [hbk, hnb], by rw [hcol2, hbk]⟩

/-- Two processes, nodes 1-2-3 on a line, one component: process 0 owns 1 and 2 and has the element 1-2;
process 1 owns 3, shares 2 and has the element 2-3. -/
def exL1 : Local where
  numDof := 1
  maxOwned := 1
  maxShared := 2
  ownedRow := fun _ => ⟨0, id⟩
  sharedRow := fun _ => ⟨0, id⟩
  rowLID := fun n => if n = 3 then 0 else 1
  colLID := fun n => if n = 3 then 0 else 1

/-- process 1 of that example -/
def exP1 : GraphProc where
  L := exL1
  rows := [3, 2]
  conns := buildConnections exL1 id [[2, 3]]
  nalu := id
  owner := fun n => if n = 3 then 1 else 0
  shared := fun n => n = 2

/-- Concrete case: process 0 is told that its row 2 couples to column 3 of process 1. -/
example : received [exP1] 0 = [(2, [(2, 0), (3, 1)])] ∧ sendMsgs exP1 = [⟨0, 2, [(2, 0), (3, 1)]⟩] := by
  have h : sendMsgs exP1 = [⟨0, 2, [(2, 0), (3, 1)]⟩] := by decide
  refine ⟨?_, h⟩
  rw [c294_received]
  simp [h]

example : GraphProcOK exP1 [[2, 3]] := by
  have h3 : ∀ a, (∃ ns ∈ [[2, 3]], a ∈ ns) → a = 2 ∨ a = 3 := by intro a ha; simpa using ha
  refine ⟨⟨by decide, ?_, fun a _ => ⟨exP1.L.colLID a, by simp [exP1, exL1]⟩,
    fun a _ => ⟨exP1.L.colLID a, by simp [exP1, exL1]⟩, ?_, by decide⟩, rfl, ?_⟩
  · intro a ha
    rcases h3 a ha with rfl | rfl <;> exact ⟨_, rfl, rfl, rfl⟩
  · intro a ha
    rcases h3 a ha with rfl | rfl <;> decide
  · intro a ha e he
    rcases h3 a ha with rfl | rfl
    · simp [exP1, exL1] at he; subst he; simp
    · simp [exP1, exL1] at he; subst he; simp

/-! ## C299: the send buffers are large enough -/

theorem sum_filter_le (w n : ℕ) (l : List ℕ) (p : ℕ → Prop) [DecidablePred p] (hn : l.length ≤ n) :
    ((l.filter (fun b => p b)).map (fun _ => w + w)).sum ≤ ((l.filter (fun b => p b)).map (fun _ => (1 + n) * w)).sum := by
  apply List.sum_le_sum
  intro b hb
  have : 0 < n := by
    have h1 := List.length_pos_of_mem (List.mem_filter.1 hb).1
    omega
  have h2 : 2 * w ≤ (1 + n) * w := Nat.mul_le_mul_right _ (by omega)
  omega

/-- **C299.** The space reserved for a destination is at least what is packed for it, for every process,
destination and message list (`g`, `k` the sizes of a global id and of an integer). -/
theorem c299_reserved_suffices (P : GraphProc) (g k q : ℕ) :
    (((sendMsgs P).filter (fun m => m.dest = q)).map (msgBytes g k)).sum ≤ reservedBytes P (g + k) q := by
  unfold sendMsgs reservedBytes
  generalize P.rows.zipIdx = zs
  induction zs with
  | nil => simp
  | cons z zs ih =>
    rw [List.flatMap_cons, List.filter_append, List.map_append, List.sum_append, List.map_cons, List.sum_cons]
    refine Nat.add_le_add ?_ ih
    rw [List.filter_append, List.map_append, List.sum_append]
    refine Nat.add_le_add ?_ ?_
    · by_cases hs : P.shared z.1 = true
      · rw [if_pos hs]
        by_cases ho : P.owner z.1 = q
        · rw [if_pos ⟨hs, ho⟩]
          simp [ho, msgBytes]
          ring_nf
          exact le_refl _
        · rw [if_neg (fun h => ho h.2)]
          simp [ho]
      · rw [if_neg hs]; simp
    · rw [List.filter_map, List.map_map, List.filter_filter]
      have hf : (P.conns z.2).filter (fun a => decide ((P.owner a) = q) && decide (a ≠ z.1 ∧ P.shared a = true)) =
          (P.conns z.2).filter (fun b => b ≠ z.1 ∧ P.shared b = true ∧ P.owner b = q) := by
        apply List.filter_congr
        intro b _
        by_cases h1 : P.owner b = q <;> by_cases h2 : b ≠ z.1 <;> by_cases h3 : P.shared b = true <;> simp [h1, h2, h3]
      have := sum_filter_le (g + k) (P.conns z.2).length (P.conns z.2)
        (fun b => b ≠ z.1 ∧ P.shared b = true ∧ P.owner b = q) le_rfl
      simp only [Function.comp_def, msgBytes, List.length_singleton, Nat.one_mul] at *
      rw [hf]
      exact this

/-! ## C300: the graph builders announce every coupling their algorithms assemble -/

/-- **C300.** Reduced (edge-like) element stencil: for every sub-control surface of every element the 2x2
contribution of its two nodes is accepted by the rows of both. -/
theorem c300_reduced_elem {R : Type*} [AddCommMonoid R] (L : Local) (nalu : ℕ → ℕ)
    (elems : List (List ℕ × List (ℕ × ℕ))) (rows : List ℕ)
    (hrows : RowsOK L rows (fun a => ∃ ns ∈ reducedElemLists elems, a ∈ ns))
    (e : List ℕ × List (ℕ × ℕ)) (he : e ∈ elems) (lr : ℕ × ℕ) (hlr : lr ∈ e.2)
    (hne : L.colLID (e.1.getD lr.1 0) ≠ L.colLID (e.1.getD lr.2 0))
    (c : Contribution R) (hc : c.nodes = [e.1.getD lr.1 0, e.1.getD lr.2 0]) (a : ℕ) (ha : a ∈ c.nodes) :
    let conns := buildConnections L nalu (reducedElemLists elems)
    RowAccepts L c ⟨trimmedLength (builtRow L rows conns (L.rowLID a)) (graphRowLength L rows conns (L.rowLID a))
        (graphRowLength L rows conns (L.rowLID a)), fun p => (builtRow L rows conns (L.rowLID a) p).toNat⟩ := by
  intro conns
  refine c58_built_graph_accepts L nalu _ rows hrows c ?_ a ha ?_
  · rw [hc]
    exact List.mem_flatMap.2 ⟨e, he, List.mem_map.2 ⟨lr, hlr, rfl⟩⟩
  · intro _ i hi j hj hij
    rw [hc] at hi hj hij
    simp only [List.length_cons, List.length_nil, Nat.zero_add] at hi hj
    have h0 : i = 0 ∨ i = 1 := by omega
    have h1 : j = 0 ∨ j = 1 := by omega
    rcases h0 with rfl | rfl <;> rcases h1 with rfl | rfl
    · rfl
    · exact absurd (by simpa using hij) hne
    · exact absurd (by simpa using hij.symm) hne
    · rfl

/-- Boundary faces whose algorithm couples all nodes of the adjacent element. -/
theorem c300_face_elem {R : Type*} [AddCommMonoid R] (L : Local) (nalu : ℕ → ℕ) (faces : List ℕ)
    (elemOf : ℕ → ℕ) (elemNodes : ℕ → List ℕ) (rows : List ℕ)
    (hrows : RowsOK L rows (fun a => ∃ ns ∈ faceElemLists faces elemOf elemNodes, a ∈ ns))
    (f : ℕ) (hf : f ∈ faces) (c : Contribution R) (hc : c.nodes = elemNodes (elemOf f)) (a : ℕ)
    (ha : a ∈ c.nodes)
    (hdist : L.numDof = 3 → ∀ i < c.nodes.length, ∀ j < c.nodes.length,
      L.colLID (c.nodes.getD i 0) = L.colLID (c.nodes.getD j 0) → i = j) :
    let conns := buildConnections L nalu (faceElemLists faces elemOf elemNodes)
    RowAccepts L c ⟨trimmedLength (builtRow L rows conns (L.rowLID a)) (graphRowLength L rows conns (L.rowLID a))
        (graphRowLength L rows conns (L.rowLID a)), fun p => (builtRow L rows conns (L.rowLID a) p).toNat⟩ :=
  c58_built_graph_accepts L nalu _ rows hrows c (by rw [hc]; exact List.mem_map.2 ⟨f, hf, rfl⟩) a ha hdist

/-- Non-conformal interface: for every integration point the nodes of the current and of the opposing element
are coupled in both directions. -/
theorem c300_non_conformal {R : Type*} [AddCommMonoid R] (L : Local) (nalu : ℕ → ℕ)
    (dg : List (List (ℕ × ℕ))) (elemNodes : ℕ → List ℕ) (rows : List ℕ)
    (hrows : RowsOK L rows (fun a => ∃ ns ∈ nonConformalLists dg elemNodes, a ∈ ns))
    (face : List (ℕ × ℕ)) (hface : face ∈ dg) (d : ℕ × ℕ) (hd : d ∈ face)
    (c : Contribution R) (hc : c.nodes = elemNodes d.1 ++ elemNodes d.2) (a : ℕ) (ha : a ∈ c.nodes)
    (hdist : L.numDof = 3 → ∀ i < c.nodes.length, ∀ j < c.nodes.length,
      L.colLID (c.nodes.getD i 0) = L.colLID (c.nodes.getD j 0) → i = j) :
    let conns := buildConnections L nalu (nonConformalLists dg elemNodes)
    RowAccepts L c ⟨trimmedLength (builtRow L rows conns (L.rowLID a)) (graphRowLength L rows conns (L.rowLID a))
        (graphRowLength L rows conns (L.rowLID a)), fun p => (builtRow L rows conns (L.rowLID a) p).toNat⟩ :=
  c58_built_graph_accepts L nalu _ rows hrows c
    (by rw [hc]; exact List.mem_flatMap.2 ⟨face, hface, List.mem_map.2 ⟨d, hd, rfl⟩⟩) a ha hdist

/-- Overset: the row of a locally owned constraint node accepts the interpolation from all nodes of its donor. -/
theorem c300_overset {R : Type*} [AddCommMonoid R] (L : Local) (nalu : ℕ → ℕ) (infos : List (ℕ × ℕ))
    (isOwned : ℕ → Bool) (elemNodes : ℕ → List ℕ) (rows : List ℕ)
    (hrows : RowsOK L rows (fun a => ∃ ns ∈ oversetLists infos isOwned elemNodes, a ∈ ns))
    (o : ℕ × ℕ) (ho : o ∈ infos) (hown : isOwned o.1 = true)
    (c : Contribution R) (hc : c.nodes = o.1 :: elemNodes o.2)
    (hdist : L.numDof = 3 → ∀ i < c.nodes.length, ∀ j < c.nodes.length,
      L.colLID (c.nodes.getD i 0) = L.colLID (c.nodes.getD j 0) → i = j) :
    let conns := buildConnections L nalu (oversetLists infos isOwned elemNodes)
    RowAccepts L c ⟨trimmedLength (builtRow L rows conns (L.rowLID o.1))
        (graphRowLength L rows conns (L.rowLID o.1)) (graphRowLength L rows conns (L.rowLID o.1)),
        fun p => (builtRow L rows conns (L.rowLID o.1) p).toNat⟩ :=
  c58_built_graph_accepts L nalu _ rows hrows c
    (by rw [hc]; exact List.mem_map.2 ⟨o, List.mem_filter.2 ⟨ho, hown⟩, rfl⟩) o.1 (by rw [hc]; simp) hdist

/-- Concrete cases of the node lists. -/
example : reducedElemLists [([10, 11, 12], [(0, 1), (1, 2), (0, 2)])] = [[10, 11], [11, 12], [10, 12]] ∧
    nonConformalLists [[(0, 1)]] (fun e => [2 * e, 2 * e + 1]) = [[0, 1, 2, 3]] ∧
    oversetLists [(7, 1), (8, 1)] (fun n => n == 7) (fun e => [2 * e, 2 * e + 1]) = [[7, 2, 3]] := by decide

end Verif.LinSys
