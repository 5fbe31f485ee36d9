import Verif.Spec.MeshGeom
import Verif.Props.ElemGeometry
import Verif.Props.Edge

/-!
# C80–C82: assembled edge areas and dual volumes
-/

set_option linter.unusedSectionVars false

namespace Verif.MeshGeom
open Verif.ElemGeom
variable {K : Type*} [Field K]

/-! ## The loops as sums -/

section Loops
variable {V : Type*} [AddCommGroup V]

/-- Signed contribution of one ip to its edge. -/
def signed (nodes : ℕ → ℕ × ℕ) (ip : ℕ × ℕ × V) : V :=
  if ip.2.1 = (nodes ip.1).1 then ip.2.2 else -ip.2.2

theorem foldl_edgeStep (nodes : ℕ → ℕ × ℕ) (l : List (ℕ × ℕ × V)) (av : ℕ → V) (k : ℕ) :
    l.foldl (edgeStep nodes) av k = av k + (l.map fun ip => if ip.1 = k then signed nodes ip else 0).sum := by
  induction l generalizing av with
  | nil => simp
  | cons ip l ih =>
    rw [List.foldl_cons, ih]
    simp only [List.map_cons, List.sum_cons, edgeStep, signed]
    by_cases h : ip.1 = k
    · subst h; simp [add_assoc]
    · rw [Function.update_of_ne (fun h' => h h'.symm)]; simp [h]

theorem edgeLoop_eq (nodes : ℕ → ℕ × ℕ) (cells : List (Cell V K)) (av : ℕ → V) (k : ℕ) :
    edgeLoop nodes av cells k
      = av k + ((cells.flatMap Cell.ips).map fun ip => if ip.1 = k then signed nodes ip else 0).sum := by
  induction cells generalizing av with
  | nil => simp [edgeLoop]
  | cons c l ih =>
    unfold edgeLoop at ih ⊢
    rw [List.foldl_cons, ih, foldl_edgeStep, List.flatMap_cons, List.map_append, List.sum_append, add_assoc]

theorem foldl_volStep (l : List (ℕ × K)) (dv : ℕ → K) (k : ℕ) :
    l.foldl volStep dv k = dv k + (l.map fun ip => if ip.1 = k then ip.2 else 0).sum := by
  induction l generalizing dv with
  | nil => simp
  | cons ip l ih =>
    rw [List.foldl_cons, ih]
    simp only [List.map_cons, List.sum_cons, volStep]
    by_cases h : ip.1 = k
    · subst h; simp [add_assoc]
    · rw [Function.update_of_ne (fun h' => h h'.symm)]; simp [h]

theorem volLoop_eq (cells : List (Cell V K)) (dv : ℕ → K) (k : ℕ) :
    volLoop dv cells k
      = dv k + ((cells.flatMap Cell.vols).map fun ip => if ip.1 = k then ip.2 else 0).sum := by
  induction cells generalizing dv with
  | nil => simp [volLoop]
  | cons c l ih =>
    unfold volLoop at ih ⊢
    rw [List.foldl_cons, ih, foldl_volStep, List.flatMap_cons, List.map_append, List.sum_append, add_assoc]

/-- A decomposition is valid: a process knows (owns or shares) the edges and nodes of its elements. -/
def Valid (ps : List (Proc V K)) : Prop :=
  ∀ p ∈ ps, ∀ c ∈ p.cells, (∀ ip ∈ c.ips, p.knownEdge ip.1 = true) ∧ ∀ v ∈ c.vols, p.knownNode v.1 = true

theorem edgeArea_eq (nodes : ℕ → ℕ × ℕ) (ps : List (Proc V K)) (h : Valid ps) (k : ℕ) :
    edgeArea nodes ps k
      = (((ps.flatMap Proc.cells).flatMap Cell.ips).map fun ip => if ip.1 = k then signed nodes ip else 0).sum := by
  unfold edgeArea parallelSum
  induction ps with
  | nil => simp
  | cons p ps ih =>
    have ih := ih fun q hq => h q (List.mem_cons_of_mem _ hq)
    simp only [List.map_cons, List.sum_cons, ih, List.flatMap_cons, List.flatMap_append, List.map_append,
      List.sum_append]
    congr 1
    rw [edgeLoop_eq]
    by_cases hk : p.knownEdge k = true
    · simp [hk, preWork]
    · rw [if_neg hk]
      symm
      apply List.sum_eq_zero
      intro x hx
      obtain ⟨ip, hip, rfl⟩ := List.mem_map.1 hx
      obtain ⟨c, hc, hip⟩ := List.mem_flatMap.1 hip
      have := (h p (List.mem_cons_self ..) c hc).1 ip hip
      rw [if_neg]
      rintro rfl
      exact hk this

theorem dualVolume_eq (ps : List (Proc V K)) (h : Valid ps) (k : ℕ) :
    dualVolume ps k
      = (((ps.flatMap Proc.cells).flatMap Cell.vols).map fun ip => if ip.1 = k then ip.2 else 0).sum := by
  unfold dualVolume parallelSum
  induction ps with
  | nil => simp
  | cons p ps ih =>
    have ih := ih fun q hq => h q (List.mem_cons_of_mem _ hq)
    simp only [List.map_cons, List.sum_cons, ih, List.flatMap_cons, List.flatMap_append, List.map_append,
      List.sum_append]
    congr 1
    rw [volLoop_eq]
    by_cases hk : p.knownNode k = true
    · simp [hk, preWork]
    · rw [if_neg hk]
      symm
      apply List.sum_eq_zero
      intro x hx
      obtain ⟨ip, hip, rfl⟩ := List.mem_map.1 hx
      obtain ⟨c, hc, hip⟩ := List.mem_flatMap.1 hip
      have := (h p (List.mem_cons_self ..) c hc).2 ip hip
      rw [if_neg]
      rintro rfl
      exact hk this

/-- **C80/C81 (decomposition and history).**  Two runs whose processes together hold the same elements -
in any distribution, any order, with any previous content of the fields - end with the same edge area
vectors and dual nodal volumes. -/
theorem c80_independent_of_decomposition (nodes : ℕ → ℕ × ℕ) (ps qs : List (Proc V K)) (hp : Valid ps)
    (hq : Valid qs) (hperm : (ps.flatMap Proc.cells).Perm (qs.flatMap Proc.cells)) :
    edgeArea nodes ps = edgeArea nodes qs ∧ dualVolume ps = dualVolume qs := by
  constructor
  · funext k
    rw [edgeArea_eq nodes ps hp, edgeArea_eq nodes qs hq]
    exact ((hperm.flatMap_right _).map _).sum_eq
  · funext k
    rw [dualVolume_eq ps hp, dualVolume_eq qs hq]
    exact ((hperm.flatMap_right _).map _).sum_eq

/-- **C80 (orientation).**  If STK lists the nodes of edge `k` the other way round, the edge's area vector
is the opposite one, and no other edge's changes. -/
theorem c80_edge_orientation (nodes nodes' : ℕ → ℕ × ℕ) (ps : List (Proc V K)) (h : Valid ps) (k : ℕ)
    (hends : ∀ p ∈ ps, ∀ c ∈ p.cells, ∀ ip ∈ c.ips, ip.1 = k → ip.2.1 = (nodes k).1 ∨ ip.2.1 = (nodes k).2) :
    (nodes' k = nodes k → edgeArea nodes' ps k = edgeArea nodes ps k) ∧
    (nodes' k = (nodes k).swap → (nodes k).1 ≠ (nodes k).2 → edgeArea nodes' ps k = -edgeArea nodes ps k) := by
  constructor
  · intro hk
    rw [edgeArea_eq nodes ps h, edgeArea_eq nodes' ps h]
    congr 1
    apply List.map_congr_left
    intro ip _
    by_cases hi : ip.1 = k
    · simp [hi, signed, hk]
    · simp [hi]
  · intro hk hne
    rw [edgeArea_eq nodes ps h, edgeArea_eq nodes' ps h, ← sum_map_neg]
    congr 1
    apply List.map_congr_left
    intro ip hip
    obtain ⟨c, hc, hip⟩ := List.mem_flatMap.1 hip
    obtain ⟨p, hp, hc⟩ := List.mem_flatMap.1 hc
    by_cases hi : ip.1 = k
    · have := hends p hp c hc ip hip hi
      simp only [hi, signed, hk, Prod.fst_swap, if_true]
      rcases this with e | e
      · rw [if_neg (by rw [e]; exact hne), if_pos e]
      · rw [if_pos e, if_neg (by rw [e]; exact hne.symm), neg_neg]
    · simp [hi]

theorem netEdgeArea_one (nodes : ℕ → ℕ × ℕ) (E : List ℕ) (hE : E.Nodup) (N : ℕ) (ip : ℕ × ℕ × V)
    (hm : ip.1 ∈ E) :
    netEdgeArea nodes E (fun k => if ip.1 = k then signed nodes ip else 0) N
      = (if (nodes ip.1).1 = N then signed nodes ip else 0)
          - (if (nodes ip.1).2 = N then signed nodes ip else 0) := by
  unfold netEdgeArea
  induction E with
  | nil => simp at hm
  | cons e E ihE =>
    rw [List.nodup_cons] at hE
    simp only [List.map_cons, List.sum_cons]
    by_cases he : ip.1 = e
    · subst he
      rw [show (E.map fun k => (if (nodes k).1 = N then (if ip.1 = k then signed nodes ip else 0) else 0)
          - (if (nodes k).2 = N then (if ip.1 = k then signed nodes ip else 0) else 0)).sum = 0 from ?_]
      · simp
      · apply List.sum_eq_zero
        intro x hx
        obtain ⟨k, hk, rfl⟩ := List.mem_map.1 hx
        have : ip.1 ≠ k := by rintro rfl; exact hE.1 hk
        simp [this]
    · rw [ihE hE.2 ((List.mem_cons.1 hm).resolve_left he)]
      simp [he]

theorem netEdgeArea_sum (nodes : ℕ → ℕ × ℕ) (E : List ℕ) (hE : E.Nodup) (N : ℕ) (l : List (ℕ × ℕ × V))
    (hl : ∀ ip ∈ l, ip.1 ∈ E) :
    netEdgeArea nodes E (fun k => (l.map fun ip => if ip.1 = k then signed nodes ip else 0).sum) N
      = (l.map fun ip => (if (nodes ip.1).1 = N then signed nodes ip else 0)
          - (if (nodes ip.1).2 = N then signed nodes ip else 0)).sum := by
  induction l with
  | nil => simp [netEdgeArea]
  | cons ip l ih =>
    have ih := ih fun q hq => hl q (List.mem_cons_of_mem _ hq)
    simp only [List.map_cons, List.sum_cons, ← ih]
    have hsplit : ∀ (f g : ℕ → V), netEdgeArea nodes E (fun k => f k + g k) N
        = netEdgeArea nodes E f N + netEdgeArea nodes E g N := by
      intro f g
      unfold netEdgeArea
      rw [← sum_map_add]
      congr 1
      apply List.map_congr_left
      intro k _
      by_cases h1 : (nodes k).1 = N <;> by_cases h2 : (nodes k).2 = N <;> simp [h1, h2] <;> abel
    rw [hsplit]
    congr 1
    exact netEdgeArea_one nodes E hE N ip (hl ip (List.mem_cons_self ..))

/-- The contribution of one ip to the net edge areas is the area leaving the left node and entering the
right one, whichever way the edge is oriented. -/
theorem signed_scatter (nodes : ℕ → ℕ × ℕ) (k L R N : ℕ) (a : V) (h : Joins nodes k L R) :
    (if (nodes k).1 = N then signed nodes (k, L, a) else 0) - (if (nodes k).2 = N then signed nodes (k, L, a) else 0)
      = (if L = N then a else 0) - (if R = N then a else 0) := by
  rcases h with h | h
  · simp [h, signed]
  · by_cases e : L = R
    · subst e; simp [h]
    · simp only [h, signed, if_neg e]
      split_ifs <;> abel

end Loops

/-! ## Solid meshes -/

section Solid
variable [CharZero K]

theorem table_edges : ∀ t : Topo, (t.lr.length = (ipEdge t).length) ∧
    ∀ p ∈ t.lr.zip (ipEdge t), (edgeNodes t)[p.2]? = some p.1 ∨ (edgeNodes t)[p.2]? = some p.1.swap := by
  intro t; cases t <;> decide

theorem map_zip_zip {α β γ δ : Type*} (a : List α) (b : List β) (c : List γ) (h : b.length = c.length)
    (f : α × β → δ) : ((a.zip (b.zip c)).map fun p => f (p.1, p.2.1)) = (a.zip b).map f := by
  induction a generalizing b c with
  | nil => simp
  | cons x a ih =>
    cases b with
    | nil => simp
    | cons y b =>
      cases c with
      | nil => simp at h
      | cons z c => simp [ih b c (by simpa using h)]

omit [CharZero K] in
theorem cell_net (nodes : ℕ → ℕ × ℕ) (X : ℕ → V3 K) (e : SElem) (N : ℕ) (h : EdgesOK nodes e) :
    ((e.cell X).ips.map fun ip => (if (nodes ip.1).1 = N then signed nodes ip else 0)
          - (if (nodes ip.1).2 = N then signed nodes ip else 0)).sum = e.elem.scsAt X N := by
  obtain ⟨hlen, htab⟩ := table_edges e.elem.topo
  unfold SElem.cell Elem.scsAt scatterScs
  rw [List.map_map, List.zip_map_right, List.map_map, ← map_zip_zip _ _ _ hlen]
  congr 1
  apply List.map_congr_left
  intro p hp
  have hp2 := (List.of_mem_zip hp).2
  simp only [Function.comp]
  apply signed_scatter
  rcases htab p.2 hp2 with hh | hh
  · exact h _ _ _ hh
  · have := h _ _ _ hh
    exact this.symm

omit [CharZero K] in
theorem cell_edges (X : ℕ → V3 K) (e : SElem) (E : List ℕ)
    (h : ∀ j < (edgeNodes e.elem.topo).length, e.edgeRel j ∈ E) : ∀ ip ∈ (e.cell X).ips, ip.1 ∈ E := by
  intro ip hip
  obtain ⟨p, hp, rfl⟩ := List.mem_map.1 hip
  apply h
  rcases (table_edges e.elem.topo).2 p.2 (List.of_mem_zip hp).2 with hh | hh
  · exact (List.getElem?_eq_some_iff.1 hh).1
  · exact (List.getElem?_eq_some_iff.1 hh).1

/-- **C80 (control volumes close).**  On every conforming mesh of hexahedra, tetrahedra, wedges and pyramids
- any nodal coordinates, any distribution over processes, whichever way STK orients each edge, whatever the
fields held before - the assembled edge area vectors, counted outward, and the exposed area vectors of the
boundary faces add up to zero at every node. -/
theorem c80_control_volumes_close (nodes : ℕ → ℕ × ℕ) (X : ℕ → V3 K) (es : List SElem)
    (ps : List (Proc (V3 K) K)) (hps : Valid ps)
    (hperm : (ps.flatMap Proc.cells).Perm (es.map (SElem.cell X)))
    (hedge : ∀ e ∈ es, EdgesOK nodes e) (E : List ℕ) (hE : E.Nodup)
    (hcov : ∀ e ∈ es, ∀ j < (edgeNodes e.elem.topo).length, e.edgeRel j ∈ E)
    (bdry : List (List ℕ)) (hconf : Conforming (es.map SElem.elem) bdry) (N : ℕ) :
    netEdgeArea nodes E (edgeArea nodes ps) N + (bdry.map fun f => faceAt X f N).sum = 0 := by
  rw [← c42_mesh_closed (es.map SElem.elem) bdry X N hconf]
  congr 1
  have hfun : edgeArea nodes ps = fun k => (((es.map (SElem.cell X)).flatMap Cell.ips).map
      fun ip => if ip.1 = k then signed nodes ip else 0).sum := by
    funext k
    rw [edgeArea_eq nodes ps hps]
    exact ((hperm.flatMap_right _).map _).sum_eq
  rw [hfun, netEdgeArea_sum nodes E hE N]
  · rw [sum_flatMap, List.map_map, List.map_map]
    congr 1
    apply List.map_congr_left
    intro e he
    exact cell_net nodes X e N (hedge e he)
  · intro ip hip
    obtain ⟨c, hc, hip⟩ := List.mem_flatMap.1 hip
    obtain ⟨e, he, rfl⟩ := List.mem_map.1 hc
    exact cell_edges X e E (hcov e he) ip hip

/-- **C80 (interior nodes).**  At a node on no boundary face the edge area vectors alone close. -/
theorem c80_interior_node_closes (nodes : ℕ → ℕ × ℕ) (X : ℕ → V3 K) (es : List SElem)
    (ps : List (Proc (V3 K) K)) (hps : Valid ps)
    (hperm : (ps.flatMap Proc.cells).Perm (es.map (SElem.cell X)))
    (hedge : ∀ e ∈ es, EdgesOK nodes e) (E : List ℕ) (hE : E.Nodup)
    (hcov : ∀ e ∈ es, ∀ j < (edgeNodes e.elem.topo).length, e.edgeRel j ∈ E)
    (bdry : List (List ℕ)) (hconf : Conforming (es.map SElem.elem) bdry) (N : ℕ)
    (hN : ∀ f ∈ bdry, N ∉ f) :
    netEdgeArea nodes E (edgeArea nodes ps) N = 0 := by
  have h := c80_control_volumes_close nodes X es ps hps hperm hedge E hE hcov bdry hconf N
  have h1 := c42_mesh_closed (es.map SElem.elem) bdry X N hconf
  rw [c42_interior_node _ bdry X N hconf hN, zero_add] at h1
  rwa [h1, add_zero] at h

/-! ## Dual volumes -/

/-- Number of nodes of a solid topology. -/
def numNodes : Topo → ℕ
  | .hex => 8 | .tet => 4 | .wed => 6 | .pyr => 5

omit [CharZero K] in
theorem scv_length (t : Topo) (c : ℕ → V3 K) : (t.scv c).length = numNodes t := by
  cases t <;> simp [Topo.scv, hexScv, tetScv, wedScv, pyrScv, numNodes, hexScvTable, tetScvTable, wedScvTable,
    pyrScvTable]

theorem scvNode_range (t : Topo) : scvNode t = List.range (numNodes t) := by cases t <;> decide

/-- **C81 (own share).**  The dual volume of node `N` is the sum, over the elements and over the element
nodes that are `N`, of the element's sub-control volume of that node. -/
theorem c81_own_share (X : ℕ → V3 K) (es : List SElem) (ps : List (Proc (V3 K) K)) (hps : Valid ps)
    (hperm : (ps.flatMap Proc.cells).Perm (es.map (SElem.cell X))) (N : ℕ) :
    dualVolume ps N = (es.map fun e => ((List.range (numNodes e.elem.topo)).map fun n =>
      if e.elem.conn n = N then (e.elem.topo.scv (e.elem.coords X)).getD n 0 else 0).sum).sum := by
  rw [dualVolume_eq ps hps, ((hperm.flatMap_right _).map _).sum_eq, sum_flatMap, List.map_map]
  congr 1
  apply List.map_congr_left
  intro e _
  simp only [Function.comp, SElem.cell, scvNode_range, List.map_map]
  congr 1
  have hl := scv_length e.elem.topo (e.elem.coords X)
  apply List.ext_getElem
  · simp [hl]
  · intro i h1 h2
    have hi : i < (e.elem.topo.scv (e.elem.coords X)).length := by
      rw [hl]; simpa using h2
    simp [List.getElem?_eq_getElem hi]

omit [CharZero K] in
theorem sum_over_nodes (Ns : List ℕ) (hN : Ns.Nodup) (l : List (ℕ × K)) (hl : ∀ v ∈ l, v.1 ∈ Ns) :
    (Ns.map fun N => (l.map fun v => if v.1 = N then v.2 else 0).sum).sum = (l.map Prod.snd).sum := by
  induction l with
  | nil => simp
  | cons v l ih =>
    simp only [List.map_cons, List.sum_cons]
    rw [sum_map_add, ih fun w hw => hl w (List.mem_cons_of_mem _ hw)]
    congr 1
    have hm := hl v (List.mem_cons_self ..)
    clear ih hl
    induction Ns with
    | nil => simp at hm
    | cons n Ns ihN =>
      rw [List.nodup_cons] at hN
      simp only [List.map_cons, List.sum_cons]
      by_cases he : v.1 = n
      · subst he
        rw [show (Ns.map fun N => if v.1 = N then v.2 else 0).sum = 0 from ?_]
        · simp
        · apply List.sum_eq_zero
          intro x hx
          obtain ⟨k, hk, rfl⟩ := List.mem_map.1 hx
          rw [if_neg]
          rintro rfl
          exact hN.1 hk
      · rw [if_neg he, zero_add, ihN hN.2 ((List.mem_cons.1 hm).resolve_left he)]

/-- **C81 (total volume).**  On every conforming mesh the dual nodal volumes, summed over the nodes, are the
volume enclosed by the boundary faces. -/
theorem c81_total_volume (X : ℕ → V3 K) (es : List SElem) (ps : List (Proc (V3 K) K)) (hps : Valid ps)
    (hperm : (ps.flatMap Proc.cells).Perm (es.map (SElem.cell X)))
    (bdry : List (List ℕ)) (hconf : Conforming (es.map SElem.elem) bdry) (Ns : List ℕ) (hN : Ns.Nodup)
    (hcov : ∀ e ∈ es, ∀ n < numNodes e.elem.topo, e.elem.conn n ∈ Ns) :
    (Ns.map (dualVolume ps)).sum = (bdry.map (faceFlux X)).sum := by
  rw [← c43_mesh_volume (es.map SElem.elem) bdry X hconf, List.map_map]
  have hfun : dualVolume ps = fun N => (((es.map (SElem.cell X)).flatMap Cell.vols).map
      fun v => if v.1 = N then v.2 else 0).sum := by
    funext k
    rw [dualVolume_eq ps hps]
    exact ((hperm.flatMap_right _).map _).sum_eq
  rw [hfun, sum_over_nodes Ns hN]
  · rw [sum_flatMap, List.map_map]
    congr 1
    apply List.map_congr_left
    intro e _
    simp only [Function.comp, SElem.cell, List.map_map]
    have hl := scv_length e.elem.topo (e.elem.coords X)
    congr 1
    apply List.ext_getElem
    · simp [hl, scvNode_range]
    · intro i h1 h2
      simp
  · intro v hv
    obtain ⟨c, hc, hv⟩ := List.mem_flatMap.1 hv
    obtain ⟨e, he, rfl⟩ := List.mem_map.1 hc
    obtain ⟨p, hp, rfl⟩ := List.mem_map.1 hv
    apply hcov e he
    have := (List.of_mem_zip hp).1
    rwa [scvNode_range, List.mem_range] at this

end Solid

/-! ## The Jacobian check -/

section Check
variable [LinearOrder K] [IsStrictOrderedRing K] {V : Type*} [AddCommGroup V]

theorem checkJacobians_ok (cells : List (Cell V K)) :
    checkJacobians cells = .ok () ↔ ∀ c ∈ cells, ∀ v ∈ c.vols, 0 ≤ v.2 := by
  unfold checkJacobians
  constructor
  · intro h c hc v hv
    by_contra hn
    rw [if_pos] at h
    · cases h
    · rw [List.any_eq_true]
      exact ⟨c, hc, List.any_eq_true.2 ⟨v, hv, by simpa using not_le.1 hn⟩⟩
  · intro h
    rw [if_neg]
    rw [List.any_eq_true]
    rintro ⟨c, hc, hv⟩
    obtain ⟨v, hv, hneg⟩ := List.any_eq_true.1 hv
    exact absurd (h c hc v hv) (not_le.2 (by simpa using hneg))

/-- **C82 (what is detected).**  The check stops some process exactly when the mesh has an element with a
negative sub-control volume, however the elements are distributed. -/
theorem c82_detects_negative_partial (ps : List (Proc V K)) :
    (∃ p ∈ ps, checkJacobians p.cells = .error ()) ↔ ∃ c ∈ ps.flatMap Proc.cells, ∃ v ∈ c.vols, v.2 < 0 := by
  constructor
  · rintro ⟨p, hp, he⟩
    by_contra hn
    push Not at hn
    have : checkJacobians p.cells = .ok () :=
      (checkJacobians_ok _).2 fun c hc v hv => hn c (List.mem_flatMap.2 ⟨p, hp, hc⟩) v hv
    rw [this] at he; cases he
  · rintro ⟨c, hc, v, hv, hneg⟩
    obtain ⟨p, hp, hc⟩ := List.mem_flatMap.1 hc
    refine ⟨p, hp, ?_⟩
    unfold checkJacobians
    rw [if_pos]
    rw [List.any_eq_true]
    exact ⟨c, hc, List.any_eq_true.2 ⟨v, hv, by simpa using hneg⟩⟩

/-- **C82 (accepted meshes).**  If no process stops, every dual nodal volume is non-negative, and positive at
every node with a positive sub-control volume. -/
theorem c82_accepted_volumes (ps : List (Proc V K)) (hps : Valid ps)
    (hok : ∀ p ∈ ps, checkJacobians p.cells = .ok ()) (N : ℕ) :
    0 ≤ dualVolume ps N ∧
    ∀ c ∈ ps.flatMap Proc.cells, ∀ v ∈ c.vols, v.1 = N → 0 < v.2 → v.2 ≤ dualVolume ps N ∧ 0 < dualVolume ps N := by
  have hnn : ∀ c ∈ ps.flatMap Proc.cells, ∀ v ∈ c.vols, 0 ≤ v.2 := by
    intro c hc v hv
    obtain ⟨p, hp, hc⟩ := List.mem_flatMap.1 hc
    exact (checkJacobians_ok _).1 (hok p hp) c hc v hv
  have hall : ∀ x ∈ ((ps.flatMap Proc.cells).flatMap Cell.vols).map
      (fun ip : ℕ × K => if ip.1 = N then ip.2 else 0), 0 ≤ x := by
    intro x hx
    obtain ⟨v, hv, rfl⟩ := List.mem_map.1 hx
    obtain ⟨c, hc, hv⟩ := List.mem_flatMap.1 hv
    split_ifs
    · exact hnn c hc v hv
    · exact le_rfl
  rw [dualVolume_eq ps hps]
  refine ⟨List.sum_nonneg hall, ?_⟩
  intro c hc v hv hvN hpos
  have hle : v.2 ≤ (((ps.flatMap Proc.cells).flatMap Cell.vols).map
      (fun ip : ℕ × K => if ip.1 = N then ip.2 else 0)).sum := by
    apply List.single_le_sum hall
    exact List.mem_map.2 ⟨v, List.mem_flatMap.2 ⟨c, hc, hv⟩, by simp [hvN]⟩
  exact ⟨hle, lt_of_lt_of_le hpos hle⟩

end Check

/-- **C82 (missing, not collective).**  Only the processes that hold a bad element stop: with two processes and
one inverted tetrahedron the second process passes the check and goes on. -/
theorem c82_not_collective :
    ∃ ps : List (Proc (V3 ℚ) ℚ), Valid ps ∧
      (ps.map fun p => match checkJacobians p.cells with | .ok _ => true | .error _ => false) = [false, true] := by
  let X : ℕ → V3 ℚ := fun
    | 0 => (0, 0, 0) | 1 => (0, 1, 0) | 2 => (1, 0, 0) | _ => (0, 0, 1)
  let bad : SElem := ⟨⟨.tet, fun n => n⟩, fun j => j⟩
  let good : SElem := ⟨⟨.tet, fun | 0 => 0 | 1 => 2 | 2 => 1 | _ => 3⟩, fun j => j⟩
  refine ⟨[⟨fun _ => true, fun _ => true, fun _ => 0, fun _ => 0, [bad.cell X]⟩,
    ⟨fun _ => true, fun _ => true, fun _ => 0, fun _ => 0, [good.cell X]⟩], ?_, ?_⟩
  · intro p hp c _
    simp only [List.mem_cons, List.not_mem_nil, or_false] at hp
    rcases hp with rfl | rfl <;> exact ⟨fun _ _ => rfl, fun _ _ => rfl⟩
  · decide +kernel

/-- **C82 (missing, flat elements).**  A degenerate element with zero sub-control volumes is accepted, and its
nodes may be left with dual volume zero, by which the nodal gradient divides. -/
theorem c82_flat_element_accepted :
    ∃ ps : List (Proc (V3 ℚ) ℚ), Valid ps ∧ (∀ p ∈ ps, checkJacobians p.cells = .ok ()) ∧
      dualVolume ps 0 = 0 ∧ ∃ p ∈ ps, ∃ c ∈ p.cells, ∃ v ∈ c.vols, v.1 = 0 := by
  let X : ℕ → V3 ℚ := fun
    | 0 => (0, 0, 0) | 1 => (1, 0, 0) | 2 => (0, 1, 0) | _ => (1, 1, 0)
  let flat : SElem := ⟨⟨.tet, fun n => n⟩, fun j => j⟩
  have hval : Valid [(⟨fun _ => true, fun _ => true, fun _ => 0, fun _ => 0, [flat.cell X]⟩ : Proc (V3 ℚ) ℚ)] := by
    intro p hp c _
    simp only [List.mem_cons, List.not_mem_nil, or_false] at hp
    subst hp
    exact ⟨fun _ _ => rfl, fun _ _ => rfl⟩
  refine ⟨[⟨fun _ => true, fun _ => true, fun _ => 0, fun _ => 0, [flat.cell X]⟩], hval, ?_, ?_, ?_⟩
  · intro p hp
    simp only [List.mem_cons, List.not_mem_nil, or_false] at hp
    subst hp
    rw [checkJacobians_ok]
    decide +kernel
  · decide +kernel
  · exact ⟨_, List.mem_cons_self .., _, List.mem_cons_self .., (0, (tetScv X).getD 0 0), by decide +kernel, rfl⟩

/-! ## Plane meshes -/

section Plane
variable [CharZero K]

/-- Sides of a plane element as lists of global nodes. -/
def PElem.faces (e : PElem) : List (List ℕ) := e.topo.sides.map fun s => s.map e.conn

/-- A conforming plane mesh: element sides are boundary sides and pairs of opposite sides. -/
def PConforming (es : List PElem) (bdry : List (List ℕ)) : Prop :=
  ∃ pairs : List (ℕ × ℕ), List.Perm (es.flatMap PElem.faces)
    (bdry ++ pairs.flatMap fun p => [[p.1, p.2], [p.2, p.1]])

/-- Area vectors of a plane boundary side collected at node `N`. -/
def sideAt (X : ℕ → K × K) (s : List ℕ) (N : ℕ) : K × K := scatterFace (sideAreas X s) s N

theorem sideAt_opposite (X : ℕ → K × K) (a b N : ℕ) : sideAt X [a, b] N + sideAt X [b, a] N = 0 := by
  simp only [sideAt, scatterFace, sideAreas, edge2dAreas, List.zip_cons_cons, List.zip_nil_right, List.map_cons,
    List.map_nil, List.sum_cons, List.sum_nil, add_zero]
  by_cases ha : a = N <;> by_cases hb : b = N <;>
    simp only [ha, hb, if_true, if_false, add_zero, zero_add, Prod.mk_add_mk, Prod.mk_eq_zero] <;>
    first
      | rfl
      | (refine ⟨?_, ?_⟩ <;> simp only [Prod.smul_fst, Prod.smul_snd, Prod.fst_add, Prod.snd_add, smul_eq_mul] <;> ring)

/-- What an element loop collects at node `N` (plane). -/
def PElem.scsAt (e : PElem) (X : ℕ → K × K) (N : ℕ) : K × K :=
  scatterScs (e.topo.scs fun n => X (e.conn n)) (e.topo.lr.map fun p => (e.conn p.1, e.conn p.2)) N

theorem pelem_closed (e : PElem) (X : ℕ → K × K) (N : ℕ) :
    e.scsAt X N + ((e.faces).map fun f => sideAt X f N).sum = 0 := by
  obtain ⟨t, conn, er⟩ := e
  cases t <;>
  simp only [PElem.scsAt, PElem.faces, Topo2.scs, Topo2.lr, Topo2.sides, quad2dScs, tri2dScs, quad2dLr, tri2dLr,
    quad2dSides, tri2dSides, scatterScs, sideAt, scatterFace, sideAreas, edge2dAreas, List.map_cons, List.map_nil,
    List.zip_cons_cons, List.zip_nil_right, List.sum_cons, List.sum_nil, add_zero]
  · generalize X (conn 0) = x0
    generalize X (conn 1) = x1
    generalize X (conn 2) = x2
    generalize X (conn 3) = x3
    by_cases h0 : conn 0 = N <;> by_cases h1 : conn 1 = N <;> by_cases h2 : conn 2 = N <;>
      by_cases h3 : conn 3 = N <;>
      simp only [h0, h1, h2, h3, if_true, if_false, add_zero, zero_add, sub_zero, zero_sub] <;>
      (apply Prod.ext <;> simp <;> ring)
  · generalize X (conn 0) = x0
    generalize X (conn 1) = x1
    generalize X (conn 2) = x2
    by_cases h0 : conn 0 = N <;> by_cases h1 : conn 1 = N <;> by_cases h2 : conn 2 = N <;>
      simp only [h0, h1, h2, if_true, if_false, add_zero, zero_add, sub_zero, zero_sub] <;>
      (apply Prod.ext <;> simp <;> ring)

/-- **C42 (plane meshes).**  On every conforming mesh of quadrilaterals and triangles the sub-control surfaces and
boundary sides close at every node. -/
theorem c42_plane_mesh_closed (es : List PElem) (bdry : List (List ℕ)) (X : ℕ → K × K) (N : ℕ)
    (h : PConforming es bdry) :
    (es.map fun e => e.scsAt X N).sum + (bdry.map fun f => sideAt X f N).sum = 0 := by
  obtain ⟨pairs, perm⟩ := h
  have e1 : ((es.flatMap PElem.faces).map fun f => sideAt X f N).sum
      = (bdry.map fun f => sideAt X f N).sum := by
    rw [(perm.map _).sum_eq, List.map_append, List.sum_append, sum_flatMap pairs]
    rw [show (pairs.map fun p => ([[p.1, p.2], [p.2, p.1]].map fun f => sideAt X f N).sum).sum = 0 from ?_,
      add_zero]
    apply List.sum_eq_zero
    intro x hx
    obtain ⟨p, hpp, rfl⟩ := List.mem_map.1 hx
    simpa using sideAt_opposite X p.1 p.2 N
  rw [← e1, sum_flatMap, ← sum_map_add]
  apply List.sum_eq_zero
  intro x hx
  obtain ⟨e, _, rfl⟩ := List.mem_map.1 hx
  exact pelem_closed e X N

theorem table2_edges : ∀ t : Topo2, (t.lr.length = t.ipEdge.length) ∧
    ∀ p ∈ t.lr.zip t.ipEdge, t.edgeNodes[p.2]? = some p.1 ∨ t.edgeNodes[p.2]? = some p.1.swap := by
  intro t; cases t <;> decide

/-- **C80 (control volumes close, plane).**  As `c80_control_volumes_close`, for meshes of quadrilaterals and
triangles in the plane. -/
theorem c80_plane_control_volumes_close (gq gt : K) (nodes : ℕ → ℕ × ℕ) (X : ℕ → K × K) (es : List PElem)
    (ps : List (Proc (K × K) K)) (hps : Valid ps)
    (hperm : (ps.flatMap Proc.cells).Perm (es.map (PElem.cell gq gt X)))
    (hedge : ∀ e ∈ es, PEdgesOK nodes e) (E : List ℕ) (hE : E.Nodup)
    (hcov : ∀ e ∈ es, ∀ j < (e.topo.edgeNodes).length, e.edgeRel j ∈ E)
    (bdry : List (List ℕ)) (hconf : PConforming es bdry) (N : ℕ) :
    netEdgeArea nodes E (edgeArea nodes ps) N + (bdry.map fun f => sideAt X f N).sum = 0 := by
  rw [← c42_plane_mesh_closed es bdry X N hconf]
  congr 1
  have hfun : edgeArea nodes ps = fun k => (((es.map (PElem.cell gq gt X)).flatMap Cell.ips).map
      fun ip => if ip.1 = k then signed nodes ip else 0).sum := by
    funext k
    rw [edgeArea_eq nodes ps hps]
    exact ((hperm.flatMap_right _).map _).sum_eq
  rw [hfun, netEdgeArea_sum nodes E hE N]
  · rw [sum_flatMap, List.map_map]
    congr 1
    apply List.map_congr_left
    intro e he
    obtain ⟨hlen, htab⟩ := table2_edges e.topo
    simp only [Function.comp]
    unfold PElem.cell PElem.scsAt scatterScs
    rw [List.map_map, List.zip_map_right, List.map_map, ← map_zip_zip _ _ _ hlen]
    congr 1
    apply List.map_congr_left
    intro p hp
    have hp2 := (List.of_mem_zip hp).2
    simp only [Function.comp]
    apply signed_scatter
    rcases htab p.2 hp2 with hh | hh
    · exact hedge e he _ _ _ hh
    · exact (hedge e he _ _ _ hh).symm
  · intro ip hip
    obtain ⟨c, hc, hip⟩ := List.mem_flatMap.1 hip
    obtain ⟨e, he, rfl⟩ := List.mem_map.1 hc
    obtain ⟨p, hp, rfl⟩ := List.mem_map.1 hip
    apply hcov e he
    rcases (table2_edges e.topo).2 p.2 (List.of_mem_zip hp).2 with hh | hh
    · exact (List.getElem?_eq_some_iff.1 hh).1
    · exact (List.getElem?_eq_some_iff.1 hh).1

theorem sideFlux_opposite (X : ℕ → K × K) (a b : ℕ) : sideFlux X [a, b] + sideFlux X [b, a] = 0 := by
  simp only [sideFlux]; ring

theorem sideFlux_map (X : ℕ → K × K) (conn : ℕ → ℕ) (s : List ℕ) :
    sideFlux X (s.map conn) = sideFlux (fun n => X (conn n)) s := by
  rcases s with _ | ⟨a, _ | ⟨b, _ | ⟨d, s⟩⟩⟩ <;> simp [sideFlux]

/-- **C81 (total area, plane).**  The dual nodal volumes of a conforming plane mesh add up to the shoelace area
enclosed by its boundary. -/
theorem c81_plane_total_area (gq gt : K) (X : ℕ → K × K) (es : List PElem) (ps : List (Proc (K × K) K))
    (hps : Valid ps) (hperm : (ps.flatMap Proc.cells).Perm (es.map (PElem.cell gq gt X)))
    (bdry : List (List ℕ)) (hconf : PConforming es bdry) (Ns : List ℕ) (hN : Ns.Nodup)
    (hcov : ∀ e ∈ es, ∀ n ∈ e.topo.scvNode, e.conn n ∈ Ns) :
    (Ns.map (dualVolume ps)).sum = (bdry.map (sideFlux X)).sum := by
  have hfun : dualVolume ps = fun N => (((es.map (PElem.cell gq gt X)).flatMap Cell.vols).map
      fun v => if v.1 = N then v.2 else 0).sum := by
    funext k
    rw [dualVolume_eq ps hps]
    exact ((hperm.flatMap_right _).map _).sum_eq
  obtain ⟨pairs, perm⟩ := hconf
  have e1 : ((es.flatMap PElem.faces).map (sideFlux X)).sum = (bdry.map (sideFlux X)).sum := by
    rw [(perm.map _).sum_eq, List.map_append, List.sum_append, sum_flatMap pairs]
    rw [show (pairs.map fun p => ([[p.1, p.2], [p.2, p.1]].map (sideFlux X)).sum).sum = 0 from ?_,
      add_zero]
    apply List.sum_eq_zero
    intro x hx
    obtain ⟨p, hpp, rfl⟩ := List.mem_map.1 hx
    simpa using sideFlux_opposite X p.1 p.2
  rw [← e1, hfun, sum_over_nodes Ns hN]
  · rw [sum_flatMap, sum_flatMap, List.map_map]
    congr 1
    apply List.map_congr_left
    intro e _
    simp only [Function.comp, PElem.cell, PElem.faces, List.map_map]
    have hs : (e.topo.sides.map (fun s => sideFlux X (s.map e.conn))).sum
        = (e.topo.scv gq gt fun n => X (e.conn n)).sum := by
      simp only [sideFlux_map]
      cases ht : e.topo
      · exact (c43_quad2d_area gq _).symm
      · exact (c43_tri2d_area gt _).symm
    refine Eq.trans ?_ hs.symm
    congr 1
    have hl : (e.topo.scv gq gt fun n => X (e.conn n)).length = e.topo.scvNode.length := by
      cases e.topo <;> simp [Topo2.scv, Topo2.scvNode, quad2dScv, tri2dScv]
    apply List.ext_getElem
    · simp [hl]
    · intro i h1 h2
      simp
  · intro v hv
    obtain ⟨c, hc, hv⟩ := List.mem_flatMap.1 hv
    obtain ⟨e, he, rfl⟩ := List.mem_map.1 hc
    obtain ⟨p, hp, rfl⟩ := List.mem_map.1 hv
    exact hcov e he _ (List.of_mem_zip hp).1

/-- Number of nodes of a plane topology. -/
def numNodes2 : Topo2 → ℕ
  | .quad => 4 | .tri => 3

/-- **C81 (own share, plane).**  The dual volume of node `N` is the sum, over the plane elements and over the
element nodes that are `N`, of the element's sub-control volume of that node. -/
theorem c81_plane_own_share (gq gt : K) (X : ℕ → K × K) (es : List PElem) (ps : List (Proc (K × K) K))
    (hps : Valid ps) (hperm : (ps.flatMap Proc.cells).Perm (es.map (PElem.cell gq gt X))) (N : ℕ) :
    dualVolume ps N = (es.map fun e => ((List.range (numNodes2 e.topo)).map fun n =>
      if e.conn n = N then (e.topo.scv gq gt fun n => X (e.conn n)).getD n 0 else 0).sum).sum := by
  have hr : ∀ t : Topo2, t.scvNode = List.range (numNodes2 t) := by intro t; cases t <;> decide
  rw [dualVolume_eq ps hps, ((hperm.flatMap_right _).map _).sum_eq, sum_flatMap, List.map_map]
  congr 1
  apply List.map_congr_left
  intro e _
  simp only [Function.comp, PElem.cell, hr, List.map_map]
  congr 1
  have hl : (e.topo.scv gq gt fun n => X (e.conn n)).length = numNodes2 e.topo := by
    cases e.topo <;> simp [Topo2.scv, numNodes2, quad2dScv, tri2dScv]
  apply List.ext_getElem
  · simp [hl]
  · intro i h1 h2
    have hi : i < (e.topo.scv gq gt fun n => X (e.conn n)).length := by
      rw [hl]; simpa using h2
    simp [List.getElem?_eq_getElem hi]

end Plane

/-! ## Consequence: the edge scheme sees no gradient in a uniform field -/

section Gradient
variable [LinearOrder K] [IsStrictOrderedRing K]

/-- Components of a vector. -/
def comp (a : V3 K) : Fin 3 → K := ![a.1, a.2.1, a.2.2]

theorem comp_zero (j : Fin 3) : comp (0 : V3 K) j = 0 := by fin_cases j <;> rfl
theorem comp_add (a b : V3 K) (j : Fin 3) : comp (a + b) j = comp a j + comp b j := by fin_cases j <;> rfl
theorem comp_sub (a b : V3 K) (j : Fin 3) : comp (a - b) j = comp a j - comp b j := by fin_cases j <;> rfl
theorem comp_sum (l : List (V3 K)) (j : Fin 3) : comp l.sum j = (l.map fun a => comp a j).sum := by
  induction l with
  | nil => simp [comp_zero]
  | cons a l ih => simp [comp_add, ih]

/-- The edge data the solver algorithms read: the edge's two nodes and its assembled area vector. -/
def edgeRecs (nodes : ℕ → ℕ × ℕ) (av : ℕ → V3 K) (mdot : ℕ → K) (E : List ℕ) : List (Nalu.Edge.EdgeRec ℕ 3 K) :=
  E.map fun k => ⟨(nodes k).1, (nodes k).2, comp (av k), mdot k⟩

/-- The exposed integration points of the boundary faces with interpolation weights `w`. -/
def faceIps (X : ℕ → V3 K) (w : List ℕ → ℕ → List (ℕ × K)) (bdry : List (List ℕ)) :
    List (Nalu.Edge.BndIp ℕ 3 K) :=
  bdry.flatMap fun f => (f.zip (faceAreas X f)).map fun p => ⟨p.1, w f p.1, comp p.2⟩

/-- **C80 (consequence for the nodal gradient, C27 without its closure hypothesis).**  On every conforming mesh
with non-zero dual volumes, the edge-based nodal gradient with boundary contributions of a uniform field is
zero at every node, boundary nodes included. -/
theorem c80_uniform_field_no_gradient (nodes : ℕ → ℕ × ℕ) (X : ℕ → V3 K) (es : List SElem)
    (ps : List (Proc (V3 K) K)) (hps : Valid ps)
    (hperm : (ps.flatMap Proc.cells).Perm (es.map (SElem.cell X)))
    (hedge : ∀ e ∈ es, EdgesOK nodes e) (E : List ℕ) (hE : E.Nodup)
    (hcov : ∀ e ∈ es, ∀ j < (edgeNodes e.elem.topo).length, e.edgeRel j ∈ E)
    (bdry : List (List ℕ)) (hconf : Conforming (es.map SElem.elem) bdry) (mdot : ℕ → K)
    (w : List ℕ → ℕ → List (ℕ × K)) (hw : ∀ f n, ((w f n).map Prod.snd).sum = 1)
    (q : ℕ → K) (c : K) (hq : ∀ v, q v = c) (N : ℕ) (hv : dualVolume ps N ≠ 0) (j : Fin 3) :
    Nalu.Edge.nodalGrad (dualVolume ps) q (edgeRecs nodes (edgeArea nodes ps) mdot E) (faceIps X w bdry) N j
      = 0 := by
  apply Nalu.Edge.c27_constant (c := c) (hv := hv) (hq := hq)
  · intro ip hip
    obtain ⟨f, _, hip⟩ := List.mem_flatMap.1 hip
    obtain ⟨p, _, rfl⟩ := List.mem_map.1 hip
    exact hw _ _
  · intro j
    have h := c80_control_volumes_close nodes X es ps hps hperm hedge E hE hcov bdry hconf N
    have hj := congrArg (fun a => comp a j) h
    simp only [comp_add, comp_zero] at hj
    refine Eq.trans ?_ hj
    congr 1
    · unfold Nalu.Edge.netMass netEdgeArea edgeRecs
      rw [comp_sum, List.map_map, List.map_map]
      congr 1
      apply List.map_congr_left
      intro k _
      simp only [Function.comp, comp_sub]
      congr 1
      · by_cases h1 : (nodes k).1 = N
        · simp [h1]
        · rw [if_neg (Ne.symm h1), if_neg h1, comp_zero]
      · by_cases h1 : (nodes k).2 = N
        · simp [h1]
        · rw [if_neg (Ne.symm h1), if_neg h1, comp_zero]
    · unfold faceIps
      rw [comp_sum, List.map_map, sum_flatMap]
      congr 1
      apply List.map_congr_left
      intro f _
      simp only [Function.comp, faceAt, scatterFace, comp_sum, List.map_map]
      have hz : ∀ (a : List ℕ) (b : List (V3 K)), ((a.zip b).map fun p : ℕ × V3 K => if N = p.1 then comp p.2 j else 0)
          = (b.zip a).map fun p : V3 K × ℕ => comp (if p.2 = N then p.1 else 0) j := by
        intro a
        induction a with
        | nil => intro b; simp
        | cons x a ih =>
          intro b
          cases b with
          | nil => simp
          | cons y b =>
            simp only [List.zip_cons_cons, List.map_cons, ih]
            congr 1
            by_cases hx : x = N
            · simp [hx]
            · rw [if_neg (Ne.symm hx), if_neg hx, comp_zero]
      exact congrArg List.sum (hz f (faceAreas X f))

end Gradient

/-! ## Witness: a hexahedron and a pyramid on two processes, one edge reversed -/

/-- Edge ends of the witness mesh; edge 3 and the shared edge 5 are listed backwards. -/
def exNodes : ℕ → ℕ × ℕ
  | 0 => (0, 1) | 1 => (1, 2) | 2 => (2, 3) | 3 => (0, 3) | 4 => (4, 5) | 5 => (6, 5) | 6 => (6, 7)
  | 7 => (7, 4) | 8 => (0, 4) | 9 => (1, 5) | 10 => (2, 6) | 11 => (3, 7) | 12 => (4, 8) | 13 => (5, 8)
  | 14 => (6, 8) | _ => (7, 8)

/-- The elements with their edges. -/
def exSElems : List SElem :=
  [⟨⟨.hex, fun n => n⟩, fun j => j⟩, ⟨⟨.pyr, fun n => n + 4⟩, fun j => if j < 4 then j + 4 else j + 8⟩]

/-- One element per process, stale field content on both. -/
def exProcs : List (Proc (V3 ℚ) ℚ) :=
  [⟨fun n => decide (n < 8), fun k => decide (k < 12), fun _ => 7, fun _ => (1, 2, 3),
    [(⟨⟨.hex, fun n => n⟩, fun j => j⟩ : SElem).cell exX]⟩,
   ⟨fun n => decide (4 ≤ n), fun k => decide (4 ≤ k), fun _ => 5, fun _ => (4, 5, 6),
    [(⟨⟨.pyr, fun n => n + 4⟩, fun j => if j < 4 then j + 4 else j + 8⟩ : SElem).cell exX]⟩]

example : Valid exProcs := by
  intro p hp
  simp only [exProcs, List.mem_cons, List.not_mem_nil, or_false] at hp
  rcases hp with rfl | rfl <;> decide +kernel

example : (exProcs.flatMap Proc.cells).Perm (exSElems.map (SElem.cell exX)) := by
  rw [show exProcs.flatMap Proc.cells = exSElems.map (SElem.cell exX) from rfl]

example : ∀ e ∈ exSElems, EdgesOK exNodes e := by
  intro e he j a b h
  simp only [exSElems, List.mem_cons, List.not_mem_nil, or_false] at he
  rcases he with rfl | rfl
  · have hj : j < 12 := (List.getElem?_eq_some_iff.1 h).1
    interval_cases j <;> (simp [edgeNodes] at h; obtain ⟨rfl, rfl⟩ := h; simp [Joins, exNodes])
  · have hj : j < 8 := (List.getElem?_eq_some_iff.1 h).1
    interval_cases j <;> (simp [edgeNodes] at h; obtain ⟨rfl, rfl⟩ := h; simp [Joins, exNodes])

example : edgeArea exNodes exProcs 5 = -((hexScs exX).getD 5 0 + (pyrScs (fun n => exX (n + 4))).getD 1 0) := by
  decide +kernel
example : (0 : ℚ) < dualVolume exProcs 4 ∧ dualVolume exProcs 4 = (hexScv exX).getD 4 0
    + (pyrScv fun n => exX (n + 4)).getD 0 0 := by decide +kernel
example : ((List.range 9).map (dualVolume exProcs)).sum = 17 / 12 := by decide +kernel

/-- A square and a triangle sharing a side. -/
example : PConforming [⟨.quad, fun n => n, fun j => j⟩, ⟨.tri, fun | 0 => 2 | 1 => 1 | _ => 4, fun j => j⟩]
    [[0, 1], [2, 3], [3, 0], [1, 4], [4, 2]] := by
  refine ⟨[(1, 2)], ?_⟩
  decide

end Verif.MeshGeom
