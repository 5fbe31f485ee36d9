import Verif.Model.Boundary
import Verif.Props.LinSysParallel
import Mathlib.Tactic.Linarith
import Mathlib.Algebra.Order.Ring.Rat

/-!
# C127: the pressure is pinned at exactly one node of the mesh
-/

set_option linter.unusedSectionVars false
set_option linter.unusedSimpArgs false

namespace Nalu.Bc
open Finset

variable {K : Type*} [Field K] [LinearOrder K] [IsStrictOrderedRing K] {nd : ℕ}

/-! ## The search -/

/-- Specification: `p` is one of the nodes of some rank and no node of any rank is closer to `loc`. -/
def Nearest (loc : Fin nd → K) (ranks : List (List (PinNode nd K))) (p : PinNode nd K) : Prop :=
  (∃ r ∈ ranks, p ∈ r) ∧ ∀ r ∈ ranks, ∀ q ∈ r, dist2 loc p ≤ dist2 loc q

theorem scanRank_aux (loc : Fin nd → K) (nodes : List (PinNode nd K)) (b : PinNode nd K) :
    ∃ c, nodes.foldl (scanStep loc) (some b) = some c ∧
      (c = b ∨ c ∈ nodes) ∧ dist2 loc c ≤ dist2 loc b ∧ ∀ q ∈ nodes, dist2 loc c ≤ dist2 loc q := by
  induction nodes generalizing b with
  | nil => exact ⟨b, rfl, Or.inl rfl, le_refl _, by simp⟩
  | cons p l ih =>
    simp only [List.foldl_cons]
    by_cases h : dist2 loc p < dist2 loc b
    · rw [show scanStep loc (some b) p = some p from if_pos h]
      obtain ⟨c, h1, h2, h3, h4⟩ := ih p
      refine ⟨c, h1, Or.inr ?_, h3.trans h.le, ?_⟩
      · rcases h2 with h2 | h2
        · simp [h2]
        · simp [h2]
      · intro q hq
        rcases List.mem_cons.1 hq with hq | hq
        · rw [hq]; exact h3
        · exact h4 q hq
    · rw [show scanStep loc (some b) p = some b from if_neg h]
      obtain ⟨c, h1, h2, h3, h4⟩ := ih b
      refine ⟨c, h1, ?_, h3, ?_⟩
      · rcases h2 with h2 | h2
        · exact Or.inl h2
        · exact Or.inr (by simp [h2])
      · intro q hq
        rcases List.mem_cons.1 hq with hq | hq
        · rw [hq]; exact h3.trans (not_lt.1 h)
        · exact h4 q hq

theorem scanRank_none (loc : Fin nd → K) (nodes : List (PinNode nd K)) (h : scanRank loc nodes = none) : nodes = [] := by
  cases nodes with
  | nil => rfl
  | cons p l =>
    obtain ⟨c, h1, _⟩ := scanRank_aux loc l p
    simp only [scanRank, List.foldl_cons] at h
    rw [show scanStep loc none p = some p from rfl, h1] at h
    cases h

theorem scanRank_some (loc : Fin nd → K) (nodes : List (PinNode nd K)) (c : PinNode nd K) (h : scanRank loc nodes = some c) :
    c ∈ nodes ∧ ∀ q ∈ nodes, dist2 loc c ≤ dist2 loc q := by
  cases nodes with
  | nil => cases h
  | cons p l =>
    obtain ⟨c', h1, h2, h3, h4⟩ := scanRank_aux loc l p
    simp only [scanRank, List.foldl_cons] at h
    rw [show scanStep loc none p = some p from rfl, h1] at h
    cases h
    refine ⟨?_, ?_⟩
    · rcases h2 with h2 | h2 <;> simp [h2]
    · intro q hq
      rcases List.mem_cons.1 hq with hq | hq
      · rw [hq]; exact h3
      · exact h4 q hq

/-- The scan over ranks: the kept pair is an entry of the list, and nothing seen is smaller. -/
theorem minRank_inv (ds : List (Option K × ℕ)) (b : Option (ℕ × K)) :
    let r := ds.foldl rankStep b
    (r = none → b = none ∧ ∀ d ∈ ds, d.1 = none) ∧
    (∀ i v, r = some (i, v) → (b = some (i, v) ∨ (some v, i) ∈ ds) ∧ (∀ c, b = some c → v ≤ c.2) ∧
      ∀ d ∈ ds, ∀ w, d.1 = some w → v ≤ w) := by
  induction ds generalizing b with
  | nil =>
    refine ⟨fun h => ⟨h, by simp⟩, fun i v h => ?_⟩
    simp only [List.foldl_nil] at h
    refine ⟨Or.inl h, fun c hc => ?_, by simp⟩
    rw [h] at hc; cases hc; exact le_refl _
  | cons d l ih =>
    simp only [List.foldl_cons]
    rcases d with ⟨dv, di⟩
    cases dv with
    | none =>
      rw [show rankStep b ((none : Option K), di) = b from rfl]
      obtain ⟨h1, h2⟩ := ih b
      refine ⟨fun h => ⟨(h1 h).1, ?_⟩, fun i v h => ?_⟩
      · intro d hd
        rcases List.mem_cons.1 hd with hd | hd
        · rw [hd]
        · exact (h1 h).2 d hd
      · obtain ⟨g1, g2, g3⟩ := h2 i v h
        refine ⟨g1.imp id (fun h => by simp [h]), g2, ?_⟩
        intro d hd w hw
        rcases List.mem_cons.1 hd with hd | hd
        · rw [hd] at hw; cases hw
        · exact g3 d hd w hw
    | some w0 =>
      cases b with
      | none =>
        rw [show rankStep none (some w0, di) = some (di, w0) from rfl]
        obtain ⟨h1, h2⟩ := ih (some (di, w0))
        refine ⟨fun h => absurd (h1 h).1 (by simp), fun i v h => ?_⟩
        obtain ⟨g1, g2, g3⟩ := h2 i v h
        refine ⟨Or.inr ?_, fun c hc => (by cases hc), ?_⟩
        · rcases g1 with g1 | g1
          · cases g1; simp
          · simp [g1]
        · intro d hd w hw
          rcases List.mem_cons.1 hd with hd | hd
          · rw [hd] at hw; cases hw; exact g2 _ rfl
          · exact g3 d hd w hw
      | some b =>
        by_cases hlt : w0 < b.2
        · rw [show rankStep (some b) (some w0, di) = some (di, w0) from if_pos hlt]
          obtain ⟨h1, h2⟩ := ih (some (di, w0))
          refine ⟨fun h => absurd (h1 h).1 (by simp), fun i v h => ?_⟩
          obtain ⟨g1, g2, g3⟩ := h2 i v h
          refine ⟨Or.inr ?_, fun c hc => ?_, ?_⟩
          · rcases g1 with g1 | g1
            · cases g1; simp
            · simp [g1]
          · cases hc; exact (g2 _ rfl).trans hlt.le
          · intro d hd w hw
            rcases List.mem_cons.1 hd with hd | hd
            · rw [hd] at hw; cases hw; exact g2 _ rfl
            · exact g3 d hd w hw
        · rw [show rankStep (some b) (some w0, di) = some b from if_neg hlt]
          obtain ⟨h1, h2⟩ := ih (some b)
          refine ⟨fun h => absurd (h1 h).1 (by simp), fun i v h => ?_⟩
          obtain ⟨g1, g2, g3⟩ := h2 i v h
          refine ⟨g1.imp id (fun h => by simp [h]), g2, ?_⟩
          intro d hd w hw
          rcases List.mem_cons.1 hd with hd | hd
          · rw [hd] at hw; cases hw; exact (g2 _ rfl).trans (not_lt.1 hlt)
          · exact g3 d hd w hw

theorem foldl_max_one (l : List ℕ) (m : ℕ) (i : ℕ) (v : ℕ) (hi : l[i]? = some v) (hz : ∀ j, j ≠ i → ∀ w, l[j]? = some w → w = 0) :
    l.foldl max m = max m v := by
  induction l generalizing m i with
  | nil => simp at hi
  | cons a l ih =>
    simp only [List.foldl_cons]
    cases i with
    | zero =>
      simp only [List.getElem?_cons_zero, Option.some.injEq] at hi
      subst hi
      have hzero : ∀ w ∈ l, w = 0 := by
        intro w hw
        obtain ⟨j, hj⟩ := List.mem_iff_getElem?.1 hw
        exact hz (j + 1) (by omega) w (by simpa using hj)
      clear ih hz
      induction l generalizing m with
      | nil => rfl
      | cons b l ih2 =>
        have hb := hzero b (by simp)
        subst hb
        simp only [List.foldl_cons]
        have := ih2 m (fun w hw => hzero w (by simp [hw]))
        rw [show max (max m a) 0 = max m a by simp]
        exact this
    | succ i =>
      have ha : a = 0 := hz 0 (by omega) a (by simp)
      subst ha
      rw [show max m 0 = m by simp]
      apply ih m i (by simpa using hi)
      intro j hj w hw
      exact hz (j + 1) (by omega) w (by simpa using hw)

/-- **C127** However the nodes are distributed over the ranks, and even if some ranks hold none, the id that every rank receives is the
id of a node nearest to the requested location among the nodes of all ranks. -/
theorem c127_nearest (loc : Fin nd → K) (ranks : List (List (PinNode nd K))) (hne : ∃ r ∈ ranks, r ≠ []) :
    ∃ p, Nearest loc ranks p ∧ nearestId loc ranks = p.id := by
  set L := ranks.map (scanRank loc) with hL
  set D := L.map (Option.map (dist2 loc)) with hD
  have inv := minRank_inv D.zipIdx none
  simp only at inv
  set r := D.zipIdx.foldl rankStep none with hr
  have hwin : minRank D = r.map Prod.fst := rfl
  cases hc : r with
  | none =>
    exfalso
    obtain ⟨rk, hrk, hn⟩ := hne
    obtain ⟨j, hj⟩ := List.mem_iff_getElem?.1 hrk
    have hDj : D[j]? = some ((scanRank loc rk).map (dist2 loc)) := by simp [hD, hL, hj]
    have := (inv.1 hc).2 (((scanRank loc rk).map (dist2 loc)), j) (List.mem_zipIdx_iff_getElem?.2 hDj)
    simp only [Option.map_eq_none_iff] at this
    exact hn (scanRank_none loc rk this)
  | some iv =>
    obtain ⟨i, v⟩ := iv
    obtain ⟨g1, _, g3⟩ := inv.2 i v hc
    have g1 := g1.resolve_left (by simp)
    have hDi : D[i]? = some (some v) := List.mem_zipIdx_iff_getElem?.1 g1
    simp only [hD, hL, List.getElem?_map, Option.map_eq_some_iff] at hDi
    obtain ⟨sc, ⟨rk, hrk, hsc⟩, p, hp, hpv⟩ := hDi
    rw [hp] at hsc
    obtain ⟨q1, q2⟩ := scanRank_some loc rk p hsc
    refine ⟨p, ⟨⟨rk, List.mem_of_getElem? hrk, q1⟩, ?_⟩, ?_⟩
    · intro rk' hrk' q hq
      obtain ⟨j, hj⟩ := List.mem_iff_getElem?.1 hrk'
      cases hs : scanRank loc rk' with
      | none => rw [scanRank_none loc rk' hs] at hq; cases hq
      | some c =>
        have hDj : D[j]? = some (some (dist2 loc c)) := by simp [hD, hL, hj, hs]
        have := g3 (some (dist2 loc c), j) (List.mem_zipIdx_iff_getElem?.2 hDj) _ rfl
        rw [hpv]
        exact this.trans ((scanRank_some loc rk' c hs).2 q hq)
    · simp only [nearestId]
      rw [show (ranks.map (scanRank loc)) = L from rfl, show L.map (Option.map (dist2 loc)) = D from rfl, hwin, hc]
      rw [foldl_max_one _ 0 i p.id]
      · simp
      · have hLi : L[i]? = some (some p) := by simp [hL, hrk, hsc]
        simp [hLi]
      · intro j hj w hw
        simp only [List.getElem?_map, Option.map_some, Option.some.injEq] at hw
        rw [Option.map_eq_some_iff] at hw
        obtain ⟨d, hd, hdw⟩ := hw
        have h2 : d.2 = j := by
          rw [List.getElem?_zipIdx] at hd
          obtain ⟨_, _, rfl⟩ := Option.map_eq_some_iff.1 hd
          simp
        rw [h2, if_neg (Ne.symm hj)] at hdw
        exact hdw.symm

/-- **C127** When one node is strictly nearest, every partition of the mesh pins that node: the choice does not depend on the number of
ranks or on the order of the nodes. -/
theorem c127_partition_independent (loc : Fin nd → K) (ranks : List (List (PinNode nd K))) (p : PinNode nd K)
    (hp : ∃ r ∈ ranks, p ∈ r) (huniq : ∀ r ∈ ranks, ∀ q ∈ r, q = p ∨ dist2 loc p < dist2 loc q) : nearestId loc ranks = p.id := by
  obtain ⟨r, hr, hpr⟩ := hp
  obtain ⟨c, ⟨⟨r', hr', hc⟩, hle⟩, hid⟩ := c127_nearest loc ranks ⟨r, hr, fun h => by rw [h] at hpr; cases hpr⟩
  rcases huniq r' hr' c hc with h | h
  · rw [hid, h]
  · exact absurd (hle r hr p hpr) (not_le.2 h)

end Nalu.Bc

namespace Nalu.Bc
open Finset Verif.LinSys

variable {R : Type*} [Field R]

theorem pin_numDofs (L : Local) (hdof : L.numDof = 1) (node : ℕ) (r : R) :
    numDofs L (⟨[node], fun _ _ => 1, fun _ => r⟩ : Contribution R) = 1 := by
  simp [numDofs, hdof]

theorem pin_accepts (L : Local) (hdof : L.numDof = 1) (node : ℕ) (r : R) (hlt : L.rowLID node < L.maxOwned)
    (hsorted : RowSorted (L.ownedRow (L.rowLID node)))
    (hdiag : ∃ p < (L.ownedRow (L.rowLID node)).length, (L.ownedRow (L.rowLID node)).col p = L.colLID node) :
    Accepts L (⟨[node], fun _ _ => 1, fun _ => r⟩ : Contribution R) := by
  have hr : ∀ i < 1, dofRow L (⟨[node], fun _ _ => 1, fun _ => r⟩ : Contribution R) i = L.rowLID node := by
    intro i hi
    have : i = 0 := by omega
    subst this
    simp [dofRow, hdof]
  refine ⟨fun i hi _ => ?_, fun i hi h1 _ => ?_⟩
  · rw [pin_numDofs L hdof] at hi
    rw [hr i hi]
    refine ⟨hsorted, fun k hk => ?_, fun h => by omega⟩
    rw [pin_numDofs L hdof] at hk
    have : k = 0 := by omega
    subst this
    simpa [dofCol, hdof] using hdiag
  · rw [pin_numDofs L hdof] at hi
    rw [hr i hi] at h1
    omega

/-- Effect of `execute` on one rank: rows other than the pinned one keep their values; the pinned row is zero, plus, on the owner, a unit
diagonal and the right-hand side. -/
theorem pinExecute_owner (L : Local) (hdof : L.numDof = 1) (node : ℕ) (refP p : R) (perm : ℕ → ℕ) (s t : Sys R)
    (hsort : SortOf 1 (fun _ => L.colLID node) perm) (hlt : L.rowLID node < L.maxOwned)
    (hsorted : RowSorted (L.ownedRow (L.rowLID node)))
    (hdiag : ∃ p < (L.ownedRow (L.rowLID node)).length, (L.ownedRow (L.rowLID node)).col p = L.colLID node)
    (h : pinExecute L (true, true) node refP p perm s = some t) :
    (∀ q < (L.ownedRow (L.rowLID node)).length,
      t.owned (L.rowLID node) q = if (L.ownedRow (L.rowLID node)).col q = L.colLID node then 1 else 0) ∧
    t.ownedRhs (L.rowLID node) = refP - p ∧
    (∀ a < L.maxOwned, a ≠ L.rowLID node → (∀ q < (L.ownedRow a).length, t.owned a q = s.owned a q) ∧ t.ownedRhs a = s.ownedRhs a) ∧
    (∀ a, a + L.maxOwned < L.maxShared → (∀ q < (L.sharedRow a).length, t.shared a q = s.shared a q) ∧ t.sharedRhs a = s.sharedRhs a) := by
  simp only [pinExecute, if_true, Option.map_eq_some_iff] at h
  obtain ⟨m, hm, ht⟩ := h
  obtain ⟨z1, _, z3, z4⟩ := c21_reset_rows L _ s m hm
  set c : Contribution R := ⟨[node], fun _ _ => 1, fun _ => refP - p⟩ with hc
  have hn : numDofs L c = 1 := pin_numDofs L hdof node _
  have hcol : ∀ k < 1, dofCol L c k = L.colLID node := by
    intro k hk
    have : k = 0 := by omega
    subst this
    simp [dofCol, hdof, hc]
  have hrow : ∀ k < 1, dofRow L c k = L.rowLID node := by
    intro k hk
    have : k = 0 := by omega
    subst this
    simp [dofRow, hdof, hc]
  have hs : SortOf (numDofs L c) (dofCol L c) perm := by
    rw [hn]
    refine ⟨hsort.lt, hsort.inj, fun i j hij hj => ?_⟩
    rw [hcol _ (hsort.lt i (by omega)), hcol _ (hsort.lt j hj)]
  obtain ⟨e1, e2, e3, e4⟩ := c19_sumInto_exact L c (pin_accepts L hdof node _ hlt hsorted hdiag) perm hs m
  rw [hn] at e1 e2 e3 e4
  rw [ht] at e1 e2 e3 e4
  simp only [sum_range_one, hrow 0 (by omega), hcol 0 (by omega)] at e1 e2 e3 e4
  refine ⟨fun q hq => ?_, ?_, fun a ha hne => ⟨fun q hq => ?_, ?_⟩, fun a ha => ⟨fun q hq => ?_, ?_⟩⟩
  · rw [e1 _ hlt q hq, (z1 hlt).1 q hq, zero_add]
    simp [hc, eq_comm]
  · rw [e3 _ hlt, (z1 hlt).2, zero_add, if_pos rfl]
  · rw [e1 a ha q hq, if_neg (fun h => hne h.1.symm), add_zero, (z3 a hne ha).1]
  · rw [e3 a ha, if_neg (Ne.symm hne), add_zero, (z3 a hne ha).2]
  · rw [e2 a ha q hq, if_neg (by omega), add_zero, (z4 a (by omega)).1]
  · rw [e4 a ha, if_neg (by omega), add_zero, (z4 a (by omega)).2]

/-- A run of the pin over all ranks: what every rank knows of the node with the broadcast id. -/
structure PinRun (R : Type*) where
  P : ℕ → Proc R
  node : ℕ → ℕ
  valid : ℕ → Bool
  owned : ℕ → Bool
  shared : ℕ → Bool
  p : ℕ → R
  perm : ℕ → ℕ → ℕ

/-- Facts of the mesh and of the numbering (C18): one rank `o` owns the node; a rank that stores a shared copy of row `I` has the node as
a shared entity with that row; the owner's row is sorted and contains its diagonal. -/
structure PinOK (run : PinRun R) (n o I : ℕ) : Prop where
  ho : o < n
  owner : ∀ q < n, run.owned q = true ↔ q = o
  valid : run.valid o = true
  dof : (run.P o).L.numDof = 1
  row : (run.P o).L.rowLID (run.node o) < (run.P o).L.maxOwned
  ownerRow : ∀ q < n, ∀ a < (run.P q).L.maxOwned, (run.P q).rowGid a = I ↔ q = o ∧ a = (run.P o).L.rowLID (run.node o)
  sharedRow : ∀ q < n, ∀ a < (run.P q).L.maxShared - (run.P q).L.maxOwned, (run.P q).rowGid (a + (run.P q).L.maxOwned) = I →
    run.valid q = true ∧ run.shared q = true ∧ (run.P q).L.rowLID (run.node q) = a + (run.P q).L.maxOwned
  listed : ∀ q < n, q ≠ o → run.valid q = true → run.shared q = true →
    (run.P q).L.maxOwned ≤ (run.P q).L.rowLID (run.node q) ∧ (run.P q).rowGid ((run.P q).L.rowLID (run.node q)) = I
  sorted : RowSorted ((run.P o).L.ownedRow ((run.P o).L.rowLID (run.node o)))
  diag : ∃ p < ((run.P o).L.ownedRow ((run.P o).L.rowLID (run.node o))).length,
    ((run.P o).L.ownedRow ((run.P o).L.rowLID (run.node o))).col p = (run.P o).L.colLID (run.node o)
  col : ∀ p < ((run.P o).L.ownedRow ((run.P o).L.rowLID (run.node o))).length,
    (run.P o).colGid (((run.P o).L.ownedRow ((run.P o).L.rowLID (run.node o))).col p) = I ↔
      ((run.P o).L.ownedRow ((run.P o).L.rowLID (run.node o))).col p = (run.P o).L.colLID (run.node o)
  sort : SortOf 1 (fun _ => (run.P o).L.colLID (run.node o)) (run.perm o)

/-- All ranks execute the algorithm. -/
def PinExec (run : PinRun R) (n : ℕ) (refP : R) (s t : ℕ → Sys R) : Prop :=
  ∀ q < n, pinExecute (run.P q).L (processPin (run.valid q) (run.owned q) (run.shared q)) (run.node q) refP (run.p q) (run.perm q) (s q)
    = some (t q)

/-- On a rank that does not own the node: rows other than a shared copy of it keep their values, and the shared copy is zeroed. -/
theorem pin_other {run : PinRun R} {n o I : ℕ} (ok : PinOK run n o I) {refP : R} {s t : ℕ → Sys R} (hex : PinExec run n refP s t)
    {q : ℕ} (hq : q < n) (hne : q ≠ o) :
    (∀ a < (run.P q).L.maxOwned, (t q).owned a = (s q).owned a ∧ (t q).ownedRhs a = (s q).ownedRhs a) ∧
    (∀ a < (run.P q).L.maxShared - (run.P q).L.maxOwned,
      ((run.P q).rowGid (a + (run.P q).L.maxOwned) = I →
        (∀ p < ((run.P q).L.sharedRow a).length, (t q).shared a p = 0) ∧ (t q).sharedRhs a = 0) ∧
      ((run.P q).rowGid (a + (run.P q).L.maxOwned) ≠ I → (t q).shared a = (s q).shared a ∧ (t q).sharedRhs a = (s q).sharedRhs a)) := by
  have hown : run.owned q = false := by
    cases h : run.owned q with
    | false => rfl
    | true => exact absurd ((ok.owner q hq).1 h) hne
  have he := hex q hq
  rw [hown] at he
  by_cases hv : run.valid q = true ∧ run.shared q = true
  · simp only [processPin, hv.1, hv.2, Bool.or_true, Bool.and_true, if_true, pinExecute, Option.map_eq_some_iff] at he
    obtain ⟨m, hm, ht⟩ := he
    simp only [Bool.false_eq_true, if_false] at ht
    subst ht
    obtain ⟨_, z2, z3, z4⟩ := c21_reset_rows _ _ _ _ hm
    obtain ⟨l1, l2⟩ := ok.listed q hq hne hv.1 hv.2
    refine ⟨fun a ha => z3 a (by omega) ha, fun a ha => ⟨fun hI => ?_, fun hI => ?_⟩⟩
    · have := (ok.sharedRow q hq a ha hI).2.2
      have h2 := z2 l1
      rw [this, Nat.add_sub_cancel] at h2
      exact h2
    · exact z4 a (fun h => hI (by rw [h]; exact l2))
  · have hl : processPin (run.valid q) false (run.shared q) = (false, false) := by
      unfold processPin
      rw [if_neg]
      simp only [Bool.false_or, Bool.and_eq_true]
      exact hv
    rw [hl] at he
    simp only [pinExecute, Bool.false_eq_true, if_false, Option.some.injEq] at he
    rw [← he]
    refine ⟨fun a _ => ⟨rfl, rfl⟩, fun a ha => ⟨fun hI => ?_, fun _ => ⟨rfl, rfl⟩⟩⟩
    have := ok.sharedRow q hq a ha hI
    exact absurd ⟨this.1, this.2.1⟩ hv

theorem pin_owner {run : PinRun R} {n o I : ℕ} (ok : PinOK run n o I) {refP : R} {s t : ℕ → Sys R} (hex : PinExec run n refP s t) :
    pinExecute (run.P o).L (true, true) (run.node o) refP (run.p o) (run.perm o) (s o) = some (t o) := by
  have := hex o ok.ho
  rw [(ok.owner o ok.ho).2 rfl, ok.valid] at this
  simpa [processPin] using this

/-- The owner has no shared copy of its own row: a shared row with the id `I` would belong to the node, whose row is owned. -/
theorem pin_owner_shared {run : PinRun R} {n o I : ℕ} (ok : PinOK run n o I) (a : ℕ)
    (ha : a < (run.P o).L.maxShared - (run.P o).L.maxOwned) : (run.P o).rowGid (a + (run.P o).L.maxOwned) ≠ I := by
  intro h
  have := (ok.sharedRow o ok.ho a ha h).2.2
  have := ok.row
  omega

/-- **C127** After every rank has executed the pin, the assembled (exported and summed) row of the node is the identity row and its
right-hand side is `refPressure - p`, whatever was assembled before and however the shared copies are spread. -/
theorem c127_pinned_row (run : PinRun R) (n o I : ℕ) (ok : PinOK run n o I) (refP : R) (s t : ℕ → Sys R)
    (hex : PinExec run n refP s t) (J : ℕ) :
    ∑ q ∈ range n, stored (run.P q) (t q) I J = (if J = I then 1 else 0) ∧
    ∑ q ∈ range n, storedRhs (run.P q) (t q) I = refP - run.p o := by
  obtain ⟨r1, r2, _, _⟩ := pinExecute_owner (run.P o).L ok.dof (run.node o) refP (run.p o) (run.perm o) (s o) (t o) ok.sort ok.row
    ok.sorted ok.diag (pin_owner ok hex)
  set ro := (run.P o).L.rowLID (run.node o) with hro
  have ho := ok.ho
  constructor
  · rw [sum_eq_single_of_mem o (mem_range.2 ho)]
    · unfold stored
      rw [sum_eq_single_of_mem ro (mem_range.2 ok.row), if_pos ((ok.ownerRow o ho ro ok.row).2 ⟨rfl, rfl⟩)]
      · have hz : (∑ a ∈ range ((run.P o).L.maxShared - (run.P o).L.maxOwned), if (run.P o).rowGid (a + (run.P o).L.maxOwned) = I then
            ∑ p ∈ range ((run.P o).L.sharedRow a).length,
              (if (run.P o).colGid (((run.P o).L.sharedRow a).col p) = J then (t o).shared a p else 0) else 0) = 0 := by
          apply sum_eq_zero
          intro a ha
          rw [if_neg (pin_owner_shared ok a (mem_range.1 ha))]
        rw [hz, add_zero]
        obtain ⟨p0, hp0, hc0⟩ := ok.diag
        rw [sum_eq_single_of_mem p0 (mem_range.2 hp0)]
        · have := (ok.col p0 hp0).2 hc0
          rw [this, r1 p0 hp0, if_pos hc0]
          simp only [eq_comm]
        · intro b hb hne
          have : ¬ ((run.P o).L.ownedRow ro).col b = (run.P o).L.colLID (run.node o) := fun h =>
            hne (ok.sorted.inj (mem_range.1 hb) hp0 (h.trans hc0.symm))
          rw [r1 b (mem_range.1 hb), if_neg this, ite_self]
      · intro b hb hne
        rw [if_neg]
        intro h
        exact hne ((ok.ownerRow o ho b (mem_range.1 hb)).1 h).2
    · intro q hq hne
      unfold stored
      obtain ⟨_, g2⟩ := pin_other ok hex (mem_range.1 hq) hne
      rw [sum_eq_zero, sum_eq_zero, add_zero]
      · intro a ha
        by_cases hI : (run.P q).rowGid (a + (run.P q).L.maxOwned) = I
        · rw [if_pos hI]
          apply sum_eq_zero
          intro p hp
          rw [((g2 a (mem_range.1 ha)).1 hI).1 p (mem_range.1 hp), ite_self]
        · rw [if_neg hI]
      · intro a ha
        rw [if_neg]
        intro h
        exact hne ((ok.ownerRow q (mem_range.1 hq) a (mem_range.1 ha)).1 h).1
  · rw [sum_eq_single_of_mem o (mem_range.2 ho)]
    · unfold storedRhs
      rw [sum_eq_single_of_mem ro (mem_range.2 ok.row), if_pos ((ok.ownerRow o ho ro ok.row).2 ⟨rfl, rfl⟩), r2, sum_eq_zero, add_zero]
      · intro a ha
        rw [if_neg (pin_owner_shared ok a (mem_range.1 ha))]
      · intro b hb hne
        rw [if_neg]
        intro h
        exact hne ((ok.ownerRow o ho b (mem_range.1 hb)).1 h).2
    · intro q hq hne
      unfold storedRhs
      obtain ⟨_, g2⟩ := pin_other ok hex (mem_range.1 hq) hne
      rw [sum_eq_zero, sum_eq_zero, add_zero]
      · intro a ha
        by_cases hI : (run.P q).rowGid (a + (run.P q).L.maxOwned) = I
        · rw [if_pos hI, ((g2 a (mem_range.1 ha)).1 hI).2]
        · rw [if_neg hI]
      · intro a ha
        rw [if_neg]
        intro h
        exact hne ((ok.ownerRow q (mem_range.1 hq) a (mem_range.1 ha)).1 h).1

/-- **C127** Every other assembled row keeps its coefficients and its right-hand side: exactly one row of the mesh is pinned. -/
theorem c127_other_rows (run : PinRun R) (n o I : ℕ) (ok : PinOK run n o I) (refP : R) (s t : ℕ → Sys R)
    (hex : PinExec run n refP s t) (I' J : ℕ) (hne : I' ≠ I) :
    ∑ q ∈ range n, stored (run.P q) (t q) I' J = ∑ q ∈ range n, stored (run.P q) (s q) I' J ∧
    ∑ q ∈ range n, storedRhs (run.P q) (t q) I' = ∑ q ∈ range n, storedRhs (run.P q) (s q) I' := by
  obtain ⟨_, _, r3, r4⟩ := pinExecute_owner (run.P o).L ok.dof (run.node o) refP (run.p o) (run.perm o) (s o) (t o) ok.sort ok.row
    ok.sorted ok.diag (pin_owner ok hex)
  have key : ∀ q < n, (∀ a < (run.P q).L.maxOwned, (run.P q).rowGid a = I' →
      (∀ p < ((run.P q).L.ownedRow a).length, (t q).owned a p = (s q).owned a p) ∧ (t q).ownedRhs a = (s q).ownedRhs a) ∧
      (∀ a < (run.P q).L.maxShared - (run.P q).L.maxOwned, (run.P q).rowGid (a + (run.P q).L.maxOwned) = I' →
      (∀ p < ((run.P q).L.sharedRow a).length, (t q).shared a p = (s q).shared a p) ∧ (t q).sharedRhs a = (s q).sharedRhs a) := by
    intro q hq
    by_cases hqo : q = o
    · subst hqo
      refine ⟨fun a ha hI => r3 a ha ?_, fun a ha _ => r4 a (by omega)⟩
      intro h
      exact hne (hI.symm.trans ((ok.ownerRow q hq a ha).2 ⟨rfl, h⟩))
    · obtain ⟨g1, g2⟩ := pin_other ok hex hq hqo
      refine ⟨fun a ha _ => ⟨fun p _ => by rw [(g1 a ha).1], (g1 a ha).2⟩, fun a ha hI => ?_⟩
      have := (g2 a ha).2 (fun h => hne (hI.symm.trans h))
      exact ⟨fun p _ => by rw [this.1], this.2⟩
  constructor
  · apply sum_congr rfl
    intro q hq
    obtain ⟨k1, k2⟩ := key q (mem_range.1 hq)
    unfold stored
    congr 1
    · apply sum_congr rfl
      intro a ha
      by_cases hI : (run.P q).rowGid a = I'
      · rw [if_pos hI, if_pos hI]
        exact sum_congr rfl (fun p hp => by rw [(k1 a (mem_range.1 ha) hI).1 p (mem_range.1 hp)])
      · rw [if_neg hI, if_neg hI]
    · apply sum_congr rfl
      intro a ha
      by_cases hI : (run.P q).rowGid (a + (run.P q).L.maxOwned) = I'
      · rw [if_pos hI, if_pos hI]
        exact sum_congr rfl (fun p hp => by rw [(k2 a (mem_range.1 ha) hI).1 p (mem_range.1 hp)])
      · rw [if_neg hI, if_neg hI]
  · apply sum_congr rfl
    intro q hq
    obtain ⟨k1, k2⟩ := key q (mem_range.1 hq)
    unfold storedRhs
    congr 1
    · apply sum_congr rfl
      intro a ha
      by_cases hI : (run.P q).rowGid a = I'
      · rw [if_pos hI, if_pos hI, (k1 a (mem_range.1 ha) hI).2]
      · rw [if_neg hI, if_neg hI]
    · apply sum_congr rfl
      intro a ha
      by_cases hI : (run.P q).rowGid (a + (run.P q).L.maxOwned) = I'
      · rw [if_pos hI, if_pos hI, (k2 a (mem_range.1 ha) hI).2]
      · rw [if_neg hI, if_neg hI]

/-- **C127** The solved system therefore puts the pressure of the node at the requested value, at every iteration: if `x` solves the
assembled row of the node, then `p + x_I = refPressure`. -/
theorem c127_pressure_value (run : PinRun R) (n o I : ℕ) (ok : PinOK run n o I) (refP : R) (s t : ℕ → Sys R)
    (hex : PinExec run n refP s t) (cols : Finset ℕ) (hI : I ∈ cols) (x : ℕ → R)
    (hsolve : ∑ J ∈ cols, (∑ q ∈ range n, stored (run.P q) (t q) I J) * x J = ∑ q ∈ range n, storedRhs (run.P q) (t q) I) :
    run.p o + x I = refP := by
  rw [(c127_pinned_row run n o I ok refP s t hex I).2,
    sum_congr rfl (fun J _ => by rw [(c127_pinned_row run n o I ok refP s t hex J).1])] at hsolve
  simp only [ite_mul, one_mul, zero_mul, sum_ite_eq', hI, if_true] at hsolve
  rw [hsolve]; ring

/-- **C127** The pin runs after everything else has been assembled: in the order of the driver every interior, boundary and constraint
algorithm, and every Dirichlet condition with a smaller key, comes before it (its key 15 is the largest). -/
theorem c127_runs_last {A : Type*} (con int cst dir : List (ℕ × A)) (pin : A) (hkey : ∀ a ∈ dir, a.1 < 15) :
    ∃ before, driverOrder con int cst (dir ++ [(15, pin)]) = before ++ [pin] := by
  have tr : ∀ a b c : ℕ × A, decide (a.1 ≤ b.1) = true → decide (b.1 ≤ c.1) = true → decide (a.1 ≤ c.1) = true := by
    intro a b c h1 h2
    simp only [decide_eq_true_eq] at *
    omega
  have tot : ∀ a b : ℕ × A, (decide (a.1 ≤ b.1) || decide (b.1 ≤ a.1)) = true := by
    intro a b
    simp only [Bool.or_eq_true, decide_eq_true_eq]
    omega
  have hp := List.pairwise_mergeSort tr tot (dir ++ [(15, pin)])
  have hperm := List.mergeSort_perm (dir ++ [(15, pin)]) (fun a b => decide (a.1 ≤ b.1))
  have hmem : (15, pin) ∈ (dir ++ [(15, pin)]).mergeSort fun a b => decide (a.1 ≤ b.1) := hperm.symm.subset (by simp)
  obtain ⟨l1, l2, hl⟩ := List.append_of_mem hmem
  have hl2 : l2 = [] := by
    cases l2 with
    | nil => rfl
    | cons c l2 =>
      exfalso
      rw [hl] at hp hperm
      have h1 : (15 : ℕ) ≤ c.1 := by
        have := (List.pairwise_cons.1 (List.pairwise_append.1 hp).2.1).1 c (by simp)
        simpa using this
      have h2 : (l1 ++ c :: l2).Perm dir := by
        have e1 : (l1 ++ (15, pin) :: c :: l2).Perm ((15, pin) :: (l1 ++ c :: l2)) := List.perm_middle
        have e2 : (dir ++ [(15, pin)]).Perm ((15, pin) :: dir) := List.perm_append_singleton _ _
        exact List.Perm.cons_inv ((e1.symm.trans hperm).trans e2)
      have := hkey c (h2.subset (by simp))
      omega
  simp only [driverOrder]
  rw [hl, hl2]
  exact ⟨_, by rw [List.map_append, ← List.append_assoc]; rfl⟩

/-! ## A concrete run: two ranks, the node is owned by rank 0 and shared by rank 1; an empty rank in the search -/

/-- Rank 0 owns both rows; rank 1 owns nothing and stores a shared copy of row 0. -/
def demoPinLocal (q : ℕ) : Local :=
  { numDof := 1, maxOwned := if q = 0 then 2 else 0, maxShared := if q = 0 then 2 else 1, ownedRow := fun _ => ⟨2, fun p => p⟩,
    sharedRow := fun _ => ⟨2, fun p => p⟩, rowLID := fun n => n, colLID := fun n => n }

/-- The run: the node to pin is local node 0 on both ranks. -/
def demoPin : PinRun ℚ :=
  { P := fun q => ⟨demoPinLocal q, fun a => a, fun c => c, []⟩, node := fun _ => 0, valid := fun _ => true,
    owned := fun q => q == 0, shared := fun _ => true, p := fun _ => 7, perm := fun _ k => k }

theorem demoPin_ok : PinOK demoPin 2 0 0 where
  ho := by omega
  owner := fun q _ => by simp [demoPin]
  valid := rfl
  dof := rfl
  row := by simp [demoPin, demoPinLocal]
  ownerRow := fun q hq a ha => by
    have : q = 0 := by
      by_contra h
      simp [demoPin, demoPinLocal, h] at ha
    subst this
    simp [demoPin, demoPinLocal]
  sharedRow := fun q hq a ha h => by
    have h1 : q = 1 := by
      by_contra h
      have : q = 0 := by omega
      subst this
      simp [demoPin, demoPinLocal] at ha
    subst h1
    simp only [demoPin, demoPinLocal] at ha h ⊢
    simp at ha h ⊢
    omega
  listed := fun q hq hne _ _ => by
    have : q = 1 := by omega
    subst this
    simp [demoPin, demoPinLocal]
  sorted := fun i j hij hj => hij
  diag := ⟨0, by simp [demoPin, demoPinLocal], rfl⟩
  col := fun p hp => by simp [demoPin, demoPinLocal]
  sort := ⟨fun k hk => hk, fun i _ j _ h => h, fun i j _ _ => le_refl _⟩

/-- The run can be executed: both ranks return a system. -/
example (s : ℕ → Sys ℚ) : ∃ t, PinExec demoPin 2 101325 s t := by
  have : ∀ q : ℕ, ∃ t, q < 2 → pinExecute (demoPin.P q).L (processPin (demoPin.valid q) (demoPin.owned q) (demoPin.shared q))
      (demoPin.node q) 101325 (demoPin.p q) (demoPin.perm q) (s q) = some t := by
    intro q
    by_cases h0 : q = 0
    · subst h0
      exact ⟨_, fun _ => by simp [pinExecute, processPin, demoPin, demoPinLocal, resetRow]; rfl⟩
    · by_cases h1 : q = 1
      · subst h1
        exact ⟨_, fun _ => by simp [pinExecute, processPin, demoPin, demoPinLocal, resetRow]; rfl⟩
      · exact ⟨s q, fun h => by omega⟩
  choose t ht using this
  exact ⟨t, fun q hq => ht q hq⟩

/-- Three ranks, the middle one empty; the nearest node to the origin is node 9 on the last rank. -/
example : nearestId (K := ℚ) (nd := 2) ![0, 0]
    [[⟨4, ![3, 0]⟩, ⟨5, ![2, 0]⟩], [], [⟨9, ![1, 1]⟩, ⟨12, ![0, 5]⟩]] = 9 := by decide +kernel

end Nalu.Bc
