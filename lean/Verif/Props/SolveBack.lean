import Verif.Model.SolveBack
import Verif.Props.LinSysNumbering
import Verif.Props.Periodic
import Mathlib.Tactic.IntervalCases

/-!
# C334-C336: what a solve leaves at the nodes

C334: after the solve every active node where the field lives holds, on every process that owns or
shares it, the entry of the global solution that belongs to its row; periodic subjects hold the entry
of their monarch.  C335: nodes the solve does not know keep the previous correction, and it is added
to the solution again and again.  C336: coordinates handed to the multigrid preconditioner.
-/

set_option linter.unusedSectionVars false

namespace Verif.SolveBack

open Verif.LinSys

variable {K : Type*}

/-! ## One process -/

/-- Component `d` of what one process holds at `n` after the copy, for the nodes listed so far. -/
theorem copyBack_spec (nd : ℕ) (T : Tags) (N : Numbering) (x : ℕ → K) (nodes : List Node)
    (f : ℕ → ℕ → K)
    (hok : ∀ n ∈ nodes, selected T n = true → T.comps n.stkId = nd ∧
      ∀ d < nd, N.entityToLID n.stkId + d < N.maxOwnedRowId) :
    ∃ g, copyBack nd T N x nodes f = some g ∧
      (∀ n ∈ nodes, selected T n = true → ∀ d < nd, g n.stkId d = x (N.entityToLID n.stkId + d)) ∧
      (∀ i, (∀ n ∈ nodes, n.stkId = i → selected T n = false) → g i = f i) := by
  induction nodes using List.reverseRecOn with
  | nil => exact ⟨f, rfl, by simp, fun _ _ => rfl⟩
  | append_singleton l a ih =>
    obtain ⟨g, hg, h1, h2⟩ := ih (fun n hn => hok n (by simp [hn]))
    have hstep : copyBack nd T N x (l ++ [a]) f = copyNode nd T N x (some g) a := by
      unfold copyBack at hg ⊢
      rw [List.foldl_append, hg]; rfl
    by_cases hs : selected T a = true
    · obtain ⟨hc, hlt⟩ := hok a (by simp) hs
      have hany : (List.range nd).any
          (fun d => decide (N.maxOwnedRowId ≤ N.entityToLID a.stkId + d)) = false := by
        rw [List.any_eq_false]
        intro d hd
        have := hlt d (List.mem_range.1 hd)
        simpa using this
      refine ⟨_, by rw [hstep]; simp [copyNode, hs, hc, hany]; rfl, ?_, ?_⟩
      · intro n hn hsn d hd
        by_cases he : n.stkId = a.stkId
        · rw [he, Function.update_self, if_pos hd]
        · rw [Function.update_of_ne he]
          rcases List.mem_append.1 hn with hn | hn
          · exact h1 n hn hsn d hd
          · rw [List.mem_singleton.1 hn] at he; exact absurd rfl he
      · intro i hi
        have hne : i ≠ a.stkId := by
          rintro rfl
          have := hi a (by simp) rfl
          rw [hs] at this; exact absurd this (by simp)
        rw [Function.update_of_ne hne]
        exact h2 i (fun n hn => hi n (by simp [hn]))
    · have hs' : selected T a = false := by simpa using hs
      refine ⟨g, by rw [hstep]; simp [copyNode, hs'], ?_, ?_⟩
      · intro n hn hsn d hd
        rcases List.mem_append.1 hn with hn | hn
        · exact h1 n hn hsn d hd
        · rw [List.mem_singleton.1 hn] at hsn; exact absurd hsn hs
      · intro i hi
        exact h2 i (fun n hn => hi n (by simp [hn]))

/-! ## The mesh -/

/-- The nodes of process `p` that are not inactive: those the linear system numbers. -/
def World.active (W : World) (p : ℕ) : List Node :=
  (W.nodes p).filter (fun n => !W.tags.inactive n.stkId)

/-- A consistent distributed mesh.  `periodic`: a node lies in a subject part exactly when it is
renumbered, and then its pair is known (C36, C37); monarchs are active where their subjects are and
carry the field. -/
structure World.OK (W : World) : Prop where
  mesh : ∀ p < W.np, MeshOK W.cfg (W.active p)
  num : ∀ p < W.np, beginConstruction W.cfg W.numDof (W.active p) = some (W.num p)
  owner_lt : ∀ p < W.np, ∀ n ∈ W.nodes p, W.owner n.stkId < W.np
  owned : ∀ p < W.np, ∀ n ∈ W.nodes p, n.owned = true ↔ W.owner n.stkId = p
  home : ∀ p < W.np, ∀ n ∈ W.nodes p, ∃ m ∈ W.nodes (W.owner n.stkId), m.stkId = n.stkId ∧ m.naluId = n.naluId
  comps : ∀ p < W.np, ∀ n ∈ W.nodes p, W.tags.comps n.stkId = 0 ∨ W.tags.comps n.stkId = W.numDof
  subject : ∀ p < W.np, ∀ n ∈ W.nodes p, W.tags.subject n.stkId = true ↔ n.naluId ≠ n.stkId
  renumber : ∀ p < W.np, ∀ n ∈ W.nodes p, n.naluId ≠ n.stkId → W.cfg.periodic = true ∧ (n.naluId, n.stkId) ∈ W.pairs
  pairs : ∀ q ∈ W.pairs, ∃ m ∈ W.nodes (W.owner q.1), m.stkId = q.1 ∧ m.naluId = q.1 ∧ W.owner q.1 < W.np
  pairSubject : ∀ q ∈ W.pairs, ∃ p < W.np, ∃ m ∈ W.nodes p, m.stkId = q.2 ∧ m.naluId = q.1 ∧ q.1 ≠ q.2
  pairActive : ∀ q ∈ W.pairs, W.tags.inactive q.1 = W.tags.inactive q.2
  pairComps : ∀ q ∈ W.pairs, W.tags.comps q.1 = W.tags.comps q.2
  consistent : ∀ p < W.np, ∀ p' < W.np, ∀ n ∈ W.nodes p, ∀ m ∈ W.nodes p', n.stkId = m.stkId → n.naluId = m.naluId

/-- The solution of the global system: `xg i` belongs to global row id `i`; process `p` stores the
entries of its owned rows in the order of its row map. -/
def Distributed (W : World) (xg : ℕ → K) (x : ℕ → ℕ → K) : Prop :=
  ∀ p < W.np, ∀ l i, (W.num p).ownedGids[l]? = some i → x p l = xg i

theorem status_isSome {cfg : Config} {nd : ℕ} {mesh : List Node} {N : Numbering}
    (h : beginConstruction cfg nd mesh = some N) {n : Node} (hn : n ∈ mesh) :
    (getDofStatus cfg mesh n).isSome = true := by
  unfold beginConstruction at h
  simp only at h
  split at h
  · exact absurd h (by simp)
  · rename_i hc
    rw [List.any_eq_true] at hc
    push Not at hc
    have := hc n hn
    revert this
    cases getDofStatus cfg mesh n <;> simp

theorem ownedDof_of_root {cfg : Config} {mesh : List Node} {n : Node}
    (hst : (getDofStatus cfg mesh n).isSome = true) (ho : n.owned = true) (hr : n.naluId = n.stkId) :
    isOwnedDof cfg mesh n = true := by
  unfold isOwnedDof
  unfold getDofStatus at hst ⊢
  split_ifs at hst ⊢ <;> simp_all

theorem selected_row (W : World) (ok : W.OK) {p : ℕ} (hp : p < W.np) {n : Node}
    (hn : n ∈ W.nodes p) (hs : selected W.tags n = true) :
    n ∈ W.active p ∧ isOwnedDof W.cfg (W.active p) n = true ∧ n.naluId = n.stkId ∧
      W.tags.comps n.stkId = W.numDof := by
  unfold selected at hs
  simp only [Bool.and_eq_true, bne_iff_ne, ne_eq, Bool.not_eq_true'] at hs
  obtain ⟨⟨⟨h1, h2⟩, h3⟩, h4⟩ := hs
  have hact : n ∈ W.active p := by
    unfold World.active
    rw [List.mem_filter]
    exact ⟨hn, by simp [h4]⟩
  have hr : n.naluId = n.stkId := by
    by_contra hc
    have := (ok.subject p hp n hn).2 hc
    rw [h3] at this; exact absurd this (by simp)
  exact ⟨hact, ownedDof_of_root (status_isSome (ok.num p hp) hact) h2 hr, hr,
    (ok.comps p hp n hn).resolve_left h1⟩

theorem copy_ok (W : World) (ok : W.OK) {p : ℕ} (hp : p < W.np) :
    ∀ n ∈ W.nodes p, selected W.tags n = true → W.tags.comps n.stkId = W.numDof ∧
      ∀ d < W.numDof, (W.num p).entityToLID n.stkId + d < (W.num p).maxOwnedRowId := by
  intro n hn hs
  obtain ⟨ha, ho, -, hc⟩ := selected_row W ok hp hn hs
  refine ⟨hc, fun d hd => ?_⟩
  have := (c18_owned_first (ok.mesh p hp) (ok.num p hp) ha).1 ho
  omega

/-- On its owner, an active node with its own row holds its entry of the global solution. -/
theorem copied_value (W : World) (ok : W.OK) (xg : ℕ → K) (x : ℕ → ℕ → K) (hx : Distributed W xg x)
    (f : ℕ → ℕ → ℕ → K) {p : ℕ} (hp : p < W.np) :
    ∃ g, copyBack W.numDof W.tags (W.num p) (x p) (W.nodes p) (f p) = some g ∧
      (∀ n ∈ W.nodes p, selected W.tags n = true → ∀ d < W.numDof,
        g n.stkId d = xg (GID n.stkId W.numDof d)) ∧
      (∀ i, (∀ n ∈ W.nodes p, n.stkId = i → selected W.tags n = false) → g i = f p i) := by
  obtain ⟨g, hg, h1, h2⟩ := copyBack_spec W.numDof W.tags (W.num p) (x p) (W.nodes p) (f p) (copy_ok W ok hp)
  refine ⟨g, hg, fun n hn hs d hd => ?_, h2⟩
  obtain ⟨ha, ho, hr, -⟩ := selected_row W ok hp hn hs
  rw [h1 n hn hs d hd]
  apply hx p hp
  have hpos := c18_row_is_position_of_gid (ok.mesh p hp) (ok.num p hp) ha (Or.inl ho) hd
  have hlt := (c18_owned_first (ok.mesh p hp) (ok.num p hp) ha).1 ho
  have hlen := (c18_contiguous (ok.mesh p hp) (ok.num p hp) 0).1
  rw [List.getElem?_append_left (by omega)] at hpos
  rw [hpos, hr]
  rfl

/-- C334: the copy never stops with an error. -/
theorem c334_never_throws (W : World) (ok : W.OK) (x : ℕ → ℕ → K) (f : ℕ → ℕ → ℕ → K) :
    (finishSolve W x f).isSome = true := by
  have hall : (List.range W.np).all
      (fun p => (copyBack W.numDof W.tags (W.num p) (x p) (W.nodes p) (f p)).isSome) = true := by
    rw [List.all_eq_true]
    intro p hp
    obtain ⟨g, hg, -⟩ := copyBack_spec W.numDof W.tags (W.num p) (x p) (W.nodes p) (f p)
      (copy_ok W ok (List.mem_range.1 hp))
    rw [hg]; rfl
  unfold finishSolve
  rw [if_pos hall]
  split_ifs <;> rfl

/-- Values after copy and sync, on the owner. -/
theorem finish_cases (W : World) (x : ℕ → ℕ → K) (f g : ℕ → ℕ → ℕ → K)
    (h : finishSolve W x f = some g) :
    ∃ f2 : ℕ → ℕ → ℕ → K,
      (∀ n, (W.owner n < W.np) → f2 (W.owner n) n =
        ((copyBack W.numDof W.tags (W.num (W.owner n)) (x (W.owner n)) (W.nodes (W.owner n)) (f (W.owner n))).getD
          (f (W.owner n))) n) ∧
      (∀ p n, (W.nodes p).any (fun m => decide (m.stkId = n) && m.shared) = true → f2 p n = f2 (W.owner n) n) ∧
      g = if W.cfg.periodic then parallelCommunicate W.owner W.nodes
        (Periodic.setSubjectsPar W.owner (fun _ => true) W.pairs f2) else f2 := by
  unfold finishSolve at h
  split_ifs at h with h1 h2
  · refine ⟨copyOwnedToShared W.owner W.nodes _, ?_, ?_, by rw [if_pos h2]; exact (Option.some.inj h).symm⟩
    · intro n _
      unfold copyOwnedToShared
      split_ifs <;> rfl
    · intro p n hs
      unfold copyOwnedToShared
      rw [if_pos hs]
      split_ifs <;> rfl
  · refine ⟨copyOwnedToShared W.owner W.nodes _, ?_, ?_, by rw [if_neg h2]; exact (Option.some.inj h).symm⟩
    · intro n _
      unfold copyOwnedToShared
      split_ifs <;> rfl
    · intro p n hs
      unfold copyOwnedToShared
      rw [if_pos hs]
      split_ifs <;> rfl

theorem parallelCommunicate_eq {V : Type*} (owner : ℕ → ℕ) (nodes : ℕ → List Node) (f : ℕ → ℕ → V) (p n : ℕ)
    (h : p = owner n ∨ (nodes p).any (fun m => decide (m.stkId = n) && !m.owned) = true) :
    parallelCommunicate owner nodes f p n = f (owner n) n := by
  unfold parallelCommunicate copyOwnedToShared
  rcases h with rfl | h
  · split_ifs <;> rfl
  · rw [if_pos h]

theorem pairs_disjoint (W : World) (ok : W.OK) : ∀ p ∈ W.pairs, ∀ q ∈ W.pairs, p.1 ≠ q.2 := by
  intro a ha b hb he
  obtain ⟨m, hm, h1, h2, hlt⟩ := ok.pairs a ha
  obtain ⟨p, hp, n, hn, h3, h4, h5⟩ := ok.pairSubject b hb
  have := ok.consistent _ hlt p hp m hm n hn (by rw [h1, h3, he])
  omega

theorem pairs_unique (W : World) (ok : W.OK) : ∀ p ∈ W.pairs, ∀ q ∈ W.pairs, p.2 = q.2 → p.1 = q.1 := by
  intro a ha b hb he
  obtain ⟨p, hp, n, hn, h3, h4, -⟩ := ok.pairSubject a ha
  obtain ⟨p', hp', m, hm, h5, h6, -⟩ := ok.pairSubject b hb
  have := ok.consistent p hp p' hp' n hn m hm (by rw [h3, h5, he])
  omega

/-- **C334.** After the solve, on every process that owns or shares it, an active node where the field
lives holds the entry of the global solution of its own row, or of its periodic monarch's. -/
theorem c334_correction_at_nodes (W : World) (ok : W.OK) (xg : ℕ → K) (x : ℕ → ℕ → K)
    (hx : Distributed W xg x) (f g : ℕ → ℕ → ℕ → K) (h : finishSolve W x f = some g)
    (p : ℕ) (hp : p < W.np) (n : Node) (hn : n ∈ W.nodes p) (hos : n.owned = true ∨ n.shared = true)
    (hact : W.tags.inactive n.stkId = false) (hf : W.tags.comps n.stkId ≠ 0)
    (d : ℕ) (hd : d < W.numDof) :
    g p n.stkId d = xg (W.numDof * (n.naluId - 1) + d + 1) := by
  obtain ⟨f2, hf2, hsync, rfl⟩ := finish_cases W x f g h
  -- value of a root at its owner
  have hroot : ∀ i, W.owner i < W.np → (∃ m ∈ W.nodes (W.owner i), m.stkId = i ∧ m.naluId = i) →
      W.tags.inactive i = false → W.tags.comps i ≠ 0 →
      f2 (W.owner i) i d = xg (GID i W.numDof d) := by
    rintro i hlt ⟨m, hm, h1, h2⟩ h3 h4
    obtain ⟨g, hg, ha, -⟩ := copied_value W ok xg x hx f hlt
    rw [hf2 i hlt, hg, Option.getD_some, ← h1]
    have hmo : m.owned = true := (ok.owned _ hlt m hm).2 (by rw [h1])
    have hms : W.tags.subject m.stkId = false := by
      by_contra hc
      have := (ok.subject _ hlt m hm).1 (by simpa using hc)
      omega
    have hsel : selected W.tags m = true := by
      unfold selected
      rw [hms, hmo]
      subst h1
      simp [h3, h4]
    exact ha m hm hsel d hd
  have hol := ok.owner_lt p hp n hn
  have hdis := pairs_disjoint W ok
  have huq := pairs_unique W ok
  change _ = xg (GID n.naluId W.numDof d)
  -- reduce to the owner
  have hred : (if W.cfg.periodic then parallelCommunicate W.owner W.nodes
        (Periodic.setSubjectsPar W.owner (fun _ => true) W.pairs f2) else f2) p n.stkId
      = if W.cfg.periodic then Periodic.setSubjectsPar W.owner (fun _ => true) W.pairs f2
          (W.owner n.stkId) n.stkId else f2 (W.owner n.stkId) n.stkId := by
    by_cases ho : n.owned = true
    · have he := (ok.owned p hp n hn).1 ho
      split_ifs
      · exact parallelCommunicate_eq _ _ _ _ _ (Or.inl he.symm)
      · rw [he]
    · have hs := hos.resolve_left ho
      split_ifs
      · refine parallelCommunicate_eq _ _ _ _ _ (Or.inr ?_)
        rw [List.any_eq_true]
        exact ⟨n, hn, by simp [ho]⟩
      · apply hsync
        rw [List.any_eq_true]
        exact ⟨n, hn, by simp [hs]⟩
  rw [hred]
  obtain ⟨m, hm, hm1, hm2⟩ := ok.home p hp n hn
  by_cases hself : n.naluId = n.stkId
  · have hval := hroot n.stkId hol ⟨m, hm, hm1, by omega⟩ hact hf
    rw [hself, ← hval]
    split_ifs with hper
    · rw [Periodic.c37_parallel_set W.owner (fun _ => true) W.pairs f2 hdis huq]
      rw [(Periodic.setSubjects_apply (fun _ => true) W.pairs (fun m => f2 (W.owner m) m) hdis huq).2 n.stkId]
      intro q hq hq2
      obtain ⟨p', hp', m', hm', h1, h2, h3⟩ := ok.pairSubject q hq
      have := ok.consistent p hp p' hp' n hn m' hm' (by omega)
      omega
    · rfl
  · obtain ⟨hper, hq⟩ := ok.renumber p hp n hn hself
    rw [if_pos hper, Periodic.c37_parallel_set W.owner (fun _ => true) W.pairs f2 hdis huq]
    rw [show n.stkId = (n.naluId, n.stkId).2 from rfl,
      (Periodic.setSubjects_apply (fun _ => true) W.pairs (fun m => f2 (W.owner m) m) hdis huq).1 _ hq rfl]
    obtain ⟨m', hm', h1, h2, h3⟩ := ok.pairs _ hq
    exact hroot n.naluId h3 ⟨m', hm', h1, h2⟩ ((ok.pairActive _ hq).trans hact)
      (by rw [ok.pairComps _ hq]; exact hf)

/-- C334: the correction does not depend on how the mesh is distributed, on process numbers or on
the values the field had before. -/
theorem c334_partition_independent (W W' : World) (ok : W.OK) (ok' : W'.OK) (hnd : W.numDof = W'.numDof)
    (xg : ℕ → K) (x x' : ℕ → ℕ → K) (hx : Distributed W xg x) (hx' : Distributed W' xg x')
    (f g f' g' : ℕ → ℕ → ℕ → K) (h : finishSolve W x f = some g) (h' : finishSolve W' x' f' = some g')
    (p p' : ℕ) (hp : p < W.np) (hp' : p' < W'.np) (n n' : Node) (hn : n ∈ W.nodes p) (hn' : n' ∈ W'.nodes p')
    (hid : n.naluId = n'.naluId) (hos : n.owned = true ∨ n.shared = true)
    (hos' : n'.owned = true ∨ n'.shared = true)
    (hact : W.tags.inactive n.stkId = false) (hact' : W'.tags.inactive n'.stkId = false)
    (hf : W.tags.comps n.stkId ≠ 0) (hf' : W'.tags.comps n'.stkId ≠ 0) (d : ℕ) (hd : d < W.numDof) :
    g p n.stkId d = g' p' n'.stkId d := by
  rw [c334_correction_at_nodes W ok xg x hx f g h p hp n hn hos hact hf d hd,
    c334_correction_at_nodes W' ok' xg x' hx' f' g' h' p' hp' n' hn' hos' hact' hf' d (by omega), hid, hnd]

/-! ## C335: nodes without a row -/

/-- C335: an owned node that is inactive (or where the field is not defined) keeps the correction it had. -/
theorem c335_inactive_keeps_old (W : World) (ok : W.OK) (x : ℕ → ℕ → K) (f g : ℕ → ℕ → ℕ → K)
    (h : finishSolve W x f = some g) (p : ℕ) (hp : p < W.np) (n : Node) (hn : n ∈ W.nodes p)
    (ho : n.owned = true) (hself : n.naluId = n.stkId)
    (hina : W.tags.inactive n.stkId = true ∨ W.tags.comps n.stkId = 0) :
    g p n.stkId = f p n.stkId := by
  obtain ⟨f2, hf2, -, rfl⟩ := finish_cases W x f g h
  have hol := (ok.owned p hp n hn).1 ho
  have hval : f2 p n.stkId = f p n.stkId := by
    obtain ⟨g, hg, -, h2⟩ := copyBack_spec W.numDof W.tags (W.num p) (x p) (W.nodes p) (f p) (copy_ok W ok hp)
    have := hf2 n.stkId (by omega)
    rw [hol, hg, Option.getD_some] at this
    rw [this]
    apply h2
    intro m hm he
    unfold selected
    rw [he]
    rcases hina with h | h <;> simp [h]
  split_ifs with hper
  · rw [parallelCommunicate_eq _ _ _ _ _ (Or.inl hol.symm),
      Periodic.c37_parallel_set W.owner (fun _ => true) W.pairs f2 (pairs_disjoint W ok) (pairs_unique W ok),
      (Periodic.setSubjects_apply (fun _ => true) W.pairs (fun m => f2 (W.owner m) m)
        (pairs_disjoint W ok) (pairs_unique W ok)).2 n.stkId]
    · change f2 (W.owner n.stkId) n.stkId = _
      rw [hol, hval]
    · intro q hq hq2
      obtain ⟨p', hp', m', hm', h1, h2, h3⟩ := ok.pairSubject q hq
      have := ok.consistent p hp p' hp' n hn m' hm' (by omega)
      omega
  · exact hval

/-- `k` nonlinear iterations as far as one process' field is concerned: each solves (with whatever the
solver returns) and adds the correction. -/
def iterate [Add K] (W : World) (p : ℕ) : List (ℕ → ℕ → K) → (ℕ → ℕ → ℕ → K) → (ℕ → ℕ → K) →
    Option ((ℕ → ℕ → ℕ → K) × (ℕ → ℕ → K))
  | [], f, u => some (f, u)
  | x :: xs, f, u =>
    match finishSolve W x f with
    | none => none
    | some g => iterate W p xs g (addDelta W.tags (W.nodes p) (g p) u)

/-- C335: at a node that became inactive the last correction is added again in every iteration, so the
value there drifts by the same amount each time; it stays put only if the correction was zero. -/
theorem c335_inactive_drifts [AddCommMonoid K] (W : World) (ok : W.OK) (p : ℕ) (hp : p < W.np) (n : Node)
    (hn : n ∈ W.nodes p) (ho : n.owned = true) (hself : n.naluId = n.stkId)
    (hina : W.tags.inactive n.stkId = true) (hf : W.tags.comps n.stkId ≠ 0)
    (xs : List (ℕ → ℕ → K)) (f g : ℕ → ℕ → ℕ → K) (u v : ℕ → ℕ → K) (h : iterate W p xs f u = some (g, v))
    (d : ℕ) : v n.stkId d = xs.length • f p n.stkId d + u n.stkId d := by
  induction xs generalizing f u with
  | nil =>
    simp only [iterate, Option.some.injEq, Prod.mk.injEq] at h
    rw [h.2]; simp
  | cons x xs ih =>
    unfold iterate at h
    cases hs : finishSolve W x f with
    | none => rw [hs] at h; simp at h
    | some g1 =>
      rw [hs] at h
      have hk := c335_inactive_keeps_old W ok x f g1 hs p hp n hn ho hself (Or.inl hina)
      rw [ih g1 _ h, hk]
      have hadd : addDelta W.tags (W.nodes p) (g1 p) u n.stkId d = f p n.stkId d + u n.stkId d := by
        unfold addDelta
        rw [if_pos, hk]
        rw [Bool.and_eq_true, List.any_eq_true]
        exact ⟨⟨n, hn, by simp [ho]⟩, by simpa using hf⟩
      rw [hadd, List.length_cons, succ_nsmul, add_assoc]

/-- C335: and an active node advances by its entries of the successive solutions. -/
theorem c335_active_advances [AddCommMonoid K] (W : World) (ok : W.OK) (p : ℕ) (hp : p < W.np) (n : Node)
    (hn : n ∈ W.nodes p) (hos : n.owned = true ∨ n.shared = true)
    (hact : W.tags.inactive n.stkId = false) (hf : W.tags.comps n.stkId ≠ 0)
    (sols : List ((ℕ → K) × (ℕ → ℕ → K))) (hx : ∀ s ∈ sols, Distributed W s.1 s.2)
    (f g : ℕ → ℕ → ℕ → K) (u v : ℕ → ℕ → K) (h : iterate W p (sols.map (·.2)) f u = some (g, v))
    (d : ℕ) (hd : d < W.numDof) :
    v n.stkId d = (sols.map (fun s => s.1 (W.numDof * (n.naluId - 1) + d + 1))).sum + u n.stkId d := by
  induction sols generalizing f u with
  | nil =>
    simp only [List.map_nil, iterate, Option.some.injEq, Prod.mk.injEq] at h
    rw [h.2]; simp
  | cons s sols ih =>
    rw [List.map_cons] at h
    unfold iterate at h
    cases hs : finishSolve W s.2 f with
    | none => rw [hs] at h; simp at h
    | some g1 =>
      rw [hs] at h
      have hk := c334_correction_at_nodes W ok s.1 s.2 (hx s (by simp)) f g1 hs p hp n hn hos hact hf d hd
      rw [ih (fun s hs => hx s (by simp [hs])) g1 _ h]
      have hadd : addDelta W.tags (W.nodes p) (g1 p) u n.stkId d =
          s.1 (W.numDof * (n.naluId - 1) + d + 1) + u n.stkId d := by
        unfold addDelta
        rw [if_pos, hk]
        rw [Bool.and_eq_true, List.any_eq_true]
        refine ⟨⟨n, hn, ?_⟩, by simpa using hf⟩
        rcases hos with h | h <;> simp [h]
      rw [hadd, List.map_cons, List.sum_cons]
      simp only [add_left_comm, add_assoc]

/-! ## C336: coordinates for the multigrid preconditioner -/

theorem copyCoords_foldl (gids : List ℕ) (coord : ℕ → K) (l : List Node) (v : ℕ → K)
    (hnd : (l.map (·.naluId)).Nodup) :
    (∀ n ∈ l, n.naluId ∈ gids →
      l.foldl (fun v n => if n.naluId ∈ gids then Function.update v n.naluId (coord n.stkId) else v) v n.naluId
        = coord n.stkId) ∧
    (∀ i, (∀ n ∈ l, n.naluId = i → i ∉ gids) →
      l.foldl (fun v n => if n.naluId ∈ gids then Function.update v n.naluId (coord n.stkId) else v) v i = v i) := by
  induction l using List.reverseRecOn with
  | nil => simp
  | append_singleton l a ih =>
    rw [List.map_append, List.map_singleton, List.nodup_append] at hnd
    obtain ⟨h1, -, h3⟩ := hnd
    obtain ⟨ih1, ih2⟩ := ih h1
    simp only [List.foldl_append, List.foldl_cons, List.foldl_nil]
    constructor
    · intro n hn hg
      rcases List.mem_append.1 hn with hn | hn
      · have hne : n.naluId ≠ a.naluId := h3 _ (List.mem_map.2 ⟨n, hn, rfl⟩) _ (by simp)
        split_ifs
        · rw [Function.update_of_ne hne]; exact ih1 n hn hg
        · exact ih1 n hn hg
      · rw [List.mem_singleton.1 hn] at hg ⊢
        rw [if_pos hg, Function.update_self]
    · intro i hi
      have hrest := ih2 i (fun n hn => hi n (by simp [hn]))
      split_ifs with hg
      · have hne : i ≠ a.naluId := by
          rintro rfl; exact hi a (by simp) rfl hg
        rw [Function.update_of_ne hne]; exact hrest
      · exact hrest

theorem coords_nodup (W : World) (ok : W.OK) {p : ℕ} (hp : p < W.np)
    (hnodup : ((W.nodes p).map (·.stkId)).Nodup) :
    (((W.nodes p).filter (fun n => selected W.tags n && isOwnedDof W.cfg (W.active p) n)).map (·.naluId)).Nodup := by
  have hmap : ((W.nodes p).filter (fun n => selected W.tags n && isOwnedDof W.cfg (W.active p) n)).map (·.naluId)
      = ((W.nodes p).filter (fun n => selected W.tags n && isOwnedDof W.cfg (W.active p) n)).map (·.stkId) := by
    refine List.map_congr_left fun n hn => ?_
    rw [List.mem_filter, Bool.and_eq_true] at hn
    exact (selected_row W ok hp hn.1 hn.2.1).2.2.1
  rw [hmap]
  exact (List.filter_sublist.map _).nodup hnodup

/-- **C336 (one unknown per node).** For a scalar equation every owned row receives the coordinate of
its own node, and nothing else is written. -/
theorem c336_scalar_rows_partial (W : World) (ok : W.OK) (h1 : W.numDof = 1) (p : ℕ) (hp : p < W.np)
    (hnodup : ((W.nodes p).map (·.stkId)).Nodup) (hid : ∀ n ∈ W.nodes p, 1 ≤ n.naluId)
    (coord v : ℕ → K) (n : Node) (hn : n ∈ W.nodes p) (hs : selected W.tags n = true) :
    copyCoords W.cfg (W.active p) W.tags (W.num p).ownedGids coord (W.nodes p) v
      (W.numDof * (n.naluId - 1) + 0 + 1) = coord n.stkId := by
  obtain ⟨ha, ho, hr, -⟩ := selected_row W ok hp hn hs
  have hpos := c18_row_is_position_of_gid (ok.mesh p hp) (ok.num p hp) ha (Or.inl ho) (d := 0) (by omega)
  have hlt := (c18_owned_first (ok.mesh p hp) (ok.num p hp) ha).1 ho
  have hlen := (c18_contiguous (ok.mesh p hp) (ok.num p hp) 0).1
  rw [List.getElem?_append_left (by omega)] at hpos
  have hmem := List.mem_of_getElem? hpos
  have hge := hid n hn
  have hkey : W.numDof * (n.naluId - 1) + 0 + 1 = n.naluId := by rw [h1]; omega
  rw [hkey] at hmem ⊢
  exact (copyCoords_foldl (W.num p).ownedGids coord _ v (coords_nodup W ok hp hnodup)).1 n
    (List.mem_filter.2 ⟨hn, by simp [hs, ho]⟩) hmem

/-- C336: with several unknowns per node the coordinate of node `n` is written into the row whose
global id happens to equal the node id: component `(n-1) mod numDof` of node `(n-1)/numDof + 1`. -/
theorem c336_vector_rows_misplaced (W : World) (ok : W.OK) (p : ℕ) (hp : p < W.np)
    (hnodup : ((W.nodes p).map (·.stkId)).Nodup) (hid : ∀ n ∈ W.nodes p, 1 ≤ n.naluId)
    (coord v : ℕ → K) (n : Node) (hn : n ∈ W.nodes p) (hs : selected W.tags n = true)
    (hg : n.naluId ∈ (W.num p).ownedGids) :
    copyCoords W.cfg (W.active p) W.tags (W.num p).ownedGids coord (W.nodes p) v
      (GID ((n.naluId - 1) / W.numDof + 1) W.numDof ((n.naluId - 1) % W.numDof)) = coord n.stkId := by
  obtain ⟨ha, ho, hr, -⟩ := selected_row W ok hp hn hs
  have hge := hid n hn
  have hkey : GID ((n.naluId - 1) / W.numDof + 1) W.numDof ((n.naluId - 1) % W.numDof) = n.naluId := by
    unfold GID
    rw [Nat.add_sub_cancel, Nat.div_add_mod]
    omega
  rw [hkey]
  exact (copyCoords_foldl (W.num p).ownedGids coord _ v (coords_nodup W ok hp hnodup)).1 n
    (List.mem_filter.2 ⟨hn, by simp [hs, ho]⟩) hg

/-- C336: rows whose global id is no owned node id keep the initial zero: with `numDof ≥ 2` the last
component of the node with the largest id is never set. -/
theorem c336_vector_rows_left_zero (W : World) (ok : W.OK) (p : ℕ) (hp : p < W.np)
    (hnodup : ((W.nodes p).map (·.stkId)).Nodup) (coord v : ℕ → K) (i : ℕ)
    (hi : ∀ n ∈ W.nodes p, selected W.tags n = true → n.naluId ≠ i) :
    copyCoords W.cfg (W.active p) W.tags (W.num p).ownedGids coord (W.nodes p) v i = v i := by
  refine (copyCoords_foldl (W.num p).ownedGids coord _ v (coords_nodup W ok hp hnodup)).2 i ?_
  intro n hn he
  rw [List.mem_filter, Bool.and_eq_true] at hn
  exact absurd he (hi n hn.1 hn.2.1)

/-! ## A concrete run -/

/-- Two processes, two unknowns per node, periodic: node 3 is the subject of node 1 (ghosted on
process 1), node 2 is shared, node 5 is inactive. -/
def demoNodes (p : ℕ) : List Node :=
  if p = 0 then [⟨1, 1, true, false, false, false⟩, ⟨2, 2, true, true, false, false⟩, ⟨5, 5, true, false, false, false⟩]
  else [⟨2, 2, false, true, false, false⟩, ⟨3, 1, true, false, false, false⟩, ⟨1, 1, false, false, false, false⟩,
    ⟨4, 4, true, false, false, false⟩]

def demoTags : Tags := ⟨fun _ => 2, fun i => i == 3, fun i => i == 5⟩

def demoWorld : World where
  np := 2
  cfg := { periodic := true }
  numDof := 2
  nodes := demoNodes
  owner := fun i => if i = 3 ∨ i = 4 then 1 else 0
  tags := demoTags
  pairs := [(1, 3)]
  num := fun p => match beginConstruction { periodic := true } 2
      ((demoNodes p).filter (fun n => !demoTags.inactive n.stkId)) with
    | some N => N
    | none => ⟨0, 0, [], [], fun _ => none, fun _ => 0⟩

theorem demo_mesh : ∀ p < 2, MeshOK { periodic := true } (demoWorld.active p) := by
  intro p hp
  interval_cases p <;> exact ⟨by decide, by decide, by decide⟩

theorem demo_num : ∀ p < 2, beginConstruction { periodic := true } 2 (demoWorld.active p) = some (demoWorld.num p) := by
  intro p hp
  obtain ⟨N, hN⟩ := c18_succeeds (numDof := 2) (demo_mesh p hp)
    (by interval_cases p <;> decide) (by interval_cases p <;> decide)
  rw [hN]
  have h2 : beginConstruction { periodic := true } 2
      ((demoNodes p).filter (fun n => !demoTags.inactive n.stkId)) = some N := hN
  simp only [demoWorld, h2]

theorem demo_ok : demoWorld.OK where
  mesh := demo_mesh
  num := demo_num
  owner_lt := by decide
  owned := by decide
  home := by decide
  comps := by decide
  subject := by decide
  renumber := by decide
  pairs := by decide
  pairSubject := by decide
  pairActive := by decide
  pairComps := by decide
  consistent := by decide

/-- The hypotheses of C334 are met: shared node 2 on process 1, subject 3, inactive node 5. -/
example : (finishSolve demoWorld (fun p l => (((demoWorld.num p).ownedGids.getD l 0 : ℕ) : ℤ)) (fun _ _ _ => 7)).map
    (fun g => [g 0 1 0, g 0 1 1, g 1 2 0, g 1 2 1, g 1 3 0, g 1 3 1, g 0 5 0]) = some [1, 2, 3, 4, 1, 2, 7] := by
  decide

example : Distributed demoWorld (fun i => (i : ℤ)) (fun p l => (((demoWorld.num p).ownedGids.getD l 0 : ℕ) : ℤ)) := by
  intro p hp l i h
  simp only [List.getD_eq_getElem?_getD, h, Option.getD_some]

/-- C335: two further iterations move the inactive node twice by its old correction 7. -/
example : (iterate demoWorld 0 [fun _ _ => (1 : ℤ), fun _ _ => 2] (fun _ _ _ => 7) (fun _ _ => 100)).map
    (fun r => [r.2 5 0, r.2 1 0]) = some [114, 103] := by decide

/-- C336: on process 0 the rows of nodes 1 and 2 are 1..4; row 2 (second component of node 1) gets the
coordinate of node 2, rows 3 and 4 (node 2) are never set. -/
theorem c336_vector_rows_wrong_example :
    (let v := copyCoords demoWorld.cfg (demoWorld.active 0) demoWorld.tags (demoWorld.num 0).ownedGids
      (fun i => (10 * i : ℤ)) (demoWorld.nodes 0) (fun _ => 0)
    [v 1, v 2, v 3, v 4]) = [10, 20, 0, 0] := by decide

/-- C335: a node of a subject part that the periodic search did not pair has a row of its own, but the
solution of that row is not copied back: the node keeps its old correction. -/
theorem c335_unpaired_subject_not_updated (numDof : ℕ) (T : Tags) (N : Numbering) (x : ℕ → K)
    (nodes : List Node) (f g : ℕ → ℕ → K) (h : copyBack numDof T N x nodes f = some g) (i : ℕ)
    (hs : T.subject i = true) : g i = f i := by
  unfold copyBack at h
  induction nodes using List.reverseRecOn generalizing g with
  | nil => simp only [List.foldl_nil, Option.some.injEq] at h; rw [h]
  | append_singleton l a ih =>
    rw [List.foldl_append, List.foldl_cons, List.foldl_nil] at h
    cases hl : l.foldl (copyNode numDof T N x) (some f) with
    | none => rw [hl] at h; simp [copyNode] at h
    | some g1 =>
      rw [hl] at h
      rw [← ih g1 hl]
      unfold copyNode at h
      simp only at h
      split_ifs at h with h1 h2 h3
      · rw [← Option.some.inj h]
      · rw [← Option.some.inj h]
        refine Function.update_of_ne ?_ _ _
        rintro rfl
        simp [selected, hs] at h1

end Verif.SolveBack
