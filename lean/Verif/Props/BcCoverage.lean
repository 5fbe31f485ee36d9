import Verif.Model.BcCoverage

/-!
# C352: no exposed face without a boundary condition
-/

namespace Nalu.BcCheck

variable {S P F E : Type*}

/-! ## Specification -/

/-- Surfaces a boundary condition takes part by part: those of all conditions but periodic ones; of a non-conformal condition, the current ones. -/
def Bc.partSurfaces : Bc S → List S
  | .wall n => [n]
  | .inflow n => [n]
  | .open' n => [n]
  | .symmetry n => [n]
  | .periodic _ _ => []
  | .nonConformal cur _ => cur
  | .overset => []

/-- Surfaces taken as a whole: both of a periodic condition. -/
def Bc.wholeSurfaces : Bc S → List S
  | .periodic a b => [a, b]
  | _ => []

/-- The face lies on a surface some boundary condition of the input names. -/
def Covered (m : Mesh S P F E) (bcs : List (Bc S)) (f : F) : Prop :=
  (∃ b ∈ bcs, ∃ n ∈ b.partSurfaces, ∃ ps, m.parts n = some ps ∧ ∃ p ∈ ps, m.side p = true ∧ m.on p f)
    ∨ ∃ b ∈ bcs, ∃ n ∈ b.wholeSurfaces, ∃ ps, m.parts n = some ps ∧ ∃ p ∈ ps, m.on p f

/-- The face is a side of one element and no other. -/
def OnBoundary (m : Mesh S P F E) (f : F) : Prop := ∃ e ∈ m.elems, m.isSide e f ∧ ∀ e' ∈ m.elems, m.isSide e' f → e' = e

/-- What the registration insists on: known surfaces made of sides for symmetry and the current side of a non-conformal condition, known surfaces for
periodic conditions, nothing for walls, inflows and open boundaries. -/
def Bc.Valid (m : Mesh S P F E) : Bc S → Prop
  | .symmetry n => ∃ ps, m.parts n = some ps ∧ ∀ p ∈ ps, m.side p = true
  | .periodic a b => (m.parts a).isSome = true ∧ (m.parts b).isSome = true
  | .nonConformal cur _ => ∀ n ∈ cur, ∃ ps, m.parts n = some ps ∧ ∀ p ∈ ps, m.side p = true
  | _ => True

/-! ## Auxiliary facts -/

theorem strict_some (m : Mesh S P F E) (n : S) {l : List (Entry S P)} :
    strict m n = some l ↔ ∃ ps, m.parts n = some ps ∧ (∀ p ∈ ps, m.side p = true) ∧ l = ps.map .sub := by
  unfold strict
  cases h : m.parts n with
  | none => simp
  | some ps =>
    simp only [Option.some.injEq, exists_eq_left']
    by_cases ha : ps.all m.side = true
    · rw [if_pos ha]
      have := List.all_eq_true.1 ha
      constructor
      · intro e; exact ⟨this, by simpa using e.symm⟩
      · rintro ⟨-, rfl⟩; rfl
    · rw [if_neg ha]
      simp only [reduceCtorEq, false_iff, not_and]
      intro h2
      exact absurd (List.all_eq_true.2 h2) ha

theorem strictAll_some (m : Mesh S P F E) (ns : List S) :
    (∀ n ∈ ns, ∃ ps, m.parts n = some ps ∧ ∀ p ∈ ps, m.side p = true) ↔ ∃ l, strictAll m ns = some l := by
  induction ns with
  | nil => simp [strictAll]
  | cons n ns ih =>
    simp only [List.forall_mem_cons, ih, strictAll]
    constructor
    · rintro ⟨⟨ps, h1, h2⟩, l, hl⟩
      exact ⟨_, by rw [(strict_some m n).2 ⟨ps, h1, h2, rfl⟩, hl]⟩
    · rintro ⟨l, h⟩
      cases h1 : strict m n with
      | none => simp [h1] at h
      | some a =>
        cases h2 : strictAll m ns with
        | none => simp [h1, h2] at h
        | some b =>
          obtain ⟨ps, q1, q2, -⟩ := (strict_some m n).1 h1
          exact ⟨⟨ps, q1, q2⟩, b, rfl⟩

theorem strictAll_has (m : Mesh S P F E) (f : F) (ns : List S) {l : List (Entry S P)} (h : strictAll m ns = some l) :
    (∃ e ∈ l, e.has m f) ↔ ∃ n ∈ ns, ∃ ps, m.parts n = some ps ∧ ∃ p ∈ ps, m.side p = true ∧ m.on p f := by
  induction ns generalizing l with
  | nil => simp only [strictAll, Option.some.injEq] at h; subst h; simp
  | cons n ns ih =>
    unfold strictAll at h
    cases h1 : strict m n with
    | none => simp [h1] at h
    | some a =>
      cases h2 : strictAll m ns with
      | none => simp [h1, h2] at h
      | some b =>
        simp only [h1, h2, Option.some.injEq] at h
        subst h
        obtain ⟨ps, q1, q2, rfl⟩ := (strict_some m n).1 h1
        simp only [List.mem_append, or_and_right, exists_or, List.exists_mem_cons_iff, ih h2]
        refine or_congr_left ?_
        simp only [List.mem_map, exists_exists_and_eq_and, q1, Option.some.injEq, exists_eq_left']
        exact ⟨fun ⟨p, hp, hf⟩ => ⟨p, hp, q2 p hp, hf⟩, fun ⟨p, hp, _, hf⟩ => ⟨p, hp, hf⟩⟩

theorem lenient_has (m : Mesh S P F E) (f : F) (n : S) :
    (∃ e ∈ lenient m n, e.has m f) ↔ ∃ ps, m.parts n = some ps ∧ ∃ p ∈ ps, m.side p = true ∧ m.on p f := by
  unfold lenient
  cases h : m.parts n with
  | none => simp
  | some ps =>
    simp only [List.mem_map, List.mem_filter, Option.some.injEq, exists_eq_left']
    constructor
    · rintro ⟨_, ⟨p, ⟨h1, h2⟩, rfl⟩, h3⟩
      exact ⟨p, h1, h2, h3⟩
    · rintro ⟨p, h1, h2, h3⟩
      exact ⟨_, ⟨p, ⟨h1, h2⟩, rfl⟩, h3⟩

theorem register_some (m : Mesh S P F E) (b : Bc S) : b.Valid m ↔ ∃ l, register m b = some l := by
  cases b with
  | wall n => simp [Bc.Valid, register]
  | inflow n => simp [Bc.Valid, register]
  | open' n => simp [Bc.Valid, register]
  | symmetry n =>
    simp only [Bc.Valid, register, strict_some]
    exact ⟨fun ⟨ps, h1, h2⟩ => ⟨_, ps, h1, h2, rfl⟩, fun ⟨_, ps, h1, h2, _⟩ => ⟨ps, h1, h2⟩⟩
  | periodic a b =>
    simp only [Bc.Valid, register, periodicPair]
    cases m.parts a <;> cases m.parts b <;> simp
  | nonConformal cur opp => exact strictAll_some m cur
  | overset => simp [Bc.Valid, register]

theorem register_has (m : Mesh S P F E) (f : F) (b : Bc S) {l : List (Entry S P)} (h : register m b = some l) :
    (∃ e ∈ l, e.has m f) ↔ (∃ n ∈ b.partSurfaces, ∃ ps, m.parts n = some ps ∧ ∃ p ∈ ps, m.side p = true ∧ m.on p f)
      ∨ ∃ n ∈ b.wholeSurfaces, ∃ ps, m.parts n = some ps ∧ ∃ p ∈ ps, m.on p f := by
  cases b with
  | wall n => simp only [register, Option.some.injEq] at h; subst h; simp [Bc.partSurfaces, Bc.wholeSurfaces, lenient_has]
  | inflow n => simp only [register, Option.some.injEq] at h; subst h; simp [Bc.partSurfaces, Bc.wholeSurfaces, lenient_has]
  | open' n => simp only [register, Option.some.injEq] at h; subst h; simp [Bc.partSurfaces, Bc.wholeSurfaces, lenient_has]
  | symmetry n =>
    simp only [register] at h
    have : strictAll m [n] = some (l ++ []) := by simp [strictAll, h]
    rw [List.append_nil] at this
    simpa [Bc.partSurfaces, Bc.wholeSurfaces] using strictAll_has m f [n] this
  | periodic a b =>
    simp only [register, periodicPair] at h
    cases ha : m.parts a with
    | none => simp [ha] at h
    | some pa =>
      cases hb : m.parts b with
      | none => simp [ha, hb] at h
      | some pb =>
        simp only [ha, hb, Option.some.injEq] at h
        subst h
        simp [Bc.partSurfaces, Bc.wholeSurfaces, Entry.has]
  | nonConformal cur opp => simpa [Bc.partSurfaces, Bc.wholeSurfaces] using strictAll_has m f cur h
  | overset => simp only [register, Option.some.injEq] at h; subst h; simp [Bc.partSurfaces, Bc.wholeSurfaces]

theorem setupBc_has (m : Mesh S P F E) (f : F) (bcs : List (Bc S)) {l : List (Entry S P)} (h : setupBc m bcs = some l) :
    (∃ e ∈ l, e.has m f) ↔ Covered m bcs f := by
  induction bcs generalizing l with
  | nil => simp only [setupBc, Option.some.injEq] at h; subst h; simp [Covered]
  | cons b bs ih =>
    unfold setupBc at h
    cases h1 : register m b with
    | none => simp [h1] at h
    | some a =>
      cases h2 : setupBc m bs with
      | none => simp [h1, h2] at h
      | some c =>
        simp only [h1, h2, Option.some.injEq] at h
        subst h
        simp only [List.mem_append, or_and_right, exists_or, ih h2, register_has m f b h1, Covered, List.exists_mem_cons_iff]
        exact or_or_or_comm

theorem setupBc_some (m : Mesh S P F E) (bcs : List (Bc S)) : (∀ b ∈ bcs, b.Valid m) ↔ ∃ l, setupBc m bcs = some l := by
  induction bcs with
  | nil => simp [setupBc]
  | cons b bs ih =>
    rw [List.forall_mem_cons, ih, register_some]
    simp only [setupBc]
    constructor
    · rintro ⟨⟨a, ha⟩, l, hl⟩
      exact ⟨_, by rw [ha, hl]⟩
    · rintro ⟨l, h⟩
      cases h1 : register m b with
      | none => simp [h1] at h
      | some a =>
        cases h2 : setupBc m bs with
        | none => simp [h1, h2] at h
        | some c => exact ⟨⟨a, rfl⟩, c, rfl⟩

theorem exposed_iff (m : Mesh S P F E) (f : F) : exposed m f ↔ OnBoundary m f := by
  classical
  unfold exposed OnBoundary
  rw [Finset.card_eq_one]
  constructor
  · rintro ⟨e, he⟩
    have hm : e ∈ m.elems.filter fun e => m.isSide e f := by convert Finset.mem_singleton_self e
    rw [Finset.mem_filter] at hm
    refine ⟨e, hm.1, hm.2, fun e' h1 h2 => ?_⟩
    have h3 : e' ∈ m.elems.filter fun e => m.isSide e f := Finset.mem_filter.2 ⟨h1, h2⟩
    have h4 : e' ∈ ({e} : Finset E) := by rw [← he]; convert h3
    exact Finset.mem_singleton.1 h4
  · rintro ⟨e, h1, h2, h3⟩
    refine ⟨e, Finset.ext fun e' => ?_⟩
    simp only [Finset.mem_filter, Finset.mem_singleton]
    exact ⟨fun h => h3 e' h.1 h.2, fun h => h ▸ ⟨h1, h2⟩⟩

/-! ## Theorems -/

/-- **C352.** A process goes on after the boundary conditions were set up exactly when every condition is valid and, if the check was asked for, every
boundary face of the mesh the process has a copy of lies on a surface that some condition names. -/
theorem c352_goes_on (check : Bool) (m : Mesh S P F E) (bcs : List (Bc S)) (r : ℕ) :
    goesOn check m bcs r ↔ (∀ b ∈ bcs, b.Valid m) ∧ (check = true → ∀ f, m.held r f → OnBoundary m f → Covered m bcs f) := by
  unfold goesOn
  cases h : setupBc m bcs with
  | none =>
    have : ¬ ∀ b ∈ bcs, b.Valid m := by rw [setupBc_some, h]; simp
    simp only [this, false_and]
  | some l =>
    have hv : ∀ b ∈ bcs, b.Valid m := (setupBc_some m bcs).2 ⟨l, h⟩
    simp only [throws, uncovered, setupBc_has m _ bcs h, exposed_iff]
    constructor
    · intro g
      refine ⟨hv, fun hc f hf hb => ?_⟩
      by_contra hcov
      exact g hc ⟨f, hf, hb, hcov⟩
    · rintro ⟨-, g⟩ hc ⟨f, hf, hb, hcov⟩
      exact hcov (g hc f hf hb)

/-- **C352.** With the check, and when every face is held by some process, the run starts on all processes exactly when the conditions are valid and every
boundary face of the mesh lies on a surface that some condition names: whatever the distribution over processes. -/
theorem c352_all_processes (m : Mesh S P F E) (bcs : List (Bc S)) (ranks : ℕ) (hheld : ∀ f, OnBoundary m f → ∃ r < ranks, m.held r f)
    (hr : 0 < ranks) :
    (∀ r < ranks, goesOn true m bcs r) ↔ (∀ b ∈ bcs, b.Valid m) ∧ ∀ f, OnBoundary m f → Covered m bcs f := by
  simp only [c352_goes_on, forall_const]
  constructor
  · intro h
    refine ⟨(h 0 hr).1, fun f hf => ?_⟩
    obtain ⟨r, h1, h2⟩ := hheld f hf
    exact (h r h1).2 f h2 hf
  · rintro ⟨h1, h2⟩ r _
    exact ⟨h1, fun f _ hb => h2 f hb⟩

/-- **C352.** The order of the boundary conditions and repeated ones do not matter. -/
theorem c352_order (check : Bool) (m : Mesh S P F E) (bcs bcs' : List (Bc S)) (h : ∀ b, b ∈ bcs ↔ b ∈ bcs') (r : ℕ) :
    goesOn check m bcs r ↔ goesOn check m bcs' r := by
  simp only [c352_goes_on, Covered, h]

/-- **C352.** Adding a wall, inflow or open condition on a surface the mesh does not have changes nothing: a misspelt name is never refused, and without the
check the surface that was meant is left without a condition. -/
theorem c352_misspelt (check : Bool) (m : Mesh S P F E) (bcs : List (Bc S)) {n : S} (hn : m.parts n = none) (r : ℕ) :
    (goesOn check m (.wall n :: bcs) r ↔ goesOn check m bcs r) ∧ (goesOn check m (.inflow n :: bcs) r ↔ goesOn check m bcs r)
      ∧ (goesOn check m (.open' n :: bcs) r ↔ goesOn check m bcs r) := by
  refine ⟨?_, ?_, ?_⟩ <;>
    simp [c352_goes_on, Covered, Bc.Valid, Bc.partSurfaces, Bc.wholeSurfaces, hn]

/-- **C352.** The same on a symmetry or periodic condition, or on the current side of a non-conformal one, ends the run on every process. -/
theorem c352_refused (check : Bool) (m : Mesh S P F E) (bcs : List (Bc S)) {n : S} (hn : m.parts n = none) (k : S) (ns opp : List S) (r : ℕ)
    (hns : n ∈ ns) :
    ¬goesOn check m (.symmetry n :: bcs) r ∧ ¬goesOn check m (.periodic n k :: bcs) r ∧ ¬goesOn check m (.periodic k n :: bcs) r
      ∧ ¬goesOn check m (.nonConformal ns opp :: bcs) r := by
  refine ⟨?_, ?_, ?_, ?_⟩
  · simp [c352_goes_on, Bc.Valid, hn]
  · simp [c352_goes_on, Bc.Valid, hn]
  · simp [c352_goes_on, Bc.Valid, hn]
  · rw [c352_goes_on]
    rintro ⟨h, -⟩
    have h0 : (Bc.nonConformal ns opp).Valid m := h _ List.mem_cons_self
    obtain ⟨ps, h1, -⟩ := h0 n hns
    rw [hn] at h1
    exact absurd h1 (by simp)

/-- **C352.** The surfaces named on the opposing side of a non-conformal condition are neither looked for nor covered by it. -/
theorem c352_opposing_not_covered (m : Mesh S P F E) (cur opp opp' : List S) (bcs : List (Bc S)) (check : Bool) (r : ℕ) :
    goesOn check m (.nonConformal cur opp :: bcs) r ↔ goesOn check m (.nonConformal cur opp' :: bcs) r := by
  simp [c352_goes_on, Covered, Bc.Valid, Bc.partSurfaces, Bc.wholeSurfaces]

/-- **C352.** A side shared by two elements never stops the run: without boundary faces outside the surfaces named, valid conditions are accepted with the
check as without it. -/
theorem c352_interior (m : Mesh S P F E) (bcs : List (Bc S)) (r : ℕ)
    (h : ∀ f, m.held r f → (∃ e ∈ m.elems, ∃ e' ∈ m.elems, e ≠ e' ∧ m.isSide e f ∧ m.isSide e' f) ∨ Covered m bcs f) :
    goesOn true m bcs r ↔ goesOn false m bcs r := by
  simp only [c352_goes_on]
  refine and_congr_right fun _ => ⟨fun _ h => absurd h (by simp), fun _ _ f hf hb => ?_⟩
  rcases h f hf with ⟨e, h1, e', h2, hne, h3, h4⟩ | hc
  · obtain ⟨b, _, _, hu⟩ := hb
    exact absurd ((hu e h1 h3).trans (hu e' h2 h4).symm) hne
  · exact hc

/-- Two elements in a row with the faces 0, 1 (between them) and 2; face 0 on surface 0, face 2 on surface 1; one process for each element. -/
def exMesh : Mesh ℕ ℕ ℕ ℕ where
  parts n := if n < 2 then some [n] else none
  side _ := true
  on p f := f = 2 * p
  elems := {0, 1}
  isSide e f := f = e ∨ f = e + 1
  held r f := f = r ∨ f = r + 1

theorem exMesh_boundary (f : ℕ) : OnBoundary exMesh f ↔ f = 0 ∨ f = 2 := by
  constructor
  · rintro ⟨e, h1, h2, h3⟩
    simp only [exMesh, Finset.mem_insert, Finset.mem_singleton, forall_eq_or_imp, forall_eq] at h1 h2 h3
    omega
  · rintro (rfl | rfl)
    · exact ⟨0, by simp [exMesh], by simp [exMesh], by simp [exMesh]⟩
    · exact ⟨1, by simp [exMesh], by simp [exMesh], by simp [exMesh]⟩

example : ∀ r < 2, goesOn true exMesh [.wall 0, .periodic 1 1] r := by
  rw [c352_all_processes exMesh _ 2 _ (by omega)]
  · refine ⟨by simp [Bc.Valid, exMesh], fun f hf => ?_⟩
    rcases (exMesh_boundary f).1 hf with rfl | rfl
    · exact Or.inl ⟨.wall 0, by simp, 0, by simp [Bc.partSurfaces], [0], by simp [exMesh], 0, by simp, by simp [exMesh], by simp [exMesh]⟩
    · exact Or.inr ⟨.periodic 1 1, by simp, 1, by simp [Bc.wholeSurfaces], [1], by simp [exMesh], 1, by simp, by simp [exMesh]⟩
  · intro f hf
    rcases (exMesh_boundary f).1 hf with rfl | rfl
    · exact ⟨0, by omega, by simp [exMesh]⟩
    · exact ⟨1, by omega, by simp [exMesh]⟩

/-- **C352.** Finding: only the processes that have a copy of an uncovered face stop; here the wall at the far end is misspelt, process 1 throws and process
0 goes on. -/
theorem c352_not_collective : goesOn true exMesh [.wall 0, .wall 7] 0 ∧ ¬goesOn true exMesh [.wall 0, .wall 7] 1 := by
  simp only [c352_goes_on, exMesh_boundary, forall_const]
  refine ⟨⟨by simp [Bc.Valid], fun f hf hb => ?_⟩, ?_⟩
  · have : f = 0 := by
      simp only [exMesh] at hf
      omega
    subst this
    exact Or.inl ⟨.wall 0, by simp, 0, by simp [Bc.partSurfaces], [0], by simp [exMesh], 0, by simp, by simp [exMesh], by simp [exMesh]⟩
  · rintro ⟨-, h⟩
    have := h 2 (by simp [exMesh]) (by simp)
    simp [Covered, Bc.partSurfaces, Bc.wholeSurfaces, exMesh] at this

end Nalu.BcCheck
