import Verif.Model.Transfer
import Verif.Props.PointSearchSurf
import Verif.Props.PointSearchPrism
import Mathlib.Tactic.Linarith
import Mathlib.Algebra.Order.BigOperators.Ring.Finset

/-!
# Transfers between meshes (C111, C112, C113)
-/

set_option linter.unusedSectionVars false

namespace Nalu.Xfer

variable {K : Type*} [Field K] [LinearOrder K] [IsStrictOrderedRing K]
variable {P A I B C : Type*}

/-! ## C111: search -/

/-- Specification: `a` with parametric coordinates `xi` is the first of the candidates with the least distance. -/
def IsNearest (search : A → Option (K × I)) (cands : List A) (a : A) (xi : I) : Prop :=
  ∃ l1 l2 d, cands = l1 ++ a :: l2 ∧ search a = some (d, xi) ∧
    (∀ b ∈ l1, ∀ d' x', search b = some (d', x') → d < d') ∧ (∀ b ∈ l2, ∀ d' x', search b = some (d', x') → d ≤ d')

theorem scan_spec (search : A → Option (K × I)) (w : Option K) (cands : List A) :
    ((scan search w cands).kept = none ∧ (scan search w cands).best = none ∧ ∀ a ∈ cands, search a = none) ∨
    ∃ a xi l1 l2 d, (scan search w cands).kept = some (a, xi) ∧ (scan search w cands).best = some d ∧
      cands = l1 ++ a :: l2 ∧ search a = some (d, xi) ∧
      (∀ b ∈ l1, ∀ d' x', search b = some (d', x') → d < d') ∧ (∀ b ∈ l2, ∀ d' x', search b = some (d', x') → d ≤ d') := by
  induction cands using List.reverseRecOn with
  | nil => left; simp [scan]
  | append_singleton l a ih =>
    have e : scan search w (l ++ [a]) = (scan search w l).consider search a := by simp [scan]
    rw [e]
    cases hs : search a with
    | none =>
      simp only [Best.consider, hs]
      rcases ih with ⟨h1, h2, h3⟩ | ⟨a', xi, l1, l2, d, h1, h2, h3, h4, h5, h6⟩
      · left; refine ⟨h1, h2, fun b hb => ?_⟩
        rcases List.mem_append.mp hb with hb | hb
        · exact h3 b hb
        · rw [List.mem_singleton.mp hb, hs]
      · right; refine ⟨a', xi, l1, l2 ++ [a], d, h1, h2, by rw [h3]; simp, h4, h5, fun b hb d' x' hd => ?_⟩
        rcases List.mem_append.mp hb with hb | hb
        · exact h6 b hb d' x' hd
        · rw [List.mem_singleton.mp hb, hs] at hd; cases hd
    | some dx =>
      obtain ⟨d0, x0⟩ := dx
      simp only [Best.consider, hs]
      rcases ih with ⟨h1, h2, h3⟩ | ⟨a', xi, l1, l2, d, h1, h2, h3, h4, h5, h6⟩
      · right
        refine ⟨a, x0, l, [], d0, ?_, ?_, rfl, hs, fun b hb d' x' hd => ?_, by simp⟩
        · simp [h2, closer]
        · simp [h2, closer]
        · rw [h3 b hb] at hd; cases hd
      · by_cases hlt : d0 < d
        · right
          refine ⟨a, x0, l, [], d0, ?_, ?_, rfl, hs, fun b hb d' x' hd => ?_, by simp⟩
          · simp [h2, closer, hlt]
          · simp [h2, closer, hlt]
          · rw [h3] at hb
            rcases List.mem_append.mp hb with hb | hb
            · exact hlt.trans (h5 b hb d' x' hd)
            · rcases List.mem_cons.mp hb with hb | hb
              · rw [hb, h4] at hd; cases hd; exact hlt
              · exact hlt.trans_le (h6 b hb d' x' hd)
        · right
          refine ⟨a', xi, l1, l2 ++ [a], d, ?_, ?_, by rw [h3]; simp, h4, h5, fun b hb d' x' hd => ?_⟩
          · simp [h2, closer, hlt, h1]
          · simp [h2, closer, hlt]
          · rcases List.mem_append.mp hb with hb | hb
            · exact h6 b hb d' x' hd
            · rw [List.mem_singleton.mp hb, hs] at hd; cases hd; exact not_lt.mp hlt

/-- **C111** The element kept for a point is the first of its candidates at the least parametric distance, with the parametric coordinates found in
that very element; and conversely. -/
theorem c111_nearest (search : A → Option (K × I)) (cands : List A) (a : A) (xi : I) :
    nearest search cands = some (a, xi) → IsNearest search cands a xi := by
  intro h
  rcases scan_spec search none cands with ⟨h1, -, -⟩ | ⟨a', xi', l1, l2, d, h1, -, h3, h4, h5, h6⟩
  · rw [nearest, h1] at h; cases h
  · rw [nearest, h1] at h; cases h
    exact ⟨l1, l2, d, h3, h4, h5, h6⟩

/-- **C111** No candidate is at a smaller distance than the one kept. -/
theorem c111_no_closer (search : A → Option (K × I)) (cands : List A) (a : A) (xi : I) (h : nearest search cands = some (a, xi)) :
    a ∈ cands ∧ ∃ d, search a = some (d, xi) ∧ ∀ b ∈ cands, ∀ d' x', search b = some (d', x') → d ≤ d' := by
  obtain ⟨l1, l2, d, h1, h2, h3, h4⟩ := c111_nearest search cands a xi h
  refine ⟨by rw [h1]; simp, d, h2, fun b hb d' x' hd => ?_⟩
  rw [h1] at hb
  rcases List.mem_append.mp hb with hb | hb
  · exact (h3 b hb d' x' hd).le
  · rcases List.mem_cons.mp hb with hb | hb
    · rw [hb, h2] at hd; cases hd; exact le_rfl
    · exact h4 b hb d' x' hd

/-- **C111** A point loses all its candidates exactly if the search fails in each of them: the point is dropped without notice. -/
theorem c111_dropped (search : A → Option (K × I)) (cands : List A) :
    nearest search cands = none ↔ ∀ a ∈ cands, search a = none := by
  constructor
  · intro h
    rcases scan_spec search none cands with ⟨-, -, h3⟩ | ⟨a', xi', l1, l2, d, h1, -⟩
    · exact h3
    · rw [nearest, h1] at h; cases h
  · intro h
    rcases scan_spec search none cands with ⟨h1, -, -⟩ | ⟨a', xi', l1, l2, d, -, -, h3, h4, -⟩
    · exact h1
    · rw [h a' (by rw [h3]; simp)] at h4; cases h4

/-- **C111** After the search every point of the map is one that was asked for, occurs once, and carries its nearest candidate; points
whose searches all failed are missing. -/
theorem c111_map (search : P → A → Option (K × I)) (cands : List (P × List A)) (hnd : (cands.map (·.1)).Nodup) :
    ((filterToNearest search cands).map (·.1)).Nodup ∧
    (∀ p a xi, (p, a, xi) ∈ filterToNearest search cands ↔ ∃ l, (p, l) ∈ cands ∧ nearest (search p) l = some (a, xi)) ∧
    (∀ p l, (p, l) ∈ cands → ((∀ t ∈ filterToNearest search cands, t.1 ≠ p) ↔ ∀ a ∈ l, search p a = none)) := by
  have hmem : ∀ p a xi, (p, a, xi) ∈ filterToNearest search cands ↔ ∃ l, (p, l) ∈ cands ∧ nearest (search p) l = some (a, xi) := by
    intro p a xi
    simp only [filterToNearest, List.mem_filterMap, Option.map_eq_some_iff]
    constructor
    · rintro ⟨⟨p', l⟩, hm, ⟨a', xi'⟩, hn, he⟩
      cases he; exact ⟨l, hm, hn⟩
    · rintro ⟨l, hm, hn⟩; exact ⟨(p, l), hm, (a, xi), hn, rfl⟩
  refine ⟨?_, hmem, fun p l hl => ?_⟩
  · have hsub : ((filterToNearest search cands).map (·.1)).Sublist (cands.map (·.1)) := by
      clear hnd hmem
      induction cands with
      | nil => simp [filterToNearest]
      | cons c cs ih =>
        simp only [filterToNearest, List.filterMap_cons] at ih ⊢
        cases hn : nearest (search c.1) c.2 with
        | none => simp only [Option.map_none, List.map_cons]; exact ih.cons _
        | some v => simp only [Option.map_some, List.map_cons]; exact ih.cons₂ _
    exact hnd.sublist hsub
  · rw [← c111_dropped]
    constructor
    · intro h
      cases hn : nearest (search p) l with
      | none => rfl
      | some v => exact absurd rfl (h (p, v.1, v.2) ((hmem p v.1 v.2).mpr ⟨l, hl, hn⟩))
    · rintro h ⟨p', a, xi⟩ ht rfl
      obtain ⟨l', hl', hn⟩ := (hmem p' a xi).mp ht
      have : l' = l := by
        have := List.inj_on_of_nodup_map hnd hl' hl rfl
        exact (Prod.mk.inj this).2
      rw [this, h] at hn; cases hn

theorem worst_stays (search : A → Option (K × I)) (l : List A) (s : Best K A I) (d v : K) (hb : s.best = some d)
    (hw : s.worst = some v) (hd : d ≤ v) : (l.foldl (Best.consider search) s).worst = some v := by
  induction l generalizing s d with
  | nil => exact hw
  | cons a l ih =>
    simp only [List.foldl_cons]
    cases hs : search a with
    | none => exact ih _ d (by simp [Best.consider, hs, hb]) (by simp [Best.consider, hs, hw]) hd
    | some dx =>
      obtain ⟨d0, x0⟩ := dx
      by_cases hlt : d0 < d
      · refine ih _ d0 ?_ ?_ (hlt.le.trans hd)
        · simp [Best.consider, hs, hb, closer, hlt]
        · simp [Best.consider, hs, hb, closer, hlt, hw, max_eq_left (hlt.le.trans hd)]
      · exact ih _ d (by simp [Best.consider, hs, hb, closer, hlt]) (by simp [Best.consider, hs, hb, closer, hlt, hw]) hd

/-- Specification: distance of the first candidate in which the search succeeds. -/
def firstHit (search : A → Option (K × I)) (l : List A) : Option K := (l.findSome? search).map (·.1)

/-- Larger of two values of which either may be missing. -/
def maxOpt : Option K → Option K → Option K
  | none, b => b
  | some a, none => some a
  | some a, some b => some (max a b)

theorem scan_worst (search : A → Option (K × I)) (w : Option K) (l : List A) :
    (scan search w l).worst = maxOpt w (firstHit search l) := by
  induction l with
  | nil => cases w <;> rfl
  | cons a l ih =>
    cases hs : search a with
    | none =>
      have : scan search w (a :: l) = scan search w l := by simp [scan, Best.consider, hs]
      rw [this, ih]; simp [firstHit, List.findSome?_cons, hs]
    | some dx =>
      obtain ⟨d0, x0⟩ := dx
      have e : (scan search w (a :: l)).worst = (l.foldl (Best.consider search) ⟨some d0, some (a, x0), maxOpt w (some d0)⟩).worst := by
        cases w <;> simp [scan, Best.consider, hs, closer, maxOpt]
      rw [e]
      cases w with
      | none =>
        rw [show maxOpt none (some d0) = some d0 from rfl, worst_stays search l _ d0 d0 rfl rfl le_rfl]
        simp [firstHit, List.findSome?_cons, hs, maxOpt]
      | some v =>
        rw [show maxOpt (some v) (some d0) = some (max v d0) from rfl,
          worst_stays search l _ d0 (max v d0) rfl rfl (le_max_right _ _)]
        simp [firstHit, List.findSome?_cons, hs, maxOpt]

/-- **C111** "Maximum normalized distance found" in the report is the maximum over the points of the distance in the *first* candidate that could be
searched, not in the element kept: it depends on the sequence of candidates and only bounds the true value from above
(`c111_report_bounds`). -/
theorem c111_report (search : P → A → Option (K × I)) (cands : List (P × List A)) :
    reportedMax search cands = cands.foldl (fun w pc => maxOpt w (firstHit (search pc.1) pc.2)) none := by
  simp only [reportedMax, scan_worst]

theorem maxOpt_foldl (f : (P × List A) → Option K) (l : List (P × List A)) (w : Option K) (y : K) :
    (∀ v, l.foldl (fun w pc => maxOpt w (f pc)) w = some v → v ≤ y) ↔ (∀ v, w = some v → v ≤ y) ∧
      ∀ pc ∈ l, ∀ v, f pc = some v → v ≤ y := by
  induction l generalizing w with
  | nil => simp
  | cons c l ih =>
    simp only [List.foldl_cons, ih, List.mem_cons, forall_eq_or_imp, ← and_assoc]
    refine and_congr ?_ Iff.rfl
    cases w <;> cases f c <;> simp [maxOpt]

/-- **C111** If the reported maximum is at most one then every point kept is inside its element up to rounding: its distance is at most the
reported value. -/
theorem c111_report_bounds (search : P → A → Option (K × I)) (cands : List (P × List A)) (y : K)
    (hy : ∀ v, reportedMax search cands = some v → v ≤ y) (p : P) (l : List A) (hl : (p, l) ∈ cands) (a : A) (xi : I)
    (hn : nearest (search p) l = some (a, xi)) : ∃ d, search p a = some (d, xi) ∧ d ≤ y := by
  rw [c111_report, maxOpt_foldl] at hy
  obtain ⟨-, d, hd, hmin⟩ := c111_no_closer (search p) l a xi hn
  refine ⟨d, hd, ?_⟩
  have h1 := hy.2 (p, l) hl
  cases hf : l.findSome? (search p) with
  | none =>
    rw [List.findSome?_eq_none_iff] at hf
    obtain ⟨ha, -⟩ := c111_no_closer (search p) l a xi hn
    rw [hf a ha] at hd; cases hd
  | some dx =>
    obtain ⟨d0, x0⟩ := dx
    obtain ⟨b, hb, hsb⟩ := List.exists_of_findSome?_eq_some hf
    exact (hmin b hb d0 x0 hsb).trans (h1 d0 (by simp [firstHit, hf]))

/-! ## C112: values -/

section values
variable [DecidableEq P]

theorem apply_other (F : From K A I B) (clips : C → Option (K × K)) (q : C → B → K) (map : List (P × A × I)) (recv : P → C → K)
    (p : P) (h : ∀ t ∈ map, t.1 ≠ p) : apply F clips q map recv p = recv p := by
  induction map generalizing recv with
  | nil => rfl
  | cons t l ih =>
    simp only [apply, List.foldl_cons] at ih ⊢
    rw [ih _ fun t' ht' => h t' (List.mem_cons_of_mem _ ht')]
    funext c
    have : ¬ p = t.1 := fun e => h t (List.mem_cons_self ..) e.symm
    simp [applyOne, this]

/-- **C112** Every component of every field at a point of the map becomes the clipped interpolant from its element; all other points keep
what they had.  In particular a dropped point keeps its old value. -/
theorem c112_values (F : From K A I B) (clips : C → Option (K × K)) (q : C → B → K) (map : List (P × A × I))
    (hnd : (map.map (·.1)).Nodup) (recv : P → C → K) :
    (∀ p a xi, (p, a, xi) ∈ map → ∀ c, apply F clips q map recv p c = clip (clips c) (∑ k, F.shape a xi k * q c (F.node a k))) ∧
    (∀ p, (∀ t ∈ map, t.1 ≠ p) → apply F clips q map recv p = recv p) := by
  refine ⟨?_, fun p h => apply_other F clips q map recv p h⟩
  induction map generalizing recv with
  | nil => simp
  | cons t l ih =>
    intro p a xi hm c
    rw [List.map_cons, List.nodup_cons] at hnd
    rcases List.mem_cons.mp hm with h | h
    · have hno : ∀ t' ∈ l, t'.1 ≠ p := fun t' ht' e => hnd.1 (List.mem_map.mpr ⟨t', ht', by rw [e, ← h]⟩)
      have := congrFun (apply_other F clips q l (applyOne F clips q recv t) p hno) c
      simp only [apply, List.foldl_cons] at this ⊢
      rw [this, ← h]; simp [applyOne, From.value]
    · exact ih hnd.2 _ p a xi h c

/-- **C112** What a point receives does not depend on the sequence of the map, and executing the transfer twice is the same as once. -/
theorem c112_order_and_repeat (F : From K A I B) (clips : C → Option (K × K)) (q : C → B → K) (map map' : List (P × A × I))
    (hp : map.Perm map') (hnd : (map.map (·.1)).Nodup) (recv : P → C → K) :
    apply F clips q map recv = apply F clips q map' recv ∧
    apply F clips q map (apply F clips q map recv) = apply F clips q map recv := by
  have hnd' : (map'.map (·.1)).Nodup := (hp.map _).nodup_iff.mp hnd
  constructor
  · funext p c
    by_cases h : ∃ t ∈ map, t.1 = p
    · obtain ⟨⟨p', a, xi⟩, ht, rfl⟩ := h
      rw [(c112_values F clips q map hnd recv).1 p' a xi ht c,
        (c112_values F clips q map' hnd' recv).1 p' a xi (hp.mem_iff.mp ht) c]
    · push Not at h
      rw [(c112_values F clips q map hnd recv).2 p h,
        (c112_values F clips q map' hnd' recv).2 p fun t ht => h t (hp.mem_iff.mpr ht)]
  · funext p c
    by_cases h : ∃ t ∈ map, t.1 = p
    · obtain ⟨⟨p', a, xi⟩, ht, rfl⟩ := h
      rw [(c112_values F clips q map hnd _).1 p' a xi ht c, (c112_values F clips q map hnd recv).1 p' a xi ht c]
    · push Not at h
      rw [(c112_values F clips q map hnd _).2 p h]

/-- **C112** A clipped field never leaves its bounds; values inside are not touched; bounds in the wrong sequence give the upper one
everywhere. -/
theorem c112_clip (lo hi v : K) :
    (lo ≤ hi → lo ≤ clip (some (lo, hi)) v ∧ clip (some (lo, hi)) v ≤ hi) ∧
    (lo ≤ v → v ≤ hi → clip (some (lo, hi)) v = v) ∧ (hi < lo → clip (some (lo, hi)) v = hi) := by
  simp only [clip]
  refine ⟨fun h => ⟨le_min h (le_max_right _ _), min_le_left _ _⟩, fun h1 h2 => ?_, fun h => ?_⟩
  · rw [max_eq_left h1, min_eq_right h2]
  · exact min_eq_left (h.le.trans (le_max_right _ _))

/-- **C112** A point inside its element (shape functions non-negative, summing to one) receives a value between the least and the largest of
the element's nodes: a transfer creates no new extrema.  A uniform field arrives as it is, inside or outside. -/
theorem c112_bounded (F : From K A I B) (q : B → K) (a : A) (xi : I) (h1 : ∑ k, F.shape a xi k = 1) :
    (∀ q0, (∀ k, q (F.node a k) = q0) → F.value q a xi = q0) ∧
    ((∀ k, 0 ≤ F.shape a xi k) → ∀ lo hi, (∀ k, lo ≤ q (F.node a k) ∧ q (F.node a k) ≤ hi) →
      lo ≤ F.value q a xi ∧ F.value q a xi ≤ hi) := by
  constructor
  · intro q0 h; simp only [From.value, h, ← Finset.sum_mul, h1, one_mul]
  · intro h0 lo hi hb
    have e : ∀ y : K, y = ∑ k, F.shape a xi k * y := fun y => by rw [← Finset.sum_mul, h1, one_mul]
    constructor
    · rw [e lo]; exact Finset.sum_le_sum fun k _ => mul_le_mul_of_nonneg_left (hb k).1 (h0 k)
    · rw [e hi]; exact Finset.sum_le_sum fun k _ => mul_le_mul_of_nonneg_left (hb k).2 (h0 k)

/-- **C112** If the parametric coordinates map to the point, an affine field arrives exactly. -/
theorem c112_affine {nd : ℕ} (F : From K A I B) (x : B → Fin nd → K) (a : A) (xi : I) (pt : Fin nd → K)
    (h1 : ∑ k, F.shape a xi k = 1) (hx : ∀ i, ∑ k, F.shape a xi k * x (F.node a k) i = pt i) (c0 : K) (g : Fin nd → K) :
    F.value (fun b => c0 + ∑ i, g i * x b i) a xi = c0 + ∑ i, g i * pt i := by
  simp only [From.value, mul_add, Finset.sum_add_distrib, ← Finset.sum_mul, h1, one_mul, ← hx, Finset.mul_sum]
  congr 1
  rw [Finset.sum_comm]
  exact Finset.sum_congr rfl fun i _ => Finset.sum_congr rfl fun k _ => by ring

/-! ### A tetrahedral mesh -/

/-- A mesh of linear tetrahedra, `node : element → 4 nodes`, with the search of the code. -/
def tetFrom (node : A → Fin 4 → B) : From K A (Fin 3 → K) B :=
  { n := fun _ => 4, node := node, shape := fun _ xi => Verif.Shape.tetShape xi }

/-- `TetSCS::isInElement` of an element of the mesh. -/
def tetSearchIn (x : B → Fin 3 → K) (node : A → Fin 4 → B) (pt : P → Fin 3 → K) (p : P) (a : A) : Option (K × (Fin 3 → K)) :=
  (Verif.Shape.tetSearch (fun k => x (node a k)) (pt p)).map fun xi => (Verif.Shape.tetDist xi, xi)

/-- **C112** From a mesh of tetrahedra of non-zero volume every point that has a candidate receives affine fields exactly, inside or outside
the mesh, whatever the sequence of candidates; no point is dropped. -/
theorem c112_tet_mesh (x : B → Fin 3 → K) (node : A → Fin 4 → B) (hv : ∀ a, Verif.Shape.tetVol (fun k => x (node a k)) ≠ 0)
    (pt : P → Fin 3 → K) (cands : List (P × List A)) (hnd : (cands.map (·.1)).Nodup) (p : P) (l : List A) (hl : (p, l) ∈ cands)
    (hne : l ≠ []) (c0 : C → K) (g : C → Fin 3 → K) (recv : P → C → K) (c : C) :
    apply (tetFrom node) (fun _ => none) (fun c b => c0 c + ∑ i, g c i * x b i)
      (filterToNearest (tetSearchIn x node pt) cands) recv p c = c0 c + ∑ i, g c i * pt p i := by
  obtain ⟨m1, m2, m3⟩ := c111_map (tetSearchIn x node pt) cands hnd
  have hex : ∀ a, ∃ y, Verif.Shape.tetSearch (fun k => x (node a k)) (pt p) = some y ∧
      ∀ i, Verif.Shape.interp (Verif.Shape.tetShape y) (fun k => x (node a k) i) = pt p i := fun a =>
    Verif.Shape.c44_tet_exact _ (pt p) (hv a)
  cases hn : nearest (tetSearchIn x node pt p) l with
  | none =>
    obtain ⟨a, ha⟩ := List.exists_mem_of_ne_nil l hne
    have := (c111_dropped _ _).mp hn a ha
    obtain ⟨y, hy, -⟩ := hex a
    simp [tetSearchIn, hy] at this
  | some v =>
    obtain ⟨a, xi⟩ := v
    rw [(c112_values _ _ _ _ m1 recv).1 p a xi ((m2 p a xi).mpr ⟨l, hl, hn⟩) c]
    obtain ⟨-, d, hd, -⟩ := c111_no_closer _ _ _ _ hn
    obtain ⟨y, hy, hi⟩ := hex a
    simp only [tetSearchIn, hy, Option.map_some, Option.some.injEq, Prod.mk.injEq] at hd
    obtain ⟨-, rfl⟩ := hd
    exact c112_affine (tetFrom node) x a y (pt p) (Verif.Shape.c40_partition_of_unity.2.2.1 y) (fun i => hi i) (c0 c) (g c)

end values

/-! ## C113: coupling -/

section coupling
variable {R T : Type*} [DecidableEq R] [DecidableEq T]

/-- Specification: between one solve and the next all transfers `out r` of the solved realm have been executed. -/
def Fresh (out : R → List T) (tr : List (Ev R T)) : Prop :=
  ∀ pre mid post r s, tr = pre ++ Ev.advance r :: mid ++ Ev.advance s :: post → ∀ t ∈ out r, Ev.xfer t ∈ mid

/-- Solve and transfers of one realm. -/
def block (r : RealmCfg R T) : List (Ev R T) := Ev.advance r.name :: r.xfers.map Ev.xfer

theorem split_before (xs pre rest w : List (Ev R T)) (r : R) (hx : ∀ r', Ev.advance r' ∉ xs)
    (h : pre ++ Ev.advance r :: w = xs ++ rest) : ∃ pre', pre = xs ++ pre' ∧ pre' ++ Ev.advance r :: w = rest := by
  rcases List.append_eq_append_iff.mp h with ⟨m, h1, h2⟩ | ⟨m, h1, h2⟩
  · cases m with
    | nil => exact ⟨[], by simpa using h1.symm, by simpa using h2⟩
    | cons e m =>
      simp only [List.cons_append, List.cons.injEq] at h2
      exact absurd (by rw [h1, ← h2.1]; simp) (hx r)
  · exact ⟨m, h1, h2.symm⟩

theorem no_advance (l : List T) (r : R) : (Ev.advance r : Ev R T) ∉ l.map Ev.xfer := by simp

theorem fresh_blocks (out : R → List T) (bs : List (RealmCfg R T)) (h : ∀ b ∈ bs, out b.name = b.xfers) :
    Fresh out (bs.flatMap block) := by
  induction bs with
  | nil => intro pre mid post r s he; simp at he
  | cons b bs ih =>
    intro pre mid post r s he t ht
    simp only [List.flatMap_cons, block, List.cons_append] at he
    cases pre with
    | nil =>
      simp only [List.nil_append, List.cons_append, List.cons.injEq, Ev.advance.injEq] at he
      obtain ⟨rfl, he⟩ := he
      obtain ⟨mid', hm, -⟩ := split_before _ mid _ post s (no_advance b.xfers) he.symm
      rw [hm]
      refine List.mem_append_left _ (List.mem_map.mpr ⟨t, ?_, rfl⟩)
      rw [← h b (List.mem_cons_self ..)]; exact ht
    | cons e pre =>
      simp only [List.cons_append, List.append_assoc, List.cons.injEq] at he
      obtain ⟨pre', hp, hr⟩ := split_before _ pre _ (mid ++ Ev.advance s :: post) r (no_advance b.xfers) he.2.symm
      exact ih (fun b hb => h b (List.mem_cons_of_mem _ hb)) pre' mid post r s (by simpa [block] using hr.symm) t ht

theorem fresh_append (out : R → List T) (init tr : List (Ev R T)) (hi : ∀ r, Ev.advance r ∉ init) (h : Fresh out tr) :
    Fresh out (init ++ tr) := by
  intro pre mid post r s he t ht
  obtain ⟨pre', -, hr⟩ := split_before init pre tr (mid ++ Ev.advance s :: post) r hi (by simpa using he.symm)
  exact h pre' mid post r s (by simpa using hr.symm) t ht

theorem initial_no_advance (restarted : RealmCfg R T → Bool) (realms : List (RealmCfg R T)) (r : R) :
    Ev.advance r ∉ initialEvents restarted realms := by
  simp only [initialEvents, List.mem_flatMap, not_exists, not_and]
  intro x _; split_ifs <;> simp

theorem pass_blocks (realms : List (RealmCfg R T)) (step : ℕ) :
    realms.flatMap (realmPass step) = (realms.filter fun r => r.active step).flatMap block := by
  induction realms with
  | nil => rfl
  | cons r rs ih =>
    simp only [List.flatMap_cons, ih, List.filter_cons, realmPass]
    by_cases h : r.active step = true <;> simp [h, block]

theorem step_blocks (iters : ℕ) (realms : List (RealmCfg R T)) (step : ℕ) :
    stepEvents iters realms step = ((List.replicate iters (realms.filter fun r => r.active step)).flatten).flatMap block := by
  simp only [stepEvents, pass_blocks]
  induction iters with
  | zero => rfl
  | succ n ih => simp only [List.replicate_succ, List.flatten_cons, List.flatMap_append, ih]

theorem run_blocks (iters : ℕ) (realms : List (RealmCfg R T)) (count0 : ℕ) (l : List ℕ) :
    ∃ bs : List (RealmCfg R T), (∀ b ∈ bs, b ∈ realms) ∧
      (l.flatMap fun k => stepEvents iters realms (count0 + k + 1)) = bs.flatMap block := by
  induction l with
  | nil => exact ⟨[], by simp, rfl⟩
  | cons k l ih =>
    obtain ⟨bs, h1, h2⟩ := ih
    refine ⟨(List.replicate iters (realms.filter fun r => r.active (count0 + k + 1))).flatten ++ bs, ?_, ?_⟩
    · intro b hb
      rcases List.mem_append.mp hb with hb | hb
      · obtain ⟨l', hl', hb'⟩ := List.mem_flatten.mp hb
        rw [(List.mem_replicate.mp hl').2] at hb'
        exact (List.mem_filter.mp hb').1
      · exact h1 b hb
    · rw [List.flatMap_cons, h2, step_blocks, List.flatMap_append]

/-- **C113** In every run, with any numbers of realms, solve frequencies, Picard iterations, steps, and restarted or not: when a realm is solved,
every coupling transfer from a realm solved before has been executed since that realm's last solve.  Couplings never lag behind. -/
theorem c113_fresh (iters : ℕ) (realms : List (RealmCfg R T)) (restarted : RealmCfg R T → Bool) (count0 n : ℕ)
    (out : R → List T) (hout : ∀ r ∈ realms, out r.name = r.xfers) :
    Fresh out (runEvents iters realms restarted count0 n) := by
  obtain ⟨bs, h1, h2⟩ := run_blocks iters realms count0 (List.range n)
  rw [runEvents, h2]
  exact fresh_append out _ _ (initial_no_advance restarted realms) (fresh_blocks out bs fun b hb => hout b (h1 b hb))

/-- **C113** Before the first solve a restarted realm has sent its coupling data and no other realm has: in a cold run the first realm is
solved with the initial values of the fields it couples to. -/
theorem c113_start (iters : ℕ) (realms : List (RealmCfg R T)) (restarted : RealmCfg R T → Bool) (count0 n : ℕ)
    (pre post : List (Ev R T)) (s : R) (he : runEvents iters realms restarted count0 n = pre ++ Ev.advance s :: post)
    (hfirst : ∀ r, Ev.advance r ∉ pre) (t : T) :
    Ev.xfer t ∈ pre ↔ ∃ r ∈ realms, restarted r = true ∧ t ∈ r.xfers := by
  obtain ⟨bs, h1, h2⟩ := run_blocks iters realms count0 (List.range n)
  rw [runEvents, h2] at he
  obtain ⟨pre', hp, hr⟩ := split_before _ pre _ post s (initial_no_advance restarted realms) he.symm
  have : pre' = [] := by
    cases bs with
    | nil => simp at hr
    | cons b bs =>
      cases pre' with
      | nil => rfl
      | cons e pre' =>
        simp only [List.flatMap_cons, block, List.cons_append, List.cons.injEq] at hr
        exact absurd (by rw [hp, hr.1]; simp) (hfirst b.name)
  rw [hp, this, List.append_nil]
  simp only [initialEvents, List.mem_flatMap]
  constructor
  · rintro ⟨r, hr, ht⟩
    split_ifs at ht with hre
    · simp at ht; exact ⟨r, hr, hre, ht⟩
    · simp at ht
  · rintro ⟨r, hr, hre, ht⟩
    exact ⟨r, hr, by simp [hre, ht]⟩

/-- **C113** Within a step each realm whose solve frequency divides the step number is solved once per Picard iteration and each of its transfers
executed as often; the others do nothing. -/
theorem c113_counts (iters : ℕ) (realms : List (RealmCfg R T)) (step : ℕ) (hnd : (realms.map (·.name)).Nodup)
    (r : RealmCfg R T) (hr : r ∈ realms) :
    (stepEvents iters realms step).count (Ev.advance r.name) = (if r.solveFreq ∣ step then iters else 0) ∧
    ∀ t, (stepEvents iters realms step).count (Ev.xfer t) =
      iters * ((realms.filter fun r => decide (r.solveFreq ∣ step)).map fun r => r.xfers.count t).sum := by
  have hact : ∀ q : RealmCfg R T, q.active step = decide (q.solveFreq ∣ step) := fun q => by
    simp [RealmCfg.active, Nat.dvd_iff_mod_eq_zero]
  have hrep : ∀ (l : List (Ev R T)) (e : Ev R T), (List.replicate iters l).flatten.count e = iters * l.count e := by
    intro l e
    induction iters with
    | zero => simp
    | succ n ih => rw [List.replicate_succ, List.flatten_cons, List.count_append, ih]; ring
  constructor
  · rw [stepEvents, hrep]
    have : (realms.flatMap (realmPass step)).count (Ev.advance r.name) = if r.solveFreq ∣ step then 1 else 0 := by
      clear hrep
      induction realms with
      | nil => cases hr
      | cons q l ih =>
        rw [List.map_cons, List.nodup_cons] at hnd
        rw [List.flatMap_cons, List.count_append]
        have hpass : ∀ q' : RealmCfg R T, (realmPass step q').count (Ev.advance r.name) =
            if q'.name = r.name ∧ q'.solveFreq ∣ step then 1 else 0 := by
          intro q'
          have hz : (q'.xfers.map (Ev.xfer (R := R))).count (Ev.advance r.name) = 0 := List.count_eq_zero.mpr (no_advance _ _)
          simp only [realmPass, hact]
          by_cases hd : q'.solveFreq ∣ step
          · by_cases hn : q'.name = r.name
            · simp [hd, hn, hz]
            · simp [hd, hn, hz]
          · simp [hd]
        rcases List.mem_cons.mp hr with rfl | hr
        · have hz : (l.flatMap (realmPass step)).count (Ev.advance r.name) = 0 := by
            rw [List.count_eq_zero]
            intro hm
            obtain ⟨q', hq', hm'⟩ := List.mem_flatMap.mp hm
            have h1 := hpass q'
            have hne : ¬ q'.name = r.name := fun e => hnd.1 (List.mem_map.mpr ⟨q', hq', e⟩)
            simp only [hne, false_and, if_false, List.count_eq_zero] at h1
            exact h1 hm'
          rw [hpass, hz]; simp
        · rw [ih hnd.2 hr, hpass]
          have hne : ¬ q.name = r.name := fun e => hnd.1 (List.mem_map.mpr ⟨r, hr, e.symm⟩)
          simp [hne]
    rw [this]; split_ifs <;> simp
  · intro t
    rw [stepEvents, hrep]
    congr 1
    clear hr hrep hnd
    induction realms with
    | nil => rfl
    | cons q l ih =>
      rw [List.flatMap_cons, List.count_append, ih, List.filter_cons]
      simp only [realmPass, hact]
      by_cases hd : q.solveFreq ∣ step
      · have hc : (q.xfers.map (Ev.xfer (R := R))).count (Ev.xfer t) = q.xfers.count t := by
          rw [List.count_map_of_injective]; intro a b hab; cases hab; rfl
        simp [hd, hc]
      · simp [hd]

end coupling

/-! ## Cases -/

/-- Two candidates, the second closer: it is kept, but the report names the distance of the first. -/
example : nearest (fun a : Bool => some (if a then (3 : ℚ) else 1 / 2, a)) [true, false] = some (false, false) ∧
    reportedMax (fun (_ : Unit) (a : Bool) => some (if a then (3 : ℚ) else 1 / 2, a)) [((), [true, false])] = some 3 ∧
    reportedMax (fun (_ : Unit) (a : Bool) => some (if a then (3 : ℚ) else 1 / 2, a)) [((), [false, true])] = some (1 / 2) := by
  refine ⟨?_, ?_, ?_⟩ <;> decide +kernel

/-- Search fails everywhere: the point keeps its old value 7. -/
example : apply (C := Unit) (P := Bool) (⟨fun _ => 1, fun _ _ => (), fun _ _ _ => 1⟩ : From ℚ Unit Unit Unit) (fun _ => none) (fun _ _ => 5)
    (filterToNearest (fun p (_ : Unit) => if p then some (0, ()) else none) [(true, [()]), (false, [()])]) (fun _ _ => 7) true () = 5 ∧
  apply (C := Unit) (P := Bool) (⟨fun _ => 1, fun _ _ => (), fun _ _ _ => 1⟩ : From ℚ Unit Unit Unit) (fun _ => none) (fun _ _ => 5)
    (filterToNearest (fun p (_ : Unit) => if p then some (0, ()) else none) [(true, [()]), (false, [()])]) (fun _ _ => 7) false () = 7 := by
  constructor <;> decide +kernel

/-- Fluid solved every step and solid every second step, two Picard iterations: steps 1 and 2 of a cold run. -/
example : runEvents 2 [⟨"fluid", 1, ["f2s"]⟩, ⟨"solid", 2, ["s2f"]⟩] (fun _ => false) 0 2 =
    [.advance "fluid", .xfer "f2s", .advance "fluid", .xfer "f2s",
     .advance "fluid", .xfer "f2s", .advance "solid", .xfer "s2f", .advance "fluid", .xfer "f2s", .advance "solid", .xfer "s2f"] := by
  decide +kernel

end Nalu.Xfer
