import Verif.Model.LookAhead
import Mathlib.Tactic.Linarith
import Mathlib.Order.Defs.LinearOrder
import Mathlib.Data.List.Lex

/-!
# C320, C321: look-ahead into the input
-/

namespace Nalu.LookAhead

/-! ## C321 -/

/-- Specification: the node at a place below a node. -/
def Y.at : Y → List ℕ → Option Y
  | y, [] => some y
  | y, i :: p => match y.children[i]? with
    | none => none
    | some c => c.at p

theorem findKids_mem (key : String) (l : List Y) (ih : ∀ y ∈ l, ∀ p, p ∈ find key y ↔ ∃ n, y.at p = some n ∧ n.has key = true) :
    ∀ (i : ℕ) (p : List ℕ), p ∈ findKids key i l ↔ ∃ j q, p = (i + j) :: q ∧ ∃ y n, l[j]? = some y ∧ y.at q = some n ∧ n.has key = true := by
  induction l with
  | nil => intro i p; simp [findKids]
  | cons y r h =>
    intro i p
    have ih1 := ih y (by simp)
    have h1 := h (fun z hz => ih z (by simp [hz])) (i + 1) p
    rw [findKids, List.mem_append, h1, List.mem_map]
    constructor
    · rintro (⟨q, hq, rfl⟩ | ⟨j, q, rfl, z, n, hz⟩)
      · obtain ⟨n, hn⟩ := (ih1 q).1 hq
        exact ⟨0, q, rfl, y, n, rfl, hn⟩
      · exact ⟨j + 1, q, by congr 1; omega, z, n, by simpa using hz⟩
    · rintro ⟨j, q, rfl, z, n, hz⟩
      rcases j with _ | j
      · left
        simp only [List.getElem?_cons_zero, Option.some.injEq] at hz
        obtain ⟨rfl, hn⟩ := hz
        exact ⟨q, (ih1 q).2 ⟨n, hn⟩, rfl⟩
      · right
        exact ⟨j, q, by congr 1; omega, z, n, by simpa using hz⟩

theorem at_children (y : Y) (p : List ℕ) : (∃ j q, p = (0 + j) :: q ∧ ∃ c n, y.children[j]? = some c ∧ c.at q = some n ∧ n.has key = true) ↔
    p ≠ [] ∧ ∃ n, y.at p = some n ∧ n.has key = true := by
  constructor
  · rintro ⟨j, q, rfl, c, n, hc, hn⟩
    refine ⟨by simp, n, ?_, hn.2⟩
    rw [Nat.zero_add, Y.at, hc]; exact hn.1
  · rintro ⟨hp, n, hn, hk⟩
    rcases p with _ | ⟨j, q⟩
    · exact absurd rfl hp
    · rw [Y.at] at hn
      rcases hc : y.children[j]? with _ | c
      · rw [hc] at hn; simp at hn
      · rw [hc] at hn; exact ⟨j, q, by simp, c, n, hc, hn, hk⟩

/-- C321: the search finds exactly the maps that have the key, at whatever depth. -/
theorem c321_find_iff (key : String) : ∀ (y : Y) (p : List ℕ), p ∈ find key y ↔ ∃ n, y.at p = some n ∧ n.has key = true
  | .leaf, p => by
    rcases p with _ | ⟨i, p⟩ <;> simp [find, Y.at, Y.has, Y.children]
  | .seq l, p => by
    have h := findKids_mem key l (fun y hy => c321_find_iff key y) 0 p
    rw [find, h]
    have h2 := at_children (key := key) (.seq l) p
    simp only [Y.children] at h2
    rw [h2]
    constructor
    · exact fun h => h.2
    · rintro ⟨n, hn, hk⟩
      refine ⟨?_, n, hn, hk⟩
      rintro rfl
      simp only [Y.at, Option.some.injEq] at hn
      subst hn; simp [Y.has] at hk
  | .map ks l, p => by
    have h := findKids_mem key l (fun y hy => c321_find_iff key y) 0 p
    rw [find, List.mem_append, h]
    have h2 := at_children (key := key) (.map ks l) p
    simp only [Y.children] at h2
    rw [h2]
    rcases p with _ | ⟨i, p⟩
    · by_cases hk : key ∈ ks <;> simp [Y.at, Y.has, hk]
    · by_cases hk : key ∈ ks <;> simp [hk]

theorem findKids_sorted (key : String) (l : List Y) (ih : ∀ y ∈ l, (find key y).Pairwise (· < ·)) :
    ∀ i : ℕ, (findKids key i l).Pairwise (· < ·) ∧ ∀ p ∈ findKids key i l, ∃ j q, p = j :: q ∧ i ≤ j := by
  induction l with
  | nil => intro i; simp [findKids]
  | cons y r h =>
    intro i
    obtain ⟨h1, h2⟩ := h (fun z hz => ih z (by simp [hz])) (i + 1)
    rw [findKids]
    constructor
    · rw [List.pairwise_append]
      refine ⟨?_, h1, ?_⟩
      · rw [List.pairwise_map]
        exact (ih y (by simp)).imp fun hab => List.cons_lt_cons_iff.2 (Or.inr ⟨rfl, hab⟩)
      · rintro a ha b hb
        obtain ⟨q, _, rfl⟩ := List.mem_map.1 ha
        obtain ⟨j, q', rfl, hj⟩ := h2 b hb
        exact List.cons_lt_cons_iff.2 (Or.inl (by omega))
    · intro p hp
      rw [List.mem_append] at hp
      rcases hp with hp | hp
      · obtain ⟨q, _, rfl⟩ := List.mem_map.1 hp
        exact ⟨i, q, rfl, le_refl _⟩
      · obtain ⟨j, q, rfl, hj⟩ := h2 p hp
        exact ⟨j, q, rfl, by omega⟩

/-- C321: each is found once, an enclosing map before what it contains and otherwise in the order of the file. -/
theorem c321_find_order (key : String) : ∀ y : Y, (find key y).Pairwise (· < ·)
  | .leaf => by simp [find]
  | .seq l => by
    rw [find]; exact (findKids_sorted key l (fun y _ => c321_find_order key y) 0).1
  | .map ks l => by
    obtain ⟨h1, h2⟩ := findKids_sorted key l (fun y _ => c321_find_order key y) 0
    rw [find, List.pairwise_append]
    refine ⟨by split <;> simp, h1, ?_⟩
    intro a ha b hb
    obtain ⟨j, q, rfl, _⟩ := h2 b hb
    by_cases hk : key ∈ ks
    · simp only [hk, if_true, List.mem_singleton] at ha
      subst ha; exact List.nil_lt_cons _ _
    · simp [hk] at ha

/-- C321: an optional block (averaging, norms, probes, actuator, filtering) is created exactly if one single map of the realm's input has its key, at
whatever depth, and from that map; with two of them the input is refused. -/
theorem c321_look_ahead (key : String) (realm : Y) :
    (lookAhead key realm = .absent ↔ ∀ p n, realm.at p = some n → n.has key = false) ∧
    (∀ p, lookAhead key realm = .created p ↔ (∃ n, realm.at p = some n ∧ n.has key = true) ∧
      ∀ q n, realm.at q = some n → n.has key = true → q = p) ∧
    (lookAhead key realm = .tooMany ↔ ∃ p q n m, p ≠ q ∧ realm.at p = some n ∧ n.has key = true ∧ realm.at q = some m ∧ m.has key = true) := by
  have hm := c321_find_iff key realm
  have hs := c321_find_order key realm
  have hmem : ∀ p n, realm.at p = some n → n.has key = true → p ∈ find key realm := fun p n h1 h2 => (hm p).2 ⟨n, h1, h2⟩
  unfold lookAhead
  rcases hf : find key realm with _ | ⟨a, _ | ⟨b, r⟩⟩
  · rw [hf] at hmem
    refine ⟨?_, ?_, ?_⟩
    · simp only [true_iff]
      intro p n hp
      by_contra hc
      have := hmem p n hp (by simpa using hc)
      simp at this
    · intro p
      simp only [reduceCtorEq, false_iff]
      rintro ⟨⟨n, h1, h2⟩, _⟩
      have := hmem p n h1 h2
      simp at this
    · simp only [reduceCtorEq, false_iff]
      rintro ⟨p, q, n, m, _, h1, h2, _⟩
      have := hmem p n h1 h2
      simp at this
  · rw [hf] at hmem
    obtain ⟨n0, hn0, hk0⟩ := (hm a).1 (by rw [hf]; simp)
    refine ⟨?_, ?_, ?_⟩
    · simp only [reduceCtorEq, false_iff]
      intro h
      rw [h a n0 hn0] at hk0; simp at hk0
    · intro p
      simp only [Outcome.created.injEq]
      constructor
      · rintro rfl
        exact ⟨⟨n0, hn0, hk0⟩, fun q n h1 h2 => by simpa using hmem q n h1 h2⟩
      · rintro ⟨_, h⟩; exact h a n0 hn0 hk0
    · simp only [reduceCtorEq, false_iff]
      rintro ⟨p, q, n, m, hne, h1, h2, h3, h4⟩
      have e1 := hmem p n h1 h2
      have e2 := hmem q m h3 h4
      simp only [List.mem_singleton] at e1 e2
      exact hne (e1.trans e2.symm)
  · rw [hf] at hs
    obtain ⟨n0, hn0, hk0⟩ := (hm a).1 (by rw [hf]; simp)
    obtain ⟨n1, hn1, hk1⟩ := (hm b).1 (by rw [hf]; simp)
    have hab : a ≠ b := by
      have := (List.pairwise_cons.1 hs).1 b (by simp)
      exact ne_of_lt this
    refine ⟨?_, ?_, ?_⟩
    · simp only [reduceCtorEq, false_iff]
      intro h
      rw [h a n0 hn0] at hk0; simp at hk0
    · intro p
      simp only [reduceCtorEq, false_iff]
      rintro ⟨_, h⟩
      exact hab ((h a n0 hn0 hk0).trans (h b n1 hn1 hk1).symm)
    · simp only [true_iff]
      exact ⟨a, b, n0, n1, hab, hn0, hk0, hn1, hk1⟩

/-- C321, finding: a block written anywhere but directly in the realm is created from a node that no longer exists. -/
theorem c321_nested_dangling (key : String) (realm : Y) (p : List ℕ) (h : lookAhead key realm = .created p) :
    alive p = true ↔ realm.has key = true := by
  obtain ⟨⟨n, hn, hk⟩, hu⟩ := ((c321_look_ahead key realm).2.1 p).1 h
  constructor
  · intro ha
    have : p = [] := by simpa [alive] using ha
    subst this
    simp only [Y.at, Option.some.injEq] at hn
    rw [hn]; exact hk
  · intro hr
    have : ([] : List ℕ) = p := hu [] realm rfl hr
    subst this; rfl

example : lookAhead "actuator" (.map ["name", "actuator"] [.leaf, .map ["type"] [.leaf]]) = .created [] ∧
    lookAhead "actuator" (.map ["name", "output"] [.leaf, .seq [.leaf, .map ["actuator"] [.leaf]]]) = .created [1, 1] ∧
    lookAhead "actuator" (.map ["actuator", "output"] [.leaf, .map ["actuator"] [.leaf]]) = .tooMany := by
  simp [lookAhead, find, findKids]

/-! ## C320 -/

/-- Specification: all names written for the continuity equation in some blocks, in file order. -/
def written (l : List Block) : List String := l.flatMap fun b => b.flatMap fun x => if x.1 = "continuity" then x.2 else []

theorem readBlock_getD (b : Block) : ∀ m : Names, (readBlock m b).getD [] = m.getD [] ++ written [b] := by
  induction b with
  | nil => intro m; simp [readBlock, written]
  | cons x r ih =>
    intro m
    obtain ⟨e, l⟩ := x
    rw [readBlock, ih]
    by_cases h : e = "continuity" <;> simp [h, written]

theorem scanElem_append (f : Flags) (a b : List String) : scanElem f (a ++ b) = scanElem (scanElem f a) b := by
  induction a generalizing f with
  | nil => rfl
  | cons n r ih => simp only [List.cons_append, scanElem, ih]

theorem scanNodal_append (f : Flags) (a b : List String) : scanNodal f (a ++ b) = scanNodal (scanNodal f a) b := by
  induction a generalizing f with
  | nil => rfl
  | cons n r ih => simp only [List.cons_append, scanNodal, ih]

/-- The last of the two element names in a list, as the flag `lumped`. -/
def lastMass : List String → Option Bool
  | [] => none
  | n :: r => (lastMass r).or (if n = "density_time_derivative" then some false else if n = "lumped_density_time_derivative" then some true else none)

theorem scanElem_eq (l : List String) : ∀ f, scanElem f l = match lastMass l with | none => f | some v => ⟨true, v⟩ := by
  induction l with
  | nil => intro f; rfl
  | cons n r ih =>
    intro f
    rw [scanElem, ih, lastMass]
    rcases lastMass r with _ | v
    · by_cases h1 : n = "density_time_derivative"
      · simp [h1]
      · by_cases h2 : n = "lumped_density_time_derivative" <;> simp [h1, h2]
    · simp

theorem scanNodal_eq (l : List String) : ∀ f, scanNodal f l = if "density_time_derivative" ∈ l then ⟨true, true⟩ else f := by
  induction l with
  | nil => intro f; simp [scanNodal]
  | cons n r ih =>
    intro f
    rw [scanNodal, ih]
    by_cases h1 : n = "density_time_derivative"
    · subst h1; simp
    · have h1' : ¬ "density_time_derivative" = n := fun h => h1 h.symm
      by_cases h2 : "density_time_derivative" ∈ r <;> simp [h1, h1', h2]

theorem scanElem_idem (f : Flags) (l : List String) : scanElem (scanElem f l) l = scanElem f l := by
  simp only [scanElem_eq]
  rcases lastMass l with _ | v <;> rfl

theorem scanNodal_idem (f : Flags) (l : List String) : scanNodal (scanNodal f l) l = scanNodal f l := by
  simp only [scanNodal_eq]
  split <;> rfl

theorem loopElem_eq (l : List Opt) : ∀ (m : Names) (f : Flags), scanElem f (m.getD []) = f →
    loopElem m f l = scanElem f (m.getD [] ++ written (l.filterMap Opt.elem)) := by
  induction l with
  | nil => intro m f h; simp [loopElem, written, h]
  | cons o r ih =>
    intro m f h
    rw [loopElem]
    rcases ho : o.elem with _ | b
    · simp only [List.filterMap_cons, ho]
      exact ih m f h
    · simp only [List.filterMap_cons, ho]
      have hb := readBlock_getD b m
      have hw : written (b :: r.filterMap Opt.elem) = written [b] ++ written (r.filterMap Opt.elem) := by simp [written]
      rw [ih]
      · rw [hb, hw, ← List.append_assoc, scanElem_append _ _ (written (r.filterMap Opt.elem)), scanElem_append f _ (written (r.filterMap Opt.elem)),
          scanElem_idem]
      · rw [hb, scanElem_idem]

theorem loopNodal_eq (l : List Opt) : ∀ (m : Names) (f : Flags), scanNodal f (m.getD []) = f →
    loopNodal m f l = scanNodal f (m.getD [] ++ written (l.filterMap Opt.nodal)) := by
  induction l with
  | nil => intro m f h; simp [loopNodal, written, h]
  | cons o r ih =>
    intro m f h
    rw [loopNodal]
    rcases ho : o.nodal with _ | b
    · simp only [List.filterMap_cons, ho]
      exact ih m f h
    · simp only [List.filterMap_cons, ho]
      have hb := readBlock_getD b m
      have hw : written (b :: r.filterMap Opt.nodal) = written [b] ++ written (r.filterMap Opt.nodal) := by simp [written]
      rw [ih]
      · rw [hb, hw, ← List.append_assoc, scanNodal_append _ _ (written (r.filterMap Opt.nodal)), scanNodal_append f _ (written (r.filterMap Opt.nodal)),
          scanNodal_idem]
      · rw [hb, scanNodal_idem]

/-- An option has one key, as the manual asks. -/
def Single (o : Opt) : Prop := (o.earlier = true → o.nodal = none ∧ o.elem = none) ∧ (o.nodal = none ∨ o.elem = none)

theorem solnOpts_eq (l : List Opt) (hs : ∀ o ∈ l, Single o) : ∀ n e : Names,
    (solnOpts (n, e) l).1.getD [] = n.getD [] ++ written (l.filterMap Opt.nodal) ∧
    (solnOpts (n, e) l).2.getD [] = e.getD [] ++ written (l.filterMap Opt.elem) := by
  induction l with
  | nil => intro n e; simp [solnOpts, written]
  | cons o r ih =>
    intro n e
    obtain ⟨s1, s2⟩ := hs o (by simp)
    have ihr := ih (fun o ho => hs o (by simp [ho]))
    rw [solnOpts]
    by_cases he : o.earlier = true
    · obtain ⟨h1, h2⟩ := s1 he
      rw [if_pos he]
      simp only [List.filterMap_cons, h1, h2]
      exact ihr n e
    · rw [if_neg he]
      rcases hn : o.nodal with _ | b
      · rcases hm : o.elem with _ | c
        · simp only [List.filterMap_cons, hn, hm]; exact ihr n e
        · simp only [List.filterMap_cons, hn, hm]
          obtain ⟨i1, i2⟩ := ihr n (readBlock e c)
          refine ⟨i1, ?_⟩
          rw [i2, readBlock_getD]; simp [written]
      · have hm : o.elem = none := s2.resolve_left (by rw [hn]; simp)
        simp only [List.filterMap_cons, hn, hm]
        obtain ⟨i1, i2⟩ := ihr (readBlock n b) e
        refine ⟨?_, i2⟩
        rw [i1, readBlock_getD]; simp [written]

theorem lastMass_none (l : List String) : lastMass l = none ↔ "density_time_derivative" ∉ l ∧ "lumped_density_time_derivative" ∉ l := by
  induction l with
  | nil => simp [lastMass]
  | cons n r ih =>
    rw [lastMass, Option.or_eq_none_iff, ih]
    by_cases h1 : n = "density_time_derivative"
    · simp [h1]
    · have h1' : ¬ "density_time_derivative" = n := fun h => h1 h.symm
      by_cases h2 : n = "lumped_density_time_derivative"
      · simp [h2]
      · have h2' : ¬ "lumped_density_time_derivative" = n := fun h => h2 h.symm
        simp [h1, h2, h1', h2']

theorem lastMass_mem (l : List String) (v : Bool) (h : lastMass l = some v) :
    (v = false → "density_time_derivative" ∈ l) ∧ (v = true → "lumped_density_time_derivative" ∈ l) := by
  induction l with
  | nil => simp [lastMass] at h
  | cons n r ih =>
    rw [lastMass] at h
    rcases hr : lastMass r with _ | w
    · rw [hr] at h
      by_cases h1 : n = "density_time_derivative"
      · simp [h1] at h; subst h; simp [h1]
      · by_cases h2 : n = "lumped_density_time_derivative"
        · simp [h2] at h; subst h; simp [h2]
        · simp [h1, h2] at h
    · rw [hr] at h
      simp at h; subst h
      obtain ⟨a, b⟩ := ih hr
      exact ⟨fun hv => by simp [a hv], fun hv => by simp [b hv]⟩

/-- The flags in terms of what is written: a nodal term decides, otherwise the last element term. -/
theorem reviewFlags_eq (l : List Opt) : reviewFlags l =
    if "density_time_derivative" ∈ written (l.filterMap Opt.nodal) then ⟨true, true⟩
    else match lastMass (written (l.filterMap Opt.elem)) with | none => ⟨false, true⟩ | some v => ⟨true, v⟩ := by
  unfold reviewFlags
  rw [loopNodal_eq _ _ _ (by rfl), loopElem_eq _ _ _ (by rfl), scanNodal_eq, scanElem_eq]
  simp

theorem massTerms_mem (l : List Opt) (hs : ∀ o ∈ l, Single o) (v : Bool) : v ∈ massTerms false l ↔
    (v = false ∧ "density_time_derivative" ∈ written (l.filterMap Opt.elem)) ∨
    (v = true ∧ ("lumped_density_time_derivative" ∈ written (l.filterMap Opt.elem) ∨ "density_time_derivative" ∈ written (l.filterMap Opt.nodal))) := by
  obtain ⟨h1, h2⟩ := solnOpts_eq l hs none none
  simp only [Option.getD_none, List.nil_append] at h1 h2
  unfold massTerms
  simp only [h1, h2]
  simp only [Bool.false_eq_true, if_false, List.mem_append, List.mem_map, List.mem_filter, decide_eq_true_eq]
  by_cases a : "density_time_derivative" ∈ written (l.filterMap Opt.elem) <;>
  by_cases b : "lumped_density_time_derivative" ∈ written (l.filterMap Opt.elem) <;>
  by_cases c : "density_time_derivative" ∈ written (l.filterMap Opt.nodal) <;> cases v <;> simp [a, b, c]

/-- C320: with the element-based scheme and one key per option, the mass-balance review contains a density accumulation exactly if the continuity equation
contains a density time term. -/
theorem c320_has_mass (l : List Opt) (hs : ∀ o ∈ l, Single o) : (reviewFlags l).hasMass = true ↔ massTerms false l ≠ [] := by
  have hne : massTerms false l ≠ [] ↔ ∃ v, v ∈ massTerms false l :=
    ⟨List.exists_mem_of_ne_nil _, fun ⟨v, hv⟩ h => by rw [h] at hv; simp at hv⟩
  rw [reviewFlags_eq, hne]
  simp only [massTerms_mem l hs]
  by_cases hn : "density_time_derivative" ∈ written (l.filterMap Opt.nodal)
  · simp [hn]
  · rw [if_neg hn]
    rcases hm : lastMass (written (l.filterMap Opt.elem)) with _ | v
    · obtain ⟨a, b⟩ := (lastMass_none _).1 hm
      simp [a, b, hn]
    · obtain ⟨a, b⟩ := lastMass_mem _ v hm
      cases v
      · simp [a rfl]
      · simp [b rfl]

/-- C320: the accumulation is evaluated as one of the terms of the equation is, so as all of them if they agree. -/
theorem c320_lumped (l : List Opt) (hs : ∀ o ∈ l, Single o) (h : massTerms false l ≠ []) : (reviewFlags l).lumped ∈ massTerms false l := by
  have hm := (c320_has_mass l hs).2 h
  rw [massTerms_mem l hs]
  rw [reviewFlags_eq] at hm ⊢
  by_cases hn : "density_time_derivative" ∈ written (l.filterMap Opt.nodal)
  · simp [hn]
  · rw [if_neg hn] at hm ⊢
    rcases hl : lastMass (written (l.filterMap Opt.elem)) with _ | v
    · rw [hl] at hm; simp at hm
    · obtain ⟨a, b⟩ := lastMass_mem _ v hl
      cases v
      · simp [a rfl]
      · simp [b rfl]

/-- C320: with the edge-based scheme the same holds if no element terms are given for the continuity equation. -/
theorem c320_edge (l : List Opt) (hs : ∀ o ∈ l, Single o) (he : written (l.filterMap Opt.elem) = []) :
    ((reviewFlags l).hasMass = true ↔ massTerms true l ≠ []) ∧ (massTerms true l ≠ [] → (reviewFlags l).lumped = true ∧ ∀ v ∈ massTerms true l, v = true) := by
  obtain ⟨h1, h2⟩ := solnOpts_eq l hs none none
  simp only [Option.getD_none, List.nil_append] at h1 h2
  rw [reviewFlags_eq, he]
  have hmt : massTerms true l = ((written (l.filterMap Opt.nodal)).filter (· = "density_time_derivative")).map fun _ => true := by
    unfold massTerms; simp [h1]
  rw [hmt]
  by_cases hn : "density_time_derivative" ∈ written (l.filterMap Opt.nodal)
  · simp only [hn, if_true, true_iff]
    refine ⟨?_, fun _ => ⟨trivial, by simp⟩⟩
    intro hc
    simp only [List.map_eq_nil_iff, List.filter_eq_nil_iff] at hc
    exact hc _ hn (by simp)
  · have hf : (written (l.filterMap Opt.nodal)).filter (· = "density_time_derivative") = [] := by
      rw [List.filter_eq_nil_iff]; intro a ha hc; simp only [decide_eq_true_eq] at hc; subst hc; exact hn ha
    rw [if_neg hn, hf]
    simp [lastMass]

/-- C320, finding: with the edge-based scheme element terms are ignored by the equation but not by the review. -/
theorem c320_edge_wrong : (reviewFlags [⟨false, none, some [("continuity", ["density_time_derivative"])]⟩]).hasMass = true ∧
    massTerms true [⟨false, none, some [("continuity", ["density_time_derivative"])]⟩] = [] := by
  simp [reviewFlags, loopElem, loopNodal, readBlock, scanElem, massTerms, solnOpts]

/-- C320, finding: of an option with both keys the equation gets the nodal terms only, the review sees both. -/
theorem c320_two_keys_wrong : (reviewFlags [⟨false, some [("momentum", ["buoyancy"])], some [("continuity", ["density_time_derivative"])]⟩]).hasMass = true ∧
    massTerms false [⟨false, some [("momentum", ["buoyancy"])], some [("continuity", ["density_time_derivative"])]⟩] = [] := by
  simp [reviewFlags, loopElem, loopNodal, readBlock, scanElem, scanNodal, massTerms, solnOpts]

example : reviewFlags [⟨true, none, none⟩, ⟨false, none, some [("momentum", ["x"]), ("continuity", ["advection", "density_time_derivative"])]⟩] = ⟨true, false⟩ ∧
    massTerms false [⟨true, none, none⟩, ⟨false, none, some [("momentum", ["x"]), ("continuity", ["advection", "density_time_derivative"])]⟩] = [false] := by
  simp [reviewFlags, loopElem, loopNodal, readBlock, scanElem, massTerms, solnOpts]

end Nalu.LookAhead
