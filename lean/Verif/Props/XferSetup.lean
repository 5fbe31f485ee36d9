import Verif.Model.XferSetup
import Mathlib.Tactic.Ring
import Mathlib.Tactic.Linarith
import Mathlib.Algebra.BigOperators.Intervals
import Mathlib.Algebra.Order.Floor.Div

/-! # C313-C316: transfers, from the input block to the run -/

namespace Nalu.XferSetup

/-! ## C313: what a transfer block means -/

/-- The blocks the user's manual allows. -/
structure WellFormed (b : Block) : Prop where
  named : b.name ≠ none ∧ b.type ≠ none
  realms : b.realmPair.length = 2
  parts : (∃ l, b.meshPartPair = some l ∧ l.length = 2 ∧ b.fromTarget = none ∧ b.toTarget = none) ∨
    (b.meshPartPair = none ∧ b.fromTarget ≠ none ∧ b.toTarget ≠ none)
  clips : ∀ l, b.clips = some l → ∀ c ∈ l, ∃ n lo hi a d, c = [n, lo, hi] ∧ lo.num = some a ∧ hi.num = some d
  fields : (b.coupling = none ∧ ∃ l, b.vars = some l ∧ ∀ v ∈ l, v.length = 2) ∨
    (b.vars = none ∧ ∃ c, b.coupling = some c ∧ c ∈ ["fluids_cht", "fluids_robin", "thermal_cht", "thermal_robin"])

theorem partsOf_ok (b : Block) : (∃ p, partsOf b = .ok p) ↔
    ((∃ l, b.meshPartPair = some l ∧ l.length = 2 ∧ b.fromTarget = none ∧ b.toTarget = none) ∨
    (b.meshPartPair = none ∧ b.fromTarget ≠ none ∧ b.toTarget ≠ none)) := by
  unfold partsOf
  rcases hm : b.meshPartPair with _ | l
  · rcases hf : b.fromTarget with _ | f <;> rcases ht : b.toTarget with _ | t <;> simp
  · rcases hf : b.fromTarget with _ | f <;> rcases ht : b.toTarget with _ | t <;> simp
    match l with
    | [] => simp
    | [_] => simp
    | [_, _] => simp
    | _ :: _ :: _ :: _ => simp

theorem clipsOf_ok (l : List (List Scalar)) (m : String → Option (ℚ × ℚ)) : (∃ p, clipsOf l m = .ok p) ↔
    ∀ c ∈ l, ∃ n lo hi a d, c = [n, lo, hi] ∧ lo.num = some a ∧ hi.num = some d := by
  induction l generalizing m with
  | nil => simp [clipsOf]
  | cons c r ih =>
    match c with
    | [] => simp [clipsOf]
    | [_] => simp [clipsOf]
    | [_, _] => simp [clipsOf]
    | [n, lo, hi] =>
      rcases hlo : lo.num with _ | a
      · simp [clipsOf, hlo]
      · rcases hhi : hi.num with _ | d
        · simp [clipsOf, hlo, hhi]
        · simp only [clipsOf, hlo, hhi, ih, List.mem_cons, forall_eq_or_imp]
          constructor
          · intro h; exact ⟨⟨n, lo, hi, a, d, rfl, hlo, hhi⟩, h⟩
          · exact fun h => h.2
    | _ :: _ :: _ :: _ :: _ => simp [clipsOf]

theorem pairsOf_ok (l : List (List String)) : (∃ p, pairsOf l = .ok p) ↔ ∀ v ∈ l, v.length = 2 := by
  induction l with
  | nil => simp [pairsOf]
  | cons c r ih =>
    match c with
    | [] => simp [pairsOf]
    | [_] => simp [pairsOf]
    | [f, t] =>
      simp only [pairsOf, List.mem_cons, forall_eq_or_imp, ← ih]
      rcases pairsOf r with e | p <;> simp
    | _ :: _ :: _ :: _ => simp [pairsOf]

theorem physics_ok (c : String) : (∃ p, physics c = .ok p) ↔
    c ∈ ["fluids_cht", "fluids_robin", "thermal_cht", "thermal_robin"] := by
  unfold physics
  split
  · simp
  · simp
  · simp
  · simp
  · simp_all

theorem fieldsOf_ok (b : Block) : (∃ p, fieldsOf b = .ok p) ↔
    ((b.coupling = none ∧ ∃ l, b.vars = some l ∧ ∀ v ∈ l, v.length = 2) ∨
    (b.vars = none ∧ ∃ c, b.coupling = some c ∧ c ∈ ["fluids_cht", "fluids_robin", "thermal_cht", "thermal_robin"])) := by
  unfold fieldsOf
  rcases hv : b.vars with _ | l
  · rcases hc : b.coupling with _ | c
    · simp
    · simp only [physics_ok]; simp
  · have := pairsOf_ok l
    rcases hp : pairsOf l with e | p
    · rw [hp] at this
      have h2 : ¬ ∀ v ∈ l, v.length = 2 := by rw [← this]; simp
      simp only [hp, Option.some.injEq, exists_eq_left', reduceCtorEq, exists_false, false_and, or_false, false_iff, not_and]
      intro _; exact h2
    · rw [hp] at this
      have h2 : ∀ v ∈ l, v.length = 2 := by rw [← this]; simp
      rcases hc : b.coupling with _ | c <;> simp [hp]
      exact h2

/-- C313: a transfer block is accepted exactly if it is well formed. -/
theorem c313_accepted_iff (b : Block) : (∃ x, load b = .ok x) ↔ WellFormed b := by
  have e : WellFormed b ↔ (b.name ≠ none ∧ b.type ≠ none) ∧ b.realmPair.length = 2 ∧ (∃ p, partsOf b = .ok p) ∧
      (∃ p, clipsOf (b.clips.getD []) (fun _ => none) = .ok p) ∧ (∃ p, fieldsOf b = .ok p) := by
    rw [partsOf_ok, clipsOf_ok, fieldsOf_ok]
    constructor
    · rintro ⟨h1, h2, h3, h4, h5⟩
      refine ⟨h1, h2, h3, ?_, h5⟩
      rcases hc : b.clips with _ | l
      · simp
      · simpa using h4 l hc
    · rintro ⟨h1, h2, h3, h4, h5⟩
      refine ⟨h1, h2, h3, ?_, h5⟩
      intro l hl; simpa [hl] using h4
  rw [e]
  unfold load
  rcases hn : b.name with _ | nm
  · simp
  rcases ht : b.type with _ | ty
  · simp
  have hb : ((some nm).isNone || (some ty).isNone) = false := rfl
  simp only [hb, Bool.false_eq_true, if_false]
  match hr : b.realmPair with
  | [] => simp
  | [_] => simp
  | [f, t] =>
    rcases partsOf b with e | p
    · simp
    · rcases clipsOf (b.clips.getD []) (fun _ => none) with e | m
      · simp
      · rcases fieldsOf b with e | v <;> simp
  | _ :: _ :: _ :: _ => simp

/-- The last clip entry for a field, if any. -/
def LastClip (l : List (List Scalar)) (s : String) (v : Option (ℚ × ℚ)) : Prop :=
  (v = none ∧ ∀ c ∈ l, ∀ n ∈ c.head?, n.txt ≠ s) ∨
  ∃ pre n lo hi post a d, l = pre ++ [n, lo, hi] :: post ∧ n.txt = s ∧ lo.num = some a ∧ hi.num = some d ∧ v = some (a, d) ∧
    ∀ c ∈ post, ∀ n' ∈ c.head?, n'.txt ≠ s

theorem clipsOf_last (l : List (List Scalar)) : ∀ (m p : String → Option (ℚ × ℚ)), clipsOf l m = .ok p → ∀ s,
    (p s = m s ∧ ∀ c ∈ l, ∀ n ∈ c.head?, n.txt ≠ s) ∨
    ∃ pre n lo hi post a d, l = pre ++ [n, lo, hi] :: post ∧ n.txt = s ∧ lo.num = some a ∧ hi.num = some d ∧ p s = some (a, d) ∧
    ∀ c ∈ post, ∀ n' ∈ c.head?, n'.txt ≠ s := by
  induction l with
  | nil => intro m p h s; simp [clipsOf] at h; subst h; simp
  | cons c r ih =>
    intro m p h s
    match c, h with
    | [n, lo, hi], h =>
      rcases hlo : lo.num with _ | a
      · simp [clipsOf, hlo] at h
      · rcases hhi : hi.num with _ | d
        · simp [clipsOf, hlo, hhi] at h
        · simp only [clipsOf, hlo, hhi] at h
          rcases ih _ p h s with ⟨h1, h2⟩ | ⟨pre, n', lo', hi', post, a', d', h1, h2⟩
          · by_cases hs : s = n.txt
            · refine Or.inr ⟨[], n, lo, hi, r, a, d, rfl, hs.symm, hlo, hhi, ?_, h2⟩
              rw [h1, if_pos hs]
            · refine Or.inl ⟨by rw [h1, if_neg hs], ?_⟩
              intro c hc
              rcases List.mem_cons.1 hc with rfl | hc
              · simpa using fun h => hs h.symm
              · exact h2 c hc
          · exact Or.inr ⟨[n, lo, hi] :: pre, n', lo', hi', post, a', d', by rw [h1]; rfl, h2⟩
    | [], h => simp [clipsOf] at h
    | [_], h => simp [clipsOf] at h
    | [_, _], h => simp [clipsOf] at h
    | _ :: _ :: _ :: _ :: _, h => simp [clipsOf] at h

/-- The field pairs a pre-defined coupling stands for: sender's field, receiver's field. -/
def couplingTable : List (String × List (String × String)) :=
  [("fluids_cht", [("heat_transfer_coefficient", "heat_transfer_coefficient"), ("reference_temperature", "reference_temperature")]),
   ("fluids_robin", [("normal_heat_flux", "normal_heat_flux"), ("temperature", "reference_temperature"),
     ("robin_coupling_parameter", "robin_coupling_parameter")]),
   ("thermal_cht", [("temperature", "temperature"), ("temperature", "temperature_bc")]),
   ("thermal_robin", [("temperature", "temperature"), ("temperature", "temperature_bc")])]

theorem physics_table (c : String) (p : List (String × String)) (h : physics c = .ok p) : (c, p) ∈ couplingTable := by
  unfold physics at h
  split at h <;> simp at h <;> subst h <;> simp [couplingTable]

theorem pairsOf_map (l : List (List String)) : ∀ p, pairsOf l = .ok p → l = p.map fun q => [q.1, q.2] := by
  induction l with
  | nil => intro p h; simp [pairsOf] at h; subst h; rfl
  | cons c r ih =>
    intro p h
    match c, h with
    | [f, t], h =>
      rcases hp : pairsOf r with e | q
      · simp [pairsOf, hp] at h
      · simp [pairsOf, hp] at h; subst h
        rw [ih q hp]; simp
    | [], h => simp [pairsOf] at h
    | [_], h => simp [pairsOf] at h
    | _ :: _ :: _ :: _, h => simp [pairsOf] at h

/-- C313: what an accepted block means: realms, parts, objective (default multi-physics), field pairs in the order given or the pre-defined set, and
for each field the limits given last. -/
theorem c313_meaning (b : Block) (x : Xfer) (h : load b = .ok x) :
    b.realmPair = [x.fromRealm, x.toRealm] ∧
    (b.meshPartPair = none → b.fromTarget = some x.fromParts ∧ b.toTarget = some x.toParts) ∧
    (∀ l, b.meshPartPair = some l → ∃ f t, l = [f, t] ∧ x.fromParts = [f] ∧ x.toParts = [t]) ∧
    (b.objective = some x.objective ∨ b.objective = none ∧ x.objective = "multi_physics") ∧
    (∀ l, b.vars = some l → l = x.pairs.map fun q => [q.1, q.2]) ∧
    (∀ c, b.coupling = some c → (c, x.pairs) ∈ couplingTable) ∧
    (∀ s, LastClip (b.clips.getD []) s (x.clip s)) := by
  unfold load at h
  split at h
  · simp at h
  match hr : b.realmPair, h with
  | [f, t], h =>
    rcases hp : partsOf b with e | p
    · simp [hp] at h
    · rcases hc : clipsOf (b.clips.getD []) (fun _ => none) with e | m
      · simp [hp, hc] at h
      · rcases hf : fieldsOf b with e | v
        · simp [hp, hc, hf] at h
        · simp only [hp, hc, hf, Except.ok.injEq] at h
          subst h
          refine ⟨rfl, ?_, ?_, ?_, ?_, ?_, ?_⟩
          · intro hm
            simp only [partsOf, hm] at hp
            rcases h1 : b.fromTarget with _ | f1
            · simp [h1] at hp
            · rcases h2 : b.toTarget with _ | t1
              · simp [h1, h2] at hp
              · simp [h1, h2] at hp; subst hp; simp
          · intro l hm
            simp only [partsOf, hm] at hp
            split at hp
            · simp at hp
            · match l, hp with
              | [f1, t1], hp => simp at hp; subst hp; exact ⟨f1, t1, rfl, rfl, rfl⟩
              | [], hp => simp at hp
              | [_], hp => simp at hp
              | _ :: _ :: _ :: _, hp => simp at hp
          · rcases ho : b.objective with _ | o <;> simp
          · intro l hl
            simp only [fieldsOf, hl] at hf
            rcases hq : pairsOf l with e | q
            · simp [hq] at hf
            · simp only [hq] at hf
              split at hf
              · simp at hf
              · simp at hf; subst hf; exact pairsOf_map l q hq
          · intro c hcc
            rcases hv : b.vars with _ | l
            · simp only [fieldsOf, hv, hcc] at hf
              exact physics_table c v hf
            · simp only [fieldsOf, hv, hcc] at hf
              rcases hq : pairsOf l with e | q <;> simp [hq] at hf
          · intro s
            rcases clipsOf_last _ _ m hc s with ⟨h1, h2⟩ | ⟨pre, n, lo, hi, post, a, d, h1, h2, h3, h4, h5, h6⟩
            · exact Or.inl ⟨h1, h2⟩
            · exact Or.inr ⟨pre, n, lo, hi, post, a, d, h1, h2, h3, h4, h5, h6⟩
  | [], h => simp at h
  | [_], h => simp at h
  | _ :: _ :: _ :: _, h => simp at h

/-- A conjugate heat transfer block of a regression test. -/
def chtBlock : Block where
  name := some "xfer_fluids_thermal"
  type := some "geometric"
  objective := none
  coupling := some "fluids_cht"
  realmPair := ["fluidRealm", "thermalRealm"]
  meshPartPair := some ["surface_1", "surface_7"]
  fromTarget := none
  toTarget := none
  clips := some [[⟨"reference_temperature", none⟩, ⟨"0", some 0⟩, ⟨"100", some 100⟩],
    [⟨"reference_temperature", none⟩, ⟨"200", some 200⟩, ⟨"500", some 500⟩]]
  vars := none

example : WellFormed chtBlock := by
  refine ⟨by simp [chtBlock], rfl, Or.inl ⟨_, rfl, rfl, rfl, rfl⟩, ?_, Or.inr ⟨rfl, _, rfl, by simp⟩⟩
  intro l hl c hc
  simp only [chtBlock, Option.some.injEq] at hl
  subst hl
  simp only [List.mem_cons, List.not_mem_nil, or_false] at hc
  rcases hc with rfl | rfl
  · exact ⟨_, _, _, 0, 100, rfl, rfl, rfl⟩
  · exact ⟨_, _, _, 200, 500, rfl, rfl, rfl⟩

example : (match load chtBlock with | .ok x => x.clip "reference_temperature" | .error _ => none) = some (200, 500) := by
  simp [load, chtBlock, partsOf, clipsOf, fieldsOf, physics]

/-! ## C314: hand-over to the realms -/

/-- The queue a transfer objective belongs to, and whether the sender (`true`) or the receiver runs it. -/
def objectiveOwner : List (String × Bool) :=
  [("multi_physics", true), ("initialization", true), ("input_output", false), ("external_data", false)]

/-- The queue of a realm for an objective. -/
def Queues.of (q : Queues) (o : String) : List ℕ :=
  if o = "multi_physics" then q.mp else if o = "initialization" then q.ini
  else if o = "input_output" then q.io else if o = "external_data" then q.ext else []

/-- The realm that owns a transfer of this objective: the sender for multi-physics and initialization, the receiver for output and external data. -/
def owner (rs : List RealmMesh) (x : Xfer) : Option ℕ :=
  if (x.objective, true) ∈ objectiveOwner then findRealm rs x.fromRealm else findRealm rs x.toRealm

/-- A transfer that the breadboard accepts: both realms exist, the objective is known, and the parts are on the meshes of the two realms. -/
structure Boardable (rs : List RealmMesh) (x : Xfer) : Prop where
  realms : ∃ f g mf mg, findRealm rs x.fromRealm = some f ∧ findRealm rs x.toRealm = some g ∧ rs[f]? = some mf ∧ rs[g]? = some mg ∧
    (∀ p ∈ x.fromParts, p ∈ mf.parts) ∧ (∀ p ∈ x.toParts, p ∈ mg.parts)
  objective : ∃ s, (x.objective, s) ∈ objectiveOwner

theorem findRealm_get (rs : List RealmMesh) (n : String) (i : ℕ) (h : findRealm rs n = some i) :
    ∃ m, rs[i]? = some m ∧ m.name = n := by
  unfold findRealm at h
  rw [List.findIdx?_eq_some_iff_getElem] at h
  obtain ⟨hi, hp, _⟩ := h
  exact ⟨rs[i], List.getElem?_eq_getElem hi, by simpa using hp⟩

/-- C314: a realm is found exactly if the input file has one of that name, and it is the first such realm. -/
theorem c314_find_realm (rs : List RealmMesh) (n : String) :
    (∀ i, findRealm rs n = some i → (∃ m, rs[i]? = some m ∧ m.name = n) ∧ ∀ j < i, ∀ m, rs[j]? = some m → m.name ≠ n) ∧
    (findRealm rs n = none ↔ ∀ m ∈ rs, m.name ≠ n) := by
  constructor
  · intro i h
    refine ⟨findRealm_get rs n i h, ?_⟩
    unfold findRealm at h
    rw [List.findIdx?_eq_some_iff_getElem] at h
    obtain ⟨hi, _, hn⟩ := h
    intro j hj m hm
    have := hn j hj
    rw [List.getElem?_eq_getElem (lt_trans hj hi)] at hm
    simp at hm; subst hm; simpa using this
  · unfold findRealm; rw [List.findIdx?_eq_none_iff]; simp

theorem augment_of (Q Q' : ℕ → Queues) (t : ℕ) (o : String) (f g : ℕ) (h : augment Q t o f g = some Q') :
    (∃ s, (o, s) ∈ objectiveOwner) ∧
    ∀ r o', (Q' r).of o' = (Q r).of o' ++ (if o' = o ∧ r = (if (o, true) ∈ objectiveOwner then f else g) then [t] else []) := by
  unfold augment at h
  split at h
  · rename_i ho; subst ho
    simp at h; subst h
    refine ⟨⟨true, by simp [objectiveOwner]⟩, fun r o' => ?_⟩
    by_cases hr : r = f
    · by_cases h1 : o' = "multi_physics"
      · simp [Queues.of, h1, hr, objectiveOwner]
      · simp [Queues.of, h1, hr]
    · simp [hr, objectiveOwner]
  split at h
  · rename_i ho; subst ho
    simp at h; subst h
    refine ⟨⟨true, by simp [objectiveOwner]⟩, fun r o' => ?_⟩
    by_cases hr : r = f
    · by_cases h1 : o' = "initialization"
      · simp [Queues.of, h1, hr, objectiveOwner]
      · simp [Queues.of, h1, hr]
    · simp [hr, objectiveOwner]
  split at h
  · rename_i ho; subst ho
    simp at h; subst h
    refine ⟨⟨false, by simp [objectiveOwner]⟩, fun r o' => ?_⟩
    by_cases hr : r = g
    · by_cases h1 : o' = "input_output"
      · simp [Queues.of, h1, hr, objectiveOwner]
      · simp [Queues.of, h1, hr]
    · simp [hr, objectiveOwner]
  split at h
  · rename_i ho; subst ho
    simp at h; subst h
    refine ⟨⟨false, by simp [objectiveOwner]⟩, fun r o' => ?_⟩
    by_cases hr : r = g
    · by_cases h1 : o' = "external_data"
      · simp [Queues.of, h1, hr, objectiveOwner]
      · simp [Queues.of, h1, hr]
    · simp [hr, objectiveOwner]
  · simp at h

theorem augment_some (Q : ℕ → Queues) (t : ℕ) (o : String) (f g : ℕ) (s : Bool) (h : (o, s) ∈ objectiveOwner) :
    ∃ Q', augment Q t o f g = some Q' := by
  simp only [objectiveOwner, List.mem_cons, Prod.mk.injEq, List.not_mem_nil, or_false] at h
  rcases h with ⟨rfl, _⟩ | ⟨rfl, _⟩ | ⟨rfl, _⟩ | ⟨rfl, _⟩ <;> simp [augment]

theorem board_some (rs : List RealmMesh) (Q : ℕ → Queues) (t : ℕ) (x : Xfer) :
    (∃ Q', board rs Q t x = some Q') ↔ Boardable rs x := by
  unfold board
  constructor
  · rintro ⟨Q', h⟩
    rcases hf : findRealm rs x.fromRealm with _ | f
    · simp [hf] at h
    rcases hg : findRealm rs x.toRealm with _ | g
    · simp [hf, hg] at h
    rcases ha : augment Q t x.objective f g with _ | Q1
    · simp [hf, hg, ha] at h
    obtain ⟨mf, hmf, _⟩ := findRealm_get _ _ _ hf
    obtain ⟨mg, hmg, _⟩ := findRealm_get _ _ _ hg
    simp only [hf, hg, ha, hmf, hmg] at h
    split at h
    · rename_i hp
      simp only [partsExist, Bool.and_eq_true, List.all_eq_true, decide_eq_true_eq] at hp
      exact ⟨⟨f, g, mf, mg, hf, hg, hmf, hmg, hp.1, hp.2⟩, (augment_of _ _ _ _ _ _ ha).1⟩
    · simp at h
  · rintro ⟨⟨f, g, mf, mg, hf, hg, hmf, hmg, h1, h2⟩, s, hs⟩
    obtain ⟨Q1, ha⟩ := augment_some Q t x.objective f g s hs
    refine ⟨Q1, ?_⟩
    simp only [hf, hg, ha, hmf, hmg]
    rw [if_pos]
    simp only [partsExist, Bool.and_eq_true, List.all_eq_true, decide_eq_true_eq]
    exact ⟨h1, h2⟩

theorem board_of (rs : List RealmMesh) (Q Q' : ℕ → Queues) (t : ℕ) (x : Xfer) (h : board rs Q t x = some Q') (r : ℕ) (o : String) :
    (Q' r).of o = (Q r).of o ++ (if o = x.objective ∧ owner rs x = some r then [t] else []) := by
  unfold board at h
  rcases hf : findRealm rs x.fromRealm with _ | f
  · simp [hf] at h
  rcases hg : findRealm rs x.toRealm with _ | g
  · simp [hf, hg] at h
  rcases ha : augment Q t x.objective f g with _ | Q1
  · simp [hf, hg, ha] at h
  obtain ⟨mf, hmf, _⟩ := findRealm_get _ _ _ hf
  obtain ⟨mg, hmg, _⟩ := findRealm_get _ _ _ hg
  simp only [hf, hg, ha, hmf, hmg] at h
  split at h
  · simp at h; subst h
    rw [(augment_of _ _ _ _ _ _ ha).2 r o]
    congr 1
    unfold owner
    rw [hf, hg]
    split <;> simp [eq_comm]
  · simp at h

/-- C314: the transfers of an input file are accepted exactly if each of them is. -/
theorem c314_accepted_iff (rs : List RealmMesh) (xs : List Xfer) : ∀ (Q : ℕ → Queues) (t : ℕ),
    (∃ Q', boardAll rs Q t xs = some Q') ↔ ∀ x ∈ xs, Boardable rs x := by
  induction xs with
  | nil => intro Q t; simp [boardAll]
  | cons x r ih =>
    intro Q t
    have hb := board_some rs Q t x
    simp only [boardAll, List.mem_cons, forall_eq_or_imp]
    rcases h : board rs Q t x with _ | Q1
    · rw [h] at hb
      have : ¬ Boardable rs x := by rw [← hb]; simp
      simp [this]
    · rw [h] at hb
      have : Boardable rs x := by rw [← hb]; simp
      simp [this, ih Q1 (t + 1)]

theorem boardAll_of (rs : List RealmMesh) (xs : List Xfer) : ∀ (Q Q' : ℕ → Queues) (t : ℕ), boardAll rs Q t xs = some Q' →
    ∀ r o, (Q' r).of o = (Q r).of o ++
      (List.range xs.length).flatMap fun k => match xs[k]? with
        | some x => if o = x.objective ∧ owner rs x = some r then [t + k] else []
        | none => [] := by
  induction xs with
  | nil => intro Q Q' t h r o; simp [boardAll] at h; subst h; simp
  | cons x l ih =>
    intro Q Q' t h r o
    simp only [boardAll] at h
    rcases hb : board rs Q t x with _ | Q1
    · simp [hb] at h
    · simp only [hb] at h
      rw [ih Q1 Q' (t + 1) h r o, board_of rs Q Q1 t x hb r o, List.append_assoc]
      congr 1
      rw [List.length_cons, List.range_succ_eq_map, List.flatMap_cons, List.flatMap_map]
      simp only [List.getElem?_cons_zero, List.getElem?_cons_succ, Nat.add_zero, Function.comp_def, Nat.succ_eq_add_one]
      congr 1
      apply List.flatMap_congr
      intro k _
      rcases l[k]? with _ | y
      · rfl
      · simp only []; rw [show t + 1 + k = t + (k + 1) by ring]

/-- C314: after the breadboard a realm's queue for an objective lists exactly the transfers of that objective it owns, in the order of the input
file. -/
theorem c314_queues (rs : List RealmMesh) (xs : List Xfer) (Q : ℕ → Queues) (h : boardAll rs noQueues 0 xs = some Q) (r : ℕ) (o : String) :
    (Q r).of o = (List.range xs.length).filter fun k =>
      match xs[k]? with | some x => decide (o = x.objective ∧ owner rs x = some r) | none => false := by
  rw [boardAll_of rs xs noQueues Q 0 h r o]
  have h0 : (noQueues r).of o = [] := by simp [noQueues, Queues.of]
  rw [h0, List.nil_append]
  generalize List.range xs.length = l
  induction l with
  | nil => rfl
  | cons k l ih =>
    rw [List.flatMap_cons, ih, List.filter_cons]
    rcases xs[k]? with _ | x
    · simp
    · by_cases hc : o = x.objective ∧ owner rs x = some r <;> simp [hc]

/-- C314: how often transfer `t` occurs in a queue: once in the queue of its objective in the realm that owns it, and nowhere else. -/
theorem c314_once (rs : List RealmMesh) (xs : List Xfer) (Q : ℕ → Queues) (h : boardAll rs noQueues 0 xs = some Q) (t : ℕ) (x : Xfer)
    (hx : xs[t]? = some x) (r : ℕ) (o : String) :
    ((Q r).of o).count t = if o = x.objective ∧ owner rs x = some r then 1 else 0 := by
  rw [c314_queues rs xs Q h r o]
  have ht : t < xs.length := by
    by_contra hc
    rw [List.getElem?_eq_none (by omega)] at hx; simp at hx
  split_ifs with hc
  · rw [List.count_filter (by simp [hx, hc])]
    exact List.count_eq_one_of_mem List.nodup_range (List.mem_range.2 ht)
  · rw [List.count_eq_zero]
    simp only [List.mem_filter, hx, decide_eq_true_eq, not_and]
    intro _; exact fun h1 h2 => hc ⟨h1, h2⟩

def twoRealms : List RealmMesh := [⟨"fluidRealm", ["surface_1", "block_1"]⟩, ⟨"thermalRealm", ["surface_7", "block_2"]⟩]

def twoXfers : List Xfer :=
  [⟨"fluidRealm", "thermalRealm", ["surface_1"], ["surface_7"], "multi_physics", fun _ => none, []⟩,
   ⟨"thermalRealm", "fluidRealm", ["block_2"], ["block_1"], "input_output", fun _ => none, []⟩]

example : ∃ Q, boardAll twoRealms noQueues 0 twoXfers = some Q ∧ (Q 0).mp = [0] ∧ (Q 0).io = [1] ∧ (Q 1).io = [] := by
  refine ⟨_, by simp [boardAll, board, findRealm, augment, partsExist, twoRealms, twoXfers]; rfl, ?_⟩
  simp [noQueues]

/-! ## C315: search set-up -/

/-- What is required of the set-up: a coarse search is done on the meshes as they were read (no ghosting has changed a mesh, none is being changed); a
mesh is changed by one transfer at a time; elements are ghosted only after that transfer's coarse search and while the sending mesh may be changed;
the local search of a transfer comes after its own ghosting and while no mesh is being changed. -/
inductive Legal (frm : ℕ → ℕ) : (opened : Option ℕ) → (searched ghosted : List ℕ) → List Ev → Prop
  | done (s g : List ℕ) : Legal frm none s g []
  | coarse (t : ℕ) (s : List ℕ) (l : List Ev) : Legal frm none (t :: s) [] l → Legal frm none s [] (Ev.coarse t :: l)
  | modBegin (r : ℕ) (s g : List ℕ) (l : List Ev) : Legal frm (some r) s g l → Legal frm none s g (Ev.modBegin r :: l)
  | ghost (t : ℕ) (s g : List ℕ) (l : List Ev) : t ∈ s → t ∉ g → Legal frm (some (frm t)) s (t :: g) l →
      Legal frm (some (frm t)) s g (Ev.ghost t :: l)
  | modEnd (r : ℕ) (s g : List ℕ) (l : List Ev) : Legal frm none s g l → Legal frm (some r) s g (Ev.modEnd r :: l)
  | localSearch (t : ℕ) (s g : List ℕ) (l : List Ev) : t ∈ g → (∀ u ∈ s, u ∈ g) → Legal frm none s g l →
      Legal frm none s g (Ev.localSearch t :: l)

theorem legal_local (frm : ℕ → ℕ) (s g : List ℕ) (hs : ∀ u ∈ s, u ∈ g) (l : List ℕ) (h : ∀ t ∈ l, t ∈ g) :
    Legal frm none s g (l.map Ev.localSearch) := by
  induction l with
  | nil => exact .done s g
  | cons t l ih => exact .localSearch t s g _ (h t (by simp)) hs (ih fun u hu => h u (by simp [hu]))

theorem legal_ghost (frm : ℕ → ℕ) (s : List ℕ) (tail : List Ev) (l : List ℕ) : ∀ g : List ℕ, l.Nodup → (∀ t ∈ l, t ∈ s ∧ t ∉ g) →
    (∀ g', (∀ u, u ∈ g' ↔ u ∈ g ∨ u ∈ l) → Legal frm none s g' tail) →
    Legal frm none s g (l.flatMap (fun t => [Ev.modBegin (frm t), Ev.ghost t, Ev.modEnd (frm t)]) ++ tail) := by
  induction l with
  | nil => intro g _ _ ht; exact ht g (by simp)
  | cons t l ih =>
    intro g hn h ht
    rw [List.nodup_cons] at hn
    simp only [List.flatMap_cons, List.cons_append, List.nil_append]
    refine .modBegin _ _ _ _ (.ghost t _ _ _ (h t (by simp)).1 (h t (by simp)).2 (.modEnd _ _ _ _ (ih (t :: g) hn.2 ?_ ?_)))
    · intro u hu
      refine ⟨(h u (by simp [hu])).1, ?_⟩
      rw [List.mem_cons, not_or]
      exact ⟨fun e => hn.1 (e ▸ hu), (h u (by simp [hu])).2⟩
    · intro g' hg
      refine ht g' fun u => ?_
      rw [hg]; simp only [List.mem_cons]; tauto

theorem legal_coarse (frm : ℕ → ℕ) (tail : List Ev) (l : List ℕ) : ∀ s : List ℕ,
    (∀ s', (∀ u, u ∈ s' ↔ u ∈ s ∨ u ∈ l) → Legal frm none s' [] tail) → Legal frm none s [] (l.map Ev.coarse ++ tail) := by
  induction l with
  | nil => intro s h; exact h s (by simp)
  | cons t l ih =>
    intro s h
    refine .coarse t s _ (ih (t :: s) fun s' hs => h s' fun u => ?_)
    rw [hs]; simp only [List.mem_cons]; tauto

/-- C315: the set-up of any number of transfers between any realms is legal. -/
theorem c315_legal (frm : ℕ → ℕ) (n : ℕ) : Legal frm none [] [] (setup frm n) := by
  unfold setup
  rw [List.append_assoc]
  refine legal_coarse frm _ _ [] fun s hs => ?_
  have hs' : ∀ u, u ∈ s ↔ u < n := fun u => by rw [hs]; simp
  refine legal_ghost frm s _ _ [] List.nodup_range (fun t ht => ⟨(hs' t).2 (List.mem_range.1 ht), by simp⟩) fun g hg => ?_
  have hg' : ∀ u, u ∈ g ↔ u < n := fun u => by rw [hg]; simp
  exact legal_local frm s g (fun u hu => (hg' u).2 ((hs' u).1 hu)) _ fun t ht => (hg' t).2 (List.mem_range.1 ht)

/-- C315: every transfer is searched, ghosted and searched again exactly once. -/
theorem c315_once (frm : ℕ → ℕ) (n t : ℕ) (ht : t < n) :
    (setup frm n).count (Ev.coarse t) = 1 ∧ (setup frm n).count (Ev.ghost t) = 1 ∧
    (setup frm n).count (Ev.localSearch t) = 1 := by
  have hm : t ∈ List.range n := List.mem_range.2 ht
  have key : ∀ (l : List ℕ), l.count t = ((l.flatMap fun t => [Ev.modBegin (frm t), Ev.ghost t, Ev.modEnd (frm t)]).count (Ev.ghost t)) ∧
      (l.flatMap fun t => [Ev.modBegin (frm t), Ev.ghost t, Ev.modEnd (frm t)]).count (Ev.coarse t) = 0 ∧
      (l.flatMap fun t => [Ev.modBegin (frm t), Ev.ghost t, Ev.modEnd (frm t)]).count (Ev.localSearch t) = 0 ∧
      (l.map Ev.coarse).count (Ev.coarse t) = l.count t ∧ (l.map Ev.localSearch).count (Ev.localSearch t) = l.count t ∧
      (l.map Ev.coarse).count (Ev.ghost t) = 0 ∧ (l.map Ev.coarse).count (Ev.localSearch t) = 0 ∧
      (l.map Ev.localSearch).count (Ev.ghost t) = 0 ∧ (l.map Ev.localSearch).count (Ev.coarse t) = 0 := by
    intro l
    induction l with
    | nil => simp
    | cons u l ih =>
      obtain ⟨h1, h2, h3, h4, h5, h6, h7, h8, h9⟩ := ih
      simp only [List.count_cons, List.map_cons, List.flatMap_cons, List.count_append, List.count_nil, ← h1, h2, h3, h4, h5, h6, h7, h8, h9]
      by_cases h : u = t <;> simp [h, Nat.add_comm]
  obtain ⟨h1, h2, h3, h4, h5, h6, h7, h8, h9⟩ := key (List.range n)
  have hc : (List.range n).count t = 1 := List.count_eq_one_of_mem List.nodup_range hm
  unfold setup
  simp only [List.count_append]
  omega

/-! ## C316: how often a transfer is executed -/

theorem count_flatMap_run (vec : List ℕ) (f : ℕ → List ℕ) (t : ℕ) : (vec.flatMap f).count t = (vec.map fun r => (f r).count t).sum := by
  induction vec with
  | nil => rfl
  | cons r l ih => simp [List.flatMap_cons, ih]

theorem sum_single (vec : List ℕ) (w : ℕ) (c : ℕ) (f : ℕ → ℕ) (h : ∀ r, f r = if r = w then c else 0) :
    (vec.map f).sum = vec.count w * c := by
  induction vec with
  | nil => simp
  | cons r l ih =>
    rw [List.map_cons, List.sum_cons, ih, h r, List.count_cons]
    by_cases hr : r = w
    · simp [hr]; ring
    · simp [hr]

theorem count_replicate_flatten (k : ℕ) (l : List ℕ) (t : ℕ) : ((List.replicate k l).flatten).count t = k * l.count t := by
  induction k with
  | zero => simp
  | succ k ih => rw [List.replicate_succ, List.flatten_cons, List.count_append, ih]; ring

/-- Number of steps among the `n` after `c` that are multiples of `f`. -/
theorem steps_multiple (f : ℕ+) (c n : ℕ) :
    ((List.range n).map fun k => if (c + k + 1) % f = 0 then 1 else 0).sum = (c + n) / f - c / f := by
  induction n with
  | zero => simp
  | succ n ih =>
    rw [List.range_succ, List.map_append, List.sum_append, ih]
    simp only [List.map_cons, List.map_nil, List.sum_cons, List.sum_nil, Nat.add_zero]
    have h := @Nat.succ_div (c + n) (f : ℕ)
    have hmono : c / (f : ℕ) ≤ (c + n) / f := Nat.div_le_div_right (by omega)
    rw [show c + (n + 1) = c + n + 1 by ring, h]
    by_cases hd : (f : ℕ) ∣ c + n + 1
    · rw [if_pos hd, if_pos (Nat.mod_eq_zero_of_dvd hd)]; omega
    · rw [if_neg hd, if_neg (fun h => hd (Nat.dvd_of_mod_eq_zero h))]; omega

/-- How often a transfer is executed by a run of `n` steps after step `c`, if its owner is `w` once in the integrator's list. -/
def executions (w : RealmRun) (o : String) (iters c n : ℕ) : ℕ :=
  if o = "initialization" then 1
  else if o = "external_data" then 1 + n
  else if o = "input_output" then (if c % w.outFreq = 0 then 1 else 0) + ((c + n) / w.outFreq - c / w.outFreq)
  else (if w.restarted then 1 else 0) + iters * ((c + n) / w.solveFreq - c / w.solveFreq)

/-- C316: over a run of any length a transfer is executed as often as its objective says: initialization once, external data once at start-up and once
per step, output once for each output step, multi-physics once per nonlinear iteration of each step its sender is solved in, and once before the run if
the sender was restarted; times the number of times the integrator lists its owner. -/
theorem c316_run_count (rs : List RealmMesh) (xs : List Xfer) (Q : ℕ → Queues) (h : boardAll rs noQueues 0 xs = some Q)
    (realm : ℕ → RealmRun) (hq : ∀ r, (realm r).q = Q r) (t : ℕ) (x : Xfer) (hx : xs[t]? = some x) (w : ℕ) (hw : owner rs x = some w)
    (vec : List ℕ) (iters c n : ℕ) :
    (run realm vec iters c n).count t = vec.count w * executions (realm w) x.objective iters c n := by
  have hB : Boardable rs x := (c314_accepted_iff rs xs noQueues 0).1 ⟨Q, h⟩ x (List.mem_of_getElem? hx)
  have key := c314_once rs xs Q h t x hx
  have hmp : ∀ r, (Q r).mp.count t = if r = w then (if x.objective = "multi_physics" then 1 else 0) else 0 := fun r => by
    have := key r "multi_physics"
    simp only [Queues.of, if_true, hw, Option.some.injEq] at this
    rw [this]
    by_cases h1 : r = w
    · subst h1
      by_cases h2 : x.objective = "multi_physics"
      · simp [h2]
      · rw [if_neg (fun e => h2 e.1.symm), if_pos rfl, if_neg h2]
    · rw [if_neg (fun e => h1 e.2.symm), if_neg h1]
  have hini : ∀ r, (Q r).ini.count t = if r = w then (if x.objective = "initialization" then 1 else 0) else 0 := fun r => by
    have := key r "initialization"
    simp only [Queues.of, if_true, hw, Option.some.injEq, show ("initialization" = "multi_physics") = False by simp, if_false] at this
    rw [this]
    by_cases h1 : r = w
    · subst h1
      by_cases h2 : x.objective = "initialization"
      · simp [h2]
      · rw [if_neg (fun e => h2 e.1.symm), if_pos rfl, if_neg h2]
    · rw [if_neg (fun e => h1 e.2.symm), if_neg h1]
  have hio : ∀ r, (Q r).io.count t = if r = w then (if x.objective = "input_output" then 1 else 0) else 0 := fun r => by
    have := key r "input_output"
    simp only [Queues.of, if_true, hw, Option.some.injEq, show ("input_output" = "multi_physics") = False by simp,
      show ("input_output" = "initialization") = False by simp, if_false] at this
    rw [this]
    by_cases h1 : r = w
    · subst h1
      by_cases h2 : x.objective = "input_output"
      · simp [h2]
      · rw [if_neg (fun e => h2 e.1.symm), if_pos rfl, if_neg h2]
    · rw [if_neg (fun e => h1 e.2.symm), if_neg h1]
  have hext : ∀ r, (Q r).ext.count t = if r = w then (if x.objective = "external_data" then 1 else 0) else 0 := fun r => by
    have := key r "external_data"
    simp only [Queues.of, if_true, hw, Option.some.injEq, show ("external_data" = "multi_physics") = False by simp,
      show ("external_data" = "initialization") = False by simp, show ("external_data" = "input_output") = False by simp, if_false] at this
    rw [this]
    by_cases h1 : r = w
    · subst h1
      by_cases h2 : x.objective = "external_data"
      · simp [h2]
      · rw [if_neg (fun e => h2 e.1.symm), if_pos rfl, if_neg h2]
    · rw [if_neg (fun e => h1 e.2.symm), if_neg h1]
  have cIni : (vec.flatMap fun r => (realm r).q.ini).count t = vec.count w * (if x.objective = "initialization" then 1 else 0) := by
    rw [count_flatMap_run]; exact sum_single _ _ _ _ fun r => by rw [hq, hini]
  have cExt : (vec.flatMap fun r => (realm r).q.ext).count t = vec.count w * (if x.objective = "external_data" then 1 else 0) := by
    rw [count_flatMap_run]; exact sum_single _ _ _ _ fun r => by rw [hq, hext]
  have cIo : ∀ m, (vec.flatMap fun r => ioOf m (realm r)).count t =
      vec.count w * ((if x.objective = "input_output" then 1 else 0) * (if m % (realm w).outFreq = 0 then 1 else 0)) := fun m => by
    rw [count_flatMap_run]
    refine sum_single _ _ _ _ fun r => ?_
    by_cases hr : r = w
    · subst hr
      unfold ioOf
      split_ifs <;> simp_all
    · unfold ioOf
      have := hio r
      split_ifs <;> simp_all
  have cMp : ∀ m b, (vec.flatMap fun r => mpOf m b (realm r)).count t =
      vec.count w * ((if x.objective = "multi_physics" then 1 else 0) * (if m % (realm w).solveFreq = 0 ∨ b = true then 1 else 0)) :=
    fun m b => by
    rw [count_flatMap_run]
    refine sum_single _ _ _ _ fun r => ?_
    by_cases hr : r = w
    · subst hr
      unfold mpOf
      split_ifs <;> simp_all
    · unfold mpOf
      have := hmp r
      split_ifs <;> simp_all
  have cRe : (vec.flatMap fun r => if (realm r).restarted then mpOf c true (realm r) else []).count t =
      vec.count w * ((if x.objective = "multi_physics" then 1 else 0) * (if (realm w).restarted then 1 else 0)) := by
    rw [count_flatMap_run]
    refine sum_single _ _ _ _ fun r => ?_
    by_cases hr : r = w
    · subst hr
      have := hmp r
      unfold mpOf
      split_ifs <;> simp_all
    · unfold mpOf
      have := hmp r
      split_ifs <;> simp_all
  have steps : ((List.range n).flatMap fun k => pass realm vec iters (c + k + 1)).count t =
      vec.count w * (n * (if x.objective = "external_data" then 1 else 0) +
        iters * (if x.objective = "multi_physics" then 1 else 0) * ((c + n) / (realm w).solveFreq - c / (realm w).solveFreq) +
        (if x.objective = "input_output" then 1 else 0) * ((c + n) / (realm w).outFreq - c / (realm w).outFreq)) := by
    rw [count_flatMap_run, ← steps_multiple, ← steps_multiple]
    induction n with
    | zero => simp
    | succ n ih =>
      rw [List.range_succ]
      simp only [List.map_append, List.sum_append, List.map_cons, List.map_nil, List.sum_cons, List.sum_nil, Nat.add_zero]
      rw [ih]
      unfold pass
      rw [List.count_append, List.count_append, count_replicate_flatten, cExt, cIo, cMp]
      simp only [Bool.false_eq_true, or_false]
      ring
  unfold run startup
  rw [List.count_append, List.count_append, List.count_append, List.count_append, cIni, cIo, cExt, cRe, steps]
  obtain ⟨s, hs⟩ := hB.objective
  simp only [objectiveOwner, List.mem_cons, Prod.mk.injEq, List.not_mem_nil, or_false] at hs
  unfold executions
  rcases hs with ⟨ho, _⟩ | ⟨ho, _⟩ | ⟨ho, _⟩ | ⟨ho, _⟩ <;> rw [ho] <;> simp only [String.reduceEq, if_true, if_false] <;> ring

/-- C316: a transfer whose owner the time integrator does not list is never executed. -/
theorem c316_unlisted_never (rs : List RealmMesh) (xs : List Xfer) (Q : ℕ → Queues) (h : boardAll rs noQueues 0 xs = some Q)
    (realm : ℕ → RealmRun) (hq : ∀ r, (realm r).q = Q r) (t : ℕ) (x : Xfer) (hx : xs[t]? = some x) (w : ℕ) (hw : owner rs x = some w)
    (vec : List ℕ) (hv : w ∉ vec) (iters c n : ℕ) : t ∉ run realm vec iters c n := by
  rw [← List.count_eq_zero, c316_run_count rs xs Q h realm hq t x hx w hw vec iters c n, List.count_eq_zero.2 hv, Nat.zero_mul]

/-- C316: data from the outside arrive before the first solve of each step and output data leave after the last one: within a pass every execution of
an external-data transfer comes first and every execution of an output transfer comes last. -/
theorem c316_pass_order (realm : ℕ → RealmRun) (vec : List ℕ) (iters count : ℕ) :
    ∃ a b c, pass realm vec iters count = a ++ b ++ c ∧ (∀ t ∈ a, ∃ r ∈ vec, t ∈ (realm r).q.ext) ∧
      (∀ t ∈ b, ∃ r ∈ vec, t ∈ (realm r).q.mp ∧ count % (realm r).solveFreq = 0) ∧
      (∀ t ∈ c, ∃ r ∈ vec, t ∈ (realm r).q.io ∧ count % (realm r).outFreq = 0) := by
  refine ⟨_, _, _, rfl, ?_, ?_, ?_⟩
  · intro t ht; simpa using ht
  · intro t ht
    rw [List.mem_flatten] at ht
    obtain ⟨l, hl, ht⟩ := ht
    rw [List.eq_of_mem_replicate hl, List.mem_flatMap] at ht
    obtain ⟨r, hr, ht⟩ := ht
    refine ⟨r, hr, ?_⟩
    by_cases hc : count % (realm r).solveFreq = 0
    · rw [mpOf, if_pos (Or.inl hc)] at ht; exact ⟨ht, hc⟩
    · rw [mpOf, if_neg (by simpa using hc)] at ht; simp at ht
  · intro t ht
    rw [List.mem_flatMap] at ht
    obtain ⟨r, hr, ht⟩ := ht
    refine ⟨r, hr, ?_⟩
    unfold ioOf at ht
    split_ifs at ht with hc
    · exact ⟨ht, hc⟩
    · simp at ht

example : ∃ Q, boardAll twoRealms noQueues 0 twoXfers = some Q ∧ owner twoRealms twoXfers[0] = some 0 ∧
    executions ⟨Q 0, 2, 1, true⟩ "multi_physics" 3 5 10 = 16 := by
  refine ⟨_, by simp [boardAll, board, findRealm, augment, partsExist, twoRealms, twoXfers]; rfl, ?_, ?_⟩
  · simp [owner, objectiveOwner, twoXfers, twoRealms, findRealm, List.findIdx?_cons]
  · simp [executions]

end Nalu.XferSetup
