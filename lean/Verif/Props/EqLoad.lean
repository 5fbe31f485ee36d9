import Verif.Model.EqLoad
import Mathlib.Tactic.NormNum
import Mathlib.Tactic.FinCases
import Mathlib.Data.List.Forall2
import Mathlib.Data.List.Infix

/-!
# Reading equation systems, IO realm and IO groups: theorems C309-C312
-/

namespace Nalu.EqLoad

open Nalu.Parse

variable (num : String → Option ℝ) (intOf : String → Option ℤ) (boolOf : String → Option Bool)

/-! ### C309: one item of the list -/

/-- The kinds a user can ask for. -/
def kinds : List String := ["VolumeOfFluid", "LowMachEOM", "LowMachFemEOM", "LowMachMonoEOM", "ShearStressTransport", "KEpsilon",
  "TurbKineticEnergy", "MassFraction", "MixtureFraction", "MixtureFractionFEM", "Enthalpy", "HeatConduction", "RadiativeTransport",
  "MeshDisplacement", "GasDynamics"]

theorem systems_kinds (e : Bool) (v : VofOpts) : (systems e v).map Prod.fst = kinds := rfl

theorem pick_single (k : String) (body : List (String × Yaml)) (l : List (String × List (String × OVal))) :
    pick (.map [(k, .map body)]) l = (l.find? (fun p => p.1 = k)).map fun p => (p.1, p.2, body) := by
  induction l with
  | nil => rfl
  | cons a t ih =>
    obtain ⟨n, o⟩ := a
    by_cases h : n = k
    · subst h
      simp [pick, expectMap, Yaml.get, lookup]
    · have h' : ¬ k = n := fun e => h e.symm
      simp only [pick, expectMap, Yaml.get, lookup, h', if_false]
      rw [List.find?_cons_of_neg (by simpa using h)]
      simpa using ih

theorem find_kind (e : Bool) (v : VofOpts) (k : String) (hk : k ∈ kinds) :
    ∃ o, (systems e v).find? (fun p => p.1 = k) = some (k, o) ∧ (k, o) ∈ systems e v := by
  rw [← systems_kinds e v] at hk
  obtain ⟨p, hp, rfl⟩ := List.mem_map.1 hk
  cases h : (systems e v).find? (fun q => q.1 = p.1) with
  | none => exact absurd (List.find?_eq_none.1 h p hp) (by simp)
  | some q =>
    have h1 := List.find?_some h
    have h2 := List.mem_of_find?_eq_some h
    simp only [decide_eq_true_eq] at h1
    exact ⟨q.2, by rw [← h1], by rw [← h1]; exact h2⟩

theorem mapM_forall₂ {α β : Type} (f : α → Option β) : ∀ (l : List α) (r : List β), l.mapM f = some r ↔
    List.Forall₂ (fun a b => f a = some b) l r := by
  intro l
  induction l with
  | nil => intro r; simp [List.mapM_nil, eq_comm]
  | cons a t ih =>
    intro r
    rw [List.mapM_cons]
    cases ha : f a with
    | none =>
      simp only [Option.bind_eq_bind, Option.bind_none, reduceCtorEq, false_iff]
      intro h; cases h; simp_all
    | some b =>
      simp only [Option.bind_eq_bind, Option.bind_some, Option.pure_def]
      constructor
      · intro h
        cases ht : t.mapM f with
        | none => simp [ht] at h
        | some r' =>
          simp only [ht, Option.bind_some, Option.some.injEq] at h
          subst h
          exact .cons ha ((ih r').1 ht)
      · intro h
        cases h with
        | cons h1 h2 =>
          rw [(ih _).2 h2]
          rw [ha] at h1
          simp only [Option.some.injEq] at h1
          simp [h1]

/-- The value an option must have: what the user wrote, converted, and the default if nothing is written. -/
def Given (body : List (String × Yaml)) (k : String) (dflt val : OVal) : Prop :=
  match lookup k body with
  | none => val = dflt
  | some y => decode num intOf boolOf dflt y = some val

/-- C309: an item with one known key whose value is a map is loaded as that kind of system exactly if all its options convert
and name, number of iterations and tolerance are there; then the system has these, and each option is the user's value or the default. -/
theorem c309_item (e : Bool) (v : VofOpts) (k : String) (hk : k ∈ kinds) (body : List (String × Yaml)) (s : Sys) :
    loadItem num intOf boolOf e v (.map [(k, .map body)]) = some s ↔
      s.kind = k ∧ (∃ table, (k, table) ∈ systems e v ∧
        List.Forall₂ (fun o r => r.1 = o.1 ∧ Given num intOf boolOf body o.1 o.2 r.2) table s.opts) ∧
      required asStr body "name" = some s.name ∧ required (asInt intOf) body "max_iterations" = some s.maxIterations ∧
      required (asNum num) body "convergence_tolerance" = some s.tolerance := by
  obtain ⟨o, ho, hmem⟩ := find_kind e v k hk
  have huniq : ∀ t, (k, t) ∈ systems e v → t = o := by
    intro t ht
    have hnd : ((systems e v).map Prod.fst).Nodup := by rw [systems_kinds]; decide
    have := List.inj_on_of_nodup_map hnd ht hmem rfl
    exact (Prod.mk.inj this).2
  have hread : ∀ (x r : String × OVal), readOpt num intOf boolOf body x = some r ↔ r.1 = x.1 ∧ Given num intOf boolOf body x.1 x.2 r.2 := by
    intro x r
    unfold readOpt Given
    cases lookup x.1 body with
    | none =>
      simp only [Option.some.injEq]
      constructor
      · rintro rfl; exact ⟨rfl, rfl⟩
      · rintro ⟨h1, h2⟩; exact Prod.ext h1.symm h2.symm
    | some y =>
      simp only [Option.map_eq_some_iff]
      constructor
      · rintro ⟨w, hw, rfl⟩; exact ⟨rfl, hw⟩
      · rintro ⟨h1, h2⟩; exact ⟨r.2, h2, Prod.ext h1.symm rfl⟩
  have hopts : ∀ r, o.mapM (readOpt num intOf boolOf body) = some r ↔
      List.Forall₂ (fun o r => r.1 = o.1 ∧ Given num intOf boolOf body o.1 o.2 r.2) o r := by
    intro r
    rw [mapM_forall₂]
    simp only [hread]
  unfold loadItem
  rw [pick_single, ho]
  simp only [Option.map_some, Option.bind_eq_bind, Option.bind_some]
  constructor
  · intro h
    simp only [Option.bind_eq_some_iff] at h
    obtain ⟨opts, h1, n, h2, mi, h3, t, h4, h5⟩ := h
    simp only [Option.some.injEq] at h5
    subst h5
    exact ⟨rfl, ⟨o, hmem, (hopts _).1 h1⟩, h2, h3, h4⟩
  · rintro ⟨h1, ⟨t, ht, hf⟩, h2, h3, h4⟩
    rw [huniq t ht] at hf
    rw [(hopts _).2 hf, Option.bind_some, h2, Option.bind_some, h3, Option.bind_some, h4, Option.bind_some, ← h1]

/-- C309: an item naming no known system is refused. -/
theorem c309_unknown_refused (e : Bool) (v : VofOpts) (l : List (String × Yaml)) (h : ∀ k ∈ kinds, lookup k l = none) :
    loadItem num intOf boolOf e v (.map l) = none := by
  have : ∀ t : List (String × List (String × OVal)), (∀ p ∈ t, lookup p.1 l = none) → pick (.map l) t = none := by
    intro t
    induction t with
    | nil => intro _; rfl
    | cons a t ih =>
      intro ha
      have h1 := ha a (List.mem_cons_self ..)
      simp only [pick, expectMap, Yaml.get]
      simp only [Option.bind_eq_bind, Option.bind_some, h1]
      exact ih fun p hp => ha p (List.mem_cons_of_mem _ hp)
  unfold loadItem
  rw [this _ fun p hp => h p.1 (by rw [← systems_kinds e v]; exact List.mem_map.2 ⟨p, hp, rfl⟩)]
  rfl

/-- C309: a second system written in the same list item is silently ignored: the program order of the kinds decides, not the order
in the file. -/
theorem c309_second_in_item_ignored (e : Bool) (v : VofOpts) (b1 b2 : List (String × Yaml)) :
    loadItem num intOf boolOf e v (.map [("HeatConduction", .map b2), ("LowMachEOM", .map b1)]) =
      loadItem num intOf boolOf e v (.map [("LowMachEOM", .map b1)]) := by
  unfold loadItem
  congr 1

/-- A complete item is loaded; an Enthalpy item without temperatures has the default range. -/
example : ∃ s, loadItem (fun _ => some 1) (fun _ => some 3) (fun _ => some true) false ⟨0, 0, 0⟩ (.map [("Enthalpy", .map [("name", .scalar "h"),
    ("max_iterations", .scalar "3"), ("convergence_tolerance", .scalar "1")])]) = some s ∧ s.opt "maximum_temperature" = some (.num 3000) := by
  refine ⟨_, rfl, ?_⟩
  simp [Sys.opt]

/-! ### C310: the whole list -/

/-- C310: if the list is accepted there is exactly one system per item, in the order of the file. -/
theorem c310_one_per_item (e : Bool) : ∀ (items : List Yaml) (v v' : VofOpts) (ss : List Sys),
    loadList num intOf boolOf e v items = some (ss, v') →
    List.Forall₂ (fun item s => ∃ w, loadItem num intOf boolOf e w item = some s) items ss := by
  intro items
  induction items with
  | nil => intro v v' ss h; simp only [loadList, Option.some.injEq, Prod.mk.injEq] at h; rw [← h.1]; exact .nil
  | cons a t ih =>
    intro v v' ss h
    simp only [loadList, Option.bind_eq_bind, Option.bind_eq_some_iff] at h
    obtain ⟨s, h1, ⟨ss', v''⟩, h2, h3⟩ := h
    simp only [Option.some.injEq, Prod.mk.injEq] at h3
    obtain ⟨rfl, rfl⟩ := h3
    exact .cons ⟨v, h1⟩ (ih _ _ _ h2)

/-- C310: the compression constant and the phase densities kept for the rest of the run are those of the last volume-of-fluid
system of the file, option by option the user's value, and the values of the solution options if there is no such system. -/
theorem c310_vof_options (e : Bool) (v : VofOpts) (body : List (String × Yaml)) (s : Sys)
    (h : loadItem num intOf boolOf e v (.map [("VolumeOfFluid", .map body)]) = some s) :
    Given num intOf boolOf body "compression_constant" (.num v.cAlpha) (.num (nextVof v s).cAlpha) ∧
    Given num intOf boolOf body "vof_density_phase_one" (.num v.rhoOne) (.num (nextVof v s).rhoOne) ∧
    Given num intOf boolOf body "vof_density_phase_two" (.num v.rhoTwo) (.num (nextVof v s).rhoTwo) := by
  obtain ⟨hk, ⟨t, ht, hf⟩, -, -, -⟩ := (c309_item num intOf boolOf e v "VolumeOfFluid" (by decide) body s).1 h
  have ht' : t = [("output_clipping_diagnostic", .bool false), ("clipping_delta", .num 0), ("fourier_number", .num (1 / 4)),
    ("compression_constant", .num v.cAlpha), ("activate_smoothing", .bool false), ("smoothing_iterations", .int 5),
    ("stand_alone_equation_system", .bool false), ("vof_density_phase_one", .num v.rhoOne),
    ("vof_density_phase_two", .num v.rhoTwo)] := by
    simpa [systems] using ht
  subst ht'
  have isNum : ∀ (y : String) (d : ℝ) (w : OVal), Given num intOf boolOf body y (.num d) w → ∃ r, w = .num r := by
    intro y d w hg
    unfold Given at hg
    cases hl : lookup y body with
    | none => rw [hl] at hg; exact ⟨d, hg⟩
    | some z =>
      rw [hl] at hg
      cases z <;> simp [decode] at hg
      obtain ⟨r, -, hr⟩ := hg
      exact ⟨r, hr.symm⟩
  simp only [List.forall₂_cons_left_iff, List.forall₂_nil_left_iff] at hf
  obtain ⟨⟨n1, w1⟩, l1, ⟨e1, g1⟩, ⟨⟨n2, w2⟩, l2, ⟨e2, g2⟩, ⟨⟨n3, w3⟩, l3, ⟨e3, g3⟩, ⟨⟨n4, w4⟩, l4, ⟨e4, g4⟩, ⟨⟨n5, w5⟩, l5, ⟨e5, g5⟩,
    ⟨⟨n6, w6⟩, l6, ⟨e6, g6⟩, ⟨⟨n7, w7⟩, l7, ⟨e7, g7⟩, ⟨⟨n8, w8⟩, l8, ⟨e8, g8⟩, ⟨⟨n9, w9⟩, l9, ⟨e9, g9⟩, h10, h9⟩, h8⟩, h7⟩, h6⟩, h5⟩, h4⟩, h3⟩, h2⟩, h1⟩ := hf
  dsimp only at e1 e2 e3 e4 e5 e6 e7 e8 e9 g4 g8 g9
  subst e1 e2 e3 e4 e5 e6 e7 e8 e9 h10 h9 h8 h7 h6 h5 h4 h3 h2
  obtain ⟨r4, rfl⟩ := isNum _ _ _ g4
  obtain ⟨r8, rfl⟩ := isNum _ _ _ g8
  obtain ⟨r9, rfl⟩ := isNum _ _ _ g9
  have o1 : s.opt "compression_constant" = some (.num r4) := by simp [Sys.opt, h1]
  have o2 : s.opt "vof_density_phase_one" = some (.num r8) := by simp [Sys.opt, h1]
  have o3 : s.opt "vof_density_phase_two" = some (.num r9) := by simp [Sys.opt, h1]
  have hn : nextVof v s = ⟨r4, r8, r9⟩ := by simp [nextVof, hk, o1, o2, o3]
  rw [hn]
  exact ⟨g4, g8, g9⟩

/-- The volume-of-fluid options in force before each item and after the last one: each item is read with the options left by the
items before it. -/
inductive InForce (load : VofOpts → Yaml → Option Sys) : VofOpts → List Yaml → List Sys → VofOpts → Prop
  | nil (v : VofOpts) : InForce load v [] [] v
  | cons {v w v' : VofOpts} {item : Yaml} {s : Sys} {items : List Yaml} {ss : List Sys} (read : load v item = some s)
      (other : s.kind ≠ "VolumeOfFluid" → w = v) (own : s.kind = "VolumeOfFluid" → w = nextVof v s)
      (rest : InForce load w items ss v') : InForce load v (item :: items) (s :: ss) v'

/-- C310: the options stay in force for the items after a volume-of-fluid system (`c310_vof_options` says what that system makes
of them) and for the run. -/
theorem c310_options_in_force (e : Bool) : ∀ (items : List Yaml) (v v' : VofOpts) (ss : List Sys),
    loadList num intOf boolOf e v items = some (ss, v') → InForce (loadItem num intOf boolOf e) v items ss v' := by
  intro items
  induction items with
  | nil =>
    intro v v' ss h
    simp only [loadList, Option.some.injEq, Prod.mk.injEq] at h
    rw [← h.1, ← h.2]; exact .nil _
  | cons a t ih =>
    intro v v' ss h
    simp only [loadList, Option.bind_eq_bind, Option.bind_eq_some_iff] at h
    obtain ⟨s, h1, ⟨ss', v''⟩, h2, h3⟩ := h
    simp only [Option.some.injEq, Prod.mk.injEq] at h3
    obtain ⟨rfl, rfl⟩ := h3
    exact .cons h1 (fun hk => by simp [nextVof, hk]) (fun _ => rfl) (ih _ _ _ h2)

/-- C310: other systems leave these options alone. -/
theorem c310_vof_options_kept (v : VofOpts) (s : Sys) (h : s.kind ≠ "VolumeOfFluid") : nextVof v s = v := by
  simp [nextVof, h]

/-- C310: each equation gets the solver named for it in `solver_system_specification`; an equation without one is refused. -/
theorem c310_solver_block (specs : List (String × String)) (hn : (specs.map Prod.fst).Nodup) (eq n : String) :
    solverBlock specs eq = some n ↔ (eq, n) ∈ specs := by
  unfold solverBlock
  constructor
  · intro h
    simp only [Option.map_eq_some_iff] at h
    obtain ⟨p, hp, rfl⟩ := h
    have h1 := List.find?_some hp
    simp only [decide_eq_true_eq] at h1
    rw [← h1]; exact List.mem_of_find?_eq_some hp
  · intro h
    cases hf : specs.find? (fun p => p.1 = eq) with
    | none => exact absurd (List.find?_eq_none.1 hf _ h) (by simp)
    | some p =>
      have h1 := List.find?_some hf
      simp only [decide_eq_true_eq] at h1
      have := List.inj_on_of_nodup_map hn (List.mem_of_find?_eq_some hf) h h1
      simp [this]

theorem c310_no_solver_refused (specs : List (String × String)) (eq : String) : solverBlock specs eq = none ↔ eq ∉ specs.map Prod.fst := by
  unfold solverBlock
  rw [Option.map_eq_none_iff, List.find?_eq_none]
  simp only [List.mem_map, not_exists, not_and]
  exact ⟨fun h p hp he => h p hp (by simpa using he), fun h p hp he => h p hp (by simpa using he)⟩

/-! ### C311: IO groups -/

/-- C311: a group size is accepted exactly if it is zero, meaning that nothing changes, or a divisor of the number of processes. -/
theorem c311_group_size (procs : ℕ) (hp : 0 < procs) (stored g : ℤ) :
    (setIoGroup procs stored g = some g ↔ (g = 0 ∧ stored = 0) ∨ ∃ d : ℕ, g = d ∧ 0 < d ∧ d ∣ procs) ∧
    (setIoGroup procs stored 0 = some stored) ∧
    (setIoGroup procs stored g = none ↔ g ≠ 0 ∧ ¬ ∃ d : ℕ, g = d ∧ d ∣ procs) := by
  have key : g ≠ 0 → ((g < 0 ∨ g > (procs : ℤ) ∨ (procs : ℤ).tmod g ≠ 0) ↔ ¬ ∃ d : ℕ, g = d ∧ d ∣ procs) := by
    intro hg
    constructor
    · rintro h ⟨d, rfl, hd⟩
      have hle := Nat.le_of_dvd hp hd
      rcases h with h | h | h
      · omega
      · omega
      · exact h (Int.tmod_eq_zero_of_dvd (Int.natCast_dvd_natCast.2 hd))
    · intro h
      by_contra hc
      push Not at hc
      obtain ⟨h1, h2, h3⟩ := hc
      obtain ⟨d, rfl⟩ := Int.eq_ofNat_of_zero_le h1
      exact h ⟨d, rfl, Int.natCast_dvd_natCast.1 (Int.dvd_of_tmod_eq_zero h3)⟩
  refine ⟨?_, by simp [setIoGroup], ?_⟩
  · unfold setIoGroup
    by_cases hg : g = 0
    · subst hg
      simp only [ne_eq, not_true_eq_false, if_false, Option.some.injEq, true_and]
      constructor
      · intro h; exact Or.inl h
      · rintro (h | ⟨d, h1, h2, -⟩)
        · exact h
        · omega
    · rw [if_pos hg]
      by_cases hb : ∃ d : ℕ, g = d ∧ d ∣ procs
      · rw [if_neg (by rw [key hg]; exact not_not.2 hb)]
        simp only [true_iff]
        obtain ⟨d, h1, h2⟩ := hb
        exact Or.inr ⟨d, h1, by omega, h2⟩
      · rw [if_pos ((key hg).2 hb)]
        simp only [reduceCtorEq, false_iff]
        rintro (h | ⟨d, h1, -, h2⟩)
        · exact hg h.1
        · exact hb ⟨d, h1, h2⟩
  · unfold setIoGroup
    by_cases hg : g = 0
    · simp [hg]
    · rw [if_pos hg]
      by_cases hb : ∃ d : ℕ, g = d ∧ d ∣ procs
      · rw [if_neg (by rw [key hg]; exact not_not.2 hb)]; simp [hb]
      · rw [if_pos ((key hg).2 hb)]; simp [hg, hb]

example : setIoGroup 12 0 4 = some 4 ∧ setIoGroup 12 0 5 = none ∧ setIoGroup 12 0 (-3) = none ∧ setIoGroup 12 0 24 = none := by decide

/-! ### C312: fields of the input/output realm -/

/-- C312: a specification is accepted exactly if field name, integer size, type and targets are all given; and is stored as given. -/
theorem c312_loaded (spec : List (String × Yaml)) (f : IoField) :
    loadIoField intOf spec = some f ↔ required asStr spec "field_name" = some f.name ∧
      required (asInt intOf) spec "field_size" = some f.size ∧ required asStr spec "field_type" = some f.type ∧
      (lookup "target_name" spec).bind readTargets = some f.targets := by
  unfold loadIoField
  simp only [Option.bind_eq_bind, Option.bind_eq_some_iff, Option.some.injEq]
  constructor
  · rintro ⟨n, h1, s, h2, t, h3, ts, h4, rfl⟩
    exact ⟨h1, h2, h3, h4⟩
  · rintro ⟨h1, h2, h3, h4⟩
    exact ⟨_, h1, _, h2, _, h3, _, h4, rfl⟩

theorem hasVelocity_iff (name : String) : hasVelocity name = true ↔ "velocity".toList <:+: name.toList := by
  unfold hasVelocity
  rw [List.any_eq_true]
  constructor
  · rintro ⟨t, ht, hp⟩
    exact List.IsInfix.trans (List.isPrefixOf_iff_prefix.1 hp).isInfix ((List.mem_tails _ _).1 ht).isInfix
  · rintro ⟨a, b, h⟩
    refine ⟨"velocity".toList ++ b, (List.mem_tails _ _).2 ⟨a, by rw [← h]; simp⟩, List.isPrefixOf_iff_prefix.2 ⟨b, rfl⟩⟩

/-- C312: registration succeeds exactly if all fields are nodal and all targets are parts of the mesh; then exactly the requested
fields are on the requested parts with the requested size, as vectors precisely when `velocity` occurs in the name. -/
theorem c312_registered (parts : List String) (fields : List IoField) :
    ((∃ r, registerIo parts fields = some r) ↔ ∀ f ∈ fields, f.type = "node_rank" ∧ ∀ t ∈ f.targets, t ∈ parts) ∧
    ∀ r, registerIo parts fields = some r → ∀ x, x ∈ r ↔ ∃ f ∈ fields, ∃ t ∈ f.targets,
      x.field = f.name ∧ x.part = t ∧ x.size = f.size ∧ (x.vector = true ↔ "velocity".toList <:+: f.name.toList) := by
  have hin : ∀ (f : IoField) (ts : List String) (r : List IoReg), ts.mapM (fun t => if t ∈ parts then
      some (⟨f.name, t, f.size, hasVelocity f.name⟩ : IoReg) else none) = some r ↔
      (∀ t ∈ ts, t ∈ parts) ∧ r = ts.map fun t => ⟨f.name, t, f.size, hasVelocity f.name⟩ := by
    intro f ts
    induction ts with
    | nil => intro r; simp [List.mapM_nil, eq_comm]
    | cons a t ih =>
      intro r
      rw [List.mapM_cons]
      by_cases ha : a ∈ parts
      · simp only [ha, if_true, Option.bind_eq_bind, Option.bind_some, Option.pure_def]
        constructor
        · intro h
          rw [Option.bind_eq_some_iff] at h
          obtain ⟨r', h1, h2⟩ := h
          obtain ⟨h3, h4⟩ := (ih r').1 h1
          simp only [Option.some.injEq] at h2
          exact ⟨by simpa [ha] using h3, by rw [← h2, h4]; rfl⟩
        · rintro ⟨h1, h2⟩
          rw [(ih _).2 ⟨fun t ht => h1 t (List.mem_cons_of_mem _ ht), rfl⟩, h2]
          rfl
      · simp only [ha, if_false, Option.bind_eq_bind, Option.bind_none, reduceCtorEq, false_iff]
        intro h; exact ha (h.1 a (List.mem_cons_self ..))
  have hout : ∀ (fs : List IoField) (r : List IoReg), registerIo parts fs = some r ↔
      (∀ f ∈ fs, f.type = "node_rank" ∧ ∀ t ∈ f.targets, t ∈ parts) ∧
      r = fs.flatMap fun f => f.targets.map fun t => ⟨f.name, t, f.size, hasVelocity f.name⟩ := by
    intro fs
    unfold registerIo
    induction fs with
    | nil => intro r; simp [List.mapM_nil, eq_comm]
    | cons f fs ih =>
      intro r
      rw [List.mapM_cons]
      by_cases hf : f.type = "node_rank"
      · simp only [hf, ne_eq, not_true_eq_false, if_false, Option.bind_eq_bind, Option.pure_def, Option.map_eq_some_iff, Option.bind_eq_some_iff]
        constructor
        · rintro ⟨ll, ⟨r1, h1, r2, h2, h3⟩, h4⟩
          obtain ⟨a, b⟩ := (hin f _ _).1 h1
          obtain ⟨c, d⟩ := (ih r2.flatten).1 (by rw [h2]; rfl)
          simp only [Option.some.injEq] at h3
          subst h3
          refine ⟨?_, ?_⟩
          · intro g hg
            rcases List.mem_cons.1 hg with rfl | hg
            · exact ⟨hf, a⟩
            · exact c g hg
          · rw [← h4, List.flatten_cons, d, b]; rfl
        · rintro ⟨h1, h2⟩
          have h3 := (ih _).2 ⟨fun g hg => h1 g (List.mem_cons_of_mem _ hg), rfl⟩
          rw [Option.map_eq_some_iff] at h3
          obtain ⟨r2, h4, h5⟩ := h3
          refine ⟨_, ⟨_, (hin f _ _).2 ⟨(h1 f (List.mem_cons_self ..)).2, rfl⟩, r2, h4, rfl⟩, ?_⟩
          rw [h2, List.flatten_cons, h5]; rfl
      · simp only [hf, ne_eq, not_false_eq_true, if_true, Option.bind_eq_bind, Option.bind_none, Option.map_none, reduceCtorEq, false_iff]
        intro h; exact hf (h.1 f (List.mem_cons_self ..)).1
  constructor
  · constructor
    · rintro ⟨r, h⟩; exact ((hout fields r).1 h).1
    · intro h; exact ⟨_, (hout fields _).2 ⟨h, rfl⟩⟩
  · intro r h x
    obtain ⟨-, rfl⟩ := (hout fields r).1 h
    simp only [List.mem_flatMap, List.mem_map]
    constructor
    · rintro ⟨f, hf, t, ht, rfl⟩
      exact ⟨f, hf, t, ht, rfl, rfl, rfl, hasVelocity_iff _⟩
    · rintro ⟨f, hf, t, ht, h1, h2, h3, h4⟩
      refine ⟨f, hf, t, ht, ?_⟩
      have : hasVelocity f.name = x.vector := by
        rw [Bool.eq_iff_iff, hasVelocity_iff, h4]
      rw [this, ← h1, ← h2, ← h3]

example : registerIo ["block_1"] [⟨"mean_velocity", 3, "node_rank", ["block_1"]⟩, ⟨"pressure", 1, "node_rank", ["block_1"]⟩] =
    some [⟨"mean_velocity", "block_1", 3, true⟩, ⟨"pressure", "block_1", 1, false⟩] := by decide

end Nalu.EqLoad
