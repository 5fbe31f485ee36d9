import Verif.Model.Parsing
import Mathlib.Tactic.NormNum
import Mathlib.Tactic.IntervalCases

/-!
# C263–C269: reading the input file
-/

namespace Nalu.Parse

variable (num : String → Option ℝ) (boolOf : String → Option Bool)

/-! ## Lookups -/

theorem lookup_none_iff (k : String) (l : List (String × Yaml)) : lookup k l = none ↔ k ∉ l.map Prod.fst := by
  induction l with
  | nil => simp [lookup]
  | cons a l ih =>
    obtain ⟨k', v⟩ := a
    simp only [lookup, List.map_cons, List.mem_cons, not_or]
    split_ifs with h
    · simp [h]
    · rw [ih]; exact ⟨fun h2 => ⟨fun h3 => h h3.symm, h2⟩, fun h2 => h2.2⟩

theorem lookup_some_iff (k : String) (v : Yaml) (l : List (String × Yaml)) (hd : (l.map Prod.fst).Nodup) :
    lookup k l = some v ↔ (k, v) ∈ l := by
  induction l with
  | nil => simp [lookup]
  | cons a l ih =>
    obtain ⟨k', v'⟩ := a
    simp only [List.map_cons, List.nodup_cons] at hd
    simp only [lookup, List.mem_cons, Prod.mk.injEq]
    split_ifs with h
    · subst h
      constructor
      · intro h2; exact Or.inl ⟨rfl, (Option.some.inj h2).symm⟩
      · rintro (⟨_, h2⟩ | h2)
        · rw [h2]
        · exact absurd (List.mem_map_of_mem (f := Prod.fst) h2) hd.1
    · rw [ih hd.2]
      constructor
      · exact Or.inr
      · rintro (⟨h2, _⟩ | h2)
        · exact absurd h2.symm h
        · exact h2

theorem lookup_perm (k : String) {l l' : List (String × Yaml)} (hp : l.Perm l') (hd : (l.map Prod.fst).Nodup) :
    lookup k l = lookup k l' := by
  have hd' : (l'.map Prod.fst).Nodup := (hp.map Prod.fst).nodup_iff.1 hd
  cases h : lookup k l' with
  | none =>
    rw [lookup_none_iff] at h ⊢
    intro h2; exact h ((hp.map Prod.fst).mem_iff.1 h2)
  | some v =>
    rw [lookup_some_iff k v _ hd'] at h
    rw [lookup_some_iff k v _ hd]
    exact hp.mem_iff.2 h

/-! ## C263: the order of lines does not matter -/

theorem run_congr {n n' : Yaml} (h : ∀ k, n.get k = n'.get k) : Entry.run num boolOf n = Entry.run num boolOf n' := by
  funext r e; simp only [Entry.run, h]

theorem functions_congr {n n' : Yaml} (h : ∀ k, n.get k = n'.get k) (r : Rec) :
    runFunctions num n r = runFunctions num n' r := by
  have h1 : ∀ r, runParams num n r = runParams num n' r := fun r => by simp only [runParams, expectMap, h]
  have h2 : ∀ r, runStrParams n r = runStrParams n' r := fun r => by simp only [runStrParams, expectMap, h]
  simp only [runFunctions, expectMap, h, funext h1, funext h2]

theorem loadBc_congr (d : Rec) {n n' : Yaml} (h : ∀ k, n.get k = n'.get k) :
    loadBc num boolOf d n = loadBc num boolOf d n' := by
  simp only [loadBc, ifKey, readWall, readInflow, readOpen, readSymmetry, readPeriodic, readNonConformal, readOverset,
    oversetType, has, getStr, getBlock, noRogue, ncTargets, h]

/-- **C263** The lines of a boundary-condition block may be given in any order (keys distinct, as YAML requires). -/
theorem c263_block_order (d : Rec) {l l' : List (String × Yaml)} (hp : l.Perm l') (hd : (l.map Prod.fst).Nodup) :
    loadBc num boolOf d (.map l) = loadBc num boolOf d (.map l') :=
  loadBc_congr num boolOf d fun k => by simp only [Yaml.get, lookup_perm k hp hd]

/-- **C263** Likewise the lines of the user data of every kind of boundary. -/
theorem c263_user_data_order (d : Rec) {l l' : List (String × Yaml)} (hp : l.Perm l')
    (hd : (l.map Prod.fst).Nodup) :
    decodeWall num boolOf d (.map l) = decodeWall num boolOf d (.map l') ∧
    decodeInflow num boolOf d (.map l) = decodeInflow num boolOf d (.map l') ∧
    decodeOpen num boolOf d (.map l) = decodeOpen num boolOf d (.map l') ∧
    decodeOverset num boolOf d (.map l) = decodeOverset num boolOf d (.map l') ∧
    decodePeriodic num boolOf d (.map l) = decodePeriodic num boolOf d (.map l') ∧
    decodeNonConformal num boolOf d (.map l) = decodeNonConformal num boolOf d (.map l') ∧
    decodeSymmetry num boolOf d (.map l) = decodeSymmetry num boolOf d (.map l') := by
  have h : ∀ k, (Yaml.map l).get k = (Yaml.map l').get k := fun k => by
    simp only [Yaml.get, lookup_perm k hp hd]
  simp only [decodeWall, decodeInflow, decodeOpen, decodeOverset, decodePeriodic, decodeNonConformal, decodeSymmetry,
    runTable, run_congr num boolOf h]
  refine ⟨?_, ?_, trivial, trivial, trivial, trivial, trivial⟩ <;>
  · congr 1; funext r; exact functions_congr num h r

/-- What the function map does, key by key. -/
theorem runFns_effect (l : List (String × Yaml)) (hd : (l.map Prod.fst).Nodup) : ∀ (r r' : Rec),
    runFns l r = some r' →
    r'.val = r.val ∧ r'.flag = r.flag ∧ r'.fpar = r.fpar ∧ r'.fstr = r.fstr ∧
    ∀ k, match lookup k l with
      | none => r'.spec k = r.spec k ∧ r'.ty k = r.ty k ∧ r'.fn k = r.fn k
      | some y => r'.spec k = true ∧ r'.ty k = some .function ∧ r'.fn k = asStr y := by
  induction l with
  | nil => intro r r' h; simp only [runFns, List.foldlM_nil, pure, Option.some.injEq] at h; subst h; simp [lookup]
  | cons a l ih =>
    obtain ⟨k0, v0⟩ := a
    intro r r' h
    simp only [List.map_cons, List.nodup_cons] at hd
    simp only [runFns, List.foldlM_cons, bind, Option.bind_eq_some_iff] at h
    obtain ⟨r1, ⟨s, hs, hr1⟩, hr'⟩ := h
    simp only [Option.some.injEq] at hr1
    obtain ⟨e1, e2, e3, e4, e5⟩ := ih hd.2 r1 r' hr'
    subst hr1
    refine ⟨e1, e2, e3, e4, fun k => ?_⟩
    have h5 := e5 k
    simp only [lookup]
    split_ifs with hk
    · subst hk
      have hn : lookup k0 l = none := (lookup_none_iff k0 l).2 hd.1
      rw [hn] at h5
      simp only [Function.update_self] at h5
      simpa [hs] using h5
    · cases hl : lookup k l with
      | none =>
        rw [hl] at h5
        simpa [Function.update_of_ne (Ne.symm hk)] using h5
      | some y => rw [hl] at h5; exact h5

theorem runFns_isSome (l : List (String × Yaml)) : ∀ r, (runFns l r).isSome = true ↔
    ∀ kv ∈ l, (asStr kv.2).isSome = true := by
  induction l with
  | nil => intro r; simp [runFns]
  | cons a l ih =>
    intro r
    simp only [runFns, List.foldlM_cons] at ih ⊢
    cases h : asStr a.2 with
    | none => simp [h]
    | some s =>
      have := ih { r with
        spec := Function.update r.spec a.1 true
        ty := Function.update r.ty a.1 (some .function)
        fn := Function.update r.fn a.1 (some s) }
      simp only [List.forall_mem_cons, h, Option.isSome_some, true_and]
      exact this

/-- **C263** The entries of `user_function_name` may be given in any order. -/
theorem c263_function_order {l l' : List (String × Yaml)} (hp : l.Perm l') (hd : (l.map Prod.fst).Nodup) (r : Rec) :
    runFns l r = runFns l' r := by
  have hd' : (l'.map Prod.fst).Nodup := (hp.map Prod.fst).nodup_iff.1 hd
  have hs : (runFns l r).isSome = (runFns l' r).isSome := by
    rw [Bool.eq_iff_iff, runFns_isSome, runFns_isSome]
    exact ⟨fun h kv hk => h kv (hp.mem_iff.2 hk), fun h kv hk => h kv (hp.mem_iff.1 hk)⟩
  cases h1 : runFns l r with
  | none =>
    rw [h1] at hs
    cases h2 : runFns l' r with
    | none => rfl
    | some _ => rw [h2] at hs; cases hs
  | some a =>
    rw [h1] at hs
    cases h2 : runFns l' r with
    | none => rw [h2] at hs; cases hs
    | some b =>
      obtain ⟨a1, a2, a3, a4, a5⟩ := runFns_effect l hd r a h1
      obtain ⟨b1, b2, b3, b4, b5⟩ := runFns_effect l' hd' r b h2
      have key : ∀ k, a.spec k = b.spec k ∧ a.ty k = b.ty k ∧ a.fn k = b.fn k := by
        intro k
        have ha := a5 k
        have hb := b5 k
        rw [lookup_perm k hp hd] at ha
        cases hl : lookup k l' with
        | none =>
          rw [hl] at ha hb
          exact ⟨ha.1.trans hb.1.symm, ha.2.1.trans hb.2.1.symm, ha.2.2.trans hb.2.2.symm⟩
        | some y =>
          rw [hl] at ha hb
          exact ⟨ha.1.trans hb.1.symm, ha.2.1.trans hb.2.1.symm, ha.2.2.trans hb.2.2.symm⟩
      cases a; cases b
      simp only at a1 a2 a3 a4 b1 b2 b3 b4 key
      have k1 := funext fun k => (key k).1
      have k2 := funext fun k => (key k).2.1
      have k3 := funext fun k => (key k).2.2
      subst a1 a2 a3 a4 k1 k2 k3
      simp [b1, b2, b3, b4]

/-- **C263** The blocks of `boundary_conditions` keep the order of the file, one condition per block, and each depends
on its own block only. -/
theorem c263_blocks_in_order (d : Rec) (l : List Yaml) (top : List (String × Yaml))
    (ht : lookup "boundary_conditions" top = some (.seq l)) (bs : List Bc) :
    loadBcs num boolOf d (.map top) = some bs ↔ List.Forall₂ (fun n b => loadBc num boolOf d n = some b) l bs := by
  have h : loadBcs num boolOf d (.map top) = l.mapM (loadBc num boolOf d) := by
    simp [loadBcs, Yaml.get, ht]
  rw [h]
  clear h ht
  induction l generalizing bs with
  | nil => simp [eq_comm]
  | cons n l ih =>
    simp only [List.mapM_cons, bind, Option.bind_eq_some_iff, pure, Option.some.injEq]
    constructor
    · rintro ⟨b, hb, bs', hbs', rfl⟩
      exact List.Forall₂.cons hb ((ih bs').1 hbs')
    · intro h
      cases h with
      | cons hb hl => exact ⟨_, hb, _, (ih _).2 hl, rfl⟩

/-! ## C264: every value arrives where it belongs -/

theorem run_some_iff (n : Yaml) (r r' : Rec) (e : Entry) : Entry.run num boolOf n r e = some r' ↔
    (n.get e.key = some none ∧ e.required = false ∧ r' = r) ∨
    ∃ y0 y v, n.get e.key = some (some y0) ∧ n.get e.vkey = some (some y) ∧ dec num boolOf e.kind y = some v ∧
      r' = r.store e v := by
  unfold Entry.run
  cases h : n.get e.key with
  | none => simp
  | some o =>
    cases o with
    | none =>
      cases hr : e.required with
      | true => simp
      | false => simp [eq_comm]
    | some y0 =>
      cases h2 : n.get e.vkey with
      | none => simp
      | some o2 =>
        cases o2 with
        | none => simp
        | some y =>
          simp only [Option.map_eq_some_iff]
          constructor
          · rintro ⟨v, hv, rfl⟩; exact Or.inr ⟨y0, y, v, rfl, rfl, hv, rfl⟩
          · rintro (⟨hh, _⟩ | ⟨_, y', v, _, hy, hv, rfl⟩)
            · cases hh
            · simp only [Option.some.injEq] at hy
              subst hy
              exact ⟨v, hv, rfl⟩

/-- Members outside the table are untouched. -/
theorem runTable_frame (n : Yaml) (t : List Entry) (m : String) (hm : m ∉ t.map Entry.member) : ∀ (r r' : Rec),
    runTable num boolOf n t r = some r' → r'.val m = r.val m := by
  induction t with
  | nil => intro r r' h; simp only [runTable, List.foldlM_nil, pure, Option.some.injEq] at h; rw [h]
  | cons e t ih =>
    intro r r' h
    simp only [List.map_cons, List.mem_cons, not_or] at hm
    simp only [runTable, List.foldlM_cons, bind, Option.bind_eq_some_iff] at h
    obtain ⟨r1, h1, h2⟩ := h
    rw [ih hm.2 r1 r' h2]
    rcases (run_some_iff num boolOf n r r1 e).1 h1 with ⟨_, _, rfl⟩ | ⟨_, _, v, _, _, _, rfl⟩
    · rfl
    · simp [Rec.store, Function.update_of_ne hm.1]

/-- Fields the table never writes. -/
theorem runTable_fn (n : Yaml) (t : List Entry) : ∀ (r r' : Rec),
    runTable num boolOf n t r = some r' → r'.fn = r.fn ∧ r'.fpar = r.fpar ∧ r'.fstr = r.fstr := by
  induction t with
  | nil => intro r r' h; simp only [runTable, List.foldlM_nil, pure, Option.some.injEq] at h; rw [h]; simp
  | cons e t ih =>
    intro r r' h
    simp only [runTable, List.foldlM_cons, bind, Option.bind_eq_some_iff] at h
    obtain ⟨r1, h1, h2⟩ := h
    obtain ⟨a, b, c⟩ := ih r1 r' h2
    rw [a, b, c]
    rcases (run_some_iff num boolOf n r r1 e).1 h1 with ⟨_, _, rfl⟩ | ⟨_, _, v, _, _, _, rfl⟩
    · simp
    · simp [Rec.store]

/-- **C264 (any table)** After a successful decode, a statement's member holds the converted value of its key if the
key is present, and the default otherwise. -/
theorem table_value (n : Yaml) (t : List Entry) (hnd : (t.map Entry.member).Nodup)
    (hk : ∀ e ∈ t, e.vkey = e.key) : ∀ (r r' : Rec), runTable num boolOf n t r = some r' → ∀ e ∈ t,
    match n.get e.key with
    | none => False
    | some none => r'.val e.member = r.val e.member ∧ e.required = false
    | some (some y) => dec num boolOf e.kind y = some (r'.val e.member) := by
  induction t with
  | nil => intro _ _ _ e he; cases he
  | cons e t ih =>
    intro r r' h e' he'
    simp only [List.map_cons, List.nodup_cons] at hnd
    simp only [runTable, List.foldlM_cons, bind, Option.bind_eq_some_iff] at h
    obtain ⟨r1, h1, h2⟩ := h
    rcases List.mem_cons.1 he' with rfl | he
    · have hf := runTable_frame num boolOf n t e'.member hnd.1 r1 r' h2
      rcases (run_some_iff num boolOf n r r1 e').1 h1 with ⟨hg, hr, rfl⟩ | ⟨y0, y, v, hg, hg2, hv, rfl⟩
      · rw [hg]; exact ⟨hf, hr⟩
      · rw [hk e' (List.mem_cons_self ..)] at hg2
        rw [hg2]
        simp only
        rw [hf, hv]
        simp [Rec.store]
    · have := ih hnd.2 (fun e he => hk e (List.mem_cons_of_mem _ he)) r1 r' h2 e' he
      have hne : e'.member ≠ e.member := fun hh => hnd.1 (hh ▸ List.mem_map_of_mem (f := Entry.member) he)
      have hr1 : r1.val e'.member = r.val e'.member := by
        rcases (run_some_iff num boolOf n r r1 e).1 h1 with ⟨_, _, rfl⟩ | ⟨_, _, v, _, _, _, rfl⟩
        · rfl
        · simp [Rec.store, Function.update_of_ne hne]
      cases hg : n.get e'.key with
      | none => rw [hg] at this; exact this
      | some o =>
        cases o with
        | none => rw [hg] at this; exact ⟨this.1.trans hr1, this.2⟩
        | some y => rw [hg] at this; exact this

theorem params_frame (n : Yaml) (r r' : Rec) (h : runParams num n r = some r') :
    r'.val = r.val ∧ r'.flag = r.flag ∧ r'.spec = r.spec ∧ r'.ty = r.ty ∧ r'.fn = r.fn := by
  simp only [runParams, Option.bind_eq_some_iff] at h
  obtain ⟨o, _, h⟩ := h
  cases o with
  | none => simp only [Option.some.injEq] at h; subst h; simp
  | some l => simp only [Option.map_eq_some_iff] at h; obtain ⟨p, _, rfl⟩ := h; simp

theorem strParams_frame (n : Yaml) (r r' : Rec) (h : runStrParams n r = some r') :
    r'.val = r.val ∧ r'.flag = r.flag ∧ r'.spec = r.spec ∧ r'.ty = r.ty ∧ r'.fn = r.fn := by
  simp only [runStrParams, Option.bind_eq_some_iff] at h
  obtain ⟨o, _, h⟩ := h
  cases o with
  | none => simp only [Option.some.injEq] at h; subst h; simp
  | some l => simp only [Option.map_eq_some_iff] at h; obtain ⟨p, _, rfl⟩ := h; simp

/-- Either no function data, or the loop ran. -/
theorem functions_cases (n : Yaml) (r r' : Rec) (h : runFunctions num n r = some r') :
    (n.get "user_function_name" = some none ∧ r' = r) ∨
    ∃ l r1, n.get "user_function_name" = some (some (.map l)) ∧ runFns l r = some r1 ∧
      r'.val = r1.val ∧ r'.flag = r1.flag ∧ r'.spec = r1.spec ∧ r'.ty = r1.ty ∧ r'.fn = r1.fn := by
  simp only [runFunctions, Option.bind_eq_some_iff] at h
  obtain ⟨o, ho, h⟩ := h
  cases o with
  | none =>
    simp only [Option.some.injEq] at h
    refine Or.inl ⟨?_, h.symm⟩
    simp only [expectMap] at ho
    cases hg : n.get "user_function_name" with
    | none => simp [hg] at ho
    | some o =>
      cases o with
      | none => rfl
      | some y => cases y <;> simp [hg] at ho
  | some l =>
    simp only [Option.bind_eq_some_iff] at h
    obtain ⟨r2, ⟨r1, h1, h2⟩, h3⟩ := h
    obtain ⟨a1, a2, a3, a4, a5⟩ := params_frame num n r1 r2 h2
    obtain ⟨b1, b2, b3, b4, b5⟩ := strParams_frame n r2 r' h3
    refine Or.inr ⟨l, r1, ?_, h1, b1.trans a1, b2.trans a2, b3.trans a3, b4.trans a4, b5.trans a5⟩
    simp only [expectMap] at ho
    cases hg : n.get "user_function_name" with
    | none => simp [hg] at ho
    | some o =>
      cases o with
      | none => simp [hg] at ho
      | some y =>
        cases y with
        | map l' => simp [hg] at ho; rw [ho]
        | null => simp [hg] at ho
        | scalar s => simp [hg] at ho
        | seq s => simp [hg] at ho

theorem functions_frame (n : Yaml) (r r' : Rec) (h : runFunctions num n r = some r')
    (hf : ∀ l, n.get "user_function_name" = some (some (.map l)) → (l.map Prod.fst).Nodup) :
    r'.val = r.val ∧ r'.flag = r.flag := by
  rcases functions_cases num n r r' h with ⟨_, rfl⟩ | ⟨l, r1, hl, h1, e1, e2, _⟩
  · exact ⟨rfl, rfl⟩
  · obtain ⟨v1, f1, _⟩ := runFns_effect l (hf l hl) r r1 h1
    exact ⟨e1.trans v1, e2.trans f1⟩

/-- Function names of a block are distinct keys (as YAML requires of a map). -/
def DistinctFns (n : Yaml) : Prop :=
  ∀ l, n.get "user_function_name" = some (some (.map l)) → (l.map Prod.fst).Nodup

/-- What a table statement must have done. -/
def Delivered (n : Yaml) (r0 r : Rec) (e : Entry) : Prop :=
  match n.get e.key with
  | none => False
  | some none => r.val e.member = r0.val e.member ∧ e.required = false
  | some (some y) => dec num boolOf e.kind y = some (r.val e.member)

/-- **C264** Walls: each of the 28 lines of the user data ends up in its member; lines not given leave the default. -/
theorem c264_wall (r0 r : Rec) (n : Yaml) (hf : DistinctFns n) (h : decodeWall num boolOf r0 n = some r) :
    ∀ e ∈ wallTable, Delivered num boolOf n r0 r e := by
  simp only [decodeWall, bind, Option.bind_eq_some_iff] at h
  obtain ⟨r1, h1, h2⟩ := h
  have hv := (functions_frame num n r1 r h2 hf).1
  intro e he
  have := table_value num boolOf n wallTable (by decide) (by decide) r0 r1 h1 e he
  unfold Delivered
  rw [hv]; exact this

/-- **C264** Inflows. -/
theorem c264_inflow (r0 r : Rec) (n : Yaml) (hf : DistinctFns n) (h : decodeInflow num boolOf r0 n = some r) :
    ∀ e ∈ inflowTable, Delivered num boolOf n r0 r e := by
  simp only [decodeInflow, bind, Option.bind_eq_some_iff] at h
  obtain ⟨r1, h1, h2⟩ := h
  have hv := (functions_frame num n r1 r h2 hf).1
  intro e he
  have := table_value num boolOf n inflowTable (by decide) (by decide) r0 r1 h1 e he
  unfold Delivered
  rw [hv]; exact this

/-- **C264** Overset, periodic, non-conformal and symmetry boundaries. -/
theorem c264_others (r0 r : Rec) (n : Yaml) :
    (decodeOverset num boolOf r0 n = some r → ∀ e ∈ oversetTable, Delivered num boolOf n r0 r e) ∧
    (decodePeriodic num boolOf r0 n = some r → ∀ e ∈ periodicTable, Delivered num boolOf n r0 r e) ∧
    (decodeNonConformal num boolOf r0 n = some r → ∀ e ∈ nonConformalTable, Delivered num boolOf n r0 r e) ∧
    (decodeSymmetry num boolOf r0 n = some r → ∀ e ∈ symmetryTable, Delivered num boolOf n r0 r e) :=
  ⟨fun h => table_value num boolOf n _ (by decide) (by decide) r0 r h,
   fun h => table_value num boolOf n _ (by decide) (by decide) r0 r h,
   fun h => table_value num boolOf n _ (by decide) (by decide) r0 r h,
   fun h => table_value num boolOf n _ (by decide) (by decide) r0 r h⟩

/-- **C264** So, for instance, a wall velocity line `[x, y]` or `[x, y, z]` is stored as given, with zero third
component when absent. -/
theorem c264_wall_velocity (r0 r : Rec) (n : Yaml) (hf : DistinctFns n) (h : decodeWall num boolOf r0 n = some r)
    (x y z : String) (l : List Yaml)
    (hn : n.get "velocity" = some (some (.seq (.scalar x :: .scalar y :: l)))) :
    (l = [] → ∃ a b, num x = some a ∧ num y = some b ∧ r.val "u_" = .vec a b 0) ∧
    (∀ l', l = .scalar z :: l' → ∃ a b c, num x = some a ∧ num y = some b ∧ num z = some c ∧
      r.val "u_" = .vec a b c) := by
  have h1 := c264_wall num boolOf r0 r n hf h (opt "velocity" "u_" .vel true none) (by simp [wallTable])
  simp only [Delivered, opt, hn, dec, Option.map_eq_some_iff] at h1
  obtain ⟨v, hv, he⟩ := h1
  constructor
  · rintro rfl
    simp only [asVel, asNum, bind, Option.bind_eq_some_iff, Option.some.injEq] at hv
    obtain ⟨a, ha, b, hb, rfl⟩ := hv
    exact ⟨a, b, ha, hb, he.symm⟩
  · rintro l' rfl
    simp only [asVel, asNum, bind, Option.bind_eq_some_iff, Option.some.injEq] at hv
    obtain ⟨a, ha, b, hb, c, hc, rfl⟩ := hv
    exact ⟨a, b, c, ha, hb, hc, he.symm⟩

/-! ## C265: constant or function -/

theorem runTable_spec (n : Yaml) (t : List Entry) (k : String) : ∀ (r r' : Rec),
    runTable num boolOf n t r = some r' →
    ((∃ e ∈ t, e.constant = true ∧ e.key = k ∧ ∃ y, n.get k = some (some y)) →
      r'.spec k = true ∧ r'.ty k = some .constant) ∧
    ((¬∃ e ∈ t, e.constant = true ∧ e.key = k ∧ ∃ y, n.get k = some (some y)) →
      r'.spec k = r.spec k ∧ r'.ty k = r.ty k) := by
  induction t with
  | nil => intro r r' h; simp only [runTable, List.foldlM_nil, pure, Option.some.injEq] at h; subst h; simp
  | cons e t ih =>
    intro r r' h
    simp only [runTable, List.foldlM_cons, bind, Option.bind_eq_some_iff] at h
    obtain ⟨r1, h1, h2⟩ := h
    obtain ⟨ip, im⟩ := ih r1 r' h2
    by_cases ht : ∃ e ∈ t, e.constant = true ∧ e.key = k ∧ ∃ y, n.get k = some (some y)
    · refine ⟨fun _ => ip ht, fun hn => absurd ?_ hn⟩
      obtain ⟨e', he', h'⟩ := ht
      exact ⟨e', List.mem_cons_of_mem _ he', h'⟩
    · obtain ⟨i1, i2⟩ := im ht
      rw [i1, i2]
      constructor
      · rintro ⟨e', he', hc, hk, y, hy⟩
        rcases List.mem_cons.1 he' with rfl | he'
        · rcases (run_some_iff num boolOf n r r1 e').1 h1 with ⟨hg, _, _⟩ | ⟨_, _, v, _, _, _, rfl⟩
          · rw [hk, hy] at hg; cases hg
          · subst hk; simp [Rec.store, hc]
        · exact absurd ⟨e', he', hc, hk, y, hy⟩ ht
      · intro hn
        rcases (run_some_iff num boolOf n r r1 e).1 h1 with ⟨_, _, rfl⟩ | ⟨y0, _, v, hg, _, _, rfl⟩
        · exact ⟨rfl, rfl⟩
        · by_cases hc : e.constant = true
          · have hk : e.key ≠ k := by
              rintro rfl
              exact hn ⟨e, List.mem_cons_self .., hc, rfl, y0, hg⟩
            simp [Rec.store, hc, Function.update_of_ne (Ne.symm hk)]
          · simp [Rec.store, hc]

/-- Function data, key by key. -/
theorem functions_effect (n : Yaml) (r r' : Rec) (h : runFunctions num n r = some r') (hf : DistinctFns n)
    (k : String) :
    (∃ l y, n.get "user_function_name" = some (some (.map l)) ∧ lookup k l = some y ∧
      r'.spec k = true ∧ r'.ty k = some .function ∧ r'.fn k = asStr y) ∨
    ((∀ l, n.get "user_function_name" = some (some (.map l)) → lookup k l = none) ∧
      r'.spec k = r.spec k ∧ r'.ty k = r.ty k ∧ r'.fn k = r.fn k) := by
  rcases functions_cases num n r r' h with ⟨hg, rfl⟩ | ⟨l, r1, hl, h1, _, _, e1, e2, e3⟩
  · refine Or.inr ⟨fun l hl => ?_, rfl, rfl, rfl⟩
    rw [hg] at hl; cases hl
  · obtain ⟨_, _, _, _, he⟩ := runFns_effect l (hf l hl) r r1 h1
    rw [e1, e2, e3]
    have hk := he k
    cases hlk : lookup k l with
    | none =>
      rw [hlk] at hk
      refine Or.inr ⟨?_, hk⟩
      intro l' hl'
      rw [hl] at hl'
      simp only [Option.some.injEq, Yaml.map.injEq] at hl'
      subst hl'; exact hlk
    | some y => rw [hlk] at hk; exact Or.inl ⟨l, y, hl, hlk, hk⟩

/-- The value named for a function is a text. -/
theorem function_scalar (n : Yaml) (r r' : Rec) (h : runFunctions num n r = some r') (hf : DistinctFns n)
    (l : List (String × Yaml)) (hl : n.get "user_function_name" = some (some (.map l))) (k : String) (y : Yaml)
    (hk : lookup k l = some y) : ∃ f, y = .scalar f := by
  rcases functions_cases num n r r' h with ⟨hg, _⟩ | ⟨l', r1, hl', h1, _⟩
  · rw [hg] at hl; cases hl
  · rw [hl] at hl'
    simp only [Option.some.injEq, Yaml.map.injEq] at hl'
    subst hl'
    have := (runFns_isSome l r).1 (by rw [h1]; rfl) (k, y) ((lookup_some_iff k y l (hf l hl)).1 hk)
    cases y <;> simp_all [asStr]

/-- The wall quantities that can be given as constants. -/
def wallConstants : List String := ["velocity", "mesh_displacement", "turbulent_ke", "temperature", "mixture_fraction",
  "mass_fraction", "volume_of_fluid", "pressure"]

/-- Default-constructed data: nothing specified. -/
def Fresh (r : Rec) : Prop := (∀ k, r.spec k = false) ∧ (∀ k, r.ty k = none) ∧ (∀ k, r.fn k = none)

/-- Is `k` named under `user_function_name`, with which function. -/
def FnGiven (n : Yaml) (k : String) (f : String) : Prop :=
  ∃ l, n.get "user_function_name" = some (some (.map l)) ∧ lookup k l = some (.scalar f)

theorem wall_const_iff (k : String) (n : Yaml) :
    (∃ e ∈ wallTable, e.constant = true ∧ e.key = k ∧ ∃ y, n.get k = some (some y)) ↔
      (k ∈ wallConstants ∧ ∃ y, n.get k = some (some y)) := by
  simp only [wallTable, opt, wallConstants, List.mem_cons, List.not_mem_nil, or_false, exists_eq_or_imp,
    exists_eq_left, Bool.true_eq_false, true_and, false_and, or_false, false_or, Bool.false_eq_true]
  constructor
  · rintro (⟨rfl, h⟩ | ⟨rfl, h⟩ | ⟨rfl, h⟩ | ⟨rfl, h⟩ | ⟨rfl, h⟩ | ⟨rfl, h⟩ | ⟨rfl, h⟩ | ⟨rfl, h⟩) <;> exact ⟨by simp, h⟩
  · rintro ⟨rfl | rfl | rfl | rfl | rfl | rfl | rfl | rfl, h⟩ <;> simp [h]

/-- **C265** A wall quantity is *specified* exactly when its constant line is present or a function is named for it; it
is a *function* exactly when one is named (a function overrides a constant given in the same block), and then the name
is the one given. -/
theorem c265_wall_type (r0 r : Rec) (n : Yaml) (h0 : Fresh r0) (hf : DistinctFns n)
    (h : decodeWall num boolOf r0 n = some r) (k : String) :
    (r.spec k = true ↔ (k ∈ wallConstants ∧ ∃ y, n.get k = some (some y)) ∨ ∃ f, FnGiven n k f) ∧
    (bcType r k = .function ↔ ∃ f, FnGiven n k f) ∧
    (∀ f, FnGiven n k f ↔ bcFunction r k = some f) := by
  simp only [decodeWall, bind, Option.bind_eq_some_iff] at h
  obtain ⟨r1, h1, h2⟩ := h
  obtain ⟨sp, sn⟩ := runTable_spec num boolOf n wallTable k r0 r1 h1
  rw [wall_const_iff] at sp sn
  have hfn : r1.fn = r0.fn := (runTable_fn num boolOf n wallTable r0 r1 h1).1
  rcases functions_effect num n r1 r h2 hf k with ⟨l, y, hl, hk, e1, e2, e3⟩ | ⟨hno, e1, e2, e3⟩
  · -- a function is named; its value is a scalar
    have hy := function_scalar num n r1 r h2 hf l hl k y hk
    obtain ⟨f, rfl⟩ := hy
    have hg : FnGiven n k f := ⟨l, hl, hk⟩
    refine ⟨⟨fun _ => Or.inr ⟨f, hg⟩, fun _ => e1⟩, ⟨fun _ => ⟨f, hg⟩, fun _ => by simp [bcType, e2]⟩, ?_⟩
    intro f'
    simp only [bcFunction, e3, asStr, Option.some.injEq]
    constructor
    · rintro ⟨l', hl', hk'⟩
      rw [hl] at hl'
      simp only [Option.some.injEq, Yaml.map.injEq] at hl'
      subst hl'
      rw [hk] at hk'
      simpa using hk'
    · rintro rfl; exact hg
  · have hng : ∀ f, ¬FnGiven n k f := by
      rintro f ⟨l, hl, hk⟩
      rw [hno l hl] at hk; cases hk
    refine ⟨?_, ?_, ?_⟩
    · rw [e1]
      by_cases hc : k ∈ wallConstants ∧ ∃ y, n.get k = some (some y)
      · exact ⟨fun _ => Or.inl hc, fun _ => (sp hc).1⟩
      · rw [(sn hc).1, h0.1 k]
        constructor
        · intro hh; cases hh
        · rintro (hh | ⟨f, hh⟩)
          · exact absurd hh hc
          · exact absurd hh (hng f)
    · rw [bcType, e2]
      constructor
      · intro hh
        by_cases hc : k ∈ wallConstants ∧ ∃ y, n.get k = some (some y)
        · rw [(sp hc).2] at hh; cases hh
        · rw [(sn hc).2, h0.2.1 k] at hh; cases hh
      · rintro ⟨f, hh⟩; exact absurd hh (hng f)
    · intro f
      rw [bcFunction, e3, hfn, h0.2.2 k]
      exact ⟨fun hh => absurd hh (hng f), fun hh => by cases hh⟩

/-- **C265** The same at inflows (constants are tracked by their own flags there). -/
theorem c265_inflow_type (r0 r : Rec) (n : Yaml) (h0 : Fresh r0) (hf : DistinctFns n)
    (h : decodeInflow num boolOf r0 n = some r) (k : String) :
    bcType r k = .function ↔ ∃ f, FnGiven n k f := by
  simp only [decodeInflow, bind, Option.bind_eq_some_iff] at h
  obtain ⟨r1, h1, h2⟩ := h
  obtain ⟨_, sn⟩ := runTable_spec num boolOf n inflowTable k r0 r1 h1
  have hc : ¬∃ e ∈ inflowTable, e.constant = true ∧ e.key = k ∧ ∃ y, n.get k = some (some y) := by
    rintro ⟨e, he, hc, _⟩
    have : ∀ e ∈ inflowTable, e.constant = false := by decide
    rw [this e he] at hc; cases hc
  obtain ⟨_, s2⟩ := sn hc
  rcases functions_effect num n r1 r h2 hf k with ⟨l, y, hl, hk, e1, e2, e3⟩ | ⟨hno, e1, e2, e3⟩
  · have hy := function_scalar num n r1 r h2 hf l hl k y hk
    obtain ⟨f, rfl⟩ := hy
    exact ⟨fun _ => ⟨f, l, hl, hk⟩, fun _ => by simp [bcType, e2]⟩
  · rw [bcType, e2, s2, h0.2.1 k]
    constructor
    · intro hh; cases hh
    · rintro ⟨f, l, hl, hk⟩; rw [hno l hl] at hk; cases hk

/-! ## C266: what is accepted -/

/-- One statement accepts the block. -/
def Accepts (n : Yaml) (e : Entry) : Prop :=
  match n.get e.key with
  | none => False
  | some none => e.required = false
  | some (some _) => ∃ y, n.get e.vkey = some (some y) ∧ ∃ v, dec num boolOf e.kind y = some v

theorem run_accepts (n : Yaml) (r : Rec) (e : Entry) :
    (Entry.run num boolOf n r e).isSome = true ↔ Accepts num boolOf n e := by
  unfold Entry.run Accepts
  cases h : n.get e.key with
  | none => simp
  | some o =>
    cases o with
    | none => cases hr : e.required <;> simp
    | some y0 =>
      cases h2 : n.get e.vkey with
      | none => simp
      | some o2 =>
        cases o2 with
        | none => simp
        | some y => simp [Option.isSome_iff_exists]

/-- **C266 (any table)** A block is accepted exactly when every statement accepts it: required lines present, every
present line convertible, no forbidden line. -/
theorem c266_accepted_iff (n : Yaml) (t : List Entry) : ∀ r,
    (runTable num boolOf n t r).isSome = true ↔ ∀ e ∈ t, Accepts num boolOf n e := by
  induction t with
  | nil => intro r; simp [runTable]
  | cons e t ih =>
    intro r
    simp only [List.forall_mem_cons]
    rw [← run_accepts num boolOf n r e]
    simp only [runTable, List.foldlM_cons] at ih ⊢
    cases h : Entry.run num boolOf n r e with
    | none => simp
    | some r1 => simp [ih]

/-- **C266** Wall dissipation rates are refused: they are provided by models. -/
theorem c266_wall_forbidden (r0 : Rec) (n : Yaml) (y : Yaml)
    (h : n.get "specific_dissipation_rate" = some (some y) ∨ n.get "turbulent_dissipation" = some (some y)) :
    decodeWall num boolOf r0 n = none := by
  have hno : (runTable num boolOf n wallTable r0).isSome ≠ true := by
    intro hs
    rw [c266_accepted_iff] at hs
    rcases h with h | h
    · have := hs (opt "specific_dissipation_rate" "(sdr)" .forbidden false none) (by simp [wallTable])
      simp [Accepts, opt, h, dec] at this
    · have := hs (opt "turbulent_dissipation" "(eps)" .forbidden false none) (by simp [wallTable])
      simp [Accepts, opt, h, dec] at this
  rw [decodeWall]
  cases hr : runTable num boolOf n wallTable r0 with
  | none => rfl
  | some r => rw [hr] at hno; simp at hno

/-- **C266** Overset boundaries need six lines, periodic ones a search tolerance. -/
theorem c266_required (r0 r : Rec) (n : Yaml) :
    (decodeOverset num boolOf r0 n = some r → ∀ k ∈ ["percent_overlap", "background_block", "overset_block",
      "background_cut_block", "background_cut_surface", "overset_surface"], ∃ y, n.get k = some (some y)) ∧
    (decodePeriodic num boolOf r0 n = some r → ∃ y, n.get "search_tolerance" = some (some y)) := by
  have gen : ∀ (t : List Entry), runTable num boolOf n t r0 = some r → ∀ e ∈ t, e.required = true →
      ∃ y, n.get e.key = some (some y) := by
    intro t ht e he hr
    have := (c266_accepted_iff num boolOf n t r0).1 (by rw [ht]; rfl) e he
    unfold Accepts at this
    cases hg : n.get e.key with
    | none => rw [hg] at this; exact this.elim
    | some o =>
      cases o with
      | none => rw [hg] at this; simp only at this; rw [hr] at this; cases this
      | some y => exact ⟨y, rfl⟩
  constructor
  · intro h k hk
    simp only [List.mem_cons, List.not_mem_nil, or_false] at hk
    rcases hk with rfl | rfl | rfl | rfl | rfl | rfl
    · exact gen oversetTable h (req "percent_overlap" "percentOverlap_" .num) (by simp [oversetTable]) rfl
    · exact gen oversetTable h (req "background_block" "backgroundBlock_" .str) (by simp [oversetTable]) rfl
    · exact gen oversetTable h (req "overset_block" "oversetBlockVec_" .strs) (by simp [oversetTable]) rfl
    · exact gen oversetTable h (req "background_cut_block" "backgroundCutBlock_" .str) (by simp [oversetTable]) rfl
    · exact gen oversetTable h (req "background_cut_surface" "backgroundSurface_" .str) (by simp [oversetTable]) rfl
    · exact gen oversetTable h (req "overset_surface" "oversetSurface_" .str) (by simp [oversetTable]) rfl
  · intro h
    exact gen periodicTable h (req "search_tolerance" "searchTolerance_" .num) (by simp [periodicTable]) rfl

/-- The keys a wall block knows. -/
def wallKeys : List String := wallTable.map Entry.key ++
  ["user_function_name", "user_function_parameters", "user_function_string_parameters"]

theorem lookup_append_ne (k k' : String) (v : Yaml) (l : List (String × Yaml)) (h : k ≠ k') :
    lookup k (l ++ [(k', v)]) = lookup k l := by
  induction l with
  | nil => simp [lookup, Ne.symm h]
  | cons a l ih => obtain ⟨a1, a2⟩ := a; simp only [List.cons_append, lookup, ih]

theorem runTable_congr_keys (n n' : Yaml) (t : List Entry) (h : ∀ e ∈ t, n.get e.key = n'.get e.key ∧
    n.get e.vkey = n'.get e.vkey) : ∀ r, runTable num boolOf n t r = runTable num boolOf n' t r := by
  induction t with
  | nil => intro r; rfl
  | cons e t ih =>
    intro r
    have h1 := h e (List.mem_cons_self ..)
    have hr : Entry.run num boolOf n r e = Entry.run num boolOf n' r e := by
      simp only [Entry.run, h1.1, h1.2]
    simp only [runTable, List.foldlM_cons, hr] at ih ⊢
    congr 1; funext r1
    exact ih (fun e he => h e (List.mem_cons_of_mem _ he)) r1

/-- **C266** Unknown (misspelt) lines are silently ignored: they neither fail nor change anything. -/
theorem c266_unknown_ignored (r0 : Rec) (l : List (String × Yaml)) (k : String) (v : Yaml) (hk : k ∉ wallKeys) :
    decodeWall num boolOf r0 (.map (l ++ [(k, v)])) = decodeWall num boolOf r0 (.map l) := by
  have hg : ∀ k' ∈ wallKeys, (Yaml.map (l ++ [(k, v)])).get k' = (Yaml.map l).get k' := by
    intro k' hk'
    have : k' ≠ k := fun h => hk (h ▸ hk')
    simp only [Yaml.get, lookup_append_ne k' k v l this]
  have ht : ∀ r, runTable num boolOf (.map (l ++ [(k, v)])) wallTable r = runTable num boolOf (.map l) wallTable r := by
    apply runTable_congr_keys
    intro e he
    have hv : ∀ e ∈ wallTable, e.vkey = e.key := by decide
    rw [hv e he]
    have hm : e.key ∈ wallKeys := List.mem_append_left _ (List.mem_map_of_mem (f := Entry.key) he)
    exact ⟨hg _ hm, hg _ hm⟩
  have h1 := hg "user_function_name" (by decide)
  have h2 := hg "user_function_parameters" (by decide)
  have h3 := hg "user_function_string_parameters" (by decide)
  have hp : ∀ r, runParams num (.map (l ++ [(k, v)])) r = runParams num (.map l) r := fun r => by
    simp only [runParams, expectMap, h2]
  have hq : ∀ r, runStrParams (.map (l ++ [(k, v)])) r = runStrParams (.map l) r := fun r => by
    simp only [runStrParams, expectMap, h3]
  simp only [decodeWall, ht, runFunctions, expectMap, h1, funext hp, funext hq]

/-! ## C267: open boundaries -/

/-- **C267 (partial)** Every line of an open boundary except the turbulent dissipation ends up in its member. -/
theorem c267_open_partial (r0 r : Rec) (n : Yaml) (h : decodeOpen num boolOf r0 n = some r)
    (hn : n.get "turbulent_dissipation_" = some none) :
    ∀ e ∈ openTable, e.member ≠ "eps_" → Delivered num boolOf n r0 r e := by
  have gen : ∀ (t : List Entry), (t.map Entry.member).Nodup → (∀ e ∈ t, e.member ≠ "eps_" → e.vkey = e.key) →
      ∀ (r r' : Rec), runTable num boolOf n t r = some r' → ∀ e ∈ t, e.member ≠ "eps_" →
      Delivered num boolOf n r r' e := by
    intro t
    induction t with
    | nil => intro _ _ _ _ _ e he; cases he
    | cons e t ih =>
      intro hnd hk r r' h e' he' hne
      simp only [List.map_cons, List.nodup_cons] at hnd
      simp only [runTable, List.foldlM_cons, bind, Option.bind_eq_some_iff] at h
      obtain ⟨r1, h1, h2⟩ := h
      unfold Delivered
      rcases List.mem_cons.1 he' with rfl | he
      · have hf := runTable_frame num boolOf n t e'.member hnd.1 r1 r' h2
        rcases (run_some_iff num boolOf n r r1 e').1 h1 with ⟨hg, hr, rfl⟩ | ⟨y0, y, v, hg, hg2, hv, rfl⟩
        · rw [hg]; exact ⟨hf, hr⟩
        · rw [hk e' (List.mem_cons_self ..) hne] at hg2
          rw [hg2]
          simp only
          rw [hf, hv]
          simp [Rec.store]
      · have := ih hnd.2 (fun e he => hk e (List.mem_cons_of_mem _ he)) r1 r' h2 e' he hne
        unfold Delivered at this
        have hne : e'.member ≠ e.member := fun hh => hnd.1 (hh ▸ List.mem_map_of_mem (f := Entry.member) he)
        have hr1 : r1.val e'.member = r.val e'.member := by
          rcases (run_some_iff num boolOf n r r1 e).1 h1 with ⟨_, _, rfl⟩ | ⟨_, _, v, _, _, _, rfl⟩
          · rfl
          · simp [Rec.store, Function.update_of_ne hne]
        cases hg : n.get e'.key with
        | none => rw [hg] at this; exact this
        | some o =>
          cases o with
          | none => rw [hg] at this; exact ⟨this.1.trans hr1, this.2⟩
          | some y => rw [hg] at this; exact this
  exact gen openTable (by decide) (by decide) r0 r h

/-- **C267 (wrong)** The turbulent dissipation rate given at an open boundary is ignored: whatever the user writes under
`turbulent_dissipation`, the stored value is the default (zero) and the line counts as not given. -/
theorem c267_open_eps_ignored (r0 r : Rec) (l : List (String × Yaml)) (hl : lookup "turbulent_dissipation_" l = none)
    (h : decodeOpen num boolOf r0 (.map l) = some r) :
    r.val "eps_" = r0.val "eps_" ∧ r.flag "epsSpec_" = r0.flag "epsSpec_" := by
  have gen : ∀ (t : List Entry), (∀ e ∈ t, (e.member = "eps_" ∨ e.flag = some "epsSpec_") → e.key = "turbulent_dissipation_") →
      ∀ (r r' : Rec), runTable num boolOf (.map l) t r = some r' →
      r'.val "eps_" = r.val "eps_" ∧ r'.flag "epsSpec_" = r.flag "epsSpec_" := by
    intro t
    induction t with
    | nil => intro _ r r' h; simp only [runTable, List.foldlM_nil, pure, Option.some.injEq] at h; rw [h]; simp
    | cons e t ih =>
      intro hk r r' h
      simp only [runTable, List.foldlM_cons, bind, Option.bind_eq_some_iff] at h
      obtain ⟨r1, h1, h2⟩ := h
      obtain ⟨i1, i2⟩ := ih (fun e he => hk e (List.mem_cons_of_mem _ he)) r1 r' h2
      rw [i1, i2]
      rcases (run_some_iff num boolOf _ r r1 e).1 h1 with ⟨_, _, rfl⟩ | ⟨y0, _, v, hg, _, _, rfl⟩
      · exact ⟨rfl, rfl⟩
      · have hne : ¬(e.member = "eps_" ∨ e.flag = some "epsSpec_") := by
          intro hh
          rw [hk e (List.mem_cons_self ..) hh] at hg
          simp [Yaml.get, hl] at hg
        push Not at hne
        refine ⟨by simp [Rec.store, Function.update_of_ne (Ne.symm hne.1)], ?_⟩
        cases hfl : e.flag with
        | none => simp [Rec.store, hfl]
        | some f =>
          have : "epsSpec_" ≠ f := by rintro rfl; exact hne.2 hfl
          simp [Rec.store, hfl, Function.update_of_ne this]
  exact gen openTable (by decide) r0 r h

/-- **C267 (wrong, concretely)** Two open blocks that differ only in the dissipation rate are read as the same. -/
theorem c267_open_eps_wrong (r0 : Rec) (a b : String) :
    decodeOpen num boolOf r0 (.map [("turbulent_dissipation", .scalar a)]) =
      decodeOpen num boolOf r0 (.map [("turbulent_dissipation", .scalar b)]) := by
  simp [decodeOpen, runTable, openTable, opt, Entry.run, Yaml.get, lookup]

/-- **C267 (wrong)** An uninitialised flag: a wall with irradiation but without emissivity should be refused because
`emissSpec_` is false; the constructor does not initialise it, so the flag is whatever memory held. -/
theorem c267_emissivity_flag (r0 r : Rec) (n : Yaml) (hf : DistinctFns n) (h : decodeWall num boolOf r0 n = some r)
    (hn : n.get "emissivity" = some none) : r.flag "emissSpec_" = r0.flag "emissSpec_" := by
  simp only [decodeWall, bind, Option.bind_eq_some_iff] at h
  obtain ⟨r1, h1, h2⟩ := h
  rw [(functions_frame num n r1 r h2 hf).2]
  have gen : ∀ (t : List Entry), (∀ e ∈ t, e.flag = some "emissSpec_" → e.key = "emissivity") →
      ∀ (r r' : Rec), runTable num boolOf n t r = some r' → r'.flag "emissSpec_" = r.flag "emissSpec_" := by
    intro t
    induction t with
    | nil => intro _ r r' h; simp only [runTable, List.foldlM_nil, pure, Option.some.injEq] at h; rw [h]
    | cons e t ih =>
      intro hk r r' h
      simp only [runTable, List.foldlM_cons, bind, Option.bind_eq_some_iff] at h
      obtain ⟨r1, h1, h2⟩ := h
      rw [ih (fun e he => hk e (List.mem_cons_of_mem _ he)) r1 r' h2]
      rcases (run_some_iff num boolOf _ r r1 e).1 h1 with ⟨_, _, rfl⟩ | ⟨y0, _, v, hg, _, _, rfl⟩
      · rfl
      · cases hfl : e.flag with
        | none => simp [Rec.store, hfl]
        | some f =>
          have : "emissSpec_" ≠ f := by
            rintro rfl
            rw [hk e (List.mem_cons_self ..) hfl, hn] at hg; cases hg
          simp [Rec.store, hfl, Function.update_of_ne this]
  exact gen wallTable (by decide) r0 r1 h1

/-! ## C268: which boundary condition -/

/-- The line that introduces each kind of condition, in the order tested. -/
def bcKeys : List String := ["wall_boundary_condition", "inflow_boundary_condition", "open_boundary_condition",
  "symmetry_boundary_condition", "periodic_boundary_condition", "non_conformal_boundary_condition",
  "overset_boundary_condition"]

/-- The introducing line of a condition. -/
def Bc.key : Bc → String
  | .wall .. => "wall_boundary_condition"
  | .inflow .. => "inflow_boundary_condition"
  | .opened .. => "open_boundary_condition"
  | .symmetry .. => "symmetry_boundary_condition"
  | .periodic .. => "periodic_boundary_condition"
  | .nonConformal .. => "non_conformal_boundary_condition"
  | .overset .. => "overset_boundary_condition"

/-- The name given to a condition. -/
def Bc.name : Bc → String
  | .wall n _ _ => n
  | .inflow n _ _ => n
  | .opened n _ _ => n
  | .symmetry n _ _ => n
  | .periodic n _ _ _ => n
  | .nonConformal n _ _ _ => n
  | .overset n _ => n

/-- **C268** A block with none of the seven introducing lines is an error. -/
theorem c268_unknown_refused (d : Rec) (l : List (String × Yaml)) (h : ∀ k ∈ bcKeys, lookup k l = none) :
    loadBc num boolOf d (.map l) = none := by
  simp only [bcKeys, List.mem_cons, List.not_mem_nil, or_false, forall_eq_or_imp, forall_eq] at h
  obtain ⟨h1, h2, h3, h4, h5, h6, h7⟩ := h
  simp [loadBc, ifKey, has, Yaml.get, h1, h2, h3, h4, h5, h6, h7]

theorem getStr_some (l : List (String × Yaml)) (k s : String) (h : getStr (.map l) k = some s) :
    lookup k l = some (.scalar s) := by
  simp only [getStr, Yaml.get, bind, Option.bind_some] at h
  cases hl : lookup k l with
  | none => simp [hl] at h
  | some y => cases y <;> simp_all [asStr]

theorem readWall_key (d : Rec) (n : Yaml) (b : Bc) (h : readWall num boolOf d n = some b) :
    b.key = "wall_boundary_condition" ∧ getStr n "wall_boundary_condition" = some b.name ∧ noRogue n = some () := by
  simp only [readWall, bind, Option.bind_eq_some_iff, pure, Option.some.injEq] at h
  obtain ⟨name, hn, _, _, _, _, _, _, u, hu, rfl⟩ := h
  exact ⟨rfl, hn, hu⟩

theorem readInflow_key (d : Rec) (n : Yaml) (b : Bc) (h : readInflow num boolOf d n = some b) :
    b.key = "inflow_boundary_condition" ∧ getStr n "inflow_boundary_condition" = some b.name ∧ noRogue n = some () := by
  simp only [readInflow, bind, Option.bind_eq_some_iff, pure, Option.some.injEq] at h
  obtain ⟨name, hn, _, _, _, _, _, _, u, hu, rfl⟩ := h
  exact ⟨rfl, hn, hu⟩

theorem readOpen_key (d : Rec) (n : Yaml) (b : Bc) (h : readOpen num boolOf d n = some b) :
    b.key = "open_boundary_condition" ∧ getStr n "open_boundary_condition" = some b.name ∧ noRogue n = some () := by
  simp only [readOpen, bind, Option.bind_eq_some_iff, pure, Option.some.injEq] at h
  obtain ⟨name, hn, _, _, _, _, _, _, u, hu, rfl⟩ := h
  exact ⟨rfl, hn, hu⟩

theorem readSymmetry_key (d : Rec) (n : Yaml) (b : Bc) (h : readSymmetry num boolOf d n = some b) :
    b.key = "symmetry_boundary_condition" ∧ getStr n "symmetry_boundary_condition" = some b.name := by
  simp only [readSymmetry, bind, Option.bind_eq_some_iff, pure, Option.some.injEq] at h
  obtain ⟨name, hn, _, _, _, _, _, _, rfl⟩ := h
  exact ⟨rfl, hn⟩

theorem readPeriodic_key (d : Rec) (n : Yaml) (b : Bc) (h : readPeriodic num boolOf d n = some b) :
    b.key = "periodic_boundary_condition" ∧ getStr n "periodic_boundary_condition" = some b.name := by
  simp only [readPeriodic, bind, Option.bind_eq_some_iff, pure, Option.some.injEq] at h
  obtain ⟨name, hn, _, _, _, _, _, _, _, _, rfl⟩ := h
  exact ⟨rfl, hn⟩

theorem readNonConformal_key (d : Rec) (n : Yaml) (b : Bc) (h : readNonConformal num boolOf d n = some b) :
    b.key = "non_conformal_boundary_condition" ∧ getStr n "non_conformal_boundary_condition" = some b.name := by
  simp only [readNonConformal, bind, Option.bind_eq_some_iff, pure, Option.some.injEq] at h
  obtain ⟨name, hn, _, _, _, _, _, _, rfl⟩ := h
  exact ⟨rfl, hn⟩

theorem readOverset_key (d : Rec) (n : Yaml) (b : Bc) (h : readOverset num boolOf d n = some b) :
    b.key = "overset_boundary_condition" ∧ getStr n "overset_boundary_condition" = some b.name := by
  simp only [readOverset, bind, Option.bind_eq_some_iff, pure, Option.some.injEq] at h
  obtain ⟨name, hn, _, _, _, _, _, _, rfl⟩ := h
  exact ⟨rfl, hn⟩

theorem ifKey_some {α : Type*} (l : List (String × Yaml)) (k : String) (a b : Option α) (x : α)
    (h : ifKey (.map l) k a b = some x) : a = some x ∨ (lookup k l = none ∧ b = some x) := by
  simp only [ifKey, has, Yaml.get, bind, Option.bind_some, pure] at h
  cases hl : lookup k l with
  | none => simp [hl] at h; exact Or.inr ⟨rfl, h⟩
  | some y => simp [hl] at h; exact Or.inl h

/-- **C268** The condition read is introduced by a line of the block, carries the name written there, and no line of
higher priority was present. -/
theorem c268_kind (d : Rec) (l : List (String × Yaml)) (b : Bc) (h : loadBc num boolOf d (.map l) = some b) :
    lookup b.key l = some (.scalar b.name) ∧ ∀ k ∈ bcKeys.takeWhile (· ≠ b.key), lookup k l = none := by
  unfold loadBc at h
  rcases ifKey_some l _ _ _ b h with h | ⟨n1, h⟩
  · obtain ⟨hk, hn, _⟩ := readWall_key num boolOf d _ b h
    rw [hk]; exact ⟨getStr_some l _ _ hn, by simp [bcKeys]⟩
  rcases ifKey_some l _ _ _ b h with h | ⟨n2, h⟩
  · obtain ⟨hk, hn, _⟩ := readInflow_key num boolOf d _ b h
    rw [hk]; exact ⟨getStr_some l _ _ hn, by simp [bcKeys, n1]⟩
  rcases ifKey_some l _ _ _ b h with h | ⟨n3, h⟩
  · obtain ⟨hk, hn, _⟩ := readOpen_key num boolOf d _ b h
    rw [hk]; exact ⟨getStr_some l _ _ hn, by simp [bcKeys, n1, n2]⟩
  rcases ifKey_some l _ _ _ b h with h | ⟨n4, h⟩
  · obtain ⟨hk, hn⟩ := readSymmetry_key num boolOf d _ b h
    rw [hk]; exact ⟨getStr_some l _ _ hn, by simp [bcKeys, n1, n2, n3]⟩
  rcases ifKey_some l _ _ _ b h with h | ⟨n5, h⟩
  · obtain ⟨hk, hn⟩ := readPeriodic_key num boolOf d _ b h
    rw [hk]; exact ⟨getStr_some l _ _ hn, by simp [bcKeys, n1, n2, n3, n4]⟩
  rcases ifKey_some l _ _ _ b h with h | ⟨n6, h⟩
  · obtain ⟨hk, hn⟩ := readNonConformal_key num boolOf d _ b h
    rw [hk]; exact ⟨getStr_some l _ _ hn, by simp [bcKeys, n1, n2, n3, n4, n5]⟩
  rcases ifKey_some l _ _ _ b h with h | ⟨n7, h⟩
  · obtain ⟨hk, hn⟩ := readOverset_key num boolOf d _ b h
    rw [hk]; exact ⟨getStr_some l _ _ hn, by simp [bcKeys, n1, n2, n3, n4, n5, n6]⟩
  · cases h

/-- **C268** A function name placed outside the user data is refused at walls, inflows and open boundaries. -/
theorem c268_rogue_refused (d : Rec) (l : List (String × Yaml)) (b : Bc) (h : loadBc num boolOf d (.map l) = some b)
    (hb : b.key ∈ ["wall_boundary_condition", "inflow_boundary_condition", "open_boundary_condition"]) :
    lookup "user_function_name" l = none := by
  have hr : noRogue (.map l) = some () → lookup "user_function_name" l = none := by
    intro hu
    simp only [noRogue, has, Yaml.get, bind, Option.bind_some, pure] at hu
    cases hl : lookup "user_function_name" l with
    | none => rfl
    | some y => simp [hl] at hu
  unfold loadBc at h
  rcases ifKey_some l _ _ _ b h with h | ⟨n1, h⟩
  · exact hr (readWall_key num boolOf d _ b h).2.2
  rcases ifKey_some l _ _ _ b h with h | ⟨n2, h⟩
  · exact hr (readInflow_key num boolOf d _ b h).2.2
  rcases ifKey_some l _ _ _ b h with h | ⟨n3, h⟩
  · exact hr (readOpen_key num boolOf d _ b h).2.2
  rcases ifKey_some l _ _ _ b h with h | ⟨n4, h⟩
  · rw [(readSymmetry_key num boolOf d _ b h).1] at hb; simp at hb
  rcases ifKey_some l _ _ _ b h with h | ⟨n5, h⟩
  · rw [(readPeriodic_key num boolOf d _ b h).1] at hb; simp at hb
  rcases ifKey_some l _ _ _ b h with h | ⟨n6, h⟩
  · rw [(readNonConformal_key num boolOf d _ b h).1] at hb; simp at hb
  rcases ifKey_some l _ _ _ b h with h | ⟨n7, h⟩
  · rw [(readOverset_key num boolOf d _ b h).1] at hb; simp at hb
  · cases h

/-- **C268** Conversely a wall block with its lines in place is read as that wall, with exactly the decoded data. -/
theorem c268_wall_read (d : Rec) (l : List (String × Yaml)) (name target : String) (blk : Yaml) (r : Rec)
    (h1 : lookup "wall_boundary_condition" l = some (.scalar name)) (h2 : lookup "target_name" l = some (.scalar target))
    (h3 : lookup "wall_user_data" l = some blk) (h4 : decodeWall num boolOf d blk = some r)
    (h5 : lookup "user_function_name" l = none) : loadBc num boolOf d (.map l) = some (.wall name target r) := by
  simp [loadBc, ifKey, has, Yaml.get, h1, readWall, getStr, getBlock, h2, h3, h4, h5, noRogue, asStr]

theorem mapM_asStr (l : List String) : (l.map Yaml.scalar).mapM asStr = some l := by
  induction l with
  | nil => rfl
  | cons a l ih => simp [asStr, ih]

/-- **C268** Non-conformal interfaces: a pair `[a, b]` means current `a`, opposing `b`; otherwise both lists are read as
given, a single name standing for a list of one; giving only one of the two lists, or a `target_name` that is not a
pair, is an error. -/
theorem c268_nc_targets (l : List (String × Yaml)) :
    (∀ a b, lookup "target_name" l = some (.seq [.scalar a, .scalar b]) → ncTargets (.map l) = some ([a], [b])) ∧
    (∀ ys, lookup "target_name" l = some (.seq ys) → ys.length ≠ 2 → ncTargets (.map l) = none) ∧
    (lookup "target_name" l = none →
      (∀ cs os, lookup "current_target_name" l = some (.seq (cs.map .scalar)) →
        lookup "opposing_target_name" l = some (.seq (os.map .scalar)) → ncTargets (.map l) = some (cs, os)) ∧
      (∀ c o, lookup "current_target_name" l = some (.scalar c) → lookup "opposing_target_name" l = some (.scalar o) →
        ncTargets (.map l) = some ([c], [o])) ∧
      (lookup "current_target_name" l = none → ncTargets (.map l) = none) ∧
      (lookup "opposing_target_name" l = none → ncTargets (.map l) = none)) := by
  refine ⟨?_, ?_, ?_⟩
  · intro a b h; simp [ncTargets, Yaml.get, h, asStr]
  · intro ys h hl
    match ys with
    | [] => simp [ncTargets, Yaml.get, h]
    | [_] => simp [ncTargets, Yaml.get, h]
    | [_, _] => simp at hl
    | _ :: _ :: _ :: _ => simp [ncTargets, Yaml.get, h]
  · intro h
    refine ⟨?_, ?_, ?_, ?_⟩
    · intro cs os hc ho
      have e1 := mapM_asStr cs
      have e2 := mapM_asStr os
      simp only [ncTargets, Yaml.get, h, hc, ho, asNames, bind, Option.bind_some, e1, e2]
    · intro c o hc ho; simp [ncTargets, Yaml.get, h, hc, ho, asNames]
    · intro hc; simp [ncTargets, Yaml.get, h, hc]
    · intro ho
      simp only [ncTargets, Yaml.get, h, ho, bind, Option.bind_some]

/-! ## C269: initial conditions, solvers, materials -/

/-- **C269** Constant initial conditions: fields keep their order, a number is a list of one, a list keeps its numbers;
an empty list is an error. -/
theorem c269_ic_values (xs : List String) (s : String) :
    (∀ r, num s = some r → icValue num (.scalar s) = some [r]) ∧
    (∀ vs, xs ≠ [] → xs.map num = vs.map some → icValue num (.seq (xs.map .scalar)) = some vs) ∧
    icValue num (.seq []) = none := by
  refine ⟨fun r h => by simp [icValue, h], ?_, rfl⟩
  intro vs hx hv
  have gen : ∀ (xs : List String) (vs : List ℝ), xs.map num = vs.map some →
      (xs.map Yaml.scalar).mapM (asNum num) = some vs := by
    intro xs
    induction xs with
    | nil => intro vs h; cases vs with
      | nil => rfl
      | cons a l => simp at h
    | cons x xs ih =>
      intro vs h
      cases vs with
      | nil => simp at h
      | cons v vs =>
        simp only [List.map_cons, List.cons.injEq] at h
        simp [asNum, h.1, ih vs h.2]
  cases xs with
  | nil => exact absurd rfl hx
  | cons x xs => exact gen (x :: xs) vs hv

/-- **C269** A list of target names written without brackets (a scalar containing a comma) is refused. -/
theorem c269_ic_comma (l : List (String × Yaml)) (s : String) (h : lookup "target_name" l = some (.scalar s))
    (hc : ',' ∈ s.toList) : loadConstantIc num (.map l) = none := by
  have : hasComma s = true := by simp [hasComma, hc]
  simp only [loadConstantIc, getBlock, Yaml.get, h, bind, Option.bind_some, this, if_true]
  cases getStr (.map l) "constant" <;> rfl

/-- What a solver section means: the last block with a name defines it. -/
def lastNamed (ss : List Solver) (name : String) : Option Solver := (ss.filter fun s => s.name = name).getLast?

/-- **C269** Solvers: every block must be of type `tpetra` and load; a name refers to the *last* block that carries it. -/
theorem c269_solver_lookup (l : List Yaml) (m : String → Option Solver) (h : loadSolvers num l = some m) :
    ∃ ss : List Solver, List.Forall₂ (fun n s => strOr n "type" "tpetra" = some "tpetra" ∧ loadSolver num n = some s) l ss ∧
      ∀ name, m name = lastNamed ss name := by
  have gen : ∀ (l : List Yaml) (m0 m : String → Option Solver),
      l.foldlM (fun m n => do
        let t ← strOr n "type" "tpetra"
        if t = "tpetra" then do
          let s ← loadSolver num n
          some (Function.update m s.name (some s))
        else none) m0 = some m →
      ∃ ss : List Solver, List.Forall₂ (fun n s => strOr n "type" "tpetra" = some "tpetra" ∧ loadSolver num n = some s)
        l ss ∧ ∀ name, m name = (lastNamed ss name).or (m0 name) := by
    intro l
    induction l with
    | nil =>
      intro m0 m h
      simp only [List.foldlM_nil, pure, Option.some.injEq] at h
      subst h
      exact ⟨[], List.Forall₂.nil, fun name => by simp [lastNamed]⟩
    | cons n l ih =>
      intro m0 m h
      simp only [List.foldlM_cons, bind, Option.bind_eq_some_iff] at h
      obtain ⟨m1, ⟨t, ht, h1⟩, h2⟩ := h
      split_ifs at h1 with htp
      simp only [Option.bind_eq_some_iff, Option.some.injEq] at h1
      obtain ⟨s, hs, rfl⟩ := h1
      obtain ⟨ss, hss, hm⟩ := ih _ m h2
      refine ⟨s :: ss, List.Forall₂.cons ⟨by rw [ht, htp], hs⟩ hss, fun name => ?_⟩
      rw [hm name]
      simp only [lastNamed, List.filter_cons]
      by_cases hn : s.name = name
      · subst hn
        simp only [decide_true, if_true, Function.update_self]
        cases hl : (List.filter (fun s' => decide (s'.name = s.name)) ss).getLast? with
        | none =>
          rw [List.getLast?_eq_none_iff] at hl
          simp [hl]
        | some z => simp [List.getLast?_cons, hl]
      · simp [hn, Function.update_of_ne (Ne.symm hn)]
  obtain ⟨ss, h1, h2⟩ := gen l _ m h
  exact ⟨ss, h1, fun name => by rw [h2 name]; simp⟩

/-- **C269** Without a `final_tolerance` the final tolerance is the tolerance; without either both are `1e-4`; an unknown
preconditioner is refused. -/
theorem c269_solver_defaults (n : Yaml) (s : Solver) (h : loadSolver num n = some s) :
    (n.get "final_tolerance" = some none → s.finalTolerance = s.tolerance) ∧
    (n.get "tolerance" = some none → s.tolerance = 1 / 10000) ∧
    s.precond ∈ preconds ∧ (n.get "preconditioner" = some none → s.precond = "default") := by
  simp only [loadSolver, bind, Option.bind_eq_some_iff] at h
  obtain ⟨name, _, method, _, p, hp, tol, ht, fin, hfin, h⟩ := h
  split_ifs at h with hpm
  simp only [Option.some.injEq] at h
  subst h
  refine ⟨?_, ?_, hpm, ?_⟩
  · intro hh; simp only [numOr, hh, bind, Option.bind_some, Option.some.injEq] at hfin; exact hfin.symm
  · intro hh; simp only [numOr, hh, bind, Option.bind_some, Option.some.injEq] at ht; exact ht.symm
  · intro hh; simp only [strOr, hh, bind, Option.bind_some, Option.some.injEq] at hp; exact hp.symm

/-- **C269** Material targets: the union of the blocks' targets, each as often as given — but with the blocks in reverse
order. -/
theorem c269_material_targets (blocks : List (List String)) :
    materialTargets blocks = blocks.reverse.flatten ∧ (materialTargets blocks).Perm blocks.flatten := by
  have gen : ∀ (blocks : List (List String)) (acc : List String),
      blocks.foldl (fun acc b => b ++ acc) acc = blocks.reverse.flatten ++ acc := by
    intro blocks
    induction blocks with
    | nil => intro acc; rfl
    | cons b bs ih => intro acc; simp [ih]
  have h1 : materialTargets blocks = blocks.reverse.flatten := by
    rw [materialTargets, gen, List.append_nil]
  refine ⟨h1, ?_⟩
  rw [h1]
  exact (List.reverse_perm blocks).flatten

/-- **C269** Case-insensitive comparison is an equivalence relation and ignores the case of ASCII letters. -/
theorem c269_case_insensitive (a b c : String) : caseInsensitiveCompare a a = true ∧
    caseInsensitiveCompare a b = caseInsensitiveCompare b a ∧
    (caseInsensitiveCompare a b = true → caseInsensitiveCompare b c = true → caseInsensitiveCompare a c = true) := by
  refine ⟨by simp [caseInsensitiveCompare], by simp [caseInsensitiveCompare, eq_comm], ?_⟩
  simp only [caseInsensitiveCompare, decide_eq_true_eq]
  exact fun h1 h2 => h1.trans h2

/-! ## Non-vacuity -/

/-- A reader of a few literals. -/
def num3 : String → Option ℝ := fun s => if s = "1.0" then some 1 else if s = "2.0" then some 2 else none
/-- Default data. -/
def rec0 : Rec := ⟨fun _ => .unset, fun _ => false, fun _ => false, fun _ => none, fun _ => none, fun _ => none, fun _ => none⟩

example : Fresh rec0 := ⟨fun _ => rfl, fun _ => rfl, fun _ => rfl⟩

/-- A wall with a constant velocity and a function for the temperature. -/
def wallBlock : Yaml := .map [("velocity", .seq [.scalar "1.0", .scalar "2.0"]),
  ("user_function_name", .map [("temperature", .scalar "steady_2d_thermal")])]

theorem wallBlock_distinct : DistinctFns wallBlock := by
  intro l hl
  have : wallBlock.get "user_function_name" =
      some (some (.map [("temperature", .scalar "steady_2d_thermal")])) := rfl
  rw [this] at hl
  simp only [Option.some.injEq, Yaml.map.injEq] at hl
  subst hl
  exact List.nodup_singleton _

example : ∃ r, decodeWall num3 (fun _ => none) rec0 wallBlock = some r := by
  refine ⟨_, rfl⟩

example (r : Rec) (h : decodeWall num3 (fun _ => none) rec0 wallBlock = some r) :
    bcType r "temperature" = .function ∧ r.val "u_" = .vec 1 2 0 := by
  refine ⟨?_, ?_⟩
  · exact (c265_wall_type num3 _ rec0 r wallBlock ⟨fun _ => rfl, fun _ => rfl, fun _ => rfl⟩ wallBlock_distinct h
      "temperature").2.1.2 ⟨"steady_2d_thermal", _, rfl, rfl⟩
  · obtain ⟨a, b, ha, hb, hv⟩ := (c264_wall_velocity num3 _ rec0 r wallBlock wallBlock_distinct h "1.0" "2.0" "" [] rfl).1 rfl
    simp [num3] at ha hb
    rw [hv, ← ha, ← hb]

end Nalu.Parse
