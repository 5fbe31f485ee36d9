import Verif.Model.AvgSetup
import Verif.Model.Averaging
import Mathlib.Tactic.FieldSimp
import Mathlib.Tactic.NormNum
import Mathlib.Tactic.Ring
import Mathlib.Data.List.Nodup
import Mathlib.Tactic.LinearCombination

/-!
# Set-up of turbulence averaging: theorems C304-C307
-/

namespace Nalu.AvgSetup

/-! ### C304: what is averaged -/

theorem mem_addIfMissing (x y : String) (l : List String) : y ∈ addIfMissing x l ↔ y ∈ l ∨ y = x := by
  unfold addIfMissing
  split
  · rename_i h; constructor
    · exact Or.inl
    · rintro (h' | rfl)
      · exact h'
      · exact h
  · simp

theorem nodup_addIfMissing (x : String) (l : List String) (h : l.Nodup) : (addIfMissing x l).Nodup := by
  unfold addIfMissing
  split
  · exact h
  · rename_i hx
    rw [List.nodup_append]
    exact ⟨h, by simp, by intro a ha b hb e; simp at hb; subst hb; subst e; exact hx ha⟩

theorem prefix_addIfMissing (x : String) (l : List String) : l <+: addIfMissing x l := by
  unfold addIfMissing
  split
  · exact List.prefix_refl _
  · exact List.prefix_append _ _

/-- C304: a specification with a name and targets is accepted. The Reynolds list is the user's list
without density, in the user's order, followed at most by velocity; velocity is in it whenever the
turbulent kinetic energy or the Reynolds stress is asked for. The same holds for the Favre list. The
resolved list is determined by the switches alone. -/
theorem c304_lists (s : Spec) (name : String) (ts : List String) (hn : s.name = some name) (ht : s.targets = some ts) :
    ∃ i, loadSpec s = .ok i ∧ i.name = name ∧ i.targets = ts ∧ i.moving = s.moving ∧
      (∀ x, x ∈ i.reynolds ↔ (x ∈ s.reynolds ∧ x ≠ "density") ∨
        (x = "velocity" ∧ (s.flags.tke = true ∨ s.flags.reynoldsStress = true))) ∧
      s.reynolds.filter (fun x => x ≠ "density") <+: i.reynolds ∧
      (∀ x, x ∈ i.favre ↔ (x ∈ s.favre ∧ x ≠ "density") ∨
        (x = "velocity" ∧ (s.flags.favreTke = true ∨ s.flags.favreStress = true))) ∧
      s.favre.filter (fun x => x ≠ "density") <+: i.favre ∧
      (∀ x, x ∈ i.resolved ↔ (x = "velocity" ∧ (s.flags.resolvedStress = true ∨ s.flags.temperatureResolved = true)) ∨
        (x = "temperature" ∧ s.flags.temperatureResolved = true)) := by
  unfold loadSpec
  simp only [hn, ht]
  refine ⟨_, rfl, rfl, rfl, rfl, ?_, ?_, ?_, ?_, ?_⟩
  · intro x
    dsimp only
    by_cases h : (s.flags.tke || s.flags.reynoldsStress) = true
    · rw [if_pos h, mem_addIfMissing, List.mem_filter]
      simp only [Bool.or_eq_true] at h
      simp [h]
    · rw [if_neg h, List.mem_filter]
      simp only [Bool.or_eq_true] at h
      simp [h]
  · dsimp only; split
    · exact prefix_addIfMissing _ _
    · exact List.prefix_refl _
  · intro x
    dsimp only
    by_cases h : (s.flags.favreTke || s.flags.favreStress) = true
    · rw [if_pos h, mem_addIfMissing, List.mem_filter]
      simp only [Bool.or_eq_true] at h
      simp [h]
    · rw [if_neg h, List.mem_filter]
      simp only [Bool.or_eq_true] at h
      simp [h]
  · dsimp only; split
    · exact prefix_addIfMissing _ _
    · exact List.prefix_refl _
  · intro x
    dsimp only
    cases h1 : s.flags.resolvedStress <;> cases h2 : s.flags.temperatureResolved <;>
      simp [mem_addIfMissing, or_comm]

/-- C304: nothing is averaged twice unless the user lists it twice. -/
theorem c304_no_repetition (s : Spec) (i : Info) (h : loadSpec s = .ok i) :
    (s.reynolds.Nodup → i.reynolds.Nodup) ∧ (s.favre.Nodup → i.favre.Nodup) ∧ i.resolved.Nodup := by
  unfold loadSpec at h
  cases hn : s.name with
  | none => simp [hn] at h
  | some n =>
    cases ht : s.targets with
    | none => simp [hn, ht] at h
    | some t =>
      simp only [hn, ht, Except.ok.injEq] at h
      subst h
      dsimp only
      refine ⟨fun hd => ?_, fun hd => ?_, ?_⟩
      · split
        · exact nodup_addIfMissing _ _ (hd.filter _)
        · exact hd.filter _
      · split
        · exact nodup_addIfMissing _ _ (hd.filter _)
        · exact hd.filter _
      · have h0 : (if (s.flags.resolvedStress || s.flags.temperatureResolved) = true then addIfMissing "velocity" [] else []).Nodup := by
          split
          · exact nodup_addIfMissing _ _ List.nodup_nil
          · exact List.nodup_nil
        split
        · exact nodup_addIfMissing _ _ h0
        · exact h0

/-! ### C305: what is refused -/

theorem loadSpec_ok_iff (s : Spec) : (∃ i, loadSpec s = .ok i) ↔ s.name.isSome ∧ s.targets.isSome := by
  unfold loadSpec
  cases s.name <;> cases s.targets <;> simp

theorem loadSpecs_ok_iff (ss : List Spec) :
    (∃ is, loadSpecs ss = .ok is) ↔ ∀ s ∈ ss, s.name.isSome ∧ s.targets.isSome := by
  induction ss with
  | nil => simp [loadSpecs]
  | cons s t ih =>
    rw [List.forall_mem_cons, ← ih, ← loadSpec_ok_iff]
    simp only [loadSpecs]
    cases h1 : loadSpec s with
    | error e => simp
    | ok i => cases h2 : loadSpecs t <;> simp

/-- C305: the block is accepted exactly if the averaging type, when given, is one of the two known
ones, a list of specifications is given, and each has a name and targets. -/
theorem c305_accepted_iff (y : Input) :
    (∃ r, load y = .ok r) ↔
      (y.averagingType = none ∨ y.averagingType = some "nalu_classic" ∨ y.averagingType = some "moving_exponential") ∧
      ∃ ss, y.specs = some ss ∧ ∀ s ∈ ss, s.name.isSome ∧ s.targets.isSome := by
  unfold load
  have key : (∃ k, kindOf y.averagingType = .ok k) ↔
      (y.averagingType = none ∨ y.averagingType = some "nalu_classic" ∨ y.averagingType = some "moving_exponential") := by
    unfold kindOf
    cases h : y.averagingType with
    | none => simp
    | some t =>
      by_cases h1 : t = "nalu_classic"
      · simp [h1]
      · by_cases h2 : t = "moving_exponential"
        · simp [h2]
        · simp [h1, h2]
  rw [← key]
  generalize kindOf y.averagingType = kk
  cases kk with
  | error e => simp
  | ok k =>
    cases hs : y.specs with
    | none => simp
    | some ss =>
      have := loadSpecs_ok_iff ss
      have h3 : (∃ r, (match loadSpecs ss with
          | .error e => .error e
          | .ok is => .ok (k, is) : Except Err (Bool × List Info)) = .ok r) ↔ ∃ is, loadSpecs ss = .ok is := by
        cases loadSpecs ss <;> simp
      simp only [Except.ok.injEq, exists_eq', true_and, Option.some.injEq, exists_eq_left']
      exact h3.trans this

/-- C305: the type given is the type used, and the infos are those of the specifications in order. -/
theorem c305_result (y : Input) (k : Bool) (is : List Info) (h : load y = .ok (k, is)) :
    (k = true ↔ y.averagingType = some "moving_exponential") ∧
    ∃ ss, y.specs = some ss ∧ List.Forall₂ (fun s i => loadSpec s = .ok i) ss is := by
  unfold load at h
  have hkind : ∀ k', kindOf y.averagingType = .ok k' →
      (k' = true ↔ y.averagingType = some "moving_exponential") := by
    intro k' hk
    unfold kindOf at hk
    cases hy : y.averagingType with
    | none => simp [hy] at hk; simp [← hk]
    | some t =>
      simp only [hy] at hk
      by_cases h1 : t = "nalu_classic"
      · subst h1; simp at hk; subst hk; decide
      · by_cases h2 : t = "moving_exponential"
        · subst h2; simp at hk; simp [← hk]
        · simp [h1, h2] at hk
  split at h
  · simp at h
  · rename_i k' hk
    cases hs : y.specs with
    | none => simp [hs] at h
    | some ss =>
      simp only [hs] at h
      cases h2 : loadSpecs ss with
      | error e => simp [h2] at h
      | ok is' =>
        simp only [h2, Except.ok.injEq, Prod.mk.injEq] at h
        obtain ⟨rfl, rfl⟩ := h
        refine ⟨hkind _ hk, ss, rfl, ?_⟩
        clear hs hk
        induction ss generalizing is' with
        | nil => simp [loadSpecs] at h2; subst h2; exact .nil
        | cons s t ih =>
          simp only [loadSpecs] at h2
          cases h1 : loadSpec s with
          | error e => simp [h1] at h2
          | ok i =>
            simp only [h1] at h2
            cases h3 : loadSpecs t with
            | error e => simp [h3] at h2
            | ok is =>
              simp only [h3, Except.ok.injEq] at h2
              subst h2
              exact .cons h1 (ih is h3)

/-! ### C306: registered fields -/

/-- Everything known before is still known. -/
structure Ext (s s' : St) : Prop where
  nodal : ∀ r ∈ s.nodal, r ∈ s'.nodal
  restart : ∀ x ∈ s.restart, x ∈ s'.restart

theorem Ext.refl (s : St) : Ext s s := ⟨fun _ h => h, fun _ h => h⟩
theorem Ext.trans {a b c : St} (h : Ext a b) (h' : Ext b c) : Ext a c :=
  ⟨fun r hr => h'.nodal r (h.nodal r hr), fun x hx => h'.restart x (h.restart x hx)⟩

theorem ext_regField (name : String) (size : ℕ) (part : String) (b : Bool) (s : St) : Ext s (regField name size part b s) := by
  unfold regField
  refine ⟨fun r hr => ?_, fun x hx => ?_⟩
  · simp [hr]
  · cases b <;> simp [hx]

theorem ext_regElem (name part : String) (b : Bool) (s : St) : Ext s (regElem name part b s) := by
  unfold regElem
  have h : Ext s { s with elem := s.elem ++ [⟨name, part, 1⟩], restart := s.restart ++ [name] } :=
    ⟨fun r hr => hr, fun x hx => by simp [hx]⟩
  cases b
  · exact h
  · exact h.trans ((ext_regField ..).trans (ext_regField ..))

theorem ext_ite (c : Bool) (name part : String) (b : Bool) (s : St) : Ext s (if c = true then regElem name part b s else s) := by
  split
  · exact ext_regElem ..
  · exact Ext.refl s

theorem ext_regSpecials (part : String) (l : List (Bool × String × ℕ × Bool)) (s : St) : Ext s (regSpecials part l s) := by
  unfold regSpecials
  induction l generalizing s with
  | nil => exact Ext.refl s
  | cons x t ih =>
    rw [List.foldl_cons]
    refine Ext.trans ?_ (ih _)
    split
    · exact ext_regField ..
    · exact Ext.refl s

theorem regSpecials_mem (part : String) (l : List (Bool × String × ℕ × Bool)) (s : St) (x : Bool × String × ℕ × Bool)
    (hx : x ∈ l) (hb : x.1 = true) :
    (⟨x.2.1, part, x.2.2.1⟩ : Reg) ∈ (regSpecials part l s).nodal ∧
    (x.2.2.2 = true → x.2.1 ∈ (regSpecials part l s).restart) := by
  induction l generalizing s with
  | nil => simp at hx
  | cons y t ih =>
    unfold regSpecials at ih ⊢
    rw [List.foldl_cons]
    rcases List.mem_cons.1 hx with rfl | hx
    · rw [if_pos hb]
      have h := ext_regSpecials part t (regField x.2.1 x.2.2.1 part x.2.2.2 s)
      refine ⟨h.nodal _ (by simp [regField]), fun hr => h.restart _ (by simp [regField, hr])⟩
    · exact ih _ hx

theorem le_maxSize (s : St) (r : Reg) (hr : r ∈ s.nodal) : r.size ≤ s.maxSize r.field := by
  unfold St.maxSize
  have key : ∀ (l : List Reg) (m : ℕ), m ≤ l.foldl (fun m r => max m r.size) m ∧
      ∀ r ∈ l, r.size ≤ l.foldl (fun m r => max m r.size) m := by
    intro l
    induction l with
    | nil => intro m; simp
    | cons a t ih =>
      intro m
      obtain ⟨h1, h2⟩ := ih (max m a.size)
      refine ⟨(le_max_left _ _).trans h1, ?_⟩
      intro r hr
      rcases List.mem_cons.1 hr with rfl | hr
      · exact (le_max_right _ _).trans h1
      · exact h2 r hr
  exact (key _ 0).2 r (List.mem_filter.2 ⟨hr, by simp⟩)

theorem maxSize_le (s : St) (name : String) (c : ℕ) (h : ∀ r ∈ s.nodal, r.field = name → r.size ≤ c) : s.maxSize name ≤ c := by
  unfold St.maxSize
  have key : ∀ (l : List Reg) (m : ℕ), m ≤ c → (∀ r ∈ l, r.size ≤ c) → l.foldl (fun m r => max m r.size) m ≤ c := by
    intro l
    induction l with
    | nil => intro m hm _; exact hm
    | cons a t ih =>
      intro m hm hl
      exact ih _ (max_le hm (hl a (List.mem_cons_self ..))) fun r hr => hl r (List.mem_cons_of_mem _ hr)
  exact key _ 0 (Nat.zero_le _) fun r hr => h r (List.mem_filter.1 hr).1 (by simpa using (List.mem_filter.1 hr).2)

theorem maxSize_eq (s : St) (name : String) (c : ℕ) (hh : s.has name)
    (h : ∀ r ∈ s.nodal, r.field = name → r.size = c) : s.maxSize name = c := by
  obtain ⟨r, hr, rfl⟩ := hh
  exact le_antisymm (maxSize_le _ _ _ fun r' hr' he => (h r' hr' he).le) ((h r hr rfl).ge.trans (le_maxSize s r hr))

/-- The effect of registering the averages of one target. -/
theorem regAll_spec (m : Mesh) (part : String) (l : List (String × String)) : ∀ (s s' : St),
    regAll m part l s = .ok s' → Ext s s' ∧ ∀ pa ∈ l, pa.2 ∈ s'.restart ∧
      ∃ k, (⟨pa.2, part, k⟩ : Reg) ∈ s'.nodal ∧ m.isDouble pa.1 = true ∧ s'.has pa.1 ∧
        ∀ c, (∀ r ∈ s'.nodal, r.field = pa.1 → r.size = c) → k = c := by
  induction l with
  | nil => intro s s' h; simp only [regAll, Except.ok.injEq] at h; subst h; exact ⟨Ext.refl _, by simp⟩
  | cons x t ih =>
    intro s s' h
    obtain ⟨p, a⟩ := x
    simp only [regAll] at h
    cases h1 : regFromPrimitive m p a part s with
    | error e => simp [h1] at h
    | ok s1 =>
      simp only [h1] at h
      obtain ⟨e2, hall⟩ := ih s1 s' h
      unfold regFromPrimitive at h1
      dsimp only at h1
      split at h1
      · simp at h1
      · rename_i hhas
        split at h1
        · simp at h1
        · rename_i hdbl
          simp only [Except.ok.injEq] at h1
          have e1 : Ext s s1 := by
            subst h1
            exact ⟨fun r hr => by simp [hr], fun y hy => by simp [hy]⟩
          refine ⟨e1.trans e2, ?_⟩
          intro pa hpa
          rcases List.mem_cons.1 hpa with rfl | hpa
          · have hhas' : s.has p := not_not.1 hhas
            refine ⟨e2.restart _ (by subst h1; simp), s.maxSize p, e2.nodal _ (by subst h1; simp [St.maxSize]), by simpa using hdbl, ?_, ?_⟩
            · obtain ⟨r, hr, he⟩ := hhas'
              exact ⟨r, (e1.trans e2).nodal r hr, he⟩
            · intro c hc
              exact maxSize_eq s p c hhas' fun r hr he => hc r ((e1.trans e2).nodal r hr) he
          · exact hall pa hpa

/-- What set-up has to achieve for one specification on one part. -/
structure Registered (m : Mesh) (i : Info) (part : String) (s' : St) : Prop where
  part_exists : part ∈ m.parts
  sfs3D : i.flags.sfsStress = true ∨ i.flags.temperatureSFS = true → 3 ≤ m.nDim
  specials : ∀ x ∈ specials m.nDim i.flags, x.1 = true → (⟨x.2.1, part, x.2.2.1⟩ : Reg) ∈ s'.nodal ∧
    (x.2.2.2 = true → x.2.1 ∈ s'.restart)
  density : (⟨"density_ra_" ++ i.name, part, 1⟩ : Reg) ∈ s'.nodal
  averages : ∀ pa ∈ namePairs i, pa.2 ∈ s'.restart ∧
    ∃ k, (⟨pa.2, part, k⟩ : Reg) ∈ s'.nodal ∧ m.isDouble pa.1 = true ∧ s'.has pa.1 ∧
      ∀ c, (∀ r ∈ s'.nodal, r.field = pa.1 → r.size = c) → k = c

theorem Registered.mono {m : Mesh} {i : Info} {part : String} {s s' : St} (h : Registered m i part s) (e : Ext s s') :
    Registered m i part s' := by
  refine ⟨h.part_exists, h.sfs3D, fun x hx hb => ⟨e.nodal _ (h.specials x hx hb).1, fun hr => e.restart _ ((h.specials x hx hb).2 hr)⟩,
    e.nodal _ h.density, fun pa hpa => ?_⟩
  obtain ⟨h1, k, h2, h3, ⟨r, hr, he⟩, h4⟩ := h.averages pa hpa
  exact ⟨e.restart _ h1, k, e.nodal _ h2, h3, ⟨r, e.nodal _ hr, he⟩, fun c hc => h4 c fun r hr he => hc r (e.nodal r hr) he⟩

theorem density_name (n : String) : reynoldsName n "density" = "density_ra_" ++ n := by
  unfold reynoldsName
  rw [String.append_assoc, show ("density_ra_" : String) = "density" ++ "_ra_" from by decide, String.append_assoc]

theorem setupTarget_spec (m : Mesh) (i : Info) (part : String) (s s' : St) (h : setupTarget m i part s = .ok s') :
    Ext s s' ∧ Registered m i part s' := by
  unfold setupTarget at h
  split at h
  · simp at h
  · rename_i hp
    split at h
    · simp at h
    · rename_i hs
      dsimp only at h
      cases h1 : regAll m part (namePairs i) { regSpecials part (specials m.nDim i.flags) s with
          nodal := (regSpecials part (specials m.nDim i.flags) s).nodal ++ [⟨reynoldsName i.name "density", part, 1⟩] } with
      | error e => simp [h1] at h
      | ok s2 =>
        simp only [h1, Except.ok.injEq] at h
        obtain ⟨e2, hall⟩ := regAll_spec m part _ _ _ h1
        set s1 : St := { regSpecials part (specials m.nDim i.flags) s with
          nodal := (regSpecials part (specials m.nDim i.flags) s).nodal ++ [⟨reynoldsName i.name "density", part, 1⟩] } with hs1
        have e1 : Ext (regSpecials part (specials m.nDim i.flags) s) s1 :=
          ⟨fun r hr => by simp [hs1, hr], fun x hx => hx⟩
        have e3 : Ext s2 s' := by
          subst h
          exact (ext_ite ..).trans ((ext_ite ..).trans (ext_ite ..))
        refine ⟨(ext_regSpecials ..).trans (e1.trans (e2.trans e3)), Registered.mono (s := s2) ⟨not_not.1 hp, ?_, ?_, ?_, hall⟩ e3⟩
        · intro hf
          by_contra hlt
          apply hs
          rcases hf with hf | hf <;> simp [hf] <;> omega
        · intro x hx hb
          obtain ⟨a, b⟩ := regSpecials_mem part _ s x hx hb
          exact ⟨e2.nodal _ (e1.nodal _ a), fun hr => e2.restart _ (e1.restart _ (b hr))⟩
        · rw [← density_name]
          exact e2.nodal _ (by simp [hs1])

theorem setupTargets_spec (m : Mesh) (i : Info) (ts : List String) : ∀ (s s' : St), setupTargets m i ts s = .ok s' →
    Ext s s' ∧ ∀ t ∈ ts, Registered m i t s' := by
  induction ts with
  | nil => intro s s' h; simp only [setupTargets, Except.ok.injEq] at h; subst h; exact ⟨Ext.refl _, by simp⟩
  | cons t ts ih =>
    intro s s' h
    simp only [setupTargets] at h
    cases h1 : setupTarget m i t s with
    | error e => simp [h1] at h
    | ok s1 =>
      simp only [h1] at h
      obtain ⟨e1, r1⟩ := setupTarget_spec m i t s s1 h1
      obtain ⟨e2, r2⟩ := ih s1 s' h
      refine ⟨e1.trans e2, ?_⟩
      intro u hu
      rcases List.mem_cons.1 hu with rfl | hu
      · exact r1.mono e2
      · exact r2 u hu

/-- The names of the pairs of one specification. -/
def pairNames (ps : Pairs) : List (String × String) := (ps.reynolds ++ ps.favre ++ ps.resolved).map fun q => (q.prim, q.avg)

theorem setupInfo_spec (m : Mesh) (i : Info) (s s' : St) (ps : Pairs) (h : setupInfo m i s = .ok (ps, s')) :
    Ext s s' ∧ (∀ t ∈ i.targets, Registered m i t s') ∧ i.targets ≠ [] ∨ (s.has (reynoldsName i.name "density") ∧ Ext s s' ∧ i.targets = []) := by
  unfold setupInfo at h
  cases h1 : setupTargets m i i.targets s with
  | error e => simp [h1] at h
  | ok s1 =>
    simp only [h1] at h
    split at h
    · simp at h
    · rename_i hd
      push Not at hd
      obtain ⟨e1, r1⟩ := setupTargets_spec m i _ _ _ h1
      simp only [Except.ok.injEq, Prod.mk.injEq] at h
      have e2 : Ext s1 s' := by
        rw [← h.2]
        exact ⟨fun r hr => hr, fun x hx => by simp [hx]⟩
      by_cases ht : i.targets = []
      · right
        rw [ht] at h1
        simp only [setupTargets, Except.ok.injEq] at h1
        subst h1
        exact ⟨hd.2, e2, ht⟩
      · left
        exact ⟨⟨fun r hr => e2.nodal _ (e1.nodal r hr), fun x hx => e2.restart _ (e1.restart x hx)⟩, fun t htt => (r1 t htt).mono e2, ht⟩

theorem setupInfo_pairs (m : Mesh) (i : Info) (s s' : St) (ps : Pairs) (h : setupInfo m i s = .ok (ps, s')) :
    ps.reynolds.map (fun q => (q.prim, q.avg)) = ("density" :: i.reynolds).map (fun p => (p, p ++ "_ra_" ++ i.name)) ∧
    ps.favre.map (fun q => (q.prim, q.avg)) = i.favre.map (fun p => (p, p ++ "_fa_" ++ i.name)) ∧
    ps.resolved.map (fun q => (q.prim, q.avg)) = i.resolved.map (fun p => (p, p ++ "_resa_" ++ i.name)) ∧
    (∀ x ∈ pairNames ps, x.2 ∈ s'.restart) ∧ s'.has "density" := by
  unfold setupInfo at h
  cases h1 : setupTargets m i i.targets s with
  | error e => simp [h1] at h
  | ok s1 =>
    simp only [h1] at h
    split at h
    · simp at h
    · rename_i hd
      push Not at hd
      simp only [Except.ok.injEq, Prod.mk.injEq] at h
      obtain ⟨rfl, rfl⟩ := h
      refine ⟨?_, ?_, ?_, ?_, hd.1⟩
      · simp [constructPair, reynoldsName]
      · simp [constructPair, favreName]
      · simp [constructPair, resolvedName]
      · intro x hx
        simp only [pairNames, List.mem_map, List.mem_append, List.mem_cons] at hx
        obtain ⟨q, hq, rfl⟩ := hx
        simp only [List.mem_append, List.mem_map, List.mem_singleton]
        rcases hq with ((rfl | hq) | hq) | hq
        · left; right; rfl
        · right; exact ⟨q, Or.inl (Or.inl (by simpa using hq)), rfl⟩
        · right; exact ⟨q, Or.inl (Or.inr (by simpa using hq)), rfl⟩
        · right; exact ⟨q, Or.inr (by simpa using hq), rfl⟩

/-- C306: after a successful set-up, for every specification with targets and every target part: the part
exists, all special fields asked for are registered there with their sizes, so is the averaged density
and, for each averaged variable, a field under the documented name with as many components as the
variable; all of these names are restart variables; and sub-filter stresses are only accepted in
three dimensions. -/
theorem c306_registered (m : Mesh) : ∀ (is : List Info) (s s' : St) (ps : List Pairs), setup m is s = .ok (ps, s') →
    Ext s s' ∧ ∀ i ∈ is, ∀ t ∈ i.targets, Registered m i t s' := by
  intro is
  induction is with
  | nil => intro s s' ps h; simp only [setup, Except.ok.injEq, Prod.mk.injEq] at h; rw [← h.2]; exact ⟨Ext.refl _, by simp⟩
  | cons i is ih =>
    intro s s' ps h
    simp only [setup] at h
    cases h1 : setupInfo m i s with
    | error e => simp [h1] at h
    | ok r =>
      obtain ⟨p, s1⟩ := r
      simp only [h1] at h
      cases h2 : setup m is s1 with
      | error e => simp [h2] at h
      | ok r2 =>
        obtain ⟨ps2, s2⟩ := r2
        simp only [h2, Except.ok.injEq, Prod.mk.injEq] at h
        obtain ⟨-, rfl⟩ := h
        obtain ⟨e2, r2⟩ := ih s1 s2 ps2 h2
        rcases setupInfo_spec m i s s1 p h1 with ⟨e1, r1, -⟩ | ⟨-, e1, ht⟩
        · refine ⟨e1.trans e2, ?_⟩
          intro j hj t htj
          rcases List.mem_cons.1 hj with rfl | hj
          · exact (r1 t htj).mono e2
          · exact r2 j hj t htj
        · refine ⟨e1.trans e2, ?_⟩
          intro j hj t htj
          rcases List.mem_cons.1 hj with rfl | hj
          · rw [ht] at htj; simp at htj
          · exact r2 j hj t htj

/-- C306: the pairs that are averaged in each time step are, per specification, the density first and
then exactly the listed variables with their documented names. -/
theorem c306_pairs (m : Mesh) : ∀ (is : List Info) (s s' : St) (ps : List Pairs), setup m is s = .ok (ps, s') →
    List.Forall₂ (fun i p =>
      p.reynolds.map (fun q => (q.prim, q.avg)) = ("density" :: i.reynolds).map (fun x => (x, x ++ "_ra_" ++ i.name)) ∧
      p.favre.map (fun q => (q.prim, q.avg)) = i.favre.map (fun x => (x, x ++ "_fa_" ++ i.name)) ∧
      p.resolved.map (fun q => (q.prim, q.avg)) = i.resolved.map (fun x => (x, x ++ "_resa_" ++ i.name)) ∧
      ∀ x ∈ pairNames p, x.2 ∈ s'.restart) is ps := by
  intro is
  induction is with
  | nil => intro s s' ps h; simp only [setup, Except.ok.injEq, Prod.mk.injEq] at h; rw [← h.1]; exact .nil
  | cons i is ih =>
    intro s s' ps h
    simp only [setup] at h
    cases h1 : setupInfo m i s with
    | error e => simp [h1] at h
    | ok r =>
      obtain ⟨p, s1⟩ := r
      simp only [h1] at h
      cases h2 : setup m is s1 with
      | error e => simp [h2] at h
      | ok r2 =>
        obtain ⟨ps2, s2⟩ := r2
        simp only [h2, Except.ok.injEq, Prod.mk.injEq] at h
        obtain ⟨rfl, rfl⟩ := h
        obtain ⟨a, b, c, d, -⟩ := setupInfo_pairs m i s s1 p h1
        obtain ⟨e2, -⟩ := c306_registered m is s1 s2 ps2 h2
        exact .cons ⟨a, b, c, fun x hx => e2.restart _ (d x hx)⟩ (ih s1 s2 ps2 h2)

/-- C306: the special fields and their sizes written out: a symmetric tensor has three components in two dimensions and six in
three, a flux as many as there are dimensions, a scalar one; the vorticity has always three and is the only one that is not
restarted. -/
theorem c306_special_fields (m : Mesh) (hd : m.nDim = 2 ∨ m.nDim = 3) (i : Info) (part : String) (s s' : St)
    (h : setupTarget m i part s = .ok s') (name : String) (size : ℕ) (restart : Bool)
    (hs : (i.flags.tke = true ∧ name = "resolved_turbulent_ke" ∧ size = 1 ∧ restart = true) ∨
      (i.flags.favreTke = true ∧ name = "resolved_favre_turbulent_ke" ∧ size = 1 ∧ restart = true) ∨
      (i.flags.vorticity = true ∧ name = "vorticity" ∧ size = 3 ∧ restart = false) ∨
      (i.flags.qCriterion = true ∧ name = "q_criterion" ∧ size = 1 ∧ restart = true) ∨
      (i.flags.lambdaCI = true ∧ name = "lambda_ci" ∧ size = 1 ∧ restart = true) ∨
      (i.flags.reynoldsStress = true ∧ name = "reynolds_stress" ∧ size = m.nDim * (m.nDim + 1) / 2 ∧ restart = true) ∨
      (i.flags.favreStress = true ∧ name = "favre_stress" ∧ size = m.nDim * (m.nDim + 1) / 2 ∧ restart = true) ∨
      ((i.flags.resolvedStress = true ∨ i.flags.temperatureResolved = true) ∧ name = "resolved_stress" ∧
        size = m.nDim * (m.nDim + 1) / 2 ∧ restart = true) ∨
      (i.flags.temperatureResolved = true ∧ name = "temperature_resolved_flux" ∧ size = m.nDim ∧ restart = true) ∨
      (i.flags.temperatureResolved = true ∧ name = "temperature_variance" ∧ size = 1 ∧ restart = true) ∨
      ((i.flags.sfsStress = true ∨ i.flags.temperatureSFS = true) ∧ name = "sfs_stress" ∧
        size = m.nDim * (m.nDim + 1) / 2 ∧ restart = true) ∨
      (i.flags.temperatureSFS = true ∧ name = "temperature_sfs_flux" ∧ size = m.nDim ∧ restart = true)) :
    (⟨name, part, size⟩ : Reg) ∈ s'.nodal ∧ (restart = true → name ∈ s'.restart) := by
  obtain ⟨-, r⟩ := setupTarget_spec m i part s s' h
  have hst : (if m.nDim = 3 then 6 else 3) = m.nDim * (m.nDim + 1) / 2 := by
    rcases hd with e | e <;> rw [e] <;> decide
  have key : ∀ b, b = true → (b, name, size, restart) ∈ specials m.nDim i.flags →
      (⟨name, part, size⟩ : Reg) ∈ s'.nodal ∧ (restart = true → name ∈ s'.restart) := fun b hb hx => r.specials _ hx hb
  rcases hs with ⟨h1, rfl, rfl, rfl⟩ | ⟨h1, rfl, rfl, rfl⟩ | ⟨h1, rfl, rfl, rfl⟩ | ⟨h1, rfl, rfl, rfl⟩ | ⟨h1, rfl, rfl, rfl⟩ |
    ⟨h1, rfl, rfl, rfl⟩ | ⟨h1, rfl, rfl, rfl⟩ | ⟨h1, rfl, rfl, rfl⟩ | ⟨h1, rfl, rfl, rfl⟩ | ⟨h1, rfl, rfl, rfl⟩ |
    ⟨h1, rfl, rfl, rfl⟩ | ⟨h1, rfl, rfl, rfl⟩
  · exact key i.flags.tke h1 (by simp [specials])
  · exact key i.flags.favreTke h1 (by simp [specials])
  · exact key i.flags.vorticity h1 (by simp [specials])
  · exact key i.flags.qCriterion h1 (by simp [specials])
  · exact key i.flags.lambdaCI h1 (by simp [specials])
  · exact key i.flags.reynoldsStress h1 (by rw [← hst]; simp [specials])
  · exact key i.flags.favreStress h1 (by rw [← hst]; simp [specials])
  · exact key (i.flags.resolvedStress || i.flags.temperatureResolved) (by simpa using h1) (by rw [← hst]; simp [specials])
  · exact key i.flags.temperatureResolved h1 (by simp [specials])
  · exact key i.flags.temperatureResolved h1 (by simp [specials])
  · exact key (i.flags.sfsStress || i.flags.temperatureSFS) (by simpa using h1) (by rw [← hst]; simp [specials])
  · exact key i.flags.temperatureSFS h1 (by simp [specials])

/-- C306: a variable that no one registered is refused: if it is neither present before nor one of the
names registered by this target, set-up of the target fails. -/
theorem c306_missing_refused (m : Mesh) (i : Info) (part : String) (s s' : St) (h : setupTarget m i part s = .ok s')
    (p : String) (hp : p ∈ i.reynolds ++ i.favre ++ i.resolved ++ i.moving) : s'.has p ∧ m.isDouble p = true := by
  obtain ⟨-, r⟩ := setupTarget_spec m i part s s' h
  have : ∃ a, (p, a) ∈ namePairs i := by
    simp only [List.mem_append] at hp
    unfold namePairs
    rcases hp with ((hp | hp) | hp) | hp
    · exact ⟨_, by simp only [List.mem_append, List.mem_map]; exact Or.inl (Or.inl (Or.inl ⟨p, hp, rfl⟩))⟩
    · exact ⟨_, by simp only [List.mem_append, List.mem_map]; exact Or.inl (Or.inl (Or.inr ⟨p, hp, rfl⟩))⟩
    · exact ⟨_, by simp only [List.mem_append, List.mem_map]; exact Or.inl (Or.inr ⟨p, hp, rfl⟩)⟩
    · exact ⟨_, by simp only [List.mem_append, List.mem_map]; exact Or.inr ⟨p, hp, rfl⟩⟩
  obtain ⟨a, ha⟩ := this
  obtain ⟨-, k, -, h3, h4, -⟩ := r.averages _ ha
  exact ⟨h4, h3⟩

/-- A variable exists before set-up or is one of the special fields asked for. -/
theorem regAll_ok (m : Mesh) (part : String) (l : List (String × String)) : ∀ (s : St),
    (∀ pa ∈ l, s.has pa.1 ∧ m.isDouble pa.1 = true) → ∃ s', regAll m part l s = .ok s' := by
  induction l with
  | nil => intro s _; exact ⟨s, rfl⟩
  | cons x t ih =>
    intro s h
    obtain ⟨p, a⟩ := x
    obtain ⟨h1, h2⟩ := h _ (List.mem_cons_self ..)
    have h1' : ({ s with restart := s.restart ++ [a] } : St).has p := h1
    simp only [regAll, regFromPrimitive, h1', h2, not_true_eq_false, if_false]
    refine ih _ fun pa hpa => ?_
    obtain ⟨⟨r, hr, he⟩, h3⟩ := h pa (List.mem_cons_of_mem _ hpa)
    exact ⟨⟨r, by simp [hr], he⟩, h3⟩

theorem setupTarget_ok (m : Mesh) (i : Info) (part : String) (s : St) (hp : part ∈ m.parts)
    (hs : i.flags.sfsStress = true ∨ i.flags.temperatureSFS = true → 3 ≤ m.nDim)
    (hv : ∀ p ∈ i.reynolds ++ i.favre ++ i.resolved ++ i.moving,
      (s.has p ∨ ∃ x ∈ specials m.nDim i.flags, x.1 = true ∧ x.2.1 = p) ∧ m.isDouble p = true) :
    ∃ s', setupTarget m i part s = .ok s' := by
  unfold setupTarget
  rw [if_neg (not_not.2 hp), if_neg]
  · dsimp only
    obtain ⟨s2, h2⟩ := regAll_ok m part (namePairs i) { regSpecials part (specials m.nDim i.flags) s with
          nodal := (regSpecials part (specials m.nDim i.flags) s).nodal ++ [⟨reynoldsName i.name "density", part, 1⟩] } (by
      intro pa hpa
      have hm : pa.1 ∈ i.reynolds ++ i.favre ++ i.resolved ++ i.moving := by
        unfold namePairs at hpa
        simp only [List.mem_append, List.mem_map] at hpa ⊢
        rcases hpa with ((⟨p, hp, rfl⟩ | ⟨p, hp, rfl⟩) | ⟨p, hp, rfl⟩) | ⟨p, hp, rfl⟩ <;> simp [hp]
      obtain ⟨hh, hd⟩ := hv _ hm
      refine ⟨?_, hd⟩
      rcases hh with ⟨r, hr, he⟩ | ⟨x, hx, hb, he⟩
      · exact ⟨r, by simp [(ext_regSpecials part (specials m.nDim i.flags) s).nodal r hr], he⟩
      · exact ⟨⟨x.2.1, part, x.2.2.1⟩, by simp [(regSpecials_mem part (specials m.nDim i.flags) s x hx hb).1], he⟩)
    rw [h2]
    exact ⟨_, rfl⟩
  · intro hc
    simp only [Bool.and_eq_true, Bool.or_eq_true, decide_eq_true_eq] at hc
    exact absurd (hs hc.1) (by omega)

theorem has_mono {s s' : St} (e : Ext s s') {p : String} (h : s.has p) : s'.has p := by
  obtain ⟨r, hr, he⟩ := h; exact ⟨r, e.nodal r hr, he⟩

/-- C306: set-up succeeds when the density field exists and every specification has at least one
target, all its targets exist, sub-filter quantities are asked for in three dimensions only, and every listed variable is a
field of doubles that exists or is one of the special fields of the specification. -/
theorem c306_accepted (m : Mesh) : ∀ (is : List Info) (s : St), s.has "density" →
    (∀ i ∈ is, i.targets ≠ [] ∧ (∀ t ∈ i.targets, t ∈ m.parts) ∧
      (i.flags.sfsStress = true ∨ i.flags.temperatureSFS = true → 3 ≤ m.nDim) ∧
      ∀ p ∈ i.reynolds ++ i.favre ++ i.resolved ++ i.moving,
        (s.has p ∨ ∃ x ∈ specials m.nDim i.flags, x.1 = true ∧ x.2.1 = p) ∧ m.isDouble p = true) →
    ∃ r, setup m is s = .ok r := by
  intro is
  induction is with
  | nil => intro s _ _; exact ⟨_, rfl⟩
  | cons i is ih =>
    intro s hd h
    obtain ⟨h1, h2, h3, h4⟩ := h i (List.mem_cons_self ..)
    have key : ∀ (ts : List String) (s : St), (∀ t ∈ ts, t ∈ m.parts) → (∀ p ∈ i.reynolds ++ i.favre ++ i.resolved ++ i.moving,
        (s.has p ∨ ∃ x ∈ specials m.nDim i.flags, x.1 = true ∧ x.2.1 = p) ∧ m.isDouble p = true) →
        ∃ s', setupTargets m i ts s = .ok s' := by
      intro ts
      induction ts with
      | nil => intro s _ _; exact ⟨_, rfl⟩
      | cons t ts iht =>
        intro s hp hv
        obtain ⟨s1, e1⟩ := setupTarget_ok m i t s (hp t (List.mem_cons_self ..)) h3 hv
        obtain ⟨ex, -⟩ := setupTarget_spec m i t s s1 e1
        obtain ⟨s2, e2⟩ := iht s1 (fun u hu => hp u (List.mem_cons_of_mem _ hu)) fun p hp => by
          obtain ⟨a, b⟩ := hv p hp
          exact ⟨a.imp (has_mono ex) id, b⟩
        exact ⟨s2, by simp only [setupTargets, e1, e2]⟩
    obtain ⟨s1, e1⟩ := key i.targets s h2 h4
    obtain ⟨ex, reg⟩ := setupTargets_spec m i _ _ _ e1
    have hdr : s1.has (reynoldsName i.name "density") := by
      obtain ⟨t, ht⟩ := List.exists_mem_of_ne_nil _ h1
      rw [density_name]
      exact ⟨_, (reg t ht).density, rfl⟩
    have hinfo : ∃ p s2, setupInfo m i s = .ok (p, s2) ∧ Ext s s2 := by
      unfold setupInfo
      rw [e1]
      dsimp only
      rw [if_neg (by push Not; exact ⟨has_mono ex hd, hdr⟩)]
      refine ⟨_, _, rfl, ?_⟩
      exact ⟨fun r hr => ex.nodal r hr, fun x hx => by simp [ex.restart x hx]⟩
    obtain ⟨p, s2, e2, ex2⟩ := hinfo
    obtain ⟨r, e3⟩ := ih s2 (has_mono ex2 hd) fun j hj => by
      obtain ⟨a, b, c, d⟩ := h j (List.mem_cons_of_mem _ hj)
      exact ⟨a, b, c, fun p hp => ⟨(d p hp).1.imp (has_mono ex2) id, (d p hp).2⟩⟩
    exact ⟨(p :: r.1, r.2), by simp only [setup, e2, e3]⟩

/-! ### C307: averaged names -/

theorem toList_cancel {p q b : List Char} (h : p ++ b = q ++ b) : p = q := List.append_cancel_right h

/-- Within a block the documented names of two variables agree only for the same kind of average and the
same variable. -/
theorem name_inj (b p q : String) :
    (p ++ "_ra_" ++ b = q ++ "_ra_" ++ b → p = q) ∧ (p ++ "_fa_" ++ b = q ++ "_fa_" ++ b → p = q) ∧
    (p ++ "_resa_" ++ b = q ++ "_resa_" ++ b → p = q) ∧
    p ++ "_ra_" ++ b ≠ q ++ "_fa_" ++ b ∧ p ++ "_ra_" ++ b ≠ q ++ "_resa_" ++ b ∧ p ++ "_fa_" ++ b ≠ q ++ "_resa_" ++ b := by
  have conv : ∀ (x y : String), x = y ↔ x.toList = y.toList := fun x y => ⟨fun h => h ▸ rfl, fun h => String.toList_injective h⟩
  refine ⟨fun h => ?_, fun h => ?_, fun h => ?_, fun h => ?_, fun h => ?_, fun h => ?_⟩ <;>
    rw [conv] at h <;> simp only [String.toList_append] at h
  · exact (conv _ _).2 (List.append_cancel_right (List.append_cancel_right h))
  · exact (conv _ _).2 (List.append_cancel_right (List.append_cancel_right h))
  · exact (conv _ _).2 (List.append_cancel_right (List.append_cancel_right h))
  all_goals
    have h' := congrArg List.reverse (List.append_cancel_right h)
    rw [List.reverse_append, List.reverse_append] at h'
    simp at h'

/-- C307: if the user lists no variable twice, the fields averaged for a block are all different, so each is
updated once per step. -/
theorem c307_names_distinct (m : Mesh) (sp : Spec) (i : Info) (hl : loadSpec sp = .ok i) (hr : sp.reynolds.Nodup) (hf : sp.favre.Nodup)
    (s s' : St) (ps : Pairs) (h : setupInfo m i s = .ok (ps, s')) :
    ((ps.reynolds ++ ps.favre ++ ps.resolved).map Pair.avg).Nodup := by
  obtain ⟨h1, h2, h3, -, -⟩ := setupInfo_pairs m i s s' ps h
  have e : ∀ (l : List Pair) (l' : List String) (f : String → String), l.map (fun q => (q.prim, q.avg)) = l'.map (fun p => (p, f p)) →
      l.map Pair.avg = l'.map f := by
    intro l l' f he
    have := congrArg (List.map Prod.snd) he
    simpa [List.map_map, Function.comp_def] using this
  rw [List.map_append, List.map_append, e _ _ _ h1, e _ _ _ h2, e _ _ _ h3]
  obtain ⟨n1, n2, n3⟩ := c304_no_repetition sp i hl
  have hd : "density" ∉ i.reynolds := by
    cases hn : sp.name with
    | none => simp [loadSpec, hn] at hl
    | some n =>
      cases ht : sp.targets with
      | none => simp [loadSpec, hn, ht] at hl
      | some t =>
        obtain ⟨i', e', -, -, -, hm, -⟩ := c304_lists sp n t hn ht
        rw [hl] at e'
        cases e'
        rw [hm]
        simp
  have key := name_inj i.name
  rw [List.nodup_append, List.nodup_append]
  refine ⟨⟨?_, ?_, ?_⟩, ?_, ?_⟩
  · exact List.Nodup.map_on (fun p _ q _ h => (key p q).1 h) (List.nodup_cons.2 ⟨hd, n1 hr⟩)
  · exact List.Nodup.map_on (fun p _ q _ h => (key p q).2.1 h) (n2 hf)
  · intro a ha b hb
    obtain ⟨p, -, rfl⟩ := List.mem_map.1 ha
    obtain ⟨q, -, rfl⟩ := List.mem_map.1 hb
    exact (key p q).2.2.2.1
  · exact List.Nodup.map_on (fun p _ q _ h => (key p q).2.2.1 h) n3
  · intro a ha b hb
    obtain ⟨q, -, rfl⟩ := List.mem_map.1 hb
    rcases List.mem_append.1 ha with ha | ha
    · obtain ⟨p, -, rfl⟩ := List.mem_map.1 ha
      exact (key p q).2.2.2.2.1
    · obtain ⟨p, -, rfl⟩ := List.mem_map.1 ha
      exact (key p q).2.2.2.2.2

/-- C307: two blocks never share an averaged field if their names differ and neither is the end of the
other after an underscore, whatever the variables and kinds of average. -/
theorem c307_blocks_distinct (b c p q k l : String) (hk : k = "_ra_" ∨ k = "_fa_" ∨ k = "_resa_")
    (hl : l = "_ra_" ∨ l = "_fa_" ∨ l = "_resa_") (hne : b ≠ c)
    (h1 : ¬ ('_' :: b.toList) <:+ c.toList) (h2 : ¬ ('_' :: c.toList) <:+ b.toList) : p ++ k ++ b ≠ q ++ l ++ c := by
  have core : ∀ (b c p q k l : String), (k = "_ra_" ∨ k = "_fa_" ∨ k = "_resa_") → b ≠ c → ¬ ('_' :: b.toList) <:+ c.toList →
      p ++ k ++ b = q ++ l ++ c → ¬ b.toList.length ≤ c.toList.length := by
    intro b c p q k l hk hne h1 he hle
    have he' := congrArg String.toList he
    simp only [String.toList_append] at he'
    have hsuf : b.toList <:+ c.toList :=
      List.suffix_of_suffix_length_le (l₃ := p.toList ++ k.toList ++ b.toList) ⟨_, rfl⟩ (he' ▸ ⟨_, rfl⟩) hle
    obtain ⟨x, hx⟩ := hsuf
    rw [← hx, ← List.append_assoc] at he'
    have he2 := List.append_cancel_right he'
    rcases List.eq_nil_or_concat x with rfl | ⟨y, d, rfl⟩
    · exact hne (String.toList_injective (by simpa using hx))
    · have hd : d = '_' := by
        have h3 := congrArg List.getLast? he2
        rcases hk with rfl | rfl | rfl <;> simp [List.getLast?_append] at h3 <;> exact h3.symm
      subst hd
      exact h1 ⟨y, by rw [← hx]; simp⟩
  intro he
  rcases le_total b.toList.length c.toList.length with h | h
  · exact core b c p q k l hk hne h1 he h
  · exact core c b q p l k hl (Ne.symm hne) h2 he.symm h

/-- C307: without that condition two blocks can share a field. -/
theorem c307_collision : "velocity" ++ "_ra_" ++ "a_ra_b" = "velocity_ra_a" ++ "_ra_" ++ "b" := by decide

/-- The averaging loop at a node for one component (TurbulenceAveragingPostProcessing.C:708-723): pair after
pair, reading the primitive and overwriting the average. -/
def updateAll {K : Type*} [Field K] [LinearOrder K] (w : Nalu.Averaging.Weights K) (prim : String → K) (ps : List Pair) (avg : String → K) : String → K :=
  ps.foldl (fun a q => Function.update a q.avg (Nalu.Averaging.reynolds w (a q.avg) (prim q.prim))) avg

/-- C307: when the averaged fields are all different each of them gets exactly one update. -/
theorem c307_updated_once {K : Type*} [Field K] [LinearOrder K] (w : Nalu.Averaging.Weights K) (prim : String → K) (ps : List Pair)
    (avg : String → K) (hn : (ps.map Pair.avg).Nodup) :
    (∀ q ∈ ps, updateAll w prim ps avg q.avg = Nalu.Averaging.reynolds w (avg q.avg) (prim q.prim)) ∧
    ∀ x, x ∉ ps.map Pair.avg → updateAll w prim ps avg x = avg x := by
  unfold updateAll
  induction ps generalizing avg with
  | nil => simp
  | cons a t ih =>
    rw [List.map_cons, List.nodup_cons] at hn
    obtain ⟨h1, h2⟩ := ih (Function.update avg a.avg (Nalu.Averaging.reynolds w (avg a.avg) (prim a.prim))) hn.2
    constructor
    · intro q hq
      rw [List.foldl_cons]
      rcases List.mem_cons.1 hq with rfl | hq
      · rw [h2 _ hn.1]; simp
      · rw [h1 q hq, Function.update_of_ne]
        intro he
        exact hn.1 (he ▸ List.mem_map.2 ⟨q, hq, rfl⟩)
    · intro x hx
      rw [List.map_cons, List.mem_cons, not_or] at hx
      rw [List.foldl_cons, h2 x hx.2, Function.update_of_ne hx.1]

/-- C307: a variable listed twice, or two blocks of the same name, give a field that is updated twice per step; within
an averaging window this is right only where the variable equals its average already. -/
theorem c307_listed_twice_wrong {K : Type*} [Field K] [LinearOrder K] [IsStrictOrderedRing K] (prim : String → K) (q : Pair) (avg : String → K) (old dt : K)
    (ho : 0 < old) (hdt : 0 < dt) :
    let w : Nalu.Averaging.Weights K := ⟨old, 1, old + dt, dt⟩
    updateAll w prim [q, q] avg q.avg = Nalu.Averaging.reynolds w (avg q.avg) (prim q.prim) ↔ prim q.prim = avg q.avg := by
  intro w
  have hc : old + dt ≠ 0 := (add_pos ho hdt).ne'
  simp only [updateAll, List.foldl_cons, List.foldl_nil, Function.update_self, Nalu.Averaging.reynolds, w]
  rw [div_left_inj' hc, add_left_inj, mul_one, mul_one]
  constructor
  · intro h
    have h2 := mul_right_cancel₀ ho.ne' h
    rw [div_eq_iff hc] at h2
    have : (prim q.prim - avg q.avg) * dt = 0 := by linear_combination h2
    rcases mul_eq_zero.1 this with h3 | h3
    · exact sub_eq_zero.1 h3
    · exact absurd h3 hdt.ne'
  · intro h
    rw [h]
    field_simp

/-! ### C308: mean fields read later -/

/-- The mean fields read when the requested quantities are computed: `compute_tke` (lines 844-846),
`compute_reynolds_stress` (895), `compute_favre_stress` (957-958), `compute_dissipation_rate` (1610-1620). -/
def meanRead (i : Info) : List String :=
  (if i.flags.tke || i.flags.reynoldsStress then ["velocity_ra_" ++ i.name] else []) ++
  (if i.flags.favreTke || i.flags.favreStress then ["velocity_fa_" ++ i.name, "density_ra_" ++ i.name] else []) ++
  (if i.flags.dissipationRate then ["density_ra_" ++ i.name,
    if "velocity" ∈ i.favre then "velocity_fa_" ++ i.name else "velocity_ra_" ++ i.name] else [])

/-- What `compute_production` reads, if it does not refuse (lines 1848-1871). -/
def productionRead (i : Info) : Option (List String) :=
  if "velocity" ∈ i.favre then
    if i.flags.favreStress then some ["density_ra_" ++ i.name, "velocity_fa_" ++ i.name, "favre_stress"] else none
  else if i.flags.reynoldsStress then some ["density_ra_" ++ i.name, "velocity_ra_" ++ i.name, "reynolds_stress"] else none

theorem vel_ra (n : String) : reynoldsName n "velocity" = "velocity_ra_" ++ n := by
  unfold reynoldsName
  rw [String.append_assoc, show ("velocity_ra_" : String) = "velocity" ++ "_ra_" from by decide, String.append_assoc]

theorem vel_fa (n : String) : favreName n "velocity" = "velocity_fa_" ++ n := by
  unfold favreName
  rw [String.append_assoc, show ("velocity_fa_" : String) = "velocity" ++ "_fa_" from by decide, String.append_assoc]

/-- C308: every mean field that a requested quantity reads is registered on every target, provided
that, when only the dissipation rate is asked for, the user also lists velocity. -/
theorem c308_mean_fields_exist_partial (m : Mesh) (sp : Spec) (i : Info) (hl : loadSpec sp = .ok i) (s s' : St) (part : String)
    (h : setupTarget m i part s = .ok s')
    (hd : i.flags.dissipationRate = true → "velocity" ∈ i.favre ∨ "velocity" ∈ i.reynolds) :
    (∀ x ∈ meanRead i, ∃ r ∈ s'.nodal, r.field = x ∧ r.part = part) ∧
    ∀ l, i.flags.production = true → productionRead i = some l → ∀ x ∈ l, ∃ r ∈ s'.nodal, r.field = x ∧ r.part = part := by
  obtain ⟨-, reg⟩ := setupTarget_spec m i part s s' h
  have hra : "velocity" ∈ i.reynolds → ∃ r ∈ s'.nodal, r.field = "velocity_ra_" ++ i.name ∧ r.part = part := by
    intro hv
    obtain ⟨-, k, hk, -⟩ := reg.averages ("velocity", reynoldsName i.name "velocity") (by
      unfold namePairs
      simp only [List.mem_append, List.mem_map]
      exact Or.inl (Or.inl (Or.inl ⟨_, hv, rfl⟩)))
    exact ⟨_, hk, vel_ra _, rfl⟩
  have hfa : "velocity" ∈ i.favre → ∃ r ∈ s'.nodal, r.field = "velocity_fa_" ++ i.name ∧ r.part = part := by
    intro hv
    obtain ⟨-, k, hk, -⟩ := reg.averages ("velocity", favreName i.name "velocity") (by
      unfold namePairs
      simp only [List.mem_append, List.mem_map]
      exact Or.inl (Or.inl (Or.inr ⟨_, hv, rfl⟩)))
    exact ⟨_, hk, vel_fa _, rfl⟩
  have hdens : ∃ r ∈ s'.nodal, r.field = "density_ra_" ++ i.name ∧ r.part = part := ⟨_, reg.density, rfl, rfl⟩
  have hlists : ((i.flags.tke = true ∨ i.flags.reynoldsStress = true) → "velocity" ∈ i.reynolds) ∧
      ((i.flags.favreTke = true ∨ i.flags.favreStress = true) → "velocity" ∈ i.favre) := by
    obtain ⟨hn, ht⟩ := (loadSpec_ok_iff sp).1 ⟨i, hl⟩
    obtain ⟨n, hn⟩ := Option.isSome_iff_exists.1 hn
    obtain ⟨t, ht⟩ := Option.isSome_iff_exists.1 ht
    have hfl : i.flags = sp.flags := by
      unfold loadSpec at hl; simp only [hn, ht, Except.ok.injEq] at hl; rw [← hl]
    obtain ⟨i', e', -, -, -, h1, -, h2, -⟩ := c304_lists sp n t hn ht
    rw [hl] at e'
    cases e'
    rw [hfl]
    exact ⟨fun hf => (h1 _).2 (Or.inr ⟨rfl, hf⟩), fun hf => (h2 _).2 (Or.inr ⟨rfl, hf⟩)⟩
  constructor
  · intro x hx
    unfold meanRead at hx
    simp only [List.mem_append] at hx
    rcases hx with (hx | hx) | hx
    · split at hx
      · rename_i hf
        simp only [List.mem_singleton] at hx
        subst hx
        exact hra (hlists.1 (by simpa using hf))
      · simp at hx
    · split at hx
      · rename_i hf
        simp only [List.mem_cons, List.not_mem_nil, or_false] at hx
        rcases hx with rfl | rfl
        · exact hfa (hlists.2 (by simpa using hf))
        · exact hdens
      · simp at hx
    · split at hx
      · rename_i hf
        simp only [List.mem_cons, List.not_mem_nil, or_false] at hx
        rcases hx with rfl | rfl
        · exact hdens
        · split
          · rename_i hv; exact hfa hv
          · rename_i hv; exact hra ((hd hf).resolve_left hv)
      · simp at hx
  · intro l _ hp x hx
    have hspec : ∀ y, y ∈ specials m.nDim i.flags → y.1 = true → ∃ r ∈ s'.nodal, r.field = y.2.1 ∧ r.part = part :=
      fun y hy hb => ⟨_, (reg.specials y hy hb).1, rfl, rfl⟩
    unfold productionRead at hp
    split at hp
    · rename_i hv
      split at hp
      · rename_i hs
        simp only [Option.some.injEq] at hp
        subst hp
        simp only [List.mem_cons, List.not_mem_nil, or_false] at hx
        rcases hx with rfl | rfl | rfl
        · exact hdens
        · exact hfa hv
        · exact hspec (i.flags.favreStress, "favre_stress", _, true) (by simp [specials]; tauto) hs
      · simp at hp
    · split at hp
      · rename_i hs
        simp only [Option.some.injEq] at hp
        subst hp
        simp only [List.mem_cons, List.not_mem_nil, or_false] at hx
        rcases hx with rfl | rfl | rfl
        · exact hdens
        · exact hra (hlists.1 (Or.inr hs))
        · exact hspec (i.flags.reynoldsStress, "reynolds_stress", _, true) (by simp [specials]; tauto) hs
      · simp at hp

/-- C308, the missing case: asking for the dissipation rate alone is accepted, but the mean velocity it
reads is never registered. -/
theorem c308_dissipation_alone : ∃ (m : Mesh) (sp : Spec) (i : Info) (s s' : St) (ps : List Pairs),
    loadSpec sp = .ok i ∧ setup m [i] s = .ok (ps, s') ∧ ∃ x ∈ meanRead i, ¬ s'.has x := by
  refine ⟨⟨3, ["block_1"], fun _ => true⟩, { name := some "one", targets := some ["block_1"], flags := { dissipationRate := true } },
    _, ⟨[⟨"density", "block_1", 1⟩, ⟨"velocity", "block_1", 3⟩], [], []⟩, _, _, rfl, rfl, "velocity_ra_one", by decide, by decide⟩

/-! ### Examples -/

/-- A typical specification is accepted and set up. -/
def exSpec : Spec := { name := some "one", targets := some ["block_1"], reynolds := ["density", "velocity", "resolved_turbulent_ke"], favre := ["mixture_fraction"], flags := { tke := true, reynoldsStress := true } }
def exMesh : Mesh := ⟨3, ["block_1"], fun _ => true⟩
def exSt : St := ⟨[⟨"density", "block_1", 1⟩, ⟨"velocity", "block_1", 3⟩, ⟨"mixture_fraction", "block_1", 1⟩], [], []⟩

example : ∃ i, loadSpec exSpec = .ok i ∧ i.reynolds = ["velocity", "resolved_turbulent_ke"] ∧ i.favre = ["mixture_fraction"] :=
  ⟨_, rfl, by decide, by decide⟩

example : (match loadSpec exSpec with
    | .error _ => []
    | .ok i => match setup exMesh [i] exSt with
      | .error _ => []
      | .ok (_, s) => s.restart) =
    ["resolved_turbulent_ke", "reynolds_stress", "velocity_ra_one", "resolved_turbulent_ke_ra_one", "mixture_fraction_fa_one",
      "density_ra_one", "velocity_ra_one", "resolved_turbulent_ke_ra_one", "mixture_fraction_fa_one"] := by decide

/-- A misspelled variable is refused. -/
example : (match setup exMesh [⟨"one", ["block_1"], ["velocityy"], [], [], [], {}⟩] exSt with
    | .error e => some e
    | .ok _ => none) = some (.noPrimitive "velocityy") := by decide

end Nalu.AvgSetup
