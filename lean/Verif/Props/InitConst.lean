import Mathlib.Tactic.Linarith
import Mathlib.Tactic.Ring
import Verif.Model.InitConst

/-!
# C347: constant initial conditions
-/

namespace Nalu.InitConst

theorem writePoint_eq (addr : ℕ) (vals : List ℝ) : ∀ (i : ℕ) (mem : ℕ → ℝ) (x : ℕ),
    (∀ j (hj : j < vals.length), x = addr + (i + j) → writePoint addr i vals mem x = vals[j]) ∧
    ((∀ j < vals.length, x ≠ addr + (i + j)) → writePoint addr i vals mem x = mem x) := by
  induction vals with
  | nil => intro i mem x; exact ⟨fun j hj => absurd hj (by simp), fun _ => rfl⟩
  | cons v l ih =>
    intro i mem x
    obtain ⟨h1, h2⟩ := ih (i + 1) (Function.update mem (addr + i) v) x
    constructor
    · intro j hj hx
      cases j with
      | zero =>
        simp only [writePoint, List.getElem_cons_zero]
        rw [h2 (by intro j _; omega)]
        subst hx; simp
      | succ j =>
        simp only [writePoint, List.getElem_cons_succ]
        exact h1 j (by simpa using hj) (by omega)
    · intro hx
      simp only [writePoint]
      rw [h2 (fun j hj => by have := hx (j + 1) (by simpa using hj); omega), Function.update_of_ne]
      have := hx 0 (by simp)
      simpa using this

/-- Points `0 .. n - 1` of the bucket. -/
theorem evaluate_upto (vals : List ℝ) (s c : ℕ) (mem : ℕ → ℝ) : ∀ n : ℕ,
    (∀ p < n, ∀ i < c, ∀ hi : i < vals.length,
      (List.range n).foldl (fun m p => writePoint (s + p * c) 0 vals m) mem (s + p * c + i) = vals[i]) ∧
    (∀ x, (∀ p < n, ∀ i < vals.length, x ≠ s + p * c + i) →
      (List.range n).foldl (fun m p => writePoint (s + p * c) 0 vals m) mem x = mem x) := by
  intro n
  induction n with
  | zero => exact ⟨fun p hp => absurd hp (by omega), fun _ _ => rfl⟩
  | succ n ih =>
    rw [List.range_succ, List.foldl_append]
    simp only [List.foldl_cons, List.foldl_nil]
    constructor
    · intro p hp i hc hi
      rcases Nat.lt_succ_iff_lt_or_eq.1 hp with h | rfl
      · rw [(writePoint_eq _ vals 0 _ _).2]
        · exact ih.1 p h i hc hi
        · intro j _ h2
          have : (p + 1) * c ≤ n * c := Nat.mul_le_mul_right _ h
          rw [Nat.add_mul] at this
          omega
      · exact (writePoint_eq _ vals 0 _ _).1 i hi (by omega)
    · intro x hx
      rw [(writePoint_eq _ vals 0 _ _).2 fun j hj => by have := hx n (by omega) j hj; omega]
      exact ih.2 x fun p hp => hx p (by omega)

/-- C347: in a bucket every entity gets every value there is a component for, and the other components stay, however many values are
given and however many components there are. -/
theorem c347_bucket (vals : List ℝ) (b : Bucket) (mem : ℕ → ℝ) (p i : ℕ) (hp : p < b.len) (hi : i < b.comps) :
    evaluate vals b mem (b.start + p * b.comps + i) = (vals[i]?).getD (mem (b.start + p * b.comps + i)) := by
  by_cases h : i < vals.length
  · rw [List.getElem?_eq_getElem h, Option.getD_some]
    exact (evaluate_upto vals b.start b.comps mem b.len).1 p hp i hi h
  · rw [List.getElem?_eq_none (by omega), Option.getD_none]
    refine (evaluate_upto vals b.start b.comps mem b.len).2 _ fun q _ j hj he => ?_
    have hj' : j < b.comps := by omega
    have h1 : p * b.comps + i = q * b.comps + j := by omega
    have hc : 0 < b.comps := by omega
    have hpq : p = q := by
      have d1 : (p * b.comps + i) / b.comps = p := by
        rw [Nat.mul_comm, Nat.mul_add_div hc, Nat.div_eq_of_lt hi, Nat.add_zero]
      have d2 : (q * b.comps + j) / b.comps = q := by
        rw [Nat.mul_comm, Nat.mul_add_div hc, Nat.div_eq_of_lt hj', Nat.add_zero]
      rw [← d1, ← d2, h1]
    subst hpq
    omega

/-- An address in the memory of a bucket. -/
def Bucket.Has (b : Bucket) (x : ℕ) : Prop := b.start ≤ x ∧ x < b.start + b.len * b.comps

/-- C347: with at most as many values as components nothing outside the bucket changes. -/
theorem c347_outside (vals : List ℝ) (b : Bucket) (mem : ℕ → ℝ) (hs : vals.length ≤ b.comps) (x : ℕ) (hx : ¬ b.Has x) :
    evaluate vals b mem x = mem x := by
  refine (evaluate_upto vals b.start b.comps mem b.len).2 _ fun q hq j hj he => hx ⟨by omega, ?_⟩
  have : (q + 1) * b.comps ≤ b.len * b.comps := Nat.mul_le_mul_right _ hq
  rw [Nat.add_mul] at this
  omega

/-- C347, defect: the number of values is not compared with that of the components. With more values the memory behind the bucket is
overwritten with the surplus. -/
theorem c347_overflow (vals : List ℝ) (b : Bucket) (mem : ℕ → ℝ) (hl : 0 < b.len) (j : ℕ) (hj : b.comps + j < vals.length) :
    evaluate vals b mem (b.start + b.len * b.comps + j) = vals[b.comps + j] := by
  obtain ⟨n, hn⟩ : ∃ n, b.len = n + 1 := ⟨b.len - 1, by omega⟩
  unfold evaluate
  rw [hn, List.range_succ, List.foldl_append]
  simp only [List.foldl_cons, List.foldl_nil]
  exact (writePoint_eq _ vals 0 _ _).1 (b.comps + j) hj (by rw [Nat.add_mul]; omega)

/-! ### All blocks -/

/-- What the blocks ask for, in the order written: target, field, values. -/
def requests (ics : List IC) : List (String × String × List ℝ) :=
  ics.flatMap fun ic => ic.targets.flatMap fun t => ic.values.map fun v => (t, v.1, v.2)

section
variable (partOf fieldOf : String → Option ℕ)

/-- An algorithm that does what is asked for. -/
def Does (r : String × String × List ℝ) (a : Alg) : Prop := a.part = partOf r.1 ∧ fieldOf r.2.1 = some a.field ∧ a.vals = r.2.2

theorem setupFields_iff (t : String) (values : List (String × List ℝ)) : ∀ as,
    setupFields fieldOf (partOf t) values = some as ↔ List.Forall₂ (Does partOf fieldOf) (values.map fun v => (t, v.1, v.2)) as := by
  induction values with
  | nil =>
    intro as
    constructor
    · intro h; obtain rfl := Option.some.inj h; exact .nil
    · intro h; cases h; rfl
  | cons v l ih =>
    intro as
    obtain ⟨name, vals⟩ := v
    simp only [setupFields, List.map_cons]
    constructor
    · intro h
      obtain ⟨f, hf, h⟩ := Option.bind_eq_some_iff.1 h
      obtain ⟨r, hr, rfl⟩ := Option.map_eq_some_iff.1 h
      exact .cons ⟨rfl, hf, rfl⟩ ((ih r).1 hr)
    · intro h
      cases h with
      | cons h1 h2 =>
        rename_i a r
        obtain ⟨p, f, w⟩ := a
        obtain ⟨h3, h4, h5⟩ := h1
        dsimp only at h3 h4 h5
        subst h3 h5
        simp [h4, (ih r).2 h2]

theorem forall₂_append {α β : Type} {R : α → β → Prop} {a b : List α} {c d : List β} (h1 : List.Forall₂ R a c)
    (h2 : List.Forall₂ R b d) : List.Forall₂ R (a ++ b) (c ++ d) := by
  induction h1 with
  | nil => exact h2
  | cons h _ ih => exact .cons h ih

theorem forall₂_split {α β : Type} {R : α → β → Prop} {a b : List α} : ∀ {e : List β}, List.Forall₂ R (a ++ b) e →
    ∃ c d, e = c ++ d ∧ List.Forall₂ R a c ∧ List.Forall₂ R b d := by
  induction a with
  | nil => intro e h; exact ⟨[], e, rfl, .nil, h⟩
  | cons x a ih =>
    intro e h
    cases h with
    | cons h1 h2 =>
      obtain ⟨c, d, rfl, h3, h4⟩ := ih h2
      exact ⟨_ :: c, d, rfl, .cons h1 h3, h4⟩

theorem setupTargets_iff (values : List (String × List ℝ)) (ts : List String) : ∀ as,
    setupTargets partOf fieldOf values ts = some as ↔
      List.Forall₂ (Does partOf fieldOf) (ts.flatMap fun t => values.map fun v => (t, v.1, v.2)) as := by
  induction ts with
  | nil =>
    intro as
    constructor
    · intro h; obtain rfl := Option.some.inj h; exact .nil
    · intro h; cases h; rfl
  | cons t l ih =>
    intro as
    simp only [setupTargets, List.flatMap_cons]
    constructor
    · intro h
      obtain ⟨a, ha, h⟩ := Option.bind_eq_some_iff.1 h
      obtain ⟨r, hr, rfl⟩ := Option.map_eq_some_iff.1 h
      exact forall₂_append ((setupFields_iff partOf fieldOf t values a).1 ha) ((ih r).1 hr)
    · intro h
      obtain ⟨c, d, rfl, h1, h2⟩ := forall₂_split h
      simp [(setupFields_iff partOf fieldOf t values c).2 h1, (ih d).2 h2]

/-- C347: the blocks are accepted exactly if every field named is there; the algorithms are then one per target and field, in the
order written. -/
theorem c347_setup (ics : List IC) : ∀ as, setup partOf fieldOf ics = some as ↔
    List.Forall₂ (Does partOf fieldOf) (requests ics) as := by
  induction ics with
  | nil =>
    intro as
    constructor
    · intro h; obtain rfl := Option.some.inj h; exact .nil
    · intro h; cases h; rfl
  | cons ic l ih =>
    intro as
    simp only [setup, requests, List.flatMap_cons]
    constructor
    · intro h
      obtain ⟨a, ha, h⟩ := Option.bind_eq_some_iff.1 h
      obtain ⟨r, hr, rfl⟩ := Option.map_eq_some_iff.1 h
      exact forall₂_append ((setupTargets_iff partOf fieldOf _ _ a).1 ha) ((ih r).1 hr)
    · intro h
      obtain ⟨c, d, rfl, h1, h2⟩ := forall₂_split h
      simp [(setupTargets_iff partOf fieldOf _ _ c).2 h1, (ih d).2 h2]

end

section
variable (buckets : ℕ → List Bucket)

/-- Different buckets, or the same bucket for different fields, have different memory. -/
def Disjoint' : Prop := ∀ f f' b b', b ∈ buckets f → b' ∈ buckets f' → (f = f' → b ≠ b') → ∀ x, b.Has x → ¬ b'.Has x

/-- No more values than components anywhere. -/
def Sized (as : List Alg) : Prop := ∀ a ∈ as, ∀ b ∈ buckets a.field, a.vals.length ≤ b.comps

/-- An algorithm gives a value to component `i` of the field `f` in a bucket. -/
def Gives (a : Alg) (f : ℕ) (b : Bucket) (i : ℕ) (v : ℝ) : Prop :=
  a.field = f ∧ (∃ part, a.part = some part ∧ b.parts part = true) ∧ a.vals[i]? = some v

theorem has_addr {b : Bucket} {p i : ℕ} (hp : p < b.len) (hi : i < b.comps) : b.Has (b.start + p * b.comps + i) := by
  have : (p + 1) * b.comps ≤ b.len * b.comps := Nat.mul_le_mul_right _ hp
  rw [Nat.add_mul] at this
  exact ⟨by omega, by omega⟩

variable {buckets}

theorem fold_step (hd : Disjoint' buckets) (a : Alg) (part : ℕ) (hs : ∀ b ∈ buckets a.field, a.vals.length ≤ b.comps)
    (f : ℕ) (b : Bucket) (hb : b ∈ buckets f) (p i : ℕ) (hp : p < b.len) (hi : i < b.comps) :
    ∀ (bs : List Bucket) (m : ℕ → ℝ), (∀ b' ∈ bs, b' ∈ buckets a.field) →
      ((∃ v, a.field = f ∧ b ∈ bs ∧ b.parts part = true ∧ a.vals[i]? = some v ∧
        bs.foldl (fun m b => if b.parts part then evaluate a.vals b m else m) m (b.start + p * b.comps + i) = v) ∨
      ((∀ v, ¬ (a.field = f ∧ b ∈ bs ∧ b.parts part = true ∧ a.vals[i]? = some v)) ∧
        bs.foldl (fun m b => if b.parts part then evaluate a.vals b m else m) m (b.start + p * b.comps + i) =
          m (b.start + p * b.comps + i))) := by
  intro bs
  induction bs with
  | nil => intro m _; exact Or.inr ⟨by simp, rfl⟩
  | cons b' bs ih =>
    intro m hbs
    have hb' := hbs b' (by simp)
    set m' := if b'.parts part then evaluate a.vals b' m else m with hm'
    rcases ih m' (fun c hc => hbs c (by simp [hc])) with ⟨v, h1, h2, h3, h4, h5⟩ | ⟨h1, h2⟩
    · exact Or.inl ⟨v, h1, by simp [h2], h3, h4, h5⟩
    · by_cases he : a.field = f ∧ b = b'
      · obtain ⟨hf, rfl⟩ := he
        by_cases hpart : b.parts part = true
        · have hx : m' (b.start + p * b.comps + i) = (a.vals[i]?).getD (m (b.start + p * b.comps + i)) := by
            rw [hm', if_pos hpart, c347_bucket _ _ _ _ _ hp hi]
          cases hv : a.vals[i]? with
          | some v =>
            refine Or.inl ⟨v, hf, by simp, hpart, rfl, ?_⟩
            rw [List.foldl_cons]; rw [hv] at hx; exact h2.trans hx
          | none =>
            refine Or.inr ⟨by simp, ?_⟩
            rw [List.foldl_cons]; rw [hv] at hx; exact h2.trans hx
        · refine Or.inr ⟨fun v h => hpart h.2.2.1, ?_⟩
          rw [List.foldl_cons]
          exact h2.trans (by rw [hm', if_neg hpart])
      · have hx : m' (b.start + p * b.comps + i) = m (b.start + p * b.comps + i) := by
          rw [hm']
          split
          · exact c347_outside _ _ _ (hs b' hb') _ (hd f a.field b b' hb hb' (fun hf hbb => he ⟨hf.symm, hbb⟩) _ (has_addr hp hi))
          · rfl
        refine Or.inr ⟨fun v h => ?_, ?_⟩
        · rcases List.mem_cons.1 h.2.1 with hbb | hbb
          · exact he ⟨h.1, hbb⟩
          · exact h1 v ⟨h.1, hbb, h.2.2⟩
        · rw [List.foldl_cons]; exact h2.trans hx

theorem execute_spec (hd : Disjoint' buckets) (a : Alg) (hs : ∀ b ∈ buckets a.field, a.vals.length ≤ b.comps)
    (f : ℕ) (b : Bucket) (hb : b ∈ buckets f) (p i : ℕ) (hp : p < b.len) (hi : i < b.comps) (m m' : ℕ → ℝ)
    (h : execute buckets a m = some m') :
    (∀ v, Gives a f b i v → m' (b.start + p * b.comps + i) = v) ∧
    ((∀ v, ¬ Gives a f b i v) → m' (b.start + p * b.comps + i) = m (b.start + p * b.comps + i)) := by
  obtain ⟨part, hpart, rfl⟩ := Option.map_eq_some_iff.1 h
  rcases fold_step hd a part hs f b hb p i hp hi (buckets a.field) m (fun _ h => h) with ⟨v, h1, h2, h3, h4, h5⟩ | ⟨h1, h2⟩
  · refine ⟨fun w hw => ?_, fun hn => absurd ⟨h1, ⟨part, hpart, h3⟩, h4⟩ (hn v)⟩
    have := hw.2.2
    rw [h4] at this
    exact h5.trans (Option.some.inj this)
  · refine ⟨fun w hw => ?_, fun _ => h2⟩
    obtain ⟨hf, ⟨q, hq, hbq⟩, hv⟩ := hw
    rw [hpart] at hq
    obtain rfl := Option.some.inj hq
    exact absurd ⟨hf, by rw [hf]; exact hb, hbq, hv⟩ (h1 w)

theorem populate_append (l1 l2 : List Alg) (m : ℕ → ℝ) :
    populate buckets (l1 ++ l2) m = (populate buckets l1 m).bind fun m => populate buckets l2 m := by
  induction l1 generalizing m with
  | nil => rfl
  | cons a l1 ih =>
    simp only [List.cons_append, populate]
    cases execute buckets a m with
    | none => rfl
    | some m' => simp [ih]

/-- C347: what no block gives a value to stays as it was. -/
theorem c347_untouched (hd : Disjoint' buckets) (as : List Alg) (hs : Sized buckets as) (f : ℕ) (b : Bucket)
    (hb : b ∈ buckets f) (p i : ℕ) (hp : p < b.len) (hi : i < b.comps) (hn : ∀ a ∈ as, ∀ v, ¬ Gives a f b i v)
    (m m' : ℕ → ℝ) (h : populate buckets as m = some m') :
    m' (b.start + p * b.comps + i) = m (b.start + p * b.comps + i) := by
  induction as generalizing m with
  | nil => simp only [populate, Option.some.injEq] at h; rw [h]
  | cons a l ih =>
    obtain ⟨m1, h1, h2⟩ := Option.bind_eq_some_iff.1 h
    rw [ih (fun a ha => hs a (by simp [ha])) (fun a ha => hn a (by simp [ha])) m1 h2]
    exact (execute_spec hd a (hs a (by simp)) f b hb p i hp hi m m1 h1).2 (hn a (by simp))

/-- C347: with several blocks, or several targets, for the same component of the same entity, the last one counts. -/
theorem c347_last_wins (hd : Disjoint' buckets) (l1 : List Alg) (a : Alg) (l2 : List Alg) (hs : Sized buckets (l1 ++ a :: l2))
    (f : ℕ) (b : Bucket) (hb : b ∈ buckets f) (p i : ℕ) (hp : p < b.len) (hi : i < b.comps) (v : ℝ) (hv : Gives a f b i v)
    (hn : ∀ a ∈ l2, ∀ v, ¬ Gives a f b i v) (m m' : ℕ → ℝ) (h : populate buckets (l1 ++ a :: l2) m = some m') :
    m' (b.start + p * b.comps + i) = v := by
  rw [populate_append] at h
  obtain ⟨m1, _, h2⟩ := Option.bind_eq_some_iff.1 h
  obtain ⟨m2, h3, h4⟩ := Option.bind_eq_some_iff.1 h2
  rw [c347_untouched hd l2 (fun a ha => hs a (by simp [ha])) f b hb p i hp hi hn m2 m' h4]
  exact (execute_spec hd a (hs a (by simp)) f b hb p i hp hi m1 m2 h3).1 v hv

/-- C347: the run gets through exactly if every target of a request is a part of the mesh; an unknown one is not reported but
dereferenced. -/
theorem c347_targets (as : List Alg) (m : ℕ → ℝ) : (∃ m', populate buckets as m = some m') ↔ ∀ a ∈ as, a.part ≠ none := by
  induction as generalizing m with
  | nil => simp [populate]
  | cons a l ih =>
    simp only [populate, List.mem_cons, forall_eq_or_imp]
    cases hp : a.part with
    | none => simp [execute, hp]
    | some q => simp [execute, hp, ih]

/-- C347: without more values than components, memory that belongs to none of the buckets does not change. -/
theorem c347_foreign (as : List Alg) (hs : Sized buckets as) (x : ℕ) (hx : ∀ f, ∀ b ∈ buckets f, ¬ b.Has x) (m m' : ℕ → ℝ)
    (h : populate buckets as m = some m') : m' x = m x := by
  induction as generalizing m with
  | nil => simp only [populate, Option.some.injEq] at h; rw [h]
  | cons a l ih =>
    obtain ⟨m1, h1, h2⟩ := Option.bind_eq_some_iff.1 h
    rw [ih (fun a ha => hs a (by simp [ha])) m1 h2]
    obtain ⟨part, _, rfl⟩ := Option.map_eq_some_iff.1 h1
    have hsa := hs a (by simp)
    have : ∀ (bs : List Bucket) (m : ℕ → ℝ), (∀ b ∈ bs, b ∈ buckets a.field) →
        bs.foldl (fun m b => if b.parts part then evaluate a.vals b m else m) m x = m x := by
      intro bs
      induction bs with
      | nil => intro m _; rfl
      | cons b bs ihb =>
        intro m hbs
        rw [List.foldl_cons, ihb _ (fun c hc => hbs c (by simp [hc]))]
        split
        · exact c347_outside _ _ _ (hsa b (hbs b (by simp))) _ (hx _ b (hbs b (by simp)))
        · rfl
    exact this _ m fun _ h => h

end

/-- Two blocks for the velocity of two nodes in part 7, the second for one component only. -/
example : ∀ m', populate (fun f => if f = 3 then [⟨10, 2, 2, fun p => p == 7⟩] else [])
    [⟨some 7, 3, [1, 2]⟩, ⟨some 7, 3, [5]⟩] (fun _ => 0) = some m' → m' 12 = 5 ∧ m' 13 = 2 := by
  intro m' h
  have hd : Disjoint' (fun f => if f = 3 then [⟨10, 2, 2, fun p => p == 7⟩] else []) := by
    intro f f' b b' hb hb' hne
    by_cases h1 : f = 3 <;> by_cases h2 : f' = 3 <;> simp [h1, h2] at hb hb'
    exact absurd (hb.trans hb'.symm) (hne (h1.trans h2.symm))
  have hs : Sized (fun f => if f = 3 then [⟨10, 2, 2, fun p => p == 7⟩] else []) ([⟨some 7, 3, [1, 2]⟩, ⟨some 7, 3, [5]⟩] : List Alg) := by
    intro a ha b hb
    simp only [List.mem_cons, List.not_mem_nil, or_false] at ha
    rcases ha with rfl | rfl <;> (simp at hb; subst hb; simp)
  refine ⟨?_, ?_⟩
  · exact c347_last_wins hd [⟨some 7, 3, [1, 2]⟩] ⟨some 7, 3, [5]⟩ [] hs 3 ⟨10, 2, 2, fun p => p == 7⟩ (by simp) 1 0 (by simp) (by simp) 5
      ⟨rfl, ⟨7, rfl, rfl⟩, rfl⟩ (by simp) _ _ h
  · exact c347_last_wins hd [] ⟨some 7, 3, [1, 2]⟩ [⟨some 7, 3, [5]⟩] hs 3 ⟨10, 2, 2, fun p => p == 7⟩ (by simp) 1 1 (by simp) (by simp) 2
      ⟨rfl, ⟨7, rfl, rfl⟩, rfl⟩ (by simp [Gives]) _ _ h

end Nalu.InitConst
