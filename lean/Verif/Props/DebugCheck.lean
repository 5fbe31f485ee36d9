import Mathlib.Tactic.Linarith
import Mathlib.Tactic.NormNum
import Mathlib.Algebra.Order.Ring.Abs
import Mathlib.Algebra.BigOperators.Group.List.Basic
import Verif.Model.DebugCheck

/-!
# C345: checks of the linear system in debug mode
-/

namespace Nalu.DebugCheck

/-- The sum of the magnitudes of numbers. -/
def absSum (l : List ℝ) : ℝ := (l.map fun x => |x|).sum

theorem rowSum_some (l : List ℝ) : rowSum (l.map some) = some (absSum l) := by
  have : ∀ (l : List ℝ) (a : ℝ), (l.map some).foldl (fun s v => add s (v.map fun x => |x|)) (some a) = some (a + absSum l) := by
    intro l
    induction l with
    | nil => intro a; simp [absSum]
    | cons x l ih =>
      intro a
      rw [List.map_cons, List.foldl_cons, show add (some a) (Option.map (fun x => |x|) (some x)) = some (a + |x|) from rfl, ih]
      simp [absSum, add_assoc]
  simpa [rowSum] using this l 0

theorem foldl_update {β : Type} (v : ℕ × List (Option ℝ) → β) (rows : List (ℕ × List (Option ℝ))) :
    ∀ (f : ℕ → β) (ii : ℕ),
      ((∀ r ∈ rows, r.1 - 1 ≠ ii) → rows.foldl (fun f r => Function.update f (r.1 - 1) (v r)) f ii = f ii) ∧
      (∀ r ∈ rows, r.1 - 1 = ii → (rows.map fun r => r.1 - 1).Nodup →
        rows.foldl (fun f r => Function.update f (r.1 - 1) (v r)) f ii = v r) := by
  induction rows with
  | nil => intro f ii; exact ⟨fun _ => rfl, by simp⟩
  | cons a rows ih =>
    intro f ii
    obtain ⟨h1, h2⟩ := ih (Function.update f (a.1 - 1) (v a)) ii
    refine ⟨fun h => ?_, fun r hr he hn => ?_⟩
    · rw [List.foldl_cons, h1 fun r hr => h r (List.mem_cons_of_mem _ hr),
        Function.update_of_ne (Ne.symm (h a (List.mem_cons_self ..)))]
    · rw [List.map_cons, List.nodup_cons] at hn
      rw [List.foldl_cons]
      rcases List.mem_cons.1 hr with rfl | hr
      · rw [h1 ?_, ← he, Function.update_self]
        intro s hs hse
        exact hn.1 (List.mem_map.2 ⟨s, hs, hse.trans he.symm⟩)
      · exact h2 r hr he hn.2

/-- The rows of the processes are a distribution of rows with ids from one on: no id twice. -/
structure Distributed {P : ℕ} (procs : Fin P → Proc) : Prop where
  pos : ∀ p, ∀ r ∈ (procs p).rows, 1 ≤ r.1
  nodup : ∀ p, ((procs p).rows.map Prod.fst).Nodup
  disjoint : ∀ p q, p ≠ q → ∀ r ∈ (procs p).rows, ∀ s ∈ (procs q).rows, r.1 ≠ s.1

theorem nodup_pred {P : ℕ} {procs : Fin P → Proc} (h : Distributed procs) (p : Fin P) :
    ((procs p).rows.map fun r => r.1 - 1).Nodup := by
  have h1 := h.nodup p
  have h2 := h.pos p
  revert h1 h2
  generalize (procs p).rows = l
  intro h1 h2
  induction l with
  | nil => simp
  | cons a l ih =>
    rw [List.map_cons, List.nodup_cons] at h1 ⊢
    refine ⟨fun hm => h1.1 ?_, ih h1.2 fun r hr => h2 r (List.mem_cons_of_mem _ hr)⟩
    obtain ⟨s, hs, he⟩ := List.mem_map.1 hm
    have a1 := h2 a (List.mem_cons_self ..)
    have a2 := h2 s (List.mem_cons_of_mem _ hs)
    exact List.mem_map.2 ⟨s, hs, by omega⟩

theorem foldl_add {P : ℕ} (f : Fin P → Option ℝ) (p : Fin P) (h : ∀ q, q ≠ p → f q = some 0) (L : List (Fin P)) :
    L.Nodup → ∀ a : ℝ, L.foldl (fun s r => add s (f r)) (some a) = if p ∈ L then add (some a) (f p) else some a := by
  induction L with
  | nil => intro _ a; simp
  | cons q L ih =>
    intro hn a
    rw [List.nodup_cons] at hn
    rw [List.foldl_cons]
    by_cases hq : q = p
    · subst hq
      cases hf : f q with
      | none =>
        simp only [List.mem_cons_self, if_true]
        have : ∀ L : List (Fin P), L.foldl (fun s r => add s (f r)) none = none := by
          intro L
          induction L with
          | nil => rfl
          | cons b L ih => rw [List.foldl_cons]; exact ih
        exact this L
      | some b =>
        have := ih hn.2 (a + b)
        simp only [add, List.mem_cons_self, if_true] at this ⊢
        rw [this, if_neg hn.1]
    · rw [h q hq]
      have := ih hn.2 (a + 0)
      simp only [add] at this ⊢
      rw [this]
      have hne : p ≠ q := fun h => hq h.symm
      simp [hne]

theorem globalSums_row {P : ℕ} {procs : Fin P → Proc} (h : Distributed procs) (p : Fin P) (r : ℕ × List (Option ℝ))
    (hr : r ∈ (procs p).rows) : globalSums procs (r.1 - 1) = add (some 0) (rowSum r.2) := by
  unfold globalSums
  have h0 : ∀ q, q ≠ p → localSums (procs q) (r.1 - 1) = some 0 := by
    intro q hq
    refine (foldl_update (fun r => rowSum r.2) (procs q).rows _ _).1 fun s hs he => ?_
    have := h.pos q s hs; have := h.pos p r hr
    exact h.disjoint q p hq s hs r hr (by omega)
  rw [foldl_add _ p h0 _ (List.nodup_finRange P), if_pos (List.mem_finRange p)]
  congr 1
  exact (foldl_update (fun r => rowSum r.2) (procs p).rows _ _).2 r hr rfl (nodup_pred h p)

theorem globalExists_iff {P : ℕ} {procs : Fin P → Proc} (h : Distributed procs) (ii : ℕ) :
    globalExists procs ii = true ↔ ∃ p, ∃ r ∈ (procs p).rows, r.1 - 1 = ii := by
  unfold globalExists
  simp only [List.any_eq_true, List.mem_finRange, true_and]
  refine exists_congr fun p => ?_
  constructor
  · intro he
    by_contra hne
    have hall : ∀ r ∈ (procs p).rows, r.1 - 1 ≠ ii := fun r hr h => hne ⟨r, hr, h⟩
    have := (foldl_update (fun _ => true) (procs p).rows (fun _ => false) ii).1 hall
    rw [localExists, this] at he
    exact absurd he (by simp)
  · rintro ⟨r, hr, he⟩
    exact (foldl_update (fun _ => true) (procs p).rows (fun _ => false) ii).2 r hr he (nodup_pred h p)

theorem foldl_max_ge {α : Type} (g : α → ℕ) (l : List α) : ∀ a : ℕ,
    a ≤ l.foldl (fun m r => max m (g r)) a ∧ ∀ r ∈ l, g r ≤ l.foldl (fun m r => max m (g r)) a := by
  induction l with
  | nil => intro a; simp
  | cons x l ih =>
    intro a
    obtain ⟨h1, h2⟩ := ih (max a (g x))
    refine ⟨(le_max_left _ _).trans h1, fun r hr => ?_⟩
    rcases List.mem_cons.1 hr with rfl | hr
    · exact (le_max_right _ _).trans h1
    · exact h2 r hr

theorem row_in_range {P : ℕ} (procs : Fin P → Proc) (p : Fin P) (r : ℕ × List (Option ℝ)) (hr : r ∈ (procs p).rows) :
    r.1 - 1 < nrowG procs := by
  have h1 : r.1 ≤ maxGid (procs p) := by
    have : maxGid (procs p) = (procs p).rows.foldl (fun m r => max m r.1) 0 := by
      unfold maxGid; congr 1; funext m r; exact max_comm _ _
    rw [this]
    exact (foldl_max_ge (fun r : ℕ × List (Option ℝ) => r.1) _ 0).2 r hr
  have h2 := (foldl_max_ge (fun q => maxGid (procs q)) (List.finRange P) 0).2 p (List.mem_finRange p)
  unfold nrowG
  omega

/-- No entry of the process is a NaN. -/
def Numbers (p : Proc) : Prop := (∀ r ∈ p.rows, ∃ l : List ℝ, r.2 = l.map some) ∧ ∃ l : List ℝ, p.rhs = l.map some

theorem all_some (l : List (Option ℝ)) : (l.any fun v => v.isNone) = false ↔ ∃ m : List ℝ, l = m.map some := by
  induction l with
  | nil => exact ⟨fun _ => ⟨[], rfl⟩, fun _ => rfl⟩
  | cons a l ih =>
    cases a with
    | none => simp only [List.any_cons, Option.isNone_none, Bool.true_or, Bool.true_eq_false, false_iff]
              rintro ⟨m, hm⟩; cases m <;> simp at hm
    | some x =>
      simp only [List.any_cons, Option.isNone_some, Bool.false_or]
      rw [ih]
      constructor
      · rintro ⟨m, rfl⟩; exact ⟨x :: m, rfl⟩
      · rintro ⟨m, hm⟩
        cases m with
        | nil => simp at hm
        | cons y m => exact ⟨m, by simpa using (List.cons.inj hm).2⟩

theorem nanThrows_iff (p : Proc) : nanThrows p = false ↔ Numbers p := by
  unfold nanThrows Numbers
  rw [Bool.or_eq_false_iff, all_some]
  refine and_congr_left fun _ => ?_
  rw [← Bool.not_eq_true, List.any_eq_true]
  push Not
  refine forall₂_congr fun r _ => ?_
  rw [ne_eq, Bool.not_eq_true, all_some]

theorem found_iff {P : ℕ} {procs : Fin P → Proc} (h : Distributed procs) (rank : Fin P) :
    found procs rank ↔ (rank : ℕ) = 0 ∧ ∃ p, ∃ r ∈ (procs p).rows, small (add (some 0) (rowSum r.2)) := by
  unfold found
  constructor
  · rintro ⟨ii, _, he, h0, hs⟩
    obtain ⟨p, r, hr, rfl⟩ := (globalExists_iff h ii).1 he
    rw [globalSums_row h p r hr] at hs
    exact ⟨h0, p, r, hr, hs⟩
  · rintro ⟨h0, p, r, hr, hs⟩
    exact ⟨r.1 - 1, row_in_range procs p r hr, (globalExists_iff h _).2 ⟨p, r, hr, rfl⟩, h0, by rwa [globalSums_row h p r hr]⟩

/-- A row of numbers whose magnitudes sum to less than 1e-10. -/
def ZeroRow (vals : List (Option ℝ)) : Prop := ∃ l : List ℝ, vals = l.map some ∧ absSum l < 1 / 10000000000

theorem small_iff {vals : List (Option ℝ)} (h : ∃ l : List ℝ, vals = l.map some) : small (add (some 0) (rowSum vals)) ↔ ZeroRow vals := by
  obtain ⟨l, rfl⟩ := h
  rw [rowSum_some, add, zero_add, small]
  constructor
  · intro h; exact ⟨l, rfl, h⟩
  · rintro ⟨m, hm, h⟩
    have : l = m := List.map_injective_iff.2 (Option.some_injective ℝ) hm
    rwa [this]

/-- C345: in debug mode the run gets to the linear solver on every process exactly if no entry of the matrix or of the right-hand
side is a NaN and no row, on whichever process, is zero up to 1e-10. -/
theorem c345_solved_iff {P : ℕ} (hP : 0 < P) (procs : Fin P → Proc) (h : Distributed procs) :
    (∀ rank, after procs rank = .solving) ↔
      (∀ p, Numbers (procs p)) ∧ ∀ p, ∀ r ∈ (procs p).rows, ¬ ZeroRow r.2 := by
  constructor
  · intro ha
    have hN : ∀ p, Numbers (procs p) := by
      intro p
      rw [← nanThrows_iff]
      by_contra hn
      have := ha p
      unfold after at this
      rw [if_pos (by simpa using hn)] at this
      exact absurd this (by simp)
    refine ⟨hN, fun p r hr hz => ?_⟩
    have h0 := ha ⟨0, hP⟩
    unfold after at h0
    rw [if_neg (by rw [(nanThrows_iff _).2 (hN _)]; simp),
      if_neg (by rintro ⟨q, hq⟩; rw [(nanThrows_iff _).2 (hN q)] at hq; simp at hq),
      if_pos ((found_iff h _).2 ⟨rfl, p, r, hr, (small_iff ((hN p).1 r hr)).2 hz⟩)] at h0
    exact absurd h0 (by simp)
  · rintro ⟨hN, hz⟩ rank
    unfold after
    rw [if_neg (by rw [(nanThrows_iff _).2 (hN _)]; simp),
      if_neg (by rintro ⟨q, hq⟩; rw [(nanThrows_iff _).2 (hN q)] at hq; simp at hq), if_neg]
    intro hf
    obtain ⟨_, p, r, hr, hs⟩ := (found_iff h rank).1 hf
    exact hz p r hr ((small_iff ((hN p).1 r hr)).1 hs)

/-- C345: a process stops by itself exactly if one of its own entries is a NaN, or, being the first, if there are no NaNs and some
row anywhere is zero. -/
theorem c345_who_throws {P : ℕ} (procs : Fin P → Proc) (h : Distributed procs) (rank : Fin P) :
    after procs rank = .threw ↔ ¬ Numbers (procs rank) ∨
      ((rank : ℕ) = 0 ∧ (∀ p, Numbers (procs p)) ∧ ∃ p, ∃ r ∈ (procs p).rows, ZeroRow r.2) := by
  unfold after
  by_cases h1 : nanThrows (procs rank) = true
  · rw [if_pos h1]
    have : ¬ Numbers (procs rank) := fun hn => by rw [(nanThrows_iff _).2 hn] at h1; simp at h1
    simp [this]
  · have hn : Numbers (procs rank) := (nanThrows_iff _).1 (by simpa using h1)
    rw [if_neg h1]
    by_cases h2 : ∃ r, nanThrows (procs r) = true
    · rw [if_pos h2]
      obtain ⟨q, hq⟩ := h2
      have : ¬ Numbers (procs q) := fun hn => by rw [(nanThrows_iff _).2 hn] at hq; simp at hq
      simp only [reduceCtorEq, hn, not_true_eq_false, false_or, false_iff]
      rintro ⟨-, hall, -⟩
      exact this (hall q)
    · rw [if_neg h2]
      have hall : ∀ p, Numbers (procs p) := fun p => (nanThrows_iff _).1 (by
        cases hb : nanThrows (procs p) with
        | false => rfl
        | true => exact absurd ⟨p, hb⟩ h2)
      have key : found procs rank ↔ (rank : ℕ) = 0 ∧ ∃ p, ∃ r ∈ (procs p).rows, ZeroRow r.2 := by
        rw [found_iff h]
        refine and_congr_right fun _ => exists_congr fun p => ?_
        constructor
        · rintro ⟨r, hr, hs⟩; exact ⟨r, hr, (small_iff ((hall p).1 r hr)).1 hs⟩
        · rintro ⟨r, hr, hs⟩; exact ⟨r, hr, (small_iff ((hall p).1 r hr)).2 hs⟩
      simp only [hn, not_true_eq_false, false_or, hall, implies_true, true_and]
      rw [← key]
      split <;> simp_all

/-- C345, defect: a NaN on some processes only leaves the others waiting in a reduction the former never reach. -/
theorem c345_waits {P : ℕ} (procs : Fin P → Proc) (rank : Fin P) :
    after procs rank = .waiting ↔ Numbers (procs rank) ∧ ∃ q, ¬ Numbers (procs q) := by
  unfold after
  by_cases h1 : nanThrows (procs rank) = true
  · rw [if_pos h1]
    simp only [reduceCtorEq, false_iff, not_and]
    intro hn
    rw [(nanThrows_iff _).2 hn] at h1; simp at h1
  · have hn : Numbers (procs rank) := (nanThrows_iff _).1 (by simpa using h1)
    rw [if_neg h1]
    by_cases h2 : ∃ r, nanThrows (procs r) = true
    · rw [if_pos h2]
      obtain ⟨q, hq⟩ := h2
      simp only [hn, true_and, true_iff]
      exact ⟨q, fun hn => by rw [(nanThrows_iff _).2 hn] at hq; simp at hq⟩
    · rw [if_neg h2]
      have : ¬ ∃ q, ¬ Numbers (procs q) := by
        rintro ⟨q, hq⟩
        refine h2 ⟨q, ?_⟩
        cases hb : nanThrows (procs q) with
        | true => rfl
        | false => exact absurd ((nanThrows_iff _).1 hb) hq
      simp only [this, and_false, iff_false]
      split <;> simp

/-- C345, defect: a zero row stops the first process only; all others go on to the solver. -/
theorem c345_zero_row_others_go_on {P : ℕ} (procs : Fin P → Proc) (h : Distributed procs) (hN : ∀ p, Numbers (procs p))
    (p : Fin P) (r : ℕ × List (Option ℝ)) (_hr : r ∈ (procs p).rows) (_hz : ZeroRow r.2) (rank : Fin P) (h0 : (rank : ℕ) ≠ 0) :
    after procs rank = .solving := by
  unfold after
  rw [if_neg (by rw [(nanThrows_iff _).2 (hN _)]; simp),
    if_neg (by rintro ⟨q, hq⟩; rw [(nanThrows_iff _).2 (hN q)] at hq; simp at hq), if_neg]
  intro hf
  exact h0 ((found_iff h rank).1 hf).1

/-- Two processes with one row each; the second row is zero: the first process stops. -/
example : after (P := 2) (fun p => ⟨[(p.val + 1, if p = 0 then [some 1] else [some 0])], [some 1]⟩) 0 = .threw := by
  refine (c345_who_throws _ ⟨?_, ?_, ?_⟩ _).2 (.inr ⟨rfl, ?_, 1, (2, [some 0]), by simp, [0], by simp, by norm_num [absSum]⟩)
  · intro p r hr; simp at hr; rw [hr]; omega
  · intro p; simp
  · intro p q hpq r hr s hs; simp at hr hs; rw [hr, hs]; simp only [ne_eq, Nat.add_right_cancel_iff]; exact fun h => hpq (Fin.ext h)
  · intro p
    refine ⟨?_, [1], rfl⟩
    intro r hr
    simp at hr
    rw [hr]
    by_cases hp : p = 0
    · exact ⟨[1], by simp [hp]⟩
    · exact ⟨[0], by simp [hp]⟩

end Nalu.DebugCheck
