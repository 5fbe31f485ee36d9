import Verif.Model.Control
import Mathlib.Tactic.Linarith
import Mathlib.Tactic.Ring
import Mathlib.Tactic.FieldSimp
import Mathlib.Tactic.NormNum
import Mathlib.Tactic.Positivity
import Mathlib.Data.Rat.Defs
import Mathlib.Algebra.Order.BigOperators.Group.List
import Mathlib.Data.List.MinMax

/-!
# C10–C12, C48, C49: field states, nonlinear iterations, norms and statistics, mass fractions
-/

set_option linter.unusedSectionVars false
set_option linter.unusedSimpArgs false

namespace Nalu.Control

variable {K : Type*} [Field K] [LinearOrder K] [IsStrictOrderedRing K]

/-! ## C10 -/

/-- Value of the newest state after `n` steps: what the run accepted at step `n` (`acc 0` is the
initial condition). -/
def acc {V : Type*} (predicted : Bool) (updates : ℕ → List (V → V)) (b : List V) (n : ℕ) :
    Option V := (fieldAfter predicted updates b n).head?

/-- **C10** For a second-order run (three states), any initial buffers and any updates in any number
of nonlinear iterations: after `n+2` steps state N is what was accepted at step `n+1` and state NM1 is
what was accepted at step `n`; after one step state N is the initial condition. -/
theorem c10_old_states {V : Type*} (predicted : Bool) (updates : ℕ → List (V → V)) (x0 x1 x2 : V) :
    (∀ n, ∃ a b c, fieldAfter predicted updates [x0, x1, x2] (n + 2) = [a, b, c] ∧
      acc predicted updates [x0, x1, x2] (n + 2) = some a ∧
      acc predicted updates [x0, x1, x2] (n + 1) = some b ∧
      acc predicted updates [x0, x1, x2] n = some c) ∧
    (∃ a c, fieldAfter predicted updates [x0, x1, x2] 1 = [a, x0, c]) := by
  have step1 : ∀ (u : List (V → V)) (a b c : V), ∃ a', fieldStep predicted u [a, b, c] = [a', a, b] := by
    intro u a b c
    exact ⟨_, rfl⟩
  have len : ∀ n, ∃ a b c, fieldAfter predicted updates [x0, x1, x2] n = [a, b, c] := by
    intro n
    induction n with
    | zero => exact ⟨_, _, _, rfl⟩
    | succ n ih =>
      obtain ⟨a, b, c, h⟩ := ih
      obtain ⟨a', h'⟩ := step1 (updates n) a b c
      exact ⟨a', a, b, by rw [fieldAfter, h, h']⟩
  constructor
  · intro n
    obtain ⟨a, b, c, h⟩ := len n
    obtain ⟨a', h'⟩ := step1 (updates n) a b c
    obtain ⟨a'', h''⟩ := step1 (updates (n + 1)) a' a b
    have e1 : fieldAfter predicted updates [x0, x1, x2] (n + 1) = [a', a, b] := by
      rw [fieldAfter, h, h']
    have e2 : fieldAfter predicted updates [x0, x1, x2] (n + 2) = [a'', a', a] := by
      rw [fieldAfter, e1, h'']
    exact ⟨a'', a', a, e2, by simp [acc, e2], by simp [acc, e1], by simp [acc, h]⟩
  · obtain ⟨a', h'⟩ := step1 (updates 0) x0 x1 x2
    exact ⟨a', x1, by rw [fieldAfter, fieldAfter, h']⟩

/-- **C10**, first-order runs (two states). -/
theorem c10_old_state_first_order {V : Type*} (predicted : Bool) (updates : ℕ → List (V → V))
    (x0 x1 : V) (n : ℕ) :
    ∃ a b, fieldAfter predicted updates [x0, x1] (n + 1) = [a, b] ∧
      acc predicted updates [x0, x1] n = some b := by
  have len : ∀ n, ∃ a b, fieldAfter predicted updates [x0, x1] n = [a, b] := by
    intro n
    induction n with
    | zero => exact ⟨_, _, rfl⟩
    | succ n ih =>
      obtain ⟨a, b, h⟩ := ih
      rw [fieldAfter, h]
      exact ⟨_, _, rfl⟩
  obtain ⟨a, b, h⟩ := len n
  refine ⟨_, a, by rw [fieldAfter, h]; rfl, by simp [acc, h]⟩

/-- **C10**, predictor: with `predict_state` every step starts its nonlinear iterations from the
value accepted at the previous step. -/
theorem c10_predictor {V : Type*} (updates : ℕ → List (V → V)) (x0 x1 : V) (l : List V) (n : ℕ) :
    acc true updates (x0 :: x1 :: l) (n + 1) =
      (acc true updates (x0 :: x1 :: l) n).map fun v => (updates n).foldl (fun v f => f v) v := by
  have len : ∀ n, ∃ a b l', fieldAfter true updates (x0 :: x1 :: l) n = a :: b :: l' := by
    intro n
    induction n with
    | zero => exact ⟨_, _, _, rfl⟩
    | succ n ih =>
      obtain ⟨a, b, l', h⟩ := ih
      rw [fieldAfter, h]
      exact ⟨_, _, _, rfl⟩
  obtain ⟨a, b, l', h⟩ := len n
  simp [acc, fieldAfter, h, fieldStep, swapStates, predictState]

/-- Non-vacuity of C10: four steps of "add step number", twice per step. -/
example : fieldAfter true (fun n => [fun v : ℕ => v + n, fun v => 2 * v]) [1, 7, 9] 4 = [38, 16, 6] := by
  decide

/-- **C49 is false of the code**: on steps at which a realm is not active (`solve_frequency`
does not divide the step number) nothing updates a state field that has no predictor, so its newest
state is the value of an older step, not the last accepted one. -/
theorem c49_inactive_step_stale :
    ∃ (b : List ℚ) (updates : ℕ → List (ℚ → ℚ)), updates 3 = [] ∧
      acc false updates b 4 ≠ acc false updates b 3 :=
  ⟨[1, 1, 1], fun n => if n = 3 then [] else [fun _ => n + 2], rfl, by decide +kernel⟩

/-- **C49**, the part that holds: fields with a predictor keep their last accepted value over any
number of inactive steps.  Missing: state fields without predictor. -/
theorem c49_inactive_steps_partial {V : Type*} (updates : ℕ → List (V → V)) (x0 x1 : V) (l : List V)
    (n m : ℕ) (h : ∀ k, n ≤ k → k < n + m → updates k = []) :
    acc true updates (x0 :: x1 :: l) (n + m) = acc true updates (x0 :: x1 :: l) n := by
  induction m with
  | zero => rfl
  | succ m ih =>
    rw [← Nat.add_assoc, c10_predictor, ih (fun k h1 h2 => h k h1 (by omega)), h (n + m) (by omega)
      (by omega)]
    simp

example : acc true (fun n => if n = 0 then [fun v : ℕ => v + 5] else []) [1, 2, 3] 4 = some 6 := by
  decide

/-! ## C11 -/

/-- States and outcomes of the successive sweeps: `(iter k).1` is the state after `k` sweeps. -/
def iterState {σ : Type*} (sweep : σ → σ × Bool) (s : σ) : ℕ → σ
  | 0 => s
  | k + 1 => (sweep (iterState sweep s k)).1

/-- Specification: sweep number `k` (from 1) converges. -/
def Converges {σ : Type*} (sweep : σ → σ × Bool) (s : σ) (k : ℕ) : Prop :=
  ∃ j, k = j + 1 ∧ (sweep (iterState sweep s j)).2 = true

theorem sweepLoop_spec {σ : Type*} (sweep : σ → σ × Bool) (maxIt i : ℕ) (s s0 : σ)
    (hs : s = iterState sweep s0 i) (hno : ∀ k, k ≤ i → ¬ Converges sweep s0 k) (hi : i ≤ maxIt) :
    let r := sweepLoop sweep maxIt i s
    let n := i + r.2.length
    r.1 = iterState sweep s0 n ∧ n ≤ maxIt ∧
    (∀ k, k < n → ¬ Converges sweep s0 k) ∧
    (n < maxIt → Converges sweep s0 n) ∧
    r.2 = (List.range r.2.length).map fun j =>
      ⟨i + j + 1, decide (i + j + 1 = maxIt), (sweep (iterState sweep s0 (i + j))).2⟩ := by
  induction h : maxIt - i generalizing i s with
  | zero =>
    have : i = maxIt := by omega
    unfold sweepLoop
    simp only [this, lt_irrefl, if_false, List.length_nil, Nat.add_zero]
    subst this
    refine ⟨hs, le_rfl, fun k hk => hno k hk.le, fun h => absurd h (by simp), by simp⟩
  | succ m ih =>
    have hlt : i < maxIt := by omega
    unfold sweepLoop
    simp only [hlt, if_true]
    by_cases hc : (sweep s).2 = true
    · simp only [hc, if_true, List.length_singleton]
      refine ⟨by rw [hs]; rfl, hlt, fun k hk => hno k (by omega),
        fun _ => ⟨i, rfl, by rw [← hs]; exact hc⟩, ?_⟩
      simp [← hs, hc]
    · simp only [hc, Bool.false_eq_true, if_false, List.length_cons]
      have hno' : ∀ k, k ≤ i + 1 → ¬ Converges sweep s0 k := by
        intro k hk
        rcases Nat.lt_or_ge k (i + 1) with h1 | h1
        · exact hno k (by omega)
        · have : k = i + 1 := by omega
          subst this
          rintro ⟨j, hj, hj'⟩
          have : j = i := by omega
          subst this
          rw [← hs] at hj'; exact hc hj'
      obtain ⟨h1, h2, h3, h4, h5⟩ := ih (i + 1) (sweep s).1 (by rw [hs]; rfl) hno' (by omega) (by omega)
      have e : i + ((sweepLoop sweep maxIt (i + 1) (sweep s).1).2.length + 1) =
        i + 1 + (sweepLoop sweep maxIt (i + 1) (sweep s).1).2.length := by omega
      rw [e]
      refine ⟨h1, h2, h3, h4, ?_⟩
      rw [List.range_succ_eq_map, List.map_cons, List.map_map]
      congr 1
      · simp [← hs, hc]
      · conv_lhs => rw [h5]
        apply List.map_congr_left
        intro j _
        simp only [Function.comp, Nat.succ_eq_add_one, Sweep.mk.injEq]
        have e2 : i + 1 + j = i + (j + 1) := by omega
        rw [e2]; simp

/-- **C11** Nonlinear iteration control: on an active step with `max_iterations ≥ 1`, for every
sweep behaviour, the number `n` of sweeps is between 1 and `max_iterations`, no sweep before the last
one converged, the last sweep converged unless the limit was hit, sweeps are numbered
consecutively, and the final state is the one left by the last sweep. -/
theorem c11_iteration_control {σ : Type*} (sweep : σ → σ × Bool) (maxIt count freq : ℤ) (s : σ)
    (hm : 1 ≤ maxIt) (hf : freq ≠ 0) (hact : freq ∣ count) :
    ∃ sw s', advanceTimeStep sweep maxIt count freq s = some (s', sw) ∧
      1 ≤ sw.length ∧ (sw.length : ℤ) ≤ maxIt ∧
      (∀ k, k < sw.length → ¬ Converges sweep s k) ∧
      ((sw.length : ℤ) < maxIt → Converges sweep s sw.length) ∧
      s' = iterState sweep s sw.length ∧
      (∀ j (hj : j < sw.length), sw[j].number = j + 1 ∧
        (sw[j].converged = true ↔ Converges sweep s (j + 1))) := by
  have hmod : count.tmod freq = 0 := Int.tmod_eq_zero_of_dvd hact
  refine ⟨(sweepLoop sweep maxIt.toNat 0 s).2, (sweepLoop sweep maxIt.toNat 0 s).1, ?_, ?_⟩
  · simp [advanceTimeStep, activeTimeStep, hf, hmod]
  · have hno : ∀ k, k ≤ 0 → ¬ Converges sweep s k := by
      rintro k hk ⟨j, hj, -⟩; omega
    obtain ⟨h1, h2, h3, h4, h5⟩ := sweepLoop_spec sweep maxIt.toNat 0 s s rfl hno (by omega)
    simp only [Nat.zero_add] at h1 h2 h3 h4 h5
    have hpos : 1 ≤ (sweepLoop sweep maxIt.toNat 0 s).2.length := by
      by_contra hcon
      have h0 : (sweepLoop sweep maxIt.toNat 0 s).2.length = 0 := by omega
      have hC := h4 (by omega)
      rw [h0] at hC
      exact hno 0 le_rfl hC
    refine ⟨hpos, by omega, h3, fun h => h4 (by omega), h1, ?_⟩
    intro j hj
    have hget : (sweepLoop sweep maxIt.toNat 0 s).2[j] =
        ⟨j + 1, decide (j + 1 = maxIt.toNat), (sweep (iterState sweep s j)).2⟩ := by
      have := List.getElem_of_eq h5 hj
      rw [this]
      simp
    rw [hget]
    refine ⟨rfl, ?_⟩
    constructor
    · intro h; exact ⟨j, rfl, h⟩
    · rintro ⟨j', hj', h⟩
      have : j' = j := by omega
      subst this; exact h

/-- **C11**: on a step not divisible by the solve frequency the realm does nothing. -/
theorem c11_inactive_step {σ : Type*} (sweep : σ → σ × Bool) (maxIt count freq : ℤ) (s : σ)
    (hf : freq ≠ 0) (hact : ¬ freq ∣ count) :
    advanceTimeStep sweep maxIt count freq s = some (s, []) := by
  have : ¬ count.tmod freq = 0 := fun h => hact (Int.dvd_of_tmod_eq_zero h)
  simp [advanceTimeStep, activeTimeStep, hf, this]

/-- A side finding: when the loop stops early because of convergence, no sweep of the step was
marked final (`isFinalOuterIter_`, used to defer work to the last sweep), whereas a run that uses all
sweeps marks exactly its last one. -/
theorem c11_final_flag {σ : Type*} (sweep : σ → σ × Bool) (maxIt : ℕ) (s : σ) (j : ℕ)
    (hj : j < (sweepLoop sweep maxIt 0 s).2.length) :
    (sweepLoop sweep maxIt 0 s).2[j].finalOuter = true ↔
      j + 1 = (sweepLoop sweep maxIt 0 s).2.length ∧ (sweepLoop sweep maxIt 0 s).2.length = maxIt := by
  have hno : ∀ k, k ≤ 0 → ¬ Converges sweep s k := by
    rintro k hk ⟨j, hj, -⟩; omega
  obtain ⟨h1, h2, h3, h4, h5⟩ := sweepLoop_spec sweep maxIt 0 s s rfl hno (by omega)
  simp only [Nat.zero_add] at h2 h5
  have hget : (sweepLoop sweep maxIt 0 s).2[j] =
      ⟨j + 1, decide (j + 1 = maxIt), (sweep (iterState sweep s j)).2⟩ := by
    have := List.getElem_of_eq h5 hj
    rw [this]
    simp
  rw [hget]
  simp only [decide_eq_true_eq]
  omega

/-- Non-vacuity of C11: state counts sweeps, converges at the third; limit 5. -/
example : advanceTimeStep (fun s : ℕ => (s + 1, decide (s + 1 = 3))) 5 4 2 0 =
    some (3, [⟨1, false, false⟩, ⟨2, false, false⟩, ⟨3, false, true⟩]) := by
  simp [advanceTimeStep, activeTimeStep, sweepLoop]

/-! ## C12 -/

/-- The iteration counts recorded since the last dump, oldest first. -/
def sinceDump : List StatOp → List ℤ
  | [] => []
  | ops => ops.foldl (fun l o => match o with | .solve i => l ++ [i] | .dump => []) []

theorem sinceDump_append (ops : List StatOp) (o : StatOp) :
    sinceDump (ops ++ [o]) = match o with | .solve i => sinceDump ops ++ [i] | .dump => [] := by
  cases ops with
  | nil => cases o <;> rfl
  | cons a l =>
    unfold sinceDump
    cases o <;> simp [List.foldl_append]

/-- **C12** (statistics) After any history of linear solves and reports, the average times the
number of solves since the last report is the sum of their iteration counts, and (if there was at
least one solve, iteration counts being between 0 and 10^10) minimum and maximum are attained
bounds. -/
theorem c12_iteration_statistics (ops : List StatOp)
    (hr : ∀ i, StatOp.solve i ∈ ops → 0 ≤ i ∧ i ≤ 10000000000) :
    let s : Stats K := ops.foldl Stats.op Stats.reset
    let l := sinceDump ops
    s.count = l.length ∧
    (l ≠ [] → s.avg = (l.sum : K) / (l.length : K) ∧
      (∃ i ∈ l, s.minI = (i : K)) ∧ (∀ i ∈ l, s.minI ≤ (i : K)) ∧
      (∃ i ∈ l, s.maxI = (i : K)) ∧ (∀ i ∈ l, (i : K) ≤ s.maxI)) := by
  suffices H : ∀ ops : List StatOp, (∀ i, StatOp.solve i ∈ ops → 0 ≤ i ∧ i ≤ 10000000000) →
      let s : Stats K := ops.foldl Stats.op Stats.reset
      let l := sinceDump ops
      s.count = l.length ∧ s.avg * (l.length : K) = (l.sum : K) ∧
      (∀ i ∈ l, s.minI ≤ (i : K)) ∧ (∀ i ∈ l, (i : K) ≤ s.maxI) ∧
      (if l = [] then s.minI = 10000000000 ∧ s.maxI = 0 else
        (∃ i ∈ l, s.minI = (i : K)) ∧ (∃ i ∈ l, s.maxI = (i : K))) by
    obtain ⟨h1, h2, h3, h4, h5⟩ := H ops hr
    refine ⟨h1, fun hl => ⟨?_, ?_, h3, ?_, h4⟩⟩
    · have : ((sinceDump ops).length : K) ≠ 0 := by
        simpa using hl
      rw [eq_div_iff this]; exact h2
    · rw [if_neg hl] at h5; exact h5.1
    · rw [if_neg hl] at h5; exact h5.2
  intro ops
  induction ops using List.reverseRecOn with
  | nil => intro _; simp [sinceDump, Stats.reset]
  | append_singleton ops o ih =>
    intro hr
    obtain ⟨h1, h2, h3, h4, h5⟩ := ih (fun i hi => hr i (by simp [hi]))
    simp only [List.foldl_append, List.foldl_cons, List.foldl_nil, sinceDump_append]
    cases o with
    | dump => simp [Stats.op, Stats.reset]
    | solve j =>
      obtain ⟨hj0, hj1⟩ := hr j (by simp)
      simp only [Stats.op, Stats.update]
      set s : Stats K := ops.foldl Stats.op Stats.reset
      have hc : ((sinceDump ops).length : K) + 1 ≠ 0 := by positivity
      have hjK : (0:K) ≤ (j : K) := by exact_mod_cast hj0
      have hjK1 : (j : K) ≤ 10000000000 := by exact_mod_cast hj1
      refine ⟨by simp [h1], ?_, ?_, ?_, ?_⟩
      · rw [h1]
        simp only [List.length_append, List.length_singleton, Nat.cast_add, Nat.cast_one,
          List.sum_append, List.sum_singleton, Int.cast_add]
        rw [div_mul_cancel₀ _ hc, ← h2]; ring
      · intro i hi
        rw [List.mem_append, List.mem_singleton] at hi
        rcases hi with hi | rfl
        · exact (min_le_left _ _).trans (h3 i hi)
        · exact min_le_right _ _
      · intro i hi
        rw [List.mem_append, List.mem_singleton] at hi
        rcases hi with hi | rfl
        · exact (h4 i hi).trans (le_max_left _ _)
        · exact le_max_right _ _
      · rw [if_neg (by simp)]
        by_cases hl : sinceDump ops = []
        · rw [if_pos hl] at h5
          refine ⟨⟨j, by simp, ?_⟩, ⟨j, by simp, ?_⟩⟩
          · rw [h5.1]; exact min_eq_right hjK1
          · rw [h5.2]; exact max_eq_right hjK
        · rw [if_neg hl] at h5
          obtain ⟨⟨a, ha, ha'⟩, ⟨b, hb, hb'⟩⟩ := h5
          constructor
          · rcases le_total s.minI (j : K) with h | h
            · exact ⟨a, by simp [ha], by rw [min_eq_left h, ha']⟩
            · exact ⟨j, by simp, min_eq_right h⟩
          · rcases le_total s.maxI (j : K) with h | h
            · exact ⟨j, by simp, max_eq_right h⟩
            · exact ⟨b, by simp [hb], by rw [max_eq_left h, hb']⟩

/-- **C12** (convergence flag) The realm-wide flag is true iff every equation system that owns a
linear system has a scaled residual below its tolerance. -/
theorem c12_overall_convergence (es : List (EqSys K)) :
    overallConvergence es = true ↔ ∀ e ∈ es, ∀ r, e.linsys = some r → r.1 < e.tolerance := by
  have H : ∀ (es : List (EqSys K)) (b : Bool),
      es.foldl (fun ok e => if !e.isConverged then false else ok) b = true ↔
        b = true ∧ ∀ e ∈ es, ∀ r, e.linsys = some r → r.1 < e.tolerance := by
    intro es
    induction es with
    | nil => simp
    | cons e es ih =>
      intro b
      simp only [List.foldl_cons, ih, List.forall_mem_cons]
      have he : e.isConverged = true ↔ ∀ r, e.linsys = some r → r.1 < e.tolerance := by
        unfold EqSys.isConverged
        cases h : e.linsys <;> simp
      rw [← he]
      cases e.isConverged <;> simp
  unfold overallConvergence; rw [H]; simp

/-- **C12** (norms) The reported system norm is the largest scaled residual (when there is an equation
system), and the mean system norm is the arithmetic mean of the residuals of the systems that own
a linear system. -/
theorem c12_norms (es : List (EqSys K)) (hpos : ∀ e ∈ es, 0 ≤ e.scaledNorm) :
    (es ≠ [] → (∃ e ∈ es, systemNorm es = e.scaledNorm) ∧ ∀ e ∈ es, e.scaledNorm ≤ systemNorm es) ∧
    (∀ m, meanSystemNorm es = some m ↔
      (es.filterMap (·.linsys)) ≠ [] ∧
        m = ((es.filterMap (·.linsys)).map Prod.snd).sum / ((es.filterMap (·.linsys)).length : K)) := by
  constructor
  · intro hne
    have H : ∀ (es : List (EqSys K)) (m0 : K),
        (es.foldl (fun m e => max m e.scaledNorm) m0 = m0 ∨
          ∃ e ∈ es, es.foldl (fun m e => max m e.scaledNorm) m0 = e.scaledNorm) ∧
        m0 ≤ es.foldl (fun m e => max m e.scaledNorm) m0 ∧
        ∀ e ∈ es, e.scaledNorm ≤ es.foldl (fun m e => max m e.scaledNorm) m0 := by
      intro es
      induction es with
      | nil => simp
      | cons a es ih =>
        intro m0
        obtain ⟨i1, i2, i3⟩ := ih (max m0 a.scaledNorm)
        simp only [List.foldl_cons]
        refine ⟨?_, (le_max_left _ _).trans i2, ?_⟩
        · rcases i1 with h | ⟨e, he, h⟩
          · rcases le_total m0 a.scaledNorm with h' | h'
            · right; exact ⟨a, by simp, by rw [h, max_eq_right h']⟩
            · left; rw [h, max_eq_left h']
          · right; exact ⟨e, by simp [he], h⟩
        · intro e he
          rw [List.mem_cons] at he
          rcases he with rfl | he
          · exact (le_max_right _ _).trans i2
          · exact i3 e he
    obtain ⟨h1, h2, h3⟩ := H es (-10000000000000000)
    refine ⟨?_, h3⟩
    rcases h1 with h1 | h1
    · obtain ⟨e, he⟩ := List.exists_mem_of_ne_nil es hne
      exfalso
      have a1 := h3 e he
      have a2 := hpos e he
      rw [h1] at a1
      have : (-10000000000000000 : K) < 0 := by norm_num
      linarith
    · exact h1
  · intro m
    have H : ∀ (es : List (EqSys K)) (p : K × K),
        es.foldl (fun (p : K × K) e => (p.1 + e.norm, p.2 + e.normIncrement)) p =
          (p.1 + ((es.filterMap (·.linsys)).map Prod.snd).sum,
            p.2 + ((es.filterMap (·.linsys)).length : K)) := by
      intro es
      induction es with
      | nil => simp
      | cons e es ih =>
        intro p
        simp only [List.foldl_cons, ih]
        cases h : e.linsys with
        | none => simp [List.filterMap_cons, h, EqSys.norm, EqSys.normIncrement]
        | some r =>
          simp only [List.filterMap_cons, h, EqSys.norm, EqSys.normIncrement, List.map_cons,
            List.sum_cons, List.length_cons, Nat.cast_add, Nat.cast_one]
          ext <;> simp <;> ring
    unfold meanSystemNorm
    simp only [H, zero_add]
    by_cases hl : es.filterMap (·.linsys) = []
    · simp [hl]
    · have : ((es.filterMap (·.linsys)).length : K) ≠ 0 := by simpa using hl
      simp only [this, if_false, Option.some.injEq, hl, ne_eq, not_false_eq_true, true_and]
      exact eq_comm

example : ([StatOp.solve 9, .dump, .solve 3, .solve 5].foldl Stats.op Stats.reset : Stats ℚ).avg = 4 ∧
    overallConvergence [(⟨some (1/2, 3), 1⟩ : EqSys ℚ), ⟨none, 0⟩, ⟨some (1/4, 5), 1⟩] = true ∧
    meanSystemNorm [(⟨some (1/2, 3), 1⟩ : EqSys ℚ), ⟨none, 0⟩, ⟨some (1/4, 5), 1⟩] = some 4 := by
  decide +kernel

/-! ## C48 -/

theorem compute_nth_eq (y : List K) :
    computeNthMassFraction y = y.map clipOne ++ [1 - (y.map clipOne).sum] := by
  have H : ∀ (y : List K) (p : K × List K),
      y.foldl (fun (p : K × List K) yi => (p.1 + clipOne yi, p.2 ++ [clipOne yi])) p =
        (p.1 + (y.map clipOne).sum, p.2 ++ y.map clipOne) := by
    intro y
    induction y with
    | nil => simp
    | cons a y ih => intro p; simp [List.foldl_cons, ih, add_assoc]
  simp [computeNthMassFraction, H]

/-- **C48, the part that holds**: after every mass-fraction update the mass fractions at a node sum
exactly to one and all but the last lie in `[1e-16, 1+1e-16]`, whatever the solver returned.
Missing: the bound on the last one (see the next theorem). -/
theorem c48_mass_fractions_partial (y : List K) :
    (computeNthMassFraction y).sum = 1 ∧ (computeNthMassFraction y).length = y.length + 1 ∧
    (∀ i, i < y.length → ∃ v, (computeNthMassFraction y)[i]? = some v ∧
      1 / 10000000000000000 ≤ v ∧ v ≤ 1 + 1 / 10000000000000000) ∧
    (∀ i (h : i < y.length), 1 / 10000000000000000 ≤ y[i] → y[i] ≤ 1 + 1 / 10000000000000000 →
      (computeNthMassFraction y)[i]? = some y[i]) := by
  rw [compute_nth_eq]
  refine ⟨by simp, by simp, ?_, ?_⟩
  · intro i h
    refine ⟨clipOne y[i], by rw [List.getElem?_append_left (by simpa using h)]; simp [h], ?_, ?_⟩
    · unfold clipOne
      refine le_min ?_ (le_max_left _ _)
      have : (0:K) < 1 := one_pos
      linarith
    · exact min_le_left _ _
  · intro i h h1 h2
    rw [List.getElem?_append_left (by simpa using h)]
    simp only [List.getElem?_map, List.getElem?_eq_getElem h, Option.map_some, clipOne]
    rw [max_eq_right h1, min_eq_right h2]

/-- **C48 is false of the code as stated**: the last mass fraction is not clipped and can become
negative although all the others are within bounds. -/
theorem c48_last_can_be_negative :
    ∃ y : List ℚ, (∀ v ∈ y, 0 ≤ v ∧ v ≤ 1) ∧ ∃ v ∈ computeNthMassFraction y, v < 0 :=
  ⟨[7/10, 6/10], by simp; norm_num, -3/10, by decide +kernel, by norm_num⟩

end Nalu.Control
