import Verif.Model.Time
import Mathlib.Algebra.Polynomial.Derivative
import Mathlib.Algebra.Order.Archimedean.Basic
import Mathlib.Algebra.BigOperators.Group.Finset.Basic
import Mathlib.Tactic.Linarith
import Mathlib.Tactic.FieldSimp
import Mathlib.Tactic.Ring
import Mathlib.Tactic.NormNum
import Mathlib.Tactic.Positivity

/-!
# C01–C05, C08: the time loop
-/

set_option linter.unusedSectionVars false
set_option linter.unusedSimpArgs false

namespace Nalu.Time

variable {K : Type*} [Field K] [LinearOrder K]

/-! ## Helper facts -/

@[simp] theorem step_count (c : Cfg K) (cs : List (Courant K)) (s : St K) :
    (step c cs s).timeStepCount = s.timeStepCount + 1 := by
  unfold step endStep beginStep computeGamma
  cases c.adaptive <;> cases c.secondOrder <;> simp <;> split_ifs <;> simp

@[simp] theorem step_time (c : Cfg K) (cs : List (Courant K)) (s : St K) :
    (step c cs s).currentTime = s.currentTime + (step c cs s).timeStepN := by
  unfold step endStep beginStep computeGamma
  cases c.adaptive <;> cases c.secondOrder <;> simp <;> split_ifs <;> simp

@[simp] theorem step_nm1 (c : Cfg K) (cs : List (Courant K)) (s : St K) :
    (step c cs s).timeStepNm1 = (step c cs s).timeStepN := rfl

theorem step_dt (c : Cfg K) (cs : List (Courant K)) (s : St K) :
    (step c cs s).timeStepN = if c.adaptive then negotiate cs s.timeStepN else s.timeStepN := by
  unfold step endStep beginStep computeGamma
  cases c.adaptive <;> cases c.secondOrder <;> simp <;> split_ifs <;> simp

theorem after_count (c : Cfg K) (inp : ℕ → List (Courant K)) (s : St K) (n : ℕ) :
    (after c inp s n).timeStepCount = s.timeStepCount + n := by
  induction n with
  | zero => simp [after]
  | succ n ih => simp [after, ih]; ring

/-- The loop leaves in the state reached after the executed passes, every executed pass found the
loop condition true and the final state finds it false. -/
theorem runs_iff (c : Cfg K) (inp : ℕ → List (Courant K)) (s : St K) (k n : ℕ) (s' : St K)
    (s0 : St K) (hs : s = after c inp s0 n) :
    Runs c inp n s k s' ↔
      (s' = after c inp s0 (n + k) ∧ (∀ j, j < k → proceeds c (after c inp s0 (n + j)) = true) ∧
        proceeds c s' = false) := by
  induction k generalizing n s with
  | zero =>
    constructor
    · intro h; cases h with | stop h => subst hs; simp [h]
    · rintro ⟨h1, -, h3⟩
      simp only [Nat.add_zero] at h1
      rw [← hs] at h1; subst h1; exact .stop h3
  | succ k ih =>
    have hs' : step c (inp n) s = after c inp s0 (n + 1) := by rw [hs]; rfl
    constructor
    · intro h
      cases h with
      | pass hp hr =>
        obtain ⟨h1, h2, h3⟩ := (ih _ _ hs').1 hr
        refine ⟨by rw [h1]; congr 1; omega, ?_, h3⟩
        intro j hj
        rcases j with _ | j
        · rw [Nat.add_zero, ← hs]; exact hp
        · have := h2 j (by omega)
          rwa [show n + 1 + j = n + (j + 1) by omega] at this
    · rintro ⟨h1, h2, h3⟩
      refine .pass ?_ ((ih _ _ hs').2 ⟨by rw [h1]; congr 1; omega, ?_, h3⟩)
      · have := h2 0 (by omega); rwa [Nat.add_zero, ← hs] at this
      · intro j hj
        have := h2 (j + 1) (by omega)
        rwa [show n + (j + 1) = n + 1 + j by omega] at this

/-! ## C01 -/

/-- **C01.** If the deck gives `termination_step_count = N` (with or without a termination time),
then from any start-up state (fresh or restarted) the time loop executes exactly
`max 0 (N - c0)` steps, whatever the step sizes do, and no other number. -/
theorem c01_step_count_termination (d : Deck K) (N : ℤ)
    (hN : d.terminationStepCount = some N)
    (recs : List (Option (RestartRecord K))) (inp : ℕ → List (Courant K)) :
    ∃ s', Runs (load d) inp 0 (startUp d recs) (N - (startUp d recs).timeStepCount).toNat s' ∧
      s'.timeStepCount = max N (startUp d recs).timeStepCount ∧
      ∀ k s'', Runs (load d) inp 0 (startUp d recs) k s'' →
        k = (N - (startUp d recs).timeStepCount).toNat ∧ s'' = s' := by
  set s0 := startUp d recs
  have hp : ∀ s : St K, proceeds (load d) s = decide (s.timeStepCount < N) := by
    intro s; simp [proceeds, load, hN]
  refine ⟨after (load d) inp s0 (N - s0.timeStepCount).toNat, ?_, ?_, ?_⟩
  · refine (runs_iff _ _ _ _ 0 _ s0 rfl).2 ⟨by simp, ?_, ?_⟩
    · intro j hj; rw [hp, decide_eq_true_eq, after_count]; push_cast; omega
    · rw [hp, decide_eq_false_iff_not, after_count]; omega
  · rw [after_count]; omega
  · intro k s'' h
    obtain ⟨h1, h2, h3⟩ := (runs_iff _ _ _ _ 0 _ s0 rfl).1 h
    have hk : k = (N - s0.timeStepCount).toNat := by
      rw [h1, hp, decide_eq_false_iff_not, after_count] at h3
      rcases Nat.eq_zero_or_pos k with h0 | h0
      · subst h0; simp at h3; omega
      · have := h2 (k - 1) (by omega)
        rw [hp, decide_eq_true_eq, after_count] at this
        push_cast at h3 this; omega
    subst hk
    exact ⟨rfl, by rw [h1]; simp⟩

/-- Non-vacuity: a deck with both criteria, restarted at step 7 and limited to 10 steps. -/
example : let d : Deck ℚ := { terminationTime := some 1, terminationStepCount := some 10,
                              timeStep := 1/10, startTime := 0 }
    (10 - (startUp d [some ⟨7/10, 1/10, 7⟩]).timeStepCount).toNat = 3 := by decide +kernel

/-! ## C02 -/

/-- **C02.** With a termination time `T` and no step count limit: every executed step starts
strictly before `T`, and the loop is left only at a time `≥ T`. -/
theorem c02_time_termination (d : Deck K) (T : K) (hT : d.terminationTime = some T)
    (hN : d.terminationStepCount = none)
    (recs : List (Option (RestartRecord K))) (inp : ℕ → List (Courant K)) (k : ℕ) (s' : St K)
    (h : Runs (load d) inp 0 (startUp d recs) k s') :
    T ≤ s'.currentTime ∧ ∀ j, j < k → (after (load d) inp (startUp d recs) j).currentTime < T := by
  obtain ⟨h1, h2, h3⟩ := (runs_iff _ _ _ _ 0 _ _ rfl).1 h
  have hp : ∀ s : St K, proceeds (load d) s = decide (s.currentTime < T) := by
    intro s; simp [proceeds, load, hN, hT]
  rw [hp, decide_eq_false_iff_not, not_lt] at h3
  refine ⟨h3, fun j hj => ?_⟩
  have := h2 j hj
  rw [hp, decide_eq_true_eq, Nat.zero_add] at this; exact this

theorem startUp_dt_fixed (d : Deck K) (ha : d.adaptive = false)
    (recs : List (Option (RestartRecord K))) : (startUp d recs).timeStepN = d.timeStep := by
  simp [startUp, ha]

theorem after_fixed (c : Cfg K) (ha : c.adaptive = false) (inp : ℕ → List (Courant K)) (s : St K)
    (n : ℕ) : (after c inp s n).timeStepN = s.timeStepN ∧
      (after c inp s n).currentTime + 0 = s.currentTime + n * s.timeStepN := by
  induction n with
  | zero => simp [after]
  | succ n ih =>
    have hd : (after c inp s (n + 1)).timeStepN = s.timeStepN := by
      rw [after, step_dt, ha]; simpa using ih.1
    refine ⟨hd, ?_⟩
    rw [after, step_time, ← after, hd]
    have := ih.2
    rw [add_zero] at this ⊢
    rw [this]; push_cast; ring

/-- **C02**, fixed step: the run terminates and its final time lies in `[T, T + dt)`. -/
theorem c02_fixed_final_time [IsStrictOrderedRing K] [Archimedean K] (d : Deck K) (T : K)
    (hT : d.terminationTime = some T)
    (hN : d.terminationStepCount = none) (ha : d.adaptive = false) (hdt : 0 < d.timeStep)
    (recs : List (Option (RestartRecord K))) (inp : ℕ → List (Courant K))
    (hstart : (startUp d recs).currentTime < T) :
    ∃ k s', Runs (load d) inp 0 (startUp d recs) k s' ∧
      T ≤ s'.currentTime ∧ s'.currentTime < T + d.timeStep := by
  classical
  set s0 := startUp d recs
  have hf := after_fixed (load d) (by simpa [load] using ha) inp s0
  have hdt0 : s0.timeStepN = d.timeStep := startUp_dt_fixed d ha recs
  have htime : ∀ n, (after (load d) inp s0 n).currentTime = s0.currentTime + n * d.timeStep := by
    intro n; have := (hf n).2; rw [add_zero, hdt0] at this; exact this
  have hp : ∀ s : St K, proceeds (load d) s = decide (s.currentTime < T) := by
    intro s; simp [proceeds, load, hN, hT]
  have hex : ∃ n : ℕ, T ≤ (after (load d) inp s0 n).currentTime := by
    obtain ⟨n, hn⟩ := Archimedean.arch (T - s0.currentTime) hdt
    refine ⟨n, ?_⟩
    rw [htime]; rw [nsmul_eq_mul] at hn; linarith
  let k := Nat.find hex
  have hk := Nat.find_spec hex
  have hlt : ∀ j, j < k → (after (load d) inp s0 j).currentTime < T :=
    fun j hj => not_le.1 (Nat.find_min hex hj)
  refine ⟨k, after (load d) inp s0 k, ?_, hk, ?_⟩
  · refine (runs_iff _ _ _ _ 0 _ s0 rfl).2 ⟨by simp, ?_, ?_⟩
    · intro j hj; rw [hp, decide_eq_true_eq, Nat.zero_add]; exact hlt j hj
    · rw [hp, decide_eq_false_iff_not, not_lt]; exact hk
  · have hk0 : k ≠ 0 := by
      intro h0
      have : T ≤ (after (load d) inp s0 k).currentTime := hk
      rw [h0] at this; exact absurd hstart (not_lt.2 this)
    obtain ⟨m, hm⟩ := Nat.exists_eq_succ_of_ne_zero hk0
    have h1 := hlt m (by omega)
    rw [hm, htime]
    rw [htime] at h1
    push_cast; linarith

example : let d : Deck ℚ := { terminationTime := some 1, timeStep := 3/10, startTime := 0 }
    ∃ s' : St ℚ, Runs (load d) (fun _ => []) 0 (startUp d []) 4 s' ∧ s'.currentTime = 12/10 := by
  intro d
  refine ⟨after (load d) (fun _ => []) (startUp d []) 4,
    (runs_iff _ _ _ _ 0 _ _ rfl).2 ⟨rfl, ?_, ?_⟩, ?_⟩ <;> decide +kernel

/-! ## C03 -/

/-- **C03.** After any number of steps the current time is the start time plus the sum of the step
sizes used (`timeStepN` as seen during each step), and the step counter has advanced by one
per step. -/
theorem c03_time_is_sum_of_steps (c : Cfg K) (inp : ℕ → List (Courant K)) (s0 : St K) (n : ℕ) :
    (after c inp s0 n).currentTime
        = s0.currentTime + ∑ i ∈ Finset.range n, (beginStep c (inp i) (after c inp s0 i)).timeStepN ∧
      (after c inp s0 n).timeStepCount = s0.timeStepCount + n := by
  refine ⟨?_, after_count c inp s0 n⟩
  induction n with
  | zero => simp [after]
  | succ n ih => rw [Finset.sum_range_succ, ← add_assoc, ← ih]; exact step_time c (inp n) _

/-- **C03**, fixed step: `start + n * dt`. -/
theorem c03_fixed_step_time (d : Deck K) (ha : d.adaptive = false)
    (recs : List (Option (RestartRecord K))) (inp : ℕ → List (Courant K)) (n : ℕ) :
    (after (load d) inp (startUp d recs) n).currentTime
      = (startUp d recs).currentTime + n * d.timeStep := by
  have h := (after_fixed (load d) (by simpa [load] using ha) inp (startUp d recs) n).2
  rwa [add_zero, startUp_dt_fixed d ha recs] at h

example : (after (load ({ timeStep := 1/10, startTime := 2 } : Deck ℚ)) (fun _ => [])
    (startUp { timeStep := 1/10, startTime := 2 } []) 5).currentTime = 5/2 := by decide +kernel

/-! ## C04 -/

section Gamma
variable [IsStrictOrderedRing K]
open Polynomial

/-- The algebra behind BDF2 with variable steps `h` (new) and `g` (old). -/
theorem bdf2_algebra (p : K[X]) (hp : p.natDegree ≤ 2) (t h g : K) (hh : 0 < h) (hg : 0 < g) :
    ((1 + 2 * (h / g)) / (1 + h / g) * p.eval t + -(1 + h / g) * p.eval (t - h)
      + (h / g) * (h / g) / (1 + h / g) * p.eval (t - h - g)) / h = p.derivative.eval t := by
  have hgh : g + h ≠ 0 := by positivity
  have hp3 : p = C (p.coeff 0) + C (p.coeff 1) * X + C (p.coeff 2) * X ^ 2 := by
    ext n
    rcases n with _ | _ | _ | n
    · simp
    · simp
    · simp [coeff_X, coeff_C]
    · have : p.natDegree < n + 3 := by omega
      simp [coeff_eq_zero_of_natDegree_lt this, coeff_X, coeff_C, coeff_X_pow]
  generalize p.coeff 0 = a at hp3
  generalize p.coeff 1 = b at hp3
  generalize p.coeff 2 = e at hp3
  subst hp3
  simp only [eval_add, eval_mul, eval_C, eval_X, eval_pow, derivative_add, derivative_mul,
    derivative_C, derivative_X, derivative_X_pow]
  field_simp
  simp
  ring

/-- **C04.** In every step `n ≥ 1` (0-based) of a fresh second-order run — for any realm Courant
histories, as long as the step sizes used are positive — the weights seen during the step give the
exact derivative at the new time, from the values at the new time and at the two previous times of
the run, for every polynomial of degree at most two; in particular they sum to zero. -/
theorem c04_bdf2_exact (c : Cfg K) (h2 : c.secondOrder = true)
    (inp : ℕ → List (Courant K)) (s0 : St K) (hc : s0.timeStepCount = 0) (n : ℕ)
    (hpos : ∀ i, i ≤ n + 1 → 0 < (beginStep c (inp i) (after c inp s0 i)).timeStepN)
    (p : K[X]) (hp : p.natDegree ≤ 2) :
    let s := beginStep c (inp (n + 1)) (after c inp s0 (n + 1))
    (s.gamma1 * p.eval s.currentTime + s.gamma2 * p.eval (after c inp s0 (n + 1)).currentTime
      + s.gamma3 * p.eval (after c inp s0 n).currentTime) / s.timeStepN
      = p.derivative.eval s.currentTime := by
  intro s
  have hdn := hpos n (by omega)
  have hdn1 := hpos (n + 1) le_rfl
  set sn := after c inp s0 (n + 1) with hsn
  have hnm1 : sn.timeStepNm1 = (beginStep c (inp n) (after c inp s0 n)).timeStepN := rfl
  have htn : sn.currentTime = (after c inp s0 n).currentTime + sn.timeStepNm1 := by
    rw [hsn, after, step_time]; rfl
  have hcount : sn.timeStepCount = n + 1 := by rw [hsn, after_count, hc]; push_cast; ring
  have hs : s.currentTime = sn.currentTime + s.timeStepN ∧
      s.gamma1 = (1 + 2 * (s.timeStepN / sn.timeStepNm1)) / (1 + s.timeStepN / sn.timeStepNm1) ∧
      s.gamma2 = -(1 + s.timeStepN / sn.timeStepNm1) ∧
      s.gamma3 = (s.timeStepN / sn.timeStepNm1) * (s.timeStepN / sn.timeStepNm1)
        / (1 + s.timeStepN / sn.timeStepNm1) := by
    have h1 : (1 : ℤ) < sn.timeStepCount + 1 := by rw [hcount]; omega
    have hc' : ∀ x : St K, x.timeStepCount = sn.timeStepCount + 1 → computeGamma x =
        { x with gamma1 := (1 + 2 * (x.timeStepN / x.timeStepNm1)) / (1 + x.timeStepN / x.timeStepNm1)
                 gamma2 := -(1 + x.timeStepN / x.timeStepNm1)
                 gamma3 := (x.timeStepN / x.timeStepNm1) * (x.timeStepN / x.timeStepNm1)
                    / (1 + x.timeStepN / x.timeStepNm1) } := by
      intro x hx
      unfold computeGamma
      rw [if_pos (by rw [hx]; exact h1)]
    simp only [s, beginStep, h2, ← hsn, if_true]
    cases c.adaptive <;> simp only [if_true, Bool.false_eq_true, if_false] <;>
      rw [hc' _ rfl] <;> exact ⟨rfl, rfl, rfl, rfl⟩
  obtain ⟨e1, e2, e3, e4⟩ := hs
  rw [e2, e3, e4]
  have ht : (after c inp s0 n).currentTime = s.currentTime - s.timeStepN - sn.timeStepNm1 := by
    rw [e1, htn]; ring
  have ht' : sn.currentTime = s.currentTime - s.timeStepN := by rw [e1]; ring
  rw [ht, ht']
  exact bdf2_algebra p hp _ _ _ hdn1 (by rw [hnm1]; exact hdn)

/-- **C04.** First step of a fresh second-order run, and every step of a first-order run started
with the default weights: backward Euler, exact for polynomials of degree at most one. -/
theorem c04_backward_euler_exact (c : Cfg K) (inp : ℕ → List (Courant K)) (s0 : St K)
    (h0 : s0.gamma1 = 1 ∧ s0.gamma2 = -1 ∧ s0.gamma3 = 0) (n : ℕ)
    (hcase : c.secondOrder = false ∨ (s0.timeStepCount = 0 ∧ n = 0))
    (hpos : (beginStep c (inp n) (after c inp s0 n)).timeStepN ≠ 0)
    (p : K[X]) (hp : p.natDegree ≤ 1) :
    let s := beginStep c (inp n) (after c inp s0 n)
    (s.gamma1, s.gamma2, s.gamma3) = (1, -1, 0) ∧
    (s.gamma1 * p.eval s.currentTime + s.gamma2 * p.eval (after c inp s0 n).currentTime)
        / s.timeStepN = p.derivative.eval s.currentTime := by
  intro s
  have ht : s.currentTime = (after c inp s0 n).currentTime + s.timeStepN :=
    step_time c (inp n) (after c inp s0 n)
  have hg : (s.gamma1, s.gamma2, s.gamma3) = (1, -1, 0) := by
    rcases hcase with h1 | ⟨h1, h2⟩
    · have hk : ∀ k, (after c inp s0 k).gamma1 = 1 ∧ (after c inp s0 k).gamma2 = -1 ∧
          (after c inp s0 k).gamma3 = 0 := by
        intro k
        induction k with
        | zero => exact h0
        | succ k ih =>
          simp only [after, step, endStep, beginStep, h1]
          cases c.adaptive <;> simpa using ih
      have := hk n
      simp only [s, beginStep, h1]
      cases c.adaptive <;> simp [this]
    · subst h2
      simp only [s, beginStep, after, computeGamma]
      cases c.adaptive <;> cases c.secondOrder <;> simp [h1, h0]
  refine ⟨hg, ?_⟩
  simp only [Prod.mk.injEq] at hg
  obtain ⟨e1, e2, e3⟩ := hg
  rw [e1, e2, ht]
  have hp3 : p = C (p.coeff 0) + C (p.coeff 1) * X := by
    ext n
    rcases n with _ | _ | n
    · simp
    · simp
    · have : p.natDegree < n + 2 := by omega
      simp [coeff_eq_zero_of_natDegree_lt this, coeff_X, coeff_C]
  generalize p.coeff 0 = a at hp3
  generalize p.coeff 1 = b at hp3
  subst hp3
  have hne : s.timeStepN ≠ 0 := hpos
  simp only [eval_add, eval_mul, eval_C, eval_X, derivative_add, derivative_mul,
    derivative_C, derivative_X]
  field_simp
  simp
  ring

/-- Non-vacuity: two adaptive steps of a second-order run with different positive step sizes. -/
example : let c : Cfg ℚ := { terminateBasedOnTime := false, totalSimTime := 1, maxTimeStepCount := 9,
                             secondOrder := true, adaptive := true, timeStepFromFile := 1 }
    let s0 : St ℚ := startUp { timeStep := 1/10, startTime := 0, adaptive := true } []
    let inp : ℕ → List (Courant ℚ) := fun n => [⟨2, if n = 0 then 1 else 4, 5/4⟩]
    (beginStep c (inp 0) (after c inp s0 0)).timeStepN = 1/8 ∧
    (beginStep c (inp 1) (after c inp s0 1)).timeStepN = 1/10 ∧
    s0.timeStepCount = 0 := by decide +kernel

end Gamma

/-! ## C05 -/

section Adaptive
variable [IsStrictOrderedRing K]

/-- **C05.** The step proposed by a realm is within the user's change factor of the current step,
shrinks iff the maximum Courant number exceeds the target, and equals `dt * target / max` whenever
that value is itself within the allowed range. -/
theorem c05_adaptive_bounds (q : Courant K) (dt : K) (hdt : 0 < dt) (ht : 0 < q.target)
    (hm : 0 ≤ q.maxC) (hf : 1 ≤ q.factor) :
    dt / q.factor ≤ adaptiveDt q dt ∧ adaptiveDt q dt ≤ dt * q.factor ∧
    (q.target < q.maxC → adaptiveDt q dt ≤ dt) ∧ (q.maxC ≤ q.target → dt ≤ adaptiveDt q dt) ∧
    (0 < q.maxC → 1 / q.factor ≤ q.target / q.maxC → q.target / q.maxC ≤ q.factor →
      adaptiveDt q dt = dt * (q.target / q.maxC)) := by
  have hf0 : 0 < q.factor := by linarith
  have hinv : 1 / q.factor ≤ 1 := by rw [div_le_one hf0]; exact hf
  have key : ∀ sc, adaptiveDt q dt = dt * sc → 1 / q.factor ≤ sc → sc ≤ q.factor →
      dt / q.factor ≤ adaptiveDt q dt ∧ adaptiveDt q dt ≤ dt * q.factor := by
    intro sc he h1 h2
    rw [he]
    exact ⟨by rw [div_eq_mul_one_div]; exact mul_le_mul_of_nonneg_left h1 hdt.le,
      mul_le_mul_of_nonneg_left h2 hdt.le⟩
  by_cases hlt : q.target < q.maxC
  · have hm0 : 0 < q.maxC := lt_trans ht hlt
    have e : adaptiveDt q dt = dt * max (q.target / q.maxC) (1 / q.factor) := by
      simp [adaptiveDt, hlt]
    have hq : q.target / q.maxC ≤ 1 := by rw [div_le_one hm0]; exact hlt.le
    have hle1 : max (q.target / q.maxC) (1 / q.factor) ≤ 1 := max_le hq hinv
    obtain ⟨a, b⟩ := key _ e (le_max_right _ _) (le_trans hle1 hf)
    refine ⟨a, b, fun _ => ?_, fun h => absurd hlt (not_lt.2 h), fun _ h1 _ => ?_⟩
    · rw [e]; nlinarith
    · rw [e, max_eq_left h1]
  · by_cases hz : q.maxC = 0
    · have e : adaptiveDt q dt = dt * q.factor := by simp [adaptiveDt, hz, not_lt.2 ht.le]
      obtain ⟨a, b⟩ := key _ e (le_trans hinv hf) le_rfl
      refine ⟨a, b, fun h => absurd h hlt, fun _ => ?_, fun h => absurd h (by rw [hz]; exact lt_irrefl _)⟩
      rw [e]; nlinarith
    · have hm0 : 0 < q.maxC := lt_of_le_of_ne hm (Ne.symm hz)
      have e : adaptiveDt q dt = dt * min (q.target / q.maxC) q.factor := by
        simp [adaptiveDt, hlt, hz]
      have hq : 1 ≤ q.target / q.maxC := by rw [le_div_iff₀ hm0, one_mul]; exact not_lt.1 hlt
      have hge : 1 ≤ min (q.target / q.maxC) q.factor := le_min hq hf
      obtain ⟨a, b⟩ := key _ e (le_trans hinv hge) (min_le_right _ _)
      refine ⟨a, b, fun h => absurd h hlt, fun _ => ?_, fun _ _ h2 => ?_⟩
      · rw [e]; nlinarith
      · rw [e, min_eq_left h2]

omit [IsStrictOrderedRing K] in
theorem negotiate_spec (cs : List (Courant K)) (dt : K) :
    (∀ q ∈ cs, negotiate cs dt ≤ adaptiveDt q dt) ∧ negotiate cs dt ≤ 100000000 ∧
    (negotiate cs dt = 100000000 ∨ ∃ q ∈ cs, negotiate cs dt = adaptiveDt q dt) := by
  have gen : ∀ (b : K), (∀ q ∈ cs, cs.foldl (fun t c => min t (adaptiveDt c dt)) b ≤ adaptiveDt q dt) ∧
      cs.foldl (fun t c => min t (adaptiveDt c dt)) b ≤ b ∧
      (cs.foldl (fun t c => min t (adaptiveDt c dt)) b = b ∨
        ∃ q ∈ cs, cs.foldl (fun t c => min t (adaptiveDt c dt)) b = adaptiveDt q dt) := by
    induction cs with
    | nil => simp
    | cons q cs ih =>
      intro b
      obtain ⟨h1, h2, h3⟩ := ih (min b (adaptiveDt q dt))
      refine ⟨?_, le_trans h2 (min_le_left _ _), ?_⟩
      · intro r hr
        rcases List.mem_cons.1 hr with rfl | hr
        · exact le_trans h2 (min_le_right _ _)
        · exact h1 r hr
      · rcases h3 with h3 | ⟨r, hr, h3⟩
        · rcases min_choice b (adaptiveDt q dt) with hm | hm
          · left; simp only [List.foldl_cons]; rw [h3, hm]
          · right; exact ⟨q, by simp, by simp only [List.foldl_cons]; rw [h3, hm]⟩
        · right; exact ⟨r, by simp [hr], h3⟩
  exact gen 100000000

/-- **C05.** Over a whole adaptive run with realms that all use a change factor `f ≥ 1`, positive
targets and nonnegative Courant numbers (and at least one realm), the step after `n` steps lies
within `f^n` of the initial one, as long as it stays below the hard-coded cap `1e8`. -/
theorem c05_adaptive_run_bounds (c : Cfg K) (ha : c.adaptive = true) (f : K) (hf : 1 ≤ f)
    (inp : ℕ → List (Courant K)) (s0 : St K) (h0 : 0 < s0.timeStepN)
    (hne : ∀ n, inp n ≠ [])
    (hq : ∀ n, ∀ q ∈ inp n, 0 < q.target ∧ 0 ≤ q.maxC ∧ q.factor = f)
    (n : ℕ) (hcap : ∀ i < n, s0.timeStepN * f ^ (i+1) ≤ 100000000) :
    s0.timeStepN / f ^ n ≤ (after c inp s0 n).timeStepN ∧
      (after c inp s0 n).timeStepN ≤ s0.timeStepN * f ^ n := by
  have hf0 : 0 < f := by linarith
  induction n with
  | zero => simp [after]
  | succ n ih =>
    obtain ⟨l, u⟩ := ih (fun i hi => hcap i (by omega))
    have hpos : 0 < (after c inp s0 n).timeStepN := lt_of_lt_of_le (by positivity) l
    have e : (after c inp s0 (n+1)).timeStepN = negotiate (inp n) (after c inp s0 n).timeStepN := by
      rw [after, step_dt, ha]; simp
    rw [e]
    obtain ⟨n1, n2, n3⟩ := negotiate_spec (inp n) (after c inp s0 n).timeStepN
    have hb : ∀ q ∈ inp n, (after c inp s0 n).timeStepN / f ≤ adaptiveDt q (after c inp s0 n).timeStepN ∧
        adaptiveDt q (after c inp s0 n).timeStepN ≤ (after c inp s0 n).timeStepN * f := by
      intro q hqm
      obtain ⟨t1, t2, t3⟩ := hq n q hqm
      have := c05_adaptive_bounds q (after c inp s0 n).timeStepN hpos t1 t2 (by rw [t3]; exact hf)
      rw [t3] at this
      exact ⟨this.1, this.2.1⟩
    have hl : (after c inp s0 n).timeStepN / f ≤ negotiate (inp n) (after c inp s0 n).timeStepN := by
      rcases n3 with n3 | ⟨q, hqm, n3⟩
      · rw [n3]
        have h1 : (after c inp s0 n).timeStepN / f ≤ (after c inp s0 n).timeStepN := div_le_self hpos.le hf
        have h2 : s0.timeStepN * f ^ n ≤ s0.timeStepN * f ^ (n+1) :=
          mul_le_mul_of_nonneg_left (pow_le_pow_right₀ hf (by omega)) h0.le
        linarith [hcap n (by omega)]
      · rw [n3]; exact (hb q hqm).1
    obtain ⟨q, hqm⟩ := List.exists_mem_of_ne_nil _ (hne n)
    have hu := le_trans (n1 q hqm) (hb q hqm).2
    constructor
    · refine le_trans ?_ hl
      rw [pow_succ, ← div_div]
      exact div_le_div_of_nonneg_right l hf0.le
    · refine le_trans hu ?_
      rw [pow_succ, ← mul_assoc]
      exact mul_le_mul_of_nonneg_right u hf0.le

example : adaptiveDt (⟨2, 4, 5/4⟩ : Courant ℚ) 1 = 4/5 ∧ adaptiveDt (⟨2, 0, 5/4⟩ : Courant ℚ) 1 = 5/4 ∧
  adaptiveDt (⟨9/10, 1, 5/4⟩ : Courant ℚ) 1 = 9/10 := by decide +kernel

end Adaptive

/-! ## C08 -/

open Classical in
theorem foldl_populate_same (r : RestartRecord K) (recs : List (Option (RestartRecord K)))
    (hr : ∀ o ∈ recs, o = none ∨ o = some r) (s : St K) (hs : s.currentTime ≤ r.time) :
    recs.foldl populateRestart s =
      if some r ∈ recs then { s with currentTime := r.time
                                     timeStepNm1 := r.timeStepNm1
                                     timeStepCount := r.timeStepCount } else s := by
  induction recs generalizing s with
  | nil => simp
  | cons o recs ih =>
    rw [List.foldl_cons]
    have hr' : ∀ o ∈ recs, o = none ∨ o = some r := fun o ho => hr o (by simp [ho])
    rcases hr o (by simp) with rfl | rfl
    · have : populateRestart s none = s := by simp [populateRestart]
      rw [this, ih hr' s hs]; simp
    · rw [ih hr' _ (by simp [populateRestart, hs])]
      simp [populateRestart, hs]

/-- **C08.** Stop a run (fixed or adaptive, first or second order) whose weights start at their
defaults after any step `k`, in which a restart record is written, and restart from this record with
the same deck (each realm either does not restart or reads that record; at least one restarts; the
deck's `start_time` does not exceed the record's time): all later steps of the restarted run pass
through exactly the states (time, counter, step sizes, weights) of the uninterrupted run. -/
theorem c08_restart_continues (d : Deck K) (inp : ℕ → List (Courant K))
    (recs0 : List (Option (RestartRecord K))) (k : ℕ)
    (recs : List (Option (RestartRecord K)))
    (r : RestartRecord K)
    (hrec : r = record (beginStep (load d) (inp k) (after (load d) inp (startUp d recs0) k)))
    (hr : ∀ o ∈ recs, o = none ∨ o = some r) (hmem : some r ∈ recs)
    (hstart : d.startTime ≤ r.time) (m : ℕ) :
    beginStep (load d) (inp (k + 1 + m)) (after (load d) (fun i => inp (k + 1 + i)) (startUp d recs) m)
      = beginStep (load d) (inp (k + 1 + m)) (after (load d) inp (startUp d recs0) (k + 1 + m)) := by
  set S0 := startUp d recs0
  set c := load d
  -- the states agree up to the weights, which a second-order step recomputes
  have hfix : c.adaptive = false → ∀ n, (after c inp S0 n).timeStepN = d.timeStep := by
    intro h n
    rw [(after_fixed c h inp S0 n).1]
    exact startUp_dt_fixed d (by simpa [c, load] using h) recs0
  have hg0 : S0.gamma1 = 1 ∧ S0.gamma2 = -1 ∧ S0.gamma3 = 0 := by
    have : ∀ (l : List (Option (RestartRecord K))) (s : St K),
        (l.foldl populateRestart s).gamma1 = s.gamma1 ∧ (l.foldl populateRestart s).gamma2 = s.gamma2 ∧
        (l.foldl populateRestart s).gamma3 = s.gamma3 := by
      intro l
      induction l with
      | nil => simp
      | cons o l ih =>
        intro s
        have := ih (populateRestart s o)
        rw [List.foldl_cons]
        refine ⟨this.1.trans ?_, this.2.1.trans ?_, this.2.2.trans ?_⟩ <;>
          cases o <;> simp [populateRestart]
    have := this recs0 (loaded d)
    simpa [S0, startUp, loaded] using this
  have hgn : c.secondOrder = false → ∀ n, (after c inp S0 n).gamma1 = 1 ∧
      (after c inp S0 n).gamma2 = -1 ∧ (after c inp S0 n).gamma3 = 0 := by
    intro h n
    induction n with
    | zero => exact hg0
    | succ n ih =>
      simp only [after, step, endStep, beginStep, h]
      cases c.adaptive <;> simpa using ih
  set U := after c inp S0 (k + 1) with hU
  have hUrec : U.currentTime = r.time ∧ U.timeStepN = r.timeStepNm1 ∧ U.timeStepNm1 = r.timeStepNm1 ∧
      U.timeStepCount = r.timeStepCount := by
    rw [hrec]; exact ⟨rfl, rfl, rfl, rfl⟩
  have hR : startUp d recs = { U with gamma1 := 1, gamma2 := -1, gamma3 := 0 } := by
    have h := foldl_populate_same r recs hr (loaded d) (by simpa [loaded] using hstart)
    rw [if_pos hmem] at h
    obtain ⟨a, b, e, f⟩ := hUrec
    unfold startUp
    rw [h]
    ext <;> simp [loaded, a, b, e, f]
    intro had
    have := hfix (by simpa [c, load] using had) (k+1)
    rw [← hU, b] at this
    exact this.symm
  -- first step after the restart
  have hb : ∀ cs, beginStep c cs (startUp d recs) = beginStep c cs U := by
    intro cs
    rw [hR]
    cases h2 : c.secondOrder with
    | true =>
      simp only [beginStep, h2, computeGamma]
      cases c.adaptive <;> simp
    | false =>
      obtain ⟨a, b, e⟩ := hgn h2 (k+1)
      rw [← hU] at a b e
      simp only [beginStep, h2]
      cases c.adaptive <;> (ext <;> simp [a, b, e])
  have hlater : ∀ m, after c (fun i => inp (k + 1 + i)) (startUp d recs) (m + 1)
      = after c inp S0 (k + 1 + (m + 1)) := by
    intro m
    induction m with
    | zero =>
      simp only [after, step]
      rw [hb]; rfl
    | succ m ih =>
      rw [after, ih]; rfl
  cases m with
  | zero => exact hb (inp (k + 1))
  | succ m => rw [hlater m]

/-- Non-vacuity: a second-order fixed-step run, stopped after step 3 and restarted. -/
example : let d : Deck ℚ := { timeStep := 1/10, startTime := 0, secondOrder := true }
    let r := record (beginStep (load d) [] (after (load d) (fun _ => []) (startUp d []) 2))
    r.timeStepCount = 3 ∧ r.time = 3/10 ∧ d.startTime ≤ r.time ∧
    (startUp d [some r]).timeStepCount = 3 ∧
    (beginStep (load d) [] (startUp d [some r])).gamma1 = 3/2 := by decide +kernel

end Nalu.Time
