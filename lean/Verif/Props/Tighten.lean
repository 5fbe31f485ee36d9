import Verif.Model.Time
import Verif.Model.Control
import Verif.Model.Averaging
import Verif.Model.Edge
import Mathlib.Tactic.Ring
import Mathlib.Tactic.FieldSimp
import Mathlib.Tactic.Linarith
import Mathlib.Tactic.FinCases
import Mathlib.Data.Rat.Defs
import Mathlib.Algebra.Order.Ring.Rat
import Mathlib.Algebra.BigOperators.Ring.Finset
import Mathlib.Algebra.Order.BigOperators.Group.Finset

/-!
# Theorems added because a seeded wrong program survived

Each theorem here was written after an edit of the model (recorded in /verif/seeded/LOG.jsonl) left every
earlier theorem intact.
-/

namespace Nalu.Time
variable {K : Type*} [Field K] [LinearOrder K]

private theorem restart_fold (recs : List (Option (RestartRecord K))) (s : St K) :
    let t := recs.foldl populateRestart s
    s.currentTime ≤ t.currentTime ∧ (∀ r, some r ∈ recs → r.time ≤ t.currentTime) ∧
      (t.currentTime = s.currentTime ∨ ∃ r, some r ∈ recs ∧ t.currentTime = r.time) := by
  induction recs generalizing s with
  | nil => simp
  | cons a l ih =>
    have h := ih (populateRestart s a)
    obtain ⟨h1, h2, h3⟩ := h
    cases a with
    | none =>
      simp only [populateRestart, max_self] at h1 h2 h3
      refine ⟨by simpa [populateRestart] using h1, ?_, ?_⟩
      · intro r hr
        simp only [List.mem_cons, reduceCtorEq, false_or] at hr
        simpa [populateRestart] using h2 r hr
      · rcases h3 with h3 | ⟨r, hr, h3⟩
        · left; simpa [populateRestart] using h3
        · right; exact ⟨r, by simp [hr], by simpa [populateRestart] using h3⟩
    | some r =>
      have e : (populateRestart s (some r)).currentTime = max s.currentTime r.time := rfl
      rw [e] at h1 h3
      refine ⟨le_trans (le_max_left _ _) h1, ?_, ?_⟩
      · intro q hq
        simp only [List.mem_cons, Option.some.injEq] at hq
        rcases hq with rfl | hq
        · exact le_trans (le_max_right _ _) h1
        · exact h2 q hq
      · rcases h3 with h3 | ⟨q, hq, h3⟩
        · rcases max_choice s.currentTime r.time with hm | hm
          · left; rw [hm] at h3; simpa using h3
          · right; rw [hm] at h3; exact ⟨r, by simp, by simpa using h3⟩
        · right; exact ⟨q, by simp [hq], by simpa using h3⟩

/-- **C08** The time at which a restarted run begins is the latest of the input file's start time and the
times of the restart databases of all realms, and is one of these. -/
theorem c08_restart_time_is_latest (d : Deck K) (recs : List (Option (RestartRecord K))) :
    d.startTime ≤ (startUp d recs).currentTime ∧
    (∀ r, some r ∈ recs → r.time ≤ (startUp d recs).currentTime) ∧
    ((startUp d recs).currentTime = d.startTime ∨
      ∃ r, some r ∈ recs ∧ (startUp d recs).currentTime = r.time) := by
  simpa [startUp, loaded] using restart_fold recs (loaded d)

/-- **C08** Step count and previous step size come from the last restarting realm. -/
theorem c08_restart_last_record (d : Deck K) (recs : List (Option (RestartRecord K)))
    (r : RestartRecord K) (n : ℕ) :
    (startUp d (recs ++ [some r] ++ List.replicate n none)).timeStepCount = r.timeStepCount ∧
    (startUp d (recs ++ [some r] ++ List.replicate n none)).timeStepNm1 = r.timeStepNm1 := by
  have h : ∀ (n : ℕ) (s : St K), ((List.replicate n none).foldl populateRestart s).timeStepCount =
      s.timeStepCount ∧ ((List.replicate n none).foldl populateRestart s).timeStepNm1 = s.timeStepNm1 := by
    intro n
    induction n with
    | zero => simp
    | succ k ih => intro s; simp only [List.replicate_succ, List.foldl_cons]; exact ih _
  simp only [startUp, List.foldl_append, List.foldl_cons, List.foldl_nil]
  exact h n _

/-- Two realms restart at 3 and 2, a third does not: the run begins at 3 with the second's count. -/
example : (startUp (K := ℚ) { timeStep := 1, startTime := 0 }
    [some ⟨3, 1/2, 7⟩, some ⟨2, 1/4, 9⟩, none]).currentTime = 3 := by decide +kernel

/-- **C01** The limits reported to coupled codes: with a termination step count the count and `-1` for the
time; with only a termination time that time and `-1` for the count. -/
theorem c01_reported_limits (d : Deck K) :
    (∀ n, d.terminationStepCount = some n →
      getMaxTimeStepCount (load d) = n ∧ getTotalSimTime (load d) = -1) ∧
    (∀ T, d.terminationStepCount = none → d.terminationTime = some T →
      getTotalSimTime (load d) = T ∧ getMaxTimeStepCount (load d) = -1) ∧
    (d.terminationStepCount = none → d.terminationTime = none →
      getMaxTimeStepCount (load d) = intMax ∧ getTotalSimTime (load d) = -1) := by
  refine ⟨fun n h => ?_, fun T h1 h2 => ?_, fun h1 h2 => ?_⟩ <;>
    simp [getMaxTimeStepCount, getTotalSimTime, load, *]

end Nalu.Time

namespace Nalu.Control
variable {K : Type*} [Field K] [LinearOrder K]

/-- **C12** The norm the time integrator reports is the arithmetic mean over the multi-physics realms alone
(input/output and initialization realms do not count), and zero when there is none. -/
theorem c12_reported_mean_norm (realms : List (Bool × K)) :
    reportedMeanNorm realms =
      ((realms.filter (·.1)).map (·.2)).sum / ((max 1 (realms.filter (·.1)).length : ℕ) : K) := by
  have h : ∀ (l : List (Bool × K)) (a : K) (n : ℕ),
      l.foldl (fun (p : K × ℕ) r => if r.1 then (p.1 + r.2, p.2 + 1) else p) (a, n) =
      (a + ((l.filter (·.1)).map (·.2)).sum, n + (l.filter (·.1)).length) := by
    intro l
    induction l with
    | nil => simp
    | cons x t ih =>
      intro a n
      rcases x with ⟨b, v⟩
      cases b <;> simp [ih, add_assoc, add_comm, add_left_comm]
  simp [reportedMeanNorm, h]

example : reportedMeanNorm (K := ℚ) [(true, 2), (false, 50), (true, 4)] = 3 := by decide +kernel

end Nalu.Control

namespace Nalu.Averaging
variable {K : Type*} [Field K] [LinearOrder K]

/-- **C13** The first execute of a fresh averager takes the value itself; every later execute, and every
execute of a restarted averager, blends `(1-α)·average + α·value` with `α = min(1, dt/timeScale)`. -/
theorem c13_recurrence (ts : K) (restarted : Bool) (a0 : K) (h : List (K × K)) (dt v : K)
    (hn : h ≠ [] ∨ restarted = true) :
    let p := Averager.run (Averager.make ts restarted, a0) h
    (Averager.run (Averager.make ts restarted, a0) (h ++ [(dt, v)])).2 =
      (1 - min 1 (dt / ts)) * p.2 + min 1 (dt / ts) * v := by
  have key : ∀ (h : List (K × K)) (p : Averager K × K), p.1.timeScale = ts →
      (p.1.isInit = false ∨ h ≠ []) →
      (Averager.run p h).1.timeScale = ts ∧ (Averager.run p h).1.isInit = false := by
    intro h
    induction h with
    | nil => intro p h1 h2; exact ⟨h1, by simpa [Averager.run] using h2⟩
    | cons x t ih =>
      intro p h1 h2
      exact ih (p.1.execute x.1 p.2 x.2) h1 (Or.inl rfl)
  have := key h (Averager.make ts restarted, a0) rfl (by
    rcases hn with hn | hn
    · exact Or.inr hn
    · left; simp [Averager.make, hn])
  have e : Averager.run (Averager.make ts restarted, a0) (h ++ [(dt, v)]) =
      (Averager.run (Averager.make ts restarted, a0) h).1.execute dt
        (Averager.run (Averager.make ts restarted, a0) h).2 v := by
    simp [Averager.run]
  simp only [e, Averager.execute, updatedAverage, Averager.alpha, this]
  simp
  ring

/-- **C13** First execute of a fresh averager. -/
theorem c13_first (ts a0 dt v : K) :
    (Averager.run (Averager.make ts false, a0) [(dt, v)]).2 = v := by
  simp [Averager.run, Averager.execute, Averager.make, updatedAverage, Averager.alpha]

example : (Averager.run (Averager.make (4 : ℚ) false, 0) [(1, 8), (1, 12)]).2 = 9 := by decide +kernel

/-- **C15** The resolved turbulent kinetic energy is half the squared length of the velocity's deviation
from its mean. -/
theorem c15_tke [CharZero K] (u uA : List K) :
    2 * tke u uA = ((List.zip u uA).map (fun p => (p.1 - p.2) ^ 2)).sum := by
  have h : ∀ (l : List (K × K)) (a : K),
      2 * l.foldl (fun s p => s + 1 / 2 * (p.1 - p.2) * (p.1 - p.2)) a =
      2 * a + (l.map (fun p => (p.1 - p.2) ^ 2)).sum := by
    intro l
    induction l with
    | nil => simp
    | cons x t ih =>
      intro a
      rw [List.foldl_cons, ih, List.map_cons, List.sum_cons]
      field_simp
      ring
  simpa [tke] using h (List.zip u uA) 0

example : tke (K := ℚ) [3, 1] [1, 1] = 2 := by decide +kernel

/-- **C15** Packed storage of symmetric tensors: exactly the pairs `i ≤ j < nDim`, each once. -/
theorem c15_packed_pairs (n : ℕ) :
    (∀ i j, (i, j) ∈ packedPairs n ↔ i ≤ j ∧ j < n) ∧ (packedPairs n).Nodup := by
  constructor
  · intro i j
    simp only [packedPairs, List.mem_flatMap, List.mem_range, List.mem_map, List.mem_range',
      Prod.mk.injEq]
    constructor
    · rintro ⟨a, ha, b, ⟨k, hk, rfl⟩, rfl, rfl⟩
      omega
    · rintro ⟨h1, h2⟩
      exact ⟨i, by omega, j, ⟨j - i, by omega, by omega⟩, rfl, rfl⟩
  · unfold packedPairs
    rw [List.nodup_flatMap]
    refine ⟨fun i _ => ?_, ?_⟩
    · exact List.Nodup.map (fun a b h => by simpa using h) (List.nodup_range' ..)
    · refine List.Nodup.pairwise_of_forall_ne (List.nodup_range) ?_
      intro a _ b _ hab
      simp only [Function.onFun, List.disjoint_left, List.mem_map]
      rintro x ⟨_, _, rfl⟩ ⟨_, _, h⟩
      simp only [Prod.mk.injEq] at h
      exact hab h.1.symm

/-- **C15** In three dimensions the order is xx, xy, xz, yy, yz, zz; in two xx, xy, yy. -/
theorem c15_packed_order : packedPairs 3 = [(0,0),(0,1),(0,2),(1,1),(1,2),(2,2)] ∧
    packedPairs 2 = [(0,0),(0,1),(1,1)] := by decide

end Nalu.Averaging

namespace Nalu.Edge
variable {K : Type*} [Field K] [LinearOrder K] [IsStrictOrderedRing K]

/-- **C26** The edge Peclet blending does not depend on which end of the edge is called left. -/
theorem c26_edge_peclet_symmetric {n : ℕ} (o : Opts K) (L R : ScalarNode n K) :
    pecfac o L R = pecfac o R L := by
  have h : ∑ j, 1 / 2 * (R.x j - L.x j) * (L.vrtm j + R.vrtm j) =
      -∑ j, 1 / 2 * (L.x j - R.x j) * (R.vrtm j + L.vrtm j) := by
    rw [← Finset.sum_neg_distrib]
    exact Finset.sum_congr rfl fun j _ => by ring
  simp only [pecfac, h, abs_neg, add_comm]

/-- **C26** In a uniform velocity, constant density and diffusivity the cell Peclet number is
`|u·Δx| / (ν + small)`. -/
theorem c26_edge_peclet_uniform {n : ℕ} (o : Opts K) (L R : ScalarNode n K) (u : Fin n → K) (nu : K)
    (hL : L.vrtm = u) (hR : R.vrtm = u) (h1 : L.diff / L.rho = nu) (h2 : R.diff / R.rho = nu) :
    pecfac o L R = o.peclet (|∑ j, (R.x j - L.x j) * u j| / (nu + o.small)) := by
  have e : ∑ j, 1 / 2 * (R.x j - L.x j) * (L.vrtm j + R.vrtm j) = ∑ j, (R.x j - L.x j) * u j :=
    Finset.sum_congr rfl fun j _ => by rw [hL, hR]; ring
  rw [pecfac, e, h1, h2]
  congr 2; ring

/-- **C23** Diffusion-only edges: symmetric, zero row sums, equal and opposite right-hand sides. -/
theorem c23_diffusion_edge_symmetric {n : ℕ} (o : Opts K) (a : Fin n → K) (L R : ScalarNode n K) :
    (∀ i j, (scalarDiffEdge o a L R).lhs i j = (scalarDiffEdge o a L R).lhs j i) ∧
    (∀ i, (scalarDiffEdge o a L R).lhs i 0 + (scalarDiffEdge o a L R).lhs i 1 = 0) ∧
    (scalarDiffEdge o a L R).rhs 0 + (scalarDiffEdge o a L R).rhs 1 = 0 := by
  refine ⟨?_, ?_, ?_⟩
  · intro i j; fin_cases i <;> fin_cases j <;> simp [scalarDiffEdge]
  · intro i; fin_cases i <;> simp [scalarDiffEdge]
  · simp [scalarDiffEdge]

/-- **C23** Diffusion-only edges: the matrix is minus the exact Jacobian of the right-hand side in the two
nodal values (gradients frozen). -/
theorem c23_diffusion_edge_jacobian {n : ℕ} (o : Opts K) (a : Fin n → K) (L R : ScalarNode n K)
    (dl dr : K) (i : Fin 2) :
    (scalarDiffEdge o a { L with q := L.q + dl } { R with q := R.q + dr }).rhs i =
      (scalarDiffEdge o a L R).rhs i -
        ((scalarDiffEdge o a L R).lhs i 0 * dl + (scalarDiffEdge o a L R).lhs i 1 * dr) := by
  have h1 : diffFac a { L with q := L.q + dl } { R with q := R.q + dr } = diffFac a L R := rfl
  have h2 : nonOrth a { L with q := L.q + dl } { R with q := R.q + dr } = nonOrth a L R := rfl
  fin_cases i <;> simp [scalarDiffEdge, diffFlux, h1, h2] <;> ring

/-- **C23** With positive diffusivity and an area vector pointing from left to right the edge matrix is
positive semi-definite: diffusion dissipates. -/
theorem c23_diffusion_edge_dissipates {n : ℕ} (o : Opts K) (a : Fin n → K) (L R : ScalarNode n K)
    (h1 : 0 ≤ L.diff) (h2 : 0 ≤ R.diff) (hax : 0 < axdx a L.x R.x) (v w : K) :
    0 ≤ v * ((scalarDiffEdge o a L R).lhs 0 0 * v + (scalarDiffEdge o a L R).lhs 0 1 * w) +
        w * ((scalarDiffEdge o a L R).lhs 1 0 * v + (scalarDiffEdge o a L R).lhs 1 1 * w) := by
  have hq : 0 ≤ asq a := Finset.sum_nonneg fun j _ => mul_self_nonneg _
  have hd : diffFac a L R ≤ 0 := by
    have : 0 ≤ (1 / 2 * (L.diff + R.diff)) * asq a * (1 / axdx a L.x R.x) := by positivity
    simp only [diffFac]; linarith
  have : v * ((scalarDiffEdge o a L R).lhs 0 0 * v + (scalarDiffEdge o a L R).lhs 0 1 * w) +
        w * ((scalarDiffEdge o a L R).lhs 1 0 * v + (scalarDiffEdge o a L R).lhs 1 1 * w) =
        -diffFac a L R * (v - w) ^ 2 := by
    simp [scalarDiffEdge]; ring
  rw [this]
  exact mul_nonneg (by linarith) (sq_nonneg _)

/-- A one-dimensional edge with unit diffusivity. -/
example : (0 : ℚ) < axdx (n := 1) (fun _ => 1) (fun _ => 0) (fun _ => 2) := by decide +kernel

/-- **C54** Velocity projection: without balanced forcing `ρ(u'-u) = -τ(∇p_new-∇p_old)`; with it the
density does not enter. -/
theorem c54_projection_balanced {n : ℕ} (bf : Bool) (pts rho : K) (u dpOld dpNew : Fin n → K)
    (hr : rho ≠ 0) (j : Fin n) :
    (if bf then 1 else rho) * (projectVelocity bf pts rho u dpOld dpNew j - u j) =
      -pts * (dpNew j - dpOld j) := by
  cases bf <;> simp [projectVelocity] <;> field_simp

private theorem foldl_add_sum (l : List K) (a : K) : l.foldl (· + ·) a = a + l.sum := by
  induction l generalizing a with
  | nil => simp
  | cons x t ih => simp [ih, add_assoc]

/-- **C29** The reported inflow and open-boundary rates are the sums over all processes' faces, and the
accumulation is zero when the continuity equation has no mass term. -/
theorem c29_review_boundary_totals (hasMass : Bool) (procs : List (Proc K)) :
    (massReview hasMass procs).2.1 = (procs.flatMap (·.inflow)).sum ∧
    (massReview hasMass procs).2.2 = (procs.flatMap (·.openRates)).sum ∧
    (massReview false procs).1 = 0 := by
  refine ⟨?_, ?_, ?_⟩
  · simp only [massReview, foldl_add_sum, zero_add]
    induction procs with
    | nil => simp
    | cons p t ih => simp [ih]
  · simp only [massReview, foldl_add_sum, zero_add]
    induction procs with
    | nil => simp
    | cons p t ih => simp [ih]
  · simp [massReview]

/-- **C29** For uniform densities the element accumulation is `(γ1ρ+γ2ρN+γ3ρNm1)/dt` times the element's
volume, for shape functions that sum to one. -/
theorem c29_uniform_accumulation {m k : ℕ} (g1 g2 g3 dt : K) (shape : Fin k → Fin m → K)
    (scv : Fin k → K) (r1 r2 r3 : K) (hs : ∀ ip, ∑ ic, shape ip ic = 1) :
    elemAccumulation g1 g2 g3 dt shape scv (fun _ => r1) (fun _ => r2) (fun _ => r3) =
      (g1 * r1 + g2 * r2 + g3 * r3) / dt * ∑ ip, scv ip := by
  simp only [elemAccumulation, ← Finset.sum_mul, hs, one_mul, ← Finset.mul_sum]

example : ∀ ip : Fin 2, ∑ ic, (fun _ _ => 1/2 : Fin 2 → Fin 2 → ℚ) ip ic = 1 := by decide +kernel

end Nalu.Edge
