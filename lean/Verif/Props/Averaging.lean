import Verif.Proofs.Averaging
import Mathlib.Data.Fin.VecNotation
import Mathlib.LinearAlgebra.Matrix.Determinant.Basic
import Mathlib.Tactic.FinCases

/-!
# C13–C17, C50–C52: averaging post-processors
-/

set_option linter.unusedSectionVars false
set_option linter.unusedSimpArgs false

namespace Nalu.Averaging

variable {K : Type*} [Field K] [LinearOrder K] [IsStrictOrderedRing K]

/-! ## C13 -/

theorem alpha_mem (a : Averager K) (dt : K) (hd : 0 < dt) (ht : 0 < a.timeScale) :
    0 ≤ a.alpha dt ∧ a.alpha dt ≤ 1 := by
  unfold Averager.alpha
  split_ifs
  · exact ⟨zero_le_one, le_rfl⟩
  · exact ⟨le_min zero_le_one (div_nonneg hd.le ht.le), min_le_left _ _⟩

theorem run_timeScale (p : Averager K × K) (h : List (K × K)) :
    (Averager.run p h).1.timeScale = p.1.timeScale := by
  unfold Averager.run
  induction h generalizing p with
  | nil => rfl
  | cons s h ih => rw [List.foldl_cons, ih]; rfl

/-- **C13** On a fresh run the moving average after any nonempty history of samples (step size,
value) is a convex combination of the samples: there are nonnegative weights with sum one. -/
theorem c13_convex_combination (ts : K) (hts : 0 < ts) (junk : K) (h : List (K × K)) (hne : h ≠ [])
    (hdt : ∀ s ∈ h, 0 < s.1) :
    ∃ ws : List K, ws.length = h.length ∧ (∀ x ∈ ws, 0 ≤ x) ∧ ws.sum = 1 ∧
      (Averager.run (Averager.make ts false, junk) h).2 = (List.zipWith (fun x s => x * s.2) ws h).sum := by
  induction h using List.reverseRecOn with
  | nil => exact absurd rfl hne
  | append_singleton h s ih =>
    have hs := hdt s (by simp)
    by_cases hh : h = []
    · subst hh
      refine ⟨[1], rfl, by simp, by simp, ?_⟩
      simp [Averager.run, Averager.make, Averager.execute, Averager.alpha, updatedAverage]
    · obtain ⟨ws, h1, h2, h3, h4⟩ := ih hh (fun v hv => hdt v (by simp [hv]))
      set p := Averager.run (Averager.make ts false, junk) h with hp
      have hts' : 0 < p.1.timeScale := by rw [hp, run_timeScale]; exact hts
      obtain ⟨a0, a1⟩ := alpha_mem p.1 s.1 hs hts'
      have hstep : (Averager.run (Averager.make ts false, junk) (h ++ [s])).2 =
          p.1.alpha s.1 * s.2 + (1 - p.1.alpha s.1) * p.2 := by
        rw [hp, Averager.run, List.foldl_append]; rfl
      set al := p.1.alpha s.1
      refine ⟨ws.map (fun x => (1 - al) * x) ++ [al], by simp [h1], ?_, ?_, ?_⟩
      · intro x hx
        rw [List.mem_append, List.mem_map, List.mem_singleton] at hx
        rcases hx with ⟨y, hy, rfl⟩ | rfl
        · exact mul_nonneg (by linarith) (h2 y hy)
        · exact a0
      · rw [List.sum_append, List.sum_map_mul_left, List.map_id', h3]; simp
      · rw [hstep, h4, List.zipWith_append (by simp [h1])]
        simp only [List.zipWith_cons_cons, List.zipWith_nil_right, List.sum_append,
          List.sum_singleton, List.sum_cons, List.sum_nil, add_zero]
        have : (List.zipWith (fun x s => x * s.2) (List.map (fun x => (1 - al) * x) ws) h).sum =
            (1 - al) * (List.zipWith (fun x s => x * s.2) ws h).sum := by
          clear h3 h4 hstep ih hdt hne h2 hh
          clear_value al
          clear hp hts' a0 a1 p
          induction ws generalizing h with
          | nil => simp
          | cons w ws ihw =>
            cases h with
            | nil => simp
            | cons a h => simp only [List.map_cons, List.zipWith_cons_cons, List.sum_cons,
                ihw h (by simpa using h1)]; ring
        rw [this]; ring

/-- **C13** The average lies between any bounds of the samples (of a fresh run; of a restarted one if
the restarted average does, too), equals the first sample on the first step of a fresh run, and a
constant signal is a fixed point. -/
theorem c13_bounds (ts : K) (hts : 0 < ts) (restarted : Bool) (avg0 : K) (h : List (K × K))
    (hdt : ∀ s ∈ h, 0 < s.1) (lo hi : K) (hb : ∀ s ∈ h, lo ≤ s.2 ∧ s.2 ≤ hi)
    (h0 : restarted = true → lo ≤ avg0 ∧ avg0 ≤ hi) (hne : restarted = false → h ≠ []) :
    lo ≤ (Averager.run (Averager.make ts restarted, avg0) h).2 ∧
      (Averager.run (Averager.make ts restarted, avg0) h).2 ≤ hi := by
  have step : ∀ (a : Averager K) (dt old new : K), 0 < dt → 0 < a.timeScale →
      (a.isInit = false → lo ≤ old ∧ old ≤ hi) → lo ≤ new ∧ new ≤ hi →
      lo ≤ (a.execute dt old new).2 ∧ (a.execute dt old new).2 ≤ hi := by
    intro a dt old new hd ht ho hn
    obtain ⟨a0, a1⟩ := alpha_mem a dt hd ht
    simp only [Averager.execute, updatedAverage]
    by_cases hi' : a.isInit = true
    · simp [Averager.alpha, hi', hn]
    · obtain ⟨o1, o2⟩ := ho (by simpa using hi')
      constructor <;> nlinarith [hn.1, hn.2]
  induction h using List.reverseRecOn with
  | nil =>
    cases restarted with
    | true => simpa [Averager.run] using h0 rfl
    | false => exact absurd rfl (hne rfl)
  | append_singleton h s ih =>
    have hrun : Averager.run (Averager.make ts restarted, avg0) (h ++ [s]) =
        (Averager.run (Averager.make ts restarted, avg0) h).1.execute s.1
          (Averager.run (Averager.make ts restarted, avg0) h).2 s.2 := by
      rw [Averager.run, List.foldl_append]; rfl
    rw [hrun]
    refine step _ _ _ _ (hdt s (by simp)) (by rw [run_timeScale]; exact hts) ?_ (hb s (by simp))
    intro hinit
    by_cases hh : h = []
    · subst hh
      have : restarted = true := by simpa [Averager.run, Averager.make] using hinit
      simpa [Averager.run] using h0 this
    · exact ih (fun v hv => hdt v (by simp [hv])) (fun v hv => hb v (by simp [hv])) (fun _ => hh)

/-- **C13**, first step of a fresh run. -/
theorem c13_first_sample (ts junk dt v : K) :
    (Averager.run (Averager.make ts false, junk) [(dt, v)]).2 = v := by
  simp [Averager.run, Averager.make, Averager.execute, Averager.alpha, updatedAverage]

example : (Averager.run (Averager.make (2:ℚ) false, 100) [(1, 4), (1, 8), (3, 10), (1/2, 2)]).2 = 8 := by
  decide +kernel

/-! ## C14 -/

/-- Time-weighted mean over a window (specification). -/
def tmean {ι : Type*} (w : List (Sample ι K)) (f : Sample ι K → K) : K :=
  sumOver w (fun s => f s * s.dt) / sumOver w Sample.dt

/-- Density-and-time-weighted mean over a window (specification). -/
def fmean {ι : Type*} (w : List (Sample ι K)) (f : Sample ι K → K) : K :=
  sumOver w (fun s => f s * (s.rho * s.dt)) / sumOver w (fun s => s.rho * s.dt)

/-- Result of a fresh run with the classic filter. -/
def classicRun {ι : Type*} (start interval : K) (forced : Bool) (h : List (Sample ι K)) : Node ι K :=
  (run .classic start interval (⟨0, forced⟩, Node.init) h).2

theorem win_pos {ι : Type*} (start interval : K) (forced : Bool) (h : List (Sample ι K))
    (hp : ∀ s ∈ h, 0 < s.dt ∧ 0 < s.rho) (hne : (window start interval forced h).samples ≠ []) :
    0 < sumOver (window start interval forced h).samples Sample.dt ∧
    0 < sumOver (window start interval forced h).samples (fun s => s.rho * s.dt) := by
  have I := inv_run start interval forced h hp
  exact ⟨sumOver_pos _ _ hne (fun s hs => (I.pos s hs).1),
    sumOver_pos _ _ hne (fun s hs => mul_pos (I.pos s hs).2 (I.pos s hs).1)⟩

/-- **C14** For every history of positive steps and densities, the Reynolds averages are the
time-weighted means over the current window, the Favre averages the density-time-weighted means, and
the "resolved" averages the means of density times primitive; the filter time is the window's
length. -/
theorem c14_running_means {ι : Type*} (start interval : K) (forced : Bool) (h : List (Sample ι K))
    (hp : ∀ s ∈ h, 0 < s.dt ∧ 0 < s.rho) (hne : (window start interval forced h).samples ≠ []) :
    let w := (window start interval forced h).samples
    let n := classicRun start interval forced h
    n.rhoRA = tmean w Sample.rho ∧ (∀ i, n.ra i = tmean w (fun s => s.q i)) ∧
    (∀ i, n.fa i = fmean w (fun s => s.q i)) ∧
    (∀ i, n.resolvedAvg i = tmean w (fun s => s.rho * s.q i)) ∧
    (run .classic start interval (⟨0, forced⟩, (Node.init : Node ι K)) h).1.current = sumOver w Sample.dt := by
  have I := inv_run start interval forced h hp
  obtain ⟨hW, hR⟩ := win_pos start interval forced h hp hne
  refine ⟨?_, ?_, ?_, ?_, I.cur⟩
  · rw [tmean, eq_div_iff hW.ne']; exact I.rho
  · intro i; rw [tmean, eq_div_iff hW.ne']; exact I.ra i
  · intro i; rw [fmean, eq_div_iff hR.ne']; exact I.fa i
  · intro i; rw [tmean, eq_div_iff hW.ne']
    refine (I.res i).trans ?_
    congr 1; funext s; ring

/-- Non-vacuity for C14/C15: three samples, the third starts a new window of interval 3, the first is
before the start time. -/
example :
    let h : List (Sample (Fin 1) ℚ) := [⟨0, 1, 5, fun _ => 9⟩, ⟨1, 2, 1, fun _ => 4⟩,
      ⟨3, 2, 2, fun _ => 7⟩, ⟨4, 1, 4, fun _ => 1⟩]
    (classicRun 1 3 false h).ra 0 = 5 ∧ (classicRun 1 3 false h).fa 0 = 4 ∧
    (classicRun 1 3 false h).rStress 0 0 = 8 ∧
    (window 1 3 false h).samples.length = 2 ∧ (window 1 3 false h).wasReset = true := by
  decide +kernel

/-! ## C15 -/

/-- **C15** (Reynolds) For every history the Reynolds stress is the time-weighted covariance over the
window; in particular it is symmetric. -/
theorem c15_reynolds_stress {ι : Type*} (start interval : K) (forced : Bool) (h : List (Sample ι K))
    (hp : ∀ s ∈ h, 0 < s.dt ∧ 0 < s.rho) (hne : (window start interval forced h).samples ≠ []) (i j : ι) :
    let w := (window start interval forced h).samples
    let n := classicRun start interval forced h
    n.rStress i j = tmean w (fun s => s.q i * s.q j) - tmean w (fun s => s.q i) * tmean w (fun s => s.q j) ∧
    n.rStress i j = n.rStress j i := by
  have I := inv_run start interval forced h hp
  obtain ⟨hW, hR⟩ := win_pos start interval forced h hp hne
  obtain ⟨-, hra, -⟩ := c14_running_means start interval forced h hp hne
  have key : ∀ i j, (classicRun start interval forced h).rStress i j =
      tmean (window start interval forced h).samples (fun s => s.q i * s.q j) -
      tmean (window start interval forced h).samples (fun s => s.q i) *
      tmean (window start interval forced h).samples (fun s => s.q j) := by
    intro i j
    rw [eq_sub_iff_add_eq, ← hra i, ← hra j, tmean, eq_div_iff hW.ne']
    exact I.rstress i j
  refine ⟨key i j, ?_⟩
  rw [key i j, key j i]
  simp only [mul_comm]

theorem weighted_variance_nonneg {ι : Type*} (w : List (Sample ι K)) (f g : Sample ι K → K)
    (hg : ∀ s ∈ w, 0 ≤ g s) (hpos : 0 < sumOver w g) :
    0 ≤ sumOver w (fun s => f s * f s * g s) / sumOver w g -
      sumOver w (fun s => f s * g s) / sumOver w g * (sumOver w (fun s => f s * g s) / sumOver w g) := by
  set m := sumOver w (fun s => f s * g s) / sumOver w g with hm
  have e : ∀ v : List (Sample ι K), sumOver v (fun s => (f s - m) * (f s - m) * g s) =
      sumOver v (fun s => f s * f s * g s) - 2 * m * sumOver v (fun s => f s * g s) +
        m * m * sumOver v g := by
    intro v
    clear_value m
    induction v with
    | nil => simp
    | cons s v ih =>
      have c : ∀ F : Sample ι K → K, sumOver (s :: v) F = F s + sumOver v F := by
        intro F; simp [sumOver]
      rw [c, c, c, c, ih]; ring
  have h1 : 0 ≤ sumOver w (fun s => (f s - m) * (f s - m) * g s) := by
    unfold sumOver
    apply List.sum_nonneg
    intro x hx
    obtain ⟨s, hs, rfl⟩ := List.mem_map.mp hx
    exact mul_nonneg (mul_self_nonneg _) (hg s hs)
  have h2 : sumOver w (fun s => f s * g s) = m * sumOver w g := by
    rw [hm, div_mul_cancel₀ _ hpos.ne']
  have h3 : 0 ≤ sumOver w (fun s => f s * f s * g s) - m * m * sumOver w g := by
    have := e w
    rw [h2] at this
    have h4 := h1
    rw [this] at h4
    linarith
  have h5 : sumOver w (fun s => f s * f s * g s) / sumOver w g - m * m =
      (sumOver w (fun s => f s * f s * g s) - m * m * sumOver w g) / sumOver w g := by
    field_simp
  rw [h5]
  exact div_nonneg h3 hpos.le

/-- **C15** The normal Reynolds stresses are nonnegative. -/
theorem c15_reynolds_diagonal_nonneg {ι : Type*} (start interval : K) (forced : Bool)
    (h : List (Sample ι K)) (hp : ∀ s ∈ h, 0 < s.dt ∧ 0 < s.rho)
    (hne : (window start interval forced h).samples ≠ []) (i : ι) :
    0 ≤ (classicRun start interval forced h).rStress i i := by
  have I := inv_run start interval forced h hp
  rw [(c15_reynolds_stress start interval forced h hp hne i i).1]
  exact weighted_variance_nonneg _ (fun s => s.q i) Sample.dt (fun s hs => (I.pos s hs).1.le)
    (win_pos start interval forced h hp hne).1

/-- **C15, Favre part, without filter resets** As long as no non-empty window has been discarded, the
Favre stress is the density-time-weighted covariance, with nonnegative diagonal.  Missing: histories
with a reset, for which it is false (`c15_favre_stress_nan_after_reset`). -/
theorem c15_favre_stress_partial {ι : Type*} (start interval : K) (forced : Bool)
    (h : List (Sample ι K)) (hp : ∀ s ∈ h, 0 < s.dt ∧ 0 < s.rho)
    (hne : (window start interval forced h).samples ≠ [])
    (hres : (window start interval forced h).wasReset = false) (i j : ι) :
    let w := (window start interval forced h).samples
    ∃ v, (classicRun start interval forced h).fStress i j = some v ∧
      v = fmean w (fun s => s.q i * s.q j) - fmean w (fun s => s.q i) * fmean w (fun s => s.q j) ∧
      (i = j → 0 ≤ v) := by
  have I := inv_run start interval forced h hp
  obtain ⟨hW, hR⟩ := win_pos start interval forced h hp hne
  obtain ⟨-, -, hfa, -⟩ := c14_running_means start interval forced h hp hne
  have hf := I.fstress i j
  rw [hres] at hf
  simp only [Bool.false_eq_true, if_false] at hf
  obtain ⟨v, hv, hv'⟩ := hf
  have hval : v = fmean (window start interval forced h).samples (fun s => s.q i * s.q j) -
      fmean (window start interval forced h).samples (fun s => s.q i) *
      fmean (window start interval forced h).samples (fun s => s.q j) := by
    rw [eq_sub_iff_add_eq, ← hfa i, ← hfa j, fmean, eq_div_iff hR.ne']
    exact hv'
  refine ⟨v, hv, hval, ?_⟩
  rintro rfl
  rw [hval]
  exact weighted_variance_nonneg _ (fun s => s.q i) (fun s => s.rho * s.dt)
    (fun s hs => (mul_pos (I.pos s hs).2 (I.pos s hs).1).le) hR

/-- **C15 is false of the code for the Favre stress**: once the filter is reset while holding samples,
the Favre stress is 0/0 at every node and every later step of every run. -/
theorem c15_favre_stress_nan_after_reset {ι : Type*} (start interval : K) (forced : Bool)
    (h : List (Sample ι K)) (hp : ∀ s ∈ h, 0 < s.dt ∧ 0 < s.rho)
    (hres : (window start interval forced h).wasReset = true) (i j : ι) :
    (classicRun start interval forced h).fStress i j = none := by
  have I := inv_run start interval forced h hp
  have hf := I.fstress i j
  rw [hres] at hf
  simp only [if_true] at hf
  exact hf

example : (window (0:ℚ) 3 false ([⟨1, 2, 1, fun _ => 4⟩, ⟨3, 2, 2, fun _ => 7⟩, ⟨4, 1, 4, fun _ => 1⟩] :
    List (Sample (Fin 1) ℚ))).wasReset = true := by decide +kernel

/-! ## C51: resolved stress -/

/-- **C51 is false of the code**: the `resolved_stress` is not the time-weighted mean of
`rho u_i u_j` over the window; in the first window of a run the first sample is missing. -/
theorem c51_resolved_stress_misses_first :
    ∃ h : List (Sample (Fin 1) ℚ), (∀ s ∈ h, 0 < s.dt ∧ 0 < s.rho) ∧
      (window 0 100 false h).samples = h ∧
      (classicRun 0 100 false h).resStress 0 0 ≠
        tmean (window 0 100 false h).samples (fun s => s.rho * (s.q 0 * s.q 0)) := by
  refine ⟨[⟨0, 1, 1, fun _ => 2⟩, ⟨1, 1, 1, fun _ => 2⟩], by simp, ?_, by decide +kernel⟩
  simp [window, Win.next, sumOver]
  norm_num

/-- **C51, the part that holds**: in every window opened by a reset of the filter, the resolved stress
is the time-weighted mean of `rho u_i u_j`; in the first window it is the sum over all samples but
the first divided by the whole window length.  Missing: the first window's first sample. -/
theorem c51_resolved_stress_partial {ι : Type*} (start interval : K) (forced : Bool)
    (h : List (Sample ι K)) (hp : ∀ s ∈ h, 0 < s.dt ∧ 0 < s.rho)
    (hne : (window start interval forced h).samples ≠ []) (i j : ι) :
    let w := (window start interval forced h).samples
    ((window start interval forced h).wasReset = true →
      (classicRun start interval forced h).resStress i j = tmean w (fun s => s.rho * (s.q i * s.q j))) ∧
    ((window start interval forced h).wasReset = false →
      (classicRun start interval forced h).resStress i j =
        sumOver w.tail (fun s => s.q i * s.q j * (s.rho * s.dt)) / sumOver w Sample.dt) := by
  have I := inv_run start interval forced h hp
  obtain ⟨hW, hR⟩ := win_pos start interval forced h hp hne
  have hr := I.restress i j
  constructor
  · intro hw
    rw [hw] at hr
    rw [tmean, eq_div_iff hW.ne']
    refine hr.trans ?_
    simp only [if_true]
    congr 1; funext s; ring
  · intro hw
    rw [hw] at hr
    rw [eq_div_iff hW.ne']
    exact hr

/-! ## C16 -/

/-- **C16 is false of the code** (two and three dimensions): on a step that continues a window, the
variance is not advanced by the running-mean formula because the update is repeated for every
velocity component. -/
theorem c16_variance_wrong :
    ∀ nDim : ℕ, (nDim = 2 ∨ nDim = 3) → ∃ (w : Weights ℚ) (rho T var : ℚ),
      0 < w.old ∧ 0 < w.dt ∧ w.zero = 1 ∧ w.cur = w.old + w.dt ∧
      tempVariance nDim w rho T var ≠ (var * w.old + rho * T * T * w.dt) / (w.old + w.dt) := by
  rintro nDim (rfl | rfl)
  · exact ⟨⟨1, 1, 2, 1⟩, 1, 2, 0, by decide +kernel⟩
  · exact ⟨⟨1, 1, 2, 1⟩, 1, 2, 0, by decide +kernel⟩

/-- **C16 is false of the code**, end to end: three samples of a window opened by a reset. -/
theorem c16_run_wrong :
    ∃ h : List (ℚ × ℚ × ℚ), h = [(1, 1, 1), (4, 1, 1), (1, 1, 3)] ∧
      (h.foldl (executeTemp 3 5) (⟨0, false⟩, 0)).2 ≠ (1 * 1 * 4 + 3 * 3 * 1) / 5 :=
  ⟨_, rfl, by decide +kernel⟩

/-- **C16, the part that holds**: what the code computes in `nDim` dimensions is the running mean with
the old value damped `nDim` times: it stays between the old value and the new sample, and it is the
running mean in one dimension and on a reset.  Missing: equality with the running mean for
`nDim > 1`. -/
theorem c16_variance_partial (nDim : ℕ) (w : Weights K) (rho T var : K)
    (hold : 0 ≤ w.old) (hdt : 0 < w.dt) (hz : w.zero = 1) (hc : w.cur = w.old + w.dt) :
    tempVariance nDim w rho T var =
      (w.old / w.cur) ^ nDim * var + (1 - (w.old / w.cur) ^ nDim) * (rho * T * T) ∧
    min var (rho * T * T) ≤ tempVariance nDim w rho T var ∧
    tempVariance nDim w rho T var ≤ max var (rho * T * T) ∧
    tempVariance 1 w rho T var = (var * w.old + rho * T * T * w.dt) / w.cur := by
  have hcp : 0 < w.cur := by rw [hc]; linarith
  have e : tempVariance nDim w rho T var =
      (w.old / w.cur) ^ nDim * var + (1 - (w.old / w.cur) ^ nDim) * (rho * T * T) := by
    unfold tempVariance
    induction nDim with
    | zero => simp
    | succ n ih =>
      rw [List.range_succ, List.foldl_append, ih]
      simp only [List.foldl_cons, List.foldl_nil, hz, pow_succ]
      have hd : w.dt = w.cur - w.old := by rw [hc]; ring
      rw [hd]
      field_simp
      ring
  have a0 : 0 ≤ w.old / w.cur := div_nonneg hold hcp.le
  have a1 : w.old / w.cur ≤ 1 := by rw [div_le_one hcp, hc]; linarith
  have b0 : 0 ≤ (w.old / w.cur) ^ nDim := pow_nonneg a0 _
  have b1 : (w.old / w.cur) ^ nDim ≤ 1 := pow_le_one₀ a0 a1
  refine ⟨e, ?_, ?_, ?_⟩
  · rw [e]
    have h1 := min_le_left var (rho * T * T)
    have h2 := min_le_right var (rho * T * T)
    nlinarith
  · rw [e]
    have h1 := le_max_left var (rho * T * T)
    have h2 := le_max_right var (rho * T * T)
    nlinarith
  · simp [tempVariance, hz]

example : tempVariance 3 (⟨1, 1, 2, 1⟩ : Weights ℚ) 1 2 0 = 7/2 := by decide +kernel

/-! ## C17 -/

/-- The velocity-gradient entries that belong to bucket-local node `k` in three dimensions. -/
def ownEntry (k m : ℕ) : Prop := 9 * k ≤ m ∧ m < 9 * k + 9

/-- **C17 is false of the code**: for node 1 of a bucket two gradient fields that agree on all of the
node's own entries give different subfilter stresses. -/
theorem c17_sfs_stress_depends_on_neighbour :
    ∃ (a b : ℕ → ℚ), (∀ m, ownEntry 1 m → a m = b m) ∧
      sfsStress 3 ⟨1, 1, 2, 1⟩ 0 (fun _ => 1) (fun _ => 1) (fun _ => 1) a 1 0 1 ≠
      sfsStress 3 ⟨1, 1, 2, 1⟩ 0 (fun _ => 1) (fun _ => 1) (fun _ => 1) b 1 0 1 := by
  refine ⟨fun _ => 0, fun m => if m = 7 then 1 else 0, ?_, by decide +kernel⟩
  rintro m ⟨h1, h2⟩
  have : m ≠ 7 := by omega
  simp [this]

/-- From the fourth node of a bucket on, the stress does not depend on the node's own velocity
gradient at all. -/
theorem c17_sfs_stress_ignores_own_gradient (w : Weights K) (old : K) (nu rho ke : ℕ → K)
    (a b : ℕ → K) (k i j : ℕ) (hk : 3 ≤ k) (hi : i < 3) (hj : j < 3)
    (hab : ∀ m, ¬ ownEntry k m → a m = b m) :
    sfsStress 3 w old nu rho ke a k i j = sfsStress 3 w old nu rho ke b k i j := by
  have hm : ∀ m, m < 9 → a (k * 6 + m) = b (k * 6 + m) := by
    intro m hm
    apply hab
    unfold ownEntry; omega
  simp only [sfsStress, List.range_succ, List.range_zero, List.nil_append, List.foldl_append,
    List.foldl_cons, List.foldl_nil]
  rw [hm (3 * i + j) (by omega), hm (3 * j + i) (by omega), hm (3 * 0 + 0) (by omega),
    hm (3 * 1 + 1) (by omega), hm (3 * 2 + 2) (by omega)]

/-- **C17, the part that holds**: for the first node of each bucket the stress depends only on the
node's own data.  Missing: all other nodes. -/
theorem c17_sfs_stress_first_node_partial (w : Weights K) (old : K) (nu rho ke nu' rho' ke' : ℕ → K)
    (a b : ℕ → K) (i j : ℕ) (hi : i < 3) (hj : j < 3) (hab : ∀ m, ownEntry 0 m → a m = b m)
    (h1 : nu 0 = nu' 0) (h2 : rho 0 = rho' 0) (h3 : ke 0 = ke' 0) :
    sfsStress 3 w old nu rho ke a 0 i j = sfsStress 3 w old nu' rho' ke' b 0 i j := by
  have hm : ∀ m, m < 9 → a (0 * 6 + m) = b (0 * 6 + m) := by
    intro m hm
    apply hab
    unfold ownEntry; omega
  simp only [sfsStress, List.range_succ, List.range_zero, List.nil_append, List.foldl_append,
    List.foldl_cons, List.foldl_nil, h1, h2, h3]
  rw [hm (3 * i + j) (by omega), hm (3 * j + i) (by omega), hm (3 * 0 + 0) (by omega),
    hm (3 * 1 + 1) (by omega), hm (3 * 2 + 2) (by omega)]

/-! ## C50: moving exponential filter -/

/-- **C50, the part that holds** With the moving exponential filter, no forced reset and steps not
longer than the filter interval, every Reynolds average stays between the bounds of its samples, for
every history.  Missing: forced reset and longer steps (see the two following theorems). -/
theorem c50_moving_exponential_partial {ι : Type*} (start interval : K) (h : List (Sample ι K))
    (hdt : ∀ s ∈ h, 0 < s.dt ∧ s.dt ≤ interval ∧ start ≤ s.time) (hne : h ≠ []) (i : ι) (lo hi : K)
    (hb : ∀ s ∈ h, lo ≤ s.q i ∧ s.q i ≤ hi) :
    lo ≤ (run .movingExponential start interval (⟨0, false⟩, Node.init) h).2.ra i ∧
      (run .movingExponential start interval (⟨0, false⟩, Node.init) h).2.ra i ≤ hi := by
  have key : ∀ h : List (Sample ι K), (∀ s ∈ h, 0 < s.dt ∧ s.dt ≤ interval ∧ start ≤ s.time) →
      (∀ s ∈ h, lo ≤ s.q i ∧ s.q i ≤ hi) →
      let r := run .movingExponential start interval (⟨0, false⟩, Node.init) h
      r.1.forcedReset = false ∧ 0 ≤ r.1.current ∧ (r.1.current ≤ interval ∨ h = []) ∧
      (h = [] → r.1.current = 0) ∧ (h ≠ [] → lo ≤ r.2.ra i ∧ r.2.ra i ≤ hi) := by
    intro h
    induction h using List.reverseRecOn with
    | nil => intro _ _; simp [run]
    | append_singleton h s ih =>
      intro hd hb
      obtain ⟨i1, i2, i3, i4, i5⟩ := ih (fun v hv => hd v (by simp [hv])) (fun v hv => hb v (by simp [hv]))
      obtain ⟨d1, d2, d3⟩ := hd s (by simp)
      obtain ⟨b1, b2⟩ := hb s (by simp)
      set r := run .movingExponential start interval (⟨0, false⟩, (Node.init : Node ι K)) h with hr
      have hrun : run .movingExponential start interval (⟨0, false⟩, (Node.init : Node ι K)) (h ++ [s]) =
          execute .movingExponential start interval r s := by
        rw [hr, run, List.foldl_append]; rfl
      simp only [hrun, execute, d3, if_true, Filter.advance, i1, reynolds, Bool.false_eq_true, if_false]
      refine ⟨trivial, ?_, Or.inl ?_, by simp, fun _ => ?_⟩
      · split_ifs <;> linarith
      · split_ifs with hc
        · exact le_rfl
        · exact not_lt.mp hc
      · -- convex combination
        split_ifs with hc
        · have hI : 0 < interval := by linarith
          rw [mul_one, le_div_iff₀ hI, div_le_iff₀ hI]
          by_cases hh : h = []
          · have : interval = s.dt := by
              have := i4 hh
              rw [this] at hc; linarith
            rw [this]; constructor <;> nlinarith
          · obtain ⟨a1, a2⟩ := i5 hh
            constructor <;> nlinarith
        · have hC : 0 < r.1.current + s.dt := by linarith
          rw [mul_one, le_div_iff₀ hC, div_le_iff₀ hC]
          by_cases hh : h = []
          · rw [i4 hh]; constructor <;> nlinarith
          · obtain ⟨a1, a2⟩ := i5 hh
            constructor <;> nlinarith
  exact (key h hdt hb).2.2.2.2 hne

/-- **C50 fails** when a step is longer than the filter interval: the old average gets a negative
weight. -/
theorem c50_long_step_overshoots :
    ∃ h : List (Sample (Fin 1) ℚ), (∀ s ∈ h, 0 < s.dt ∧ 0 ≤ s.q 0 ∧ s.q 0 ≤ 1) ∧
      (run .movingExponential 0 1 (⟨0, false⟩, Node.init) h).2.ra 0 < 0 :=
  ⟨[⟨0, 1, 1, fun _ => 1⟩, ⟨1, 2, 1, fun _ => 0⟩], by simp, by decide +kernel⟩

/-- **C50 fails** for a forced reset of a restarted average: the new average is the sample scaled by
`dt/currentTimeFilter`, not the sample. -/
theorem c50_forced_reset_scales :
    ∃ (f : Filter ℚ) (n : Node (Fin 1) ℚ) (s : Sample (Fin 1) ℚ), f.forcedReset = true ∧ s.q 0 = 6 ∧
      (execute .movingExponential 0 10 (f, n) s).2.ra 0 = 2 :=
  ⟨⟨2, true⟩, Node.init, ⟨0, 1, 1, fun _ => 6⟩, rfl, rfl, by decide +kernel⟩

example : (run .movingExponential (0:ℚ) 2 (⟨0, false⟩, Node.init)
    ([⟨0, 1, 1, fun _ => 4⟩, ⟨1, 1, 1, fun _ => 8⟩, ⟨2, 1, 1, fun _ => 10⟩] : List (Sample (Fin 1) ℚ))).2.ra 0
      = 8 := by decide +kernel

/-! ## C52: vortex identification -/

/-- **C52** The Q-criterion written out is the second invariant `((tr A)² - tr A²)/2` of the velocity
gradient, in three and in two dimensions; in two dimensions it is the determinant. -/
theorem c52_q_criterion (a : Fin 3 → Fin 3 → K) (b : Fin 2 → Fin 2 → K) :
    qCriterion3 a = ((∑ i, a i i) ^ 2 - ∑ i, ∑ j, a i j * a j i) / 2 ∧
    qCriterion2 b = ((∑ i, b i i) ^ 2 - ∑ i, ∑ j, b i j * b j i) / 2 ∧
    qCriterion2 b = Matrix.det (Matrix.of b) := by
  refine ⟨?_, ?_, ?_⟩
  · simp only [qCriterion3, List.foldl_cons, List.foldl_nil, Fin.sum_univ_three]; ring
  · simp only [qCriterion2, List.foldl_cons, List.foldl_nil, Fin.sum_univ_two]; ring
  · rw [Matrix.det_fin_two]
    simp only [qCriterion2, List.foldl_cons, List.foldl_nil, Matrix.of_apply]; ring

/-- **C52** The vorticity of a rigid rotation with angular velocity `w` is `2 w`, a symmetric velocity
gradient has none, and its Q-criterion for the rotation is the squared rotation rate. -/
theorem c52_vorticity (w : Fin 3 → K) (a : Fin 3 → Fin 3 → K) (hs : ∀ i j, a i j = a j i) :
    let rot : Fin 3 → Fin 3 → K := ![![0, -w 2, w 1], ![w 2, 0, -w 0], ![-w 1, w 0, 0]]
    (∀ i, vorticity rot i = 2 * w i) ∧ (∀ i, vorticity a i = 0) ∧
    qCriterion3 rot = w 0 ^ 2 + w 1 ^ 2 + w 2 ^ 2 := by
  refine ⟨?_, ?_, ?_⟩
  · intro i; fin_cases i <;> simp [vorticity] <;> ring
  · intro i
    fin_cases i
    · simp [vorticity, hs 2 1]
    · simp [vorticity, hs 0 2]
    · simp [vorticity, hs 1 0]
  · simp only [qCriterion3, List.foldl_cons, List.foldl_nil]
    simp; ring

example : qCriterion3 (![![0, 2, 4], ![1, 3, 5], ![2, 4, 6]] : Fin 3 → Fin 3 → ℚ) = -12 := by
  decide +kernel

end Nalu.Averaging
