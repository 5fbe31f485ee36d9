import Verif.Model.NodeSource
import Verif.Proofs.ElemKernel
import Verif.Proofs.Edge
import Verif.Props.Time
import Verif.Spec.ElemKernel
import Mathlib.Tactic.FieldSimp
import Mathlib.Tactic.Ring
import Mathlib.Tactic.Linarith
import Mathlib.Tactic.NormNum
import Mathlib.Tactic.LinearCombination
import Mathlib.Algebra.BigOperators.Intervals

/-!
# Properties of the lumped time terms

* C122: linearisation and start-up.
* C123: accounting for the content over histories of steps.
-/

namespace Nalu.Node
open Nalu.Edge Nalu.Kernel Finset

variable {K : Type*} [Field K] [LinearOrder K] [IsStrictOrderedRing K] {nd : ℕ}

/-! ## Contributions -/

theorem scalarMassBdf2_rhs (b : Bdf K) (q rho : Lv K) (vol : K) (s : LocalSys (Fin 1) K) (a : Fin 1) :
    (scalarMassBdf2 b q rho vol s).rhs a = s.rhs a -
      (b.g1 * (rho.np1 * q.np1) + b.g2 * (rho.n * q.n) + b.g3 * (rho.nm1 * q.nm1)) * vol / b.dt := by
  simp [scalarMassBdf2, Subsingleton.elim a 0]; ring

theorem momentumMassBdf2_rhs (b : Bdf K) (u : Lv (Fin nd → K)) (rho : Lv K) (dpdx : Fin nd → K) (vol : K) (s : LocalSys (Fin nd) K)
    (a : Fin nd) : (momentumMassBdf2 b u rho dpdx vol s).rhs a = s.rhs a -
      (b.g1 * (rho.np1 * u.np1 a) + b.g2 * (rho.n * u.n a) + b.g3 * (rho.nm1 * u.nm1 a)) * vol / b.dt - dpdx a * vol := by
  rw [momentumMassBdf2, loop_rhs (a := a) (δ := fun i => if a = i then
    -(b.g1 * rho.np1 * u.np1 i + b.g2 * rho.n * u.n i + b.g3 * rho.nm1 * u.nm1 i) * vol / b.dt - dpdx i * vol else 0)]
  · simp; ring
  · intro k s; simp

theorem momentumMassBdf2_lhs (b : Bdf K) (u : Lv (Fin nd → K)) (rho : Lv K) (dpdx : Fin nd → K) (vol : K) (s : LocalSys (Fin nd) K)
    (a c : Fin nd) : (momentumMassBdf2 b u rho dpdx vol s).lhs a c = s.lhs a c + if a = c then b.g1 * rho.np1 * vol / b.dt else 0 := by
  rw [momentumMassBdf2, loop_lhs (a := a) (b := c) (δ := fun i => if a = i ∧ c = i then b.g1 * rho.np1 * vol / b.dt else 0)]
  · congr 1
    by_cases h : a = c
    · subst h; simp
    · rw [if_neg h]
      exact Finset.sum_eq_zero fun i _ => if_neg fun ⟨h1, h2⟩ => h (h1.trans h2.symm)
  · intro k s; simp

theorem momentumMassBE_rhs (dt : K) (u : Lv (Fin nd → K)) (rho : Lv K) (dpdx : Fin nd → K) (vol : K) (s : LocalSys (Fin nd) K)
    (a : Fin nd) : (momentumMassBE dt u rho dpdx vol s).rhs a = s.rhs a -
      (rho.np1 * u.np1 a - rho.n * u.n a) * vol / dt - dpdx a * vol := by
  rw [momentumMassBE, loop_rhs (a := a) (δ := fun i => if a = i then
    -(rho.np1 * u.np1 i - rho.n * u.n i) * vol / dt - dpdx i * vol else 0)]
  · simp; ring
  · intro k s; simp

theorem momentumMassBE_lhs (dt : K) (u : Lv (Fin nd → K)) (rho : Lv K) (dpdx : Fin nd → K) (vol : K) (s : LocalSys (Fin nd) K)
    (a c : Fin nd) : (momentumMassBE dt u rho dpdx vol s).lhs a c = s.lhs a c + if a = c then rho.np1 * vol / dt else 0 := by
  rw [momentumMassBE, loop_lhs (a := a) (b := c) (δ := fun i => if a = i ∧ c = i then rho.np1 * vol / dt else 0)]
  · congr 1
    by_cases h : a = c
    · subst h; simp
    · rw [if_neg h]
      exact Finset.sum_eq_zero fun i _ => if_neg fun ⟨h1, h2⟩ => h (h1.trans h2.symm)
  · intro k s; simp

/-! ## C122 -/

/-- Weights of the first step of a run. -/
def Bdf.euler (dt : K) : Bdf K := { dt := dt, g1 := 1, g2 := -1, g3 := 0 }

theorem localSys_ext {ι : Type*} {s t : LocalSys ι K} (h1 : ∀ a b, s.lhs a b = t.lhs a b) (h2 : ∀ a, s.rhs a = t.rhs a) : s = t := by
  cases s; cases t
  simp only [LocalSys.mk.injEq]
  exact ⟨funext fun a => funext fun b => h1 a b, funext h2⟩

/-- **C122** On the first step of a second order run (weights `1, -1, 0`) every BDF2 time term is the backward Euler term, matrix and
residual: the old-old state, which does not exist yet, is not used. -/
theorem c122_first_step (dt : K) (q rho T : Lv K) (u : Lv (Fin nd → K)) (dpdx : Fin nd → K) (cp r vol : K) (s : LocalSys (Fin 1) K)
    (sv : LocalSys (Fin nd) K) :
    scalarMassBdf2 (Bdf.euler dt) q rho vol s = scalarMassBE dt q rho vol s ∧
    momentumMassBdf2 (Bdf.euler dt) u rho dpdx vol sv = momentumMassBE dt u rho dpdx vol sv ∧
    continuityMassBdf2 (Bdf.euler dt) rho vol s = continuityMassBE dt rho vol s ∧
    heatCondMassBdf2 (Bdf.euler dt) T r cp vol s = heatCondMassBE dt T r cp vol s := by
  refine ⟨?_, ?_, ?_, ?_⟩
  · apply localSys_ext
    · intro a b; simp [scalarMassBdf2, scalarMassBE, Bdf.euler]
    · intro a; simp [scalarMassBdf2, scalarMassBE, Bdf.euler]; ring
  · apply localSys_ext
    · intro a b; rw [momentumMassBdf2_lhs, momentumMassBE_lhs]; simp [Bdf.euler]
    · intro a; rw [momentumMassBdf2_rhs, momentumMassBE_rhs]; simp [Bdf.euler]; ring
  · apply localSys_ext
    · intro a b; simp [continuityMassBdf2, continuityMassBE]
    · intro a; simp [continuityMassBdf2, continuityMassBE, Bdf.euler]; ring
  · apply localSys_ext
    · intro a b; simp [heatCondMassBdf2, heatCondMassBE, Bdf.euler]
    · intro a; simp [heatCondMassBdf2, heatCondMassBE, Bdf.euler]; ring

/-- **C122** The matrix of the scalar time term is the exact derivative of its residual, for either scheme. -/
theorem c122_scalar_newton (ns : ℕ) (b : Bdf K) (qN qNm1 : K) (rho : Lv K) (vol : K) :
    ExactNewton fun (q : Fin 1 → K) s => scalarMassAlg ns b ⟨q 0, qN, qNm1⟩ rho vol s := by
  intro q d s s' a
  obtain rfl : a = 0 := Subsingleton.elim a 0
  by_cases h : ns = 2
  · simp [scalarMassAlg, h, scalarMassBE]; ring
  · simp [scalarMassAlg, h, scalarMassBdf2]; ring

/-- **C122** The same for momentum; the pressure gradient is data. -/
theorem c122_momentum_newton (ns : ℕ) (b : Bdf K) (uN uNm1 dpdx : Fin nd → K) (rho : Lv K) (vol : K) :
    ExactNewton fun (u : Fin nd → K) s => momentumMassAlg ns b ⟨u, uN, uNm1⟩ rho dpdx vol s := by
  intro u d s s' a
  by_cases h : ns = 2
  · simp only [momentumMassAlg, h, if_true, momentumMassBE_rhs, momentumMassBE_lhs]
    simp; ring
  · simp only [momentumMassAlg, h, if_false, momentumMassBdf2_rhs, momentumMassBdf2_lhs]
    simp; ring

/-- **C122** (finding) The BDF2 term of heat conduction omits the first weight from its matrix: it is the exact derivative only when that
weight is one.  A Newton update `d` changes the residual by `-γ1` times what the matrix announces. -/
theorem c122_heat_newton (b : Bdf K) (TN TNm1 rho cp vol : K) (hdt : b.dt ≠ 0) (hr : rho * cp * vol ≠ 0) :
    (ExactNewton fun (T : Fin 1 → K) s => heatCondMassBE b.dt ⟨T 0, TN, TNm1⟩ rho cp vol s) ∧
    ((ExactNewton fun (T : Fin 1 → K) s => heatCondMassBdf2 b ⟨T 0, TN, TNm1⟩ rho cp vol s) ↔ b.g1 = 1) ∧
    ∀ (T : K) (d : K) (s : LocalSys (Fin 1) K),
      (heatCondMassBdf2 b ⟨T + d, TN, TNm1⟩ rho cp vol s).rhs 0 = (heatCondMassBdf2 b ⟨T, TN, TNm1⟩ rho cp vol s).rhs 0 -
        b.g1 * (((heatCondMassBdf2 b ⟨T, TN, TNm1⟩ rho cp vol s).lhs 0 0 - s.lhs 0 0) * d) := by
  refine ⟨?_, ⟨?_, ?_⟩, ?_⟩
  · intro q d s s' a
    obtain rfl : a = 0 := Subsingleton.elim a 0
    simp [heatCondMassBE]; ring
  · intro h
    have := h (fun _ => 0) (fun _ => 1) ⟨fun _ _ => 0, fun _ => 0⟩ ⟨fun _ _ => 0, fun _ => 0⟩ 0
    simp [heatCondMassBdf2] at this
    field_simp at this
    have e : rho * cp * vol * (b.g1 - 1) = 0 := by linear_combination -this
    rcases mul_eq_zero.mp e with e | e
    · exact absurd e hr
    · exact sub_eq_zero.mp e
  · intro h q d s s' a
    obtain rfl : a = 0 := Subsingleton.elim a 0
    simp [heatCondMassBdf2, h]; ring
  · intro T d s
    simp [heatCondMassBdf2]; ring

/-- **C122** Consequence for heat conduction: where conduction vanishes, each nonlinear iteration reduces the error of the new temperature
by the factor `1 - γ1` only (one half for constant steps), instead of to zero; the temperature it converges to is right. -/
theorem c122_heat_iteration (b : Bdf K) (TN TNm1 rho cp vol T d : K) (hdt : b.dt ≠ 0) (hg : b.g1 ≠ 0) (hr : rho * cp * vol ≠ 0)
    (hsolve : (heatCondMassBdf2 b ⟨T, TN, TNm1⟩ rho cp vol ⟨fun _ _ => 0, fun _ => 0⟩).lhs 0 0 * d =
      (heatCondMassBdf2 b ⟨T, TN, TNm1⟩ rho cp vol ⟨fun _ _ => 0, fun _ => 0⟩).rhs 0) :
    let star := -(b.g2 * TN + b.g3 * TNm1) / b.g1
    T + d - star = (1 - b.g1) * (T - star) ∧
      (heatCondMassBdf2 b ⟨star, TN, TNm1⟩ rho cp vol ⟨fun _ _ => 0, fun _ => 0⟩).rhs 0 = 0 := by
  intro star
  constructor
  · simp [heatCondMassBdf2] at hsolve
    have hd : d = -(b.g1 * T + b.g2 * TN + b.g3 * TNm1) := by
      have h2 : rho * cp * vol / b.dt ≠ 0 := div_ne_zero hr hdt
      have : rho * cp * vol / b.dt * (d + (b.g1 * T + b.g2 * TN + b.g3 * TNm1)) = 0 := by linear_combination hsolve
      rcases mul_eq_zero.mp this with h | h
      · exact absurd h h2
      · linear_combination h
    simp only [star]
    rw [hd]
    field_simp
    ring
  · simp [heatCondMassBdf2, star]
    right
    field_simp
    ring

/-! ## C123 -/

/-- **C123** The time term is minus the rate of change of the content `ρ q V` of the dual volume, formed with the scheme's weights. -/
theorem c123_scalar_rate (b : Bdf K) (q rho : Lv K) (vol : K) (s : LocalSys (Fin 1) K) :
    (scalarMassBdf2 b q rho vol s).rhs 0 = s.rhs 0 -
      (b.g1 * (vol * rho.np1 * q.np1) + b.g2 * (vol * rho.n * q.n) + b.g3 * (vol * rho.nm1 * q.nm1)) / b.dt := by
  rw [scalarMassBdf2_rhs]; ring

/-- **C123** Backward Euler conserves over every history of steps of any sizes: if on every step the time term balances the sources `S`,
the content at the end is the content at the start plus the time integral of the sources. -/
theorem c123_euler_history (q rho : ℕ → K) (vol : K) (dt S : ℕ → K) (hdt : ∀ k, dt k ≠ 0)
    (hbal : ∀ k, (scalarMassBE (dt k) ⟨q (k + 1), q k, q (k - 1)⟩ ⟨rho (k + 1), rho k, rho (k - 1)⟩ vol ⟨fun _ _ => 0, fun _ => 0⟩).rhs 0 + S k = 0)
    (n : ℕ) : vol * rho n * q n = vol * rho 0 * q 0 + ∑ k ∈ range n, dt k * S k := by
  induction n with
  | zero => simp
  | succ n ih =>
    rw [Finset.sum_range_succ, ← add_assoc, ← ih]
    have := hbal n
    simp [scalarMassBE] at this
    have h := hdt n
    have e : S n = (rho (n + 1) * q (n + 1) - q n * rho n) * vol / dt n := by linear_combination this
    rw [e]
    field_simp
    ring

/-- **C123** BDF2 with constant steps, first step backward Euler: the combination `3/2 a_n - 1/2 a_{n-1}` of the contents changes by the time
integral of the sources, over every history. -/
theorem c123_bdf2_history (q rho : ℕ → K) (vol dt : K) (S : ℕ → K) (hdt : dt ≠ 0)
    (h0 : (scalarMassBdf2 (Bdf.euler dt) ⟨q 1, q 0, q 0⟩ ⟨rho 1, rho 0, rho 0⟩ vol ⟨fun _ _ => 0, fun _ => 0⟩).rhs 0 + S 0 = 0)
    (hbal : ∀ k, (scalarMassBdf2 { dt := dt, g1 := 3 / 2, g2 := -2, g3 := 1 / 2 } ⟨q (k + 2), q (k + 1), q k⟩ ⟨rho (k + 2), rho (k + 1), rho k⟩ vol
      ⟨fun _ _ => 0, fun _ => 0⟩).rhs 0 + S (k + 1) = 0) (n : ℕ) :
    3 / 2 * (vol * rho (n + 1) * q (n + 1)) - 1 / 2 * (vol * rho n * q n) =
      1 / 2 * (vol * rho 0 * q 0) + 1 / 2 * (vol * rho 1 * q 1) + ∑ k ∈ range (n + 1), dt * S k := by
  induction n with
  | zero =>
    rw [scalarMassBdf2_rhs] at h0
    simp [Bdf.euler] at h0
    have e : S 0 = (rho 1 * q 1 - rho 0 * q 0) * vol / dt := by linear_combination h0
    rw [Finset.sum_range_one, e]
    field_simp
    ring
  | succ n ih =>
    rw [Finset.sum_range_succ, ← add_assoc, ← ih]
    have := hbal n
    rw [scalarMassBdf2_rhs] at this
    have e : S (n + 1) = (3 / 2 * (rho (n + 2) * q (n + 2)) + -2 * (rho (n + 1) * q (n + 1)) + 1 / 2 * (rho n * q n)) * vol / dt := by
      simp only [] at this
      linear_combination this
    rw [e]
    field_simp
    ring

/-- **C123** Without sources the content never changes, for every history of step sizes: weights that sum to zero with non-zero first
weight (all weights of a run, C04). -/
theorem c123_no_source (q rho : ℕ → K) (vol : K) (b : ℕ → Bdf K) (hdt : ∀ k, (b k).dt ≠ 0) (hg : ∀ k, (b k).g1 ≠ 0)
    (hsum : ∀ k, (b k).g1 + (b k).g2 + (b k).g3 = 0) (h0 : (b 0).g3 = 0)
    (hbal : ∀ k, (scalarMassBdf2 (b k) ⟨q (k + 1), q k, q (k - 1)⟩ ⟨rho (k + 1), rho k, rho (k - 1)⟩ vol ⟨fun _ _ => 0, fun _ => 0⟩).rhs 0 = 0)
    (n : ℕ) : vol * rho n * q n = vol * rho 0 * q 0 := by
  suffices H : ∀ n, vol * rho n * q n = vol * rho 0 * q 0 ∧ vol * rho (n - 1) * q (n - 1) = vol * rho 0 * q 0 from (H n).1
  intro n
  induction n with
  | zero => simp
  | succ n ih =>
    refine ⟨?_, ih.1⟩
    have := hbal n
    rw [scalarMassBdf2_rhs] at this
    have e : (b n).g1 * (vol * rho (n + 1) * q (n + 1)) + (b n).g2 * (vol * rho n * q n) + (b n).g3 * (vol * rho (n - 1) * q (n - 1)) = 0 := by
      have h := hdt n
      simp only [zero_sub, neg_eq_zero, div_eq_zero_iff, h, or_false] at this
      linear_combination this
    rw [ih.1, ih.2] at e
    have : (b n).g1 * (vol * rho (n + 1) * q (n + 1) - vol * rho 0 * q 0) = 0 := by
      linear_combination e - (vol * rho 0 * q 0) * hsum n
    rcases mul_eq_zero.mp this with h | h
    · exact absurd h (hg n)
    · exact sub_eq_zero.mp h

open Polynomial in
/-- **C123** In every run of the time integrator, with any history of step sizes, the BDF2 term is the exact time derivative of the content
whenever the content depends on time as a polynomial of degree at most two. -/
theorem c123_exact_quadratic (c : Time.Cfg K) (h2 : c.secondOrder = true) (inp : ℕ → List (Time.Courant K)) (s0 : Time.St K)
    (hc : s0.timeStepCount = 0) (n : ℕ) (hpos : ∀ i, i ≤ n + 1 → 0 < (Time.beginStep c (inp i) (Time.after c inp s0 i)).timeStepN)
    (p : K[X]) (hp : p.natDegree ≤ 2) (q rho : Lv K) (vol : K) (s : LocalSys (Fin 1) K)
    (h1 : rho.np1 * q.np1 = p.eval (Time.beginStep c (inp (n + 1)) (Time.after c inp s0 (n + 1))).currentTime)
    (hn : rho.n * q.n = p.eval (Time.after c inp s0 (n + 1)).currentTime) (hm : rho.nm1 * q.nm1 = p.eval (Time.after c inp s0 n).currentTime) :
    let t := Time.beginStep c (inp (n + 1)) (Time.after c inp s0 (n + 1))
    (scalarMassBdf2 { dt := t.timeStepN, g1 := t.gamma1, g2 := t.gamma2, g3 := t.gamma3 } q rho vol s).rhs 0 = s.rhs 0 - vol * p.derivative.eval t.currentTime := by
  intro t
  have := Time.c04_bdf2_exact c h2 inp s0 hc n hpos p hp
  simp only at this
  rw [scalarMassBdf2_rhs, h1, hn, hm, ← this]
  simp only [t]
  ring

end Nalu.Node
