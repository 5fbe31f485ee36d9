import Verif.Model.Output
import Mathlib.Tactic.Linarith
import Mathlib.Tactic.NormNum
import Mathlib.Tactic.Ring
import Mathlib.Tactic.Positivity
import Mathlib.Algebra.Order.Ring.Defs

/-! # Helper lemmas for the output model -/

set_option linter.unusedSectionVars false
set_option linter.unusedSimpArgs false

namespace Nalu.Output

open Nalu.Time

variable {K : Type*} [Field K] [LinearOrder K]

theorem lt_foldl_max (L : K) (ws : List K) (w0 : K) :
    L < ws.foldl max w0 ↔ L < w0 ∨ ∃ w ∈ ws, L < w := by
  induction ws generalizing w0 with
  | nil => simp
  | cons a ws ih =>
    simp only [List.foldl_cons, ih, lt_max_iff, List.mem_cons, exists_eq_or_imp]
    tauto

theorem lt_hours [IsStrictOrderedRing K] (w : Clock K) (L : K) :
    L < w.hours ↔ ∃ x ∈ w.p0 :: w.others, L < x / 3600 := by
  have h : (0:K) < 3600 := by norm_num
  unfold Clock.hours allReduceMax
  rw [lt_div_iff₀ h, lt_foldl_max]
  simp only [List.mem_cons, exists_eq_or_imp, lt_div_iff₀ h]

theorem tmod_zero_iff (a b : ℤ) : a.tmod b = 0 ↔ b ∣ a :=
  ⟨Int.dvd_of_tmod_eq_zero, Int.tmod_eq_zero_of_dvd⟩

/-- What `output_converged_results` leaves alone. -/
theorem ocr_fixed (info : OutputInfo K) (s : St K) (e : Env K) :
    let i' := (outputConvergedResults info s e).1
    i'.hasOutputBlock = info.hasOutputBlock ∧ i'.outputFreq = info.outputFreq ∧
    i'.outputStart = info.outputStart ∧ i'.wallResultsLimit = info.wallResultsLimit ∧
    i'.hasRestartBlock = info.hasRestartBlock ∧ i'.restartFreq = info.restartFreq ∧
    i'.restartStart = info.restartStart ∧ i'.wallRestartLimit = info.wallRestartLimit := by
  simp only [outputConvergedResults, provideOutput, provideRestartOutput]
  split_ifs <;> simp_all

theorem ocr_armed (info : OutputInfo K) (s : St K) (e : Env K) :
    (outputConvergedResults info s e).1.wallResultsArmed =
      (info.wallResultsArmed &&
        !(info.hasOutputBlock && decide (info.outputFreq ≠ 0) &&
            decide (info.wallResultsLimit < e.clockOut.hours))) := by
  simp only [outputConvergedResults, provideOutput, provideRestartOutput]
  split_ifs <;> simp_all

theorem ocr_armedR (info : OutputInfo K) (s : St K) (e : Env K) :
    (outputConvergedResults info s e).1.wallRestartArmed =
      (info.wallRestartArmed &&
        !(info.hasRestartBlock && decide (info.restartFreq ≠ 0) &&
            decide (info.wallRestartLimit < e.clockRst.hours))) := by
  simp only [outputConvergedResults, provideOutput, provideRestartOutput]
  split_ifs <;> simp_all

theorem infoAt_fixed (c : Cfg K) (inp : ℕ → List (Courant K)) (s0 : St K) (env : ℕ → Env K)
    (info : OutputInfo K) (n : ℕ) :
    let i' := infoAt c inp s0 env info n
    i'.hasOutputBlock = info.hasOutputBlock ∧ i'.outputFreq = info.outputFreq ∧
    i'.outputStart = info.outputStart ∧ i'.wallResultsLimit = info.wallResultsLimit ∧
    i'.hasRestartBlock = info.hasRestartBlock ∧ i'.restartFreq = info.restartFreq ∧
    i'.restartStart = info.restartStart ∧ i'.wallRestartLimit = info.wallRestartLimit := by
  induction n with
  | zero => simp [infoAt]
  | succ n ih =>
    have := ocr_fixed (infoAt c inp s0 env info n) (seen c inp s0 n) (env n)
    simp only [infoAt] at *
    obtain ⟨a1,a2,a3,a4,a5,a6,a7,a8⟩ := ih
    obtain ⟨b1,b2,b3,b4,b5,b6,b7,b8⟩ := this
    exact ⟨b1.trans a1, b2.trans a2, b3.trans a3, b4.trans a4, b5.trans a5, b6.trans a6,
      b7.trans a7, b8.trans a8⟩

theorem infoAt_armed (c : Cfg K) (inp : ℕ → List (Courant K)) (s0 : St K) (env : ℕ → Env K)
    (info : OutputInfo K) (hb : info.hasOutputBlock = true) (hf : info.outputFreq ≠ 0) (n : ℕ) :
    (infoAt c inp s0 env info n).wallResultsArmed = true ↔
      info.wallResultsArmed = true ∧ ∀ j < n, ¬ info.wallResultsLimit < (env j).clockOut.hours := by
  induction n with
  | zero => simp [infoAt]
  | succ n ih =>
    obtain ⟨a1,a2,a3,a4,a5,a6,a7,a8⟩ := infoAt_fixed c inp s0 env info n
    have h := ocr_armed (infoAt c inp s0 env info n) (seen c inp s0 n) (env n)
    rw [infoAt, h, Bool.and_eq_true, ih, a1, a2, a4, hb]
    simp only [hf, Nat.lt_succ_iff_lt_or_eq, or_imp, forall_and, forall_eq]
    simp [and_assoc, hf]

theorem infoAt_armedR (c : Cfg K) (inp : ℕ → List (Courant K)) (s0 : St K) (env : ℕ → Env K)
    (info : OutputInfo K) (hb : info.hasRestartBlock = true) (hf : info.restartFreq ≠ 0) (n : ℕ) :
    (infoAt c inp s0 env info n).wallRestartArmed = true ↔
      info.wallRestartArmed = true ∧ ∀ j < n, ¬ info.wallRestartLimit < (env j).clockRst.hours := by
  induction n with
  | zero => simp [infoAt]
  | succ n ih =>
    obtain ⟨a1,a2,a3,a4,a5,a6,a7,a8⟩ := infoAt_fixed c inp s0 env info n
    have h := ocr_armedR (infoAt c inp s0 env info n) (seen c inp s0 n) (env n)
    rw [infoAt, h, Bool.and_eq_true, ih, a5, a6, a8, hb]
    simp only [hf, Nat.lt_succ_iff_lt_or_eq, or_imp, forall_and, forall_eq]
    simp [and_assoc, hf]

theorem beginStep_count (c : Cfg K) (cs : List (Courant K)) (s : St K) :
    (beginStep c cs s).timeStepCount = s.timeStepCount + 1 := by
  unfold beginStep computeGamma
  cases c.adaptive <;> cases c.secondOrder <;> simp <;> split_ifs <;> simp

theorem after_count' (c : Cfg K) (inp : ℕ → List (Courant K)) (s : St K) (n : ℕ) :
    (after c inp s n).timeStepCount = s.timeStepCount + n := by
  induction n with
  | zero => simp [after]
  | succ n ih =>
    simp only [after, step, endStep, beginStep_count, ih]; push_cast; ring

theorem seen_count (c : Cfg K) (inp : ℕ → List (Courant K)) (s0 : St K) (i : ℕ) :
    (seen c inp s0 i).timeStepCount = s0.timeStepCount + i := by
  cases i with
  | zero => simp [seen]
  | succ n => simp only [seen, beginStep_count, after_count']; push_cast; ring

end Nalu.Output
