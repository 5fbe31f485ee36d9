import Verif.Model.Averaging
import Mathlib.Tactic.Linarith
import Mathlib.Tactic.Ring
import Mathlib.Tactic.FieldSimp
import Mathlib.Tactic.NormNum
import Mathlib.Tactic.Positivity
import Mathlib.Algebra.Order.BigOperators.Group.List
import Mathlib.Data.Rat.Defs

/-! # Specification and helper lemmas for the averaging post-processors -/

set_option linter.unusedSectionVars false
set_option linter.unusedSimpArgs false

namespace Nalu.Averaging

variable {K : Type*} [Field K] [LinearOrder K]

/-- Sum of `f` over a list of samples (specification). -/
def sumOver {ι : Type*} (w : List (Sample ι K)) (f : Sample ι K → K) : K := (w.map f).sum

@[simp] theorem sumOver_nil {ι : Type*} (f : Sample ι K → K) : sumOver [] f = 0 := rfl

@[simp] theorem sumOver_append {ι : Type*} (w : List (Sample ι K)) (s : Sample ι K)
    (f : Sample ι K → K) : sumOver (w ++ [s]) f = sumOver w f + f s := by simp [sumOver]

@[simp] theorem sumOver_single {ι : Type*} (s : Sample ι K)
    (f : Sample ι K → K) : sumOver [s] f = f s := by simp [sumOver]

/-- Specification of the averaging window: samples taken from `start` on; a sample that would make
the window longer than `interval` (or the user's forced reset) starts a new window. -/
structure Win (ι K : Type*) where
  samples : List (Sample ι K)
  forced : Bool
  /-- a non-empty window has been thrown away -/
  wasReset : Bool

/-- One step of the window specification. -/
def Win.next {ι : Type*} (start interval : K) (p : Win ι K) (s : Sample ι K) : Win ι K :=
  if start ≤ s.time then
    if p.forced = true ∨ interval < sumOver p.samples Sample.dt + s.dt then
      ⟨[s], false, p.wasReset || !p.samples.isEmpty⟩
    else ⟨p.samples ++ [s], false, p.wasReset⟩
  else p

/-- The window after a history. -/
def window {ι : Type*} (start interval : K) (forced : Bool) (h : List (Sample ι K)) : Win ι K :=
  h.foldl (Win.next start interval) ⟨[], forced, false⟩

theorem sumOver_pos {ι : Type*} [IsStrictOrderedRing K] (w : List (Sample ι K)) (f : Sample ι K → K)
    (hne : w ≠ []) (hf : ∀ s ∈ w, 0 < f s) : 0 < sumOver w f := by
  unfold sumOver
  refine List.sum_pos _ ?_ (by simpa using hne)
  intro x hx
  obtain ⟨s, hs, rfl⟩ := List.mem_map.mp hx
  exact hf s hs

/-- Everything known about filter and node relative to the window. -/
structure Inv {ι : Type*} (w : Win ι K) (f : Filter K) (n : Node ι K) : Prop where
  forced : f.forcedReset = w.forced
  pos : ∀ s ∈ w.samples, 0 < s.dt ∧ 0 < s.rho
  cur : f.current = sumOver w.samples Sample.dt
  rho : n.rhoRA * sumOver w.samples Sample.dt = sumOver w.samples (fun s => s.rho * s.dt)
  ra : ∀ i, n.ra i * sumOver w.samples Sample.dt = sumOver w.samples (fun s => s.q i * s.dt)
  fa : ∀ i, n.fa i * sumOver w.samples (fun s => s.rho * s.dt) =
    sumOver w.samples (fun s => s.q i * (s.rho * s.dt))
  res : ∀ i, n.resolvedAvg i * sumOver w.samples Sample.dt =
    sumOver w.samples (fun s => s.q i * (s.rho * s.dt))
  rstress : ∀ i j, (n.rStress i j + n.ra i * n.ra j) * sumOver w.samples Sample.dt =
    sumOver w.samples (fun s => s.q i * s.q j * s.dt)
  fstress : ∀ i j, if w.wasReset then n.fStress i j = none else
    ∃ v, n.fStress i j = some v ∧
      (v + n.fa i * n.fa j) * sumOver w.samples (fun s => s.rho * s.dt) =
        sumOver w.samples (fun s => s.q i * s.q j * (s.rho * s.dt))
  restress : ∀ i j, n.resStress i j * sumOver w.samples Sample.dt =
    sumOver (if w.wasReset then w.samples else w.samples.tail)
      (fun s => s.q i * s.q j * (s.rho * s.dt))
  empty : w.samples = [] → w.wasReset = false ∧ n.rhoRA = 0 ∧ (∀ i, n.ra i = 0) ∧
    (∀ i, n.fa i = 0) ∧ (∀ i, n.resolvedAvg i = 0) ∧
    (∀ i j, n.rStress i j = 0 ∧ n.fStress i j = some 0 ∧ n.resStress i j = 0)

theorem inv_init {ι : Type*} (forced : Bool) :
    Inv (⟨[], forced, false⟩ : Win ι K) ⟨0, forced⟩ Node.init := by
  constructor <;> simp [Node.init]

/-- The step keeps the invariant. -/
theorem inv_step {ι : Type*} [IsStrictOrderedRing K] (start interval : K) (w : Win ι K) (f : Filter K)
    (n : Node ι K) (s : Sample ι K) (hdt : 0 < s.dt) (hrho : 0 < s.rho) (h : Inv w f n) :
    Inv (Win.next start interval w s) (execute .classic start interval (f, n) s).1
      (execute .classic start interval (f, n) s).2 := by
  by_cases hst : start ≤ s.time
  swap
  · simp [Win.next, execute, hst, h]
  have hW0 : ∀ v ∈ w.samples, 0 < v.dt := fun v hv => (h.pos v hv).1
  have hR0 : ∀ v ∈ w.samples, 0 < v.rho * v.dt := fun v hv =>
    mul_pos (h.pos v hv).2 (h.pos v hv).1
  set W := sumOver w.samples Sample.dt with hW
  set R := sumOver w.samples (fun s => s.rho * s.dt) with hR
  by_cases hreset : w.forced = true ∨ interval < W + s.dt
  · -- reset
    have hr : (decide (interval < f.current + s.dt) || f.forcedReset) = true := by
      rw [h.cur, h.forced, ← hW]; simpa [or_comm] using hreset
    by_cases hemp : w.samples = []
    · -- empty window: same as a fresh start
      have hW' : W = 0 := by rw [hW, hemp]; rfl
      have hcur : f.current = 0 := by rw [h.cur, ← hW, hW']
      rw [hcur] at hr
      obtain ⟨e0, e1, e2, e3, e4, e5⟩ := h.empty hemp
      have hnx : Win.next start interval w s = ⟨[s], false, false⟩ := by
        simp only [Win.next, hst, ← hW, hreset, if_true]
        simp [hemp, e0]
      have hex : execute .classic start interval (f, n) s =
          (⟨s.dt, false⟩, (⟨s.rho, s.q, s.q, (fun i => s.rho * s.q i), n.rStress, n.fStress, n.resStress⟩ : Node ι K)) := by
        simp only [execute, hst, if_true, Filter.advance, hr, reynolds, favre, resolved, hcur,
          lt_irrefl, decide_false]
        refine Prod.ext rfl ?_
        simp only [Node.mk.injEq, true_and, Bool.false_eq_true, if_false, and_true]
        refine ⟨?_, ?_, ?_, ?_⟩
        · field_simp; simp
        · funext i; field_simp; simp
        · funext i; simp; field_simp
        · funext i; field_simp; simp
      rw [hnx, hex]
      constructor
      · rfl
      · simp [hdt, hrho]
      · simp
      · simp
      · intro i; simp
      · intro i; simp
      · intro i; simp; ring
      · intro i j; simp [(e5 i j).1]
      · intro i j; simp [(e5 i j).2.1]
      · intro i j; simp [(e5 i j).2.2]
      · simp
    · -- a non-empty window is thrown away
      have hWpos : 0 < W := sumOver_pos _ _ hemp hW0
      have hnx : Win.next start interval w s = ⟨[s], false, true⟩ := by
        simp only [Win.next, hst, ← hW, hreset, if_true]
        simp [hemp]
      have hold : f.current = W := by rw [h.cur]
      rw [hold] at hr
      have hex : execute .classic start interval (f, n) s =
          (⟨s.dt, false⟩, (⟨s.rho, s.q, s.q, (fun i => s.rho * s.q i), (fun _ _ => 0), (fun _ _ => none),
            (fun i j => s.rho * (s.q i * s.q j))⟩ : Node ι K)) := by
        simp only [execute, hst, if_true, Filter.advance, hr, reynolds, favre, resolved, hold,
          hWpos, decide_true, reynoldsStress, favreStress]
        refine Prod.ext rfl ?_
        simp only [Node.mk.injEq]
        refine ⟨?_, ?_, ?_, ?_, ?_, ?_, ?_⟩
        · field_simp; simp
        · funext i; field_simp; simp
        · funext i; simp; field_simp
        · funext i; field_simp; simp
        · funext i j; simp; field_simp; simp
        · funext i j; rw [if_pos]; simp; left; field_simp; simp
        · funext i j; field_simp; simp
      rw [hnx, hex]
      constructor
      · rfl
      · simp [hdt, hrho]
      · simp
      · simp
      · intro i; simp
      · intro i; simp
      · intro i; simp; ring
      · intro i j; simp
      · intro i j; simp
      · intro i j; simp; ring
      · simp
  · -- no reset
    push Not at hreset
    have hr : (decide (interval < f.current + s.dt) || f.forcedReset) = false := by
      rw [h.cur, h.forced, ← hW]
      have : ¬ interval < W + s.dt := not_lt.mpr hreset.2
      simp [this, hreset.1]
    have hnx : Win.next start interval w s = ⟨w.samples ++ [s], false, w.wasReset⟩ := by
      simp only [Win.next, hst, ← hW, if_true]
      rw [if_neg]
      push Not; exact hreset
    have hWnn : 0 ≤ W := by
      by_cases hemp : w.samples = []
      · rw [hW, hemp]; simp
      · exact (sumOver_pos _ _ hemp hW0).le
    have hRnn : 0 ≤ R := by
      by_cases hemp : w.samples = []
      · rw [hR, hemp]; simp
      · exact (sumOver_pos _ _ hemp hR0).le
    have hC : 0 < W + s.dt := by linarith
    have hRd : 0 < s.rho * s.dt := mul_pos hrho hdt
    have hold : f.current = W := by rw [h.cur]
    rw [hold] at hr
    set n' := (execute .classic start interval (f, n) s).2 with hn'
    have hf' : (execute .classic start interval (f, n) s).1 = ⟨W + s.dt, false⟩ := by
      simp only [execute, hst, if_true, Filter.advance, hr, hold]; rfl
    have frho : n'.rhoRA * (W + s.dt) = R + s.rho * s.dt := by
      have : n'.rhoRA = (n.rhoRA * W * 1 + s.rho * s.dt) / (W + s.dt) := by
        simp only [hn', execute, hst, if_true, Filter.advance, hr, hold, reynolds]; simp
      rw [this, div_mul_cancel₀ _ hC.ne', mul_one, h.rho]
    have fra : ∀ i, n'.ra i * (W + s.dt) = n.ra i * W + s.q i * s.dt := by
      intro i
      have : n'.ra i = (n.ra i * W * 1 + s.q i * s.dt) / (W + s.dt) := by
        simp only [hn', execute, hst, if_true, Filter.advance, hr, hold, reynolds]; simp
      rw [this, div_mul_cancel₀ _ hC.ne', mul_one]
    have hRA : 0 < n'.rhoRA := by
      by_contra hcon
      push Not at hcon
      have := mul_nonpos_of_nonpos_of_nonneg hcon hC.le
      rw [frho] at this; linarith
    have ffa : ∀ i, n'.fa i * (R + s.rho * s.dt) = n.fa i * R + s.q i * (s.rho * s.dt) := by
      intro i
      have : n'.fa i = (n.fa i * n.rhoRA * W * 1 + s.q i * s.rho * s.dt) / (W + s.dt) / n'.rhoRA := by
        simp only [hn', execute, hst, if_true, Filter.advance, hr, hold, reynolds, favre]; simp
      rw [this, ← frho, mul_comm n'.rhoRA, ← mul_assoc, div_mul_eq_mul_div, div_mul_cancel₀ _ hRA.ne',
        div_mul_cancel₀ _ hC.ne', mul_one, mul_assoc (n.fa i), h.rho]
      ring
    have fres : ∀ i, n'.resolvedAvg i * (W + s.dt) = n.resolvedAvg i * W + s.q i * (s.rho * s.dt) := by
      intro i
      have : n'.resolvedAvg i = (n.resolvedAvg i * W * 1 + s.rho * s.q i * s.dt) / (W + s.dt) := by
        simp only [hn', execute, hst, if_true, Filter.advance, hr, hold, resolved]; simp
      rw [this, div_mul_cancel₀ _ hC.ne', mul_one]; ring
    rw [hnx, hf']
    refine ⟨rfl, ?_, ?_, ?_, ?_, ?_, ?_, ?_, ?_, ?_, ?_⟩
    · intro v hv
      simp only [List.mem_append, List.mem_singleton] at hv
      rcases hv with hv | rfl
      · exact h.pos v hv
      · exact ⟨hdt, hrho⟩
    · simp [← hW]
    · simp only [sumOver_append, ← hW, ← hR]; exact frho
    · intro i; simp only [sumOver_append, ← hW]; rw [fra, h.ra]
    · intro i; simp only [sumOver_append, ← hR]; rw [ffa, h.fa]
    · intro i; simp only [sumOver_append, ← hW]; rw [fres, h.res]
    · -- Reynolds stress
      intro i j
      simp only [sumOver_append, ← hW, ← h.rstress i j]
      by_cases hemp : w.samples = []
      · have hW' : W = 0 := by rw [hW, hemp]; rfl
        obtain ⟨e0, e1, e2, e3, e4, e5⟩ := h.empty hemp
        have hs : n'.rStress i j = 0 := by
          simp only [hn', execute, hst, if_true, Filter.advance, hr, hold, hW', lt_irrefl]
          try rw [hW'] at hr
          try simp only [hr]
          simp [(e5 i j).1]
        have h1 := fra i; have h2 := fra j
        rw [hW'] at h1 h2 ⊢
        simp only [zero_add, mul_zero] at h1 h2 ⊢
        have q1 : n'.ra i = s.q i := mul_right_cancel₀ hdt.ne' h1
        have q2 : n'.ra j = s.q j := mul_right_cancel₀ hdt.ne' h2
        rw [hs, q1, q2]; ring
      · have hWpos : 0 < W := sumOver_pos _ _ hemp hW0
        have hs : n'.rStress i j = ((n.rStress i j +
            ((W + s.dt) * n'.ra i - s.q i * s.dt) / W * (((W + s.dt) * n'.ra j - s.q j * s.dt) / W))
              * W * 1 + s.q i * s.q j * s.dt) / (W + s.dt) - n'.ra i * n'.ra j := by
          simp only [hn', execute, hst, if_true, Filter.advance, hr, hold, hWpos, decide_true,
            reynoldsStress]; simp
        have u1 : ((W + s.dt) * n'.ra i - s.q i * s.dt) / W = n.ra i := by
          rw [mul_comm, fra]; field_simp; ring
        have u2 : ((W + s.dt) * n'.ra j - s.q j * s.dt) / W = n.ra j := by
          rw [mul_comm, fra]; field_simp; ring
        rw [hs, u1, u2, sub_add_cancel, div_mul_cancel₀ _ hC.ne']; ring
    · -- Favre stress
      intro i j
      have hf := h.fstress i j
      by_cases hemp : w.samples = []
      · have hW' : W = 0 := by rw [hW, hemp]; rfl
        have hR' : R = 0 := by rw [hR, hemp]; rfl
        obtain ⟨e0, e1, e2, e3, e4, e5⟩ := h.empty hemp
        simp only [e0, Bool.false_eq_true, if_false]
        have hs : n'.fStress i j = some 0 := by
          simp only [hn', execute, hst, if_true, Filter.advance, hr, hold, hW', lt_irrefl]
          try rw [hW'] at hr
          try simp only [hr]
          simp [(e5 i j).2.1]
        refine ⟨0, hs, ?_⟩
        have h1 := ffa i; have h2 := ffa j
        rw [hR'] at h1 h2
        simp only [zero_add, mul_zero] at h1 h2
        have q1 : n'.fa i = s.q i := mul_right_cancel₀ hRd.ne' h1
        have q2 : n'.fa j = s.q j := mul_right_cancel₀ hRd.ne' h2
        simp only [sumOver_append, hemp, sumOver_nil, zero_add, q1, q2]
      · have hWpos : 0 < W := sumOver_pos _ _ hemp hW0
        have hRpos : 0 < R := sumOver_pos _ _ hemp hR0
        have hRW : R = n.rhoRA * W := h.rho.symm
        have hro : ((W + s.dt) * n'.rhoRA - s.rho * s.dt) / W = n.rhoRA := by
          rw [mul_comm, frho, hRW]; field_simp; ring
        have hnr : 0 < n.rhoRA := by
          by_contra hcon
          push Not at hcon
          have := mul_nonpos_of_nonpos_of_nonneg hcon hWpos.le
          rw [h.rho] at this; linarith
        have hs : n'.fStress i j = (n.fStress i j).map fun v =>
            ((v + ((W + s.dt) * n'.rhoRA * n'.fa i - s.rho * s.q i * s.dt) / W / n.rhoRA *
              (((W + s.dt) * n'.rhoRA * n'.fa j - s.rho * s.q j * s.dt) / W / n.rhoRA)) *
              (n.rhoRA / n'.rhoRA) * W * 1 + s.rho / n'.rhoRA * s.q i * s.q j * s.dt) / (W + s.dt)
              - n'.fa i * n'.fa j := by
          have hro' := hro
          simp only [hn', execute, hst, if_true, Filter.advance, hr, hold, hWpos, decide_true,
            favreStress] at hro' ⊢
          simp only [Bool.false_eq_true, if_false] at hro' ⊢
          simp only [hro', hnr.ne', if_false]
        have hu : ∀ k, ((W + s.dt) * n'.rhoRA * n'.fa k - s.rho * s.q k * s.dt) / W / n.rhoRA
            = n.fa k := by
          intro k
          rw [mul_comm (W + s.dt), frho, mul_comm _ (n'.fa k), ffa, hRW]
          field_simp; ring
        rw [hs, hu i, hu j]
        by_cases hwr : w.wasReset = true
        · simp only [hwr, if_true] at hf ⊢
          rw [hf]; rfl
        · simp only [hwr, Bool.false_eq_true, if_false] at hf ⊢
          obtain ⟨v, hv, hv'⟩ := hf
          refine ⟨_, by rw [hv, Option.map_some], ?_⟩
          simp only [sumOver_append, ← hR, ← hv']
          rw [sub_add_cancel, ← frho]
          rw [hRW]
          field_simp
    · -- resolved stress
      intro i j
      by_cases hemp : w.samples = []
      · have hW' : W = 0 := by rw [hW, hemp]; rfl
        obtain ⟨e0, e1, e2, e3, e4, e5⟩ := h.empty hemp
        have hs : n'.resStress i j = 0 := by
          simp only [hn', execute, hst, if_true, Filter.advance, hr, hold, hW', lt_irrefl]
          try rw [hW'] at hr
          try simp only [hr]
          simp [(e5 i j).2.2]
        simp [hemp, e0, hs]
      · have hWpos : 0 < W := sumOver_pos _ _ hemp hW0
        have hs : n'.resStress i j =
            (n.resStress i j * W * 1 + s.rho * (s.q i * s.q j) * s.dt) / (W + s.dt) := by
          simp only [hn', execute, hst, if_true, Filter.advance, hr, hold, hWpos, decide_true,
            resolved]; simp
        have hh := h.restress i j
        simp only [sumOver_append, ← hW]
        rw [hs, div_mul_cancel₀ _ hC.ne', mul_one, hh]
        have htail : (w.samples ++ [s]).tail = w.samples.tail ++ [s] := by
          rw [List.tail_append_of_ne_nil hemp]
        by_cases hwr : w.wasReset = true
        · simp only [hwr, if_true, sumOver_append]; ring
        · simp only [hwr, Bool.false_eq_true, if_false, htail, sumOver_append]; ring
    · simp

theorem inv_run {ι : Type*} [IsStrictOrderedRing K] (start interval : K) (forced : Bool)
    (h : List (Sample ι K)) (hp : ∀ s ∈ h, 0 < s.dt ∧ 0 < s.rho) :
    Inv (window start interval forced h) (run .classic start interval (⟨0, forced⟩, Node.init) h).1
      (run .classic start interval (⟨0, forced⟩, Node.init) h).2 := by
  unfold window run
  induction h using List.reverseRecOn with
  | nil => exact inv_init forced
  | append_singleton h s ih =>
    simp only [List.foldl_append, List.foldl_cons, List.foldl_nil]
    exact inv_step start interval _ _ _ s (hp s (by simp)).1 (hp s (by simp)).2
      (ih (fun v hv => hp v (by simp [hv])))

end Nalu.Averaging
