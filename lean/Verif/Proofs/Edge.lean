import Verif.Model.Edge
import Mathlib.Tactic.Ring
import Mathlib.Algebra.Order.BigOperators.Group.Finset
import Mathlib.Tactic.Linarith
import Mathlib.Tactic.FieldSimp
import Mathlib.Tactic.NormNum

/-! Helper lemmas for the edge algorithms: assembly folds as sums. -/

set_option linter.unusedSectionVars false
set_option linter.unusedSimpArgs false

namespace Nalu.Edge

variable {K : Type*} [Field K] [LinearOrder K] [IsStrictOrderedRing K]

section assembly
variable {M ι E : Type*} [DecidableEq M] [Fintype ι]

theorem fold_rhs (l : List E) (dof : E → ι → M) (c : E → LocalSys ι K) (s : Sys M K) (i : M) :
    (l.foldl (fun s e => s.applyCoeff (dof e) (c e)) s).rhs i =
      s.rhs i + (l.map (fun e => ∑ a, if i = dof e a then (c e).rhs a else 0)).sum := by
  induction l generalizing s with
  | nil => simp
  | cons e l ih => rw [List.foldl_cons, ih]; simp [Sys.applyCoeff, add_assoc]

theorem fold_mat (l : List E) (dof : E → ι → M) (c : E → LocalSys ι K) (s : Sys M K) (i j : M) :
    (l.foldl (fun s e => s.applyCoeff (dof e) (c e)) s).mat i j =
      s.mat i j + (l.map (fun e => ∑ a, ∑ b,
        if i = dof e a ∧ j = dof e b then (c e).lhs a b else 0)).sum := by
  induction l generalizing s with
  | nil => simp
  | cons e l ih => rw [List.foldl_cons, ih]; simp [Sys.applyCoeff, add_assoc]

end assembly

theorem sum_list_comm {N E : Type*} [Fintype N] (l : List E) (f : N → E → K) :
    ∑ i, (l.map (fun e => f i e)).sum = (l.map (fun e => ∑ i, f i e)).sum := by
  induction l with
  | nil => simp
  | cons e l ih => simp [Finset.sum_add_distrib, ih]

theorem weighted_rhs {M ι E : Type*} [DecidableEq M] [Fintype M] [Fintype ι] (f : M → K) (l : List E)
    (dof : E → ι → M) (c : E → LocalSys ι K) (s : Sys M K) :
    ∑ m, f m * (l.foldl (fun s e => s.applyCoeff (dof e) (c e)) s).rhs m =
      ∑ m, f m * s.rhs m + (l.map (fun e => ∑ a, f (dof e a) * (c e).rhs a)).sum := by
  induction l generalizing s with
  | nil => simp
  | cons e l ih =>
    rw [List.foldl_cons, ih, List.map_cons, List.sum_cons, ← add_assoc]
    congr 1
    simp only [Sys.applyCoeff, mul_add, Finset.sum_add_distrib, Finset.mul_sum]
    congr 1
    rw [Finset.sum_comm]
    simp [mul_ite]

theorem weighted_mat {M ι E : Type*} [DecidableEq M] [Fintype M] [Fintype ι] (f : M → K) (l : List E)
    (dof : E → ι → M) (c : E → LocalSys ι K) (s : Sys M K) (j : M) :
    ∑ m, f m * (l.foldl (fun s e => s.applyCoeff (dof e) (c e)) s).mat m j =
      ∑ m, f m * s.mat m j +
        (l.map (fun e => ∑ b, if j = dof e b then ∑ a, f (dof e a) * (c e).lhs a b else 0)).sum := by
  induction l generalizing s with
  | nil => simp
  | cons e l ih =>
    rw [List.foldl_cons, ih, List.map_cons, List.sum_cons, ← add_assoc]
    congr 1
    simp only [Sys.applyCoeff, mul_add, Finset.sum_add_distrib, Finset.mul_sum]
    congr 1
    rw [Finset.sum_comm]
    have : ∀ a : ι, (∑ m, ∑ b, f m * if m = dof e a ∧ j = dof e b then (c e).lhs a b else 0) =
        ∑ b, if j = dof e b then f (dof e a) * (c e).lhs a b else 0 := by
      intro a
      rw [Finset.sum_comm]
      refine Finset.sum_congr rfl (fun b _ => ?_)
      by_cases h : j = dof e b <;> simp [h, mul_ite]
    rw [Finset.sum_congr rfl (fun a _ => this a), Finset.sum_comm]
    refine Finset.sum_congr rfl (fun b _ => ?_)
    by_cases h : j = dof e b <;> simp [h]

theorem fold_mulVec {M ι E : Type*} [DecidableEq M] [Fintype M] [Fintype ι] (l : List E)
    (dof : E → ι → M) (c : E → LocalSys ι K) (s : Sys M K) (i : M) (v : M → K) :
    ∑ j, (l.foldl (fun s e => s.applyCoeff (dof e) (c e)) s).mat i j * v j =
      ∑ j, s.mat i j * v j +
        (l.map (fun e => ∑ a, if i = dof e a then ∑ b, (c e).lhs a b * v (dof e b) else 0)).sum := by
  induction l generalizing s with
  | nil => simp
  | cons e l ih =>
    rw [List.foldl_cons, ih, List.map_cons, List.sum_cons, ← add_assoc]
    congr 1
    simp only [Sys.applyCoeff, add_mul, Finset.sum_add_distrib, Finset.sum_mul]
    congr 1
    rw [Finset.sum_comm]
    refine Finset.sum_congr rfl (fun a _ => ?_)
    rw [Finset.sum_comm]
    by_cases h : i = dof e a
    · simp [h, ite_mul]
    · simp [h]

/-- If each local residual is affine with the local matrix as its (negated) linear part, so is the
assembled one. -/
theorem fold_affine {M ι E : Type*} [DecidableEq M] [Fintype M] [Fintype ι] (l : List E)
    (dof : E → ι → M) (c c' : E → LocalSys ι K) (s s' : Sys M K) (v : M → K)
    (hc : ∀ e ∈ l, ∀ a, (c' e).rhs a = (c e).rhs a - ∑ b, (c e).lhs a b * v (dof e b))
    (i : M) (hs : s'.rhs i = s.rhs i - ∑ j, s.mat i j * v j) :
    (l.foldl (fun s e => s.applyCoeff (dof e) (c' e)) s').rhs i =
      (l.foldl (fun s e => s.applyCoeff (dof e) (c e)) s).rhs i -
        ∑ j, (l.foldl (fun s e => s.applyCoeff (dof e) (c e)) s).mat i j * v j := by
  rw [fold_rhs, fold_rhs, fold_mulVec, hs]
  have : (l.map (fun e => ∑ a, if i = dof e a then (c' e).rhs a else 0)).sum =
      (l.map (fun e => ∑ a, if i = dof e a then (c e).rhs a else 0)).sum -
      (l.map (fun e => ∑ a, if i = dof e a then ∑ b, (c e).lhs a b * v (dof e b) else 0)).sum := by
    clear hs
    induction l with
    | nil => simp
    | cons e l ih =>
      simp only [List.map_cons, List.sum_cons, ih (fun x hx => hc x (by simp [hx]))]
      have : (∑ a, if i = dof e a then (c' e).rhs a else 0) =
          (∑ a, if i = dof e a then (c e).rhs a else 0) -
          (∑ a, if i = dof e a then ∑ b, (c e).lhs a b * v (dof e b) else 0) := by
        rw [← Finset.sum_sub_distrib]
        refine Finset.sum_congr rfl (fun a _ => ?_)
        by_cases h : i = dof e a
        · simp only [h, if_true]; exact hc e (by simp) a
        · simp [h]
      rw [this]; ring
  rw [this]; ring

theorem sum_map_zero {E : Type*} (l : List E) (f : E → K) (h : ∀ e ∈ l, f e = 0) : (l.map f).sum = 0 := by
  induction l with
  | nil => rfl
  | cons e l ih => simp [h e (by simp), ih (fun x hx => h x (by simp [hx]))]

theorem sum_map_neg' {E : Type*} (l : List E) (f : E → K) :
    (l.map (fun e => - f e)).sum = - (l.map f).sum := by
  induction l with
  | nil => simp
  | cons e l ih => simp [ih]; ring

theorem list_sum_neg {E : Type*} (l : List E) (f : E → K) (h : ∀ e ∈ l, f e ≤ 0)
    (hx : ∃ e ∈ l, f e < 0) : (l.map f).sum < 0 := by
  induction l with
  | nil => simp at hx
  | cons e l ih =>
    rw [List.map_cons, List.sum_cons]
    have h1 := h e (by simp)
    have hle : (l.map f).sum ≤ 0 := by
      have : ∀ l : List E, (∀ e ∈ l, f e ≤ 0) → (l.map f).sum ≤ 0 := by
        intro l hl
        induction l with
        | nil => simp
        | cons a l ih2 =>
          rw [List.map_cons, List.sum_cons]
          have := hl a (by simp)
          have := ih2 (fun e he => hl e (by simp [he]))
          linarith
      exact this l (fun e he => h e (by simp [he]))
    obtain ⟨x, hx1, hx2⟩ := hx
    rcases List.mem_cons.1 hx1 with rfl | hx1
    · linarith
    · have := ih (fun e he => h e (by simp [he])) ⟨x, hx1, hx2⟩
      linarith

theorem asq_nonneg {n : ℕ} (a : Fin n → K) : 0 ≤ asq a :=
  Finset.sum_nonneg (fun j _ => mul_self_nonneg _)

end Nalu.Edge
