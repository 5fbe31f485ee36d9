import Verif.Spec.Diagnostics
import Mathlib.Algebra.Order.BigOperators.Ring.Finset
import Mathlib.Tactic.Ring
import Mathlib.Tactic.Linarith
import Mathlib.Tactic.FieldSimp
import Mathlib.Tactic.NormNum
import Mathlib.Tactic.Positivity

namespace Nalu.Diag

/-- Running maximum. -/
theorem foldl_max_spec (l : List ℝ) : ∀ a : ℝ, (l.foldl max a = a ∨ l.foldl max a ∈ l) ∧ a ≤ l.foldl max a ∧ ∀ b ∈ l, b ≤ l.foldl max a := by
  induction l with
  | nil => intro a; simp
  | cons c l ih =>
    intro a
    obtain ⟨h1, h2, h3⟩ := ih (max a c)
    simp only [List.foldl_cons]
    refine ⟨?_, le_trans (le_max_left _ _) h2, ?_⟩
    · rcases h1 with h1 | h1
      · rcases max_choice a c with h | h
        · left; rw [h1, h]
        · right; rw [h1, h]; simp
      · right; exact List.mem_cons_of_mem _ h1
    · intro b hb
      rcases List.mem_cons.1 hb with rfl | hb
      · exact le_trans (le_max_right _ _) h2
      · exact h3 b hb

theorem top_foldl {l : List ℝ} (hl : ∀ a ∈ l, 0 ≤ a) : Top l (l.foldl max (-1)) := by
  obtain ⟨h1, h2, h3⟩ := foldl_max_spec l (-1)
  cases l with
  | nil => left; simp
  | cons c l =>
    right
    refine ⟨?_, h3⟩
    rcases h1 with h1 | h1
    · have := h3 c (by simp)
      have := hl c (by simp)
      linarith
    · exact h1

theorem Top.unique {l : List ℝ} {a b : ℝ} (ha : Top l a) (hb : Top l b) : a = b := by
  rcases ha with ⟨h, rfl⟩ | ⟨h1, h2⟩ <;> rcases hb with ⟨h', rfl⟩ | ⟨h3, h4⟩
  · rfl
  · simp [h] at h3
  · simp [h'] at h1
  · exact le_antisymm (h4 a h1) (h2 b h3)

theorem Top.perm {l l' : List ℝ} {a : ℝ} (h : l.Perm l') (ha : Top l a) : Top l' a := by
  rcases ha with ⟨rfl, rfl⟩ | ⟨h1, h2⟩
  · left; exact ⟨List.Perm.nil_eq h |>.symm, rfl⟩
  · right; exact ⟨h.subset h1, fun b hb => h2 b (h.symm.subset hb)⟩

theorem elem_fold (vals : List (ℝ × ℝ)) : ∀ a b : ℝ × ℝ,
    vals.foldl (fun (s : (ℝ × ℝ) × (ℝ × ℝ)) w => ((max s.1.1 w.1, max s.1.2 w.2), (max s.2.1 w.1, max s.2.2 w.2))) (a, b) =
      (((vals.map Prod.fst).foldl max a.1, (vals.map Prod.snd).foldl max a.2),
        ((vals.map Prod.fst).foldl max b.1, (vals.map Prod.snd).foldl max b.2)) := by
  induction vals with
  | nil => intro a b; rfl
  | cons v vals ih => intro a b; simp only [List.foldl_cons, List.map_cons, ih]

theorem elemLoop_eq (vals : List (ℝ × ℝ)) (a : Acc) : elemLoop vals a =
    ⟨((vals.map Prod.fst).foldl max a.maxCR.1, (vals.map Prod.snd).foldl max a.maxCR.2),
      a.field ++ [((vals.map Prod.fst).foldl max (-1), (vals.map Prod.snd).foldl max (-1))]⟩ := by
  simp only [elemLoop, elem_fold]

theorem proc_fold (elems : List (List (ℝ × ℝ))) : ∀ a : Acc,
    elems.foldl (fun a vals => elemLoop vals a) a =
    ⟨((elems.flatten.map Prod.fst).foldl max a.maxCR.1, (elems.flatten.map Prod.snd).foldl max a.maxCR.2),
      a.field ++ elems.map fun vals => ((vals.map Prod.fst).foldl max (-1), (vals.map Prod.snd).foldl max (-1))⟩ := by
  induction elems with
  | nil => intro a; simp
  | cons v elems ih =>
    intro a
    rw [List.foldl_cons, ih, elemLoop_eq]
    simp [List.foldl_append]

theorem foldl_max_start (l : List ℝ) (a b : ℝ) : l.foldl max (max a b) = max a (l.foldl max b) := by
  induction l generalizing b with
  | nil => rfl
  | cons c l ih => rw [List.foldl_cons, List.foldl_cons, max_assoc, ih]

theorem reduce_fold (others : List (List (List (ℝ × ℝ)))) : ∀ s : List (ℝ × ℝ),
    (others.map fun e => (procLoop e).maxCR).foldl (fun s w => (max s.1 w.1, max s.2 w.2))
      ((s.map Prod.fst).foldl max (-1), (s.map Prod.snd).foldl max (-1)) =
    (((s ++ (others.map List.flatten).flatten).map Prod.fst).foldl max (-1),
      ((s ++ (others.map List.flatten).flatten).map Prod.snd).foldl max (-1)) := by
  induction others with
  | nil => intro s; simp
  | cons e others ih =>
    intro s
    have h1 : ∀ (l m : List ℝ), max (l.foldl max (-1)) (m.foldl max (-1)) = (l ++ m).foldl max (-1) := by
      intro l m
      rw [List.foldl_append, ← foldl_max_start, max_eq_left (foldl_max_spec l (-1)).2.1]
    rw [List.map_cons, List.foldl_cons]
    have h2 : ((max ((s.map Prod.fst).foldl max (-1)) (procLoop e).maxCR.1, max ((s.map Prod.snd).foldl max (-1)) (procLoop e).maxCR.2) : ℝ × ℝ)
        = (((s ++ e.flatten).map Prod.fst).foldl max (-1), ((s ++ e.flatten).map Prod.snd).foldl max (-1)) := by
      rw [procLoop, proc_fold]
      simp only [h1, List.map_append]
    rw [h2, ih]
    simp

theorem realmMax_eq (p0 : List (List (ℝ × ℝ))) (others : List (List (List (ℝ × ℝ)))) : realmMax p0 others =
    ((((p0 :: others).map List.flatten).flatten.map Prod.fst).foldl max (-1),
      (((p0 :: others).map List.flatten).flatten.map Prod.snd).foldl max (-1)) := by
  rw [realmMax, reduceMax]
  have h : (procLoop p0).maxCR = ((p0.flatten.map Prod.fst).foldl max (-1), (p0.flatten.map Prod.snd).foldl max (-1)) := by
    rw [procLoop, proc_fold]
  rw [h, reduce_fold]
  simp

variable {nn nd : ℕ}

theorem dxSq_eq (e : Elem nn nd) (p : Fin nn × Fin nn) : e.dxSq p = len (e.edge p) ^ 2 := by
  rw [len, Real.sq_sqrt (Finset.sum_nonneg fun _ _ => sq_nonneg _), Elem.dxSq]
  exact Finset.sum_congr rfl fun j _ => by rw [Elem.edge]; ring

theorem udotx_eq (e : Elem nn nd) (p : Fin nn × Fin nn) : e.udotx p = ∑ j, e.mean p j * e.edge p j := by
  rw [Elem.udotx]
  exact Finset.sum_congr rfl fun j _ => by rw [Elem.edge, Elem.mean]; ring

theorem len_nonneg (a : Fin nd → ℝ) : 0 ≤ len a := Real.sqrt_nonneg _

theorem dot_le (a b : Fin nd → ℝ) : |∑ j, a j * b j| ≤ len a * len b := by
  rw [len, len, ← Real.sqrt_mul (Finset.sum_nonneg fun _ _ => sq_nonneg _)]
  apply Real.abs_le_sqrt
  exact Finset.sum_mul_sq_le_sq_mul_sq _ _ _

end Nalu.Diag
