import Verif.Model.Overset
import Verif.Props.MeshMotion
import Verif.Props.PointSearch
import Mathlib.Tactic.Ring
import Mathlib.Tactic.Linarith
import Mathlib.Tactic.FieldSimp
import Mathlib.Tactic.FinCases
import Mathlib.Algebra.BigOperators.Group.List.Basic
import Mathlib.Data.Fintype.BigOperators
import Mathlib.Data.List.Sort

/-!
# Properties of overset meshes

* C114: a constraint row makes the constraint node equal to the interpolated donor value, whatever else was assembled and however the mesh
  is partitioned.
* C115: the donor is the nearest candidate; all ranks that share the node choose the same donor.
-/

namespace Nalu.Overset

open Finset

/-! ## C114 -/

section constraint
variable {K : Type*} [Field K] {N : Type*} [DecidableEq N] [Fintype N] {nDof : ℕ}

/-- Specification: `δ` satisfies equation `r` of the system. -/
def Solves (S : Sys K N nDof) (δ : N × Fin nDof → K) (r : N × Fin nDof) : Prop := ∑ c, S.lhs r c * δ c = S.rhs r

theorem zeroRows_foldl (infos : List (Info K N)) (s : Sys K N nDof) (r c : N × Fin nDof) :
    (infos.foldl Sys.zeroRows s).lhs r c = (if ∃ o ∈ infos, r.1 = o.node then 0 else s.lhs r c) ∧
      (infos.foldl Sys.zeroRows s).rhs r = (if ∃ o ∈ infos, r.1 = o.node then 0 else s.rhs r) := by
  induction infos generalizing s with
  | nil => simp
  | cons o l ih =>
    rw [List.foldl_cons]
    obtain ⟨h1, h2⟩ := ih (s.zeroRows o)
    rw [h1, h2]
    by_cases hl : ∃ o ∈ l, r.1 = o.node
    · have : ∃ o' ∈ o :: l, r.1 = o'.node := by
        obtain ⟨x, hx, h⟩ := hl; exact ⟨x, List.mem_cons_of_mem _ hx, h⟩
      simp only [hl, this, if_true, and_self]
    · by_cases ho : r.1 = o.node
      · have : ∃ o' ∈ o :: l, r.1 = o'.node := ⟨o, List.mem_cons_self, ho⟩
        rw [if_neg hl, if_neg hl, if_pos this, if_pos this]
        simp [Sys.zeroRows, ho]
      · have : ¬ ∃ o' ∈ o :: l, r.1 = o'.node := by
          rintro ⟨x, hx, h⟩
          rcases List.mem_cons.mp hx with rfl | hx
          · exact ho h
          · exact hl ⟨x, hx, h⟩
        rw [if_neg hl, if_neg hl, if_neg this, if_neg this]
        simp [Sys.zeroRows, ho]

theorem sum_pair (n : N) (j : Fin nDof) (v : K) (δ : N × Fin nDof → K) :
    ∑ c : N × Fin nDof, (if c.1 = n ∧ c.2 = j then v else 0) * δ c = v * δ (n, j) := by
  rw [Finset.sum_eq_single (n, j)]
  · simp
  · rintro ⟨a, b⟩ - h
    rw [if_neg, zero_mul]
    rintro ⟨rfl, rfl⟩; exact h rfl
  · intro h; exact absurd (Finset.mem_univ _) h

/-- What an assembled info adds to the product of its row with `δ`, and to the right-hand side. -/
theorem apply_row (s : Sys K N nDof) (o : Info K N) (scale : K) (q : N → Fin nDof → K) (δ : N × Fin nDof → K) (r : N × Fin nDof) :
    ∑ c, (s.apply o (o.locLhs scale) (o.locRhs scale q)).lhs r c * δ c =
        ∑ c, s.lhs r c * δ c + (if r.1 = o.node then scale * (δ (o.node, r.2) - ∑ k, o.shape k * δ (o.elem k, r.2)) else 0) ∧
      (s.apply o (o.locLhs scale) (o.locRhs scale q)).rhs r =
        s.rhs r + (if r.1 = o.node then -(scale * (q o.node r.2 - ∑ k, o.shape k * q (o.elem k) r.2)) else 0) := by
  constructor
  · simp only [Sys.apply, add_mul, Finset.sum_add_distrib]
    congr 1
    have h1 : ∀ c : N × Fin nDof, (∑ a, ∑ b, if r.1 = o.connected a ∧ c.1 = o.connected b then o.locLhs scale a r.2 b c.2 else 0)
        = if r.1 = o.node then (if c.1 = o.node ∧ c.2 = r.2 then scale else 0) +
            ∑ k, (if c.1 = o.elem k ∧ c.2 = r.2 then -(o.shape k * scale) else 0) else 0 := by
      intro c
      rw [Fin.sum_univ_succ, Finset.sum_eq_zero (s := Finset.univ) (f := fun a : Fin o.npe => ∑ b, if r.1 = o.connected a.succ ∧
        c.1 = o.connected b then o.locLhs scale a.succ r.2 b c.2 else 0), add_zero, Fin.sum_univ_succ]
      · simp only [Info.connected, Fin.cons_zero, Fin.cons_succ, Info.locLhs, true_and, Fin.cases_zero, Fin.cases_succ, one_mul]
        by_cases hr : r.1 = o.node
        · simp only [hr, true_and, if_true]
          congr 1
          · by_cases hc : c.1 = o.node <;> by_cases hi : r.2 = c.2 <;> simp [hc, hi, eq_comm]
          · refine Finset.sum_congr rfl fun k _ => ?_
            by_cases hc : c.1 = o.elem k <;> by_cases hi : r.2 = c.2 <;> simp [hc, hi, eq_comm]
        · simp [hr]
      · intro a _
        refine Finset.sum_eq_zero fun b _ => ?_
        simp [Info.locLhs, Fin.succ_ne_zero]
    simp only [h1]
    by_cases hr : r.1 = o.node
    · simp only [hr, if_true, add_mul, Finset.sum_add_distrib, Finset.sum_mul]
      rw [Finset.sum_comm, sum_pair]
      have : ∀ k, ∑ c : N × Fin nDof, (if c.1 = o.elem k ∧ c.2 = r.2 then -(o.shape k * scale) else 0) * δ c =
          -(o.shape k * scale) * δ (o.elem k, r.2) := fun k => sum_pair _ _ _ _
      simp only [this]
      rw [mul_sub, Finset.mul_sum, sub_eq_add_neg, ← Finset.sum_neg_distrib]
      congr 1
      exact Finset.sum_congr rfl fun k _ => by ring
    · simp [hr]
  · simp only [Sys.apply]
    congr 1
    rw [Fin.sum_univ_succ, Finset.sum_eq_zero (s := Finset.univ), add_zero]
    · simp only [Info.connected, Fin.cons_zero, Info.locRhs, if_true, Info.interp]
      split_ifs with h
      · rw [← h]; ring
      · rfl
    · intro a _
      simp [Info.locRhs, Fin.succ_ne_zero]

theorem apply_foldl (scale : Info K N → K) (q : N → Fin nDof → K) (δ : N × Fin nDof → K) (r : N × Fin nDof) (l : List (Info K N))
    (s : Sys K N nDof) :
    ∑ c, (l.foldl (fun s o => s.apply o (o.locLhs (scale o)) (o.locRhs (scale o) q)) s).lhs r c * δ c =
        ∑ c, s.lhs r c * δ c + (l.map fun o => if r.1 = o.node then
          scale o * (δ (o.node, r.2) - ∑ k, o.shape k * δ (o.elem k, r.2)) else 0).sum ∧
      (l.foldl (fun s o => s.apply o (o.locLhs (scale o)) (o.locRhs (scale o) q)) s).rhs r =
        s.rhs r + (l.map fun o => if r.1 = o.node then -(scale o * (q o.node r.2 - ∑ k, o.shape k * q (o.elem k) r.2)) else 0).sum := by
  induction l generalizing s with
  | nil => simp
  | cons o l ih =>
    rw [List.foldl_cons, (ih _).1, (ih _).2, (apply_row s o (scale o) q δ r).1, (apply_row s o (scale o) q δ r).2]
    simp only [List.map_cons, List.sum_cons]
    exact ⟨by ring, by ring⟩

/-- A sum over a list in which one entry is selected. -/
theorem sum_select {α : Type*} (l : List α) (key : α → N) (hnd : (l.map key).Nodup) (o : α) (ho : o ∈ l) (f : α → K) :
    (l.map fun x => if key o = key x then f x else 0).sum = f o := by
  induction l with
  | nil => simp at ho
  | cons x l ih =>
    rw [List.map_cons, List.nodup_cons] at hnd
    rw [List.map_cons, List.sum_cons]
    rcases List.mem_cons.mp ho with rfl | ho
    · rw [if_pos rfl, List.sum_eq_zero, add_zero]
      intro v hv
      obtain ⟨y, hy, rfl⟩ := List.mem_map.mp hv
      rw [if_neg]
      intro h; exact hnd.1 (h ▸ List.mem_map_of_mem hy)
    · rw [if_neg, zero_add, ih hnd.2 ho]
      intro h; exact hnd.1 (h ▸ List.mem_map_of_mem ho)

variable {R : Type*} [Fintype R] [DecidableEq R]

/-- The set-up of the constraints over all ranks: a node is listed at most once on a rank; a rank that has contributions to the rows of a
constraint node lists the node, as does its owner (`create_overset_info_vec` takes owned and shared nodes). -/
structure Listed (owner : N → R) (infos : R → List (Info K N)) (s : R → Sys K N nDof) : Prop where
  once : ∀ k, ((infos k).map (·.node)).Nodup
  shared : ∀ k o, o ∈ infos k → ∀ k', (∃ o' ∈ infos k', o'.node = o.node) ∨
    ∀ i, (∀ c, (s k').lhs (o.node, i) c = 0) ∧ (s k').rhs (o.node, i) = 0

/-- The rows of a constraint node after assembly on all ranks. -/
theorem global_row (scale : Info K N → K) (q : N → Fin nDof → K) (owner : N → R) (infos : R → List (Info K N))
    (s : R → Sys K N nDof) (h : Listed owner infos s) (o : Info K N) (ho : o ∈ infos (owner o.node)) (i : Fin nDof)
    (δ : N × Fin nDof → K) :
    let S := globalSys fun k => (s k).constrain scale q (fun n => decide (owner n = k)) (infos k)
    ∑ c, S.lhs (o.node, i) c * δ c = scale o * (δ (o.node, i) - ∑ k, o.shape k * δ (o.elem k, i)) ∧
      S.rhs (o.node, i) = -(scale o * (q o.node i - ∑ k, o.shape k * q (o.elem k) i)) := by
  have key : ∀ k : R, (∀ δ : N × Fin nDof → K,
      ∑ c, ((s k).constrain scale q (fun n => decide (owner n = k)) (infos k)).lhs (o.node, i) c * δ c =
        (if k = owner o.node then scale o * (δ (o.node, i) - ∑ k, o.shape k * δ (o.elem k, i)) else 0)) ∧
      ((s k).constrain scale q (fun n => decide (owner n = k)) (infos k)).rhs (o.node, i) =
        (if k = owner o.node then -(scale o * (q o.node i - ∑ k, o.shape k * q (o.elem k) i)) else 0) := by
    intro k
    have hz : ∀ c, ((infos k).foldl Sys.zeroRows (s k)).lhs (o.node, i) c = 0 ∧
        ((infos k).foldl Sys.zeroRows (s k)).rhs (o.node, i) = 0 := by
      intro c
      obtain ⟨h1, h2⟩ := zeroRows_foldl (infos k) (s k) (o.node, i) c
      rw [h1, h2]
      rcases h.shared _ o ho k with ⟨o', ho', e⟩ | h0
      · have : ∃ x ∈ infos k, (o.node, i).1 = x.node := ⟨o', ho', e.symm⟩
        simp only [this, if_true, and_self]
      · simp [(h0 i).1 c, (h0 i).2]
    have hz2 : ((infos k).foldl Sys.zeroRows (s k)).rhs (o.node, i) = 0 := (hz (o.node, i)).2
    by_cases hk : k = owner o.node
    · subst hk
      have hmem : o ∈ (infos (owner o.node)).filter fun x => decide (owner x.node = owner o.node) :=
        List.mem_filter.mpr ⟨ho, by simp⟩
      have hnd : (((infos (owner o.node)).filter fun x => decide (owner x.node = owner o.node)).map (·.node)).Nodup :=
        (h.once _).sublist (List.Sublist.map _ List.filter_sublist)
      refine ⟨fun δ => ?_, ?_⟩
      · rw [Sys.constrain, (apply_foldl scale q δ (o.node, i) _ _).1, if_pos rfl]
        rw [Finset.sum_eq_zero (fun c _ => by rw [(hz c).1, zero_mul]), zero_add]
        exact sum_select _ _ hnd o hmem fun x => scale x * (δ (x.node, i) - ∑ k, x.shape k * δ (x.elem k, i))
      · rw [Sys.constrain, (apply_foldl scale q (fun _ => 0) (o.node, i) _ _).2, if_pos rfl, hz2, zero_add]
        exact sum_select _ _ hnd o hmem fun x => -(scale x * (q x.node i - ∑ k, x.shape k * q (x.elem k) i))
    · have hne : ∀ x ∈ (infos k).filter fun x => decide (owner x.node = k), (o.node, i).1 ≠ x.node := by
        intro x hx e
        have := (List.mem_filter.mp hx).2
        simp only [decide_eq_true_eq] at this
        apply hk; rw [← this, ← e]
      refine ⟨fun δ => ?_, ?_⟩
      · rw [Sys.constrain, (apply_foldl scale q δ (o.node, i) _ _).1, if_neg hk]
        rw [Finset.sum_eq_zero (fun c _ => by rw [(hz c).1, zero_mul]), zero_add]
        apply List.sum_eq_zero
        intro v hv
        obtain ⟨y, hy, rfl⟩ := List.mem_map.mp hv
        rw [if_neg (hne y hy)]
      · rw [Sys.constrain, (apply_foldl scale q (fun _ => 0) (o.node, i) _ _).2, if_neg hk, hz2, zero_add]
        apply List.sum_eq_zero
        intro v hv
        obtain ⟨y, hy, rfl⟩ := List.mem_map.mp hv
        rw [if_neg (hne y hy)]
  intro S
  constructor
  · simp only [S, globalSys, Finset.sum_mul]
    rw [Finset.sum_comm]
    simp only [(key _).1]
    simp
  · simp only [S, globalSys, (key _).2]
    simp

/-- **C114** Whatever the interior and boundary algorithms assembled on whatever ranks, the equations of a constraint node in the system
that is solved say: the updated value at the node is the updated donor field at the point, component by component. -/
theorem c114_constraint (scale : Info K N → K) (q : N → Fin nDof → K) (owner : N → R) (infos : R → List (Info K N))
    (s : R → Sys K N nDof) (h : Listed owner infos s) (o : Info K N) (ho : o ∈ infos (owner o.node)) (hs : scale o ≠ 0)
    (i : Fin nDof) (δ : N × Fin nDof → K) :
    Solves (globalSys fun k => (s k).constrain scale q (fun n => decide (owner n = k)) (infos k)) δ (o.node, i) ↔
      q o.node i + δ (o.node, i) = ∑ k, o.shape k * (q (o.elem k) i + δ (o.elem k, i)) := by
  obtain ⟨h1, h2⟩ := global_row scale q owner infos s h o ho i δ
  rw [Solves, h1, h2, ← mul_neg, mul_right_inj' hs]
  simp only [mul_add, Finset.sum_add_distrib]
  constructor <;> intro e <;> linear_combination e

/-- **C114** The equations of all other nodes are left alone. -/
theorem c114_others (scale : Info K N → K) (q : N → Fin nDof → K) (owner : N → R) (infos : R → List (Info K N))
    (s : R → Sys K N nDof) (m : N) (hm : ∀ k, ∀ o ∈ infos k, o.node ≠ m) (i : Fin nDof) (δ : N × Fin nDof → K) :
    Solves (globalSys fun k => (s k).constrain scale q (fun n => decide (owner n = k)) (infos k)) δ (m, i) ↔
      Solves (globalSys s) δ (m, i) := by
  have hne : ∀ k, ∀ x ∈ (infos k).filter fun x => decide (owner x.node = k), (m, i).1 ≠ x.node := fun k x hx e =>
    hm k x (List.mem_filter.mp hx).1 e.symm
  have hz : ∀ k, ¬ ∃ o ∈ infos k, (m, i).1 = o.node := fun k ⟨o, ho, e⟩ => hm k o ho e.symm
  have key : ∀ k, (∑ c, ((s k).constrain scale q (fun n => decide (owner n = k)) (infos k)).lhs (m, i) c * δ c =
      ∑ c, (s k).lhs (m, i) c * δ c) ∧
      ((s k).constrain scale q (fun n => decide (owner n = k)) (infos k)).rhs (m, i) = (s k).rhs (m, i) := by
    intro k
    constructor
    · rw [Sys.constrain, (apply_foldl scale q δ (m, i) _ _).1]
      rw [List.sum_eq_zero, add_zero]
      · refine Finset.sum_congr rfl fun c _ => ?_
        rw [(zeroRows_foldl (infos k) (s k) (m, i) c).1, if_neg (hz k)]
      · intro v hv
        obtain ⟨y, hy, rfl⟩ := List.mem_map.mp hv
        rw [if_neg (hne k y hy)]
    · rw [Sys.constrain, (apply_foldl scale q δ (m, i) _ _).2]
      rw [List.sum_eq_zero, add_zero, (zeroRows_foldl (infos k) (s k) (m, i) (m, i)).2, if_neg (hz k)]
      intro v hv
      obtain ⟨y, hy, rfl⟩ := List.mem_map.mp hv
      rw [if_neg (hne k y hy)]
  simp only [Solves, globalSys, Finset.sum_mul]
  rw [Finset.sum_comm, Finset.sum_comm (s := Finset.univ) (t := Finset.univ) (f := fun c k => (s k).lhs (m, i) c * δ c)]
  simp only [(key _).1, (key _).2]

end constraint

section scaling
variable {K : Type*} [Field K] [LinearOrder K] [IsStrictOrderedRing K] {N : Type*} [DecidableEq N]

/-- **C114** The scaling of the constraint never vanishes: with density scaling on (`1`) or off (`0`), for positive densities and dual
volumes it is positive. -/
theorem c114_scaling (root : K → K) (hroot : ∀ x, 0 < x → 0 < root x) (f : K) (hf : f = 0 ∨ f = 1) (rho dnv : N → K)
    (hr : ∀ n, 0 < rho n) (hd : ∀ n, 0 < dnv n) (o : Info K N) (hn : 0 < o.npe) : 0 < systemScaling root f rho dnv o := by
  have hm : ∀ g : N → K, (∀ n, 0 < g n) → 0 < elemMean fun k => g (o.elem k) := by
    intro g hg
    have : Nonempty (Fin o.npe) := ⟨⟨0, hn⟩⟩
    exact div_pos (Finset.sum_pos (fun k _ => hg _) Finset.univ_nonempty) (by exact_mod_cast hn)
  rcases hf with rfl | rfl
  · simp [systemScaling]
  · simp only [systemScaling, sub_self, add_zero, one_mul]
    exact div_pos (hroot _ (hm _ hd)) (hm _ hr)

/-- **C114** Where a hexahedron gives the node exactly (`isInElement` of C44), a field that is affine in space satisfies the constraint
already: the right-hand side of the row is zero. -/
theorem c114_affine_hex {nDof : ℕ} (x : N → Fin 3 → K) (node : N) (elem : Fin 8 → N) (xi : Fin 3 → K)
    (hx : ∀ j, ∑ k, Verif.Shape.hexGeneralShape xi k * x (elem k) j = x node j) (c0 : Fin nDof → K) (g : Fin nDof → Fin 3 → K)
    (scale : K) (a : Fin 9) (i : Fin nDof) :
    (⟨node, 8, elem, Verif.Shape.hexGeneralShape xi⟩ : Info K N).locRhs scale (fun n i => c0 i + ∑ j, g i j * x n j) a i = 0 := by
  have h1 : ∑ k, Verif.Shape.hexGeneralShape xi k = (1 : K) := Verif.Shape.c40_partition_of_unity.2.1 xi
  simp only [Info.locRhs, Info.interp]
  split_ifs
  · have : ∑ k, Verif.Shape.hexGeneralShape xi k * (c0 i + ∑ j, g i j * x (elem k) j) = c0 i + ∑ j, g i j * x node j := by
      simp only [mul_add, Finset.sum_add_distrib, ← Finset.sum_mul, h1, one_mul]
      congr 1
      simp only [Finset.mul_sum, ← hx]
      rw [Finset.sum_comm]
      exact Finset.sum_congr rfl fun j _ => Finset.sum_congr rfl fun k _ => by ring
    rw [this]; simp
  · rfl

end scaling

/-- The hypotheses are met: two ranks share node 0, which is constrained to the middle of the edge 1–2; rank 0 owns it. -/
def exInfo : Info ℚ (Fin 4) := ⟨0, 2, ![1, 2], ![1/2, 1/2]⟩

example : Listed (nDof := 1) (fun _ : Fin 4 => (0 : Fin 2)) (fun _ => [exInfo])
    (fun _ => ⟨fun _ _ => 7, fun _ => 3⟩) where
  once := fun k => by simp
  shared := fun k o ho k' => Or.inl ⟨exInfo, by simp, by simp at ho; rw [ho]⟩

/-! ## C115 -/

section search
variable {K : Type*} [Field K] [LinearOrder K] [IsStrictOrderedRing K] {I : Type*}

/-- Specification: `b` is the first candidate of least distance among those closer than `big`. -/
def FirstNearest (big : K) (d : ℕ → K) (cands : List ℕ) (b : ℕ) : Prop :=
  d b < big ∧ ∃ pre post, cands = pre ++ b :: post ∧ (∀ c ∈ pre, d b < d c) ∧ ∀ c ∈ post, d b ≤ d c

theorem scan_donor (big : K) (search : ℕ → K × I) (l : List ℕ) :
    let s := l.foldl (Donor.consider search) ⟨big, none⟩
    (s.elem = none ∧ s.best = big ∧ ∀ c ∈ l, big ≤ (search c).1) ∨
      ∃ b, s.elem = some (b, (search b).2) ∧ s.best = (search b).1 ∧ FirstNearest big (fun c => (search c).1) l b := by
  induction l using List.reverseRecOn with
  | nil => left; simp
  | append_singleton l a ih =>
    simp only [List.foldl_append, List.foldl_cons, List.foldl_nil]
    generalize l.foldl (Donor.consider search) ⟨big, none⟩ = s at ih
    simp only [Donor.consider]
    split_ifs with h
    · right
      refine ⟨a, rfl, rfl, ?_⟩
      rcases ih with ⟨-, hb, hl⟩ | ⟨b, -, hb, hf⟩
      · rw [hb] at h
        exact ⟨h, l, [], rfl, fun c hc => lt_of_lt_of_le h (hl c hc), by simp⟩
      · rw [hb] at h
        obtain ⟨h0, pre, post, rfl, hp, hq⟩ := hf
        refine ⟨h.trans h0, pre ++ b :: post, [], rfl, ?_, by simp⟩
        intro c hc
        rcases List.mem_append.mp hc with hc | hc
        · exact h.trans (hp c hc)
        · rcases List.mem_cons.mp hc with rfl | hc
          · exact h
          · exact lt_of_lt_of_le h (hq c hc)
    · push Not at h
      rcases ih with ⟨he, hb, hl⟩ | ⟨b, he, hb, hf⟩
      · left
        refine ⟨he, hb, ?_⟩
        intro c hc
        rcases List.mem_append.mp hc with hc | hc
        · exact hl c hc
        · simp at hc; subst hc; rwa [← hb]
      · right
        obtain ⟨h0, pre, post, rfl, hp, hq⟩ := hf
        refine ⟨b, he, hb, h0, pre, post ++ [a], by simp, hp, ?_⟩
        intro c hc
        rcases List.mem_append.mp hc with hc | hc
        · exact hq c hc
        · simp at hc; subst hc; rw [hb] at h; exact h

/-- Candidates of point `p` of rank `rank` in the result of the coarse search. -/
def candidates (rank p : ℕ) (pairs : List (Key × Key)) : List ℕ := (pairs.filter fun kb => kb.1 = (p, rank)).map fun kb => kb.2.1

/-- **C115** A constraint node takes the first candidate of least normalised distance, with its parametric coordinates; it stays without
a donor exactly if no candidate is closer than the initial value. -/
theorem c115_nearest (big : K) (search : ℕ → K × I) (rank p : ℕ) (pairs : List (Key × Key)) :
    (∀ b xi, (donor big search rank p pairs).elem = some (b, xi) ↔
      FirstNearest big (fun c => (search c).1) (candidates rank p pairs) b ∧ xi = (search b).2) ∧
    ((donor big search rank p pairs).elem = none ↔ ∀ c ∈ candidates rank p pairs, big ≤ (search c).1) := by
  have huniq : ∀ (l : List ℕ) (d : ℕ → K) b b', FirstNearest big d l b → FirstNearest big d l b' → b = b' := by
    rintro l d b b' ⟨-, pre, post, rfl, h1, h2⟩ ⟨-, pre', post', he, h1', h2'⟩
    by_contra hne
    have hb' : b' ∈ pre ++ b :: post := by rw [he]; simp
    have hb : b ∈ pre' ++ b' :: post' := by rw [← he]; simp
    have l1 : b' ∈ pre ∨ b' ∈ post := by
      rcases List.mem_append.mp hb' with h | h
      · exact Or.inl h
      · rcases List.mem_cons.mp h with h | h
        · exact absurd h.symm hne
        · exact Or.inr h
    have l2 : b ∈ pre' ∨ b ∈ post' := by
      rcases List.mem_append.mp hb with h | h
      · exact Or.inl h
      · rcases List.mem_cons.mp h with h | h
        · exact absurd h hne
        · exact Or.inr h
    -- equal distances
    have hle : d b ≤ d b' := l1.elim (fun h => (h1 _ h).le) (h2 _)
    have hle' : d b' ≤ d b := l2.elim (fun h => (h1' _ h).le) (h2' _)
    have hp : b' ∉ pre := fun h => absurd (h1 _ h) (not_lt.mpr hle')
    have hp' : b ∉ pre' := fun h => absurd (h1' _ h) (not_lt.mpr hle)
    rcases List.append_eq_append_iff.mp he with ⟨a', rfl, h⟩ | ⟨c', rfl, h⟩
    · cases a' with
      | nil => simp at h; exact hne h.1
      | cons y a' =>
        simp only [List.cons_append, List.cons.injEq] at h
        exact hp' (by rw [← h.1]; simp)
    · cases c' with
      | nil => simp at h; exact hne h.1.symm
      | cons y a' =>
        simp only [List.cons_append, List.cons.injEq] at h
        exact hp (by rw [← h.1]; simp)
  have hs := scan_donor big search (candidates rank p pairs)
  change ((donor big search rank p pairs).elem = none ∧ (donor big search rank p pairs).best = big ∧ _) ∨
    ∃ b, (donor big search rank p pairs).elem = _ ∧ (donor big search rank p pairs).best = _ ∧ _ at hs
  rcases hs with ⟨h1, -, h3⟩ | ⟨b, h1, -, h3⟩
  · refine ⟨fun b xi => ?_, ?_⟩
    · rw [h1]
      constructor
      · intro h; simp at h
      · rintro ⟨⟨h0, pre, post, he, -⟩, -⟩
        exact absurd (h3 b (by rw [he]; simp)) (not_le.mpr h0)
    · simp only [h1, true_iff]; exact h3
  · refine ⟨fun b' xi => ?_, ?_⟩
    · rw [h1]
      constructor
      · intro h
        simp only [Option.some.injEq, Prod.mk.injEq] at h
        obtain ⟨rfl, rfl⟩ := h
        exact ⟨h3, rfl⟩
      · rintro ⟨h, rfl⟩
        rw [huniq _ _ _ _ h h3]
    · rw [h1]
      constructor
      · intro h; simp at h
      · intro h
        obtain ⟨h0, pre, post, he, -⟩ := h3
        exact absurd (h b (by rw [he]; simp)) (not_le.mpr h0)

/-- **C115** If some candidate contains the node (normalised distance at most one), the chosen one contains it too. -/
theorem c115_inside_wins (big : K) (hb : 1 < big) (search : ℕ → K × I) (rank p : ℕ) (pairs : List (Key × Key)) (c : ℕ)
    (hc : c ∈ candidates rank p pairs) (h1 : (search c).1 ≤ 1) :
    ∃ b, (donor big search rank p pairs).elem = some (b, (search b).2) ∧ (search b).1 ≤ 1 ∧ b ∈ candidates rank p pairs := by
  cases h : (donor big search rank p pairs).elem with
  | none =>
    have := ((c115_nearest big search rank p pairs).2.mp h) c hc
    exact absurd (this.trans h1) (not_le.mpr hb)
  | some v =>
    obtain ⟨b, xi⟩ := v
    obtain ⟨⟨h0, pre, post, he, hp, hq⟩, rfl⟩ := ((c115_nearest big search rank p pairs).1 b xi).mp h
    refine ⟨b, rfl, ?_, by rw [he]; simp⟩
    rw [he] at hc
    rcases List.mem_append.mp hc with hc | hc
    · exact (hp c hc).le.trans h1
    · rcases List.mem_cons.mp hc with rfl | hc
      · exact h1
      · exact (hq c hc).trans h1

/-- Comparison of pairs of keys by `std::sort`. -/
def pairLt (a b : Key × Key) : Prop :=
  a.1.1 < b.1.1 ∨ a.1.1 = b.1.1 ∧ (a.1.2 < b.1.2 ∨ a.1.2 = b.1.2 ∧ (a.2.1 < b.2.1 ∨ a.2.1 = b.2.1 ∧ a.2.2 < b.2.2))

/-- **C115** Ranks that share a node choose the same donor: the coarse search finds the same boxes for the node's copy on either rank, and
both lists are sorted. -/
theorem c115_ranks_agree (big : K) (search : ℕ → K × I) (r1 r2 p : ℕ) (L1 L2 : List (Key × Key)) (h1 : L1.Pairwise pairLt)
    (h2 : L2.Pairwise pairLt) (hsame : ∀ b : Key, ((p, r1), b) ∈ L1 ↔ ((p, r2), b) ∈ L2) :
    donor big search r1 p L1 = donor big search r2 p L2 := by
  let boxes : ℕ → List (Key × Key) → List Key := fun r L => (L.filter fun kb => kb.1 = (p, r)).map (·.2)
  have hmem : ∀ r L b, b ∈ boxes r L ↔ ((p, r), b) ∈ L := by
    intro r L b
    simp only [boxes, List.mem_map, List.mem_filter, decide_eq_true_eq]
    constructor
    · rintro ⟨⟨k, b'⟩, ⟨hL, hk⟩, rfl⟩
      simp only at hk; rwa [← hk]
    · intro h; exact ⟨_, ⟨h, rfl⟩, rfl⟩
  let lt : Key → Key → Prop := fun a b => a.1 < b.1 ∨ a.1 = b.1 ∧ a.2 < b.2
  have hsorted : ∀ r L, L.Pairwise pairLt → (boxes r L).Pairwise lt := by
    intro r L h
    refine List.pairwise_map.mpr ?_
    have := h.sublist (List.filter_sublist (p := fun kb => decide (kb.1 = (p, r))))
    refine List.Pairwise.imp_of_mem ?_ this
    intro a b ha hb hab
    have ha' := of_decide_eq_true (List.mem_filter.mp ha).2
    have hb' := of_decide_eq_true (List.mem_filter.mp hb).2
    rw [pairLt, ha', hb'] at hab
    simpa [lt] using hab
  have hasymm : ∀ a b, lt a b → lt b a → False := by
    rintro ⟨a1, a2⟩ ⟨b1, b2⟩ h h'
    simp only [lt] at h h'
    omega
  have heq : boxes r1 L1 = boxes r2 L2 := by
    have hnd : ∀ l : List Key, l.Pairwise lt → l.Nodup := fun l h => h.imp fun {a b} hab e => by
      subst e; exact hasymm _ _ hab hab
    have hperm : (boxes r1 L1).Perm (boxes r2 L2) := by
      rw [List.perm_ext_iff_of_nodup (hnd _ (hsorted _ _ h1)) (hnd _ (hsorted _ _ h2))]
      intro b; rw [hmem, hmem]; exact hsame b
    exact hperm.eq_of_pairwise (fun a b _ _ h h' => (hasymm _ _ h h').elim) (hsorted _ _ h1) (hsorted _ _ h2)
  have : ∀ r L, (L.filter fun kb => decide (kb.1 = (p, r))).map (fun kb => kb.2.1) = (boxes r L).map (·.1) := by
    intro r L; simp [boxes, List.map_map]
  rw [donor, donor, this, this, heq]

/-- **C115** (limit) The clipping of coordinates that lie outside the donor, an option of its own, only happens if detailed output is on:
turning output on changes the donor coordinates and with them the solution. -/
theorem c115_output_changes_donor :
    ∃ s : Donor ℚ (Fin 1 → ℚ), (afterSearch false true (1/1000000) s).elem.map (fun b => b.2 0) ≠
      (afterSearch true true (1/1000000) s).elem.map (fun b => b.2 0) := by
  refine ⟨⟨2, some (5, fun _ => 2)⟩, ?_⟩
  norm_num [afterSearch, clip]

/-- **C115** Clipped coordinates lie in the reference element up to the tolerance, and coordinates within it are not changed. -/
theorem c115_clip {nd : ℕ} {tol : K} (ht : 0 ≤ tol) (xi : Fin nd → K) (j : Fin nd) :
    |clip tol xi j| ≤ 1 + tol ∧ (|xi j| ≤ 1 + tol → clip tol xi j = xi j) := by
  simp only [clip, abs_le]
  constructor
  · split_ifs <;> constructor <;> linarith
  · rintro ⟨h1, h2⟩
    rw [if_neg (not_lt.mpr h2), if_neg (not_lt.mpr (by linarith))]

example : (donor (10 : ℚ) (fun b => (if b = 7 then 1/2 else 3, b)) 0 4 [((4, 0), (6, 1)), ((4, 0), (7, 0)), ((4, 1), (7, 0))]).elem
    = some (7, 7) := by decide +kernel

end search

end Nalu.Overset
