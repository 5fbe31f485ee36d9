import Verif.Model.Png
import Verif.Proofs.LegacyElem
import Mathlib.Tactic.NormNum
import Mathlib.Tactic.FinCases
import Mathlib.Tactic.Module
import Mathlib.LinearAlgebra.Matrix.NonsingularInverse
import Mathlib.Data.Rat.Defs

/-!
# C244, C245, C250: the projected nodal gradient system (element arrays, solve loop, velocity gradient, boundary data)
-/

set_option linter.unusedSectionVars false

namespace Nalu.Png
open Nalu.Edge Nalu.Kernel Nalu.Legacy

variable {K : Type*} [Field K] [LinearOrder K] [IsStrictOrderedRing K]
variable {nn nip nscv nd : ℕ}

/-! ## C244: the local system -/

/-- Specification data: one element with its integration points. -/
structure Elt (nn nip nscv nd : ℕ) (K : Type*) where
  /-- shape function values at the sub-control-surface points -/
  shape : Fin nip → Fin nn → K
  area : Fin nip → Fin nd → K
  il : Fin nip → Fin nn
  ir : Fin nip → Fin nn
  /-- shape function values at the sub-control-volume points -/
  shapeV : Fin nscv → Fin nn → K
  vol : Fin nscv → K
  near : Fin nscv → Fin nn

/-- The flat output of the master elements holds the element (row-major). -/
structure Ws.Holds (w : Ws K) (e : Elt nn nip nscv nd K) : Prop where
  shape : ∀ (ip : Fin nip) (ic : Fin nn), w.shape (ip * nn + ic) = e.shape ip ic
  areav : ∀ (ip : Fin nip) (j : Fin nd), w.areav (ip * nd + j) = e.area ip j
  il : ∀ ip : Fin nip, w.lrscv (2 * ip) = e.il ip
  ir : ∀ ip : Fin nip, w.lrscv (2 * ip + 1) = e.ir ip
  shapeV : ∀ (ip : Fin nscv) (ic : Fin nn), w.shapeV (ip * nn + ic) = e.shapeV ip ic
  vol : ∀ ip : Fin nscv, w.scv ip = e.vol ip
  near : ∀ ip : Fin nscv, w.ipNode ip = e.near ip

theorem loop_rhs {n : ℕ} (f : Fin n → Flat K → Flat K) (p : ℕ) (c : Fin n → K) (h : ∀ k s, (f k s).rhs p = s.rhs p + c k) (s : Flat K) :
    (loop n f s).rhs p = s.rhs p + ∑ k, c k := by
  rw [loop, ← List.sum_ofFn, List.ofFn_eq_map]
  generalize List.finRange n = l
  induction l generalizing s with
  | nil => simp
  | cons x l ih => rw [List.foldl_cons, ih, h, List.map_cons, List.sum_cons, add_assoc]

theorem loop_lhs {n : ℕ} (f : Fin n → Flat K → Flat K) (p : ℕ) (c : Fin n → K) (h : ∀ k s, (f k s).lhs p = s.lhs p + c k) (s : Flat K) :
    (loop n f s).lhs p = s.lhs p + ∑ k, c k := by
  rw [loop, ← List.sum_ofFn, List.ofFn_eq_map]
  generalize List.finRange n = l
  induction l generalizing s with
  | nil => simp
  | cons x l ih => rw [List.foldl_cons, ih, h, List.map_cons, List.sum_cons, add_assoc]

theorem bumpR_rhs (s : Flat K) (p : ℕ) (v : K) (k : ℕ) : (s.bumpR p v).rhs k = s.rhs k + if k = p then v else 0 := by
  simp only [Flat.bumpR]; split <;> simp
theorem bumpL_lhs (s : Flat K) (p : ℕ) (v : K) (k : ℕ) : (s.bumpL p v).lhs k = s.lhs k + if k = p then v else 0 := by
  simp only [Flat.bumpL]; split <;> simp

theorem sum_row (n m : ℕ) (i : Fin nd) (c : Fin nd → K) : (∑ k : Fin nd, if n * nd + i = m * nd + k then c k else 0) = if m = n then c i else 0 := by
  by_cases h : m = n
  · subst h
    rw [if_pos rfl, Finset.sum_eq_single i]
    · simp
    · intro b _ hb
      rw [if_neg]
      intro hh
      exact hb (Fin.ext (by omega))
    · simp
  · rw [if_neg h]
    apply Finset.sum_eq_zero
    intro k _
    rw [if_neg]
    intro hh
    exact h (row_inj i.2 k.2 hh).1.symm

/-- The right-hand side of any row, as a sum over the points. -/
theorem elem_rhs (w : Ws K) (q dqdx : ℕ → K) (s : Flat K) (p : ℕ) :
    (elem nn nip nscv nd w q dqdx s).rhs p = s.rhs p
      + (∑ ip : Fin nip, ∑ i : Fin nd, ((if p = w.lrscv (2 * ip) * nd + i then (∑ ic : Fin nn, w.shape (ip * nn + ic) * q ic) * w.areav (ip * nd + i) else 0)
          + if p = w.lrscv (2 * ip + 1) * nd + i then -(∑ ic : Fin nn, w.shape (ip * nn + ic) * q ic) * w.areav (ip * nd + i) else 0))
      + ∑ ip : Fin nscv, ∑ i : Fin nd, if p = w.ipNode ip * nd + i then -((∑ ic : Fin nn, w.shapeV (ip * nn + ic) * dqdx (ic * nd + i)) * w.scv ip) else 0 := by
  refine (loop_rhs _ p (fun ip : Fin nscv => ∑ i : Fin nd, if p = w.ipNode ip * nd + i then
    -((∑ ic : Fin nn, w.shapeV (ip * nn + ic) * dqdx (ic * nd + i)) * w.scv ip) else 0) (fun ip s => ?_) _).trans ?_
  · refine (loop_rhs _ p (fun _ : Fin nn => (0 : K)) (fun ic s => ?_) _).trans ?_
    · refine (loop_rhs _ p (fun _ : Fin nd => (0 : K)) (fun i s => ?_) _).trans (by simp)
      simp [Flat.bumpL]
    · rw [Finset.sum_const_zero, add_zero]
      exact loop_rhs _ p (fun i : Fin nd => if p = w.ipNode ip * nd + i then
        -((∑ ic : Fin nn, w.shapeV (ip * nn + ic) * dqdx (ic * nd + i)) * w.scv ip) else 0) (fun i s => bumpR_rhs _ _ _ _) s
  · congr 1
    refine loop_rhs _ p (fun ip : Fin nip => ∑ i : Fin nd, ((if p = w.lrscv (2 * ip) * nd + i then
      (∑ ic : Fin nn, w.shape (ip * nn + ic) * q ic) * w.areav (ip * nd + i) else 0)
      + if p = w.lrscv (2 * ip + 1) * nd + i then -(∑ ic : Fin nn, w.shape (ip * nn + ic) * q ic) * w.areav (ip * nd + i) else 0)) (fun ip s => ?_) s
    refine loop_rhs _ p (fun i : Fin nd => ((if p = w.lrscv (2 * ip) * nd + i then
      (∑ ic : Fin nn, w.shape (ip * nn + ic) * q ic) * w.areav (ip * nd + i) else 0)
      + if p = w.lrscv (2 * ip + 1) * nd + i then -(∑ ic : Fin nn, w.shape (ip * nn + ic) * q ic) * w.areav (ip * nd + i) else 0)) (fun i s => ?_) s
    dsimp only
    rw [bumpR_rhs, bumpR_rhs, add_assoc, neg_mul, neg_neg]

/-- The matrix entry at any place, as a sum over the points. -/
theorem elem_lhs (w : Ws K) (q dqdx : ℕ → K) (s : Flat K) (p : ℕ) :
    (elem nn nip nscv nd w q dqdx s).lhs p = s.lhs p
      + ∑ ip : Fin nscv, ∑ ic : Fin nn, ∑ i : Fin nd,
          if p = (w.ipNode ip * nd + i) * nn * nd + ic * nd + i then w.shapeV (ip * nn + ic) * w.scv ip else 0 := by
  refine (loop_lhs _ p (fun ip : Fin nscv => ∑ ic : Fin nn, ∑ i : Fin nd,
    if p = (w.ipNode ip * nd + i) * nn * nd + ic * nd + i then w.shapeV (ip * nn + ic) * w.scv ip else 0) (fun ip s => ?_) _).trans ?_
  · refine (loop_lhs _ p (fun ic : Fin nn => ∑ i : Fin nd,
      if p = (w.ipNode ip * nd + i) * nn * nd + ic * nd + i then w.shapeV (ip * nn + ic) * w.scv ip else 0) (fun ic s => ?_) _).trans ?_
    · exact loop_lhs _ p (fun i : Fin nd =>
        if p = (w.ipNode ip * nd + i) * nn * nd + ic * nd + i then w.shapeV (ip * nn + ic) * w.scv ip else 0) (fun i s => bumpL_lhs _ _ _ _) s
    · congr 1
      refine (loop_lhs _ p (fun _ : Fin nd => (0 : K)) (fun i s => ?_) _).trans (by simp)
      simp [Flat.bumpR]
  · congr 1
    refine (loop_lhs _ p (fun _ : Fin nip => (0 : K)) (fun ip s => ?_) _).trans (by simp)
    refine (loop_lhs _ p (fun _ : Fin nd => (0 : K)) (fun i s => ?_) _).trans (by simp)
    simp [Flat.bumpR]

/-- **C244** The element arrays of the projected nodal gradient system, starting from any contents of the work arrays.  Row `n*nDim + i`, for node `n` and
component `i`: the interpolated scalar times the area component of the surfaces of `n` (plus on the left, minus on the right), minus the volume integral
of the interpolated gradient; the matrix couples the same component of two nodes by the shape function times the volume of the points of `n`, and
different components not at all.  Nothing outside the element's rows is written. -/
theorem c244_elem {w : Ws K} {e : Elt nn nip nscv nd K} (hw : w.Holds e) (q : Fin nn → K) (G : Fin nn → Fin nd → K) (a b : ℕ → K) (s0 : Flat K) :
    let out := elem nn nip nscv nd w (gather1 nn q a) (gather2 nn nd G b) (s0.zeroed (nn * nd * (nn * nd)) (nn * nd))
    (∀ (n : Fin nn) (i : Fin nd), out.rhs (n * nd + i)
      = (∑ ip, (∑ m, e.shape ip m * q m) * e.area ip i * ((if e.il ip = n then 1 else 0) - (if e.ir ip = n then 1 else 0)))
        - ∑ ip, if e.near ip = n then e.vol ip * ∑ m, e.shapeV ip m * G m i else 0) ∧
    (∀ (n m : Fin nn) (i j : Fin nd), out.lhs ((n * nd + i) * (nn * nd) + (m * nd + j))
      = if i = j then ∑ ip, (if e.near ip = n then e.shapeV ip m * e.vol ip else 0) else 0) ∧
    (∀ p, nn * nd ≤ p → out.rhs p = s0.rhs p) ∧ ∀ p, nn * nd * (nn * nd) ≤ p → out.lhs p = s0.lhs p := by
  refine ⟨fun n i => ?_, fun n m i j => ?_, fun p hp => ?_, fun p hp => ?_⟩
  · rw [elem_rhs]
    have hz : (s0.zeroed (nn * nd * (nn * nd)) (nn * nd)).rhs (n * nd + i) = 0 := by simp [Flat.zeroed, row_lt n.2 i.2]
    rw [hz, zero_add, sub_eq_add_neg, ← Finset.sum_neg_distrib]
    congr 1
    · refine Finset.sum_congr rfl fun ip _ => ?_
      rw [Finset.sum_add_distrib, sum_row, sum_row, hw.il, hw.ir, hw.areav]
      simp only [gather1_get, hw.shape, Fin.val_inj]
      split <;> split <;> ring
    · refine Finset.sum_congr rfl fun ip _ => ?_
      have : ∀ k : Fin nd, (∑ ic : Fin nn, w.shapeV (ip * nn + ic) * gather2 nn nd G b (ic * nd + k)) = ∑ m, e.shapeV ip m * G m k := fun k =>
        Finset.sum_congr rfl fun m _ => by rw [gather2_get, hw.shapeV]
      simp only [this]
      rw [sum_row, hw.near, hw.vol]
      simp only [Fin.val_inj]
      split
      · ring
      · simp
  · rw [elem_lhs]
    have hz : (s0.zeroed (nn * nd * (nn * nd)) (nn * nd)).lhs ((n * nd + i) * (nn * nd) + (m * nd + j)) = 0 := by
      simp [Flat.zeroed, row_lt (row_lt n.2 i.2) (row_lt m.2 j.2)]
    rw [hz, zero_add]
    have key : ∀ (ip : Fin nscv) (ic : Fin nn) (k : Fin nd),
        ((n * nd + i) * (nn * nd) + (m * nd + j) = (w.ipNode ip * nd + k) * nn * nd + ic * nd + k) ↔ (e.near ip = n ∧ ic = m ∧ k = i ∧ i = j) := by
      intro ip ic k
      rw [hw.near]
      rw [show ((e.near ip : ℕ) * nd + k) * nn * nd + ic * nd + k = (e.near ip * nd + k) * (nn * nd) + (ic * nd + k) by ring]
      constructor
      · intro hh
        obtain ⟨h1, h2⟩ := row_inj (row_lt m.2 j.2) (row_lt ic.2 k.2) hh
        obtain ⟨h3, h4⟩ := row_inj i.2 k.2 h1
        obtain ⟨h5, h6⟩ := row_inj j.2 k.2 h2
        refine ⟨Fin.ext h3.symm, Fin.ext h5.symm, Fin.ext h4.symm, Fin.ext (by omega)⟩
      · rintro ⟨rfl, rfl, rfl, rfl⟩; rfl
    simp only [key]
    by_cases hij : i = j
    · rw [if_pos hij]
      refine Finset.sum_congr rfl fun ip _ => ?_
      rw [Finset.sum_eq_single m]
      · rw [Finset.sum_eq_single i]
        · simp only [hij, and_true, hw.shapeV, hw.vol]
        · intro k _ hk; simp [hk]
        · simp
      · intro ic _ hic; simp [hic]
      · simp
    · rw [if_neg hij]
      refine Finset.sum_eq_zero fun ip _ => Finset.sum_eq_zero fun ic _ => Finset.sum_eq_zero fun k _ => ?_
      rw [if_neg]; rintro ⟨-, -, -, h⟩; exact hij h
  · rw [elem_rhs]
    have hz : (s0.zeroed (nn * nd * (nn * nd)) (nn * nd)).rhs p = s0.rhs p := by simp [Flat.zeroed, Nat.not_lt.mpr hp]
    rw [hz]
    have hne : ∀ (x : Fin nn) (i : Fin nd), p ≠ x * nd + i := fun x i h => by have := row_lt x.2 i.2; omega
    simp only [hw.il, hw.ir, hw.near, hne, if_false]
    simp
  · rw [elem_lhs]
    have hz : (s0.zeroed (nn * nd * (nn * nd)) (nn * nd)).lhs p = s0.lhs p := by simp [Flat.zeroed, Nat.not_lt.mpr hp]
    rw [hz]
    have hne : ∀ (x m : Fin nn) (i : Fin nd), p ≠ (x * nd + i) * nn * nd + m * nd + i := fun x m i h => by
      have := row_lt (row_lt x.2 i.2) (row_lt m.2 i.2)
      have h2 : ((x : ℕ) * nd + i) * nn * nd + m * nd + i = (x * nd + i) * (nn * nd) + (m * nd + i) := by ring
      omega
    simp only [hw.near, hne, if_false]
    simp

/-- **C244** One boundary face adds the interpolated boundary value, minus the dynamic pressure of the point where one is given, times the exposed area
to the rows of the point's node, and leaves the matrix alone. -/
theorem c244_bdry (shape areav : ℕ → K) (ipNode : ℕ → ℕ) (dynamicP : ℕ → K) (N : Fin nip → Fin nn → K) (A : Fin nip → Fin nd → K) (near : Fin nip → Fin nn)
    (hN : ∀ (ip : Fin nip) (ic : Fin nn), shape (ip * nn + ic) = N ip ic) (hA : ∀ (ip : Fin nip) (i : Fin nd), areav (ip * nd + i) = A ip i)
    (hn : ∀ ip : Fin nip, ipNode ip = near ip) (q : Fin nn → K) (a : ℕ → K) (s : Flat K) :
    let out := bdry nn nip nd shape areav ipNode dynamicP (gather1 nn q a) s
    (∀ (n : Fin nn) (i : Fin nd), out.rhs (n * nd + i)
      = s.rhs (n * nd + i) + ∑ ip, if near ip = n then ((∑ m, N ip m * q m) - dynamicP ip) * A ip i else 0) ∧
    (∀ p, nn * nd ≤ p → out.rhs p = s.rhs p) ∧ ∀ p, out.lhs p = s.lhs p := by
  have e1 : ∀ p, (bdry nn nip nd shape areav ipNode dynamicP (gather1 nn q a) s).rhs p = s.rhs p + ∑ ip : Fin nip, ∑ i : Fin nd,
      if p = ipNode ip * nd + i then (-dynamicP ip + ∑ ic : Fin nn, shape (ip * nn + ic) * gather1 nn q a ic) * areav (ip * nd + i) else 0 := fun p =>
    loop_rhs _ p (fun ip : Fin nip => ∑ i : Fin nd,
      if p = ipNode ip * nd + i then (-dynamicP ip + ∑ ic : Fin nn, shape (ip * nn + ic) * gather1 nn q a ic) * areav (ip * nd + i) else 0)
      (fun ip s => loop_rhs _ p (fun i : Fin nd =>
        if p = ipNode ip * nd + i then (-dynamicP ip + ∑ ic : Fin nn, shape (ip * nn + ic) * gather1 nn q a ic) * areav (ip * nd + i) else 0)
        (fun i s => bumpR_rhs _ _ _ _) s) s
  refine ⟨fun n i => ?_, fun p hp => ?_, fun p => ?_⟩
  · rw [e1]
    congr 1
    refine Finset.sum_congr rfl fun ip _ => ?_
    rw [sum_row, hn, hA]
    simp only [Fin.val_inj, gather1_get, hN]
    split
    · ring
    · rfl
  · rw [e1]
    have hne : ∀ (x : Fin nn) (i : Fin nd), p ≠ x * nd + i := fun x i h => by have := row_lt x.2 i.2; omega
    simp only [hn, hne, if_false]
    simp
  · unfold bdry
    rw [loop_lhs _ p (fun _ => 0) (fun ip s => ?_)]
    · simp
    · rw [loop_lhs _ p (fun _ => 0) (fun i s => ?_)]
      · simp
      · simp [Flat.bumpR]

/-- **C244** The matrix rows of an element sum to the volume of the points of the node when the shape functions sum to one: lumping the matrix gives the
dual nodal volume. -/
theorem c244_rowsum {w : Ws K} {e : Elt nn nip nscv nd K} (hw : w.Holds e) (q : Fin nn → K) (G : Fin nn → Fin nd → K) (a b : ℕ → K) (s0 : Flat K)
    (hpu : ∀ ip, ∑ m, e.shapeV ip m = 1) (n : Fin nn) (i : Fin nd) :
    ∑ m : Fin nn, ∑ j : Fin nd, (elem nn nip nscv nd w (gather1 nn q a) (gather2 nn nd G b) (s0.zeroed (nn * nd * (nn * nd)) (nn * nd))).lhs
      ((n * nd + i) * (nn * nd) + (m * nd + j)) = ∑ ip, if e.near ip = n then e.vol ip else 0 := by
  obtain ⟨-, h, -, -⟩ := c244_elem hw q G a b s0
  simp only [h]
  simp only [Finset.sum_ite_eq, Finset.mem_univ, if_true]
  rw [Finset.sum_comm]
  refine Finset.sum_congr rfl fun ip _ => ?_
  split
  · rw [← Finset.sum_mul, hpu, one_mul]
  · simp

/-- **C244** The residual is exact: it is what the residual is without gradient minus the matrix times the gradient, so the solve that follows is a Newton
step of a linear problem. -/
theorem c244_linear {w : Ws K} {e : Elt nn nip nscv nd K} (hw : w.Holds e) (q : Fin nn → K) (G : Fin nn → Fin nd → K) (a b : ℕ → K) (s0 : Flat K)
    (n : Fin nn) (i : Fin nd) :
    let out := elem nn nip nscv nd w (gather1 nn q a) (gather2 nn nd G b) (s0.zeroed (nn * nd * (nn * nd)) (nn * nd))
    let out0 := elem nn nip nscv nd w (gather1 nn q a) (gather2 nn nd 0 b) (s0.zeroed (nn * nd * (nn * nd)) (nn * nd))
    out.rhs (n * nd + i) = out0.rhs (n * nd + i) - ∑ m : Fin nn, ∑ j : Fin nd, out.lhs ((n * nd + i) * (nn * nd) + (m * nd + j)) * G m j := by
  intro out out0
  obtain ⟨h1, h2, -, -⟩ := c244_elem hw q G a b s0
  obtain ⟨h3, -, -, -⟩ := c244_elem hw q 0 a b s0
  rw [h1, h3]
  simp only [out, h2]
  simp only [ite_mul, zero_mul, Finset.sum_ite_eq, Finset.mem_univ, if_true, Pi.zero_apply, mul_zero, Finset.sum_const_zero, ite_self, sub_zero]
  congr 1
  simp only [Finset.sum_mul]
  rw [Finset.sum_comm]
  refine Finset.sum_congr rfl fun ip _ => ?_
  split
  · rw [Finset.mul_sum]
    exact Finset.sum_congr rfl fun m _ => by ring
  · simp

/-! ## C245: the solve -/

section solve
variable {V : Type*} [AddCommGroup V] [Module K V]

/-- **C245** With an exact linear solver, the residual being right-hand side minus matrix times field, the field after any positive number of iterations is
the solution, from every start. -/
theorem c245_exact (M : V →ₗ[K] V) (b : V) (solve : V → V) (hsol : ∀ r, M (solve r) = r) (hinj : Function.Injective M) (k : ℕ) (hk : 0 < k) (x : V) :
    M (solveLoop (K := K) k (fun x => solve (b - M x)) x) = b ∧
    ∀ y, M y = b → solveLoop (K := K) k (fun x => solve (b - M x)) x = y := by
  have step : ∀ x, M ((1 : K) • solve (b - M x) + (1 : K) • x) = b := by
    intro x; rw [one_smul, one_smul, map_add, hsol]; abel
  have h : M (solveLoop (K := K) k (fun x => solve (b - M x)) x) = b := by
    unfold solveLoop
    obtain ⟨j, rfl⟩ : ∃ j, k = j + 1 := ⟨k - 1, by omega⟩
    rw [Function.iterate_succ_apply']
    exact step _
  exact ⟨h, fun y hy => hinj (h.trans hy.symm)⟩

/-- **C245** With any linear (inexact) solver the error of the field is multiplied by `1 - S M` in every iteration; with no iteration nothing happens. -/
theorem c245_error (M S : V →ₗ[K] V) (b xs : V) (hxs : M xs = b) (k : ℕ) (x : V) :
    solveLoop (K := K) k (fun x => S (b - M x)) x - xs = ((1 - S * M) ^ k : V →ₗ[K] V) (x - xs) := by
  unfold solveLoop
  induction k generalizing x with
  | zero => simp
  | succ j ih =>
    rw [Function.iterate_succ_apply, ih, pow_succ, Module.End.mul_apply]
    congr 1
    simp only [one_smul, LinearMap.sub_apply, Module.End.one_apply, Module.End.mul_apply, map_sub, hxs]
    rw [← hxs]
    abel

end solve

/-- One pass of the loop over the velocity components. -/
def uStep (nd : ℕ) (solve : (ℕ → ℕ → K) → (ℕ → ℕ → K) → ℕ → ℕ → K) (s : UFields K) (i : ℕ) : UFields K :=
  let s := { s with pTmp := indexCopy s.velocity i s.pTmp 0 }
  let s := (List.range nd).foldl (fun s k => { s with duidx := indexCopy s.dudx (i * nd + k) s.duidx k }) s
  let s := { s with duidx := solve s.pTmp s.duidx }
  (List.range nd).foldl (fun s k => { s with dudx := indexCopy s.duidx k s.dudx (nd * i + k) }) s

theorem copyIn (i n : ℕ) (s : UFields K) :
    (List.range n).foldl (fun s k => { s with duidx := indexCopy s.dudx (i * nd + k) s.duidx k }) s
      = { s with duidx := fun N c => if c < n then s.dudx N (i * nd + c) else s.duidx N c } := by
  induction n with
  | zero => simp
  | succ n ih =>
    rw [List.range_succ, List.foldl_append, ih]
    simp only [List.foldl_cons, List.foldl_nil, UFields.mk.injEq, true_and, and_true]
    funext N c
    simp only [indexCopy]
    by_cases h : c = n
    · subst h; simp
    · have : c < n + 1 ↔ c < n := by omega
      simp [h, this]

theorem copyOut (i n : ℕ) (s : UFields K) :
    (List.range n).foldl (fun s k => { s with dudx := indexCopy s.duidx k s.dudx (nd * i + k) }) s
      = { s with dudx := fun N c => if nd * i ≤ c ∧ c < nd * i + n then s.duidx N (c - nd * i) else s.dudx N c } := by
  induction n with
  | zero =>
    have h : (fun N c => if nd * i ≤ c ∧ c < nd * i + 0 then s.duidx N (c - nd * i) else s.dudx N c) = s.dudx := by
      funext N c
      rw [if_neg (by omega)]
    rw [h]
    rfl
  | succ n ih =>
    rw [List.range_succ, List.foldl_append, ih]
    simp only [List.foldl_cons, List.foldl_nil, UFields.mk.injEq, true_and]
    funext N c
    simp only [indexCopy]
    by_cases h : c = nd * i + n
    · subst h; simp
    · rw [if_neg h]
      congr 1
      simp only [eq_iff_iff]
      omega

theorem uStep_eq (solve : (ℕ → ℕ → K) → (ℕ → ℕ → K) → ℕ → ℕ → K) (s : UFields K) (i : ℕ) :
    let s1 := uStep nd solve s i
    s1.velocity = s.velocity ∧
    ∃ D : ℕ → ℕ → K, (∀ N c, c < nd → D N c = s.dudx N (i * nd + c)) ∧
      s1.dudx = fun N c => if nd * i ≤ c ∧ c < nd * i + nd then solve (indexCopy s.velocity i s.pTmp 0) D N (c - nd * i) else s.dudx N c := by
  simp only [uStep]
  rw [copyIn, copyOut]
  refine ⟨rfl, _, fun N c hc => ?_, rfl⟩
  simp [hc]

/-- **C245** Velocity: when the solve depends only on the scalar it is given (component 0 of the scratch field) and not on the start value (exact solver,
at least one iteration), row `i` of the velocity gradient becomes the projected gradient of velocity component `i`, for every `i`; the other entries of
the field and the velocity keep their values. -/
theorem c245_momentum (solve : (ℕ → ℕ → K) → (ℕ → ℕ → K) → ℕ → ℕ → K) (grad : (ℕ → K) → ℕ → ℕ → K)
    (hs : ∀ p d N k, k < nd → solve p d N k = grad (fun M => p M 0) N k) (s : UFields K) :
    let out := momentumPng nd solve s
    out.velocity = s.velocity ∧
    (∀ N i k, i < nd → k < nd → out.dudx N (nd * i + k) = grad (fun M => s.velocity M i) N k) ∧
    ∀ N c, nd * nd ≤ c → out.dudx N c = s.dudx N c := by
  have main : ∀ n ≤ nd, ((List.range n).foldl (uStep nd solve) s).velocity = s.velocity ∧
      (∀ N i k, i < n → k < nd → ((List.range n).foldl (uStep nd solve) s).dudx N (nd * i + k) = grad (fun M => s.velocity M i) N k) ∧
      ∀ N c, nd * n ≤ c → ((List.range n).foldl (uStep nd solve) s).dudx N c = s.dudx N c := by
    intro n
    induction n with
    | zero => intro _; simp
    | succ n ih =>
      intro hn
      obtain ⟨h1, h2, h3⟩ := ih (by omega)
      rw [List.range_succ, List.foldl_append]
      simp only [List.foldl_cons, List.foldl_nil]
      obtain ⟨g1, D, -, g2⟩ := uStep_eq (nd := nd) solve ((List.range n).foldl (uStep nd solve) s) n
      refine ⟨g1.trans h1, fun N i k hi hk => ?_, fun N c hc => ?_⟩
      · rw [g2]
        dsimp only
        by_cases h : i = n
        · subst h
          rw [if_pos ⟨by omega, by omega⟩, Nat.add_sub_cancel_left, hs _ _ _ _ hk, h1]
          simp [indexCopy]
        · have hlt : i < n := by omega
          have : nd * i + k < nd * n := by
            have : nd * (i + 1) ≤ nd * n := Nat.mul_le_mul_left _ hlt
            have h2 : nd * (i + 1) = nd * i + nd := by ring
            omega
          rw [if_neg (by omega)]
          exact h2 N i k hlt hk
      · rw [g2]
        dsimp only
        have h4 : nd * (n + 1) = nd * n + nd := by ring
        rw [if_neg (by omega)]
        exact h3 N c (by omega)
  obtain ⟨h1, h2, h3⟩ := main nd le_rfl
  exact ⟨h1, h2, h3⟩

/-- **C245** In any case each solve starts from the previous row: what the solver is given for component `i` are velocity component `i` and row `i` of the
current velocity gradient. -/
theorem c245_momentum_start (solve : (ℕ → ℕ → K) → (ℕ → ℕ → K) → ℕ → ℕ → K) (s : UFields K) (i : ℕ) :
    ∃ p d : ℕ → ℕ → K, (∀ N, p N 0 = s.velocity N i) ∧ (∀ N k, k < nd → d N k = s.dudx N (i * nd + k)) ∧
      ∀ N k, k < nd → (uStep nd solve s i).dudx N (i * nd + k) = solve p d N k := by
  obtain ⟨-, D, h1, h2⟩ := uStep_eq (nd := nd) solve s i
  refine ⟨indexCopy s.velocity i s.pTmp 0, D, fun N => ?_, h1, fun N k hk => ?_⟩
  · simp [indexCopy]
  · rw [h2, Nat.mul_comm i nd]
    simp only
    rw [if_pos ⟨by omega, by omega⟩, Nat.add_sub_cancel_left]

/-! ## C250: boundary data -/

/-- **C250** The last name given for a boundary condition counts, and other boundary conditions are not affected. -/
theorem c250_set (m : DataMap) (b c : Bc) (name : String) : setDataMap m b name c = if c = b then some name else m c := rfl

/-- **C250** Every equation system with a projected nodal gradient can register walls; all but heat conduction also inflow, open and symmetry boundaries,
and only heat conduction stops with the "missing BC type" error there. -/
theorem c250_registers (o : Owner) (b : Bc) :
    (∃ a, register o.isFEM o.map b = .ok a) ↔ ¬(o = .heatCond ∧ (b = .inflow ∨ b = .openBc ∨ b = .symmetry)) := by
  cases o <;> cases b <;> simp [register, Owner.map, Owner.calls, setDataMap, Owner.isFEM] <;> exact ⟨_, rfl⟩

/-- **C250** Which values are used on a boundary: the field itself, except the boundary mixture fraction on inflows of the control-volume mixture fraction
and the boundary pressure on open boundaries. -/
theorem c250_field (o : Owner) (b : Bc) (a : Alg) (h : register o.isFEM o.map b = .ok (some a)) :
    a = (match o, b with
      | .mixFrac, .inflow => .bdry "mixFrac_bc"
      | .continuity, .openBc => .pressureBdry "pressure_bc"
      | .continuityFem, .openBc => .fem "pressure_bc"
      | _, .nonConformal => .nonConformal
      | o, _ => if o.isFEM then .fem o.dof else .bdry o.dof) := by
  cases o <;> cases b <;>
    first
    | (cases h; done)
    | (cases h; rfl)

/-- **C250** The dynamic pressure is subtracted exactly on the open boundaries of the control-volume continuity system. -/
theorem c250_pressure (o : Owner) (b : Bc) (f : String) :
    register o.isFEM o.map b = .ok (some (.pressureBdry f)) ↔ o = .continuity ∧ b = .openBc ∧ f = "pressure_bc" := by
  cases o <;> cases b <;>
    simp [register, Owner.map, Owner.calls, setDataMap, Owner.isFEM, Bind.bind, Except.bind, Pure.pure, Except.pure, eq_comm]

/-- **C250** With the finite element form, symmetry and non-conformal boundaries are silently left out. -/
theorem c250_fem (m : DataMap) : register true m .symmetry = .ok none ∧ register true m .nonConformal = .ok none := ⟨rfl, rfl⟩

/-! ## Witnesses -/

/-- A bar of length 2: two nodes, one surface, two volumes with midpoint values. -/
def barWs : Ws ℚ where
  shape := fun _ => 1 / 2
  areav := fun _ => 1
  lrscv := fun p => p
  shapeV := fun p => if p = 0 ∨ p = 3 then 3 / 4 else 1 / 4
  scv := fun _ => 1
  ipNode := fun p => p
/-- The same as an element. -/
def barElt : Elt 2 1 2 1 ℚ where
  shape := fun _ _ => 1 / 2
  area := fun _ _ => 1
  il := fun _ => 0
  ir := fun _ => 1
  shapeV := fun ip m => if ip = m then 3 / 4 else 1 / 4
  vol := fun _ => 1
  near := fun ip => ip
theorem barHolds : barWs.Holds barElt := by
  refine ⟨?_, ?_, ?_, ?_, ?_, ?_, ?_⟩ <;> decide +kernel
example : ∀ ip, ∑ m, barElt.shapeV ip m = 1 := by decide +kernel
/-- The field 3 + 5x with gradient 5: the interior rows receive the surface value 8 minus 5 times the volume; with the two end values (3 and 13) the
residual is zero. -/
example : (elem 2 1 2 1 barWs (gather1 2 ![3, 13] 0) (gather2 2 1 (fun _ _ => 5) 0) ⟨fun _ => 7, fun _ => 9⟩).rhs 0 = 9 + 8 - 5 := by decide +kernel
example : register false Owner.heatCond.map .openBc = .error "PNGEqSys::missing BC type specification (developer error)!" := by decide

end Nalu.Png
