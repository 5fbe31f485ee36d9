import Verif.Props.ActuatorDrag
import Verif.Proofs.ElemKernel
import Mathlib.Analysis.SpecialFunctions.Gaussian.FourierTransform
import Mathlib.MeasureTheory.Group.Integral
import Mathlib.Tactic.IntervalCases

/-!
# C166: spreading the force
-/

namespace Nalu.Actuator
open Nalu.Actuator.Spec MeasureTheory

/-! ## The weight -/

theorem exponent_eq {e : ℝ} (he : e ≠ 0) (r : ℝ) : -r * r / e * e = -(r ^ 2) := by
  rw [div_mul_cancel₀ _ he]; ring

/-- C166: the decay radius `e` of the input only scales the weight: it falls off as `exp(-r²)` whatever `e` is. -/
theorem c166_width_ignored {n : ℕ} (hn : n = 2 ∨ n = 3) {e : ℝ} (he : 0 < e) (r : ℝ) :
    gaussWeight n r e = 1 / (e ^ n * Real.pi ^ ((n : ℝ) / 2)) * Real.exp (-(r ^ 2)) := by
  unfold gaussWeight
  rw [exponent_eq he.ne']
  rcases hn with rfl | rfl
  · norm_num; ring
  · rw [if_neg (by norm_num), show ((3 : ℕ) : ℝ) / 2 = 1.5 by norm_num, show e * e * e = e ^ 3 by ring]

theorem distance_eq {n : ℕ} (x c : EuclideanSpace ℝ (Fin n)) : distance (x ·) (c ·) = ‖x - c‖ := by
  rw [EuclideanSpace.norm_eq]; unfold distance; simp

/-- C166: the force spread over all of space is the point force divided by the decay radius to the power of the dimension. -/
theorem c166_integral {n : ℕ} (hn : n = 2 ∨ n = 3) {e : ℝ} (he : 0 < e) (force : Fin n → ℝ) (c : EuclideanSpace ℝ (Fin n))
    (j : Fin n) : ∫ x : EuclideanSpace ℝ (Fin n), nodeDrag (distance (x ·) (c ·)) e force j = force j / e ^ n := by
  have h0 : ∫ x : EuclideanSpace ℝ (Fin n), Real.exp (-(‖x - c‖ ^ 2)) = Real.pi ^ ((n : ℝ) / 2) := by
    rw [integral_sub_right_eq_self (fun v : EuclideanSpace ℝ (Fin n) => Real.exp (-(‖v‖ ^ 2))) c]
    have := GaussianFourier.integral_rexp_neg_mul_sq_norm (V := EuclideanSpace ℝ (Fin n)) (b := 1) one_pos
    simpa using this
  have h1 : ∀ x : EuclideanSpace ℝ (Fin n), nodeDrag (distance (x ·) (c ·)) e force j
      = force j * (1 / (e ^ n * Real.pi ^ ((n : ℝ) / 2))) * Real.exp (-(‖x - c‖ ^ 2)) := by
    intro x
    unfold nodeDrag
    rw [c166_width_ignored hn he, distance_eq]; ring
  simp only [h1]
  rw [integral_const_mul, h0]
  have : Real.pi ^ ((n : ℝ) / 2) ≠ 0 := (Real.rpow_pos_of_pos Real.pi_pos _).ne'
  have := he.ne'
  field_simp

/-- C166: the whole force reaches the gas exactly when the decay radius is one.  (Full statement: for every decay
radius.) -/
theorem c166_total_partial {n : ℕ} (hn : n = 2 ∨ n = 3) {e : ℝ} (he : 0 < e) (force : Fin n → ℝ) (c : EuclideanSpace ℝ (Fin n))
    (j : Fin n) (hf : force j ≠ 0) :
    (∫ x : EuclideanSpace ℝ (Fin n), nodeDrag (distance (x ·) (c ·)) e force j) = force j ↔ e = 1 := by
  rw [c166_integral hn he]
  constructor
  · intro h
    rw [div_eq_iff (by positivity)] at h
    have h1 : e ^ n = 1 := by
      have : force j * (e ^ n - 1) = 0 := by linarith
      rcases mul_eq_zero.1 this with h | h
      · exact absurd h hf
      · linarith
    exact (pow_eq_one_iff_of_nonneg he.le (by rcases hn with rfl | rfl <;> norm_num)).1 h1
  · rintro rfl; simp

/-- C166: with the default decay radius of 1.5 in three dimensions 8/27 of the force reaches the gas. -/
theorem c166_default (force : Fin 3 → ℝ) (c : EuclideanSpace ℝ (Fin 3)) (j : Fin 3) :
    ∫ x : EuclideanSpace ℝ (Fin 3), nodeDrag (distance (x ·) (c ·)) 1.5 force j = 8 / 27 * force j := by
  rw [c166_integral (Or.inr rfl) (by norm_num)]; norm_num; ring

theorem gaussWeight_pos (n : ℕ) (r : ℝ) {e : ℝ} (he : 0 < e) : 0 < gaussWeight n r e := by
  unfold gaussWeight
  have := Real.pi_pos
  have := Real.exp_pos (-r * r / e * e)
  split <;> positivity

/-- C166: the weight is positive, largest at the point and decreases with the distance from it. -/
theorem c166_decreasing (n : ℕ) {e : ℝ} (he : 0 < e) {r r' : ℝ} (h0 : 0 ≤ r) (h : r < r') :
    0 < gaussWeight n r' e ∧ gaussWeight n r' e < gaussWeight n r e := by
  refine ⟨gaussWeight_pos n r' he, ?_⟩
  have h1 : Real.exp (-(r' ^ 2)) < Real.exp (-(r ^ 2)) := by
    apply Real.exp_lt_exp.2; nlinarith
  unfold gaussWeight
  rw [exponent_eq he.ne', exponent_eq he.ne']
  have := Real.pi_pos
  split <;> exact mul_lt_mul_of_pos_left h1 (by positivity)

/-! ## Several points -/

variable {n : ℕ} {N : Type*} [DecidableEq N]

theorem spread_apply (nodes : List N) (force xp : Fin n → ℝ) (x : N → Fin n → ℝ) (e : ℝ) (src : N → Fin n → ℝ) (a : N) :
    spread nodes force xp x e src a = if a ∈ nodes then nodeDrag (distance (x a) xp) e force else src a := by
  unfold spread
  induction nodes generalizing src with
  | nil => simp
  | cons b l ih =>
    rw [List.foldl_cons, ih]
    by_cases h : a ∈ l
    · simp [h]
    · by_cases hb : a = b
      · subst hb; simp [h]
      · simp [h, hb]

/-- The load of a point at a node. -/
noncomputable def load (f : Flow N n) (p : Active N n) (a : N) : Fin n → ℝ :=
  nodeDrag (distance (f.x a) p.xp) p.decay (activeDrag f p).1

theorem fold_src (f : Flow N n) (ps : List (Active N n)) (s : Source N n) (a : N) (h : ∀ p ∈ ps, a ∉ p.nodes) :
    (ps.foldl (pointStep f) s).src a = s.src a := by
  induction ps generalizing s with
  | nil => rfl
  | cons p ps ih =>
    rw [List.foldl_cons, ih _ (fun q hq => h q (List.mem_cons_of_mem _ hq))]
    simp only [pointStep]
    rw [spread_apply, if_neg (h p List.mem_cons_self)]

/-- C166: on one rank, of all the points whose search reaches a node, the node gets the load of the last one only. -/
theorem c166_last_wins (f : Flow N n) (before after : List (Active N n)) (p : Active N n) (a : N) (hp : a ∈ p.nodes)
    (h : ∀ q ∈ after, a ∉ q.nodes) : (rankSource f (before ++ p :: after)).src a = load f p a := by
  unfold rankSource
  rw [List.foldl_append, List.foldl_cons, fold_src f after _ a h]
  simp only [pointStep]
  rw [spread_apply, if_pos hp]; rfl

theorem rank_superposition (f : Flow N n) (ps : List (Active N n))
    (h : ps.Pairwise fun p q => ∀ a ∈ p.nodes, a ∉ q.nodes) (a : N) (j : Fin n) :
    (rankSource f ps).src a j = superposition Active.nodes (load f) ps a j := by
  unfold superposition
  induction ps with
  | nil => simp [rankSource]
  | cons p ps ih =>
    rw [List.map_cons, List.sum_cons]
    have hp := List.pairwise_cons.1 h
    by_cases ha : a ∈ p.nodes
    · have h' := c166_last_wins f [] ps p a ha (fun q hq => hp.1 q hq a ha)
      rw [List.nil_append] at h'
      rw [h', if_pos ha]
      have : (ps.map fun p => if a ∈ p.nodes then load f p a j else 0).sum = 0 := by
        apply List.sum_eq_zero
        intro v hv
        obtain ⟨q, hq, rfl⟩ := List.mem_map.1 hv
        rw [if_neg (hp.1 q hq a ha)]
      rw [this, add_zero]
    · rw [if_neg ha, zero_add, ← ih hp.2]
      unfold rankSource
      rw [List.foldl_cons]
      have key : ∀ (qs : List (Active N n)) (s s' : Source N n), s.src a = s'.src a →
          (qs.foldl (pointStep f) s).src a = (qs.foldl (pointStep f) s').src a := by
        intro qs
        induction qs with
        | nil => intro s s' h; exact h
        | cons q qs ihq =>
          intro s s' h
          rw [List.foldl_cons, List.foldl_cons]
          apply ihq
          simp only [pointStep]
          rw [spread_apply, spread_apply, h]
      rw [key ps (pointStep f ⟨fun _ _ => 0, fun _ _ => 0⟩ p) ⟨fun _ _ => 0, fun _ _ => 0⟩]
      simp only [pointStep]
      rw [spread_apply, if_neg ha]

theorem superposition_append {P : Type*} (reach : P → List N) (ld : P → N → Fin n → ℝ) (l m : List P) (a : N) (j : Fin n) :
    superposition reach ld (l ++ m) a j = superposition reach ld l a j + superposition reach ld m a j := by
  unfold superposition; rw [List.map_append, List.sum_append]

/-- C166: if on no rank two points reach the same node, the source is the superposition of the loads of all points of all
ranks.  Missing: points of one rank that share nodes (`c166_overlap_lost`), that is, any line finer than the mesh. -/
theorem c166_superposition_partial (f : Flow N n) (ranks : List (List (Active N n)))
    (h : ∀ ps ∈ ranks, ps.Pairwise fun p q => ∀ a ∈ p.nodes, a ∉ q.nodes) (a : N) (j : Fin n) :
    (execute f ranks).src a j = superposition Active.nodes (load f) ranks.flatten a j := by
  simp only [execute]
  induction ranks with
  | nil => simp [superposition]
  | cons ps ranks ih =>
    rw [List.map_cons, List.sum_cons, List.flatten_cons, superposition_append,
      rank_superposition f ps (h ps List.mem_cons_self), ih fun qs hq => h qs (List.mem_cons_of_mem _ hq)]

/-- C166: two points that share a node: on one rank the first one's force is lost there, on two ranks both are felt, so the
source depends on the number of processes. -/
theorem c166_overlap_lost (f : Flow N n) (p q : Active N n) (a : N) (hp : a ∈ p.nodes) (hq : a ∈ q.nodes)
    (hd : 0 < p.decay) (j : Fin n) (hf : (activeDrag f p).1 j ≠ 0) :
    (execute f [[p], [q]]).src a j = superposition Active.nodes (load f) [p, q] a j
      ∧ (execute f [[p, q]]).src a j ≠ superposition Active.nodes (load f) [p, q] a j := by
  constructor
  · rw [c166_superposition_partial]
    · simp
    · intro ps hps
      simp only [List.mem_cons, List.not_mem_nil, or_false] at hps
      rcases hps with rfl | rfl <;> simp
  · have h1 : (execute f [[p, q]]).src a j = load f q a j := by
      have := c166_last_wins f [p] [] q a hq (by simp)
      simp only [execute, List.map_cons, List.map_nil, List.sum_cons, List.sum_nil, add_zero]
      exact congrFun this j
    rw [h1]
    simp only [superposition, List.map_cons, List.map_nil, List.sum_cons, List.sum_nil, if_pos hp, if_pos hq]
    intro h
    have h0 : load f p a j = 0 := by linarith
    simp only [load, nodeDrag] at h0
    rcases mul_eq_zero.1 h0 with h | h
    · exact hf h
    · exact (gaussWeight_pos n _ hd).ne' h

/-- A point moving through gas at rest next to node 0 of a one-node mesh. -/
noncomputable def exActive : Active (Fin 1) 3 :=
  ⟨![0, 0, 0], ![1, 0, 0], 1, 1, [0], 1, fun _ => 0, fun _ => 1, 1, fun _ => 0, fun _ => 1⟩

noncomputable def exFlow : Flow (Fin 1) 3 := ⟨fun _ => ![0, 0, 1], fun _ => 0, fun _ => 1, fun _ => 1⟩

theorem exActive_force : (activeDrag exFlow exActive).1 0 ≠ 0 := by
  obtain ⟨k, hk, hf, _⟩ := c165_along_slip (r := 1) (mu := 1) (rho := 1) one_pos one_pos one_pos
    (![1, 0, 0] : Fin 3 → ℝ) (fun _ => 0)
  have : (activeDrag exFlow exActive).1 = (pointDrag 1 1 1 (![1, 0, 0] : Fin 3 → ℝ) (fun _ => 0)).1 := by
    change (pointDrag 1 (∑ _i : Fin 1, (1 : ℝ) * 1) (∑ _i : Fin 1, (1 : ℝ) * 1) (![1, 0, 0] : Fin 3 → ℝ)
      (fun j => ∑ _i : Fin 1, (1 : ℝ) * (0 : Fin 3 → ℝ) j)).1 = _
    simp
  rw [this, hf]
  simpa using hk.ne'

example : (execute exFlow [[exActive, exActive]]).src 0 0
    ≠ superposition Active.nodes (load exFlow) [exActive, exActive] 0 0 :=
  (c166_overlap_lost exFlow exActive exActive 0 (by simp [exActive]) (by simp [exActive]) (by simp [exActive]) 0
    exActive_force).2

example : (execute exFlow [[exActive], []]).src 0 0 = superposition Active.nodes (load exFlow) [exActive] 0 0 :=
  c166_superposition_partial exFlow [[exActive], []] (by simp) 0 0

end Nalu.Actuator
