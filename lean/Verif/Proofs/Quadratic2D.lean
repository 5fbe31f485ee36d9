import Verif.Proofs.Quadratic

open Finset

namespace Nalu.P2
open Spec

/-! ### sums over the tables of integration points -/

theorem sum_flatMap_range {α : Type*} (n : ℕ) (f : ℕ → List α) (F : α → ℝ) :
    (((List.range n).flatMap f).map F).sum = ∑ i ∈ range n, ((f i).map F).sum := by
  induction n with
  | zero => simp
  | succ n ih => rw [List.range_succ, List.flatMap_append, List.map_append, List.sum_append, ih, sum_range_succ]; simp

theorem sum_map_range {α : Type*} (n : ℕ) (f : ℕ → α) (F : α → ℝ) :
    (((List.range n).map f).map F).sum = ∑ i ∈ range n, F (f i) := by
  induction n with
  | zero => simp
  | succ n ih => rw [List.range_succ, List.map_append, List.map_append, List.sum_append, ih, sum_range_succ]; simp

theorem sum_ite_zero {α : Type*} (s : Finset α) (p : Prop) [inst : Decidable p] {inst' : α → Decidable p} (f : α → ℝ) :
    (∑ x ∈ s, @ite ℝ p (inst' x) (f x) 0) = if p then ∑ x ∈ s, f x else 0 := by split_ifs <;> simp

/-! ### the map of the square -/

variable {e : ℕ}

/-- The derivative of the map in `s`. -/
noncomputable def map2s (x : ℕ → Fin e → ℝ) (c : Fin e) (s t : ℝ) : ℝ := ∑ n ∈ range 9, dell (ref2 n).1 s * ell (ref2 n).2 t * x n c
/-- The derivative of the map in `t`. -/
noncomputable def map2t (x : ℕ → Fin e → ℝ) (c : Fin e) (s t : ℝ) : ℝ := ∑ n ∈ range 9, ell (ref2 n).1 s * dell (ref2 n).2 t * x n c
/-- The mixed derivative. -/
noncomputable def map2st (x : ℕ → Fin e → ℝ) (c : Fin e) (s t : ℝ) : ℝ := ∑ n ∈ range 9, dell (ref2 n).1 s * dell (ref2 n).2 t * x n c

theorem map2_quad_s (x : ℕ → Fin e → ℝ) (c : Fin e) (t : ℝ) : IsQuad (fun s => map2 x c s t) (fun s => map2s x c s t) :=
  IsQuad.sum _ fun n _ => ((isQuad_ell _).mul_const _).mul_const _

theorem map2_quad_t (x : ℕ → Fin e → ℝ) (c : Fin e) (s : ℝ) : IsQuad (fun t => map2 x c s t) (fun t => map2t x c s t) :=
  IsQuad.sum _ fun n _ => ((isQuad_ell _).const_mul _).mul_const _

theorem map2t_quad_s (x : ℕ → Fin e → ℝ) (c : Fin e) (t : ℝ) : IsQuad (fun s => map2t x c s t) (fun s => map2st x c s t) :=
  IsQuad.sum _ fun n _ => ((isQuad_ell _).mul_const _).mul_const _

theorem map2s_quad_t (x : ℕ → Fin e → ℝ) (c : Fin e) (s : ℝ) : IsQuad (fun t => map2s x c s t) (fun t => map2st x c s t) :=
  IsQuad.sum _ fun n _ => ((isQuad_ell _).const_mul _).mul_const _

theorem tangent9_s (x : ℕ → Fin e → ℝ) (c : Fin e) (s t : ℝ) : tangent 9 (quad9Deriv s t) x 0 c = map2s x c s t :=
  Finset.sum_congr rfl fun n hn => by rw [quad9Deriv_eq (mem_range.1 hn)]; simp

theorem tangent9_t (x : ℕ → Fin e → ℝ) (c : Fin e) (s t : ℝ) : tangent 9 (quad9Deriv s t) x 1 c = map2t x c s t :=
  Finset.sum_congr rfl fun n hn => by rw [quad9Deriv_eq (mem_range.1 hn)]; simp

theorem tangentF_s (x : ℕ → Fin e → ℝ) (c : Fin e) (s t : ℝ) : tangent 9 (face9Deriv s t) x 0 c = map2s x c s t :=
  Finset.sum_congr rfl fun n hn => by rw [face9Deriv_eq (mem_range.1 hn)]; simp

theorem tangentF_t (x : ℕ → Fin e → ℝ) (c : Fin e) (s t : ℝ) : tangent 9 (face9Deriv s t) x 1 c = map2t x c s t :=
  Finset.sum_congr rfl fun n hn => by rw [face9Deriv_eq (mem_range.1 hn)]; simp

theorem det2_eq (x : ℕ → Fin 2 → ℝ) (s t : ℝ) :
    det2 (quad9Deriv s t) x = map2s x 0 s t * map2t x 1 s t - map2s x 1 s t * map2t x 0 s t := by
  simp only [det2, tangent9_s, tangent9_t]

theorem jac2_eq (x : ℕ → Fin 2 → ℝ) (s t : ℝ) :
    jac2 x s t = map2s x 0 s t * map2t x 1 s t - map2t x 0 s t * map2s x 1 s t := by
  simp only [jac2]
  rw [((map2_quad_s x 0 t).hasDerivAt s).deriv, ((map2_quad_t x 1 s).hasDerivAt t).deriv, ((map2_quad_t x 0 s).hasDerivAt t).deriv,
    ((map2_quad_s x 1 t).hasDerivAt s).deriv]

/-! ### volumes -/

/-- `f` is a cubic. -/
def IsCubic (f : ℝ → ℝ) : Prop := ∃ c : ℕ → ℝ, ∀ s, f s = cubic c s

theorem IsQuad.isCubic_mul {p p' q q' : ℝ → ℝ} (hp : IsQuad p p') (hq : IsQuad q q') : IsCubic (fun s => p' s * q s) := by
  obtain ⟨p0, p1, p2, hp⟩ := hp
  obtain ⟨q0, q1, q2, hq⟩ := hq
  refine ⟨fun i => [p1 * q0, p1 * q1 + 2 * p2 * q0, p1 * q2 + 2 * p2 * q1, 2 * p2 * q2].getD i 0, fun s => ?_⟩
  simp only [(hp s).2, (hq s).1, cubic, sum_range_succ, sum_range_zero]
  simp
  ring

theorem IsCubic.sub {f g : ℝ → ℝ} (hf : IsCubic f) (hg : IsCubic g) : IsCubic (fun s => f s - g s) := by
  obtain ⟨a, ha⟩ := hf
  obtain ⟨b, hb⟩ := hg
  exact ⟨fun i => a i - b i, fun s => by simp only [ha, hb, cubic, sum_range_succ, sum_range_zero]; ring⟩

theorem IsCubic.const_mul {f : ℝ → ℝ} (hf : IsCubic f) (r : ℝ) : IsCubic (fun s => r * f s) := by
  obtain ⟨a, ha⟩ := hf
  exact ⟨fun i => r * a i, fun s => by simp only [ha, cubic, sum_range_succ, sum_range_zero]; ring⟩

theorem IsCubic.sum {ι : Type*} (s : Finset ι) {f : ι → ℝ → ℝ} (h : ∀ i ∈ s, IsCubic (f i)) : IsCubic (fun x => ∑ i ∈ s, f i x) := by
  classical
  induction s using Finset.induction_on with
  | empty => exact ⟨fun _ => 0, fun s => by simp [cubic]⟩
  | insert a s ha ih =>
    obtain ⟨p, hp⟩ := h a (by simp)
    obtain ⟨q, hq⟩ := ih fun i hi => h i (by simp [hi])
    refine ⟨fun i => p i + q i, fun x => ?_⟩
    have h1 := hq x
    simp only at h1
    beta_reduce
    rw [Finset.sum_insert ha, h1, hp x]
    simp only [cubic, sum_range_succ, sum_range_zero]; ring

theorem IsCubic.gauss {f : ℝ → ℝ} (hf : IsCubic f) (k : ℕ) :
    ∑ i ∈ range 2, lineWt k i * f (gaussLoc k i) = ∫ s in scsEnd k..scsEnd (k + 1), f s := by
  obtain ⟨c, hc⟩ := hf
  simp only [hc]
  exact gauss_cubic c k

theorem jac2_cubic_s (x : ℕ → Fin 2 → ℝ) (t : ℝ) : IsCubic (fun s => jac2 x s t) := by
  simp only [jac2_eq]
  refine IsCubic.sub ((map2_quad_s x 0 t).isCubic_mul (map2t_quad_s x 1 t)) ?_
  have := (map2_quad_s x 1 t).isCubic_mul (map2t_quad_s x 0 t)
  simpa only [mul_comm] using this

theorem jac2_cubic_t (x : ℕ → Fin 2 → ℝ) (s : ℝ) : IsCubic (fun t => jac2 x s t) := by
  simp only [jac2_eq]
  refine IsCubic.sub ?_ ((map2_quad_t x 0 s).isCubic_mul (map2s_quad_t x 1 s))
  have := (map2_quad_t x 1 s).isCubic_mul (map2s_quad_t x 0 s)
  simpa only [mul_comm] using this

/-- Four points per sub-volume give its exact area. -/
theorem gauss2 (x : ℕ → Fin 2 → ℝ) (k l : ℕ) :
    ∑ j ∈ range 2, ∑ i ∈ range 2, areaWt k l i j * jac2 x (gaussLoc k i) (gaussLoc l j)
      = ∫ t in scsEnd l..scsEnd (l + 1), ∫ s in scsEnd k..scsEnd (k + 1), jac2 x s t := by
  have h1 : ∀ t, (∫ s in scsEnd k..scsEnd (k + 1), jac2 x s t) = ∑ i ∈ range 2, lineWt k i * jac2 x (gaussLoc k i) t :=
    fun t => ((jac2_cubic_s x t).gauss k).symm
  simp only [h1]
  rw [← IsCubic.gauss (f := fun t => ∑ i ∈ range 2, lineWt k i * jac2 x (gaussLoc k i) t)
    (IsCubic.sum _ fun i _ => (jac2_cubic_t x _).const_mul _) l]
  refine Finset.sum_congr rfl fun j _ => ?_
  rw [Finset.mul_sum]
  refine Finset.sum_congr rfl fun i _ => ?_
  rw [areaWt_eq]; ring

theorem quad9_scv_sum (F : SideIp 2 → ℝ) : (quad9ScvIps.map F).sum = ∑ l ∈ range 3, ∑ k ∈ range 3, ∑ j ∈ range 2, ∑ i ∈ range 2,
    F { loc := ![gaussLoc k i, gaussLoc l j], node := quadNode k l, weight := areaWt k l i j } := by
  simp only [quad9ScvIps, sum_flatMap_range, sum_map_range]

/-- The sub-interval a node belongs to. -/
theorem lo_hi (k : ℕ) (hk : k < 3) : scsEnd k = lo ((k : ℤ) - 1) ∧ scsEnd (k + 1) = hi ((k : ℤ) - 1) := by
  interval_cases k <;> simp [scsEnd, lo, hi, dist_inv]

theorem quadNode_ref {k l : ℕ} (hk : k < 3) (hl : l < 3) : ref2 (quadNode k l) = ((k : ℤ) - 1, (l : ℤ) - 1) := by
  interval_cases k <;> interval_cases l <;> rfl

theorem quadNode_surj {n : ℕ} (hn : n < 9) : ∃ k < 3, ∃ l < 3, n = quadNode k l := by
  have : ∀ n < 9, ∃ k < 3, ∃ l < 3, n = quadNode k l := by decide
  exact this n hn

theorem quadNode_inj {k l k' l' : ℕ} (hk : k < 3) (hl : l < 3) (hk' : k' < 3) (hl' : l' < 3) : quadNode k l = quadNode k' l' ↔ k = k' ∧ l = l' := by
  have : ∀ k < 3, ∀ l < 3, ∀ k' < 3, ∀ l' < 3, (quadNode k l = quadNode k' l' ↔ k = k' ∧ l = l') := by decide
  exact this k hk l hl k' hk' l' hl'

theorem sum_quadNode (f : ℕ → ℕ → ℝ) {a b : ℕ} (ha : a < 3) (hb : b < 3) :
    (∑ l ∈ range 3, ∑ k ∈ range 3, if quadNode k l = quadNode a b then f k l else 0) = f a b := by
  rw [Finset.sum_eq_single_of_mem b (mem_range.2 hb)]
  · rw [Finset.sum_eq_single_of_mem a (mem_range.2 ha)]
    · simp
    · intro k hk hka
      rw [if_neg]; rw [quadNode_inj (mem_range.1 hk) hb ha hb]; tauto
  · intro l hl hlb
    refine Finset.sum_eq_zero fun k hk => ?_
    rw [if_neg]; rw [quadNode_inj (mem_range.1 hk) (mem_range.1 hl) ha hb]; tauto

theorem quad9_node_vol (x : ℕ → Fin 2 → ℝ) {n : ℕ} (hn : n < 9) :
    (quad9ScvIps.map fun ip => if ip.node = n then quad9Vol x ip else 0).sum
      = ∫ t in lo (ref2 n).2..hi (ref2 n).2, ∫ s in lo (ref2 n).1..hi (ref2 n).1, jac2 x s t := by
  obtain ⟨a, ha, b, hb, rfl⟩ := quadNode_surj hn
  rw [quad9_scv_sum]
  simp only [sum_ite_zero]
  rw [sum_quadNode (fun k l => ∑ j ∈ range 2, ∑ i ∈ range 2, quad9Vol x
    { loc := ![gaussLoc k i, gaussLoc l j], node := quadNode k l, weight := areaWt k l i j }) ha hb]
  rw [quadNode_ref ha hb, ← (lo_hi a ha).1, ← (lo_hi a ha).2, ← (lo_hi b hb).1, ← (lo_hi b hb).2, ← gauss2]
  refine Finset.sum_congr rfl fun j _ => Finset.sum_congr rfl fun i _ => ?_
  simp only [quad9Vol, Matrix.cons_val_zero, Matrix.cons_val_one, det2_eq, jac2_eq]
  ring

theorem continuous_jac2 (x : ℕ → Fin 2 → ℝ) : (∀ t, Continuous fun s => jac2 x s t) ∧ ∀ s, Continuous fun t => jac2 x s t := by
  constructor <;> intro t
  · obtain ⟨c, hc⟩ := jac2_cubic_s x t
    simp only [hc, cubic]; fun_prop
  · obtain ⟨c, hc⟩ := jac2_cubic_t x t
    simp only [hc, cubic]; fun_prop

theorem IsCubic.continuous {f : ℝ → ℝ} (hf : IsCubic f) : Continuous f := by
  obtain ⟨c, hc⟩ := hf
  have : f = cubic c := funext hc
  rw [this]; unfold cubic; fun_prop

theorem IsCubic.integral_split {f : ℝ → ℝ} (hf : IsCubic f) :
    ∑ k ∈ range 3, (∫ s in scsEnd k..scsEnd (k + 1), f s) = ∫ s in (-1 : ℝ)..1, f s := by
  have hi : ∀ a b, IntervalIntegrable f MeasureTheory.volume a b := fun a b => hf.continuous.intervalIntegrable a b
  rw [intervalIntegral.sum_integral_adjacent_intervals fun k _ => hi _ _]
  rfl

/-- The whole element. -/
theorem quad9_total_vol (x : ℕ → Fin 2 → ℝ) :
    (quad9ScvIps.map (quad9Vol x)).sum = ∫ t in (-1 : ℝ)..1, ∫ s in (-1 : ℝ)..1, jac2 x s t := by
  rw [quad9_scv_sum]
  have h1 : ∀ t, (∫ s in (-1 : ℝ)..1, jac2 x s t) = ∑ k ∈ range 3, ∑ i ∈ range 2, lineWt k i * jac2 x (gaussLoc k i) t := by
    intro t
    rw [← (jac2_cubic_s x t).integral_split]
    exact Finset.sum_congr rfl fun k _ => ((jac2_cubic_s x t).gauss k).symm
  have hc : IsCubic (fun t => ∑ k ∈ range 3, ∑ i ∈ range 2, lineWt k i * jac2 x (gaussLoc k i) t) :=
    IsCubic.sum _ fun k _ => IsCubic.sum _ fun i _ => (jac2_cubic_t x _).const_mul _
  simp only [h1]
  rw [← hc.integral_split]
  refine Finset.sum_congr rfl fun l _ => ?_
  rw [← hc.gauss, Finset.sum_comm]
  refine Finset.sum_congr rfl fun j _ => ?_
  rw [Finset.mul_sum]
  refine Finset.sum_congr rfl fun k _ => ?_
  rw [Finset.mul_sum]
  refine Finset.sum_congr rfl fun i _ => ?_
  simp only [quad9Vol, Matrix.cons_val_zero, Matrix.cons_val_one, det2_eq, jac2_eq, areaWt_eq]
  ring

end Nalu.P2
