import Verif.Model.HeatTransfer
import Verif.Props.Vof4
import Mathlib.Tactic.Ring
import Mathlib.Tactic.Linarith
import Mathlib.Tactic.FieldSimp
import Mathlib.Tactic.NormNum
import Mathlib.Tactic.Positivity
import Mathlib.Tactic.FinCases

/-!
# Properties of conjugate heat transfer

* C119: the wall data of the fluid are consistent: coefficient times temperature difference is the heat flux.
* C121: the Robin parameter is the impedance of the discrete half space.
-/

namespace Nalu.Cht
open Nalu.Edge Nalu.Kernel Finset

variable {N : Type*} [DecidableEq N] {nd nn nf nip : ℕ} {R : Type*} [Fintype R]

/-! ## Specification -/

/-- Specification: the sum of `val` over the visits of all ranks that belong to node `n`. -/
def nodeTotal {α : Type*} (ips : R → List α) (key : α → N) (val : α → ℝ) (n : N) : ℝ :=
  ∑ k, ((ips k).map fun v => if key v = n then val v else 0).sum

theorem nodeTotal_add {α : Type*} (ips : R → List α) (key : α → N) (f g : α → ℝ) (n : N) :
    nodeTotal ips key (fun v => f v + g v) n = nodeTotal ips key f n + nodeTotal ips key g n := by
  simp only [nodeTotal, ← Finset.sum_add_distrib]
  refine Finset.sum_congr rfl fun k _ => ?_
  rw [← List.sum_map_add]
  congr 1
  refine List.map_congr_left fun v _ => ?_
  split_ifs <;> simp

theorem nodeTotal_mul {α : Type*} (ips : R → List α) (key : α → N) (f : α → ℝ) (c : ℝ) (n : N) :
    nodeTotal ips key (fun v => f v * c) n = nodeTotal ips key f n * c := by
  simp only [nodeTotal, Finset.sum_mul]
  refine Finset.sum_congr rfl fun k _ => ?_
  rw [← List.sum_map_mul_right]
  congr 1
  refine List.map_congr_left fun v _ => ?_
  split_ifs <;> simp

theorem nodeTotal_congr {α : Type*} (ips : R → List α) (key : α → N) (f g : α → ℝ) (n : N)
    (h : ∀ k, ∀ v ∈ ips k, key v = n → f v = g v) : nodeTotal ips key f n = nodeTotal ips key g n := by
  refine Finset.sum_congr rfl fun k _ => ?_
  congr 1
  refine List.map_congr_left fun v hv => ?_
  split_ifs with hn
  · exact h k v hv hn
  · rfl

theorem nodeTotal_le {α : Type*} (ips : R → List α) (key : α → N) (f g : α → ℝ) (n : N)
    (h : ∀ k, ∀ v ∈ ips k, key v = n → f v ≤ g v) : nodeTotal ips key f n ≤ nodeTotal ips key g n := by
  refine Finset.sum_le_sum fun k _ => List.sum_le_sum fun v hv => ?_
  split_ifs with hn
  · exact h k v hv hn
  · exact le_rfl

theorem nodeTotal_nonneg {α : Type*} (ips : R → List α) (key : α → N) (f : α → ℝ) (n : N)
    (h : ∀ k, ∀ v ∈ ips k, key v = n → 0 ≤ f v) : 0 ≤ nodeTotal ips key f n := by
  refine Finset.sum_nonneg fun k _ => List.sum_nonneg fun x hx => ?_
  obtain ⟨v, hv, rfl⟩ := List.mem_map.mp hx
  split_ifs with hn
  · exact h k v hv hn
  · exact le_rfl

theorem nodeTotal_pos {α : Type*} (ips : R → List α) (key : α → N) (f : α → ℝ) (n : N)
    (h : ∀ k, ∀ v ∈ ips k, key v = n → 0 < f v) (hn : ∃ k, ∃ v ∈ ips k, key v = n) : 0 < nodeTotal ips key f n := by
  obtain ⟨k0, v0, hv0, hk0⟩ := hn
  have hnn : ∀ k, 0 ≤ ((ips k).map fun v => if key v = n then f v else 0).sum := fun k => by
    refine List.sum_nonneg fun x hx => ?_
    obtain ⟨v, hv, rfl⟩ := List.mem_map.mp hx
    split_ifs with hn
    · exact (h k v hv hn).le
    · exact le_rfl
  refine Finset.sum_pos' (fun k _ => hnn k) ⟨k0, Finset.mem_univ _, ?_⟩
  have : f v0 ≤ ((ips k0).map fun v => if key v = n then f v else 0).sum := by
    refine List.single_le_sum ?_ _ (List.mem_map.mpr ⟨v0, hv0, by rw [if_pos hk0]⟩)
    intro x hx
    obtain ⟨v, hv, rfl⟩ := List.mem_map.mp hx
    split_ifs with hn
    · exact (h k0 v hv hn).le
    · exact le_rfl
  exact lt_of_lt_of_le (h k0 v0 hv0 hk0) this

/-! ## Closed form of the assembly -/

theorem fold_closed {α : Type*} (key : α → N) (a t h q r : α → ℝ) (l : List α) (s : Wall N) (n : N) :
    let w := l.foldl (fun s v => s.add (key v) (a v) (t v) (h v) (q v) (r v)) s
    w.area n = s.area n + (l.map fun v => if key v = n then a v else 0).sum ∧
    w.tRef n = s.tRef n + (l.map fun v => if key v = n then t v else 0).sum ∧
    w.htc n = s.htc n + (l.map fun v => if key v = n then h v else 0).sum ∧
    w.q n = s.q n + (l.map fun v => if key v = n then q v else 0).sum ∧
    w.robin n = s.robin n + (l.map fun v => if key v = n then r v else 0).sum := by
  have up : ∀ (f : N → ℝ) (m : N) (x : ℝ), Function.update f m (f m + x) n = f n + if m = n then x else 0 := by
    intro f m x
    by_cases e : m = n
    · subst e; simp
    · rw [Function.update_of_ne (Ne.symm e), if_neg e, add_zero]
  refine ⟨?_, ?_, ?_, ?_, ?_⟩
  · exact foldl_meas (fun w : Wall N => w.area n) (fun v s => s.add (key v) (a v) (t v) (h v) (q v) (r v)) _ (fun v s => up _ _ _) l s
  · exact foldl_meas (fun w : Wall N => w.tRef n) (fun v s => s.add (key v) (a v) (t v) (h v) (q v) (r v)) _ (fun v s => up _ _ _) l s
  · exact foldl_meas (fun w : Wall N => w.htc n) (fun v s => s.add (key v) (a v) (t v) (h v) (q v) (r v)) _ (fun v s => up _ _ _) l s
  · exact foldl_meas (fun w : Wall N => w.q n) (fun v s => s.add (key v) (a v) (t v) (h v) (q v) (r v)) _ (fun v s => up _ _ _) l s
  · exact foldl_meas (fun w : Wall N => w.robin n) (fun v s => s.add (key v) (a v) (t v) (h v) (q v) (r v)) _ (fun v s => up _ _ _) l s

theorem sum_closed {α : Type*} (key : α → N) (a t h q r : α → ℝ) (ips : R → List α) (n : N) :
    let w := Wall.parallelSum fun k => (ips k).foldl (fun s v => s.add (key v) (a v) (t v) (h v) (q v) (r v)) Wall.zero
    w.area n = nodeTotal ips key a n ∧ w.tRef n = nodeTotal ips key t n ∧ w.htc n = nodeTotal ips key h n ∧
      w.q n = nodeTotal ips key q n ∧ w.robin n = nodeTotal ips key r n := by
  have := fun k => fold_closed key a t h q r (ips k) Wall.zero n
  simp only [Wall.parallelSum, nodeTotal]
  refine ⟨?_, ?_, ?_, ?_, ?_⟩ <;> refine Finset.sum_congr rfl fun k _ => ?_
  · rw [(this k).1]; simp [Wall.zero]
  · rw [(this k).2.1]; simp [Wall.zero]
  · rw [(this k).2.2.1]; simp [Wall.zero]
  · rw [(this k).2.2.2.1]; simp [Wall.zero]
  · rw [(this k).2.2.2.2]; simp [Wall.zero]

/-- The identity behind the normalisation. -/
theorem normalize_balance {S : Wall N} {T : N → ℝ} {n : N} (hT : T n ≠ 0) (hh : (S.normalize T).htc n ≠ 0)
    (hq : S.q n = S.tRef n + S.htc n) : (S.normalize T).htc n * ((S.normalize T).tRef n - T n) = (S.normalize T).q n := by
  simp only [Wall.normalize] at hh ⊢
  have hA : S.area n ≠ 0 := by rintro h; apply hh; rw [h]; simp
  have hH : S.htc n ≠ 0 := by rintro h; apply hh; rw [h]; simp
  rw [hq]
  field_simp
  ring

/-! ## C119, edge scheme -/

/-- Specification: the wall faces point out of the fluid and have area. -/
def WallOutward (f : Fluid nd N) (ips : R → List (EdgeIp nd N)) : Prop := ∀ k, ∀ v ∈ ips k, 0 < v.axdx f ∧ 0 < v.asq

theorem edge_sums (f : Fluid nd N) (ips : R → List (EdgeIp nd N)) (n : N) :
    let S := Wall.parallelSum fun k => (ips k).foldl (EdgeIp.assemble f) Wall.zero
    S.area n = nodeTotal ips (·.nodeR) (fun v => Real.sqrt v.asq) n ∧
    S.tRef n = nodeTotal ips (·.nodeR) (fun v => f.cond v.nodeR * f.temp v.nodeL * v.asq * (1 / v.axdx f) - v.nonOrth f * f.nocFac) n ∧
    S.htc n = nodeTotal ips (·.nodeR) (fun v => -(f.cond v.nodeR) * f.temp v.nodeR * v.asq * (1 / v.axdx f)) n ∧
    S.q n = nodeTotal ips (·.nodeR) (fun v => f.cond v.nodeR * (f.temp v.nodeL - f.temp v.nodeR) * v.asq * (1 / v.axdx f) -
      v.nonOrth f * f.nocFac) n ∧
    S.robin n = nodeTotal ips (·.nodeR) (fun v => v.alpha f * Real.sqrt v.asq) n :=
  sum_closed (fun v : EdgeIp nd N => v.nodeR) _ _ _ _ _ ips n

/-- **C119** (edge scheme) Coefficient, reference temperature and heat flux belong together: `q = h (Tref - T)` at every wall node, with or
without non-orthogonal correction, however the faces are distributed. -/
theorem c119_balance_edge (f : Fluid nd N) (ips : R → List (EdgeIp nd N)) {n : N} (hT : f.temp n ≠ 0)
    (hh : (edgeWall f ips).htc n ≠ 0) :
    (edgeWall f ips).htc n * ((edgeWall f ips).tRef n - f.temp n) = (edgeWall f ips).q n := by
  refine normalize_balance hT hh ?_
  obtain ⟨-, h2, h3, h4, -⟩ := edge_sums f ips n
  rw [h2, h3, h4, ← nodeTotal_add]
  refine nodeTotal_congr _ _ _ _ _ fun k v _ _ => by ring

/-- **C119** (edge scheme) The coefficient is the conductivity over the wall distance, averaged over the node's wall area; it does not
depend on any temperature and is positive. -/
theorem c119_coefficient_edge (f : Fluid nd N) (ips : R → List (EdgeIp nd N)) (hw : WallOutward f ips) {n : N} (hT : f.temp n ≠ 0)
    (hn : ∃ k, ∃ v ∈ ips k, v.nodeR = n) :
    (edgeWall f ips).htc n =
        f.cond n * nodeTotal ips (·.nodeR) (fun v => Real.sqrt v.asq / v.edgeLen f) n / nodeTotal ips (·.nodeR) (fun v => Real.sqrt v.asq) n ∧
      (0 < f.cond n → 0 < (edgeWall f ips).htc n) := by
  have hA : 0 < nodeTotal ips (·.nodeR) (fun v : EdgeIp nd N => Real.sqrt v.asq) n :=
    nodeTotal_pos _ _ _ _ (fun k v hv _ => Real.sqrt_pos.mpr (hw k v hv).2) hn
  obtain ⟨h1, -, h3, -, -⟩ := edge_sums f ips n
  have e : (edgeWall f ips).htc n =
      f.cond n * nodeTotal ips (·.nodeR) (fun v => Real.sqrt v.asq / v.edgeLen f) n / nodeTotal ips (·.nodeR) (fun v => Real.sqrt v.asq) n := by
    simp only [edgeWall, Wall.normalize]
    rw [h1, h3]
    have : nodeTotal ips (·.nodeR) (fun v => -(f.cond v.nodeR) * f.temp v.nodeR * v.asq * (1 / v.axdx f)) n =
        nodeTotal ips (·.nodeR) (fun v => Real.sqrt v.asq / v.edgeLen f) n * (-(f.cond n * f.temp n)) := by
      rw [← nodeTotal_mul]
      refine nodeTotal_congr _ _ _ _ _ fun k v hv hvn => ?_
      have hs := Real.sqrt_pos.mpr (hw k v hv).2
      have ha := (hw k v hv).1
      rw [hvn, EdgeIp.edgeLen]
      have hsq : v.asq = Real.sqrt v.asq * Real.sqrt v.asq := (Real.mul_self_sqrt (hw k v hv).2.le).symm
      field_simp
      rw [sq, ← hsq]
    rw [this]
    field_simp
  refine ⟨e, fun hc => ?_⟩
  rw [e]
  refine div_pos (mul_pos hc (nodeTotal_pos _ _ _ _ (fun k v hv _ => ?_) hn)) hA
  have hs := Real.sqrt_pos.mpr (hw k v hv).2
  exact div_pos hs (div_pos (hw k v hv).1 hs)

/-- **C119** (edge scheme) Without non-orthogonal correction the reference temperature lies between the temperatures of the opposing
nodes. -/
theorem c119_reference_edge (f : Fluid nd N) (ips : R → List (EdgeIp nd N)) (hw : WallOutward f ips) (hnoc : f.nocFac = 0) {n : N}
    (hT : f.temp n ≠ 0) (hc : 0 < f.cond n) (hn : ∃ k, ∃ v ∈ ips k, v.nodeR = n) {lo hi : ℝ}
    (hb : ∀ k, ∀ v ∈ ips k, v.nodeR = n → lo ≤ f.temp v.nodeL ∧ f.temp v.nodeL ≤ hi) :
    lo ≤ (edgeWall f ips).tRef n ∧ (edgeWall f ips).tRef n ≤ hi := by
  let W : ℝ := nodeTotal ips (·.nodeR) (fun v => f.cond v.nodeR * v.asq * (1 / v.axdx f)) n
  have hW : 0 < W := nodeTotal_pos _ _ _ _ (fun k v hv hvn => by
    rw [hvn]; exact mul_pos (mul_pos hc (hw k v hv).2) (one_div_pos.mpr (hw k v hv).1)) hn
  have hA : 0 < nodeTotal ips (·.nodeR) (fun v : EdgeIp nd N => Real.sqrt v.asq) n :=
    nodeTotal_pos _ _ _ _ (fun k v hv _ => Real.sqrt_pos.mpr (hw k v hv).2) hn
  obtain ⟨h1, h2, h3, -, -⟩ := edge_sums f ips n
  have e3 : nodeTotal ips (·.nodeR) (fun v => -(f.cond v.nodeR) * f.temp v.nodeR * v.asq * (1 / v.axdx f)) n = W * (-(f.temp n)) := by
    rw [← nodeTotal_mul]
    refine nodeTotal_congr _ _ _ _ _ fun k v hv hvn => ?_
    rw [hvn]; ring
  have e : (edgeWall f ips).tRef n = nodeTotal ips (·.nodeR)
      (fun v => f.cond v.nodeR * f.temp v.nodeL * v.asq * (1 / v.axdx f) - v.nonOrth f * f.nocFac) n / W := by
    simp only [edgeWall, Wall.normalize]
    rw [h1, h2, h3, e3]
    have h' := hA.ne'
    have hW' := hW.ne'
    generalize nodeTotal ips (·.nodeR) (fun v => f.cond v.nodeR * f.temp v.nodeL * v.asq * (1 / v.axdx f) - v.nonOrth f * f.nocFac) n = S
    generalize W = W' at hW' ⊢
    field_simp
  rw [e, le_div_iff₀ hW, div_le_iff₀ hW, mul_comm lo, mul_comm hi]
  constructor
  · rw [← nodeTotal_mul]
    refine nodeTotal_le _ _ _ _ _ fun k v hv hvn => ?_
    have hp : 0 ≤ f.cond v.nodeR * v.asq * (1 / v.axdx f) := by
      rw [hvn]; exact (mul_pos (mul_pos hc (hw k v hv).2) (one_div_pos.mpr (hw k v hv).1)).le
    have := mul_le_mul_of_nonneg_left (hb k v hv hvn).1 hp
    rw [hnoc]; linarith
  · rw [← nodeTotal_mul]
    refine nodeTotal_le _ _ _ _ _ fun k v hv hvn => ?_
    have hp : 0 ≤ f.cond v.nodeR * v.asq * (1 / v.axdx f) := by
      rw [hvn]; exact (mul_pos (mul_pos hc (hw k v hv).2) (one_div_pos.mpr (hw k v hv).1)).le
    have := mul_le_mul_of_nonneg_left (hb k v hv hvn).2 hp
    rw [hnoc]; linarith

/-- Specification: the difference between the two-point flux of an integration point and Fourier's law `-k ∇T · A` for gradient `g`. -/
noncomputable def EdgeIp.fluxError (v : EdgeIp nd N) (f : Fluid nd N) (g : Fin nd → ℝ) : ℝ :=
  f.cond v.nodeR * (f.temp v.nodeL - f.temp v.nodeR) * v.asq * (1 / v.axdx f) - -(f.cond v.nodeR) * ∑ j, g j * v.area j

theorem nodeTotal_vec (ips : R → List (EdgeIp nd N)) (g : Fin nd → ℝ) (n : N) :
    nodeTotal ips (·.nodeR) (fun v : EdgeIp nd N => ∑ j, g j * v.area j) n = ∑ j, g j * nodeTotal ips (·.nodeR) (fun v => v.area j) n := by
  simp only [nodeTotal, Finset.mul_sum]
  rw [Finset.sum_comm]
  refine Finset.sum_congr rfl fun k _ => ?_
  induction ips k with
  | nil => simp
  | cons v l ih =>
    simp only [List.map_cons, List.sum_cons, ih, mul_add, Finset.sum_add_distrib]
    congr 1
    split_ifs <;> simp

/-- **C119** (finding, edge scheme) For a temperature affine in space and its exact nodal gradient, the non-orthogonal correction enters
with the wrong sign: instead of removing the error of the two-point flux (factor `1 - noc`) it doubles it (factor `1 + noc`). -/
theorem c119_noc_sign (f : Fluid nd N) (ips : R → List (EdgeIp nd N)) (hw : WallOutward f ips) (c : ℝ)
    (g : Fin nd → ℝ) (hT : ∀ m, f.temp m = affine c g (f.x m)) (hg : ∀ m j, f.dhdx m j = f.cp m * g j) (hcp : ∀ m, f.cp m ≠ 0) (n : N)
    (hn : ∃ k, ∃ v ∈ ips k, v.nodeR = n) :
    (edgeWall f ips).q n * nodeTotal ips (·.nodeR) (fun v => Real.sqrt v.asq) n =
      -(f.cond n) * ∑ j, g j * nodeTotal ips (·.nodeR) (fun v => v.area j) n +
        (1 + f.nocFac) * nodeTotal ips (·.nodeR) (fun v => v.fluxError f g) n := by
  have hA : 0 < nodeTotal ips (·.nodeR) (fun v : EdgeIp nd N => Real.sqrt v.asq) n :=
    nodeTotal_pos _ _ _ _ (fun k v hv _ => Real.sqrt_pos.mpr (hw k v hv).2) hn
  obtain ⟨h1, -, -, h4, -⟩ := edge_sums f ips n
  simp only [edgeWall, Wall.normalize]
  rw [h1, h4, div_mul_cancel₀ _ hA.ne']
  have key : ∀ k, ∀ v ∈ ips k, v.nodeR = n →
      f.cond v.nodeR * (f.temp v.nodeL - f.temp v.nodeR) * v.asq * (1 / v.axdx f) - v.nonOrth f * f.nocFac =
        (∑ j, g j * v.area j) * -(f.cond n) + v.fluxError f g * (1 + f.nocFac) := by
    intro k v hv hvn
    have e1 : f.temp v.nodeL - f.temp v.nodeR = -∑ j, g j * (f.x v.nodeR j - f.x v.nodeL j) := by
      rw [hT, hT]
      simp only [affine, mul_sub, Finset.sum_sub_distrib]
      ring
    have e2 : v.nonOrth f = -(f.cond n) * (∑ j, g j * v.area j) +
        f.cond n * v.asq * (1 / v.axdx f) * ∑ j, g j * (f.x v.nodeR j - f.x v.nodeL j) := by
      rw [EdgeIp.nonOrth, Finset.mul_sum, Finset.mul_sum, ← Finset.sum_add_distrib]
      refine Finset.sum_congr rfl fun j _ => ?_
      rw [hg, mul_div_cancel_left₀ _ (hcp _), hvn]
      ring
    rw [EdgeIp.fluxError, e2, e1, hvn]
    ring
  rw [nodeTotal_congr _ _ _ _ _ key, nodeTotal_add, nodeTotal_mul, nodeTotal_mul, nodeTotal_vec]
  ring

/-- **C119** (edge scheme) Where the edges to the wall are normal to it, a temperature affine in space gives Fourier's law: the heat through
the node's wall area is `-k ∇T · A`, with or without the correction. -/
theorem c119_fourier_edge (f : Fluid nd N) (ips : R → List (EdgeIp nd N)) (hw : WallOutward f ips) (c : ℝ)
    (g : Fin nd → ℝ) (hT : ∀ m, f.temp m = affine c g (f.x m)) (hg : ∀ m j, f.dhdx m j = f.cp m * g j) (hcp : ∀ m, f.cp m ≠ 0) (n : N)
    (hn : ∃ k, ∃ v ∈ ips k, v.nodeR = n)
    (horth : ∀ k, ∀ v ∈ ips k, v.nodeR = n → ∃ a, ∀ j, v.area j = a * (f.x v.nodeR j - f.x v.nodeL j)) :
    (edgeWall f ips).q n * nodeTotal ips (·.nodeR) (fun v => Real.sqrt v.asq) n =
      -(f.cond n) * ∑ j, g j * nodeTotal ips (·.nodeR) (fun v => v.area j) n := by
  rw [c119_noc_sign f ips hw c g hT hg hcp n hn]
  have : nodeTotal ips (·.nodeR) (fun v => v.fluxError f g) n = nodeTotal ips (·.nodeR) (fun v : EdgeIp nd N => (fun _ => (0 : ℝ)) v * 0) n := by
    refine nodeTotal_congr _ _ _ _ _ fun k v hv hvn => ?_
    obtain ⟨a, ha⟩ := horth k v hv hvn
    have hax := (hw k v hv).1.ne'
    have e1 : f.temp v.nodeL - f.temp v.nodeR = -∑ j, g j * (f.x v.nodeR j - f.x v.nodeL j) := by
      rw [hT, hT]
      simp only [affine, mul_sub, Finset.sum_sub_distrib]
      ring
    have e2 : v.asq = a * v.axdx f := by
      rw [EdgeIp.asq, EdgeIp.axdx, Finset.mul_sum]
      exact Finset.sum_congr rfl fun j _ => by rw [ha j]; ring
    have e3 : ∑ j, g j * v.area j = a * ∑ j, g j * (f.x v.nodeR j - f.x v.nodeL j) := by
      rw [Finset.mul_sum]
      exact Finset.sum_congr rfl fun j _ => by rw [ha j]; ring
    rw [EdgeIp.fluxError, e1, e2, e3]
    field_simp
    ring
  rw [this, nodeTotal_mul]
  ring

/-! ## C119, element scheme -/

theorem elem_sums (f : Fluid nd N) (ips : R → List (ElemIp nn nf nd N)) (n : N) :
    let S := Wall.parallelSum fun k => (ips k).foldl (ElemIp.assemble f) Wall.zero
    S.area n = nodeTotal ips (fun v => v.node v.near) (fun v => v.aMag) n ∧
    S.tRef n = nodeTotal ips (fun v => v.node v.near) (fun v => -(v.bip f.cond * v.dTdAOff f.temp)) n ∧
    S.htc n = nodeTotal ips (fun v => v.node v.near) (fun v => -(v.bip f.cond * v.dTdAOn f.temp)) n ∧
    S.q n = nodeTotal ips (fun v => v.node v.near) (fun v => -(v.bip f.cond * v.dTdA f.temp)) n ∧
    S.robin n = nodeTotal ips (fun v => v.node v.near) (fun v => v.alpha f * v.aMag) n :=
  sum_closed (fun v : ElemIp nn nf nd N => v.node v.near) _ _ _ _ _ ips n

theorem on_add_off (v : ElemIp nn nf nd N) (T : N → ℝ) : v.dTdA T = v.dTdAOff T + v.dTdAOn T := by
  simp only [ElemIp.dTdA, ElemIp.dTdAOff, ElemIp.dTdAOn, ← Finset.sum_add_distrib]
  refine Finset.sum_congr rfl fun ic _ => Finset.sum_congr rfl fun j _ => ?_
  cases v.onFace ic <;> simp

/-- The nodes on the face are those the integration points of the face belong to. -/
theorem c119_on_face (l : List (Fin nn)) (ic : Fin nn) : nodesOnFace l ic = true ↔ ic ∈ l := by
  have : ∀ (l : List (Fin nn)) (w : Fin nn → Bool), l.foldl (fun w n => Function.update w n true) w ic = true ↔ (w ic = true ∨ ic ∈ l) := by
    intro l
    induction l with
    | nil => simp
    | cons a l ih =>
      intro w
      rw [List.foldl_cons, ih, List.mem_cons]
      by_cases h : ic = a
      · subst h; simp
      · rw [Function.update_of_ne h]; simp [h]
  rw [nodesOnFace, this]
  simp

/-- **C119** (element scheme) `q = h (Tref - T)` at every wall node. -/
theorem c119_balance_elem (f : Fluid nd N) (ips : R → List (ElemIp nn nf nd N)) {n : N} (hT : f.temp n ≠ 0)
    (hh : (elemWall f ips).htc n ≠ 0) :
    (elemWall f ips).htc n * ((elemWall f ips).tRef n - f.temp n) = (elemWall f ips).q n := by
  refine normalize_balance hT hh ?_
  obtain ⟨-, h2, h3, h4, -⟩ := elem_sums f ips n
  rw [h2, h3, h4, ← nodeTotal_add]
  refine nodeTotal_congr _ _ _ _ _ fun k v _ _ => ?_
  rw [on_add_off]; ring

/-- **C119** (element scheme) For a temperature affine in space the heat flux is Fourier's law, area averaged. -/
theorem c119_fourier_elem (f : Fluid nd N) (ips : R → List (ElemIp nn nf nd N)) (c : ℝ) (g : Fin nd → ℝ)
    (hT : ∀ m, f.temp m = affine c g (f.x m))
    (hgrad : ∀ k, ∀ v ∈ ips k, GradConst v.dndx ∧ GradLinear v.dndx fun ic => f.x (v.node ic)) (n : N) :
    (elemWall f ips).q n = nodeTotal ips (fun v => v.node v.near) (fun v => -(v.bip f.cond) * ∑ j, g j * v.area j) n /
      nodeTotal ips (fun v => v.node v.near) (fun v => v.aMag) n := by
  obtain ⟨h1, -, -, h4, -⟩ := elem_sums f ips n
  simp only [elemWall, Wall.normalize]
  rw [h1, h4]
  congr 1
  refine nodeTotal_congr _ _ _ _ _ fun k v hv _ => ?_
  obtain ⟨hc, hl⟩ := hgrad k v hv
  have : v.dTdA f.temp = ∑ j, g j * v.area j := by
    simp only [ElemIp.dTdA]
    rw [Finset.sum_comm]
    refine Finset.sum_congr rfl fun j _ => ?_
    have e1 : ∀ ic, v.dndx ic j * v.area j * f.temp (v.node ic) =
        v.area j * (c * v.dndx ic j) + v.area j * ∑ i, g i * (v.dndx ic j * f.x (v.node ic) i) := by
      intro ic
      rw [hT]
      simp only [affine, mul_add, Finset.mul_sum]
      congr 1
      · ring
      · exact Finset.sum_congr rfl fun i _ => by ring
    simp only [e1, Finset.sum_add_distrib, ← Finset.mul_sum]
    rw [hc j]
    rw [Finset.sum_comm]
    simp only [← Finset.mul_sum, hl _ j]
    simp [mul_comm]
  rw [this]; ring

/-- **C119** (element scheme) Where the temperature is uniform over the wall nodes of the elements at a node, the coefficient is the
conductivity over the element length, area averaged: it does not depend on any temperature. -/
theorem c119_coefficient_elem (f : Fluid nd N) (ips : R → List (ElemIp nn nf nd N)) {n : N} (hT : f.temp n ≠ 0)
    (hu : ∀ k, ∀ v ∈ ips k, v.node v.near = n → ∀ ic, v.onFace ic = true → f.temp (v.node ic) = f.temp n) :
    (elemWall f ips).htc n = nodeTotal ips (fun v => v.node v.near) (fun v => v.bip f.cond * v.invLen) n /
      nodeTotal ips (fun v => v.node v.near) (fun v => v.aMag) n := by
  obtain ⟨h1, -, h3, -, -⟩ := elem_sums f ips n
  simp only [elemWall, Wall.normalize]
  rw [h1, h3]
  have : nodeTotal ips (fun v => v.node v.near) (fun v => -(v.bip f.cond * v.dTdAOn f.temp)) n =
      nodeTotal ips (fun v => v.node v.near) (fun v => v.bip f.cond * v.invLen) n * -(f.temp n) := by
    rw [← nodeTotal_mul]
    refine nodeTotal_congr _ _ _ _ _ fun k v hv hvn => ?_
    have : v.dTdAOn f.temp = v.invLen * f.temp n := by
      simp only [ElemIp.dTdAOn, ElemIp.invLen, Finset.sum_mul]
      refine Finset.sum_congr rfl fun ic _ => Finset.sum_congr rfl fun j _ => ?_
      cases h : v.onFace ic
      · simp
      · rw [hu k v hv hvn ic h]; simp
    rw [this]; ring
  rw [this]
  by_cases hA : nodeTotal ips (fun v => v.node v.near) (fun v : ElemIp nn nf nd N => v.aMag) n = 0
  · rw [hA]; simp
  · field_simp

/-- **C119** (element scheme) The element length is the wall distance: if the nodes off the face all lie at distance `h` behind the plane
of the face, `eltLen = h`. -/
theorem c119_length_elem (v : ElemIp nn nf nd N) (x : N → Fin nd → ℝ) (hc : GradConst v.dndx)
    (hl : GradLinear v.dndx fun ic => x (v.node ic)) (hA : 0 < ∑ j, v.area j * v.area j) (c h : ℝ) (hh : h ≠ 0)
    (hon : ∀ ic, v.onFace ic = true → affine c (fun j => v.area j / v.aMag) (x (v.node ic)) = 0)
    (hoff : ∀ ic, v.onFace ic = false → affine c (fun j => v.area j / v.aMag) (x (v.node ic)) = -h) : v.eltLen = h := by
  have ha : 0 < v.aMag := Real.sqrt_pos.mpr hA
  -- the sum over the nodes of the gradient against the area, weighted by the signed distance
  let φ : Fin nn → ℝ := fun ic => affine c (fun j => v.area j / v.aMag) (x (v.node ic))
  have h1 : ∑ ic, ∑ j, v.dndx ic j * v.area j * φ ic = v.aMag := by
    rw [Finset.sum_comm]
    have : ∀ j, ∑ ic, v.dndx ic j * v.area j * φ ic = v.area j * (v.area j / v.aMag) := by
      intro j
      have e1 : ∀ ic, v.dndx ic j * v.area j * φ ic =
          v.area j * (c * v.dndx ic j) + v.area j * ∑ i, v.area i / v.aMag * (v.dndx ic j * x (v.node ic) i) := by
        intro ic
        simp only [φ, affine, mul_add, Finset.mul_sum]
        congr 1
        · ring
        · exact Finset.sum_congr rfl fun i _ => by ring
      simp only [e1, Finset.sum_add_distrib, ← Finset.mul_sum]
      rw [hc j, Finset.sum_comm]
      simp only [← Finset.mul_sum, hl _ j]
      simp
    simp only [this]
    have : ∑ j, v.area j * (v.area j / v.aMag) = (∑ j, v.area j * v.area j) / v.aMag := by
      rw [Finset.sum_div]; exact Finset.sum_congr rfl fun j _ => by ring
    rw [this, div_eq_iff ha.ne']
    exact (Real.mul_self_sqrt hA.le).symm
  have h2 : ∑ ic, ∑ j, v.dndx ic j * v.area j * φ ic = -h * ∑ ic, ∑ j, v.dndx ic j * v.area j * (if v.onFace ic then 0 else 1) := by
    rw [Finset.mul_sum]
    refine Finset.sum_congr rfl fun ic _ => ?_
    rw [Finset.mul_sum]
    refine Finset.sum_congr rfl fun j _ => ?_
    cases hf : v.onFace ic
    · simp only [φ, hoff ic hf]; simp; ring
    · simp only [φ, hon ic hf]; simp
  have h3 : v.invLen + ∑ ic, ∑ j, v.dndx ic j * v.area j * (if v.onFace ic then 0 else 1) = 0 := by
    simp only [ElemIp.invLen, ← Finset.sum_add_distrib]
    rw [Finset.sum_comm]
    refine Finset.sum_eq_zero fun j _ => ?_
    have : ∀ ic, v.dndx ic j * v.area j * (if v.onFace ic = true then 1 else 0) + v.dndx ic j * v.area j * (if v.onFace ic = true then 0 else 1) =
        v.dndx ic j * v.area j := by
      intro ic; cases v.onFace ic <;> simp
    simp only [this, ← Finset.sum_mul]
    rw [hc j, zero_mul]
  have h4 : v.aMag = h * v.invLen := by
    rw [← h1, h2]; linear_combination -h * h3
  have h5 : v.invLen ≠ 0 := by rintro h0; rw [h0, mul_zero] at h4; exact ha.ne' h4
  rw [ElemIp.eltLen, h4, mul_div_cancel_right₀ _ h5]

/-- A unit square above the wall: the integration point next to node 0. -/
noncomputable def exSquare : ElemIp 4 2 2 ℕ := ⟨fun i => i.val, 0, fun i => decide (i.val < 2),
  fun i => if i = 0 then ![-1, -3/4] else if i = 1 then ![1, -1/4] else if i = 2 then ![0, 1/4] else ![0, 3/4], ![0, -1/2], ![3/4, 1/4],
  fun i => i.val⟩

/-- Fluid fields on the square with temperature `T`. -/
noncomputable def exSquareFluid (T : ℕ → ℝ) : Fluid 2 ℕ :=
  ⟨fun n => if n = 0 then ![0, 0] else if n = 1 then ![1, 0] else if n = 2 then ![1, 1] else ![0, 1],
    T, fun _ => 1, fun _ => 1, fun _ => 1, fun _ _ => 0, 1, 0⟩

/-- **C119** (finding, element scheme) Where the wall temperature is not uniform the coefficient of a node depends on the temperatures of
the other wall nodes: it is divided by the node's own temperature only. -/
theorem c119_coefficient_not_local :
    ∃ (ips : Fin 1 → List (ElemIp 4 2 2 ℕ)) (f f' : Fluid 2 ℕ), f.cond = f'.cond ∧ f.x = f'.x ∧ f.temp 0 = f'.temp 0 ∧
      (∀ k, ∀ v ∈ ips k, GradConst v.dndx ∧ GradLinear v.dndx fun ic => f.x (v.node ic)) ∧
      (elemWall f ips).htc 0 ≠ (elemWall f' ips).htc 0 := by
  refine ⟨fun _ => [exSquare], exSquareFluid fun _ => 300, exSquareFluid fun n => if n = 1 then 400 else 300, rfl, rfl, by simp [exSquareFluid], ?_, ?_⟩
  · intro k w hw
    rw [List.mem_singleton] at hw
    rw [hw]
    constructor
    · intro j
      fin_cases j <;> simp [exSquare, Fin.sum_univ_four] <;> norm_num
    · intro i j
      fin_cases i <;> fin_cases j <;> simp [exSquare, exSquareFluid, Fin.sum_univ_four] <;> norm_num
  · have hA : 0 < exSquare.aMag := Real.sqrt_pos.mpr (by simp [exSquare, Fin.sum_univ_two])
    have e : ∀ T : ℕ → ℝ, (elemWall (exSquareFluid T) fun _ : Fin 1 => [exSquare]).htc 0 = exSquare.dTdAOn T / exSquare.aMag / T 0 := by
      intro T
      obtain ⟨h1, -, h3, -, -⟩ := elem_sums (exSquareFluid T) (fun _ : Fin 1 => [exSquare]) 0
      simp only [elemWall, Wall.normalize]
      rw [h1, h3]
      simp [nodeTotal, exSquare, exSquareFluid, ElemIp.bip, Fin.sum_univ_two]
      norm_num
    rw [e, e]
    intro h
    have h' : exSquare.dTdAOn (fun _ => 300) = exSquare.dTdAOn (fun n => if n = 1 then 400 else 300) := by
      have := hA.ne'
      simp only [if_neg (show (0 : ℕ) ≠ 1 by norm_num)] at h
      field_simp at h
      exact h
    simp [ElemIp.dTdAOn, exSquare, Fin.sum_univ_four, Fin.sum_univ_two] at h'

end Nalu.Cht
