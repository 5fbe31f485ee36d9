import Verif.Props.Overset
import Mathlib.Tactic.NormNum
import Mathlib.Data.Finset.Union

/-!
# Properties of overset meshes, continued

* C116: the update of constraint nodes interpolates every component and touches nothing else.
-/

namespace Nalu.Overset

open Finset

section update
variable {K : Type*} [Field K] {N : Type*} [DecidableEq N]

/-- Repeated writes: a position holds the value written to it if all writes to it agree. -/
theorem writes_spec (l : List (ℕ × K)) (w : ℕ → K) (p : ℕ) :
    (∀ v, (p, v) ∈ l → (∀ v', (p, v') ∈ l → v' = v) → l.foldl (fun w pv => Function.update w pv.1 pv.2) w p = v) ∧
      ((∀ v, (p, v) ∉ l) → l.foldl (fun w pv => Function.update w pv.1 pv.2) w p = w p) := by
  induction l using List.reverseRecOn with
  | nil => simp
  | append_singleton l a ih =>
    simp only [List.foldl_append, List.foldl_cons, List.foldl_nil]
    constructor
    · intro v hv hu
      by_cases ha : p = a.1
      · subst ha
        rw [Function.update_self]
        exact hu a.2 (by simp)
      · rw [Function.update_of_ne ha]
        refine ih.1 v ?_ fun v' hv' => hu v' (by simp [hv'])
        rcases List.mem_append.mp hv with h | h
        · exact h
        · simp at h; exact absurd (by rw [← h]) ha
    · intro h
      have ha : p ≠ a.1 := fun e => h a.2 (by rw [e]; simp)
      rw [Function.update_of_ne ha]
      exact ih.2 fun v hv => h v (by simp [hv])

/-- Positions and values of the gather. -/
def gatherWrites (npe sizeRow sizeCol : ℕ) (q : Fin npe → ℕ → K) : List (ℕ × K) :=
  (List.finRange npe).flatMap fun (ni : Fin npe) => (List.range sizeRow).flatMap fun i => (List.range sizeCol).map fun j =>
    (i * npe * sizeRow + j * npe + ni.val, q ni (i * sizeCol + j))

theorem gather_eq (npe sizeRow sizeCol : ℕ) (q : Fin npe → ℕ → K) :
    gather npe sizeRow sizeCol q = (gatherWrites npe sizeRow sizeCol q).foldl (fun w pv => Function.update w pv.1 pv.2) fun _ => 0 := by
  simp only [gather, gatherWrites, List.foldl_flatMap, List.foldl_map]

/-- Sizes for which the layout of the gather is the one `interpolatePoint` reads: vectors stored as one row, and square tensors. -/
def GoodSizes (sizeRow sizeCol : ℕ) : Prop := sizeRow = 1 ∨ sizeRow = sizeCol

theorem gather_spec {npe sizeRow sizeCol : ℕ} (h : GoodSizes sizeRow sizeCol) (q : Fin npe → ℕ → K) (k : Fin npe) (m : ℕ)
    (hm : m < sizeRow * sizeCol) : gather npe sizeRow sizeCol q (m * npe + k) = q k m := by
  have hpos : ∀ i < sizeRow, ∀ j, i * npe * sizeRow + j * npe = (i * sizeCol + j) * npe := by
    intro i hi j
    rcases h with h | h
    · have : i = 0 := by omega
      subst this; ring
    · rw [h]; ring
  have hc : 0 < sizeCol := Nat.pos_of_ne_zero fun h0 => by subst h0; omega
  rw [gather_eq]
  refine (writes_spec _ _ _).1 _ ?_ ?_
  · simp only [gatherWrites, List.mem_flatMap, List.mem_map, List.mem_range, List.mem_finRange, true_and, Prod.mk.injEq]
    have hi : m / sizeCol < sizeRow := Nat.div_lt_of_lt_mul (by rwa [Nat.mul_comm] at hm)
    refine ⟨k, m / sizeCol, hi, m % sizeCol, Nat.mod_lt _ hc, ?_, ?_⟩
    · rw [hpos _ hi, Nat.div_add_mod' m sizeCol]
    · rw [Nat.div_add_mod' m sizeCol]
  · intro v' hv'
    simp only [gatherWrites, List.mem_flatMap, List.mem_map, List.mem_range, List.mem_finRange, true_and, Prod.mk.injEq] at hv'
    obtain ⟨ni, i, hi, j, hj, e, rfl⟩ := hv'
    rw [hpos _ hi] at e
    have hk := k.isLt
    have hni := ni.isLt
    have e1 : i * sizeCol + j = m := by
      have := congrArg (· / npe) e
      rwa [Nat.add_div_of_dvd_right (Dvd.intro_left _ rfl), Nat.add_div_of_dvd_right (Dvd.intro_left _ rfl),
        Nat.mul_div_cancel _ (by omega), Nat.mul_div_cancel _ (by omega), Nat.div_eq_of_lt hni, Nat.div_eq_of_lt hk, add_zero,
        add_zero] at this
    have e2 : ni = k := by
      apply Fin.ext
      rw [e1] at e
      omega
    rw [e1, e2]

theorem newValues_spec {sizeRow sizeCol : ℕ} (h : GoodSizes sizeRow sizeCol) (base : N → ℕ) (mem : ℕ → K) (o : Info K N) (m : ℕ)
    (hm : m < sizeRow * sizeCol) : newValues base sizeRow sizeCol mem o m = ∑ k, o.shape k * mem (base (o.elem k) + m) := by
  simp only [newValues, interpPoint]
  exact Finset.sum_congr rfl fun k _ => by rw [gather_spec h _ k m hm]

/-- One update writes the block of its node and nothing else. -/
theorem updateOne_spec (base : N → ℕ) (sizeRow sizeCol : ℕ) (mem : ℕ → K) (o : Info K N) :
    (∀ m < sizeRow * sizeCol, updateOne base sizeRow sizeCol mem o (base o.node + m) = newValues base sizeRow sizeCol mem o m) ∧
      ∀ p, (∀ m < sizeRow * sizeCol, p ≠ base o.node + m) → updateOne base sizeRow sizeCol mem o p = mem p := by
  let ws : List (ℕ × K) := (List.range sizeRow).flatMap fun i => (List.range sizeCol).map fun j =>
    (base o.node + (i * sizeCol + j), newValues base sizeRow sizeCol mem o (i * sizeCol + j))
  have hw : updateOne base sizeRow sizeCol mem o = ws.foldl (fun w pv => Function.update w pv.1 pv.2) mem := by
    simp only [updateOne, ws, List.foldl_flatMap, List.foldl_map]
  have hmem : ∀ p v, (p, v) ∈ ws ↔ ∃ m < sizeRow * sizeCol, p = base o.node + m ∧ v = newValues base sizeRow sizeCol mem o m := by
    intro p v
    simp only [ws, List.mem_flatMap, List.mem_map, List.mem_range, Prod.mk.injEq]
    constructor
    · rintro ⟨i, hi, j, hj, rfl, rfl⟩
      refine ⟨i * sizeCol + j, ?_, rfl, rfl⟩
      calc i * sizeCol + j < i * sizeCol + sizeCol := by omega
        _ = (i + 1) * sizeCol := by ring
        _ ≤ sizeRow * sizeCol := Nat.mul_le_mul_right _ hi
    · rintro ⟨m, hm, rfl, rfl⟩
      have hc : 0 < sizeCol := Nat.pos_of_ne_zero fun h0 => by subst h0; omega
      refine ⟨m / sizeCol, Nat.div_lt_of_lt_mul (by rwa [Nat.mul_comm] at hm), m % sizeCol, Nat.mod_lt _ hc, ?_, ?_⟩ <;>
        rw [Nat.div_add_mod' m sizeCol]
  constructor
  · intro m hm
    rw [hw]
    refine (writes_spec _ _ _).1 _ ((hmem _ _).mpr ⟨m, hm, rfl, rfl⟩) ?_
    intro v' hv'
    obtain ⟨m', -, e, rfl⟩ := (hmem _ _).mp hv'
    have : m' = m := by omega
    rw [this]
  · intro p hp
    rw [hw]
    refine (writes_spec _ _ _).2 ?_
    intro v hv
    obtain ⟨m, hm, e, -⟩ := (hmem _ _).mp hv
    exact hp m hm e

/-- Specification: node `n` occupies `w` consecutive positions from `base n`, different nodes disjoint ones. -/
def Layout (base : N → ℕ) (w : ℕ) : Prop := ∀ n n' m m', m < w → m' < w → base n + m = base n' + m' → n = n'

/-- **C116** A field of `w` components, passed with its sizes: afterwards every component at every constraint node is the donor's field
at its point, and no other value has changed, if no donor contains a constraint node.  The sequence of the nodes does not matter. -/
theorem c116_update {sizeRow sizeCol : ℕ} (hg : GoodSizes sizeRow sizeCol) (base : N → ℕ) (hb : Layout base (sizeRow * sizeCol))
    (infos : List (Info K N)) (hnd : (infos.map (·.node)).Nodup)
    (hdon : ∀ o ∈ infos, ∀ o' ∈ infos, ∀ k, o'.elem k ≠ o.node) (mem : ℕ → K) :
    (∀ o ∈ infos, ∀ m < sizeRow * sizeCol,
      updateAll base sizeRow sizeCol infos mem (base o.node + m) = ∑ k, o.shape k * mem (base (o.elem k) + m)) ∧
    ∀ p, (∀ o ∈ infos, ∀ m < sizeRow * sizeCol, p ≠ base o.node + m) → updateAll base sizeRow sizeCol infos mem p = mem p := by
  induction infos using List.reverseRecOn with
  | nil => simp [updateAll]
  | append_singleton l a ih =>
    have hnd' : (l.map (·.node)).Nodup := by
      rw [List.map_append] at hnd; exact (List.nodup_append.mp hnd).1
    have hane : ∀ o ∈ l, o.node ≠ a.node := by
      rw [List.map_append] at hnd
      intro o ho e
      exact (List.nodup_append.mp hnd).2.2 _ (List.mem_map_of_mem ho) _ (by simp) e
    obtain ⟨h1, h2⟩ := ih hnd' fun o ho o' ho' => hdon o (by simp [ho]) o' (by simp [ho'])
    have hstep : updateAll base sizeRow sizeCol (l ++ [a]) mem = updateOne base sizeRow sizeCol (updateAll base sizeRow sizeCol l mem) a := by
      simp [updateAll]
    obtain ⟨u1, u2⟩ := updateOne_spec base sizeRow sizeCol (updateAll base sizeRow sizeCol l mem) a
    rw [hstep]
    constructor
    · intro o ho m hm
      rcases List.mem_append.mp ho with ho | ho
      · rw [u2 _ fun m' hm' e => hane o ho (hb _ _ _ _ hm hm' e)]
        exact h1 o ho m hm
      · simp at ho; subst ho
        rw [u1 m hm, newValues_spec hg _ _ _ _ hm]
        refine Finset.sum_congr rfl fun k _ => ?_
        rw [h2]
        intro o' ho' m' hm' e
        exact hdon o' (by simp [ho']) o (by simp) k (hb _ _ _ _ hm hm' e)
    · intro p hp
      rw [u2 p fun m hm => hp a (by simp) m hm]
      exact h2 p fun o ho => hp o (by simp [ho])

/-- **C116** A field whose constraint values already agree with their donors is not changed at all, even if donors contain constraint
nodes and whatever the sequence; a field affine in space on donors that give the node exactly is such a field. -/
theorem c116_fixed {sizeRow sizeCol : ℕ} (hg : GoodSizes sizeRow sizeCol) (base : N → ℕ) (infos : List (Info K N)) (mem : ℕ → K)
    (h : ∀ o ∈ infos, ∀ m < sizeRow * sizeCol, mem (base o.node + m) = ∑ k, o.shape k * mem (base (o.elem k) + m)) :
    updateAll base sizeRow sizeCol infos mem = mem := by
  induction infos with
  | nil => rfl
  | cons a l ih =>
    rw [updateAll, List.foldl_cons]
    have : updateOne base sizeRow sizeCol mem a = mem := by
      obtain ⟨u1, u2⟩ := updateOne_spec base sizeRow sizeCol mem a
      funext p
      by_cases hp : ∃ m < sizeRow * sizeCol, p = base a.node + m
      · obtain ⟨m, hm, rfl⟩ := hp
        rw [u1 m hm, newValues_spec hg _ _ _ _ hm, h a (by simp) m hm]
      · push Not at hp
        exact u2 p hp
    rw [this]
    exact ih fun o ho => h o (by simp [ho])

/-- **C116** (limit) If a donor contains another constraint node the result depends on the sequence of the nodes. -/
theorem c116_order_matters :
    ∃ (a b : Info ℚ ℕ) (mem : ℕ → ℚ), updateAll id 1 1 [a, b] mem ≠ updateAll id 1 1 [b, a] mem := by
  refine ⟨⟨0, 1, ![1], ![1]⟩, ⟨1, 1, ![2], ![1]⟩, fun n => n, ?_⟩
  intro h
  have := congrFun h 0
  revert this
  decide +kernel

/-- **C116** (limit) For tensors that are neither one row nor square the components are mixed up. -/
theorem c116_other_sizes : ∃ (o : Info ℚ ℕ) (mem : ℕ → ℚ), (∀ m, mem m = m) ∧
    updateAll (fun n => 2 * n) 2 1 [o] mem 1 ≠ ∑ k, o.shape k * mem (2 * o.elem k + 1) := by
  refine ⟨⟨0, 1, ![1], ![1]⟩, fun n => n, fun _ => rfl, ?_⟩
  decide +kernel

/-- **C116** (finding) The update of the gas dynamics passes the sizes of density and momentum swapped: in two or three dimensions the
density of the position after a constraint node is overwritten — by what follows the donor's densities in memory — and only the first
component of the momentum is updated. -/
theorem c116_gas_dynamics_swapped {nDim : ℕ} (hd : 2 ≤ nDim) (base baseM : N → ℕ) (o : Info K N) (rho mom : ℕ → K) :
    (updateAll base (gasSizes nDim 0).1 (gasSizes nDim 0).2 [o] rho (base o.node + 1) = ∑ k, o.shape k * rho (base (o.elem k) + 1)) ∧
      ∀ m, 0 < m → updateAll baseM (gasSizes nDim 1).1 (gasSizes nDim 1).2 [o] mom (baseM o.node + m) = mom (baseM o.node + m) := by
  constructor
  · simp only [updateAll, gasSizes, List.foldl_cons, List.foldl_nil]
    rw [(updateOne_spec base 1 nDim rho o).1 1 (by omega), newValues_spec (Or.inl rfl) _ _ _ _ (by omega)]
  · intro m hm
    simp only [updateAll, gasSizes, List.foldl_cons, List.foldl_nil]
    refine (updateOne_spec baseM 1 1 mom o).2 _ ?_
    intro m' hm' e
    omega

example : Layout (fun n : ℕ => 3 * n) 3 := by intro n n' m m' h h' e; simp only at e; omega

end update

end Nalu.Overset
