import Verif.Props.ActuatorSpread
import Verif.Spec.ElemKernel

/-!
# C167, C168: the best element, the implicit part and the momentum source
-/

namespace Nalu.Actuator
open Nalu.Actuator.Spec Nalu.Kernel Nalu.Edge

variable {E N : Type*} [DecidableEq N]

/-! ## C167: search -/

theorem insert_mem (l s : List N) (a : N) :
    a ∈ l.foldl (fun s n => if n ∈ s then s else s ++ [n]) s ↔ a ∈ s ∨ a ∈ l := by
  induction l generalizing s with
  | nil => simp
  | cons b l ih =>
    rw [List.foldl_cons, ih]
    by_cases h : b ∈ s
    · rw [if_pos h]
      constructor
      · rintro (h' | h')
        · exact Or.inl h'
        · exact Or.inr (List.mem_cons_of_mem _ h')
      · rintro (h' | h')
        · exact Or.inl h'
        · rcases List.mem_cons.1 h' with rfl | h''
          · exact Or.inl h
          · exact Or.inr h''
    · rw [if_neg h]
      simp [or_assoc]

theorem insert_nodup (l s : List N) (hs : s.Nodup) :
    (l.foldl (fun s n => if n ∈ s then s else s ++ [n]) s).Nodup := by
  induction l generalizing s with
  | nil => exact hs
  | cons b l ih =>
    rw [List.foldl_cons]
    apply ih
    split
    · exact hs
    · rename_i h
      exact List.Nodup.append hs (List.nodup_singleton b) (by simpa using h)

theorem searchStep_nodes (f : Found E N) (h : Hit E N) :
    (searchStep f h).nodes = h.nodes.foldl (fun s n => if n ∈ s then s else s ++ [n]) f.nodes := by
  unfold searchStep; simp only; split <;> rfl

theorem fold_nodes (hits : List (Hit E N)) (f : Found E N) (a : N) :
    (a ∈ (hits.foldl searchStep f).nodes ↔ a ∈ f.nodes ∨ ∃ h ∈ hits, a ∈ h.nodes) := by
  induction hits generalizing f with
  | nil => simp
  | cons h l ih => rw [List.foldl_cons, ih, searchStep_nodes, insert_mem]; simp [or_assoc]

/-- C167: the force of a point reaches exactly the nodes of the elements its search sphere met, each once. -/
theorem c167_nodes (hits : List (Hit E N)) :
    (completeSearch hits).nodes.Nodup ∧ ∀ a, a ∈ (completeSearch hits).nodes ↔ ∃ h ∈ hits, a ∈ h.nodes := by
  constructor
  · unfold completeSearch
    have : ∀ (l : List (Hit E N)) (f : Found E N), f.nodes.Nodup → (l.foldl searchStep f).nodes.Nodup := by
      intro l
      induction l with
      | nil => intro f h; exact h
      | cons x l ih =>
        intro f h
        rw [List.foldl_cons]
        apply ih
        rw [searchStep_nodes]
        exact insert_nodup _ _ h
    exact this hits _ List.nodup_nil
  · intro a
    unfold completeSearch
    rw [fold_nodes]; simp

/-- The state of the search after some hits. -/
theorem fold_best (hits : List (Hit E N)) (f : Found E N) :
    (hits.foldl searchStep f).bestX ≤ f.bestX ∧ (∀ h ∈ hits, (hits.foldl searchStep f).bestX ≤ h.dist) ∧
    (((hits.foldl searchStep f).bestX = f.bestX ∧ (hits.foldl searchStep f).best = f.best) ∨
      ∃ l h m, hits = l ++ h :: m ∧ (hits.foldl searchStep f).best = some (h.elem, h.isoPar)
        ∧ (hits.foldl searchStep f).bestX = h.dist ∧ h.dist < f.bestX ∧ ∀ g ∈ l, h.dist < g.dist) := by
  induction hits generalizing f with
  | nil => simp
  | cons x l ih =>
    rw [List.foldl_cons]
    obtain ⟨i1, i2, i3⟩ := ih (searchStep f x)
    by_cases hx : x.dist < f.bestX
    · have e1 : (searchStep f x).bestX = x.dist := by unfold searchStep; simp [hx]
      have e2 : (searchStep f x).best = some (x.elem, x.isoPar) := by unfold searchStep; simp [hx]
      rw [e1] at i1 i3
      rw [e2] at i3
      refine ⟨i1.trans hx.le, ?_, Or.inr ?_⟩
      · intro h hh
        rcases List.mem_cons.1 hh with rfl | hh
        · exact i1
        · exact i2 h hh
      · rcases i3 with ⟨a, b⟩ | ⟨l', h, m, a, b, c, d, e⟩
        · exact ⟨[], x, l, rfl, b, a, hx, by simp⟩
        · refine ⟨x :: l', h, m, by rw [a]; rfl, b, c, d.trans hx, ?_⟩
          intro g hg
          rcases List.mem_cons.1 hg with rfl | hg
          · exact d
          · exact e g hg
    · have e1 : (searchStep f x).bestX = f.bestX := by unfold searchStep; simp [hx]
      have e2 : (searchStep f x).best = f.best := by unfold searchStep; simp [hx]
      rw [e1] at i1 i3
      rw [e2] at i3
      push Not at hx
      refine ⟨i1, ?_, ?_⟩
      · intro h hh
        rcases List.mem_cons.1 hh with rfl | hh
        · exact i1.trans hx
        · exact i2 h hh
      · rcases i3 with a | ⟨l', h, m, a, b, c, d, e⟩
        · exact Or.inl a
        · refine Or.inr ⟨x :: l', h, m, by rw [a]; rfl, b, c, d, ?_⟩
          intro g hg
          rcases List.mem_cons.1 hg with rfl | hg
          · exact lt_of_lt_of_le d hx
          · exact e g hg

/-- C167: the element a point takes its gas from is the nearest of those its search sphere met; of equally near ones the
first in the sorted order - so the choice does not depend on the order in which the search returns them. -/
theorem c167_best (hits : List (Hit E N)) (hmem : ∃ h ∈ hits, h.dist < 10 ^ 16) :
    ∃ l h m, hits = l ++ h :: m ∧ (completeSearch hits).best = some (h.elem, h.isoPar)
      ∧ (∀ g ∈ hits, h.dist ≤ g.dist) ∧ ∀ g ∈ l, h.dist < g.dist := by
  obtain ⟨i1, i2, i3⟩ := fold_best hits ({ bestX := 10 ^ 16, best := none, nodes := [] } : Found E N)
  unfold completeSearch
  rcases i3 with ⟨a, _⟩ | ⟨l, h, m, a, b, c, d, e⟩
  · obtain ⟨g, hg, hlt⟩ := hmem
    have := i2 g hg
    rw [a] at this
    exact absurd this (not_le.2 hlt)
  · exact ⟨l, h, m, a, b, fun g hg => by rw [← c]; exact i2 g hg, e⟩

/-- C167: there is a best element unless the sphere met no element (or only absurdly distant ones). -/
theorem c167_best_none (hits : List (Hit E N)) :
    (completeSearch hits).best = none ↔ ∀ h ∈ hits, 10 ^ 16 ≤ h.dist := by
  constructor
  · intro hn
    by_contra hc
    push Not at hc
    obtain ⟨l, h, m, _, b, _⟩ := c167_best hits hc
    rw [b] at hn
    exact absurd hn (by simp)
  · intro hall
    obtain ⟨i1, i2, i3⟩ := fold_best hits ({ bestX := 10 ^ 16, best := none, nodes := [] } : Found E N)
    rcases i3 with ⟨_, b⟩ | ⟨l, h, m, a, b, c, d, e⟩
    · exact b
    · exact absurd d (not_lt.2 (hall h (by rw [a]; simp)))

/-- The search on four elements: the nearest, and the first of two nearest. -/
example : (completeSearch (E := ℕ) (N := ℕ) [⟨7, [1, 2], 0.9, 0⟩, ⟨8, [2, 3], 0.2, 1⟩, ⟨9, [4], 0.2, 2⟩]).best
    = some (8, 1) := by
  norm_num [completeSearch, searchStep]

/-! ## C167: the gas at the point -/

variable {n : ℕ}

/-- C167: in a uniform gas (and with interpolation weights that sum to one) the force is the drag law at that gas. -/
theorem c167_uniform_gas (f : Flow N n) (p : Active N n) (hw : ∑ i, p.weight i = 1) (u : Fin n → ℝ) (mu rho : ℝ)
    (hu : ∀ i, f.u (p.conn i) = u) (hmu : ∀ i, f.mu (p.conn i) = mu) (hrho : ∀ i, f.rho (p.conn i) = rho) :
    activeDrag f p = pointDrag p.radius mu rho p.vp u := by
  unfold activeDrag
  simp only [hu, hmu, hrho, ← Finset.sum_mul, hw, one_mul]

/-! ## C167: the implicit part -/

theorem assembleLhs_total [Fintype N] {nip : ℕ} (nodeOf : Fin nip → N) (scv : Fin nip → ℝ) (d : Fin n → ℝ)
    (lhs : N → Fin n → ℝ) (h : ∑ i, scv i ≠ 0) (j : Fin n) :
    ∑ a, assembleLhs nodeOf scv d lhs a j = ∑ a, lhs a j + d j := by
  unfold assembleLhs
  rw [loop_meas (fun s : N → Fin n → ℝ => ∑ a, s a j) _ (fun ip => scv ip / (∑ i, scv i) * d j)]
  · rw [← Finset.sum_mul, ← Finset.sum_div, div_self h, one_mul]
  · intro ip s
    rw [← Finset.add_sum_erase _ _ (Finset.mem_univ (nodeOf ip)),
      ← Finset.add_sum_erase _ (fun a => s a j) (Finset.mem_univ (nodeOf ip))]
    have : ∑ a ∈ Finset.univ.erase (nodeOf ip), Function.update s (nodeOf ip)
        (fun j => s (nodeOf ip) j + scv ip / (∑ i, scv i) * d j) a j
        = ∑ a ∈ Finset.univ.erase (nodeOf ip), s a j :=
      Finset.sum_congr rfl fun a ha => by rw [Function.update_of_ne (Finset.ne_of_mem_erase ha)]
    rw [this, Function.update_self]
    ring

theorem fold_lhs_total [Fintype N] (f : Flow N n) (ps : List (Active N n)) (s : Source N n)
    (h : ∀ p ∈ ps, ∑ i, p.scv i ≠ 0) (j : Fin n) :
    ∑ a, (ps.foldl (pointStep f) s).lhs a j = ∑ a, s.lhs a j + (ps.map fun p => (activeDrag f p).2 j).sum := by
  induction ps generalizing s with
  | nil => simp
  | cons p ps ih =>
    rw [List.foldl_cons, ih _ fun q hq => h q (List.mem_cons_of_mem _ hq), List.map_cons, List.sum_cons]
    simp only [pointStep]
    rw [assembleLhs_total _ _ _ _ (h p List.mem_cons_self)]
    ring

theorem sum_swap [Fintype N] (g : List (Active N n) → N → ℝ) (ranks : List (List (Active N n))) :
    ∑ a, (ranks.map fun ps => g ps a).sum = (ranks.map fun ps => ∑ a, g ps a).sum := by
  induction ranks with
  | nil => simp
  | cons ps r ih => simp only [List.map_cons, List.sum_cons, Finset.sum_add_distrib, ih]

/-- C167: the coefficients for the matrix are never lost: however the points are distributed over ranks and however they
overlap, the nodal values add up to the sum of the drag coefficients of all points. -/
theorem c167_lhs_total [Fintype N] (f : Flow N n) (ranks : List (List (Active N n)))
    (h : ∀ ps ∈ ranks, ∀ p ∈ ps, ∑ i, p.scv i ≠ 0) (j : Fin n) :
    ∑ a, (execute f ranks).lhs a j = (ranks.flatten.map fun p => (activeDrag f p).2 j).sum := by
  simp only [execute]
  rw [sum_swap fun ps a => (rankSource f ps).lhs a j]
  induction ranks with
  | nil => simp
  | cons ps r ih =>
    rw [List.map_cons, List.sum_cons, List.flatten_cons, List.map_append, List.sum_append,
      ih fun qs hq => h qs (List.mem_cons_of_mem _ hq)]
    congr 1
    unfold rankSource
    rw [fold_lhs_total f ps _ (h ps List.mem_cons_self)]
    simp

/-! ## C168 -/

theorem loop_inv {S : Type*} (I : S → Prop) {m : ℕ} (body : Fin m → S → S) (h : ∀ k s, I s → I (body k s)) (s : S) (hs : I s) :
    I (loop m body s) := by
  unfold loop
  generalize List.finRange m = l
  induction l generalizing s with
  | nil => exact hs
  | cons x l ih => rw [List.foldl_cons]; exact ih _ (h x s hs)

theorem rank_lhs_inv (I : (N → Fin n → ℝ) → Prop) (h0 : I fun _ _ => 0) (f : Flow N n) (ps : List (Active N n))
    (h : ∀ p ∈ ps, ∀ ip s, I s → I (Function.update s (p.conn (p.nearest ip))
      (fun j => s (p.conn (p.nearest ip)) j + p.scv ip / (∑ i, p.scv i) * (activeDrag f p).2 j))) :
    I (rankSource f ps).lhs := by
  unfold rankSource
  have : ∀ (ps : List (Active N n)) (s : Source N n), (∀ p ∈ ps, ∀ ip s, I s → I (Function.update s (p.conn (p.nearest ip))
      (fun j => s (p.conn (p.nearest ip)) j + p.scv ip / (∑ i, p.scv i) * (activeDrag f p).2 j))) → I s.lhs →
      I (ps.foldl (pointStep f) s).lhs := by
    intro ps
    induction ps with
    | nil => intro s _ hs; exact hs
    | cons p ps ih =>
      intro s hp hs
      rw [List.foldl_cons]
      apply ih _ fun q hq => hp q (List.mem_cons_of_mem _ hq)
      exact loop_inv I _ (fun ip s hs => hp p List.mem_cons_self ip s hs) _ hs
  exact this ps _ h h0

/-- C168: the coefficient field has equal components at every node: the nodal momentum source may (as it does) read the
first one for all of them. -/
theorem c168_isotropic (f : Flow N n) (ranks : List (List (Active N n))) (a : N) (i j : Fin n) :
    (execute f ranks).lhs a i = (execute f ranks).lhs a j := by
  simp only [execute]
  congr 1
  apply List.map_congr_left
  intro ps _
  refine rank_lhs_inv (fun s => ∀ a i j, s a i = s a j) (fun _ _ _ => rfl) f ps ?_ a i j
  intro p _ ip s hs b k l
  by_cases hb : b = p.conn (p.nearest ip)
  · subst hb
    rw [Function.update_self]
    simp only [pointDrag, activeDrag]
    rw [hs _ k l]
  · rw [Function.update_of_ne hb]; exact hs b k l

/-- C168: the coefficients are nonnegative, in a gas with positive density and viscosity and elements with positive
sub-control volumes. -/
theorem c168_nonneg (f : Flow N n) (ranks : List (List (Active N n)))
    (h : ∀ ps ∈ ranks, ∀ p ∈ ps, 0 < p.radius ∧ 0 < ∑ i, p.weight i * f.mu (p.conn i)
      ∧ 0 < ∑ i, p.weight i * f.rho (p.conn i) ∧ ∀ ip, 0 < p.scv ip) (a : N) (j : Fin n) :
    0 ≤ (execute f ranks).lhs a j := by
  simp only [execute]
  apply List.sum_nonneg
  intro v hv
  obtain ⟨ps, hps, rfl⟩ := List.mem_map.1 hv
  refine rank_lhs_inv (fun s => ∀ a j, 0 ≤ s a j) (fun _ _ => le_rfl) f ps ?_ a j
  intro p hp ip s hs b k
  obtain ⟨h1, h2, h3, h4⟩ := h ps hps p hp
  by_cases hb : b = p.conn (p.nearest ip)
  · subst hb
    rw [Function.update_self]
    obtain ⟨c, hc, _, hl⟩ := c165_along_slip h1 h2 h3 p.vp (fun j => ∑ i, p.weight i * f.u (p.conn i) j)
    have e : (activeDrag f p).2 k = c := hl k
    rw [e]
    have := hs (p.conn (p.nearest ip)) k
    have h5 : 0 < ∑ i, p.scv i := Finset.sum_pos (fun i _ => h4 i) ⟨ip, Finset.mem_univ _⟩
    have := div_pos (h4 ip) h5
    positivity
  · rw [Function.update_of_ne hb]; exact hs b k

variable {nn nip nd : ℕ}

theorem actuatorElem_rhs (e : Scv nn nip ℝ) (src srcLhs : Fin nn → Fin nd → ℝ) (s : LocalSys (Fin nn × Fin nd) ℝ)
    (m : Fin nn) (k : Fin nd) : (actuatorElem e src srcLhs s).rhs (m, k) = s.rhs (m, k)
      + ∑ ip, if m = e.node ip then interp (e.shape ip) (fun ic => src ic k) * e.vol ip else 0 := by
  rw [actuatorElem, loop_rhs (a := (m, k))]
  intro ip s
  rw [loop_rhs (a := (m, k)) (h := by intro j s; rw [addL_rhs, addR_rhs])]
  rw [sum_ite_pair]

/-- C168: the element kernel gives the element the integral of the source over its sub-control volumes; a uniform source
gives source times volume. -/
theorem c168_element_total (e : Scv nn nip ℝ) (src srcLhs : Fin nn → Fin nd → ℝ) (s : LocalSys (Fin nn × Fin nd) ℝ) (k : Fin nd) :
    ∑ m, (actuatorElem e src srcLhs s).rhs (m, k)
      = ∑ m, s.rhs (m, k) + ∑ ip, interp (e.shape ip) (fun ic => src ic k) * e.vol ip := by
  simp only [actuatorElem_rhs, Finset.sum_add_distrib]
  congr 1
  rw [Finset.sum_comm]
  exact Finset.sum_congr rfl fun ip _ => by simp

theorem c168_element_uniform (e : Scv nn nip ℝ) (hN : ∀ ip, Unity (e.shape ip)) (F : Fin nd → ℝ) (srcLhs : Fin nn → Fin nd → ℝ)
    (s : LocalSys (Fin nn × Fin nd) ℝ) (m : Fin nn) (k : Fin nd) :
    (actuatorElem e (fun _ => F) srcLhs s).rhs (m, k)
      = s.rhs (m, k) + F k * ∑ ip, if m = e.node ip then e.vol ip else 0 := by
  rw [actuatorElem_rhs, Finset.mul_sum]
  congr 1
  refine Finset.sum_congr rfl fun ip _ => ?_
  have : interp (e.shape ip) (fun _ => F k) = F k := by
    simp only [interp, ← Finset.sum_mul]
    rw [show ∑ ic, e.shape ip ic = 1 from hN ip, one_mul]
  rw [this]
  split <;> simp

/-- C168: the element kernel changes diagonal entries of the matrix only; the entry of node `m` grows by its coefficient times
the volume of its sub-control volumes: exactly what the nodal source adds at a node whose dual volume that is. -/
theorem c168_element_matrix (e : Scv nn nip ℝ) (src srcLhs : Fin nn → Fin nd → ℝ) (s : LocalSys (Fin nn × Fin nd) ℝ)
    (a b : Fin nn × Fin nd) : (actuatorElem e src srcLhs s).lhs a b
      = s.lhs a b + if a = b then srcLhs a.1 a.2 * ∑ ip, (if a.1 = e.node ip then e.vol ip else 0) else 0 := by
  obtain ⟨m, k⟩ := a
  rw [actuatorElem, loop_lhs (a := (m, k)) (b := b)
    (δ := fun ip => if (m, k) = b then (if m = e.node ip then srcLhs m k * e.vol ip else 0) else 0)]
  · congr 1
    split
    · rw [Finset.mul_sum]
      exact Finset.sum_congr rfl fun ip _ => by split <;> simp
    · simp
  · intro ip s
    rw [loop_lhs (a := (m, k)) (b := b)
      (δ := fun j => if (m, k) = (e.node ip, j) then (if (m, k) = b then srcLhs (e.node ip) j * e.vol ip else 0) else 0)]
    · congr 1
      simp only [Prod.mk.injEq]
      by_cases hm : m = e.node ip
      · simp only [hm, true_and, if_true]
        simp
      · simp [hm]
    · intro j s
      rw [addL_lhs, addR_lhs]
      congr 1
      by_cases h1 : (m, k) = (e.node ip, j)
      · rw [if_pos h1]
        by_cases h2 : (m, k) = b
        · rw [if_pos h2, if_pos ⟨h1, by rw [← h2, h1]⟩]
        · rw [if_neg h2, if_neg]
          rintro ⟨_, h3⟩
          exact h2 (by rw [h1, h3])
      · rw [if_neg h1, if_neg]
        rintro ⟨h3, _⟩
        exact h1 h3

/-- The coefficient of the point of `ActuatorSpread`. -/
example : ∑ a, (execute exFlow [[exActive, exActive], [exActive]]).lhs a 0 = 3 * (activeDrag exFlow exActive).2 0 := by
  rw [c167_lhs_total]
  · simp; ring
  · intro ps _ p hp
    have : p = exActive := by
      simp at *; aesop
    subst this
    change ∑ _i : Fin 1, (1 : ℝ) ≠ 0
    simp

end Nalu.Actuator
