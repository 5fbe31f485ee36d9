import Verif.Spec.ExplicitFilter
import Mathlib.Tactic

namespace Nalu.ExpFilter
open Nalu.ExpFilter.Spec
open scoped Classical

variable {N E : Type*} {nd : ℕ}

theorem foldBox (m : Mesh N E nd) (l : List N) (b : Box nd) (j : Fin nd) (x : ℝ) :
    let r := l.foldl (fun b n => (⟨fun j => min (b.lo j) (m.coord n j), fun j => max (b.hi j) (m.coord n j)⟩ : Box nd)) b
    (r.lo j ≤ x ↔ b.lo j ≤ x ∨ ∃ a ∈ l, m.coord a j ≤ x) ∧ (x ≤ r.hi j ↔ x ≤ b.hi j ∨ ∃ a ∈ l, x ≤ m.coord a j) := by
  induction l generalizing b with
  | nil => simp
  | cons n l ih =>
    have := ih ⟨fun j => min (b.lo j) (m.coord n j), fun j => max (b.hi j) (m.coord n j)⟩
    simp only [List.foldl_cons] at this ⊢
    refine ⟨this.1.trans ?_, this.2.trans ?_⟩
    · simp only [min_le_iff, List.mem_cons, exists_eq_or_imp, or_assoc]
    · simp only [le_max_iff, List.mem_cons, exists_eq_or_imp, or_assoc]

theorem foldBox_lo (m : Mesh N E nd) (e : E) (h : m.conn e ≠ []) (hr : ∀ n ∈ m.conn e, ∀ j, |m.coord n j| ≤ 10 ^ 16) (j : Fin nd)
    (x : ℝ) : ((elemBox m e).lo j ≤ x ↔ ∃ a ∈ m.conn e, m.coord a j ≤ x) ∧ (x ≤ (elemBox m e).hi j ↔ ∃ a ∈ m.conn e, x ≤ m.coord a j) := by
  obtain ⟨n, hn⟩ := List.exists_mem_of_ne_nil _ h
  have hb := abs_le.1 (hr n hn j)
  have := foldBox m (m.conn e) ⟨fun _ => 10 ^ 16, fun _ => -10 ^ 16⟩ j x
  simp only at this
  refine ⟨this.1.trans ⟨?_, Or.inr⟩, this.2.trans ⟨?_, Or.inr⟩⟩
  · rintro (h | h)
    · exact ⟨n, hn, hb.2.trans h⟩
    · exact h
  · rintro (h | h)
    · exact ⟨n, hn, h.trans hb.1⟩
    · exact h

theorem elemBox_le (m : Mesh N E nd) (e : E) (h : m.conn e ≠ []) (hr : ∀ n ∈ m.conn e, ∀ j, |m.coord n j| ≤ 10 ^ 16) (j : Fin nd) :
    (elemBox m e).lo j ≤ (elemBox m e).hi j := by
  obtain ⟨n, hn⟩ := List.exists_mem_of_ne_nil _ h
  exact (((foldBox_lo m e h hr j (m.coord n j)).1).2 ⟨n, hn, le_rfl⟩).trans (((foldBox_lo m e h hr j (m.coord n j)).2).2 ⟨n, hn, le_rfl⟩)

theorem meets_iff (fs : Fin nd → ℝ) (m : Mesh N E nd) (n : N) (e : E) (hs : ∀ j, 0 ≤ fs j) (h : m.conn e ≠ [])
    (hr : ∀ n ∈ m.conn e, ∀ j, |m.coord n j| ≤ 10 ^ 16) :
    (filterBox fs m n).meets (elemBox m e) ↔ Touches fs m n e := by
  unfold Box.meets Touches
  simp only [filterBox]
  constructor
  · intro H
    refine ⟨fun j => max (m.coord n j - 1 / 2 * fs j) ((elemBox m e).lo j), fun j => ⟨?_, ?_, ?_⟩⟩
    · have := hs j
      rw [abs_le]
      beta_reduce
      rcases max_cases (m.coord n j - 1 / 2 * fs j) ((elemBox m e).lo j) with ⟨h1, h2⟩ | ⟨h1, h2⟩
      · rw [h1]; constructor <;> linarith
      · rw [h1]; constructor <;> linarith [(H j).2]
    · exact ((foldBox_lo m e h hr j _).1).1 (le_max_right _ _)
    · exact ((foldBox_lo m e h hr j _).2).1 (max_le (H j).1 (elemBox_le m e h hr j))
  · rintro ⟨x, hx⟩ j
    obtain ⟨h1, h2, h3⟩ := hx j
    have h1 := abs_le.1 h1
    have h2 := ((foldBox_lo m e h hr j _).1).2 h2
    have h3 := ((foldBox_lo m e h hr j _).2).2 h3
    constructor <;> linarith

theorem touches_self (fs : Fin nd → ℝ) (m : Mesh N E nd) (n : N) (e : E) (hs : ∀ j, 0 ≤ fs j) (h : n ∈ m.conn e) : Touches fs m n e :=
  ⟨m.coord n, fun j => ⟨by simpa using div_nonneg (hs j) zero_le_two, ⟨n, h, le_rfl⟩, ⟨n, h, le_rfl⟩⟩⟩

theorem ghost_mem (m : Mesh N E nd) (r : ℕ) (l : List (N × E)) (g : List (E × ℕ)) (x : E × ℕ) :
    x ∈ l.foldl (ghostStep m r) g ↔ x ∈ g ∨ ∃ p ∈ l, m.ownerE p.2 = r ∧ m.ownerN p.1 ≠ r ∧ x = (p.2, m.ownerN p.1) := by
  induction l generalizing g with
  | nil => simp
  | cons p l ih =>
    rw [List.foldl_cons, ih]
    unfold ghostStep
    split_ifs with hp
    · simp only [List.mem_append, List.mem_cons, exists_eq_or_imp, or_assoc]
      tauto
    · simp only [List.mem_cons, exists_eq_or_imp]
      tauto

theorem complete_fold (fs : Fin nd → ℝ) (m : Mesh N E nd) (r : ℕ) (l : List (N × E)) (f : N → List E)
    (hv : ∀ p ∈ l, m.ownerN p.1 = r → visible fs m r p.2) :
    l.foldl (completeStep fs m r) (some f) =
      some fun n => f n ++ (l.filter fun p => m.ownerN p.1 = r ∧ p.1 = n).map Prod.snd := by
  induction l generalizing f with
  | nil => simp
  | cons p l ih =>
    have hv' := fun q hq => hv q (List.mem_cons_of_mem _ hq)
    rw [List.foldl_cons]
    unfold completeStep
    rw [Option.bind_some]
    by_cases hp : r = m.ownerN p.1
    · rw [if_pos hp, if_pos (hv p (List.mem_cons_self ..) hp.symm)]
      have := ih (fun n => if n = p.1 then f n ++ [p.2] else f n) hv'
      unfold completeStep at this
      rw [this]
      congr 1
      funext n
      rw [List.filter_cons]
      by_cases hn : n = p.1
      · subst hn
        simp [hp.symm]
      · rw [if_neg hn, if_neg (by simp [Ne.symm hn])]
    · rw [if_neg hp]
      have := ih f hv'
      unfold completeStep at this
      rw [this]
      congr 1
      funext n
      rw [List.filter_cons, if_neg (by simp [Ne.symm hp])]

theorem visible_of (fs : Fin nd → ℝ) (m : Mesh N E nd) (r : ℕ) (p : N × E) (hp : p ∈ searchPairs fs m r) (hr : m.ownerN p.1 = r)
    (he : m.ownerE p.2 < m.ranks) : visible fs m r p.2 := by
  by_cases h : m.ownerE p.2 = r
  · exact Or.inl h
  · refine Or.inr ⟨m.ownerE p.2, he, ?_⟩
    unfold elemsToGhost
    rw [ghost_mem]
    refine Or.inr ⟨p, ?_, rfl, ?_, ?_⟩
    · unfold searchPairs at hp ⊢
      rw [List.mem_filter] at hp ⊢
      refine ⟨hp.1, ?_⟩
      have := hp.2
      simp only [decide_eq_true_eq] at this ⊢
      exact ⟨this.1, Or.inr trivial⟩
    · rw [hr]; exact Ne.symm h
    · rw [hr]

theorem prod_filter (P : N → E → Prop) (ns : List N) (es : List E) (n : N) (hn : n ∈ ns) (hd : ns.Nodup) :
    ((ns.flatMap fun k => es.map fun e => (k, e)).filter fun p => p.1 = n ∧ P p.1 p.2).map Prod.snd = es.filter (P n) := by
  have key : ∀ k, ((es.map fun e => (k, e)).filter fun p => p.1 = n ∧ P p.1 p.2).map Prod.snd = if k = n then es.filter (P n) else [] := by
    intro k
    induction es with
    | nil => simp
    | cons e es ih =>
      rw [List.map_cons, List.filter_cons]
      by_cases hk : k = n
      · rw [if_pos hk] at ih ⊢
        rw [List.filter_cons]
        by_cases hP : P n e
        · simp only [hk, hP, and_self, decide_true, if_true, List.map_cons]
          rw [hk] at ih
          rw [ih]
        · simp only [hk, hP, and_false, decide_false]
          rw [hk] at ih
          simpa using ih
      · rw [if_neg hk] at ih ⊢
        rw [if_neg (by simp [hk]), ih]
  induction ns with
  | nil => simp at hn
  | cons k ns ih =>
    rw [List.flatMap_cons, List.filter_append, List.map_append, key]
    rw [List.nodup_cons] at hd
    by_cases hk : k = n
    · rw [if_pos hk]
      have : ((ns.flatMap fun k => es.map fun e => (k, e)).filter fun p => p.1 = n ∧ P p.1 p.2) = [] := by
        rw [List.filter_eq_nil_iff]
        intro p hp
        rw [List.mem_flatMap] at hp
        obtain ⟨a, ha, hp⟩ := hp
        rw [List.mem_map] at hp
        obtain ⟨e, _, rfl⟩ := hp
        have : a ≠ n := fun h => hd.1 (hk ▸ h ▸ ha)
        simp [this]
      rw [this]; simp
    · rw [if_neg hk, List.nil_append]
      exact ih ((List.mem_cons.1 hn).resolve_left (Ne.symm hk)) hd.2

theorem buildMap_eq {fs : Fin nd → ℝ} {m : Mesh N E nd} (h : Usable fs m) (r : ℕ) :
    ∃ f, buildMap fs m r = some f ∧ ∀ n ∈ m.nodes, m.ownerN n = r → f n = m.elems.filter (Touches fs m n) := by
  unfold buildMap
  rw [complete_fold]
  · refine ⟨_, rfl, fun n hn hr => ?_⟩
    rw [List.nil_append]
    unfold searchPairs
    rw [List.filter_filter]
    rw [← prod_filter (Touches fs m) m.nodes m.elems n hn h.nodup]
    congr 1
    apply List.filter_congr
    intro p hp
    rw [List.mem_flatMap] at hp
    obtain ⟨a, _, hp⟩ := hp
    rw [List.mem_map] at hp
    obtain ⟨e, he, rfl⟩ := hp
    rw [Bool.eq_iff_iff]
    simp only [Bool.and_eq_true, decide_eq_true_eq]
    rw [meets_iff fs m a e h.size (h.hasNodes e he) (h.range e he)]
    constructor
    · rintro ⟨⟨h1, h2⟩, h3, h4⟩; exact ⟨h2, h3⟩
    · rintro ⟨h2, h3⟩; subst h2; exact ⟨⟨hr, rfl⟩, h3, Or.inl hr⟩
  · intro p hp hr
    refine visible_of fs m r p hp hr ?_
    unfold searchPairs at hp
    have := List.mem_of_mem_filter hp
    rw [List.mem_flatMap] at this
    obtain ⟨a, _, hp⟩ := this
    rw [List.mem_map] at hp
    obtain ⟨e, he, rfl⟩ := hp
    exact h.ownE e he

theorem foldl_add {α : Type*} (l : List α) (g : α → ℝ) (s : ℝ) : l.foldl (fun s a => s + g a) s = s + (l.map g).sum := by
  induction l generalizing s with
  | nil => simp
  | cons a l ih => rw [List.foldl_cons, ih, List.map_cons, List.sum_cons, add_assoc]

theorem elemVolume_eq (m : Mesh N E nd) (e : E) : elemVolume m e = vol m e := by
  unfold elemVolume vol
  have := foldl_add (m.scv e) id 0
  simpa using this

theorem elemMean_eq (m : Mesh N E nd) (q : N → ℝ) (e : E) : elemMean m q e = vol m e * mean m q e := by
  unfold elemMean mean
  rw [foldl_add, zero_add, elemVolume_eq, List.sum_map_mul_right, List.sum_map_mul_right]
  ring

theorem nodeLoop_eq (m : Mesh N E nd) (q : N → ℝ) (es : List E) :
    nodeLoop m q es = ((es.map (vol m)).sum, (es.map fun e => vol m e * mean m q e).sum) := by
  unfold nodeLoop
  have : ∀ (l : List E) (s : ℝ × ℝ), l.foldl (fun s e => (s.1 + elemVolume m e, s.2 + elemMean m q e)) s =
      (s.1 + (l.map (vol m)).sum, s.2 + (l.map fun e => vol m e * mean m q e).sum) := by
    intro l
    induction l with
    | nil => simp
    | cons a l ih =>
      intro s
      rw [List.foldl_cons, ih]
      simp only [elemVolume_eq, elemMean_eq, List.map_cons, List.sum_cons, add_assoc]
  rw [this]; simp

theorem parallel_eq {fs : Fin nd → ℝ} {m : Mesh N E nd} (h : Usable fs m) (q : N → ℝ) (maps : ℕ → N → List E) (n : N) (hn : n ∈ m.nodes) :
    parallelSum m (fun r => rankLocal m q r (maps r)) n = nodeLoop m q (maps (m.ownerN n) n) := by
  unfold parallelSum
  have hmem : m.ownerN n ∈ Finset.range m.ranks := Finset.mem_range.2 (h.ownN n hn)
  rw [Finset.sum_eq_single_of_mem _ hmem, Finset.sum_eq_single_of_mem _ hmem]
  · beta_reduce; unfold rankLocal; rw [if_pos ⟨hn, rfl⟩]
  · intro r _ hr; beta_reduce; unfold rankLocal; rw [if_neg (fun H => hr H.2.symm)]
  · intro r _ hr; beta_reduce; unfold rankLocal; rw [if_neg (fun H => hr H.2.symm)]

theorem support_sum {fs : Fin nd → ℝ} {m : Mesh N E nd} (g : E → ℝ) (n : N) :
    ((support fs m n).map g).sum = ((m.images n).map fun k => ((m.elems.filter (Touches fs m k)).map g).sum).sum := by
  unfold support
  generalize m.images n = l
  induction l with
  | nil => simp
  | cons k l ih => rw [List.flatMap_cons, List.map_append, List.sum_append, ih, List.map_cons, List.sum_cons]

theorem filtered_eq {fs : Fin nd → ℝ} {m : Mesh N E nd} (h : Usable fs m) (q : N → ℝ) :
    ∃ v, filtered fs m q = some v ∧ ∀ n ∈ m.nodes, v n = boxMean fs m q n := by
  unfold filtered
  have hs : ∀ r < m.ranks, (buildMap fs m r).isSome := by
    intro r _
    obtain ⟨f, hf, _⟩ := buildMap_eq h r
    rw [hf]; rfl
  rw [if_pos hs]
  refine ⟨_, rfl, fun n hn => ?_⟩
  simp only [execute, boxMean]
  rw [support_sum, support_sum]
  unfold periodicSum
  have key : ∀ k ∈ m.images n, parallelSum m (fun r => rankLocal m q r ((buildMap fs m r).getD fun _ => [])) k =
      (((m.elems.filter (Touches fs m k)).map (vol m)).sum, ((m.elems.filter (Touches fs m k)).map fun e => vol m e * mean m q e).sum) := by
    intro k hk
    have hk' := h.imgNode n hn k hk
    rw [parallel_eq h q (fun r => (buildMap fs m r).getD fun _ => []) k hk', nodeLoop_eq]
    obtain ⟨f, hf, hf'⟩ := buildMap_eq h (m.ownerN k)
    rw [hf, Option.getD_some, hf' k hk' rfl]
  rw [mul_one_div]
  congr 1
  · exact congrArg List.sum (List.map_congr_left fun k hk => by simp only [key k hk])
  · exact congrArg List.sum (List.map_congr_left fun k hk => by simp only [key k hk])

theorem support_elem {fs : Fin nd → ℝ} {m : Mesh N E nd} {n : N} {e : E} (he : e ∈ support fs m n) :
    e ∈ m.elems ∧ ∃ k ∈ m.images n, Touches fs m k e := by
  unfold support at he
  rw [List.mem_flatMap] at he
  obtain ⟨k, hk, he⟩ := he
  rw [List.mem_filter] at he
  exact ⟨he.1, k, hk, by simpa using he.2⟩

theorem support_ne {fs : Fin nd → ℝ} {m : Mesh N E nd} (h : Usable fs m) {n : N} (hn : n ∈ m.nodes) :
    0 < ((support fs m n).map (vol m)).sum := by
  obtain ⟨e, he, hc⟩ := h.hasElem n hn
  have : e ∈ support fs m n := by
    unfold support
    rw [List.mem_flatMap]
    exact ⟨n, h.imgSelf n hn, by rw [List.mem_filter]; exact ⟨he, by simpa using touches_self fs m n e h.size hc⟩⟩
  have hp : ∀ x ∈ (support fs m n).map (vol m), 0 < x := by
    intro x hx
    rw [List.mem_map] at hx
    obtain ⟨e, he, rfl⟩ := hx
    exact h.volPos e (support_elem he).1
  exact List.sum_pos _ hp (List.ne_nil_of_mem (List.mem_map_of_mem this))

end Nalu.ExpFilter
