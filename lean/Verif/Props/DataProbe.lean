import Verif.Model.DataProbe
import Verif.Spec.MeshMotion
import Mathlib.Data.Int.CardIntervalMod
import Mathlib.Tactic.LinearCombination
import Mathlib.Tactic.FieldSimp
import Mathlib.Tactic.FinCases
import Mathlib.Tactic.Linarith
import Mathlib.Tactic.Positivity

/-!
# C132-C136: data probes
-/

namespace Nalu.Probe
open Verif.Motion

/-! ## C132: distribution over the ranks -/

theorem range_split {j P : ℕ} (h : j < P) :
    List.range P = List.range j ++ j :: List.range' (j + 1) (P - (j + 1)) := by
  have e := List.range'_append_1 (s := 0) (m := j + 1) (n := P - (j + 1))
  rw [Nat.zero_add, ← List.range_eq_range', show j + 1 + (P - (j + 1)) = P by omega, ← List.range_eq_range',
    List.range_succ, List.append_assoc] at e
  exact e.symm

theorem getD_lt {nodes : List ℕ} {n : ℕ} (h : n < nodes.length) : nodes.getD n 0 = nodes[n] := by
  simp [h]

theorem numProbes_eq (d : Deck) : d.numProbes = d.probes.length := by
  simp only [Deck.numProbes, Deck.probes, List.length_append]; omega

theorem div_eq (P N : ℕ) : divProcProbe P N = P := by
  unfold divProcProbe; exact max_eq_right (Nat.div_le_self P N)

theorem onRank_iff {P : ℕ} (hP : 0 < P) (N j r : ℕ) : onRank P N j r = true ↔ j % P = r := by
  unfold onRank candidateId
  rw [div_eq, if_pos hP]
  exact decide_eq_true_iff

/-- C132: for every number of ranks and every deck, each probe is placed on exactly one rank. -/
theorem c132_one_rank {P : ℕ} (hP : 0 < P) (d : Deck) (j : ℕ) :
    ∃! r, r < P ∧ onRank P d.numProbes j r = true := by
  refine ⟨j % P, ⟨Nat.mod_lt _ hP, (onRank_iff hP _ _ _).2 rfl⟩, ?_⟩
  rintro r ⟨_, hr⟩
  exact ((onRank_iff hP _ _ _).1 hr).symm

/-- C132: the probes are spread evenly: rank `r` of `P` gets `N / P` of the `N` probes of the deck, one
more if `r < N % P`. -/
theorem c132_balanced {P : ℕ} (hP : 0 < P) (d : Deck) {r : ℕ} (hr : r < P) :
    ((List.range d.probes.length).filter (fun j => onRank P d.numProbes j r)).length
      = d.probes.length / P + if r < d.probes.length % P then 1 else 0 := by
  have h := Nat.count_modEq_card (r := P) d.probes.length hP r
  rw [Nat.mod_eq_of_lt hr] at h
  rw [← h, Nat.count_eq_card_filter_range, ← List.toFinset_card_of_nodup ((List.nodup_range).filter _)]
  congr 1
  ext j
  simp only [List.mem_toFinset, List.mem_filter, List.mem_range, Finset.mem_filter, Finset.mem_range,
    onRank_iff hP, Nat.ModEq, Nat.mod_eq_of_lt hr]

/-- C132: on a fresh start the node vectors of all ranks together are the new ids, each once: no node is
declared twice and none is lost. -/
theorem c132_nodes {P : ℕ} (hP : 0 < P) (d : Deck) (j : ℕ) (ids : List ℕ) :
    (List.range P).flatMap (fun r => freshNodes ids (onRank P d.numProbes j r)) = ids := by
  have hj := Nat.mod_lt j hP
  have hz : ∀ l : List ℕ, (∀ r ∈ l, r ≠ j % P) →
      l.flatMap (fun r => freshNodes ids (onRank P d.numProbes j r)) = [] := by
    intro l hl
    rw [List.flatMap_eq_nil_iff]
    intro r hr
    unfold freshNodes
    rw [if_neg]
    rw [onRank_iff hP]
    exact fun h => hl r hr h.symm
  rw [range_split hj, List.flatMap_append, List.flatMap_cons,
    hz (List.range (j % P)) (by intro r hr; have := List.mem_range.1 hr; omega),
    hz (List.range' _ _) (by intro r hr; have := List.mem_range'_1.1 hr; omega)]
  simp [freshNodes, (onRank_iff hP d.numProbes j (j % P)).2 rfl]

/-- C132: at a restart the rank holds the probe exactly when it owns nodes of its part, and the number of
points is then the number of nodes found. -/
theorem c132_restart (buckets : List (List ℕ)) (n : ℕ) :
    (restartNodes buckets n).1 = buckets.flatten ∧
    ((restartNodes buckets n).2.1 = true ↔ ∃ b ∈ buckets, ∃ x, x ∈ b) ∧
    ((restartNodes buckets n).2.1 = true → (restartNodes buckets n).2.2 = buckets.flatten.length) := by
  refine ⟨rfl, ?_, ?_⟩
  · simp only [restartNodes, Bool.not_eq_true', List.isEmpty_eq_false_iff, ne_eq]
    constructor
    · intro h
      obtain ⟨x, hx⟩ := List.exists_mem_of_ne_nil _ h
      obtain ⟨b, hb, hx⟩ := List.mem_flatten.1 hx
      exact ⟨b, hb, x, hx⟩
    · rintro ⟨b, hb, x, hx⟩
      exact List.ne_nil_of_mem (List.mem_flatten.2 ⟨b, hb, hx⟩)
  · intro h
    simp only [restartNodes] at h ⊢
    rw [h, Bool.true_and]
    by_cases hl : buckets.flatten.length = n
    · rw [if_neg (by simpa using hl)]; exact hl.symm
    · rw [if_pos (by simpa using hl)]

example : (List.range 3).flatMap (fun r => freshNodes [7, 8] (onRank 3 5 4 r)) = [7, 8] ∧
    ((List.range 5).filter (fun j => onRank 3 5 j 1)).length = 2 := by decide

/-! ## A loop over the node vector -/

theorem getD_inj {nodes : List ℕ} (hn : nodes.Nodup) {a b : ℕ} (ha : a < nodes.length) (hb : b < nodes.length)
    (h : nodes.getD a 0 = nodes.getD b 0) : a = b := by
  rw [getD_lt ha, getD_lt hb] at h
  exact (List.Nodup.getElem_inj_iff hn).1 h

theorem write_same (nodes : List ℕ) (n : ℕ) (x : Pt) (f : ℕ → Pt) :
    write nodes n x f (nodes.getD n 0) = x := by
  unfold write; rw [Function.update_self]

theorem write_other {nodes : List ℕ} (hn : nodes.Nodup) {a b : ℕ} (ha : a < nodes.length) (hb : b < nodes.length)
    (hab : a ≠ b) (x : Pt) (f : ℕ → Pt) : write nodes a x f (nodes.getD b 0) = f (nodes.getD b 0) := by
  unfold write; rw [Function.update_of_ne]
  exact fun h => hab (getD_inj hn ha hb h.symm)

theorem write_outside {nodes : List ℕ} {a m : ℕ} (ha : a < nodes.length) (hm : m ∉ nodes) (x : Pt) (f : ℕ → Pt) :
    write nodes a x f m = f m := by
  unfold write; rw [Function.update_of_ne]
  rintro rfl
  exact hm (by rw [getD_lt ha]; exact List.getElem_mem ha)

theorem loop_spec {nodes : List ℕ} (hn : nodes.Nodup) (v : ℕ → Pt) (f : ℕ → Pt) : ∀ L, L ≤ nodes.length →
    ∀ m, m < nodes.length → (List.range L).foldl (fun f n => write nodes n (v n) f) f (nodes.getD m 0)
      = if m < L then v m else f (nodes.getD m 0) := by
  intro L
  induction L with
  | zero => intro _ m _; simp
  | succ L ih =>
    intro hL m hm
    rw [List.range_succ, List.foldl_append, List.foldl_cons, List.foldl_nil]
    by_cases h : m = L
    · subst h; rw [write_same, if_pos (by omega)]
    · rw [write_other hn (by omega) hm (Ne.symm h), ih (by omega) m hm]
      by_cases h2 : m < L
      · rw [if_pos h2, if_pos (by omega)]
      · rw [if_neg h2, if_neg (by omega)]

theorem loop_outside {nodes : List ℕ} (v : ℕ → Pt) (f : ℕ → Pt) {m : ℕ} (hm : m ∉ nodes) : ∀ L, L ≤ nodes.length →
    (List.range L).foldl (fun f n => write nodes n (v n) f) f m = f m := by
  intro L
  induction L with
  | zero => intro _; simp
  | succ L ih =>
    intro hL
    rw [List.range_succ, List.foldl_append, List.foldl_cons, List.foldl_nil,
      write_outside (by omega) hm, ih (by omega)]

/-! ## C133: lines of sight -/

/-- The straight line from `a` to `b` at parameter `s`. -/
def lerp (a b : Pt) (s : ℝ) : Pt := fun i => a i + s * (b i - a i)

/-- C133: a line of sight with at least two points: node `n` of the node vector lies on the segment from
tail to tip at parameter `n/(numPoints-1)`, whatever the ids are and whatever the field held before. -/
theorem c133_line {p : Probe} (hk : p.kind = .los) (h2 : 2 ≤ p.numPoints) {nodes : List ℕ} (hn : nodes.Nodup)
    (f : ℕ → Pt) {n : ℕ} (hlt : n < nodes.length) :
    place p nodes f (nodes.getD n 0) = lerp p.tail p.tip ((n : ℝ) / ((p.numPoints : ℝ) - 1)) := by
  simp only [place, hk, losPlace]
  rw [loop_spec hn _ f _ le_rfl n hlt, if_pos hlt]
  funext i
  simp only [lerp, delta]
  rw [max_eq_right (by omega), Nat.cast_sub (by omega), Nat.cast_one]
  ring

/-- C133: the first point is the tail, the last one the tip. -/
theorem c133_ends {p : Probe} (hk : p.kind = .los) (h2 : 2 ≤ p.numPoints) {nodes : List ℕ} (hn : nodes.Nodup)
    (hlen : nodes.length = p.totalPoints) (f : ℕ → Pt) :
    place p nodes f (nodes.getD 0 0) = p.tail ∧
    place p nodes f (nodes.getD (p.numPoints - 1) 0) = p.tip := by
  have hl : nodes.length = p.numPoints := by rw [hlen]; simp [Probe.totalPoints, hk]
  rw [c133_line hk h2 hn f (by omega), c133_line hk h2 hn f (n := p.numPoints - 1) (by omega)]
  have hp : (p.numPoints : ℝ) - 1 ≠ 0 := by
    have : (2 : ℝ) ≤ p.numPoints := by exact_mod_cast h2
    intro h; linarith
  constructor <;> funext i <;> simp only [lerp]
  · simp
  · rw [Nat.cast_sub (by omega), Nat.cast_one, div_self hp]; ring

/-- C133: every point lies between tail and tip. -/
theorem c133_between {p : Probe} (hk : p.kind = .los) (h2 : 2 ≤ p.numPoints) {nodes : List ℕ} (hn : nodes.Nodup)
    (hlen : nodes.length = p.totalPoints) (f : ℕ → Pt) {x : ℕ} (hx : x ∈ nodes) :
    ∃ s, 0 ≤ s ∧ s ≤ 1 ∧ place p nodes f x = lerp p.tail p.tip s := by
  have hl : nodes.length = p.numPoints := by rw [hlen]; simp [Probe.totalPoints, hk]
  obtain ⟨n, hlt, rfl⟩ := List.getElem_of_mem hx
  have e : nodes[n] = nodes.getD n 0 := (getD_lt hlt).symm
  rw [e]
  have hp : (0 : ℝ) < (p.numPoints : ℝ) - 1 := by
    have : (2 : ℝ) ≤ p.numPoints := by exact_mod_cast h2
    linarith
  refine ⟨_, ?_, ?_, c133_line hk h2 hn f hlt⟩
  · positivity
  · rw [div_le_one hp]
    have : (n : ℝ) + 1 ≤ p.numPoints := by exact_mod_cast (by omega : n + 1 ≤ p.numPoints)
    linarith

/-- C133: a probe with one point sits at the tail. -/
theorem c133_single {p : Probe} (hk : p.kind = .los) {x : ℕ} (f : ℕ → Pt) :
    place p [x] f x = p.tail := by
  simp only [place, hk, losPlace]
  have := loop_spec (nodes := [x]) (by simp) (fun n i => p.tail i + (n : ℝ) * delta 1 p.numPoints p.tail p.tip i) f
    1 le_rfl 0 (by simp)
  simp only [List.getD_cons_zero] at this
  rw [show [x].length = 1 from rfl, this]
  funext i
  simp

/-- C133: placing a probe touches no node outside its node vector. -/
theorem c133_frame (p : Probe) (hk : p.kind ≠ .ring) {nodes : List ℕ} (f : ℕ → Pt) {m : ℕ} (hm : m ∉ nodes) :
    place p nodes f m = f m := by
  unfold place
  rcases hp : p.kind with _ | _ | _
  · exact loop_outside _ f hm _ le_rfl
  · exact loop_outside _ f hm _ le_rfl
  · exact absurd hp hk

/-- C133 (negative): every rank numbers its own nodes from zero, so when at a restart the nodes of one
line of sight are owned by two ranks, two different nodes are put at the tail. -/
theorem c133_split_restart {p : Probe} (hk : p.kind = .los) {b c : List (List ℕ)} (n : ℕ) (f g : ℕ → Pt)
    (hb : (restartNodes b n).1.Nodup) (hc : (restartNodes c n).1.Nodup)
    (hb1 : (restartNodes b n).2.1 = true) (hc1 : (restartNodes c n).2.1 = true) :
    ∃ x ∈ b.flatten, ∃ y ∈ c.flatten,
      place p (restartNodes b n).1 f x = p.tail ∧ place p (restartNodes c n).1 g y = p.tail := by
  have key : ∀ {b : List (List ℕ)} (f : ℕ → Pt), (restartNodes b n).1.Nodup → (restartNodes b n).2.1 = true →
      ∃ x ∈ b.flatten, place p (restartNodes b n).1 f x = p.tail := by
    intro b f hb hb1
    have hpos : 0 < b.flatten.length := by
      simp only [restartNodes, Bool.not_eq_true', List.isEmpty_eq_false_iff] at hb1
      exact List.length_pos_of_ne_nil hb1
    refine ⟨b.flatten.getD 0 0, by rw [getD_lt hpos]; exact List.getElem_mem hpos, ?_⟩
    simp only [place, hk, losPlace, restartNodes] at hb ⊢
    rw [loop_spec hb _ f _ le_rfl 0 hpos, if_pos hpos]
    funext i; simp
  obtain ⟨x, hx, h1⟩ := key f hb hb1
  obtain ⟨y, hy, h2⟩ := key g hc hc1
  exact ⟨x, hx, y, hy, h1, h2⟩

/-- A concrete line of sight. -/
def exLos : Probe := { kind := .los, numPoints := 5, tail := ![1, 0, 0], tip := ![3, 4, 0] }

example : place exLos [10, 12, 11, 20, 30] (fun _ => 0) 12 = ![3 / 2, 1, 0] := by
  have h := c133_line (p := exLos) rfl (by decide) (nodes := [10, 12, 11, 20, 30]) (by decide) (fun _ => 0)
    (n := 1) (by decide)
  refine Eq.trans h ?_
  funext i
  fin_cases i <;> simp [lerp, exLos] <;> norm_num

/-! ## C134: rings -/

theorem computeR_rodrigues (u : Pt) (θ : ℝ) (c : Pt) : matVec c (computeR θ u) = rodrigues u θ c := by
  funext i
  fin_cases i <;>
    simp [matVec, computeR, rodrigues, vcross, dot, Fin.sum_univ_three] <;> ring

theorem inner_spec {p : Probe} {nodes : List ℕ} (hn : nodes.Nodup) (k : ℕ) (f : ℕ → Pt) (a : ℕ) : ∀ L, a + L ≤ nodes.length →
    ((List.range' a L).foldl (ringBody p nodes k) (0, f)).1 = (L : ℝ) * dTheta p ∧
    ∀ m, m < nodes.length → ((List.range' a L).foldl (ringBody p nodes k) (0, f)).2 (nodes.getD m 0)
      = if a ≤ m ∧ m < a + L then
          (fun i => matVec (seed p k) (computeR (((m - a : ℕ) : ℝ) * dTheta p) p.unitNormal) i + p.origin i)
        else f (nodes.getD m 0) := by
  intro L
  induction L with
  | zero =>
    intro _
    refine ⟨by simp, ?_⟩
    intro m _
    rw [if_neg (by omega)]
    rfl
  | succ L ih =>
    intro hL
    obtain ⟨h1, h2⟩ := ih (by omega)
    rw [List.range'_1_concat, List.foldl_append, List.foldl_cons, List.foldl_nil]
    refine ⟨?_, ?_⟩
    · simp only [ringBody]; rw [h1]; push_cast; ring
    · intro m hm
      simp only [ringBody]
      by_cases h : m = a + L
      · subst h
        rw [write_same, if_pos (by omega), h1, show a + L - a = L by omega]
      · rw [write_other hn (by omega) hm (Ne.symm h), h2 m hm]
        by_cases hc : a ≤ m ∧ m < a + L
        · rw [if_pos hc, if_pos (by omega)]
        · rw [if_neg hc, if_neg (by omega)]

theorem inner_outside {p : Probe} {nodes : List ℕ} (k : ℕ) (f : ℕ → Pt) (a : ℕ) {m : ℕ} (hm : m ∉ nodes) :
    ∀ L, a + L ≤ nodes.length → ((List.range' a L).foldl (ringBody p nodes k) (0, f)).2 m = f m := by
  intro L
  induction L with
  | zero => intro _; rfl
  | succ L ih =>
    intro hL
    rw [List.range'_1_concat, List.foldl_append, List.foldl_cons, List.foldl_nil]
    simp only [ringBody]
    rw [write_outside (by omega) hm, ih (by omega)]

theorem ringInner_spec {p : Probe} {nodes : List ℕ} (hn : nodes.Nodup) (k : ℕ) (f : ℕ → Pt) {m : ℕ}
    (hm : m < nodes.length) :
    ringInner p nodes f k (nodes.getD m 0)
      = if k * p.numPoints ≤ m then
          (fun i => matVec (seed p k) (computeR (((m - k * p.numPoints : ℕ) : ℝ) * dTheta p) p.unitNormal) i + p.origin i)
        else f (nodes.getD m 0) := by
  unfold ringInner
  by_cases hk : k * p.numPoints ≤ nodes.length
  · rw [(inner_spec hn k f _ _ (by omega)).2 m hm]
    by_cases h : k * p.numPoints ≤ m
    · rw [if_pos h, if_pos (by omega)]
    · rw [if_neg h, if_neg (by omega)]
  · rw [show nodes.length - k * p.numPoints = 0 by omega, if_neg (by omega)]
    rfl

/-- The ring position: the seed point of line point `k`, turned by the angle about the axis through the
origin of the ring. -/
noncomputable def ringPoint (p : Probe) (s θ : ℝ) : Pt := fun i =>
  p.origin i + rodrigues p.unitNormal θ (fun j => lerp p.tail p.tip s j - p.origin j) i

theorem outer_spec {p : Probe} {nodes : List ℕ} (hn : nodes.Nodup) (hp : 0 < p.numPoints) (f : ℕ → Pt) {m : ℕ}
    (hm : m < nodes.length) : ∀ K, (List.range K).foldl (ringInner p nodes) f (nodes.getD m 0)
      = if K = 0 then f (nodes.getD m 0) else
        (fun i => matVec (seed p (min (m / p.numPoints) (K - 1)))
          (computeR (((m - min (m / p.numPoints) (K - 1) * p.numPoints : ℕ) : ℝ) * dTheta p) p.unitNormal) i + p.origin i) := by
  intro K
  induction K with
  | zero => simp
  | succ K ih =>
    rw [List.range_succ, List.foldl_append, List.foldl_cons, List.foldl_nil, ringInner_spec hn K _ hm, if_neg (by omega : ¬ (K + 1 = 0))]
    by_cases h : K * p.numPoints ≤ m
    · have hq : K ≤ m / p.numPoints := (Nat.le_div_iff_mul_le hp).2 h
      rw [if_pos h, show min (m / p.numPoints) (K + 1 - 1) = K by omega]
    · have hq : m / p.numPoints < K := by
        rw [Nat.div_lt_iff_lt_mul hp]; omega
      have hK : K ≠ 0 := by rintro rfl; exact absurd hq (Nat.not_lt_zero _)
      rw [if_neg h, ih, if_neg hK, show min (m / p.numPoints) (K + 1 - 1) = m / p.numPoints by omega,
        show min (m / p.numPoints) (K - 1) = m / p.numPoints by omega]

/-- C134: node `n` of a ring probe belongs to ring `k = n / numPoints`; it lies where the `k`-th of the
equispaced points of the line from tail to tip goes when turned by `n % numPoints` equal parts of a full turn
about the axis, although the loops overwrite the later rings several times. -/
theorem c134_position {p : Probe} (hk : p.kind = .ring) (hp : 0 < p.numPoints) (hl : 2 ≤ p.numLinePoints)
    {nodes : List ℕ} (hn : nodes.Nodup)
    (hlen : nodes.length = p.totalPoints) (f : ℕ → Pt) {n : ℕ} (hlt : n < nodes.length) :
    place p nodes f (nodes.getD n 0)
      = ringPoint p (((n / p.numPoints : ℕ) : ℝ) / ((p.numLinePoints : ℝ) - 1))
          (2 * Real.pi * ((n % p.numPoints : ℕ) : ℝ) / (p.numPoints : ℝ)) := by
  have hl' : nodes.length = p.numPoints * p.numLinePoints := by rw [hlen]; simp [Probe.totalPoints, hk]
  have hq : n / p.numPoints < p.numLinePoints := by
    rw [Nat.div_lt_iff_lt_mul hp, mul_comm]; omega
  simp only [place, hk, ringPlace]
  rw [outer_spec hn hp f hlt, if_neg (by omega), show min (n / p.numPoints) (p.numLinePoints - 1) = n / p.numPoints by omega]
  have hr : n - n / p.numPoints * p.numPoints = n % p.numPoints := by
    have := Nat.mod_add_div n p.numPoints
    rw [mul_comm] at this; omega
  rw [hr, computeR_rodrigues]
  have hs : seed p (n / p.numPoints) = fun j => lerp p.tail p.tip (((n / p.numPoints : ℕ) : ℝ) / ((p.numLinePoints : ℝ) - 1)) j - p.origin j := by
    funext j
    simp only [seed, lerp, delta]
    rw [max_eq_right (by omega), Nat.cast_sub (by omega), Nat.cast_one]
    ring
  have ht : ((n % p.numPoints : ℕ) : ℝ) * dTheta p = 2 * Real.pi * ((n % p.numPoints : ℕ) : ℝ) / (p.numPoints : ℝ) := by
    simp only [dTheta, Real.arccos_neg_one]; ring
  rw [hs, ht]
  funext i
  simp only [ringPoint]; ring

theorem rodrigues_norm {a : Pt} (ha : dot a a = 1) (θ : ℝ) (r : Pt) :
    dot (rodrigues a θ r) (rodrigues a θ r) = dot r r := by
  simp only [dot, Fin.sum_univ_three] at ha
  have h := Real.sin_sq_add_cos_sq θ
  simp only [dot, rodrigues, vcross, Fin.sum_univ_three, Matrix.cons_val_zero, Matrix.cons_val_one, Matrix.cons_val]
  generalize Real.sin θ = s at *
  generalize Real.cos θ = c at *
  have e : s * s = 1 - c * c := by linarith
  have e2 : a 2 * a 2 = 1 - a 0 * a 0 - a 1 * a 1 := by linarith
  linear_combination ((r 0 ^ 2 + r 1 ^ 2 + r 2 ^ 2) * s ^ 2 + ((1 - c) ^ 2) * (a 0 * r 0 + a 1 * r 1 + a 2 * r 2) ^ 2) * ha
    + ((r 0 ^ 2 + r 1 ^ 2 + r 2 ^ 2) - (a 0 * r 0 + a 1 * r 1 + a 2 * r 2) ^ 2) * h

theorem rodrigues_axis {a : Pt} (ha : dot a a = 1) (θ : ℝ) (r : Pt) :
    dot a (rodrigues a θ r) = dot a r := by
  simp only [dot, Fin.sum_univ_three] at ha
  simp only [dot, rodrigues, vcross, Fin.sum_univ_three, Matrix.cons_val_zero, Matrix.cons_val_one, Matrix.cons_val]
  linear_combination ((1 - Real.cos θ) * (a 0 * r 0 + a 1 * r 1 + a 2 * r 2)) * ha

/-- C134: all points of a ring have the distance of the seed point to the origin and lie in the seed
point's plane normal to the axis. -/
theorem c134_circle (p : Probe) (hu : dot p.unitNormal p.unitNormal = 1) (s θ : ℝ) :
    dist2 (ringPoint p s θ) p.origin = dist2 (lerp p.tail p.tip s) p.origin ∧
    dot p.unitNormal (fun i => ringPoint p s θ i - p.origin i)
      = dot p.unitNormal (fun i => lerp p.tail p.tip s i - p.origin i) := by
  constructor
  · have h := rodrigues_norm hu θ (fun j => lerp p.tail p.tip s j - p.origin j)
    simp only [dist2, ringPoint, dot] at h ⊢
    simp only [add_sub_cancel_left, pow_two]
    exact h
  · have h := rodrigues_axis hu θ (fun j => lerp p.tail p.tip s j - p.origin j)
    simp only [ringPoint, add_sub_cancel_left]
    exact h

/-- C134: the first node of every ring is the seed point itself. -/
theorem c134_first (p : Probe) (s : ℝ) : ringPoint p s 0 = lerp p.tail p.tip s := by
  funext i
  fin_cases i <;> simp [ringPoint, rodrigues]

/-- C134: placing a ring touches no node outside its node vector. -/
theorem c134_frame {p : Probe} {nodes : List ℕ} (f : ℕ → Pt) {m : ℕ} (hm : m ∉ nodes) :
    place p nodes f m = f m := by
  by_cases hk : p.kind = .ring
  · simp only [place, hk, ringPlace]
    generalize p.numLinePoints = K
    induction K with
    | zero => rfl
    | succ K ih =>
      rw [List.range_succ, List.foldl_append, List.foldl_cons, List.foldl_nil]
      rw [show ∀ g : ℕ → Pt, ringInner p nodes g K m = g m from ?_]
      · exact ih
      · intro g
        unfold ringInner
        by_cases h : K * p.numPoints ≤ nodes.length
        · exact inner_outside K g _ hm _ (by omega)
        · rw [show nodes.length - K * p.numPoints = 0 by omega]; rfl
  · exact c133_frame p hk f hm

/-- Two rings of four points about the third axis. -/
def exRing : Probe :=
  { kind := .ring, numPoints := 4, numLinePoints := 2, tail := ![2, 0, 0], tip := ![3, 0, 1],
    unitNormal := ![0, 0, 1], origin := ![1, 0, 0] }

example : place exRing [3, 1, 4, 15, 9, 2, 6, 5] (fun _ => 0) 2 = ![1, 2, 1] := by
  have h := c134_position (p := exRing) rfl (by decide) (by decide)
    (nodes := [3, 1, 4, 15, 9, 2, 6, 5]) (by decide) rfl (fun _ => 0) (n := 5) (by decide)
  refine Eq.trans h ?_
  have e : 2 * Real.pi * ((5 % exRing.numPoints : ℕ) : ℝ) / (exRing.numPoints : ℝ) = Real.pi / 2 := by
    simp [exRing]; ring
  rw [e]
  funext i
  fin_cases i <;> simp [ringPoint, rodrigues, vcross, dot, lerp, exRing, Fin.sum_univ_three] <;> norm_num

/-! ## C135: planes -/

/-- C135: node `n` of a plane is the lattice point in column `n % numPointsOne`, row `n / numPointsOne`. -/
theorem c135_position {p : Probe} (hk : p.kind = .plane) (h1 : 2 ≤ p.numPointsOne) (h2 : 3 ≤ p.numPointsTwo)
    {nodes : List ℕ} (hn : nodes.Nodup) (f : ℕ → Pt) {n : ℕ} (hlt : n < nodes.length) :
    place p nodes f (nodes.getD n 0) = fun i =>
      p.tail i + ((n % p.numPointsOne : ℕ) : ℝ) / ((p.numPointsOne : ℝ) - 1) * (p.tipOne i - p.tail i)
        + ((n / p.numPointsOne : ℕ) : ℝ) / ((p.numPointsTwo : ℝ) - 1) * (p.tipTwo i - p.tail i) := by
  simp only [place, hk, planePlace]
  rw [loop_spec hn _ f _ le_rfl n hlt, if_pos hlt]
  funext i
  simp only [delta]
  rw [max_eq_right (by omega), max_eq_right (by omega), Nat.cast_sub (by omega), Nat.cast_sub (by omega), Nat.cast_one]
  ring

/-- The number of the node in column `a`, row `b`. -/
def at' (p : Probe) (a b : ℕ) : ℕ := b * p.numPointsOne + a

/-- C135: with at least two points in the first and three in the second direction, the corners of the plane
are the tail, the two tips and the fourth corner of the parallelogram. -/
theorem c135_corners {p : Probe} (hk : p.kind = .plane) (h1 : 2 ≤ p.numPointsOne) (h2 : 3 ≤ p.numPointsTwo)
    {nodes : List ℕ} (hn : nodes.Nodup) (hlen : nodes.length = p.totalPoints) (f : ℕ → Pt) :
    place p nodes f (nodes.getD (at' p 0 0) 0) = p.tail ∧
    place p nodes f (nodes.getD (at' p (p.numPointsOne - 1) 0) 0) = p.tipOne ∧
    place p nodes f (nodes.getD (at' p 0 (p.numPointsTwo - 1)) 0) = p.tipTwo ∧
    place p nodes f (nodes.getD (at' p (p.numPointsOne - 1) (p.numPointsTwo - 1)) 0)
      = fun i => p.tipOne i + p.tipTwo i - p.tail i := by
  have hl : nodes.length = p.numPointsOne * p.numPointsTwo := by rw [hlen]; simp [Probe.totalPoints, hk]
  obtain ⟨m, hm⟩ : ∃ m, p.numPointsTwo = m + 1 := ⟨p.numPointsTwo - 1, by omega⟩
  have hpos : 0 < p.numPointsOne := by omega
  have e1 : (p.numPointsOne : ℝ) - 1 ≠ 0 := by
    have : (2 : ℝ) ≤ p.numPointsOne := by exact_mod_cast h1
    intro h; linarith
  have e2 : (p.numPointsTwo : ℝ) - 1 ≠ 0 := by
    have : (3 : ℝ) ≤ p.numPointsTwo := by exact_mod_cast h2
    intro h; linarith
  have key : ∀ a b, a < p.numPointsOne → b < p.numPointsTwo →
      at' p a b < nodes.length ∧ at' p a b % p.numPointsOne = a ∧ at' p a b / p.numPointsOne = b := by
    intro a b ha hb
    refine ⟨?_, ?_, ?_⟩
    · rw [hl, at']
      have : (b + 1) * p.numPointsOne ≤ p.numPointsTwo * p.numPointsOne := Nat.mul_le_mul_right _ hb
      rw [add_mul, one_mul] at this
      rw [mul_comm p.numPointsOne]; omega
    · rw [at', Nat.mul_add_mod', Nat.mod_eq_of_lt ha]
    · rw [at', mul_comm, Nat.mul_add_div hpos, Nat.div_eq_of_lt ha, add_zero]
  have val : ∀ a b, a < p.numPointsOne → b < p.numPointsTwo → place p nodes f (nodes.getD (at' p a b) 0) = fun i =>
      p.tail i + (a : ℝ) / ((p.numPointsOne : ℝ) - 1) * (p.tipOne i - p.tail i)
        + (b : ℝ) / ((p.numPointsTwo : ℝ) - 1) * (p.tipTwo i - p.tail i) := by
    intro a b ha hb
    obtain ⟨k1, k2, k3⟩ := key a b ha hb
    rw [c135_position hk h1 h2 hn f k1, k2, k3]
  refine ⟨?_, ?_, ?_, ?_⟩
  · rw [val 0 0 (by omega) (by omega)]; funext i; simp
  · rw [val _ 0 (by omega) (by omega)]; funext i
    rw [Nat.cast_sub (by omega), Nat.cast_one, div_self e1]; simp
  · rw [val 0 _ (by omega) (by omega)]; funext i
    rw [Nat.cast_sub (by omega), Nat.cast_one, div_self e2]; simp
  · rw [val _ _ (by omega) (by omega)]; funext i
    rw [Nat.cast_sub (by omega), Nat.cast_sub (by omega), Nat.cast_one, div_self e1, div_self e2]; ring

/-- C135 (negative): with two points in the second direction the second row is put half way between the tail
and tip two; tip two is not reached unless it coincides with the tail. -/
theorem c135_two_rows {p : Probe} (hk : p.kind = .plane) (h1 : 2 ≤ p.numPointsOne) (h2 : p.numPointsTwo = 2)
    {nodes : List ℕ} (hn : nodes.Nodup) (hlen : nodes.length = p.totalPoints) (f : ℕ → Pt) :
    place p nodes f (nodes.getD (at' p 0 1) 0) = lerp p.tail p.tipTwo (1 / 2) ∧
    (p.tipTwo ≠ p.tail → place p nodes f (nodes.getD (at' p 0 1) 0) ≠ p.tipTwo) := by
  have hl : nodes.length = p.numPointsOne * 2 := by rw [hlen]; simp [Probe.totalPoints, hk, h2]
  have hpos : 0 < p.numPointsOne := by omega
  have hv : place p nodes f (nodes.getD (at' p 0 1) 0) = lerp p.tail p.tipTwo (1 / 2) := by
    simp only [place, hk, planePlace]
    rw [loop_spec hn _ f _ le_rfl _ (by rw [at']; omega), if_pos (by rw [at']; omega)]
    funext i
    simp only [delta, lerp, h2, at', one_mul, add_zero, Nat.mod_self, Nat.div_self hpos]
    norm_num
    ring
  refine ⟨hv, fun hne h => hne ?_⟩
  rw [hv] at h
  funext i
  have := congrFun h i
  simp only [lerp] at this
  linarith

/-- A plane of 3 x 4 points. -/
def exPlane : Probe :=
  { kind := .plane, numPointsOne := 3, numPointsTwo := 4, tail := 0, tipOne := ![2, 0, 0], tipTwo := ![0, 3, 0] }

example : place exPlane (List.range' 100 12) (fun _ => 0) 107 = ![1, 2, 0] := by
  have h := c135_position (p := exPlane) rfl (by decide) (by decide) (nodes := List.range' 100 12) (by decide)
    (fun _ => 0) (n := 7) (by decide)
  refine Eq.trans h ?_
  funext i
  fin_cases i <;> simp [exPlane] <;> norm_num

/-! ## C136: output -/

variable {F : Type*}

/-- The time steps on which the probe writes. -/
def outputs (freq : ℕ) (steps : List (Step F)) : List (Step F) :=
  steps.filter fun s => decide (freq ∣ s.count)

/-- The rows of one step. -/
def stepRows (nodes : List ℕ) (s : Step F) : List (Line F) :=
  nodes.map fun n => Line.row s.time n (s.coords n) (s.vals n)

theorem fold_off (t : F) (c v : ℕ → List F) : ∀ (l : List Share) (file : Option (List (Line F))),
    (∀ s ∈ l, s.on = false) → l.foldl (fun file sh => provideOutput t c v sh file) file = file := by
  intro l
  induction l with
  | nil => intro _ _; rfl
  | cons a l ih =>
    intro file h
    rw [List.foldl_cons, ih _ (fun s hs => h s (List.mem_cons_of_mem _ hs))]
    simp [provideOutput, h a (List.mem_cons_self ..)]

theorem execute_one {freq : ℕ} {l1 l2 : List Share} {nodes : List ℕ} (h1 : ∀ s ∈ l1, s.on = false)
    (h2 : ∀ s ∈ l2, s.on = false) (file : Option (List (Line F))) (s : Step F) :
    execute freq (l1 ++ ⟨true, nodes⟩ :: l2) file s
      = if freq ∣ s.count then some ((match file with | none => [Line.banner] | some l => l) ++ stepRows nodes s) else file := by
  unfold execute
  by_cases hd : freq ∣ s.count
  · rw [if_pos (Nat.mod_eq_zero_of_dvd hd), if_pos hd, List.foldl_append, fold_off _ _ _ l1 _ h1, List.foldl_cons,
      fold_off _ _ _ l2 _ h2]
    cases file <;> simp [provideOutput, stepRows, rows]
  · rw [if_neg (fun h => hd (Nat.dvd_of_mod_eq_zero h)), if_neg hd]

/-- C136: when the probe is on one rank, the file after any run is the file before (with the banner put on top
if it did not exist and something is written) followed by the rows of the steps whose number is a multiple of
the frequency, in time order; each row carries the step's time, the node's id, coordinates and values. -/
theorem c136_file {freq : ℕ} {l1 l2 : List Share} {nodes : List ℕ} (h1 : ∀ s ∈ l1, s.on = false)
    (h2 : ∀ s ∈ l2, s.on = false) (steps : List (Step F)) (file : Option (List (Line F))) :
    run freq (l1 ++ ⟨true, nodes⟩ :: l2) steps file
      = if outputs freq steps = [] then file
        else some ((match file with | none => [Line.banner] | some l => l)
          ++ (outputs freq steps).flatMap (stepRows nodes)) := by
  unfold run
  induction steps generalizing file with
  | nil => simp [outputs]
  | cons s steps ih =>
    rw [List.foldl_cons, ih, execute_one h1 h2]
    by_cases hd : freq ∣ s.count
    · have ho : outputs freq (s :: steps) = s :: outputs freq steps := by
        simp [outputs, hd]
      rw [if_pos hd, ho, if_neg (List.cons_ne_nil _ _), List.flatMap_cons]
      by_cases he : outputs freq steps = []
      · rw [if_pos he, he]; simp
      · rw [if_neg he, List.append_assoc]
    · have ho : outputs freq (s :: steps) = outputs freq steps := by
        simp [outputs, hd]
      rw [if_neg hd, ho]

/-- Is the line a banner? -/
def Line.isBanner : Line F → Bool
  | .banner => true
  | .row .. => false

/-- C136: over any sequence of runs (restarts) the file has exactly one banner, its first line, as soon as one
run has written. -/
theorem c136_one_banner {freq : ℕ} {l1 l2 : List Share} {nodes : List ℕ} (h1 : ∀ s ∈ l1, s.on = false)
    (h2 : ∀ s ∈ l2, s.on = false) (runs : List (List (Step F)))
    (hw : ∃ r ∈ runs, ∃ s ∈ r, freq ∣ s.count) :
    ∃ body : List (Line F), (∀ x ∈ body, x.isBanner = false) ∧
      runs.foldl (fun file steps => run freq (l1 ++ ⟨true, nodes⟩ :: l2) steps file) none
        = some (Line.banner :: body) ∧
      body = (outputs freq runs.flatten).flatMap (stepRows nodes) := by
  have hf : ∀ (runs : List (List (Step F))) file,
      runs.foldl (fun file steps => run freq (l1 ++ ⟨true, nodes⟩ :: l2) steps file) file
        = run freq (l1 ++ ⟨true, nodes⟩ :: l2) runs.flatten file := by
    intro runs
    induction runs with
    | nil => intro _; rfl
    | cons r runs ih => intro file; rw [List.foldl_cons, ih, List.flatten_cons, run, run, run, List.foldl_append]
  refine ⟨_, ?_, ?_, rfl⟩
  · intro x hx
    obtain ⟨s, _, hs⟩ := List.mem_flatMap.1 hx
    obtain ⟨n, _, rfl⟩ := List.mem_map.1 hs
    rfl
  · rw [hf, c136_file h1 h2, if_neg]
    · rfl
    · obtain ⟨r, hr, s, hs, hd⟩ := hw
      have : s ∈ outputs freq runs.flatten := by
        simp only [outputs, List.mem_filter, decide_eq_true_eq]
        exact ⟨List.mem_flatten.2 ⟨r, hr, hs⟩, hd⟩
      exact List.ne_nil_of_mem this

/-- C136: the two pieces together: on a fresh start with any number of ranks, the shares built by `load` and
`initialize` have exactly one writing rank, so the file is banner plus rows of all nodes of the probe. -/
theorem c136_fresh {P : ℕ} (hP : 0 < P) (d : Deck) (j : ℕ) (ids : List ℕ) {freq : ℕ} (steps : List (Step F))
    (hw : outputs freq steps ≠ []) :
    run freq ((List.range P).map fun r => ⟨onRank P d.numProbes j r, freshNodes ids (onRank P d.numProbes j r)⟩)
        steps none
      = some (Line.banner :: (outputs freq steps).flatMap (stepRows ids)) := by
  have hj := Nat.mod_lt j hP
  have hon := (onRank_iff hP d.numProbes j (j % P)).2 rfl
  rw [range_split hj, List.map_append, List.map_cons, hon]
  have hoff : ∀ r, r ≠ j % P → onRank P d.numProbes j r = false := by
    intro r hr
    rw [Bool.eq_false_iff, ne_eq, onRank_iff hP]
    exact fun h => hr h.symm
  have := c136_file (freq := freq) (nodes := ids)
    (l1 := (List.range (j % P)).map fun r => (⟨onRank P d.numProbes j r, freshNodes ids (onRank P d.numProbes j r)⟩ : Share))
    (l2 := (List.range' (j % P + 1) (P - (j % P + 1))).map fun r =>
      (⟨onRank P d.numProbes j r, freshNodes ids (onRank P d.numProbes j r)⟩ : Share))
    (by
      intro s hs
      obtain ⟨r, hr, rfl⟩ := List.mem_map.1 hs
      exact hoff r (by have := List.mem_range.1 hr; omega))
    (by
      intro s hs
      obtain ⟨r, hr, rfl⟩ := List.mem_map.1 hs
      exact hoff r (by have := List.mem_range'_1.1 hr; omega)) steps none
  simp only [freshNodes, if_true] at this ⊢
  rw [this, if_neg hw]
  rfl

example : run 2 ([⟨false, []⟩, ⟨true, [7, 8]⟩] : List Share)
    [⟨1, 10, fun _ => [], fun _ => [0]⟩, ⟨2, 20, fun n => [n], fun n => [2 * n]⟩, ⟨3, 30, fun _ => [], fun _ => [0]⟩]
    (none : Option (List (Line ℕ)))
      = some [.banner, .row 20 7 [7] [14], .row 20 8 [8] [16]] := by decide

end Nalu.Probe
