import Verif.Model.Actuator
import Verif.Spec.Actuator
import Mathlib.Analysis.SpecialFunctions.Trigonometric.Deriv
import Mathlib.Tactic.LinearCombination
import Mathlib.Tactic.FieldSimp
import Mathlib.Tactic.FinCases
import Mathlib.Tactic.Linarith
import Mathlib.Tactic.Positivity

/-!
# C163, C164: the points of an actuator line
-/

namespace Nalu.Actuator
open Verif.Motion

/-! ## C163: distribution over the ranks -/

theorem divProcTower_eq (P N : ℕ) : divProcTower P N = P := max_eq_right (Nat.div_le_self P N)

theorem processorId_eq {P : ℕ} (hP : 0 < P) (N k : ℕ) : processorId P N k = k % P := by
  unfold processorId; rw [divProcTower_eq, if_pos hP]

/-- C163: every line of the deck is placed on exactly one of the `P` ranks. -/
theorem c163_one_rank {P : ℕ} (hP : 0 < P) (N k : ℕ) : ∃! r, r < P ∧ processorId P N k = r :=
  ⟨k % P, ⟨Nat.mod_lt _ hP, processorId_eq hP N k⟩, fun r h => by rw [← h.2, processorId_eq hP]⟩

/-- A point without its id. -/
noncomputable def Point.data (p : Point) : (Fin 3 → ℝ) × ℝ × ℝ × (Fin 3 → ℝ) := (p.coords, p.radius, p.decay, p.velocity)

/-- The points of a line. -/
noncomputable def lineData (t : ℝ) (l : Line) : List ((Fin 3 → ℝ) × ℝ × ℝ × (Fin 3 → ℝ)) :=
  (List.range l.numPoints).map fun np => (pointCoords l np t, l.radius, l.decay, pointVelocity l np t)

theorem linePoints_data (l : Line) (t : ℝ) (i : ℕ) : (linePoints l t i).map Point.data = lineData t l := by
  simp only [linePoints, lineData, List.map_map]; rfl

theorem fold_data (P N r : ℕ) (t : ℝ) (ks : List (Line × ℕ)) (s : List Point × ℕ) :
    (ks.foldl (lineStep P N r t) s).1.map Point.data
      = s.1.map Point.data ++ (ks.filter fun k => processorId P N k.2 = r).flatMap fun k => lineData t k.1 := by
  induction ks generalizing s with
  | nil => simp
  | cons k ks ih =>
    rw [List.foldl_cons, ih]
    unfold lineStep
    by_cases h : processorId P N k.2 = r
    · simp [h, linePoints_data]
    · simp [h]

/-- C163: the points of a rank are those of its lines, at the current time, whatever happened before (the id
counter is all that survives from one time step to the next). -/
theorem c163_rank_points (P : ℕ) (lines : List Line) (r : ℕ) (t : ℝ) (i : ℕ) :
    (createPoints P lines r t i).1.map Point.data
      = (lines.zipIdx.filter fun k => processorId P lines.length k.2 = r).flatMap fun k => lineData t k.1 := by
  unfold createPoints; rw [fold_data]; simp

theorem perm_ranks {α β : Type*} (rank : α → ℕ) (P : ℕ) (h : ∀ a, rank a < P) (g : α → List β) (l : List α) :
    ((List.range P).flatMap fun r => (l.filter fun k => rank k = r).flatMap g).Perm (l.flatMap g) := by
  induction l with
  | nil => simp
  | cons a l ih =>
    have key : ∀ R : List ℕ, R.Nodup → rank a ∈ R →
        (R.flatMap fun r => ((a :: l).filter fun k => rank k = r).flatMap g).Perm
          (g a ++ R.flatMap fun r => (l.filter fun k => rank k = r).flatMap g) := by
      intro R
      induction R with
      | nil => simp
      | cons r R ihR =>
        intro hnd hm
        rw [List.flatMap_cons, List.flatMap_cons]
        by_cases hr : rank a = r
        · have hnot : rank a ∉ R := by rw [hr]; exact (List.nodup_cons.1 hnd).1
          have e : (R.flatMap fun r => ((a :: l).filter fun k => rank k = r).flatMap g)
              = R.flatMap fun r => (l.filter fun k => rank k = r).flatMap g := by
            apply List.flatMap_congr
            intro x hx
            have : rank a ≠ x := fun h => hnot (h ▸ hx)
            simp [this]
          rw [e]
          simp [hr]
        · have e : ((a :: l).filter fun k => rank k = r) = l.filter fun k => rank k = r := by simp [hr]
          rw [e]
          have hm' : rank a ∈ R := by
            rcases List.mem_cons.1 hm with h | h
            · exact absurd h hr
            · exact h
          refine ((ihR (List.nodup_cons.1 hnd).2 hm').append_left _).trans ?_
          rw [← List.append_assoc, ← List.append_assoc]
          exact List.perm_append_comm.append_right _
    refine (key _ List.nodup_range (List.mem_range.2 (h a))).trans ?_
    rw [List.flatMap_cons]
    exact ih.append_left _

/-- C163: for every number of ranks, the points of all ranks together are the points of all lines, each once
- whatever the id counters of the ranks are. -/
theorem c163_all_points {P : ℕ} (hP : 0 < P) (lines : List Line) (t : ℝ) (i : ℕ → ℕ) :
    ((List.range P).flatMap fun r => (createPoints P lines r t (i r)).1.map Point.data).Perm
      (lines.flatMap (lineData t)) := by
  simp only [c163_rank_points]
  refine (perm_ranks (fun k : Line × ℕ => processorId P lines.length k.2) P
    (fun k => by rw [processorId_eq hP]; exact Nat.mod_lt _ hP) (fun k => lineData t k.1) lines.zipIdx).trans ?_
  have : lines.zipIdx.flatMap (fun k => lineData t k.1) = lines.flatMap (lineData t) := by
    conv_rhs => rw [← List.zipIdx_map_fst (l := lines) (i := 0)]
    rw [List.flatMap_map]
  rw [this]

theorem linePoints_ids (l : Line) (t : ℝ) (i : ℕ) :
    (linePoints l t i).map Point.id = List.range' i l.numPoints := by
  rw [List.range'_eq_map_range]
  simp only [linePoints, List.map_map]
  rfl

theorem fold_ids (P N r : ℕ) (t : ℝ) (ks : List (Line × ℕ)) (s : List Point × ℕ) (i : ℕ)
    (h : s.1.map Point.id = List.range' i (s.2 - i)) (hi : i ≤ s.2) :
    (ks.foldl (lineStep P N r t) s).1.map Point.id = List.range' i ((ks.foldl (lineStep P N r t) s).2 - i)
      ∧ i ≤ (ks.foldl (lineStep P N r t) s).2 := by
  induction ks generalizing s with
  | nil => exact ⟨h, hi⟩
  | cons k ks ih =>
    rw [List.foldl_cons]
    apply ih
    · unfold lineStep
      split
      · simp only [List.map_append, h, linePoints_ids]
        have e : s.2 = i + (s.2 - i) := by omega
        conv_lhs => rw [e]
        rw [show i + (s.2 - i) - i = s.2 - i by omega, List.range'_append_1]
        congr 1; omega
      · exact h
    · unfold lineStep
      split
      · simp only; omega
      · exact hi

/-- C163: the ids of the points of a rank are consecutive, starting at the counter, so no point replaces
another in the map, and the next step's points get new ids. -/
theorem c163_ids (P : ℕ) (lines : List Line) (r : ℕ) (t : ℝ) (i : ℕ) :
    (createPoints P lines r t i).1.map Point.id = List.range' i (createPoints P lines r t i).1.length
      ∧ (createPoints P lines r t i).2 = i + (createPoints P lines r t i).1.length := by
  have h := fold_ids P lines.length r t lines.zipIdx ([], i) i (by simp) le_rfl
  have hl : (createPoints P lines r t i).1.length = (createPoints P lines r t i).2 - i := by
    have := congrArg List.length h.1
    simpa [createPoints] using this
  refine ⟨by rw [hl]; exact h.1, ?_⟩
  have := h.2
  rw [hl]; unfold createPoints at *; omega

/-! ## C163: the line -/

/-- C163: the first point is at the tail, the last at the tip. -/
theorem c163_ends (l : Line) : modelCoords l 0 = l.tail ∧
    (2 ≤ l.numPoints → modelCoords l (l.numPoints - 1) = l.tip) := by
  constructor
  · funext j; simp [modelCoords]
  · intro h
    funext j
    have hm : max (l.numPoints - 1) 1 = l.numPoints - 1 := max_eq_left (by omega)
    have hne : ((l.numPoints - 1 : ℕ) : ℝ) ≠ 0 := by
      have : l.numPoints - 1 ≠ 0 := by omega
      exact_mod_cast this
    simp only [modelCoords, spacing, hm]
    field_simp
    ring

/-- C163: the points divide the line evenly: point `k` of `m ≥ 2` is at the fraction `k/(m-1)` of the way. -/
theorem c163_even (l : Line) (h : 2 ≤ l.numPoints) (k : ℕ) (j : Fin 3) :
    modelCoords l k j = l.tail j + (k / ((l.numPoints : ℝ) - 1)) * (l.tip j - l.tail j) := by
  have hm : max (l.numPoints - 1) 1 = l.numPoints - 1 := max_eq_left (by omega)
  simp only [modelCoords, spacing, hm]
  rw [Nat.cast_sub (by omega)]
  push_cast
  ring

/-- C163: the line moves as a rigid body about the first axis through its centre. -/
theorem c163_rotation (l : Line) (k : ℕ) (t : ℝ) (j : Fin 3) :
    pointCoords l k t j = lineCentroid l j
      + rodrigues ![1, 0, 0] (-(l.omega * t)) (fun i => modelCoords l k i - lineCentroid l i) j := by
  simp only [pointCoords, setCurrentCoordinates, rodrigues, vcross, dot, Fin.sum_univ_three, Real.cos_neg, Real.sin_neg]
  fin_cases j <;> simp <;> ring

/-- C163: at every time the distance between any two points of a line is what it is in the input. -/
theorem c163_rigid (l : Line) (k m : ℕ) (t : ℝ) :
    dist2 (pointCoords l k t) (pointCoords l m t) = dist2 (modelCoords l k) (modelCoords l m) := by
  simp only [dist2, Fin.sum_univ_three, pointCoords, setCurrentCoordinates]
  simp
  linear_combination ((modelCoords l k 1 - modelCoords l m 1) ^ 2 + (modelCoords l k 2 - modelCoords l m 2) ^ 2)
    * Real.sin_sq_add_cos_sq (l.omega * t)

/-- C163: the distance to the centre and the position along the axis never change. -/
theorem c163_centre (l : Line) (k : ℕ) (t : ℝ) :
    dist2 (pointCoords l k t) (lineCentroid l) = dist2 (modelCoords l k) (lineCentroid l)
      ∧ pointCoords l k t 0 = modelCoords l k 0 := by
  constructor
  · simp only [dist2, Fin.sum_univ_three, pointCoords, setCurrentCoordinates]
    simp
    linear_combination ((modelCoords l k 1 - lineCentroid l 1) ^ 2 + (modelCoords l k 2 - lineCentroid l 2) ^ 2)
      * Real.sin_sq_add_cos_sq (l.omega * t)
  · simp [pointCoords, setCurrentCoordinates]

/-- C163: a full revolution brings every point back. -/
theorem c163_periodic (l : Line) (h : l.omega ≠ 0) (k : ℕ) (t : ℝ) :
    pointCoords l k (t + 2 * Real.pi / l.omega) = pointCoords l k t := by
  have e : l.omega * (t + 2 * Real.pi / l.omega) = l.omega * t + 2 * Real.pi := by field_simp
  simp only [pointCoords, setCurrentCoordinates, e, Real.sin_add_two_pi, Real.cos_add_two_pi]

/-- C163: a line that does not turn stays where the input put it and its points are at rest. -/
theorem c163_rest (l : Line) (h : l.omega = 0) (k : ℕ) (t : ℝ) :
    pointCoords l k t = modelCoords l k ∧ pointVelocity l k t = 0 := by
  constructor
  · funext j; simp only [pointCoords, setCurrentCoordinates, h]; fin_cases j <;> simp
  · funext j; simp only [pointVelocity, setCurrentVelocity, h]; fin_cases j <;> simp

/-- Three points on a vertical line turning about its middle. -/
noncomputable def exLine : Line := ⟨3, 1, 2, 1, ![0, 0, 4], ![0, 0, 0]⟩

example : modelCoords exLine 1 = ![0, 0, 2] := by
  funext j; simp only [modelCoords, spacing, exLine]; fin_cases j <;> norm_num

example : pointCoords exLine 2 (Real.pi / 4) 1 = 2 := by
  have e : (2 : ℝ) * (Real.pi / 4) = Real.pi / 2 := by ring
  simp [pointCoords, setCurrentCoordinates, modelCoords, spacing, lineCentroid, exLine, e]
  norm_num

/-! ## C164: the velocity of the points -/

/-- C164: the speed is the angular speed times the distance from the axis, the velocity is perpendicular to the axis
and to the arm.  Missing: the direction, which is reversed, see `c164_velocity_reversed`. -/
theorem c164_speed_partial (l : Line) (k : ℕ) (t : ℝ) :
    ∑ j, pointVelocity l k t j ^ 2 = l.omega ^ 2 *
        ((pointCoords l k t 1 - lineCentroid l 1) ^ 2 + (pointCoords l k t 2 - lineCentroid l 2) ^ 2)
      ∧ pointVelocity l k t 0 = 0
      ∧ dot (pointVelocity l k t) (fun j => pointCoords l k t j - lineCentroid l j) = 0 := by
  refine ⟨?_, ?_, ?_⟩ <;> simp [pointVelocity, setCurrentVelocity, Fin.sum_univ_three, dot] <;> ring

/-- C164: what is used as the velocity of a point is exactly minus the time derivative of its position: the
drag acts as if the line turned the other way. -/
theorem c164_velocity_reversed (l : Line) (k : ℕ) (t : ℝ) (j : Fin 3) :
    HasDerivAt (fun t => pointCoords l k t j) (-pointVelocity l k t j) t := by
  have hlin : HasDerivAt (fun t : ℝ => l.omega * t) l.omega t := by
    simpa using (hasDerivAt_id t).const_mul l.omega
  have hs : HasDerivAt (fun t : ℝ => Real.sin (l.omega * t)) (Real.cos (l.omega * t) * l.omega) t :=
    (Real.hasDerivAt_sin _).comp t hlin
  have hc : HasDerivAt (fun t : ℝ => Real.cos (l.omega * t)) (-Real.sin (l.omega * t) * l.omega) t :=
    (Real.hasDerivAt_cos _).comp t hlin
  simp only [pointCoords, setCurrentCoordinates, pointVelocity, setCurrentVelocity]
  fin_cases j
  · simpa using hasDerivAt_const t (modelCoords l k 0)
  · have := ((hs.mul_const (modelCoords l k 2 - lineCentroid l 2)).add
      (hc.mul_const (modelCoords l k 1 - lineCentroid l 1))).add_const (lineCentroid l 1)
    refine (this.congr_deriv ?_)
    simp; ring
  · have := ((hc.mul_const (modelCoords l k 2 - lineCentroid l 2)).sub
      (hs.mul_const (modelCoords l k 1 - lineCentroid l 1))).add_const (lineCentroid l 2)
    refine (this.congr_deriv ?_)
    simp; ring

/-- C164: so it is not the velocity of the point, for any turning line and any point off the axis, at any time. -/
theorem c164_not_the_velocity (l : Line) (k : ℕ) (t : ℝ) (hw : l.omega ≠ 0)
    (hoff : pointCoords l k t 1 ≠ lineCentroid l 1 ∨ pointCoords l k t 2 ≠ lineCentroid l 2) :
    ¬ ∀ j, HasDerivAt (fun t => pointCoords l k t j) (pointVelocity l k t j) t := by
  intro h
  have e : ∀ j, pointVelocity l k t j = 0 := fun j => by
    have := (h j).unique (c164_velocity_reversed l k t j); linarith
  have h1 := e 1
  have h2 := e 2
  simp only [pointVelocity, setCurrentVelocity] at h1 h2
  simp [hw] at h1 h2
  rcases hoff with h | h
  · exact h (by linarith)
  · exact h (by linarith)

/-- C164: in two dimensions (third coordinates zero) a turning line does not turn: it shrinks to its centre's height
every quarter period. -/
theorem c164_two_dimensions (l : Line) (htip : l.tip 2 = 0) (htail : l.tail 2 = 0) (k : ℕ) (t : ℝ) :
    pointCoords l k t 1 = lineCentroid l 1 + Real.cos (l.omega * t) * (modelCoords l k 1 - lineCentroid l 1) := by
  simp [pointCoords, setCurrentCoordinates, modelCoords, spacing, lineCentroid, htip, htail]
  ring

end Nalu.Actuator
