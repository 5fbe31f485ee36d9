import Verif.Props.Overset
import Mathlib.Tactic.NormNum
import Mathlib.Tactic.Positivity

/-!
# Properties of overset meshes: hole cutting

* C117: which background elements are cut.
* C118: parts, constraint, fringe and inactive nodes; re-initialisation under motion forgets the past.
-/

namespace Nalu.Overset

open Finset Verif.Motion

section boxes
variable {K : Type*} [Field K] [LinearOrder K] [IsStrictOrderedRing K]

theorem corners_foldl (l : List K) (mm : K × K) :
    let r := l.foldl (fun mm x => (min mm.1 x, max mm.2 x)) mm
    r.1 ≤ mm.1 ∧ mm.2 ≤ r.2 ∧ (∀ x ∈ l, r.1 ≤ x ∧ x ≤ r.2) ∧ (r.1 = mm.1 ∨ r.1 ∈ l) ∧ (r.2 = mm.2 ∨ r.2 ∈ l) := by
  induction l generalizing mm with
  | nil => simp
  | cons a l ih =>
    obtain ⟨h1, h2, h3, h4, h5⟩ := ih (min mm.1 a, max mm.2 a)
    simp only [List.foldl_cons]
    refine ⟨h1.trans (min_le_left _ _), (le_max_left _ _).trans h2, ?_, ?_, ?_⟩
    · intro x hx
      rcases List.mem_cons.mp hx with rfl | hx
      · exact ⟨h1.trans (min_le_right _ _), (le_max_right _ _).trans h2⟩
      · exact h3 x hx
    · rcases h4 with h | h
      · rcases min_choice mm.1 a with e | e
        · left; rw [h]; exact e
        · right; rw [h]; simp [e]
      · right; exact List.mem_cons_of_mem _ h
    · rcases h5 with h | h
      · rcases max_choice mm.2 a with e | e
        · left; rw [h]; exact e
        · right; rw [h]; simp [e]
      · right; exact List.mem_cons_of_mem _ h

theorem corners_bounds (big : K) (xs : List K) {x : K} (hx : x ∈ xs) : (corners big xs).1 ≤ x ∧ x ≤ (corners big xs).2 :=
  (corners_foldl xs (big, -big)).2.2.1 x hx

/-- Specification: `c` are the least and the greatest of the values `S`. -/
def Extent (S : K → Prop) (c : K × K) : Prop := S c.1 ∧ S c.2 ∧ ∀ x, S x → c.1 ≤ x ∧ x ≤ c.2

theorem reduce_foldl (l : List (K × K)) (mm : K × K) :
    let r := l.foldl (fun mm c => (min mm.1 c.1, max mm.2 c.2)) mm
    r.1 ≤ mm.1 ∧ mm.2 ≤ r.2 ∧ (∀ c ∈ l, r.1 ≤ c.1 ∧ c.2 ≤ r.2) ∧ (r.1 = mm.1 ∨ ∃ c ∈ l, r.1 = c.1) ∧ (r.2 = mm.2 ∨ ∃ c ∈ l, r.2 = c.2) := by
  induction l generalizing mm with
  | nil => simp
  | cons a l ih =>
    obtain ⟨h1, h2, h3, h4, h5⟩ := ih (min mm.1 a.1, max mm.2 a.2)
    simp only [List.foldl_cons]
    refine ⟨h1.trans (min_le_left _ _), (le_max_left _ _).trans h2, ?_, ?_, ?_⟩
    · intro x hx
      rcases List.mem_cons.mp hx with rfl | hx
      · exact ⟨h1.trans (min_le_right _ _), (le_max_right _ _).trans h2⟩
      · exact h3 x hx
    · rcases h4 with h | ⟨c, hc, h⟩
      · rcases min_choice mm.1 a.1 with e | e
        · left; rw [h]; exact e
        · right; exact ⟨a, by simp, by rw [h]; exact e⟩
      · right; exact ⟨c, List.mem_cons_of_mem _ hc, h⟩
    · rcases h5 with h | ⟨c, hc, h⟩
      · rcases max_choice mm.2 a.2 with e | e
        · left; rw [h]; exact e
        · right; exact ⟨a, by simp, by rw [h]; exact e⟩
      · right; exact ⟨c, List.mem_cons_of_mem _ hc, h⟩

/-- **C117** The box before the reduction is the extent of the overset mesh, however its nodes are spread over the ranks (coordinates below
the initial values in size). -/
theorem c117_extent {big : K} {ranks : List (List K)} (hne : ∃ l ∈ ranks, l ≠ []) (hb : ∀ l ∈ ranks, ∀ x ∈ l, -big < x ∧ x < big) :
    Extent (fun x => ∃ l ∈ ranks, x ∈ l) (reduceCorners big ranks) := by
  obtain ⟨l0, hl0, hx0⟩ := hne
  obtain ⟨x0, hx0⟩ := List.exists_mem_of_ne_nil _ hx0
  obtain ⟨-, -, h3, h4, h5⟩ := reduce_foldl (ranks.map (corners big)) (big, -big)
  have hall : ∀ l ∈ ranks, ∀ x ∈ l, (reduceCorners big ranks).1 ≤ x ∧ x ≤ (reduceCorners big ranks).2 := by
    intro l hl x hx
    have hc := corners_bounds big l hx
    have hr := h3 _ (List.mem_map_of_mem hl)
    exact ⟨hr.1.trans hc.1, hc.2.trans hr.2⟩
  have hx := hall l0 hl0 x0 hx0
  have hbx := hb l0 hl0 x0 hx0
  refine ⟨?_, ?_, fun x ⟨l, hl, hx⟩ => hall l hl x hx⟩
  · rcases h4 with h | ⟨c, hc, h⟩
    · exact absurd (lt_of_le_of_lt hx.1 hbx.2) (by rw [reduceCorners, h]; exact lt_irrefl _)
    · obtain ⟨l, hl, rfl⟩ := List.mem_map.mp hc
      obtain ⟨-, -, -, c4, -⟩ := corners_foldl l (big, -big)
      rcases c4 with c4 | c4
      · have : (reduceCorners big ranks).1 = big := by rw [reduceCorners, h]; exact c4
        exact absurd (lt_of_le_of_lt hx.1 hbx.2) (by rw [this]; exact lt_irrefl _)
      · refine ⟨l, hl, ?_⟩
        rw [reduceCorners, h]; exact c4
  · rcases h5 with h | ⟨c, hc, h⟩
    · exact absurd (lt_of_lt_of_le hbx.1 hx.2) (by rw [reduceCorners, h]; exact lt_irrefl _)
    · obtain ⟨l, hl, rfl⟩ := List.mem_map.mp hc
      obtain ⟨-, -, -, -, c5⟩ := corners_foldl l (big, -big)
      rcases c5 with c5 | c5
      · have : (reduceCorners big ranks).2 = -big := by rw [reduceCorners, h]; exact c5
        exact absurd (lt_of_lt_of_le hbx.1 hx.2) (by rw [this]; exact lt_irrefl _)
      · refine ⟨l, hl, ?_⟩
        rw [reduceCorners, h]; exact c5

theorem shrink_eq (p : K) (c : K × K) : shrink p c = (c.1 + (c.2 - c.1) * p / 100, c.2 - (c.2 - c.1) * p / 100) := by
  simp only [shrink, Prod.mk.injEq]
  constructor <;> ring

/-- **C117** The reduction keeps the centre of the box and scales its size by `1 - 2 p/100`: the cutting box lies within the extent of the
overset mesh for a non-negative percentage, shrinks with the percentage, and is empty (turned inside out) above fifty percent. -/
theorem c117_shrink (p p' : K) (c : K × K) (hc : c.1 < c.2) :
    (shrink p c).1 + (shrink p c).2 = c.1 + c.2 ∧ (shrink p c).2 - (shrink p c).1 = (1 - 2 * p / 100) * (c.2 - c.1) ∧
      ((c.1 ≤ (shrink p c).1 ∧ (shrink p c).2 ≤ c.2) ↔ 0 ≤ p) ∧
      ((shrink p c).1 ≤ (shrink p' c).1 ∧ (shrink p' c).2 ≤ (shrink p c).2 ↔ p ≤ p') ∧ ((shrink p c).1 ≤ (shrink p c).2 ↔ p ≤ 50) := by
  have hd : 0 < c.2 - c.1 := sub_pos.mpr hc
  simp only [shrink_eq]
  refine ⟨by ring, by ring, ?_, ?_, ?_⟩
  · constructor
    · rintro ⟨h, -⟩
      by_contra hp
      push Not at hp
      have := mul_neg_of_pos_of_neg hd hp
      linarith
    · intro hp
      have := mul_nonneg hd.le hp
      constructor <;> linarith
  · constructor
    · rintro ⟨h, -⟩
      have : (c.2 - c.1) * p ≤ (c.2 - c.1) * p' := by linarith
      exact le_of_mul_le_mul_left this hd
    · intro h
      have := mul_le_mul_of_nonneg_left h hd.le
      constructor <;> linarith
  · constructor
    · intro h
      have : (c.2 - c.1) * p ≤ (c.2 - c.1) * 50 := by linarith
      exact le_of_mul_le_mul_left this hd
    · intro h
      have := mul_le_mul_of_nonneg_left h hd.le
      linarith

/-- Specification: `y` is a point of the convex hull of the nodes of the element. -/
def InHull {nd : ℕ} (e : List (Fin nd → K)) (y : Fin nd → K) : Prop :=
  ∃ (w : Fin e.length → K), (∀ k, 0 ≤ w k) ∧ ∑ k, w k = 1 ∧ ∀ i, y i = ∑ k, w k * (e.get k) i

theorem hull_in_box {nd : ℕ} (big : K) (e : List (Fin nd → K)) (y : Fin nd → K) (h : InHull e y) (i : Fin nd) :
    (elemBox big e i).1 ≤ y i ∧ y i ≤ (elemBox big e i).2 := by
  obtain ⟨w, hw, h1, hy⟩ := h
  have hx : ∀ k, (elemBox big e i).1 ≤ (e.get k) i ∧ (e.get k) i ≤ (elemBox big e i).2 := fun k =>
    corners_bounds big _ (List.mem_map.mpr ⟨e.get k, List.get_mem _ _, rfl⟩)
  rw [hy]
  constructor
  · calc (elemBox big e i).1 = ∑ k, w k * (elemBox big e i).1 := by rw [← Finset.sum_mul, h1, one_mul]
      _ ≤ _ := Finset.sum_le_sum fun k _ => mul_le_mul_of_nonneg_left (hx k).1 (hw k)
  · calc ∑ k, w k * (e.get k) i ≤ ∑ k, w k * (elemBox big e i).2 :=
          Finset.sum_le_sum fun k _ => mul_le_mul_of_nonneg_left (hx k).2 (hw k)
      _ = _ := by rw [← Finset.sum_mul, h1, one_mul]

/-- **C117** (aabb) Every background element that reaches into the cutting box is cut: no point of the box is left in an active element. -/
theorem c117_no_active_in_box {nd : ℕ} (big percent : K) (nodes : List (List (Fin nd → K))) (e : List (Fin nd → K)) (y : Fin nd → K)
    (hy : InHull e y) (hbox : ∀ i, (cutBox big percent nodes i).1 ≤ y i ∧ y i ≤ (cutBox big percent nodes i).2) :
    CutAabb big percent nodes e := fun i =>
  ⟨(hbox i).1.trans (hull_in_box big e y hy i).2, (hull_in_box big e y hy i).1.trans (hbox i).2⟩

/-- **C117** (aabb) A cut element is never far from the cutting box: in every direction its extent meets that of the box. -/
theorem c117_cut_meets {nd : ℕ} (big percent : K) (nodes : List (List (Fin nd → K))) (e : List (Fin nd → K))
    (hb : ∀ x ∈ e, ∀ i, -big < x i ∧ x i < big) (hne : e ≠ []) (hc : CutAabb big percent nodes e) (i : Fin nd)  :
    (∃ x ∈ e, x i ≤ (cutBox big percent nodes i).2) ∧ ∃ x ∈ e, (cutBox big percent nodes i).1 ≤ x i := by
  obtain ⟨x0, hx0⟩ := List.exists_mem_of_ne_nil e hne
  obtain ⟨h1, h2⟩ := hc i
  obtain ⟨-, -, h3, h4, h5⟩ := corners_foldl (e.map fun x => x i) (big, -big)
  have hx := h3 (x0 i) (List.mem_map.mpr ⟨x0, hx0, rfl⟩)
  constructor
  · rcases h4 with h | h
    · exact absurd (lt_of_le_of_lt hx.1 (hb x0 hx0 i).2) (by rw [h]; exact lt_irrefl _)
    · obtain ⟨x, hxe, ex⟩ := List.mem_map.mp h
      exact ⟨x, hxe, by rw [ex]; exact h2⟩
  · rcases h5 with h | h
    · exact absurd (lt_of_lt_of_le (hb x0 hx0 i).1 hx.2) (by rw [h]; exact lt_irrefl _)
    · obtain ⟨x, hxe, ex⟩ := List.mem_map.mp h
      exact ⟨x, hxe, by rw [ex]; exact h1⟩

/-- **C117** (aabb) With the inner percentage not below the outer one, every inner element is cut as well (the overset mesh is not flat). -/
theorem c117_inner_cut {nd : ℕ} {big p pInner : K} (hp : p ≤ pInner) (nodes : List (List (Fin nd → K))) (e : List (Fin nd → K))
    (hflat : ∀ i, (reduceCorners big (nodes.map fun l => l.map fun x => x i)).1 < (reduceCorners big (nodes.map fun l => l.map fun x => x i)).2)
    (h : CutAabb big pInner nodes e) : CutAabb big p nodes e := by
  intro i
  obtain ⟨h1, h2⟩ := h i
  obtain ⟨a, b⟩ := (c117_shrink p pInner _ (hflat i)).2.2.2.1.mpr hp
  exact ⟨a.trans h1, h2.trans b⟩

/-! ### oriented box -/

theorem matVec_inv {m minv : Fin 3 → Fin 3 → K} (h : ∀ v, matVec minv (matVec m v) = v) (c d x : Fin 3 → K) :
    pullBack minv c d (rotateTranslate m c d x) = fun i => x i - c i := by
  rw [← h (fun i => x i - c i)]
  simp only [pullBack]
  congr 1
  funext i
  simp only [rotateTranslate, matVec]
  ring

theorem half_iff (b : K × K) (x : K) : |x - 1 / 2 * (b.2 + b.1)| < b.2 - 1 / 2 * (b.2 + b.1) ↔ b.1 < x ∧ x < b.2 := by
  rw [abs_lt]
  constructor
  · rintro ⟨h1, h2⟩; constructor <;> linarith
  · rintro ⟨h1, h2⟩; constructor <;> linarith

/-- **C117** (obb) Which points are inside the oriented box: those whose position in the body's frame, *displaced by the centroid*, lies
strictly within the model box.  `x` is the position in the model, moved to `rotateTranslate …` by the motion. -/
theorem c117_obb_region {tiny : K} {b : Fin 3 → K × K} (hz : tiny ≤ halfDist b 2) {m minv : Fin 3 → Fin 3 → K}
    (hinv : ∀ v, matVec minv (matVec m v) = v) (c d x : Fin 3 → K) :
    InObb tiny b minv c d (rotateTranslate m c d x) ↔ ∀ i, (b i).1 < x i - c i ∧ x i - c i < (b i).2 := by
  simp only [InObb, matVec_inv hinv, boxCent, halfDist] at hz ⊢
  rw [half_iff, half_iff, half_iff]
  constructor
  · rintro ⟨h0, h1, h2⟩ i
    fin_cases i
    · exact h0
    · exact h1
    · exact h2.resolve_right (not_lt.mpr hz)
  · intro h
    exact ⟨h 0, h 1, Or.inl (h 2)⟩

/-- The image of the box under the motion lies in the coarse box. -/
theorem coarse_contains (big : K) (m : Fin 3 → Fin 3 → K) (c d : Fin 3 → K) (b : Fin 3 → K × K) (x : Fin 3 → K)
    (hx : ∀ i, (b i).1 ≤ x i ∧ x i ≤ (b i).2) (i : Fin 3) :
    (coarseBox big m c d b i).1 ≤ rotateTranslate m c d x i ∧ rotateTranslate m c d x i ≤ (coarseBox big m c d b i).2 := by
  have hb : ∀ (s : Fin 3 → Bool), (coarseBox big m c d b i).1 ≤ rotateTranslate m c d (fun j => if s j then (b j).2 else (b j).1) i ∧
      rotateTranslate m c d (fun j => if s j then (b j).2 else (b j).1) i ≤ (coarseBox big m c d b i).2 := by
    intro s
    refine corners_bounds big _ ?_
    rw [List.map_map]
    refine List.mem_map.mpr ⟨(fun j => if s j then (b j).2 else (b j).1), ?_, rfl⟩
    have : (fun j => if s j then (b j).2 else (b j).1) = ![if s 0 then (b 0).2 else (b 0).1, if s 1 then (b 1).2 else (b 1).1,
        if s 2 then (b 2).2 else (b 2).1] := by
      funext j; fin_cases j <;> rfl
    rw [this]
    simp only [boxPoints]
    cases s 0 <;> cases s 1 <;> cases s 2 <;> simp
  have hlin : ∀ y : Fin 3 → K, rotateTranslate m c d y i = ∑ j, m i j * y j + (c i + d i - ∑ j, m i j * c j) := by
    intro y
    simp only [rotateTranslate, Fin.sum_univ_three]
    ring
  constructor
  · refine ((hb fun j => decide (m i j < 0)).1).trans ?_
    rw [hlin, hlin]
    refine add_le_add (Finset.sum_le_sum fun j _ => ?_) le_rfl
    by_cases hj : m i j < 0
    · simp only [hj, decide_true, if_true]
      exact mul_le_mul_of_nonpos_left (hx j).2 hj.le
    · simp only [hj, decide_false, Bool.false_eq_true, if_false]
      exact mul_le_mul_of_nonneg_left (hx j).1 (not_lt.mp hj)
  · refine le_trans ?_ ((hb fun j => decide (0 ≤ m i j)).2)
    rw [hlin, hlin]
    refine add_le_add (Finset.sum_le_sum fun j _ => ?_) le_rfl
    by_cases hj : 0 ≤ m i j
    · simp only [hj, decide_true, if_true]
      exact mul_le_mul_of_nonneg_left (hx j).2 hj
    · simp only [hj, decide_false, Bool.false_eq_true, if_false]
      exact mul_le_mul_of_nonpos_left (hx j).1 (not_le.mp hj).le

/-- The centroid is the mean of the nodes. -/
theorem elemCent_eq (e : List (Fin 3 → K)) (i : Fin 3) : elemCent e i = 1 / (e.length : K) * (e.map fun x => x i).sum := by
  have : ∀ (l : List (Fin 3 → K)) (a s : K), l.foldl (fun s x => s + a * x i) s = s + a * (l.map fun x => x i).sum := by
    intro l a
    induction l with
    | nil => intro s; simp
    | cons x l ih =>
      intro s
      rw [List.foldl_cons, ih, List.map_cons, List.sum_cons]
      ring
  rw [elemCent, this, zero_add]

theorem cent_in_hull {e : List (Fin 3 → K)} (hne : e ≠ []) : InHull e (elemCent e) := by
  have hl : (0 : K) < e.length := by exact_mod_cast List.length_pos_of_ne_nil hne
  refine ⟨fun _ => 1 / e.length, fun _ => by positivity, ?_, ?_⟩
  · simp; field_simp
  · intro i
    rw [elemCent_eq, ← Finset.mul_sum]
    congr 1
    rw [← List.sum_ofFn]
    congr 1
    apply List.ext_get
    · simp
    · intro n h1 h2; simp

/-- **C117** (obb) For a body whose centroid is the origin of the model, the elements cut are exactly those whose centroid is the image of
a point strictly inside the model box: the coarse search loses none, in any orientation and position. -/
theorem c117_obb_cut {big tiny : K} {b : Fin 3 → K × K} (hz : tiny ≤ halfDist b 2) {m minv : Fin 3 → Fin 3 → K}
    (hinv : ∀ v, matVec minv (matVec m v) = v) (hinv' : ∀ v, matVec m (matVec minv v) = v) (d : Fin 3 → K)
    {e : List (Fin 3 → K)} (hne : e ≠ []) :
    CutObb big tiny b m minv 0 d e ↔ ∃ x, (∀ i, (b i).1 < x i ∧ x i < (b i).2) ∧ elemCent e = rotateTranslate m 0 d x := by
  have hx : elemCent e = rotateTranslate m 0 d (matVec minv fun i => elemCent e i - d i) := by
    have := hinv' (fun i => elemCent e i - d i)
    funext i
    have hi := congrFun this i
    simp only [rotateTranslate, matVec, Pi.zero_apply, sub_zero, add_zero] at hi ⊢
    linear_combination -hi
  constructor
  · rintro ⟨-, h⟩
    refine ⟨_, ?_, hx⟩
    rw [hx, c117_obb_region hz hinv] at h
    intro i
    simpa using h i
  · rintro ⟨x, hxb, hxe⟩
    refine ⟨?_, ?_⟩
    · intro i
      have h1 := coarse_contains big m 0 d b x (fun i => ⟨(hxb i).1.le, (hxb i).2.le⟩) i
      have h2 := hull_in_box big e _ (cent_in_hull hne) i
      rw [hxe] at h2
      exact ⟨h1.1.trans h2.2, h2.1.trans h1.2⟩
    · rw [hxe, c117_obb_region hz hinv]
      intro i
      simpa using hxb i

/-- **C117** (obb) The same with the rotation the code computes, for every attitude of the body. -/
theorem c117_obb_attitude {big tiny : ℝ} (ht : tiny ≤ 1) (angle : Fin 3 → ℝ) {b : Fin 3 → ℝ × ℝ} (hz : tiny ≤ halfDist b 2)
    (d : Fin 3 → ℝ) {e : List (Fin 3 → ℝ)} (hne : e ≠ []) :
    CutObb big tiny b (getRotMat tiny (quatFromEuler angle) true) (getRotMat tiny (quatFromEuler angle) false) 0 d e ↔
      ∃ x, (∀ i, (b i).1 < x i ∧ x i < (b i).2) ∧
        elemCent e = rotateTranslate (getRotMat tiny (quatFromEuler angle) true) 0 d x :=
  c117_obb_cut hz (fun v => (c47_frame_round_trip ht v angle).2) (fun v => (c47_frame_round_trip ht v angle).1) d hne

/-- **C117** (finding) For a body whose centroid is not the origin of the model the cut is displaced by the centroid: an element in the
middle of the model box is not cut, although nothing moves. -/
theorem c117_obb_displaced :
    ∃ (b : Fin 3 → ℚ × ℚ) (c : Fin 3 → ℚ) (e : List (Fin 3 → ℚ)) (m : Fin 3 → Fin 3 → ℚ), (∀ v, matVec m v = v) ∧
      (∀ i, (b i).1 < elemCent e i ∧ elemCent e i < (b i).2) ∧ c = (fun i => boxCent b i) ∧ ¬ CutObb 1000 (1/1000) b m m c 0 e := by
  refine ⟨fun _ => (9, 11), fun _ => 10, [fun _ => 10], fun i j => if i = j then 1 else 0, ?_, ?_, ?_, ?_⟩
  · intro v; funext i; fin_cases i <;> simp [matVec]
  · intro i; norm_num [elemCent]
  · funext i; norm_num [boxCent]
  · rintro ⟨-, h, -⟩
    norm_num [pullBack, matVec, elemCent, boxCent, halfDist] at h

/-! ### oriented cylinder -/

/-- **C117** (cylinder) Which points are inside the oriented cylinder, in the body's frame relative to the centroid: radius the mean half
width across the axis, and along the axis within half the length *of twice the centroid*. -/
theorem c117_cylinder_region {tiny : K} {b : Fin 3 → K × K} (axis : Fin 3) (hz : tiny ≤ halfDist b axis) {m minv : Fin 3 → Fin 3 → K}
    (hinv : ∀ v, matVec minv (matVec m v) = v) (c d x : Fin 3 → K) :
    InCylinder tiny b minv c d axis (rotateTranslate m c d x) ↔
      (x (across axis).1 - c (across axis).1) ^ 2 + (x (across axis).2 - c (across axis).2) ^ 2 <
        (1 / 2 * (halfDist b (across axis).1 + halfDist b (across axis).2)) ^ 2 ∧ |x axis - 2 * c axis| < halfDist b axis := by
  simp only [InCylinder, matVec_inv hinv]
  rw [or_iff_left (not_lt.mpr hz)]
  have : x axis - c axis - c axis = x axis - 2 * c axis := by ring
  rw [this, sq (x (across axis).1 - c (across axis).1), sq (x (across axis).2 - c (across axis).2)]

/-- **C117** (finding) The length of the cylinder is measured from the origin, not from the middle of the box: with the centroid at the
origin, points at the far end of a box that is not centred along the axis are never cut. -/
theorem c117_cylinder_displaced :
    ∃ (b : Fin 3 → ℚ × ℚ) (x : Fin 3 → ℚ) (m : Fin 3 → Fin 3 → ℚ), (∀ v, matVec m v = v) ∧ x = (fun i => boxCent b i) ∧
      ¬ InCylinder (1/1000) b m 0 0 2 x := by
  refine ⟨![(-1, 1), (-1, 1), (9, 11)], ![0, 0, 10], fun i j => if i = j then 1 else 0, ?_, ?_, ?_⟩
  · intro v; funext i; fin_cases i <;> simp [matVec]
  · funext i; fin_cases i <;> norm_num [boxCent]
  · rintro ⟨-, h⟩
    simp [pullBack, matVec, boxCent, halfDist] at h
    norm_num at h

end boxes

/-! ## C118 -/

section parts
variable {E F N : Type*}

/-- Specification: around a node the elements are connected through faces that contain the node. -/
def FaceConnected (M : Mesh E F N) (n : N) : Prop :=
  ∀ e e', M.nodeOf e n → M.nodeOf e' n →
    Relation.ReflTransGen (fun a b => M.nodeOf a n ∧ M.nodeOf b n ∧ ∃ f, M.faceOf a f ∧ M.faceOf b f ∧ M.nodeOfFace f n) e e'

/-- Specification: a face belongs to at most two elements. -/
def TwoSided (M : Mesh E F N) : Prop := ∀ f a b c, M.faceOf a f → M.faceOf b f → M.faceOf c f → a = b ∨ b = c ∨ a = c

/-- **C118** No active element has a node that is excluded from the system: every node shared by an active and a cut element lies on the
exposed surface and is a constraint node. -/
theorem c118_active_nodes_have_rows (M : Mesh E F N) (h2 : TwoSided M) (cut : E → Prop) (n : N) (hc : FaceConnected M n) (e : E)
    (he : ¬ cut e) (hn : M.nodeOf e n) : ¬ InactiveNode M cut n := by
  rintro ⟨⟨e', hcut, hn'⟩, hskin⟩
  have key : ∀ x y, Relation.ReflTransGen (fun a b => M.nodeOf a n ∧ M.nodeOf b n ∧ ∃ f, M.faceOf a f ∧ M.faceOf b f ∧ M.nodeOfFace f n) x y →
      ¬ cut x → cut y → SkinNode M cut n := by
    intro x y hxy hx
    induction hxy with
    | refl => exact fun h => absurd h hx
    | @tail b c _ hstep ih =>
      intro hy
      by_cases hb : cut b
      · exact ih hb
      · obtain ⟨-, -, f, hbf, hcf, hfn⟩ := hstep
        refine ⟨f, ⟨c, hy, hcf, ?_⟩, hfn⟩
        intro a haf hacut
        rcases h2 f a b c haf hbf hcf with rfl | rfl | h
        · exact absurd hacut hb
        · exact absurd hy hb
        · exact h
  exact hskin (key e e' (hc e e' hn hn') he hcut)

/-- **C118** The nodes of the background mesh fall into exactly one of four classes: nodes of active elements only, constraint nodes on the
exposed surface, fringe nodes (updated by interpolation), and hidden nodes of inner elements. -/
theorem c118_classes (M : Mesh E F N) (cut inner : E → Prop) (hsub : ∀ e, inner e → cut e)
    (hskin : ∀ e f n, M.faceOf e f → M.nodeOfFace f n → M.nodeOf e n) (n : N) :
    (¬ NodeIn M cut n ∧ ¬ SkinNode M cut n ∧ ¬ FringeNode M cut inner n ∧ ¬ (NodeIn M inner n ∧ ¬ SkinNode M cut n)) ∨
    (NodeIn M cut n ∧ SkinNode M cut n ∧ ¬ FringeNode M cut inner n ∧ ¬ (NodeIn M inner n ∧ ¬ SkinNode M cut n)) ∨
    (InactiveNode M cut n ∧ FringeNode M cut inner n ∧ ¬ NodeIn M inner n) ∨
    (InactiveNode M cut n ∧ ¬ FringeNode M cut inner n ∧ NodeIn M inner n) := by
  have h1 : SkinNode M cut n → NodeIn M cut n := by
    rintro ⟨f, ⟨e, he, hef, -⟩, hfn⟩
    exact ⟨e, he, hskin e f n hef hfn⟩
  have h2 : NodeIn M inner n → NodeIn M cut n := fun ⟨e, he, hn⟩ => ⟨e, hsub e he, hn⟩
  simp only [FringeNode, InactiveNode]
  tauto

variable [DecidableEq E] [DecidableEq F]

/-- **C118** Re-initialisation under mesh motion forgets the past: after any sequence of cuts, starting from empty parts, the parts are
those of the last cut alone. -/
theorem c118_memoryless (skin : Finset E → Finset F) (past : List (List E × List E)) (cut inner : List E) :
    ((past ++ [(cut, inner)]).foldl (fun p ci => p.initialize skin ci.1 ci.2) (⟨∅, ∅, ∅, [], []⟩ : Parts E F)) =
      ⟨cut.toFinset, inner.toFinset, skin cut.toFinset, cut, inner⟩ := by
  have key : ∀ (p : Parts E F), (∀ e ∈ p.inactive, e ∈ p.cutVec) → (∀ e ∈ p.inner, e ∈ p.innerVec) → ∀ cut inner,
      p.initialize skin cut inner = ⟨cut.toFinset, inner.toFinset, skin cut.toFinset, cut, inner⟩ := by
    intro p h1 h2 cut inner
    have e1 : p.inactive.filter (fun e => e ∉ p.cutVec) = ∅ :=
      Finset.filter_eq_empty_iff.mpr fun e he h => h (h1 e he)
    have e2 : p.inner.filter (fun e => e ∉ p.innerVec) = ∅ :=
      Finset.filter_eq_empty_iff.mpr fun e he h => h (h2 e he)
    simp [Parts.initialize, Parts.clear, e1, e2]
  have inv : ∀ (l : List (List E × List E)) (p : Parts E F), (∀ e ∈ p.inactive, e ∈ p.cutVec) → (∀ e ∈ p.inner, e ∈ p.innerVec) →
      (∀ e ∈ (l.foldl (fun p ci => p.initialize skin ci.1 ci.2) p).inactive, e ∈ (l.foldl (fun p ci => p.initialize skin ci.1 ci.2) p).cutVec) ∧
      ∀ e ∈ (l.foldl (fun p ci => p.initialize skin ci.1 ci.2) p).inner, e ∈ (l.foldl (fun p ci => p.initialize skin ci.1 ci.2) p).innerVec := by
    intro l
    induction l with
    | nil => intro p h1 h2; exact ⟨h1, h2⟩
    | cons ci l ih =>
      intro p h1 h2
      rw [List.foldl_cons]
      apply ih
      · rw [key p h1 h2]; intro e he; simpa using he
      · rw [key p h1 h2]; intro e he; simpa using he
  rw [List.foldl_append, List.foldl_cons, List.foldl_nil]
  obtain ⟨h1, h2⟩ := inv past ⟨∅, ∅, ∅, [], []⟩ (by simp) (by simp)
  exact key _ h1 h2 cut inner

/-- **C118** (limit) Without mesh motion nothing is cleared: a second initialisation keeps the elements of the first cut. -/
theorem c118_fixed_accumulates (skin : Finset E → Finset F) (cut cut' : List E) :
    (((⟨∅, ∅, ∅, [], []⟩ : Parts E F).initializeFixed skin cut).initializeFixed skin cut').inactive = (cut ++ cut').toFinset := by
  simp [Parts.initializeFixed]

/-- The hypotheses of C118 are met: three elements in a row, faces and nodes numbered 0 to 3, the middle one cut. -/
def exMesh : Mesh (Fin 3) (Fin 4) (Fin 4) where
  faceOf := fun e f => f.val = e.val ∨ f.val = e.val + 1
  nodeOf := fun e n => n.val = e.val ∨ n.val = e.val + 1
  nodeOfFace := fun f n => f = n

example : TwoSided exMesh ∧ (∀ n, FaceConnected exMesh n) ∧ SkinNode exMesh (fun e => e = 1) 1 ∧ ¬ InactiveNode exMesh (fun e => e = 1) 1 := by
  have h2 : TwoSided exMesh := by
    intro f a b c ha hb hc
    simp only [exMesh] at ha hb hc
    rw [Fin.ext_iff, Fin.ext_iff, Fin.ext_iff]
    omega
  have hc : ∀ n, FaceConnected exMesh n := fun n e e' h h' =>
    Relation.ReflTransGen.single ⟨h, h', n, by simpa [exMesh] using h, by simpa [exMesh] using h', rfl⟩
  refine ⟨h2, hc, ⟨1, ⟨1, rfl, ?_, ?_⟩, rfl⟩, c118_active_nodes_have_rows exMesh h2 _ 1 (hc 1) 0 (by decide) ?_⟩
  · simp [exMesh]
  · intro e' _ h; exact h
  · simp [exMesh]

end parts

end Nalu.Overset
