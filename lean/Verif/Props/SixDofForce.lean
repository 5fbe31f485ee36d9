import Verif.Model.SixDofForce
import Verif.Props.SurfaceForce
import Verif.Props.MeshMotion
import Mathlib.Analysis.SpecialFunctions.Sqrt
import Mathlib.Analysis.Calculus.Deriv.Pow
import Mathlib.Analysis.Calculus.Deriv.Mul

set_option linter.unusedSectionVars false
set_option linter.unusedSimpArgs false

/-!
# C251–C254: fluid and tether forces on six-degree-of-freedom bodies
-/

namespace Nalu.SixDof
open Nalu.Force Verif.Motion

variable {M : Type*} {nd : ℕ}

/-! ## C251: force and moment of the body -/

theorem addTethers_some (tiny : ℝ) (c d a : Fin 3 → ℝ) (ts : List Tether) (F : Tether → Fin 3 → ℝ)
    (hF : ∀ t ∈ ts, t.forceAt (t.moving tiny c d a) = some (F t)) (s : (Fin 3 → ℝ) × (Fin 3 → ℝ)) :
    addTethers tiny c d a ts s = some (fun i => s.1 i + (ts.map fun t => F t i).sum,
      fun i => s.2 i + (ts.map fun t => cross (F t) (t.arm tiny c d a) i).sum) := by
  induction ts generalizing s with
  | nil => simp [addTethers]
  | cons t ts ih =>
    simp only [addTethers, hF t (by simp)]
    rw [ih fun t ht => hF t (by simp [ht])]
    simp only [List.map_cons, List.sum_cons, add_assoc]

theorem addTethers_none (tiny : ℝ) (c d a : Fin 3 → ℝ) (ts : List Tether) (s : (Fin 3 → ℝ) × (Fin 3 → ℝ)) :
    addTethers tiny c d a ts s = none ↔ ∃ t ∈ ts, t.forceAt (t.moving tiny c d a) = none := by
  induction ts generalizing s with
  | nil => simp [addTethers]
  | cons t ts ih =>
    simp only [addTethers]
    cases h : t.forceAt (t.moving tiny c d a) with
    | none => simp [h]
    | some f => simp [h, ih]

/-- **C251** The body receives the pressure and viscous forces of all points of its forcing surfaces on all ranks plus the forces of all its tethers, and
their moments about its current centre (centroid plus displacement); every other quantity of the body keeps its value. -/
theorem c251_total (tiny : ℝ) (x : M → Fin nd → ℝ) (c : Fin 3 → ℝ) (ts : List Tether) (ranks : List (List (Contribution M nd))) (b : Body ℝ)
    (F : Tether → Fin 3 → ℝ) (hF : ∀ t ∈ ts, t.forceAt (t.moving tiny c b.dispCC b.angle) = some (F t)) :
    ∃ b', handOver tiny x c ts ranks b = some b' ∧
    (∀ j, b'.force j = (ranks.flatten.map fun k => pad k.pF j).sum + (ranks.flatten.map fun k => pad k.vF j).sum + (ts.map fun t => F t j).sum) ∧
    (∀ j, b'.moment j = (ranks.flatten.map fun k => cross (pad fun i => k.pF i + k.vF i)
        (pad fun i => x k.node i - (if h : i.val < 3 then c ⟨i.val, h⟩ + b.dispCC ⟨i.val, h⟩ else 0)) j).sum
      + (ts.map fun t => cross (F t) (t.arm tiny c b.dispCC b.angle) j).sum) ∧
    b' = { b with force := b'.force, moment := b'.moment } := by
  obtain ⟨h1, h2, h3, -, -⟩ := c109_totals x (centre c b.dispCC) ranks
  refine ⟨{ b with
      force := fun j => (ranks.flatten.map fun k => pad k.pF j).sum + (ranks.flatten.map fun k => pad k.vF j).sum + (ts.map fun t => F t j).sum
      moment := fun j => (ranks.flatten.map fun k => cross (pad fun i => k.pF i + k.vF i)
        (pad fun i => x k.node i - (if h : i.val < 3 then c ⟨i.val, h⟩ + b.dispCC ⟨i.val, h⟩ else 0)) j).sum
      + (ts.map fun t => cross (F t) (t.arm tiny c b.dispCC b.angle) j).sum }, ?_, fun _ => rfl, fun _ => rfl, rfl⟩
  simp only [handOver]
  rw [addTethers_some tiny c b.dispCC b.angle ts F hF]
  have e1 : ∀ j, (report x (centre c b.dispCC) ranks).fP j + (ts.map fun t => F t j).sum + (report x (centre c b.dispCC) ranks).fV j
    = (ranks.flatten.map fun k => pad k.pF j).sum + (ranks.flatten.map fun k => pad k.vF j).sum + (ts.map fun t => F t j).sum := fun j => by
    rw [h1, h2]; ring
  simp only [e1]
  congr 2
  funext j
  rw [h3]
  rfl

/-- **C251** What the body receives depends neither on the distribution of the faces over ranks nor on their sequence, nor on the force and moment of the
previous step. -/
theorem c251_history (tiny : ℝ) (x : M → Fin nd → ℝ) (c : Fin 3 → ℝ) (ts : List Tether) (r r' : List (List (Contribution M nd)))
    (hr : r.flatten.Perm r'.flatten) (b : Body ℝ) (f m : Fin 3 → ℝ) :
    handOver tiny x c ts r' { b with force := f, moment := m } = handOver tiny x c ts r b := by
  simp only [handOver]
  rw [c109_decomposition x (centre c b.dispCC) r' r hr.symm]

/-- **C251** A body in a fluid at rest under uniform pressure, with closed forcing surfaces and no tethers, receives no force. -/
theorem c251_closed (tiny : ℝ) (divFac : ℝ) (o : WallOpts) (W : WallData M nd) (F : Fields M nd) (p0 : ℝ) (hp : ∀ m, F.p m = p0)
    (hg : ∀ m i j, F.dudx m i j = 0) (c : Fin 3 → ℝ) (ranks : List (List (Face M nd))) (hN : ∀ f ∈ ranks.flatten, ∀ ip, ∑ ic, f.shape ip ic = 1)
    (hA : ∀ i, totalArea ranks i = 0) (b : Body ℝ) :
    ∃ b', handOver tiny F.x c [] (rankPoints divFac o W F .plain ranks) b = some b' ∧ ∀ j, b'.force j = 0 := by
  refine ⟨_, rfl, fun j => ?_⟩
  simp only []
  rw [c109_closed_surface divFac o W F .plain p0 hp (centre c b.dispCC) ranks hN hA j, zero_add, (c109_totals _ _ _).2.1]
  apply List.sum_eq_zero
  intro y hy
  obtain ⟨k, hk, rfl⟩ := List.mem_map.1 hy
  obtain ⟨l, hl, hkl⟩ := List.mem_flatten.1 hk
  simp only [rankPoints, List.mem_map] at hl
  obtain ⟨fs, -, rfl⟩ := hl
  simp only [points, List.mem_flatMap, List.mem_map] at hkl
  obtain ⟨f, -, ip, -, rfl⟩ := hkl
  simp [pad, pointOf, plainPoint, hg]

/-! ## C252: tethers -/

/-- **C252** The attachment point moves with the mesh: it is the current position of the mesh point whose model coordinates are the centroid plus the body
coordinates of the tether. -/
theorem c252_attached (tiny : ℝ) (t : Tether) (c d a : Fin 3 → ℝ) :
    t.moving tiny c d a = currentCoords (fun i => c i + t.body i) (sixDofDisplacement (rotMat (quatFromEuler a)) c d fun i => c i + t.body i) := by
  funext i
  simp only [Tether.moving, convertVect, matVec, getRotMat, if_true, currentCoords, sixDofDisplacement]
  ring

/-- **C252** The lever arm is the body coordinate vector rotated with the body: its length never changes. -/
theorem c252_arm (tiny : ℝ) (t : Tether) (c d a : Fin 3 → ℝ) :
    (∀ i, t.arm tiny c d a i = convertVect tiny t.body a true i) ∧ ∑ i, t.arm tiny c d a i ^ 2 = ∑ i, t.body i ^ 2 := by
  have e : ∀ i, t.arm tiny c d a i = convertVect tiny t.body a true i := fun i => by simp only [Tether.arm, Tether.moving]; ring
  refine ⟨e, ?_⟩
  simp only [e]
  have ho := (c47_rotmat_orthogonal (c47_euler_unit a).2).2.1
  have h00 := ho 0 0; have h01 := ho 0 1; have h02 := ho 0 2
  have h11 := ho 1 1; have h12 := ho 1 2; have h22 := ho 2 2
  simp only [convertVect, getRotMat, if_true, matVec]
  generalize rotMat (quatFromEuler a) = m at *
  simp only [Fin.sum_univ_three, Fin.reduceEq, if_true, if_false] at h00 h01 h02 h11 h12 h22
  simp only [Fin.sum_univ_three]
  linear_combination (t.body 0) ^ 2 * h00 + (t.body 1) ^ 2 * h11 + (t.body 2) ^ 2 * h22
    + 2 * t.body 0 * t.body 1 * h01 + 2 * t.body 0 * t.body 2 * h02 + 2 * t.body 1 * t.body 2 * h12

theorem distance_sq (a b : Fin 3 → ℝ) : distance a b ^ 2 = ∑ i, (b i - a i) ^ 2 := by
  rw [distance, Real.sq_sqrt (by positivity), Fin.sum_univ_three]; ring

theorem distance_nonneg (a b : Fin 3 → ℝ) : 0 ≤ distance a b := Real.sqrt_nonneg _

theorem distance_zero (a b : Fin 3 → ℝ) : distance a b = 0 ↔ a = b := by
  constructor
  · intro h
    have h2 := distance_sq a b
    rw [h, Fin.sum_univ_three] at h2
    funext i
    have : (b i - a i) ^ 2 = 0 := by
      have h0 := sq_nonneg (b 0 - a 0); have h1 := sq_nonneg (b 1 - a 1); have h3 := sq_nonneg (b 2 - a 2)
      fin_cases i <;> simp only [Fin.mk_one, Fin.zero_eta, Fin.reduceFinMk] <;> nlinarith
    have := pow_eq_zero_iff (two_ne_zero) |>.1 this
    linarith
  · rintro rfl; simp [distance]

/-- The spring force an extension law gives: towards the anchor when stretched, away from it when compressed. -/
def IsSpringForce (k L : ℝ) (m fixed F : Fin 3 → ℝ) : Prop :=
  (∃ s : ℝ, (∀ i, F i = s * (fixed i - m i)) ∧ s * distance m fixed = k * (distance m fixed - L))

/-- **C252** A tether that may not slacken acts as a linear spring between attachment point and anchor, along their line. -/
theorem c252_spring (t : Tether) (m : Fin 3 → ℝ) (h : ¬ t.slackFlag > 1 / 2) (hd : m ≠ t.fixed) :
    ∃ F, t.forceAt m = some F ∧ IsSpringForce t.spring t.relaxed m t.fixed F ∧
      ∑ i, F i ^ 2 = (t.spring * (distance m t.fixed - t.relaxed)) ^ 2 := by
  have hd0 : distance m t.fixed ≠ 0 := fun e => hd ((distance_zero _ _).1 e)
  refine ⟨fun i => t.spring * (distance m t.fixed - t.relaxed) * (t.fixed i - m i) / distance m t.fixed, by simp only [Tether.forceAt, if_neg h, if_neg hd0], ⟨t.spring * (distance m t.fixed - t.relaxed) / distance m t.fixed, fun i => by ring,
    by field_simp⟩, ?_⟩
  have := distance_sq m t.fixed
  have e : ∀ i, (t.spring * (distance m t.fixed - t.relaxed) * (t.fixed i - m i) / distance m t.fixed) ^ 2
      = (t.spring * (distance m t.fixed - t.relaxed) / distance m t.fixed) ^ 2 * (t.fixed i - m i) ^ 2 := fun i => by ring
  simp only [e, ← Finset.mul_sum]
  rw [← this]
  field_simp

/-- **C252** A tether that may slacken is that spring when stretched beyond its relaxed length, and exerts nothing otherwise. -/
theorem c252_slack (t : Tether) (m : Fin 3 → ℝ) (h : t.slackFlag > 1 / 2) :
    (distance m t.fixed ≤ t.relaxed → t.forceAt m = some fun _ => 0) ∧
    (t.relaxed < distance m t.fixed → m ≠ t.fixed → ∃ F, t.forceAt m = some F ∧ IsSpringForce t.spring t.relaxed m t.fixed F) := by
  refine ⟨fun hl => ?_, fun hl hd => ?_⟩
  · simp only [Tether.forceAt, if_pos h, if_neg (show ¬ distance m t.fixed - t.relaxed > 0 by linarith)]
  · have hd0 : distance m t.fixed ≠ 0 := fun e => hd ((distance_zero _ _).1 e)
    exact ⟨fun i => t.spring * (distance m t.fixed - t.relaxed) * (t.fixed i - m i) / distance m t.fixed, by simp only [Tether.forceAt, if_pos h, if_neg hd0, if_pos (show distance m t.fixed - t.relaxed > 0 by linarith)],
      ⟨t.spring * (distance m t.fixed - t.relaxed) / distance m t.fixed, fun i => by ring, by field_simp⟩⟩

/-- **C252** With a non-negative spring constant a stretched tether pulls the body towards the anchor: its force does not point away from it. -/
theorem c252_restoring (t : Tether) (m F : Fin 3 → ℝ) (hk : 0 ≤ t.spring) (hl : t.relaxed ≤ distance m t.fixed) (hF : t.forceAt m = some F) :
    0 ≤ ∑ i, F i * (t.fixed i - m i) := by
  have key : ∀ G : Fin 3 → ℝ, (G = fun i => t.spring * (distance m t.fixed - t.relaxed) * (t.fixed i - m i) / distance m t.fixed) →
      0 ≤ ∑ i, G i * (t.fixed i - m i) := by
    rintro G rfl
    refine Finset.sum_nonneg fun i _ => ?_
    have e : t.spring * (distance m t.fixed - t.relaxed) * (t.fixed i - m i) / distance m t.fixed * (t.fixed i - m i)
        = t.spring * (distance m t.fixed - t.relaxed) * (t.fixed i - m i) ^ 2 / distance m t.fixed := by ring
    rw [e]
    have := distance_nonneg m t.fixed
    have h2 : 0 ≤ distance m t.fixed - t.relaxed := by linarith
    positivity
  simp only [Tether.forceAt] at hF
  split at hF
  · split at hF
    · split at hF
      · simp at hF
      · exact key F (Option.some.inj hF).symm
    · rw [← Option.some.inj hF]; simp
  · split at hF
    · simp at hF
    · exact key F (Option.some.inj hF).symm

/-- **C252** The only failure: attachment point on the anchor, for a tether that may not slacken or has a negative relaxed length. -/
theorem c252_coincident_partial (t : Tether) (m : Fin 3 → ℝ) :
    t.forceAt m = none ↔ m = t.fixed ∧ (¬ t.slackFlag > 1 / 2 ∨ t.relaxed < 0) := by
  rw [← distance_zero]
  simp only [Tether.forceAt]
  by_cases h : t.slackFlag > 1 / 2
  · simp only [if_pos h]
    by_cases hd : distance m t.fixed = 0
    · simp only [hd, if_true, zero_sub]
      by_cases hr : t.relaxed < 0
      · simp [hr]
      · have hn : ¬ (0 - t.relaxed > 0) := by linarith
        simp only [gt_iff_lt, zero_sub, Left.neg_pos_iff, hr, if_false, or_false, true_and, reduceCtorEq, false_iff, not_not]; exact h
    · simp only [hd, if_false, false_and, iff_false]
      split <;> simp
  · simp only [if_neg h]
    by_cases hd : distance m t.fixed = 0
    · simp only [hd, if_true, true_and, true_iff]; exact Or.inl h
    · simp [hd]

/-- **C252** The force a tether adds and the moment it adds do the work the force does at the attachment point: with the mesh velocity of the body, power
at the point is force times body velocity plus moment times angular velocity. -/
theorem c252_power (tiny : ℝ) (t : Tether) (c d a w v F : Fin 3 → ℝ) :
    ∑ i, F i * meshVelocitySixDof w v c d (t.moving tiny c d a) i = ∑ i, F i * v i + ∑ i, cross F (t.arm tiny c d a) i * w i := by
  have e : ∀ i, t.moving tiny c d a i - (c i + d i) = t.arm tiny c d a i := fun i => rfl
  simp only [meshVelocitySixDof, e, Fin.sum_univ_three]
  generalize t.arm tiny c d a = r
  simp only [crossProduct, cross, Matrix.cons_val_zero, Matrix.cons_val_one, Matrix.cons_val]
  ring

/-- Elastic energy of a tether with extension `e`. -/
noncomputable def energy (slack : Prop) [Decidable slack] (k e : ℝ) : ℝ := if slack then k / 2 * max e 0 ^ 2 else k / 2 * e ^ 2

theorem hasDerivAt_maxsq (x : ℝ) : HasDerivAt (fun y : ℝ => max y 0 ^ 2) (2 * max x 0) x := by
  rcases lt_trichotomy x 0 with h | h | h
  · rw [max_eq_right h.le, mul_zero]
    refine (hasDerivAt_const x (0 : ℝ)).congr_of_eventuallyEq ?_
    filter_upwards [Iio_mem_nhds h] with y hy
    rw [max_eq_right (le_of_lt hy)]; norm_num
  · subst h
    simp only [max_self, mul_zero]
    rw [hasDerivAt_iff_isLittleO]
    simp only [max_self, ne_eq, OfNat.ofNat_ne_zero, not_false_eq_true, zero_pow, sub_zero, smul_eq_mul, mul_zero]
    have h1 : (fun y : ℝ => max y 0 ^ 2) =O[nhds 0] fun y : ℝ => y ^ 2 := by
      refine Asymptotics.IsBigO.of_bound 1 (Filter.Eventually.of_forall fun y => ?_)
      rw [one_mul, Real.norm_of_nonneg (by positivity), Real.norm_of_nonneg (by positivity)]
      rcases le_total y 0 with hy | hy
      · rw [max_eq_right hy]; nlinarith
      · rw [max_eq_left hy]
    refine h1.trans_isLittleO ?_
    have := Asymptotics.isLittleO_pow_id (𝕜 := ℝ) (n := 2) (by norm_num)
    exact this
  · rw [max_eq_left h.le]
    have h2 : HasDerivAt (fun y : ℝ => y ^ 2) (2 * x) x := by simpa using hasDerivAt_pow 2 x
    refine h2.congr_of_eventuallyEq ?_
    filter_upwards [Ioi_mem_nhds h] with y hy
    rw [max_eq_left (le_of_lt hy)]

/-- **C252** Tethers are conservative: along any motion of the attachment point away from the anchor, the elastic energy (half the spring constant times
the squared extension, of the positive part for a tether that may slacken) changes at the rate of minus the power of the force. -/
theorem c252_conservative (t : Tether) (m m' : ℝ → Fin 3 → ℝ) (τ : ℝ) (hm : ∀ i, HasDerivAt (fun s => m s i) (m' τ i) τ) (hd : m τ ≠ t.fixed) :
    ∃ F, t.forceAt (m τ) = some F ∧
      HasDerivAt (fun s => energy (t.slackFlag > 1 / 2) t.spring (distance (m s) t.fixed - t.relaxed)) (-∑ i, F i * m' τ i) τ := by
  have hd0 : distance (m τ) t.fixed ≠ 0 := fun e => hd ((distance_zero _ _).1 e)
  have hpos : 0 < distance (m τ) t.fixed := lt_of_le_of_ne (distance_nonneg _ _) (Ne.symm hd0)
  have hin : (m τ 0 - t.fixed 0) ^ 2 + (m τ 1 - t.fixed 1) ^ 2 + (m τ 2 - t.fixed 2) ^ 2 ≠ 0 := fun e => hd0 (by rw [distance, e, Real.sqrt_zero])
  have hdist : HasDerivAt (fun s => distance (m s) t.fixed - t.relaxed) ((∑ i, (m τ i - t.fixed i) * m' τ i) / distance (m τ) t.fixed) τ := by
    have q : ∀ i : Fin 3, HasDerivAt (fun s => (m s i - t.fixed i) ^ 2) (2 * (m τ i - t.fixed i) * m' τ i) τ := fun i => by
      exact (((hm i).sub_const (t.fixed i)).pow 2).congr_deriv (by simp)
    have := ((((q 0).add (q 1)).add (q 2)).sqrt hin).sub_const t.relaxed
    refine this.congr_deriv ?_
    rw [Fin.sum_univ_three]
    show _ / (2 * distance (m τ) t.fixed) = _
    field_simp
  have hpull : ∀ G : Fin 3 → ℝ, (G = fun i => t.spring * (distance (m τ) t.fixed - t.relaxed) * (t.fixed i - m τ i) / distance (m τ) t.fixed) →
      -∑ i, G i * m' τ i = t.spring * (distance (m τ) t.fixed - t.relaxed) * ((∑ i, (m τ i - t.fixed i) * m' τ i) / distance (m τ) t.fixed) := by
    rintro G rfl
    simp only [Fin.sum_univ_three]
    ring
  by_cases h : t.slackFlag > 1 / 2
  · have hE : (fun s => energy (t.slackFlag > 1 / 2) t.spring (distance (m s) t.fixed - t.relaxed))
        = fun s => t.spring / 2 * max (distance (m s) t.fixed - t.relaxed) 0 ^ 2 := by funext s; simp only [energy, if_pos h]
    rw [hE]
    have hD := ((hasDerivAt_maxsq (distance (m τ) t.fixed - t.relaxed)).comp τ hdist).const_mul (t.spring / 2)
    by_cases hl : distance (m τ) t.fixed - t.relaxed > 0
    · refine ⟨fun i => t.spring * (distance (m τ) t.fixed - t.relaxed) * (t.fixed i - m τ i) / distance (m τ) t.fixed, by simp only [Tether.forceAt, if_pos h, if_pos hl, if_neg hd0], ?_⟩
      rw [hpull _ rfl]
      refine hD.congr_deriv ?_
      rw [max_eq_left hl.le]; ring
    · refine ⟨fun _ => 0, by simp only [Tether.forceAt, if_pos h, if_neg hl], ?_⟩
      refine hD.congr_deriv ?_
      rw [max_eq_right (not_lt.1 hl)]; simp
  · have hE : (fun s => energy (t.slackFlag > 1 / 2) t.spring (distance (m s) t.fixed - t.relaxed))
        = fun s => t.spring / 2 * (distance (m s) t.fixed - t.relaxed) ^ 2 := by funext s; simp only [energy, if_neg h]
    rw [hE]
    refine ⟨fun i => t.spring * (distance (m τ) t.fixed - t.relaxed) * (t.fixed i - m τ i) / distance (m τ) t.fixed, by simp only [Tether.forceAt, if_neg h, if_neg hd0], ?_⟩
    rw [hpull _ rfl]
    have hD := (hdist.pow 2).const_mul (t.spring / 2)
    refine hD.congr_deriv ?_
    simp only [Nat.cast_ofNat]
    ring

/-! ## C253: nodal fields -/

theorem foldl_point [DecidableEq M] (cs : List (Contribution M nd)) (s : Nodal M nd) :
    (cs.foldl Nodal.addPoint s).area = s.area ∧
    (∀ m i, (cs.foldl Nodal.addPoint s).pForce m i = s.pForce m i + (cs.map fun c => if m = c.node then c.pF i else 0).sum) ∧
    (∀ m, (cs.foldl Nodal.addPoint s).tau m = s.tau m + (cs.map fun c => if m = c.node then c.tauA / s.area m else 0).sum) ∧
    ∀ m, (cs.foldl Nodal.addPoint s).yplus m = s.yplus m + (cs.map fun c => if m = c.node then c.yplus * c.aMag / s.area m else 0).sum := by
  induction cs generalizing s with
  | nil => simp
  | cons c cs ih =>
    obtain ⟨h0, h1, h2, h3⟩ := ih (s.addPoint c)
    have ha : (s.addPoint c).area = s.area := rfl
    rw [ha] at h0 h2 h3
    simp only [List.foldl_cons]
    refine ⟨h0, fun m i => ?_, fun m => ?_, fun m => ?_⟩
    · rw [h1]; simp only [Nodal.addPoint, List.map_cons, List.sum_cons]; split <;> ring
    · rw [h2]; simp only [Nodal.addPoint, List.map_cons, List.sum_cons]
      split
      · rename_i h; subst h; ring
      · ring
    · rw [h3]; simp only [Nodal.addPoint, List.map_cons, List.sum_cons]
      split
      · rename_i h; subst h; ring
      · ring

theorem foldl_area [DecidableEq M] (cs : List (Contribution M nd)) (a : M → ℝ) (m : M) :
    (cs.foldl addArea a) m = a m + (cs.map fun c => if m = c.node then c.aMag else 0).sum := by
  induction cs generalizing a with
  | nil => simp
  | cons c cs ih =>
    rw [List.foldl_cons, ih]
    simp only [addArea, List.map_cons, List.sum_cons]
    split <;> ring

variable {ι : Type*} [Fintype ι] [DecidableEq M]

/-- The area all ranks assemble at a node. -/
noncomputable def totalAreaAt (pts : ι → List (Contribution M nd)) (m : M) : ℝ := ∑ r, ((pts r).map fun c => if m = c.node then c.aMag else 0).sum

/-- **C253** What one call adds on a rank: the pressure forces of the rank's own points, and their wall shear stress and `y+` weighted with the share of
the area all ranks have at the node; the assembled area itself does not depend on earlier calls.  Missing for the full property (nodal fields equal to the
sums over all points): the fields are not zeroed before, see `c253_accumulates_partial`, and not summed over the ranks. -/
theorem c253_one_call_partial (pts : ι → List (Contribution M nd)) (s : ι → Nodal M nd) (r : ι) (m : M) :
    (drive pts s r).area m = totalAreaAt pts m ∧
    (∀ i, (drive pts s r).pForce m i = (s r).pForce m i + ((pts r).map fun c => if m = c.node then c.pF i else 0).sum) ∧
    (drive pts s r).tau m = (s r).tau m + ((pts r).map fun c => if m = c.node then c.tauA / totalAreaAt pts m else 0).sum ∧
    (drive pts s r).yplus m = (s r).yplus m + ((pts r).map fun c => if m = c.node then c.yplus * c.aMag / totalAreaAt pts m else 0).sum := by
  have hA : ∀ m, (∑ r, ((pts r).foldl addArea (fun _ => 0)) m) = totalAreaAt pts m := fun m => by
    simp only [foldl_area, zero_add, totalAreaAt]
  obtain ⟨h0, h1, h2, h3⟩ := foldl_point (pts r) { s r with area := fun m => ∑ r, ((pts r).foldl addArea (fun _ => 0)) m }
  simp only [hA] at h0 h1 h2 h3
  simp only [drive, hA]
  exact ⟨by rw [h0], h1 m, h2 m, h3 m⟩

/-- **C253** The nodal fields are never zeroed: after `n` calls with the same flow they are `n` times the contribution of one call. -/
theorem c253_accumulates_partial (pts : ι → List (Contribution M nd)) (s : ι → Nodal M nd) (n : ℕ) (r : ι) (m : M) :
    (∀ i, (((drive pts)^[n]) s r).pForce m i = (s r).pForce m i + n * ((pts r).map fun c => if m = c.node then c.pF i else 0).sum) ∧
    (((drive pts)^[n]) s r).tau m = (s r).tau m + n * ((pts r).map fun c => if m = c.node then c.tauA / totalAreaAt pts m else 0).sum ∧
    (((drive pts)^[n]) s r).yplus m = (s r).yplus m + n * ((pts r).map fun c => if m = c.node then c.yplus * c.aMag / totalAreaAt pts m else 0).sum := by
  induction n with
  | zero => simp
  | succ n ih =>
    rw [Function.iterate_succ_apply']
    obtain ⟨-, h1, h2, h3⟩ := c253_one_call_partial pts ((drive pts)^[n] s) r m
    obtain ⟨g1, g2, g3⟩ := ih
    refine ⟨fun i => ?_, ?_, ?_⟩
    · rw [h1, g1]; push_cast; ring
    · rw [h2, g2]; push_cast; ring
    · rw [h3, g3]; push_cast; ring

/-! ## C254: input and registration -/

/-- **C254** Reading of tethers: a list of `n` times nine numbers gives `n` tethers in the order given, tether `i` having the numbers `9i, …, 9i+8`; any
other length is refused. -/
theorem c254_read (xs : List ℝ) :
    (xs.length % 9 ≠ 0 → ∃ e, readTethers xs = .error e) ∧
    (xs.length % 9 = 0 → ∃ ts, readTethers xs = .ok ts ∧ 9 * ts.length = xs.length ∧
      ∀ i (hi : i < ts.length) (j : Fin 9) (h : 9 * i + j < xs.length), ts[i] j = xs[9 * i + j]) := by
  refine ⟨fun h => ⟨_, by rw [readTethers, if_pos h]⟩, fun h => ⟨_, by rw [readTethers, if_neg (by simpa using h)], ?_, ?_⟩⟩
  · simp only [List.length_map, List.length_range]; omega
  · intro i hi j hj
    simp only [List.getElem_map, List.getElem_range]
    rw [List.getD_eq_getElem?_getD, List.getElem?_eq_getElem hj]; rfl

/-- **C254** Every number of the group has its meaning: slack flag, relaxed length, spring constant, three body coordinates, three anchor coordinates. -/
theorem c254_fields (sl L k b0 b1 b2 f0 f1 f2 : ℝ) :
    Tether.ofArray ![sl, L, k, b0, b1, b2, f0, f1, f2] = ⟨sl, L, k, ![b0, b1, b2], ![f0, f1, f2]⟩ := rfl

/-- **C254** A body gets an algorithm exactly when one of its forcing surfaces is a known part; it then covers the subsets of all known ones, unknown names
being skipped. -/
theorem c254_register {P : Type*} (sub : String → Option (List P)) (names : List String) :
    (registerBody sub names = none ↔ ∀ n ∈ names, sub n = none) ∧
    ∀ parts, registerBody sub names = some parts → ∀ p, p ∈ parts ↔ ∃ n ∈ names, ∃ l, sub n = some l ∧ p ∈ l := by
  have hlen : 0 < (names.filterMap sub).length ↔ ¬ ∀ n ∈ names, sub n = none := by
    rw [List.length_pos_iff_ne_nil, ne_eq, List.filterMap_eq_nil_iff]
  refine ⟨?_, fun parts h p => ?_⟩
  · simp only [registerBody]
    split
    · rename_i h; simpa using hlen.1 h
    · rename_i h; simp only [true_iff]; exact not_not.1 fun hn => h (hlen.2 hn)
  · simp only [registerBody] at h
    split at h
    · rw [← Option.some.inj h]
      simp only [List.mem_flatten, List.mem_filterMap]
      constructor
      · rintro ⟨l, ⟨n, hn, hl⟩, hp⟩; exact ⟨n, hn, l, hl, hp⟩
      · rintro ⟨n, hn, l, hl, hp⟩; exact ⟨l, ⟨n, hn, hl⟩, hp⟩
    · simp at h

/-- **C254** Without a known forcing surface the body's force and moment are never computed, whatever its tethers are: tethers act only on bodies with at
least one forcing surface. -/
theorem c254_no_surface_no_tether {P : Type*} (sub : String → Option (List P)) (names : List String) (h : ∀ n ∈ names, sub n = none) (tiny : ℝ)
    (x : M → Fin nd → ℝ) (c : Fin 3 → ℝ) (ts : List Tether) (points : List P → List (List (Contribution M nd))) (b : Body ℝ) :
    stepBody tiny x c ts (registerBody sub names) points b = some b := by
  rw [((c254_register sub names).1).2 h]; rfl

/-! ## Witnesses -/

/-- A tether from the origin of the body to (0,0,2), relaxed length 1, constant 3: it pulls up with force 3. -/
example : (⟨0, 1, 3, ![0, 0, 0], ![0, 0, 2]⟩ : Tether).forceAt ![0, 0, 0] = some ![0, 0, 3] := by
  have h4 : distance ![0, 0, 0] ![0, 0, 2] = 2 := by
    simp only [distance, Matrix.cons_val_zero, Matrix.cons_val_one, Matrix.cons_val]
    rw [show ((0 - 0) ^ 2 + (0 - 0) ^ 2 + (0 - 2) ^ 2 : ℝ) = 2 ^ 2 by norm_num]
    exact Real.sqrt_sq (by norm_num)
  simp only [Tether.forceAt, h4]
  norm_num
  funext i
  fin_cases i <;> norm_num
example : (⟨0, 1, 3, ![0, 0, 0], ![0, 0, 0]⟩ : Tether).forceAt ![0, 0, 0] = none :=
  (c252_coincident_partial _ _).2 ⟨rfl, Or.inl (by norm_num)⟩
/-- One wall point with pressure force 2: after three calls the nodal pressure force is 6. -/
example : (((drive (M := Unit) (nd := 1) fun _ : Unit => [⟨(), 1, fun _ => 2, fun _ => 0, 0, 0⟩])^[3])
    (fun _ => ⟨fun _ _ => 0, fun _ => 0, fun _ => 0, fun _ => 0⟩) ()).pForce () 0 = 6 := by
  rw [(c253_accumulates_partial _ _ 3 () ()).1]; norm_num

end Nalu.SixDof
