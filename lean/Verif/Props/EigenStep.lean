import Verif.Props.EigenSimd

/-!
# C160: why the claim "the result is diagonal" is only partial — a single rotation is inexact
-/

namespace Nalu.Eigen

open Matrix Spec

/-- Off-diagonal entry (0,1) exchanged: one Jacobi rotation by 45 degrees would diagonalise it. -/
def swapExample : M3 := !![0, 1, 0; 1, 0, 0; 0, 0, 1]

theorem rotated_start {A : M3} (hA : Sym A) : rotated A Quat.start = A := by
  rw [rotated_eq hA, quatToMat_start]; simp

/-- **C160** (why it is partial, 2) The rotation computed for the largest off-diagonal entry does not
annihilate it, because `q[3]` is computed from the already overwritten `q[2]`: on `swapExample`,
which one exact rotation would make diagonal, entry (0,1) is not zero after the first pass, and
the loop goes on. -/
theorem c160_rotation_inexact :
    Sym swapExample ∧
    ∃ q, nextQuat (rotated swapExample Quat.start) Quat.start = some q ∧
      rotated swapExample q 0 1 ≠ 0 := by
  have hs : Sym swapExample := by simp [Sym, swapExample]
  refine ⟨hs, ?_⟩
  rw [rotated_start hs]
  -- the quantities of the first pass
  have hl : strictLargest (fun i => |offd swapExample i|) = some 2 :=
    strictLargest_of (fun j hj => by fin_cases j <;> simp [offd, swapExample] at hj ⊢)
  obtain ⟨-, hnext, -⟩ := lane_step start_sq hl
  refine ⟨_, hnext, ?_⟩
  -- c = 1 / sqrt 2
  have hth : laneTheta swapExample = 0 := by
    rw [laneTheta, laneLarge_some hl]
    simp [offd, swapExample]
  have hcos : laneCosine swapExample = 1 / Real.sqrt 2 := by
    have h0 : (laneLarge swapExample).1 ≠ 0 := by rw [laneLarge_some hl]; simp [offd, swapExample]
    rw [laneCosine, if_neg h0, hth]
    have : laneTangent 0 = -1 := by simp [laneTangent, sgnOf]
    rw [this]; norm_num
  set c : ℝ := 1 / Real.sqrt 2 with hc
  have h2 : Real.sqrt 2 * Real.sqrt 2 = 2 := Real.mul_self_sqrt (by norm_num)
  have hpos : 0 < Real.sqrt 2 := Real.sqrt_pos.mpr (by norm_num)
  have hcc : c * c = 1 / 2 := by rw [hc]; field_simp; linarith
  have hc0 : 0 < c := by positivity
  have hc7 : 7 / 10 < c := by nlinarith
  have hc1 : c < 1 := by nlinarith
  set a := Real.sqrt ((1 - c) / 2) with ha
  have haa : a * a = (1 - c) / 2 := Real.mul_self_sqrt (by linarith)
  have ha0 : 0 < a := Real.sqrt_pos.mpr (by linarith)
  set w := Real.sqrt (1 - a * a) with hw
  have hww : w * w = 1 - a * a := Real.mul_self_sqrt (by rw [haa]; linarith)
  have hw0 : 0 < w := Real.sqrt_pos.mpr (by rw [haa]; linarith)
  have hjr : laneJr swapExample = ⟨0, 0, a, w⟩ := by
    simp only [laneJr, hl, hth, hcos]
    have : -1 * (sgnOf 0 * Real.sqrt ((1 - c) / 2)) = a := by simp [sgnOf, ha]
    rw [this]
    simp [axisQuat, hw]
  rw [hjr]
  have hu : quatUpdate Quat.start ⟨0, 0, a, w⟩ = ⟨0, 0, a, w - a * a⟩ := by
    simp [quatUpdate, Quat.start]
  rw [hu]
  set p := w - a * a with hp
  have hm : 0 < (⟨0, 0, a, p⟩ : Quat).sq := by
    simp only [Quat.sq]; nlinarith [mul_self_nonneg p]
  simp only [normalise]
  have hm' : 0 * 0 + 0 * 0 + a * a + p * p = a * a + p * p := by ring
  rw [hm']
  have hmp : 0 < a * a + p * p := by nlinarith [mul_self_nonneg p]
  set m := Real.sqrt (a * a + p * p) with hmdef
  have hmm : m * m = a * a + p * p := Real.mul_self_sqrt hmp.le
  have hm0 : 0 < m := Real.sqrt_pos.mpr hmp
  have hD : rotated swapExample ⟨0 / m, 0 / m, a / m, p / m⟩ 0 1 =
      ((p * p - a * a) ^ 2 - (2 * a * p) ^ 2) / (m * m * (m * m)) := by
    simp [rotated, timesQtAQ, timesAQ, quatToMat, swapExample]
    field_simp
    ring
  rw [hD]
  apply div_ne_zero _ (by positivity)
  -- size estimates
  have ha15 : a * a < 15 / 100 := by rw [haa]; linarith
  have ha4 : a < 4 / 10 := by nlinarith
  have hw9 : 9 / 10 < w := by nlinarith
  have hpa : a < p := by rw [hp]; linarith
  -- exact rotation satisfies w² - a² = 2 a w
  have hex : w * w - a * a = 2 * a * w := by
    have h1 : w * w - a * a = c := by rw [hww, haa]; ring
    have h2 : (2 * a * w) * (2 * a * w) = c * c := by
      have : (2 * a * w) * (2 * a * w) = 4 * (a * a) * (w * w) := by ring
      rw [this, hww, haa]; linear_combination (-2) * hcc
    have h3 : 2 * a * w = c := by
      have : (2 * a * w - c) * (2 * a * w + c) = 0 := by linear_combination h2
      rcases mul_eq_zero.mp this with h | h
      · linarith
      · have : 0 < 2 * a * w := by positivity
        linarith
    rw [h1, h3]
  have hf1 : p * p - a * a - 2 * a * p ≠ 0 := by
    have : p * p - a * a - 2 * a * p = a * a * (a * a + 2 * a - 2 * w) := by
      rw [hp]; linear_combination hex
    rw [this]
    have : a * a + 2 * a - 2 * w < 0 := by linarith
    exact (mul_neg_of_pos_of_neg (by positivity) this).ne
  have hf2 : p * p - a * a + 2 * a * p ≠ 0 := by nlinarith
  intro h0
  have : (p * p - a * a - 2 * a * p) * (p * p - a * a + 2 * a * p) = 0 := by linear_combination h0
  rcases mul_eq_zero.mp this with h | h
  · exact hf1 h
  · exact hf2 h

end Nalu.Eigen
