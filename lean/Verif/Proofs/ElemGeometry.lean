import Verif.Model.ElemGeometry
import Verif.Spec.ElemGeometry
import Mathlib.Tactic.IntervalCases
import Mathlib.Tactic.LinearCombination
import Mathlib.Tactic.Abel

set_option linter.unusedSectionVars false
set_option linter.unusedSimpArgs false
set_option linter.unusedVariables false
set_option linter.style.multiGoal false

namespace Verif.ElemGeom

variable {K : Type*} [Field K] [CharZero K]

theorem quadArea_eq (a b c d : V3 K) : quadArea a b c d = (1 / 2 : K) • cross (c - a) (d - b) := by
  obtain ⟨a1, a2, a3⟩ := a
  obtain ⟨b1, b2, b3⟩ := b
  obtain ⟨c1, c2, c3⟩ := c
  obtain ⟨d1, d2, d3⟩ := d
  simp only [quadArea, mid4, cross, Prod.smul_mk, Prod.mk_add_mk, Prod.mk_sub_mk, smul_eq_mul]
  refine Prod.ext ?_ (Prod.ext ?_ ?_) <;> simp only [] <;> ring


set_option maxHeartbeats 4000000 in
theorem hex_closed (c : ℕ → V3 K) (n : ℕ) (hn : n < 8) :
    scatterScs (hexScs c) hexLr n
      + ((hexSides.zip hexIpNode).map fun s => scatterFace (faceAreas c s.1) s.2 n).sum = 0 := by
  interval_cases n <;>
  (simp [scatterScs, hexScs, hexLr, scsAreas, hexScsTable, hexSides, hexIpNode, scatterFace,
     faceAreas, quad3dAreas, tri3dAreas]
   simp only [hexPts, subFaceArea, quadArea_eq]
   simp only [mid2, mid3, mid4, cross]
   generalize c 0 = p0
   generalize c 1 = p1
   generalize c 2 = p2
   generalize c 3 = p3
   generalize c 4 = p4
   generalize c 5 = p5
   generalize c 6 = p6
   generalize c 7 = p7
   obtain ⟨x0, y0, z0⟩ := p0
   obtain ⟨x1, y1, z1⟩ := p1
   obtain ⟨x2, y2, z2⟩ := p2
   obtain ⟨x3, y3, z3⟩ := p3
   obtain ⟨x4, y4, z4⟩ := p4
   obtain ⟨x5, y5, z5⟩ := p5
   obtain ⟨x6, y6, z6⟩ := p6
   obtain ⟨x7, y7, z7⟩ := p7
   simp only [Prod.smul_mk, Prod.mk_add_mk, Prod.mk_sub_mk, smul_eq_mul, Prod.neg_mk]
   refine Prod.ext ?_ (Prod.ext ?_ ?_) <;> simp only [Prod.fst_zero, Prod.snd_zero] <;> ring)


set_option maxHeartbeats 4000000 in
theorem tet_closed (c : ℕ → V3 K) (n : ℕ) (hn : n < 4) :
    scatterScs (tetScs c) tetLr n
      + ((tetSides.zip tetIpNode).map fun s => scatterFace (faceAreas c s.1) s.2 n).sum = 0 := by
  interval_cases n <;>
  (simp [scatterScs, tetScs, tetLr, scsAreas, tetScsTable, tetSides, tetIpNode, scatterFace,
     faceAreas, quad3dAreas, tri3dAreas]
   simp only [tetPts, subFaceArea, quadArea_eq]
   simp only [mid2, mid3, mid4, cross]
   generalize c 0 = p0
   generalize c 1 = p1
   generalize c 2 = p2
   generalize c 3 = p3
   obtain ⟨x0, y0, z0⟩ := p0
   obtain ⟨x1, y1, z1⟩ := p1
   obtain ⟨x2, y2, z2⟩ := p2
   obtain ⟨x3, y3, z3⟩ := p3
   simp only [Prod.smul_mk, Prod.mk_add_mk, Prod.mk_sub_mk, smul_eq_mul, Prod.neg_mk]
   refine Prod.ext ?_ (Prod.ext ?_ ?_) <;> simp only [Prod.fst_zero, Prod.snd_zero] <;> ring)


set_option maxHeartbeats 4000000 in
theorem wed_closed (c : ℕ → V3 K) (n : ℕ) (hn : n < 6) :
    scatterScs (wedScs c) wedLr n
      + ((wedSides.zip wedIpNode).map fun s => scatterFace (faceAreas c s.1) s.2 n).sum = 0 := by
  interval_cases n <;>
  (simp [scatterScs, wedScs, wedLr, scsAreas, wedScsTable, wedSides, wedIpNode, scatterFace,
     faceAreas, quad3dAreas, tri3dAreas]
   simp only [wedPts, subFaceArea, quadArea_eq]
   simp only [mid2, mid3, mid4, cross]
   generalize c 0 = p0
   generalize c 1 = p1
   generalize c 2 = p2
   generalize c 3 = p3
   generalize c 4 = p4
   generalize c 5 = p5
   obtain ⟨x0, y0, z0⟩ := p0
   obtain ⟨x1, y1, z1⟩ := p1
   obtain ⟨x2, y2, z2⟩ := p2
   obtain ⟨x3, y3, z3⟩ := p3
   obtain ⟨x4, y4, z4⟩ := p4
   obtain ⟨x5, y5, z5⟩ := p5
   simp only [Prod.smul_mk, Prod.mk_add_mk, Prod.mk_sub_mk, smul_eq_mul, Prod.neg_mk]
   refine Prod.ext ?_ (Prod.ext ?_ ?_) <;> simp only [Prod.fst_zero, Prod.snd_zero] <;> ring)


set_option maxHeartbeats 4000000 in
theorem pyr_closed (c : ℕ → V3 K) (n : ℕ) (hn : n < 5) :
    scatterScs (pyrScs c) pyrLr n
      + ((pyrSides.zip pyrIpNode).map fun s => scatterFace (faceAreas c s.1) s.2 n).sum = 0 := by
  interval_cases n <;>
  (simp [scatterScs, pyrScs, pyrLr, scsAreas, pyrScsTable, pyrSides, pyrIpNode, scatterFace,
     faceAreas, quad3dAreas, tri3dAreas]
   simp only [pyrPts, subFaceArea, quadArea_eq]
   simp only [mid2, mid3, mid4, cross]
   generalize c 0 = p0
   generalize c 1 = p1
   generalize c 2 = p2
   generalize c 3 = p3
   generalize c 4 = p4
   obtain ⟨x0, y0, z0⟩ := p0
   obtain ⟨x1, y1, z1⟩ := p1
   obtain ⟨x2, y2, z2⟩ := p2
   obtain ⟨x3, y3, z3⟩ := p3
   obtain ⟨x4, y4, z4⟩ := p4
   simp only [Prod.smul_mk, Prod.mk_add_mk, Prod.mk_sub_mk, smul_eq_mul, Prod.neg_mk]
   refine Prod.ext ?_ (Prod.ext ?_ ?_) <;> simp only [Prod.fst_zero, Prod.snd_zero] <;> ring)


/-! ### Volumes -/

/-- Flux through an oriented quadrilateral patch. -/
abbrev F (a b c d : V3 K) : K := quadFlux a b c d
/-- Flux through an oriented triangle. -/
abbrev T (a b c : V3 K) : K := triFlux a b c

theorem facetTerm_eq (p q r : V3 K) : facetTerm p q r = 18 * T p q r := by
  simp only [facetTerm, T, triFlux, dot, cross, Prod.fst_add, Prod.snd_add, Prod.fst_sub,
    Prod.snd_sub]
  ring
theorem T_cyc (p q r : V3 K) : T q r p = T p q r := by
  simp only [T, triFlux, dot, cross]; ring

theorem Frev0 (a b c d : V3 K) : F a b c d + F d c b a = 0 := by
  simp only [F, quadFlux, triFlux, dot, cross]; ring
theorem Frev1 (a b c d : V3 K) : F a b c d + F c b a d = 0 := by
  simp only [F, quadFlux, triFlux, dot, cross]; ring
theorem Frev2 (a b c d : V3 K) : F a b c d + F b a d c = 0 := by
  simp only [F, quadFlux, triFlux, dot, cross]; ring
theorem Frev3 (a b c d : V3 K) : F a b c d + F a d c b = 0 := by
  simp only [F, quadFlux, triFlux, dot, cross]; ring
theorem Trev0 (a b c : V3 K) : T a b c + T c b a = 0 := by
  simp only [T, triFlux, dot, cross]; ring
theorem Trev1 (a b c : V3 K) : T a b c + T b a c = 0 := by
  simp only [T, triFlux, dot, cross]; ring
theorem Trev2 (a b c : V3 K) : T a b c + T a c b = 0 := by
  simp only [T, triFlux, dot, cross]; ring

/-- Four triangles to the midpoint of a quadrilateral carry the flux of the patch. -/
theorem T_fan (a b c d : V3 K) :
    T a b (mid4 a b c d) + T b c (mid4 a b c d) + T c d (mid4 a b c d) + T d a (mid4 a b c d)
      = F a b c d := by
  obtain ⟨a1, a2, a3⟩ := a
  obtain ⟨b1, b2, b3⟩ := b
  obtain ⟨c1, c2, c3⟩ := c
  obtain ⟨d1, d2, d3⟩ := d
  simp only [T, F, quadFlux, triFlux, dot, cross, mid4, Prod.smul_mk, Prod.mk_add_mk, smul_eq_mul]
  ring
theorem T_half (a b c : V3 K) : T a b (mid2 b c) + T a (mid2 b c) c = T a b c := by
  obtain ⟨a1, a2, a3⟩ := a
  obtain ⟨b1, b2, b3⟩ := b
  obtain ⟨c1, c2, c3⟩ := c
  simp only [T, triFlux, dot, cross, mid2, Prod.smul_mk, Prod.mk_add_mk, smul_eq_mul]
  ring
theorem mid4_perm1 (a b c d : V3 K) : mid4 b c d a = mid4 a b c d := by
  simp only [mid4]; congr 1 <;> abel


theorem hexVolumeGrandy_eq (v : ℕ → V3 K) :
    hexVolumeGrandy v = F (v 0) (v 3) (v 2) (v 1) + F (v 4) (v 5) (v 6) (v 7) + F (v 0) (v 1) (v 5) (v 4) + F (v 2) (v 3) (v 7) (v 6) + F (v 1) (v 2) (v 6) (v 5) + F (v 0) (v 4) (v 7) (v 3) := by
  have e8 : grandyPts v 8 = mid4 (v 0) (v 3) (v 2) (v 1) := by
    first | rfl | (simp only [grandyPts, mid4]; congr 1; abel)
  have f8 := T_fan (v 0) (v 3) (v 2) (v 1)
  rw [← e8] at f8
  have e9 : grandyPts v 9 = mid4 (v 4) (v 5) (v 6) (v 7) := by
    first | rfl | (simp only [grandyPts, mid4]; congr 1; abel)
  have f9 := T_fan (v 4) (v 5) (v 6) (v 7)
  rw [← e9] at f9
  have e10 : grandyPts v 10 = mid4 (v 0) (v 1) (v 5) (v 4) := by
    first | rfl | (simp only [grandyPts, mid4]; congr 1; abel)
  have f10 := T_fan (v 0) (v 1) (v 5) (v 4)
  rw [← e10] at f10
  have e11 : grandyPts v 11 = mid4 (v 2) (v 3) (v 7) (v 6) := by
    first | rfl | (simp only [grandyPts, mid4]; congr 1; abel)
  have f11 := T_fan (v 2) (v 3) (v 7) (v 6)
  rw [← e11] at f11
  have e12 : grandyPts v 12 = mid4 (v 1) (v 2) (v 6) (v 5) := by
    first | rfl | (simp only [grandyPts, mid4]; congr 1; abel)
  have f12 := T_fan (v 1) (v 2) (v 6) (v 5)
  rw [← e12] at f12
  have e13 : grandyPts v 13 = mid4 (v 0) (v 4) (v 7) (v 3) := by
    first | rfl | (simp only [grandyPts, mid4]; congr 1; abel)
  have f13 := T_fan (v 0) (v 4) (v 7) (v 3)
  rw [← e13] at f13
  have low : grandyPts v 0 = v 0 ∧ grandyPts v 1 = v 1 ∧ grandyPts v 2 = v 2 ∧ grandyPts v 3 = v 3 ∧ grandyPts v 4 = v 4
      ∧ grandyPts v 5 = v 5 ∧ grandyPts v 6 = v 6 ∧ grandyPts v 7 = v 7 := ⟨rfl, rfl, rfl, rfl, rfl, rfl, rfl, rfl⟩
  obtain ⟨h0, h1, h2, h3, h4, h5, h6, h7⟩ := low
  simp only [hexVolumeGrandy, polyVolume, hexFacets, List.map_cons, List.map_nil, List.sum_cons, List.sum_nil,
    facetTerm_eq, h0, h1, h2, h3, h4, h5, h6, h7]
  linear_combination f8 + f9 + f10 + f11 + f12 + f13 + T_cyc (v 1) (v 0) (grandyPts v 8) + T_cyc (v 2) (v 1) (grandyPts v 8) + T_cyc (v 1) (grandyPts v 8) (v 2) + T_cyc (v 0) (v 3) (grandyPts v 8) + T_cyc (v 5) (v 6) (grandyPts v 9) + T_cyc (v 6) (v 7) (grandyPts v 9) + T_cyc (v 7) (v 4) (grandyPts v 9) + T_cyc (v 0) (v 1) (grandyPts v 10) + T_cyc (v 1) (grandyPts v 10) (v 0) + T_cyc (v 1) (v 5) (grandyPts v 10) + T_cyc (v 5) (v 4) (grandyPts v 10) + T_cyc (v 2) (v 6) (grandyPts v 12) + T_cyc (v 6) (v 5) (grandyPts v 12)

theorem bhexVolumeGrandy_eq (v : ℕ → V3 K) :
    bhexVolumeGrandy v = F (v 0) (v 3) (v 2) (v 1) + T (v 5) (v 6) (v 7) + T (v 4) (v 5) (v 7) + F (v 0) (v 1) (v 5) (v 4) + F (v 2) (v 3) (v 7) (v 6) + F (v 1) (v 2) (v 6) (v 5) + F (v 0) (v 4) (v 7) (v 3) := by
  have e8 : bgrandyPts v 8 = mid4 (v 0) (v 3) (v 2) (v 1) := by
    first | rfl | (simp only [bgrandyPts, mid4]; congr 1; abel)
  have f8 := T_fan (v 0) (v 3) (v 2) (v 1)
  rw [← e8] at f8
  have e10 : bgrandyPts v 10 = mid4 (v 0) (v 1) (v 5) (v 4) := by
    first | rfl | (simp only [bgrandyPts, mid4]; congr 1; abel)
  have f10 := T_fan (v 0) (v 1) (v 5) (v 4)
  rw [← e10] at f10
  have e11 : bgrandyPts v 11 = mid4 (v 2) (v 3) (v 7) (v 6) := by
    first | rfl | (simp only [bgrandyPts, mid4]; congr 1; abel)
  have f11 := T_fan (v 2) (v 3) (v 7) (v 6)
  rw [← e11] at f11
  have e12 : bgrandyPts v 12 = mid4 (v 1) (v 2) (v 6) (v 5) := by
    first | rfl | (simp only [bgrandyPts, mid4]; congr 1; abel)
  have f12 := T_fan (v 1) (v 2) (v 6) (v 5)
  rw [← e12] at f12
  have e13 : bgrandyPts v 13 = mid4 (v 0) (v 4) (v 7) (v 3) := by
    first | rfl | (simp only [bgrandyPts, mid4]; congr 1; abel)
  have f13 := T_fan (v 0) (v 4) (v 7) (v 3)
  rw [← e13] at f13
  have t1 := T_half (v 6) (v 7) (v 5)
  have t2 := T_half (v 4) (v 5) (v 7)
  have e9 : bgrandyPts v 9 = mid2 (v 5) (v 7) := rfl
  have e9' : bgrandyPts v 9 = mid2 (v 7) (v 5) := by first | rfl | (simp only [bgrandyPts, mid2]; congr 1; abel)
  rw [← e9] at t2
  rw [← e9'] at t1
  have low : bgrandyPts v 0 = v 0 ∧ bgrandyPts v 1 = v 1 ∧ bgrandyPts v 2 = v 2 ∧ bgrandyPts v 3 = v 3 ∧ bgrandyPts v 4 = v 4
      ∧ bgrandyPts v 5 = v 5 ∧ bgrandyPts v 6 = v 6 ∧ bgrandyPts v 7 = v 7 := ⟨rfl, rfl, rfl, rfl, rfl, rfl, rfl, rfl⟩
  obtain ⟨h0, h1, h2, h3, h4, h5, h6, h7⟩ := low
  simp only [bhexVolumeGrandy, polyVolume, hexFacets, List.map_cons, List.map_nil, List.sum_cons, List.sum_nil,
    facetTerm_eq, h0, h1, h2, h3, h4, h5, h6, h7]
  linear_combination f8 + f10 + f11 + f12 + f13 + t1 + t2 + T_cyc (v 5) (v 6) (v 7) + T_cyc (v 1) (v 0) (bgrandyPts v 8) + T_cyc (v 2) (v 1) (bgrandyPts v 8) + T_cyc (v 1) (bgrandyPts v 8) (v 2) + T_cyc (v 0) (v 3) (bgrandyPts v 8) + T_cyc (v 6) (v 7) (bgrandyPts v 9) + T_cyc (v 0) (v 1) (bgrandyPts v 10) + T_cyc (v 1) (bgrandyPts v 10) (v 0) + T_cyc (v 1) (v 5) (bgrandyPts v 10) + T_cyc (v 5) (v 4) (bgrandyPts v 10) + T_cyc (v 2) (v 6) (bgrandyPts v 12) + T_cyc (v 6) (v 5) (bgrandyPts v 12)

theorem octVolume_eq (v : ℕ → V3 K) :
    octVolume v = T (v 1) (v 3) (v 9) + T (v 2) (v 9) (v 3) + T (v 4) (v 3) (v 5) + T (v 3) (v 1) (v 5) + T (v 1) (v 7) (v 5) + T (v 5) (v 7) (v 6) + T (v 9) (v 8) (v 7) + T (v 9) (v 7) (v 1) + T (v 4) (v 5) (v 0) + T (v 5) (v 6) (v 0) + T (v 6) (v 7) (v 0) + T (v 7) (v 8) (v 0) + T (v 0) (v 8) (v 9) + T (v 0) (v 9) (v 2) + T (v 0) (v 2) (v 3) + T (v 0) (v 3) (v 4) := by
  have t0 := T_half (v 1) (v 3) (v 9)
  have e0 : octPts v 10 = mid2 (v 3) (v 9) := by first | rfl | (simp only [octPts, mid2]; congr 1; abel)
  rw [← e0] at t0
  have t1 := T_half (v 2) (v 9) (v 3)
  have e1 : octPts v 10 = mid2 (v 9) (v 3) := by first | rfl | (simp only [octPts, mid2]; congr 1; abel)
  rw [← e1] at t1
  have t2 := T_half (v 4) (v 3) (v 5)
  have e2 : octPts v 11 = mid2 (v 3) (v 5) := by first | rfl | (simp only [octPts, mid2]; congr 1; abel)
  rw [← e2] at t2
  have t3 := T_half (v 1) (v 5) (v 3)
  have e3 : octPts v 11 = mid2 (v 5) (v 3) := by first | rfl | (simp only [octPts, mid2]; congr 1; abel)
  rw [← e3] at t3
  have t4 := T_half (v 1) (v 7) (v 5)
  have e4 : octPts v 12 = mid2 (v 7) (v 5) := by first | rfl | (simp only [octPts, mid2]; congr 1; abel)
  rw [← e4] at t4
  have t5 := T_half (v 6) (v 5) (v 7)
  have e5 : octPts v 12 = mid2 (v 5) (v 7) := by first | rfl | (simp only [octPts, mid2]; congr 1; abel)
  rw [← e5] at t5
  have t6 := T_half (v 8) (v 7) (v 9)
  have e6 : octPts v 13 = mid2 (v 7) (v 9) := by first | rfl | (simp only [octPts, mid2]; congr 1; abel)
  rw [← e6] at t6
  have t7 := T_half (v 1) (v 9) (v 7)
  have e7 : octPts v 13 = mid2 (v 9) (v 7) := by first | rfl | (simp only [octPts, mid2]; congr 1; abel)
  rw [← e7] at t7
  have low : octPts v 0 = v 0 ∧ octPts v 1 = v 1 ∧ octPts v 2 = v 2 ∧ octPts v 3 = v 3 ∧ octPts v 4 = v 4 ∧ octPts v 5 = v 5 ∧ octPts v 6 = v 6 ∧ octPts v 7 = v 7 ∧ octPts v 8 = v 8 ∧ octPts v 9 = v 9 := ⟨rfl, rfl, rfl, rfl, rfl, rfl, rfl, rfl, rfl, rfl⟩
  obtain ⟨h0, h1, h2, h3, h4, h5, h6, h7, h8, h9⟩ := low
  simp only [octVolume, polyVolume, octFacets, List.map_cons, List.map_nil, List.sum_cons, List.sum_nil,
    facetTerm_eq, h0, h1, h2, h3, h4, h5, h6, h7, h8, h9]
  linear_combination t0 + t1 + t2 + t3 + t4 + t5 + t6 + t7 + T_cyc (v 1) (octPts v 10) (v 9) + T_cyc (v 1) (octPts v 11) (v 3) + T_cyc (octPts v 11) (v 3) (v 1) + T_cyc (v 1) (v 5) (octPts v 11) + T_cyc (v 5) (octPts v 11) (v 1) + T_cyc (v 6) (octPts v 12) (v 7) + T_cyc (v 6) (v 5) (octPts v 12) + T_cyc (v 8) (octPts v 13) (v 9) + T_cyc (octPts v 13) (v 9) (v 8) + T_cyc (v 8) (v 7) (octPts v 13) + T_cyc (v 7) (octPts v 13) (v 8) + T_cyc (v 1) (octPts v 13) (v 7) + T_cyc (v 1) (v 9) (octPts v 13) + (-1) * T_cyc (v 3) (v 1) (v 5)*(-1) + (-1)* (T_cyc (v 5) (v 7) (v 6) + T_cyc (v 7) (v 6) (v 5))*(-1) + (-1) * T_cyc (v 9) (v 8) (v 7)*(-1) + (-1)* (T_cyc (v 9) (v 7) (v 1) + T_cyc (v 7) (v 1) (v 9))*(-1)

set_option maxHeartbeats 4000000 in
theorem hex_volume (c : ℕ → V3 K) :
    (hexScv c).sum = (hexSides.map (faceFlux c)).sum := by
  have key : ∀ P : ℕ → V3 K, P = hexPts c →
      F (P 0) (P 11) (P 12) (P 8) + F (P 19) (P 20) (P 26) (P 25) + F (P 0) (P 8) (P 20) (P 19) + F (P 12) (P 11) (P 25) (P 26) + F (P 8) (P 12) (P 26) (P 20) + F (P 0) (P 19) (P 25) (P 11) + F (P 8) (P 12) (P 9) (P 1) + F (P 20) (P 18) (P 24) (P 26) + F (P 8) (P 1) (P 18) (P 20) + F (P 9) (P 12) (P 26) (P 24) + F (P 1) (P 9) (P 24) (P 18) + F (P 8) (P 20) (P 26) (P 12) + F (P 12) (P 10) (P 2) (P 9) + F (P 26) (P 24) (P 22) (P 23) + F (P 12) (P 9) (P 24) (P 26) + F (P 2) (P 10) (P 23) (P 22) + F (P 9) (P 2) (P 22) (P 24) + F (P 12) (P 26) (P 23) (P 10) + F (P 11) (P 3) (P 10) (P 12) + F (P 25) (P 26) (P 23) (P 21) + F (P 11) (P 12) (P 26) (P 25) + F (P 10) (P 3) (P 21) (P 23) + F (P 12) (P 10) (P 23) (P 26) + F (P 11) (P 25) (P 21) (P 3) + F (P 19) (P 25) (P 26) (P 20) + F (P 4) (P 13) (P 17) (P 16) + F (P 19) (P 20) (P 13) (P 4) + F (P 26) (P 25) (P 16) (P 17) + F (P 20) (P 26) (P 17) (P 13) + F (P 19) (P 4) (P 16) (P 25) + F (P 20) (P 26) (P 24) (P 18) + F (P 13) (P 5) (P 14) (P 17) + F (P 20) (P 18) (P 5) (P 13) + F (P 24) (P 26) (P 17) (P 14) + F (P 18) (P 24) (P 14) (P 5) + F (P 20) (P 13) (P 17) (P 26) + F (P 26) (P 23) (P 22) (P 24) + F (P 17) (P 14) (P 6) (P 15) + F (P 26) (P 24) (P 14) (P 17) + F (P 22) (P 23) (P 15) (P 6) + F (P 24) (P 22) (P 6) (P 14) + F (P 26) (P 17) (P 15) (P 23) + F (P 25) (P 21) (P 23) (P 26) + F (P 16) (P 17) (P 15) (P 7) + F (P 25) (P 26) (P 17) (P 16) + F (P 23) (P 21) (P 7) (P 15) + F (P 26) (P 23) (P 15) (P 17) + F (P 25) (P 16) (P 7) (P 21)
      = F (P 0) (P 1) (P 5) (P 4) + F (P 1) (P 2) (P 6) (P 5) + F (P 2) (P 3) (P 7) (P 6) + F (P 0) (P 4) (P 7) (P 3) + F (P 0) (P 3) (P 2) (P 1) + F (P 4) (P 5) (P 6) (P 7) := by
    intro P hP
    have x0 : F (P 0) (P 8) (P 20) (P 19) + F (P 8) (P 1) (P 18) (P 20) + F (P 19) (P 20) (P 13) (P 4) + F (P 20) (P 18) (P 5) (P 13) = F (P 0) (P 1) (P 5) (P 4) := by
      subst hP
      simp only [hexPts]
      generalize c 0 = p0
      generalize c 1 = p1
      generalize c 2 = p2
      generalize c 3 = p3
      generalize c 4 = p4
      generalize c 5 = p5
      generalize c 6 = p6
      generalize c 7 = p7
      obtain ⟨x0, y0, z0⟩ := p0
      obtain ⟨x1, y1, z1⟩ := p1
      obtain ⟨x2, y2, z2⟩ := p2
      obtain ⟨x3, y3, z3⟩ := p3
      obtain ⟨x4, y4, z4⟩ := p4
      obtain ⟨x5, y5, z5⟩ := p5
      obtain ⟨x6, y6, z6⟩ := p6
      obtain ⟨x7, y7, z7⟩ := p7
      simp only [F, T, quadFlux, triFlux, dot, cross, mid2, mid3, mid4, Prod.smul_mk, Prod.mk_add_mk,
        smul_eq_mul]
      ring
    have x1 : F (P 1) (P 9) (P 24) (P 18) + F (P 9) (P 2) (P 22) (P 24) + F (P 18) (P 24) (P 14) (P 5) + F (P 24) (P 22) (P 6) (P 14) = F (P 1) (P 2) (P 6) (P 5) := by
      subst hP
      simp only [hexPts]
      generalize c 0 = p0
      generalize c 1 = p1
      generalize c 2 = p2
      generalize c 3 = p3
      generalize c 4 = p4
      generalize c 5 = p5
      generalize c 6 = p6
      generalize c 7 = p7
      obtain ⟨x0, y0, z0⟩ := p0
      obtain ⟨x1, y1, z1⟩ := p1
      obtain ⟨x2, y2, z2⟩ := p2
      obtain ⟨x3, y3, z3⟩ := p3
      obtain ⟨x4, y4, z4⟩ := p4
      obtain ⟨x5, y5, z5⟩ := p5
      obtain ⟨x6, y6, z6⟩ := p6
      obtain ⟨x7, y7, z7⟩ := p7
      simp only [F, T, quadFlux, triFlux, dot, cross, mid2, mid3, mid4, Prod.smul_mk, Prod.mk_add_mk,
        smul_eq_mul]
      ring
    have x2 : F (P 2) (P 10) (P 23) (P 22) + F (P 10) (P 3) (P 21) (P 23) + F (P 22) (P 23) (P 15) (P 6) + F (P 23) (P 21) (P 7) (P 15) = F (P 2) (P 3) (P 7) (P 6) := by
      subst hP
      simp only [hexPts]
      generalize c 0 = p0
      generalize c 1 = p1
      generalize c 2 = p2
      generalize c 3 = p3
      generalize c 4 = p4
      generalize c 5 = p5
      generalize c 6 = p6
      generalize c 7 = p7
      obtain ⟨x0, y0, z0⟩ := p0
      obtain ⟨x1, y1, z1⟩ := p1
      obtain ⟨x2, y2, z2⟩ := p2
      obtain ⟨x3, y3, z3⟩ := p3
      obtain ⟨x4, y4, z4⟩ := p4
      obtain ⟨x5, y5, z5⟩ := p5
      obtain ⟨x6, y6, z6⟩ := p6
      obtain ⟨x7, y7, z7⟩ := p7
      simp only [F, T, quadFlux, triFlux, dot, cross, mid2, mid3, mid4, Prod.smul_mk, Prod.mk_add_mk,
        smul_eq_mul]
      ring
    have x3 : F (P 0) (P 19) (P 25) (P 11) + F (P 11) (P 25) (P 21) (P 3) + F (P 19) (P 4) (P 16) (P 25) + F (P 25) (P 16) (P 7) (P 21) = F (P 0) (P 4) (P 7) (P 3) := by
      subst hP
      simp only [hexPts]
      generalize c 0 = p0
      generalize c 1 = p1
      generalize c 2 = p2
      generalize c 3 = p3
      generalize c 4 = p4
      generalize c 5 = p5
      generalize c 6 = p6
      generalize c 7 = p7
      obtain ⟨x0, y0, z0⟩ := p0
      obtain ⟨x1, y1, z1⟩ := p1
      obtain ⟨x2, y2, z2⟩ := p2
      obtain ⟨x3, y3, z3⟩ := p3
      obtain ⟨x4, y4, z4⟩ := p4
      obtain ⟨x5, y5, z5⟩ := p5
      obtain ⟨x6, y6, z6⟩ := p6
      obtain ⟨x7, y7, z7⟩ := p7
      simp only [F, T, quadFlux, triFlux, dot, cross, mid2, mid3, mid4, Prod.smul_mk, Prod.mk_add_mk,
        smul_eq_mul]
      ring
    have x4 : F (P 0) (P 11) (P 12) (P 8) + F (P 8) (P 12) (P 9) (P 1) + F (P 12) (P 10) (P 2) (P 9) + F (P 11) (P 3) (P 10) (P 12) = F (P 0) (P 3) (P 2) (P 1) := by
      subst hP
      simp only [hexPts]
      generalize c 0 = p0
      generalize c 1 = p1
      generalize c 2 = p2
      generalize c 3 = p3
      generalize c 4 = p4
      generalize c 5 = p5
      generalize c 6 = p6
      generalize c 7 = p7
      obtain ⟨x0, y0, z0⟩ := p0
      obtain ⟨x1, y1, z1⟩ := p1
      obtain ⟨x2, y2, z2⟩ := p2
      obtain ⟨x3, y3, z3⟩ := p3
      obtain ⟨x4, y4, z4⟩ := p4
      obtain ⟨x5, y5, z5⟩ := p5
      obtain ⟨x6, y6, z6⟩ := p6
      obtain ⟨x7, y7, z7⟩ := p7
      simp only [F, T, quadFlux, triFlux, dot, cross, mid2, mid3, mid4, Prod.smul_mk, Prod.mk_add_mk,
        smul_eq_mul]
      ring
    have x5 : F (P 4) (P 13) (P 17) (P 16) + F (P 13) (P 5) (P 14) (P 17) + F (P 17) (P 14) (P 6) (P 15) + F (P 16) (P 17) (P 15) (P 7) = F (P 4) (P 5) (P 6) (P 7) := by
      subst hP
      simp only [hexPts]
      generalize c 0 = p0
      generalize c 1 = p1
      generalize c 2 = p2
      generalize c 3 = p3
      generalize c 4 = p4
      generalize c 5 = p5
      generalize c 6 = p6
      generalize c 7 = p7
      obtain ⟨x0, y0, z0⟩ := p0
      obtain ⟨x1, y1, z1⟩ := p1
      obtain ⟨x2, y2, z2⟩ := p2
      obtain ⟨x3, y3, z3⟩ := p3
      obtain ⟨x4, y4, z4⟩ := p4
      obtain ⟨x5, y5, z5⟩ := p5
      obtain ⟨x6, y6, z6⟩ := p6
      obtain ⟨x7, y7, z7⟩ := p7
      simp only [F, T, quadFlux, triFlux, dot, cross, mid2, mid3, mid4, Prod.smul_mk, Prod.mk_add_mk,
        smul_eq_mul]
      ring
    linear_combination x0 + x1 + x2 + x3 + x4 + x5 + Frev3 (P 19) (P 20) (P 26) (P 25) + Frev2 (P 12) (P 11) (P 25) (P 26) + Frev3 (P 8) (P 12) (P 26) (P 20) + Frev3 (P 20) (P 18) (P 24) (P 26) + Frev2 (P 9) (P 12) (P 26) (P 24) + Frev3 (P 26) (P 24) (P 22) (P 23) + Frev3 (P 12) (P 26) (P 23) (P 10) + Frev3 (P 25) (P 26) (P 23) (P 21) + Frev2 (P 26) (P 25) (P 16) (P 17) + Frev3 (P 20) (P 26) (P 17) (P 13) + Frev2 (P 24) (P 26) (P 17) (P 14) + Frev3 (P 26) (P 17) (P 15) (P 23)
  have k := key _ rfl
  have low : hexPts c 0 = c 0 ∧ hexPts c 1 = c 1 ∧ hexPts c 2 = c 2 ∧ hexPts c 3 = c 3 ∧ hexPts c 4 = c 4 ∧ hexPts c 5 = c 5 ∧ hexPts c 6 = c 6 ∧ hexPts c 7 = c 7 := ⟨rfl, rfl, rfl, rfl, rfl, rfl, rfl, rfl⟩
  obtain ⟨h0, h1, h2, h3, h4, h5, h6, h7⟩ := low
  simp only [h0, h1, h2, h3, h4, h5, h6, h7] at k
  simp only [hexScv, hexScvTable, hexSides, List.map_cons, List.map_nil, List.sum_cons, List.sum_nil,
    List.sum_append, hexVolumeGrandy_eq, pick, List.getD_cons_zero, List.getD_cons_succ, faceFlux,
    h0, h1, h2, h3, h4, h5, h6, h7]
  linear_combination k

set_option maxHeartbeats 4000000 in
theorem tet_volume (c : ℕ → V3 K) :
    (tetScv c).sum = (tetSides.map (faceFlux c)).sum := by
  have key : ∀ P : ℕ → V3 K, P = tetPts c →
      F (P 0) (P 6) (P 7) (P 4) + F (P 11) (P 13) (P 14) (P 12) + F (P 0) (P 4) (P 13) (P 11) + F (P 7) (P 6) (P 12) (P 14) + F (P 4) (P 7) (P 14) (P 13) + F (P 0) (P 11) (P 12) (P 6) + F (P 1) (P 4) (P 7) (P 5) + F (P 9) (P 10) (P 14) (P 13) + F (P 1) (P 5) (P 10) (P 9) + F (P 7) (P 4) (P 13) (P 14) + F (P 5) (P 7) (P 14) (P 10) + F (P 1) (P 9) (P 13) (P 4) + F (P 2) (P 5) (P 7) (P 6) + F (P 8) (P 12) (P 14) (P 10) + F (P 2) (P 6) (P 12) (P 8) + F (P 7) (P 5) (P 10) (P 14) + F (P 6) (P 7) (P 14) (P 12) + F (P 2) (P 8) (P 10) (P 5) + F (P 3) (P 11) (P 13) (P 9) + F (P 8) (P 10) (P 14) (P 12) + F (P 3) (P 9) (P 10) (P 8) + F (P 13) (P 11) (P 12) (P 14) + F (P 9) (P 13) (P 14) (P 10) + F (P 3) (P 8) (P 12) (P 11)
      = T (P 0) (P 1) (P 3) + T (P 1) (P 2) (P 3) + T (P 0) (P 3) (P 2) + T (P 0) (P 2) (P 1) := by
    intro P hP
    have x0 : F (P 0) (P 4) (P 13) (P 11) + F (P 1) (P 9) (P 13) (P 4) + F (P 3) (P 11) (P 13) (P 9) = T (P 0) (P 1) (P 3) := by
      subst hP
      simp only [tetPts]
      generalize c 0 = p0
      generalize c 1 = p1
      generalize c 2 = p2
      generalize c 3 = p3
      obtain ⟨x0, y0, z0⟩ := p0
      obtain ⟨x1, y1, z1⟩ := p1
      obtain ⟨x2, y2, z2⟩ := p2
      obtain ⟨x3, y3, z3⟩ := p3
      simp only [F, T, quadFlux, triFlux, dot, cross, mid2, mid3, mid4, Prod.smul_mk, Prod.mk_add_mk,
        smul_eq_mul]
      ring
    have x1 : F (P 1) (P 5) (P 10) (P 9) + F (P 2) (P 8) (P 10) (P 5) + F (P 3) (P 9) (P 10) (P 8) = T (P 1) (P 2) (P 3) := by
      subst hP
      simp only [tetPts]
      generalize c 0 = p0
      generalize c 1 = p1
      generalize c 2 = p2
      generalize c 3 = p3
      obtain ⟨x0, y0, z0⟩ := p0
      obtain ⟨x1, y1, z1⟩ := p1
      obtain ⟨x2, y2, z2⟩ := p2
      obtain ⟨x3, y3, z3⟩ := p3
      simp only [F, T, quadFlux, triFlux, dot, cross, mid2, mid3, mid4, Prod.smul_mk, Prod.mk_add_mk,
        smul_eq_mul]
      ring
    have x2 : F (P 0) (P 11) (P 12) (P 6) + F (P 2) (P 6) (P 12) (P 8) + F (P 3) (P 8) (P 12) (P 11) = T (P 0) (P 3) (P 2) := by
      subst hP
      simp only [tetPts]
      generalize c 0 = p0
      generalize c 1 = p1
      generalize c 2 = p2
      generalize c 3 = p3
      obtain ⟨x0, y0, z0⟩ := p0
      obtain ⟨x1, y1, z1⟩ := p1
      obtain ⟨x2, y2, z2⟩ := p2
      obtain ⟨x3, y3, z3⟩ := p3
      simp only [F, T, quadFlux, triFlux, dot, cross, mid2, mid3, mid4, Prod.smul_mk, Prod.mk_add_mk,
        smul_eq_mul]
      ring
    have x3 : F (P 0) (P 6) (P 7) (P 4) + F (P 1) (P 4) (P 7) (P 5) + F (P 2) (P 5) (P 7) (P 6) = T (P 0) (P 2) (P 1) := by
      subst hP
      simp only [tetPts]
      generalize c 0 = p0
      generalize c 1 = p1
      generalize c 2 = p2
      generalize c 3 = p3
      obtain ⟨x0, y0, z0⟩ := p0
      obtain ⟨x1, y1, z1⟩ := p1
      obtain ⟨x2, y2, z2⟩ := p2
      obtain ⟨x3, y3, z3⟩ := p3
      simp only [F, T, quadFlux, triFlux, dot, cross, mid2, mid3, mid4, Prod.smul_mk, Prod.mk_add_mk,
        smul_eq_mul]
      ring
    linear_combination x0 + x1 + x2 + x3 + Frev2 (P 11) (P 13) (P 14) (P 12) + Frev2 (P 7) (P 6) (P 12) (P 14) + Frev2 (P 4) (P 7) (P 14) (P 13) + Frev3 (P 9) (P 10) (P 14) (P 13) + Frev2 (P 5) (P 7) (P 14) (P 10) + Frev3 (P 8) (P 12) (P 14) (P 10)
  have k := key _ rfl
  have low : tetPts c 0 = c 0 ∧ tetPts c 1 = c 1 ∧ tetPts c 2 = c 2 ∧ tetPts c 3 = c 3 := ⟨rfl, rfl, rfl, rfl⟩
  obtain ⟨h0, h1, h2, h3⟩ := low
  simp only [h0, h1, h2, h3] at k
  simp only [tetScv, tetScvTable, tetSides, List.map_cons, List.map_nil, List.sum_cons, List.sum_nil,
    List.sum_append, hexVolumeGrandy_eq, pick, List.getD_cons_zero, List.getD_cons_succ, faceFlux,
    h0, h1, h2, h3]
  linear_combination k

set_option maxHeartbeats 4000000 in
theorem wed_volume (c : ℕ → V3 K) :
    (wedScv c).sum = (wedSides.map (faceFlux c)).sum := by
  have key : ∀ P : ℕ → V3 K, P = wedPts c →
      F (P 0) (P 6) (P 16) (P 15) + F (P 8) (P 19) (P 20) (P 9) + F (P 0) (P 15) (P 19) (P 8) + F (P 16) (P 6) (P 9) (P 20) + F (P 15) (P 16) (P 20) (P 19) + F (P 0) (P 8) (P 9) (P 6) + F (P 9) (P 7) (P 1) (P 6) + F (P 20) (P 16) (P 14) (P 18) + F (P 9) (P 6) (P 16) (P 20) + F (P 1) (P 7) (P 18) (P 14) + F (P 6) (P 1) (P 14) (P 16) + F (P 9) (P 20) (P 18) (P 7) + F (P 8) (P 2) (P 7) (P 9) + F (P 19) (P 20) (P 18) (P 17) + F (P 8) (P 9) (P 20) (P 19) + F (P 7) (P 2) (P 17) (P 18) + F (P 9) (P 7) (P 18) (P 20) + F (P 8) (P 19) (P 17) (P 2) + F (P 19) (P 20) (P 16) (P 15) + F (P 12) (P 3) (P 10) (P 13) + F (P 19) (P 15) (P 3) (P 12) + F (P 16) (P 20) (P 13) (P 10) + F (P 15) (P 16) (P 10) (P 3) + F (P 19) (P 12) (P 13) (P 20) + F (P 20) (P 18) (P 14) (P 16) + F (P 13) (P 10) (P 4) (P 11) + F (P 20) (P 16) (P 10) (P 13) + F (P 14) (P 18) (P 11) (P 4) + F (P 16) (P 14) (P 4) (P 10) + F (P 20) (P 13) (P 11) (P 18) + F (P 19) (P 17) (P 18) (P 20) + F (P 12) (P 13) (P 11) (P 5) + F (P 19) (P 20) (P 13) (P 12) + F (P 18) (P 17) (P 5) (P 11) + F (P 20) (P 18) (P 11) (P 13) + F (P 19) (P 12) (P 5) (P 17)
      = F (P 0) (P 1) (P 4) (P 3) + F (P 1) (P 2) (P 5) (P 4) + F (P 0) (P 3) (P 5) (P 2) + T (P 0) (P 2) (P 1) + T (P 3) (P 4) (P 5) := by
    intro P hP
    have x0 : F (P 0) (P 6) (P 16) (P 15) + F (P 6) (P 1) (P 14) (P 16) + F (P 15) (P 16) (P 10) (P 3) + F (P 16) (P 14) (P 4) (P 10) = F (P 0) (P 1) (P 4) (P 3) := by
      subst hP
      simp only [wedPts]
      generalize c 0 = p0
      generalize c 1 = p1
      generalize c 2 = p2
      generalize c 3 = p3
      generalize c 4 = p4
      generalize c 5 = p5
      obtain ⟨x0, y0, z0⟩ := p0
      obtain ⟨x1, y1, z1⟩ := p1
      obtain ⟨x2, y2, z2⟩ := p2
      obtain ⟨x3, y3, z3⟩ := p3
      obtain ⟨x4, y4, z4⟩ := p4
      obtain ⟨x5, y5, z5⟩ := p5
      simp only [F, T, quadFlux, triFlux, dot, cross, mid2, mid3, mid4, Prod.smul_mk, Prod.mk_add_mk,
        smul_eq_mul]
      ring
    have x1 : F (P 1) (P 7) (P 18) (P 14) + F (P 7) (P 2) (P 17) (P 18) + F (P 14) (P 18) (P 11) (P 4) + F (P 18) (P 17) (P 5) (P 11) = F (P 1) (P 2) (P 5) (P 4) := by
      subst hP
      simp only [wedPts]
      generalize c 0 = p0
      generalize c 1 = p1
      generalize c 2 = p2
      generalize c 3 = p3
      generalize c 4 = p4
      generalize c 5 = p5
      obtain ⟨x0, y0, z0⟩ := p0
      obtain ⟨x1, y1, z1⟩ := p1
      obtain ⟨x2, y2, z2⟩ := p2
      obtain ⟨x3, y3, z3⟩ := p3
      obtain ⟨x4, y4, z4⟩ := p4
      obtain ⟨x5, y5, z5⟩ := p5
      simp only [F, T, quadFlux, triFlux, dot, cross, mid2, mid3, mid4, Prod.smul_mk, Prod.mk_add_mk,
        smul_eq_mul]
      ring
    have x2 : F (P 0) (P 15) (P 19) (P 8) + F (P 8) (P 19) (P 17) (P 2) + F (P 19) (P 15) (P 3) (P 12) + F (P 19) (P 12) (P 5) (P 17) = F (P 0) (P 3) (P 5) (P 2) := by
      subst hP
      simp only [wedPts]
      generalize c 0 = p0
      generalize c 1 = p1
      generalize c 2 = p2
      generalize c 3 = p3
      generalize c 4 = p4
      generalize c 5 = p5
      obtain ⟨x0, y0, z0⟩ := p0
      obtain ⟨x1, y1, z1⟩ := p1
      obtain ⟨x2, y2, z2⟩ := p2
      obtain ⟨x3, y3, z3⟩ := p3
      obtain ⟨x4, y4, z4⟩ := p4
      obtain ⟨x5, y5, z5⟩ := p5
      simp only [F, T, quadFlux, triFlux, dot, cross, mid2, mid3, mid4, Prod.smul_mk, Prod.mk_add_mk,
        smul_eq_mul]
      ring
    have x3 : F (P 0) (P 8) (P 9) (P 6) + F (P 9) (P 7) (P 1) (P 6) + F (P 8) (P 2) (P 7) (P 9) = T (P 0) (P 2) (P 1) := by
      subst hP
      simp only [wedPts]
      generalize c 0 = p0
      generalize c 1 = p1
      generalize c 2 = p2
      generalize c 3 = p3
      generalize c 4 = p4
      generalize c 5 = p5
      obtain ⟨x0, y0, z0⟩ := p0
      obtain ⟨x1, y1, z1⟩ := p1
      obtain ⟨x2, y2, z2⟩ := p2
      obtain ⟨x3, y3, z3⟩ := p3
      obtain ⟨x4, y4, z4⟩ := p4
      obtain ⟨x5, y5, z5⟩ := p5
      simp only [F, T, quadFlux, triFlux, dot, cross, mid2, mid3, mid4, Prod.smul_mk, Prod.mk_add_mk,
        smul_eq_mul]
      ring
    have x4 : F (P 12) (P 3) (P 10) (P 13) + F (P 13) (P 10) (P 4) (P 11) + F (P 12) (P 13) (P 11) (P 5) = T (P 3) (P 4) (P 5) := by
      subst hP
      simp only [wedPts]
      generalize c 0 = p0
      generalize c 1 = p1
      generalize c 2 = p2
      generalize c 3 = p3
      generalize c 4 = p4
      generalize c 5 = p5
      obtain ⟨x0, y0, z0⟩ := p0
      obtain ⟨x1, y1, z1⟩ := p1
      obtain ⟨x2, y2, z2⟩ := p2
      obtain ⟨x3, y3, z3⟩ := p3
      obtain ⟨x4, y4, z4⟩ := p4
      obtain ⟨x5, y5, z5⟩ := p5
      simp only [F, T, quadFlux, triFlux, dot, cross, mid2, mid3, mid4, Prod.smul_mk, Prod.mk_add_mk,
        smul_eq_mul]
      ring
    linear_combination x0 + x1 + x2 + x3 + x4 + Frev3 (P 8) (P 19) (P 20) (P 9) + Frev1 (P 16) (P 6) (P 9) (P 20) + Frev0 (P 15) (P 16) (P 20) (P 19) + Frev3 (P 20) (P 16) (P 14) (P 18) + Frev3 (P 9) (P 20) (P 18) (P 7) + Frev3 (P 19) (P 20) (P 18) (P 17) + Frev2 (P 16) (P 20) (P 13) (P 10) + Frev3 (P 19) (P 12) (P 13) (P 20) + Frev3 (P 20) (P 13) (P 11) (P 18)
  have k := key _ rfl
  have low : wedPts c 0 = c 0 ∧ wedPts c 1 = c 1 ∧ wedPts c 2 = c 2 ∧ wedPts c 3 = c 3 ∧ wedPts c 4 = c 4 ∧ wedPts c 5 = c 5 := ⟨rfl, rfl, rfl, rfl, rfl, rfl⟩
  obtain ⟨h0, h1, h2, h3, h4, h5⟩ := low
  simp only [h0, h1, h2, h3, h4, h5] at k
  simp only [wedScv, wedScvTable, wedSides, List.map_cons, List.map_nil, List.sum_cons, List.sum_nil,
    List.sum_append, hexVolumeGrandy_eq, pick, List.getD_cons_zero, List.getD_cons_succ, faceFlux,
    h0, h1, h2, h3, h4, h5]
  linear_combination k

set_option maxHeartbeats 4000000 in
theorem pyr_volume (c : ℕ → V3 K) :
    (pyrScv c).sum = (pyrSides.map (faceFlux c)).sum := by
  have key : ∀ P : ℕ → V3 K, P = pyrPts c →
      F (P 0) (P 8) (P 9) (P 5) + T (P 12) (P 18) (P 17) + T (P 11) (P 12) (P 17) + F (P 0) (P 5) (P 12) (P 11) + F (P 9) (P 8) (P 17) (P 18) + F (P 5) (P 9) (P 18) (P 12) + F (P 0) (P 11) (P 17) (P 8) + F (P 1) (P 5) (P 9) (P 6) + T (P 14) (P 18) (P 12) + T (P 10) (P 14) (P 12) + F (P 1) (P 6) (P 14) (P 10) + F (P 9) (P 5) (P 12) (P 18) + F (P 6) (P 9) (P 18) (P 14) + F (P 1) (P 10) (P 12) (P 5) + F (P 2) (P 6) (P 9) (P 7) + T (P 16) (P 18) (P 14) + T (P 13) (P 16) (P 14) + F (P 2) (P 7) (P 16) (P 13) + F (P 9) (P 6) (P 14) (P 18) + F (P 7) (P 9) (P 18) (P 16) + F (P 2) (P 13) (P 14) (P 6) + F (P 3) (P 7) (P 9) (P 8) + T (P 17) (P 18) (P 16) + T (P 15) (P 17) (P 16) + F (P 3) (P 8) (P 17) (P 15) + F (P 9) (P 7) (P 16) (P 18) + F (P 8) (P 9) (P 18) (P 17) + F (P 3) (P 15) (P 16) (P 7) + T (P 18) (P 17) (P 16) + T (P 15) (P 16) (P 17) + T (P 11) (P 17) (P 12) + T (P 17) (P 18) (P 12) + T (P 18) (P 14) (P 12) + T (P 12) (P 14) (P 10) + T (P 16) (P 13) (P 14) + T (P 16) (P 14) (P 18) + T (P 11) (P 12) (P 4) + T (P 12) (P 10) (P 4) + T (P 10) (P 14) (P 4) + T (P 14) (P 13) (P 4) + T (P 4) (P 13) (P 16) + T (P 4) (P 16) (P 15) + T (P 4) (P 15) (P 17) + T (P 4) (P 17) (P 11)
      = T (P 0) (P 1) (P 4) + T (P 1) (P 2) (P 4) + T (P 2) (P 3) (P 4) + T (P 0) (P 4) (P 3) + F (P 0) (P 3) (P 2) (P 1) := by
    intro P hP
    have x0 : F (P 0) (P 5) (P 12) (P 11) + F (P 1) (P 10) (P 12) (P 5) + T (P 11) (P 12) (P 4) + T (P 12) (P 10) (P 4) = T (P 0) (P 1) (P 4) := by
      subst hP
      simp only [pyrPts]
      generalize c 0 = p0
      generalize c 1 = p1
      generalize c 2 = p2
      generalize c 3 = p3
      generalize c 4 = p4
      obtain ⟨x0, y0, z0⟩ := p0
      obtain ⟨x1, y1, z1⟩ := p1
      obtain ⟨x2, y2, z2⟩ := p2
      obtain ⟨x3, y3, z3⟩ := p3
      obtain ⟨x4, y4, z4⟩ := p4
      simp only [F, T, quadFlux, triFlux, dot, cross, mid2, mid3, mid4, Prod.smul_mk, Prod.mk_add_mk,
        smul_eq_mul]
      ring
    have x1 : F (P 1) (P 6) (P 14) (P 10) + F (P 2) (P 13) (P 14) (P 6) + T (P 10) (P 14) (P 4) + T (P 14) (P 13) (P 4) = T (P 1) (P 2) (P 4) := by
      subst hP
      simp only [pyrPts]
      generalize c 0 = p0
      generalize c 1 = p1
      generalize c 2 = p2
      generalize c 3 = p3
      generalize c 4 = p4
      obtain ⟨x0, y0, z0⟩ := p0
      obtain ⟨x1, y1, z1⟩ := p1
      obtain ⟨x2, y2, z2⟩ := p2
      obtain ⟨x3, y3, z3⟩ := p3
      obtain ⟨x4, y4, z4⟩ := p4
      simp only [F, T, quadFlux, triFlux, dot, cross, mid2, mid3, mid4, Prod.smul_mk, Prod.mk_add_mk,
        smul_eq_mul]
      ring
    have x2 : F (P 2) (P 7) (P 16) (P 13) + F (P 3) (P 15) (P 16) (P 7) + T (P 4) (P 13) (P 16) + T (P 4) (P 16) (P 15) = T (P 2) (P 3) (P 4) := by
      subst hP
      simp only [pyrPts]
      generalize c 0 = p0
      generalize c 1 = p1
      generalize c 2 = p2
      generalize c 3 = p3
      generalize c 4 = p4
      obtain ⟨x0, y0, z0⟩ := p0
      obtain ⟨x1, y1, z1⟩ := p1
      obtain ⟨x2, y2, z2⟩ := p2
      obtain ⟨x3, y3, z3⟩ := p3
      obtain ⟨x4, y4, z4⟩ := p4
      simp only [F, T, quadFlux, triFlux, dot, cross, mid2, mid3, mid4, Prod.smul_mk, Prod.mk_add_mk,
        smul_eq_mul]
      ring
    have x3 : F (P 0) (P 11) (P 17) (P 8) + F (P 3) (P 8) (P 17) (P 15) + T (P 4) (P 15) (P 17) + T (P 4) (P 17) (P 11) = T (P 0) (P 4) (P 3) := by
      subst hP
      simp only [pyrPts]
      generalize c 0 = p0
      generalize c 1 = p1
      generalize c 2 = p2
      generalize c 3 = p3
      generalize c 4 = p4
      obtain ⟨x0, y0, z0⟩ := p0
      obtain ⟨x1, y1, z1⟩ := p1
      obtain ⟨x2, y2, z2⟩ := p2
      obtain ⟨x3, y3, z3⟩ := p3
      obtain ⟨x4, y4, z4⟩ := p4
      simp only [F, T, quadFlux, triFlux, dot, cross, mid2, mid3, mid4, Prod.smul_mk, Prod.mk_add_mk,
        smul_eq_mul]
      ring
    have x4 : F (P 0) (P 8) (P 9) (P 5) + F (P 1) (P 5) (P 9) (P 6) + F (P 2) (P 6) (P 9) (P 7) + F (P 3) (P 7) (P 9) (P 8) = F (P 0) (P 3) (P 2) (P 1) := by
      subst hP
      simp only [pyrPts]
      generalize c 0 = p0
      generalize c 1 = p1
      generalize c 2 = p2
      generalize c 3 = p3
      generalize c 4 = p4
      obtain ⟨x0, y0, z0⟩ := p0
      obtain ⟨x1, y1, z1⟩ := p1
      obtain ⟨x2, y2, z2⟩ := p2
      obtain ⟨x3, y3, z3⟩ := p3
      obtain ⟨x4, y4, z4⟩ := p4
      simp only [F, T, quadFlux, triFlux, dot, cross, mid2, mid3, mid4, Prod.smul_mk, Prod.mk_add_mk,
        smul_eq_mul]
      ring
    linear_combination x0 + x1 + x2 + x3 + x4 + Trev0 (P 12) (P 18) (P 17) + Trev2 (P 11) (P 12) (P 17) + Frev2 (P 9) (P 8) (P 17) (P 18) + Frev2 (P 5) (P 9) (P 18) (P 12) + Trev1 (P 14) (P 18) (P 12) + Trev0 (P 10) (P 14) (P 12) + Frev2 (P 6) (P 9) (P 18) (P 14) + Trev2 (P 16) (P 18) (P 14) + Trev1 (P 13) (P 16) (P 14) + Frev2 (P 7) (P 9) (P 18) (P 16) + Trev1 (P 17) (P 18) (P 16) + Trev2 (P 15) (P 17) (P 16)
  have k := key _ rfl
  have low : pyrPts c 0 = c 0 ∧ pyrPts c 1 = c 1 ∧ pyrPts c 2 = c 2 ∧ pyrPts c 3 = c 3 ∧ pyrPts c 4 = c 4 := ⟨rfl, rfl, rfl, rfl, rfl⟩
  obtain ⟨h0, h1, h2, h3, h4⟩ := low
  simp only [h0, h1, h2, h3, h4] at k
  simp only [pyrScv, pyrScvTable, pyrSides, List.map_cons, List.map_nil, List.sum_cons, List.sum_nil,
    List.sum_append, hexVolumeGrandy_eq, bhexVolumeGrandy_eq, octVolume_eq, pyrTipRow, pick, List.getD_cons_zero, List.getD_cons_succ, faceFlux,
    h0, h1, h2, h3, h4]
  linear_combination k

end Verif.ElemGeom
