import Verif.Spec.ElemGrad
import Verif.Props.ElemGeometry
import Mathlib.Tactic.Module
import Mathlib.Tactic.Linarith

set_option linter.unusedSectionVars false
set_option linter.unusedSimpArgs false
set_option linter.unusedVariables false
set_option linter.style.multiGoal false

namespace Verif.ElemGeom

section
variable {K : Type*} [Field K] [LinearOrder K] [IsStrictOrderedRing K]

/-- The local identity of an element. -/
def LocalExact (eps : K) (t : Topo) (c : ℕ → V3 K) (a : K) (g : V3 K) : Prop :=
  ∀ n < t.nn, scatterScs (ipFlux (t.shape eps) ((List.range t.nn).map fun k => a + dot g (c k)) (t.scs c)) t.lr n
      + (t.sides.map fun s => scatterFace (ipFlux (faceShape s) (s.map fun k => a + dot g (c k)) (faceAreas c s)) s n).sum
    = scatterFace (t.scv c) (List.range t.nn) n • g

theorem range4 : List.range 4 = [0, 1, 2, 3] := by decide
theorem range5 : List.range 5 = [0, 1, 2, 3, 4] := by decide
theorem range6 : List.range 6 = [0, 1, 2, 3, 4, 5] := by decide
theorem range8 : List.range 8 = [0, 1, 2, 3, 4, 5, 6, 7] := by decide

theorem tetShape_rows : tetScsShape (K := K) =
    [[13/36, 13/36, 5/36, 5/36], [5/36, 13/36, 13/36, 5/36], [13/36, 5/36, 13/36, 5/36], [13/36, 5/36, 5/36, 13/36], [5/36, 13/36, 5/36, 13/36],
     [5/36, 5/36, 13/36, 13/36]] := by
  simp [tetScsShape, List.ofFn_succ, Verif.Shape.tetShape]
  norm_num

theorem triFace_rows (a b c : ℕ) : faceShape (K := K) [a, b, c] =
    [[11/18, 7/36, 7/36], [7/36, 11/18, 7/36], [7/36, 7/36, 11/18]] := by
  simp [faceShape, List.ofFn_succ, Verif.Shape.triShape]
  norm_num

theorem quadFace_rows (a b c d : ℕ) : faceShape (K := K) [a, b, c, d] =
    [[9/16, 3/16, 1/16, 3/16], [3/16, 9/16, 3/16, 1/16], [1/16, 3/16, 9/16, 3/16], [3/16, 1/16, 3/16, 9/16]] := by
  simp [faceShape, List.ofFn_succ, Verif.Shape.quadShape]
  norm_num

set_option maxHeartbeats 4000000 in
theorem tet_exact (eps : K) (c : ℕ → V3 K) (a : K) (g : V3 K) : LocalExact eps .tet c a g := by
  intro n hn
  simp only [Topo.nn] at hn
  interval_cases n <;>
  (simp [Topo.nn, Topo.shape, Topo.scs, Topo.lr, Topo.sides, Topo.scv, scatterScs, tetScs, tetScv, tetScvTable, tetLr, scsAreas, tetScsTable, tetSides, tetIpNode, scatterFace,
      faceAreas, quad3dAreas, tri3dAreas, ipFlux, ipVals, tetShape_rows, triFace_rows, range4, hexVolumeGrandy_eq, pick]
   simp only [tetPts, subFaceArea, quadArea_eq]
   simp only [mid2, mid3, mid4, cross, F, quadFlux, triFlux, dot]
   generalize c 0 = p0
   generalize c 1 = p1
   generalize c 2 = p2
   generalize c 3 = p3
   obtain ⟨x0, y0, z0⟩ := p0
   obtain ⟨x1, y1, z1⟩ := p1
   obtain ⟨x2, y2, z2⟩ := p2
   obtain ⟨x3, y3, z3⟩ := p3
   obtain ⟨g1, g2, g3⟩ := g
   simp only [Prod.smul_mk, Prod.mk_add_mk, Prod.mk_sub_mk, smul_eq_mul, Prod.neg_mk]
   refine Prod.ext ?_ (Prod.ext ?_ ?_) <;> simp only [] <;> ring)

theorem hexShape_rows : hexScsShape (K := K) =
    [[9/32, 9/32, 3/32, 3/32, 3/32, 3/32, 1/32, 1/32], [3/32, 9/32, 9/32, 3/32, 1/32, 3/32, 3/32, 1/32],
     [3/32, 3/32, 9/32, 9/32, 1/32, 1/32, 3/32, 3/32], [9/32, 3/32, 3/32, 9/32, 3/32, 1/32, 1/32, 3/32],
     [3/32, 3/32, 1/32, 1/32, 9/32, 9/32, 3/32, 3/32], [1/32, 3/32, 3/32, 1/32, 3/32, 9/32, 9/32, 3/32],
     [1/32, 1/32, 3/32, 3/32, 3/32, 3/32, 9/32, 9/32], [3/32, 1/32, 1/32, 3/32, 9/32, 3/32, 3/32, 9/32],
     [9/32, 3/32, 1/32, 3/32, 9/32, 3/32, 1/32, 3/32], [3/32, 9/32, 3/32, 1/32, 3/32, 9/32, 3/32, 1/32],
     [1/32, 3/32, 9/32, 3/32, 1/32, 3/32, 9/32, 3/32], [3/32, 1/32, 3/32, 9/32, 3/32, 1/32, 3/32, 9/32]] := by
  simp [hexScsShape, List.ofFn_succ, Verif.Shape.hexShape]
  norm_num

theorem wedShape_rows : wedScsShape (K := K) =
    [[5/16, 5/16, 1/8, 5/48, 5/48, 1/24], [1/8, 5/16, 5/16, 1/24, 5/48, 5/48], [5/16, 1/8, 5/16, 5/48, 1/24, 5/48],
     [5/48, 5/48, 1/24, 5/16, 5/16, 1/8], [1/24, 5/48, 5/48, 1/8, 5/16, 5/16], [5/48, 1/24, 5/48, 5/16, 1/8, 5/16],
     [11/36, 7/72, 7/72, 11/36, 7/72, 7/72], [7/72, 11/36, 7/72, 7/72, 11/36, 7/72], [7/72, 7/72, 11/36, 7/72, 7/72, 11/36]] := by
  simp [wedScsShape, List.ofFn_succ, Verif.Shape.wedShape]
  norm_num


theorem triple_expand (g u v w : V3 K) :
    dot u (cross v w) • g = dot g u • cross v w + dot g v • cross w u + dot g w • cross u v := by
  obtain ⟨g1, g2, g3⟩ := g
  obtain ⟨u1, u2, u3⟩ := u
  obtain ⟨v1, v2, v3⟩ := v
  obtain ⟨w1, w2, w3⟩ := w
  simp only [dot, cross, Prod.smul_mk, Prod.mk_add_mk, smul_eq_mul, Prod.mk.injEq]
  refine ⟨?_, ?_, ?_⟩ <;> ring

set_option maxHeartbeats 4000000 in
theorem hexScs_affine (c : ℕ → V3 K) (h : Affine .hex c) (A B C : V3 K) (hA : A = cross (c 3 - c 0) (c 4 - c 0)) (hB : B = cross (c 4 - c 0) (c 1 - c 0)) (hC : C = cross (c 1 - c 0) (c 3 - c 0)) :
    hexScs c = [(1/4 : K) • A + (0 : K) • B + (0 : K) • C,
      (0 : K) • A + (1/4 : K) • B + (0 : K) • C,
      (-(1/4) : K) • A + (0 : K) • B + (0 : K) • C,
      (0 : K) • A + (1/4 : K) • B + (0 : K) • C,
      (1/4 : K) • A + (0 : K) • B + (0 : K) • C,
      (0 : K) • A + (1/4 : K) • B + (0 : K) • C,
      (-(1/4) : K) • A + (0 : K) • B + (0 : K) • C,
      (0 : K) • A + (1/4 : K) • B + (0 : K) • C,
      (0 : K) • A + (0 : K) • B + (1/4 : K) • C,
      (0 : K) • A + (0 : K) • B + (1/4 : K) • C,
      (0 : K) • A + (0 : K) • B + (1/4 : K) • C,
      (0 : K) • A + (0 : K) • B + (1/4 : K) • C] := by
  rcases h with ⟨h2, h5, h7, h6⟩
  subst hA hB hC
  simp only [hexScs, scsAreas, hexScsTable, List.map_cons, List.map_nil, hexPts, quadArea_eq, mid2, mid3, mid4, cross, h2, h5, h7, h6]
  generalize c 0 = p0
  generalize c 1 = p1
  generalize c 3 = p3
  generalize c 4 = p4
  obtain ⟨x0, y0, z0⟩ := p0
  obtain ⟨x1, y1, z1⟩ := p1
  obtain ⟨x3, y3, z3⟩ := p3
  obtain ⟨x4, y4, z4⟩ := p4
  simp only [Prod.smul_mk, Prod.mk_add_mk, Prod.mk_sub_mk, smul_eq_mul, Prod.neg_mk, List.cons.injEq, Prod.mk.injEq, and_true]
  refine ⟨⟨?_, ?_, ?_⟩, ⟨?_, ?_, ?_⟩, ⟨?_, ?_, ?_⟩, ⟨?_, ?_, ?_⟩, ⟨?_, ?_, ?_⟩, ⟨?_, ?_, ?_⟩, ⟨?_, ?_, ?_⟩, ⟨?_, ?_, ?_⟩, ⟨?_, ?_, ?_⟩, ⟨?_, ?_, ?_⟩, ⟨?_, ?_, ?_⟩, ⟨?_, ?_, ?_⟩⟩ <;> ring

set_option maxHeartbeats 4000000 in
theorem hexFace_affine (c : ℕ → V3 K) (h : Affine .hex c) (A B C : V3 K) (hA : A = cross (c 3 - c 0) (c 4 - c 0)) (hB : B = cross (c 4 - c 0) (c 1 - c 0)) (hC : C = cross (c 1 - c 0) (c 3 - c 0)) :
    faceAreas c [0, 1, 5, 4] = [(0 : K) • A + (-(1/4) : K) • B + (0 : K) • C, (0 : K) • A + (-(1/4) : K) • B + (0 : K) • C, (0 : K) • A + (-(1/4) : K) • B + (0 : K) • C, (0 : K) • A + (-(1/4) : K) • B + (0 : K) • C] ∧
    faceAreas c [1, 2, 6, 5] = [(1/4 : K) • A + (0 : K) • B + (0 : K) • C, (1/4 : K) • A + (0 : K) • B + (0 : K) • C, (1/4 : K) • A + (0 : K) • B + (0 : K) • C, (1/4 : K) • A + (0 : K) • B + (0 : K) • C] ∧
    faceAreas c [2, 3, 7, 6] = [(0 : K) • A + (1/4 : K) • B + (0 : K) • C, (0 : K) • A + (1/4 : K) • B + (0 : K) • C, (0 : K) • A + (1/4 : K) • B + (0 : K) • C, (0 : K) • A + (1/4 : K) • B + (0 : K) • C] ∧
    faceAreas c [0, 4, 7, 3] = [(-(1/4) : K) • A + (0 : K) • B + (0 : K) • C, (-(1/4) : K) • A + (0 : K) • B + (0 : K) • C, (-(1/4) : K) • A + (0 : K) • B + (0 : K) • C, (-(1/4) : K) • A + (0 : K) • B + (0 : K) • C] ∧
    faceAreas c [0, 3, 2, 1] = [(0 : K) • A + (0 : K) • B + (-(1/4) : K) • C, (0 : K) • A + (0 : K) • B + (-(1/4) : K) • C, (0 : K) • A + (0 : K) • B + (-(1/4) : K) • C, (0 : K) • A + (0 : K) • B + (-(1/4) : K) • C] ∧
    faceAreas c [4, 5, 6, 7] = [(0 : K) • A + (0 : K) • B + (1/4 : K) • C, (0 : K) • A + (0 : K) • B + (1/4 : K) • C, (0 : K) • A + (0 : K) • B + (1/4 : K) • C, (0 : K) • A + (0 : K) • B + (1/4 : K) • C] := by
  rcases h with ⟨h2, h5, h7, h6⟩
  subst hA hB hC
  simp only [faceAreas, quad3dAreas, tri3dAreas, subFaceArea, mid2, mid3, mid4, cross, h2, h5, h7, h6]
  generalize c 0 = p0
  generalize c 1 = p1
  generalize c 3 = p3
  generalize c 4 = p4
  obtain ⟨x0, y0, z0⟩ := p0
  obtain ⟨x1, y1, z1⟩ := p1
  obtain ⟨x3, y3, z3⟩ := p3
  obtain ⟨x4, y4, z4⟩ := p4
  simp only [Prod.smul_mk, Prod.mk_add_mk, Prod.mk_sub_mk, smul_eq_mul, Prod.neg_mk, List.cons.injEq, Prod.mk.injEq, and_true]
  refine ⟨⟨⟨?_, ?_, ?_⟩, ⟨?_, ?_, ?_⟩, ⟨?_, ?_, ?_⟩, ⟨?_, ?_, ?_⟩⟩, ⟨⟨?_, ?_, ?_⟩, ⟨?_, ?_, ?_⟩, ⟨?_, ?_, ?_⟩, ⟨?_, ?_, ?_⟩⟩, ⟨⟨?_, ?_, ?_⟩, ⟨?_, ?_, ?_⟩, ⟨?_, ?_, ?_⟩, ⟨?_, ?_, ?_⟩⟩, ⟨⟨?_, ?_, ?_⟩, ⟨?_, ?_, ?_⟩, ⟨?_, ?_, ?_⟩, ⟨?_, ?_, ?_⟩⟩, ⟨⟨?_, ?_, ?_⟩, ⟨?_, ?_, ?_⟩, ⟨?_, ?_, ?_⟩, ⟨?_, ?_, ?_⟩⟩, ⟨⟨?_, ?_, ?_⟩, ⟨?_, ?_, ?_⟩, ⟨?_, ?_, ?_⟩, ⟨?_, ?_, ?_⟩⟩⟩ <;> ring

set_option maxHeartbeats 4000000 in
theorem hexScv_affine (c : ℕ → V3 K) (h : Affine .hex c) :
    hexScv c = [(1/8 : K) * dot (c 1 - c 0) (cross (c 3 - c 0) (c 4 - c 0)), (1/8 : K) * dot (c 1 - c 0) (cross (c 3 - c 0) (c 4 - c 0)), (1/8 : K) * dot (c 1 - c 0) (cross (c 3 - c 0) (c 4 - c 0)), (1/8 : K) * dot (c 1 - c 0) (cross (c 3 - c 0) (c 4 - c 0)), (1/8 : K) * dot (c 1 - c 0) (cross (c 3 - c 0) (c 4 - c 0)), (1/8 : K) * dot (c 1 - c 0) (cross (c 3 - c 0) (c 4 - c 0)), (1/8 : K) * dot (c 1 - c 0) (cross (c 3 - c 0) (c 4 - c 0)), (1/8 : K) * dot (c 1 - c 0) (cross (c 3 - c 0) (c 4 - c 0))] := by
  rcases h with ⟨h2, h5, h7, h6⟩
  simp only [hexScv, hexScvTable, List.map_cons, List.map_nil, hexVolumeGrandy_eq, bhexVolumeGrandy_eq, octVolume_eq, pyrTipRow, pick, List.cons_append, List.nil_append,
    List.getD_cons_zero, List.getD_cons_succ, hexPts, mid2, mid3, mid4, cross, F, T, quadFlux, triFlux, dot, h2, h5, h7, h6]
  generalize c 0 = p0
  generalize c 1 = p1
  generalize c 3 = p3
  generalize c 4 = p4
  obtain ⟨x0, y0, z0⟩ := p0
  obtain ⟨x1, y1, z1⟩ := p1
  obtain ⟨x3, y3, z3⟩ := p3
  obtain ⟨x4, y4, z4⟩ := p4
  simp only [Prod.smul_mk, Prod.mk_add_mk, Prod.mk_sub_mk, smul_eq_mul, Prod.neg_mk, List.cons.injEq, and_true]
  refine ⟨?_, ?_, ?_, ?_, ?_, ?_, ?_, ?_⟩ <;> ring

set_option maxHeartbeats 4000000 in
theorem hex_exact (eps : K) (c : ℕ → V3 K) (a : K) (g : V3 K) (h : Affine .hex c) : LocalExact eps .hex c a g := by
  intro n hn
  simp only [Topo.nn] at hn
  obtain ⟨A, hA⟩ : ∃ A, A = cross (c 3 - c 0) (c 4 - c 0) := ⟨_, rfl⟩
  obtain ⟨B, hB⟩ : ∃ B, B = cross (c 4 - c 0) (c 1 - c 0) := ⟨_, rfl⟩
  obtain ⟨C, hC⟩ : ∃ C, C = cross (c 1 - c 0) (c 3 - c 0) := ⟨_, rfl⟩
  obtain ⟨s, hs⟩ : ∃ s, s = dot g (c 0) := ⟨_, rfl⟩
  obtain ⟨gu, hu⟩ : ∃ s, s = dot g (c 1 - c 0) := ⟨_, rfl⟩
  obtain ⟨gv, hv⟩ : ∃ s, s = dot g (c 3 - c 0) := ⟨_, rfl⟩
  obtain ⟨gw, hw⟩ : ∃ s, s = dot g (c 4 - c 0) := ⟨_, rfl⟩
  have hscs := hexScs_affine c h A B C hA hB hC
  have hscv := hexScv_affine c h
  obtain ⟨e0, e1, e2, e3, e4, e5⟩ := hexFace_affine c h A B C hA hB hC
  have key := triple_expand g (c 1 - c 0) (c 3 - c 0) (c 4 - c 0)
  rw [← hA, ← hB, ← hC, ← hu, ← hv, ← hw] at key
  rw [← hA] at hscv
  obtain ⟨V, hV⟩ : ∃ V, V = dot (c 1 - c 0) A := ⟨_, rfl⟩
  rw [← hV] at key hscv
  rcases h with ⟨h2, h5, h7, h6⟩
  have d0 : dot g (c 0) = s + 0 := by
    subst hs hu hv hw
    simp only [dot, h2, h5, h7, h6, Prod.fst_add, Prod.snd_add, Prod.fst_sub, Prod.snd_sub]; ring
  have d1 : dot g (c 1) = s + gu := by
    subst hs hu hv hw
    simp only [dot, h2, h5, h7, h6, Prod.fst_add, Prod.snd_add, Prod.fst_sub, Prod.snd_sub]; ring
  have d2 : dot g (c 2) = s + gu + gv := by
    subst hs hu hv hw
    simp only [dot, h2, h5, h7, h6, Prod.fst_add, Prod.snd_add, Prod.fst_sub, Prod.snd_sub]; ring
  have d3 : dot g (c 3) = s + gv := by
    subst hs hu hv hw
    simp only [dot, h2, h5, h7, h6, Prod.fst_add, Prod.snd_add, Prod.fst_sub, Prod.snd_sub]; ring
  have d4 : dot g (c 4) = s + gw := by
    subst hs hu hv hw
    simp only [dot, h2, h5, h7, h6, Prod.fst_add, Prod.snd_add, Prod.fst_sub, Prod.snd_sub]; ring
  have d5 : dot g (c 5) = s + gu + gw := by
    subst hs hu hv hw
    simp only [dot, h2, h5, h7, h6, Prod.fst_add, Prod.snd_add, Prod.fst_sub, Prod.snd_sub]; ring
  have d6 : dot g (c 6) = s + gu + gv + gw := by
    subst hs hu hv hw
    simp only [dot, h2, h5, h7, h6, Prod.fst_add, Prod.snd_add, Prod.fst_sub, Prod.snd_sub]; ring
  have d7 : dot g (c 7) = s + gv + gw := by
    subst hs hu hv hw
    simp only [dot, h2, h5, h7, h6, Prod.fst_add, Prod.snd_add, Prod.fst_sub, Prod.snd_sub]; ring
  clear hA hB hC hs hu hv hw hV
  interval_cases n <;>
  (simp [Topo.nn, Topo.shape, Topo.scs, Topo.lr, Topo.sides, Topo.scv, scatterScs, hexLr, hexSides, scatterFace,
      ipFlux, ipVals, hexShape_rows, quadFace_rows, range8, hscs, hscv, e0, e1, e2, e3, e4, e5, d0, d1, d2, d3, d4, d5, d6, d7, mul_smul, key]
   module)

set_option maxHeartbeats 4000000 in
theorem wedScs_affine (c : ℕ → V3 K) (h : Affine .wed c) (A B C : V3 K) (hA : A = cross (c 2 - c 0) (c 3 - c 0)) (hB : B = cross (c 3 - c 0) (c 1 - c 0)) (hC : C = cross (c 1 - c 0) (c 2 - c 0)) :
    wedScs c = [(1/6 : K) • A + (1/12 : K) • B + (0 : K) • C,
      (-(1/12) : K) • A + (1/12 : K) • B + (0 : K) • C,
      (1/12 : K) • A + (1/6 : K) • B + (0 : K) • C,
      (1/6 : K) • A + (1/12 : K) • B + (0 : K) • C,
      (-(1/12) : K) • A + (1/12 : K) • B + (0 : K) • C,
      (1/12 : K) • A + (1/6 : K) • B + (0 : K) • C,
      (0 : K) • A + (0 : K) • B + (1/6 : K) • C,
      (0 : K) • A + (0 : K) • B + (1/6 : K) • C,
      (0 : K) • A + (0 : K) • B + (1/6 : K) • C] := by
  rcases h with ⟨h4, h5⟩
  subst hA hB hC
  simp only [wedScs, scsAreas, wedScsTable, List.map_cons, List.map_nil, wedPts, quadArea_eq, mid2, mid3, mid4, cross, h4, h5]
  generalize c 0 = p0
  generalize c 1 = p1
  generalize c 2 = p2
  generalize c 3 = p3
  obtain ⟨x0, y0, z0⟩ := p0
  obtain ⟨x1, y1, z1⟩ := p1
  obtain ⟨x2, y2, z2⟩ := p2
  obtain ⟨x3, y3, z3⟩ := p3
  simp only [Prod.smul_mk, Prod.mk_add_mk, Prod.mk_sub_mk, smul_eq_mul, Prod.neg_mk, List.cons.injEq, Prod.mk.injEq, and_true]
  refine ⟨⟨?_, ?_, ?_⟩, ⟨?_, ?_, ?_⟩, ⟨?_, ?_, ?_⟩, ⟨?_, ?_, ?_⟩, ⟨?_, ?_, ?_⟩, ⟨?_, ?_, ?_⟩, ⟨?_, ?_, ?_⟩, ⟨?_, ?_, ?_⟩, ⟨?_, ?_, ?_⟩⟩ <;> ring

set_option maxHeartbeats 4000000 in
theorem wedFace_affine (c : ℕ → V3 K) (h : Affine .wed c) (A B C : V3 K) (hA : A = cross (c 2 - c 0) (c 3 - c 0)) (hB : B = cross (c 3 - c 0) (c 1 - c 0)) (hC : C = cross (c 1 - c 0) (c 2 - c 0)) :
    faceAreas c [0, 1, 4, 3] = [(0 : K) • A + (-(1/4) : K) • B + (0 : K) • C, (0 : K) • A + (-(1/4) : K) • B + (0 : K) • C, (0 : K) • A + (-(1/4) : K) • B + (0 : K) • C, (0 : K) • A + (-(1/4) : K) • B + (0 : K) • C] ∧
    faceAreas c [1, 2, 5, 4] = [(1/4 : K) • A + (1/4 : K) • B + (0 : K) • C, (1/4 : K) • A + (1/4 : K) • B + (0 : K) • C, (1/4 : K) • A + (1/4 : K) • B + (0 : K) • C, (1/4 : K) • A + (1/4 : K) • B + (0 : K) • C] ∧
    faceAreas c [0, 3, 5, 2] = [(-(1/4) : K) • A + (0 : K) • B + (0 : K) • C, (-(1/4) : K) • A + (0 : K) • B + (0 : K) • C, (-(1/4) : K) • A + (0 : K) • B + (0 : K) • C, (-(1/4) : K) • A + (0 : K) • B + (0 : K) • C] ∧
    faceAreas c [0, 2, 1] = [(0 : K) • A + (0 : K) • B + (-(1/6) : K) • C, (0 : K) • A + (0 : K) • B + (-(1/6) : K) • C, (0 : K) • A + (0 : K) • B + (-(1/6) : K) • C] ∧
    faceAreas c [3, 4, 5] = [(0 : K) • A + (0 : K) • B + (1/6 : K) • C, (0 : K) • A + (0 : K) • B + (1/6 : K) • C, (0 : K) • A + (0 : K) • B + (1/6 : K) • C] := by
  rcases h with ⟨h4, h5⟩
  subst hA hB hC
  simp only [faceAreas, quad3dAreas, tri3dAreas, subFaceArea, mid2, mid3, mid4, cross, h4, h5]
  generalize c 0 = p0
  generalize c 1 = p1
  generalize c 2 = p2
  generalize c 3 = p3
  obtain ⟨x0, y0, z0⟩ := p0
  obtain ⟨x1, y1, z1⟩ := p1
  obtain ⟨x2, y2, z2⟩ := p2
  obtain ⟨x3, y3, z3⟩ := p3
  simp only [Prod.smul_mk, Prod.mk_add_mk, Prod.mk_sub_mk, smul_eq_mul, Prod.neg_mk, List.cons.injEq, Prod.mk.injEq, and_true]
  refine ⟨⟨⟨?_, ?_, ?_⟩, ⟨?_, ?_, ?_⟩, ⟨?_, ?_, ?_⟩, ⟨?_, ?_, ?_⟩⟩, ⟨⟨?_, ?_, ?_⟩, ⟨?_, ?_, ?_⟩, ⟨?_, ?_, ?_⟩, ⟨?_, ?_, ?_⟩⟩, ⟨⟨?_, ?_, ?_⟩, ⟨?_, ?_, ?_⟩, ⟨?_, ?_, ?_⟩, ⟨?_, ?_, ?_⟩⟩, ⟨⟨?_, ?_, ?_⟩, ⟨?_, ?_, ?_⟩, ⟨?_, ?_, ?_⟩⟩, ⟨⟨?_, ?_, ?_⟩, ⟨?_, ?_, ?_⟩, ⟨?_, ?_, ?_⟩⟩⟩ <;> ring

set_option maxHeartbeats 4000000 in
theorem wedScv_affine (c : ℕ → V3 K) (h : Affine .wed c) :
    wedScv c = [(1/12 : K) * dot (c 1 - c 0) (cross (c 2 - c 0) (c 3 - c 0)), (1/12 : K) * dot (c 1 - c 0) (cross (c 2 - c 0) (c 3 - c 0)), (1/12 : K) * dot (c 1 - c 0) (cross (c 2 - c 0) (c 3 - c 0)), (1/12 : K) * dot (c 1 - c 0) (cross (c 2 - c 0) (c 3 - c 0)), (1/12 : K) * dot (c 1 - c 0) (cross (c 2 - c 0) (c 3 - c 0)), (1/12 : K) * dot (c 1 - c 0) (cross (c 2 - c 0) (c 3 - c 0))] := by
  rcases h with ⟨h4, h5⟩
  simp only [wedScv, wedScvTable, List.map_cons, List.map_nil, hexVolumeGrandy_eq, bhexVolumeGrandy_eq, octVolume_eq, pyrTipRow, pick, List.cons_append, List.nil_append,
    List.getD_cons_zero, List.getD_cons_succ, wedPts, mid2, mid3, mid4, cross, F, T, quadFlux, triFlux, dot, h4, h5]
  generalize c 0 = p0
  generalize c 1 = p1
  generalize c 2 = p2
  generalize c 3 = p3
  obtain ⟨x0, y0, z0⟩ := p0
  obtain ⟨x1, y1, z1⟩ := p1
  obtain ⟨x2, y2, z2⟩ := p2
  obtain ⟨x3, y3, z3⟩ := p3
  simp only [Prod.smul_mk, Prod.mk_add_mk, Prod.mk_sub_mk, smul_eq_mul, Prod.neg_mk, List.cons.injEq, and_true]
  refine ⟨?_, ?_, ?_, ?_, ?_, ?_⟩ <;> ring

set_option maxHeartbeats 4000000 in
theorem wed_exact (eps : K) (c : ℕ → V3 K) (a : K) (g : V3 K) (h : Affine .wed c) : LocalExact eps .wed c a g := by
  intro n hn
  simp only [Topo.nn] at hn
  obtain ⟨A, hA⟩ : ∃ A, A = cross (c 2 - c 0) (c 3 - c 0) := ⟨_, rfl⟩
  obtain ⟨B, hB⟩ : ∃ B, B = cross (c 3 - c 0) (c 1 - c 0) := ⟨_, rfl⟩
  obtain ⟨C, hC⟩ : ∃ C, C = cross (c 1 - c 0) (c 2 - c 0) := ⟨_, rfl⟩
  obtain ⟨s, hs⟩ : ∃ s, s = dot g (c 0) := ⟨_, rfl⟩
  obtain ⟨gu, hu⟩ : ∃ s, s = dot g (c 1 - c 0) := ⟨_, rfl⟩
  obtain ⟨gv, hv⟩ : ∃ s, s = dot g (c 2 - c 0) := ⟨_, rfl⟩
  obtain ⟨gw, hw⟩ : ∃ s, s = dot g (c 3 - c 0) := ⟨_, rfl⟩
  have hscs := wedScs_affine c h A B C hA hB hC
  have hscv := wedScv_affine c h
  obtain ⟨e0, e1, e2, e3, e4⟩ := wedFace_affine c h A B C hA hB hC
  have key := triple_expand g (c 1 - c 0) (c 2 - c 0) (c 3 - c 0)
  rw [← hA, ← hB, ← hC, ← hu, ← hv, ← hw] at key
  rw [← hA] at hscv
  obtain ⟨V, hV⟩ : ∃ V, V = dot (c 1 - c 0) A := ⟨_, rfl⟩
  rw [← hV] at key hscv
  rcases h with ⟨h4, h5⟩
  have d0 : dot g (c 0) = s + 0 := by
    subst hs hu hv hw
    simp only [dot, h4, h5, Prod.fst_add, Prod.snd_add, Prod.fst_sub, Prod.snd_sub]; ring
  have d1 : dot g (c 1) = s + gu := by
    subst hs hu hv hw
    simp only [dot, h4, h5, Prod.fst_add, Prod.snd_add, Prod.fst_sub, Prod.snd_sub]; ring
  have d2 : dot g (c 2) = s + gv := by
    subst hs hu hv hw
    simp only [dot, h4, h5, Prod.fst_add, Prod.snd_add, Prod.fst_sub, Prod.snd_sub]; ring
  have d3 : dot g (c 3) = s + gw := by
    subst hs hu hv hw
    simp only [dot, h4, h5, Prod.fst_add, Prod.snd_add, Prod.fst_sub, Prod.snd_sub]; ring
  have d4 : dot g (c 4) = s + gu + gw := by
    subst hs hu hv hw
    simp only [dot, h4, h5, Prod.fst_add, Prod.snd_add, Prod.fst_sub, Prod.snd_sub]; ring
  have d5 : dot g (c 5) = s + gv + gw := by
    subst hs hu hv hw
    simp only [dot, h4, h5, Prod.fst_add, Prod.snd_add, Prod.fst_sub, Prod.snd_sub]; ring
  clear hA hB hC hs hu hv hw hV
  interval_cases n <;>
  (simp [Topo.nn, Topo.shape, Topo.scs, Topo.lr, Topo.sides, Topo.scv, scatterScs, wedLr, wedSides, scatterFace,
      ipFlux, ipVals, wedShape_rows, quadFace_rows, triFace_rows, range6, hscs, hscv, e0, e1, e2, e3, e4, d0, d1, d2, d3, d4, d5, mul_smul, key]
   module)


theorem pyrClamp_eq (eps t : K) (h : eps < 1 - t) (h0 : 0 < 1 - t) : Verif.Shape.pyrClamp eps t = t := by
  simp only [Verif.Shape.pyrClamp]
  rw [if_pos (by rwa [abs_of_pos h0])]

theorem pyrShape_rows (eps : K) (he0 : 0 < eps) (he1 : eps < 1 / 10) : pyrScsShape eps =
    [[419/1260, 419/1260, 43/420, 43/420, 41/315],
      [43/420, 419/1260, 419/1260, 43/420, 41/315],
      [43/420, 43/420, 419/1260, 419/1260, 41/315],
      [419/1260, 43/420, 43/420, 419/1260, 41/315],
      [49/160, 77/480, 121/1440, 77/480, 13/45],
      [9/22, 1/11, 2/99, 1/11, 7/18],
      [77/480, 49/160, 77/480, 121/1440, 13/45],
      [1/11, 9/22, 1/11, 2/99, 7/18],
      [121/1440, 77/480, 49/160, 77/480, 13/45],
      [2/99, 1/11, 9/22, 1/11, 7/18],
      [77/480, 121/1440, 77/480, 49/160, 13/45],
      [1/11, 2/99, 1/11, 9/22, 7/18]] := by
  have c1 : Verif.Shape.pyrClamp eps (41 / 315 : K) = 41 / 315 := pyrClamp_eq _ _ (by linarith) (by norm_num)
  have c2 : Verif.Shape.pyrClamp eps (13 / 45 : K) = 13 / 45 := pyrClamp_eq _ _ (by linarith) (by norm_num)
  have c3 : Verif.Shape.pyrClamp eps (7 / 18 : K) = 7 / 18 := pyrClamp_eq _ _ (by linarith) (by norm_num)
  simp [pyrScsShape, List.ofFn_succ, Verif.Shape.pyrShape, c1, c2, c3]
  norm_num

set_option maxHeartbeats 4000000 in
theorem pyrScs_affine (c : ℕ → V3 K) (h : Affine .pyr c) (A B C : V3 K) (hA : A = cross (c 3 - c 0) (c 4 - c 0)) (hB : B = cross (c 4 - c 0) (c 1 - c 0)) (hC : C = cross (c 1 - c 0) (c 3 - c 0)) :
    pyrScs c = [(7/60 : K) • A + (0 : K) • B + (7/120 : K) • C,
      (0 : K) • A + (7/60 : K) • B + (7/120 : K) • C,
      (-(7/60) : K) • A + (0 : K) • B + (-(7/120) : K) • C,
      (0 : K) • A + (7/60 : K) • B + (7/120 : K) • C,
      (1/45 : K) • A + (1/45 : K) • B + (7/90 : K) • C,
      (1/36 : K) • A + (1/36 : K) • B + (1/18 : K) • C,
      (-(1/45) : K) • A + (1/45 : K) • B + (1/18 : K) • C,
      (-(1/36) : K) • A + (1/36 : K) • B + (1/36 : K) • C,
      (-(1/45) : K) • A + (-(1/45) : K) • B + (1/30 : K) • C,
      (-(1/36) : K) • A + (-(1/36) : K) • B + (0 : K) • C,
      (1/45 : K) • A + (-(1/45) : K) • B + (1/18 : K) • C,
      (1/36 : K) • A + (-(1/36) : K) • B + (1/36 : K) • C] := by
  have h2 : c 2 = c 1 + c 3 - c 0 := h
  subst hA hB hC
  simp only [pyrScs, scsAreas, pyrScsTable, List.map_cons, List.map_nil, pyrPts, quadArea_eq, mid2, mid3, mid4, cross, h2]
  generalize c 0 = p0
  generalize c 1 = p1
  generalize c 3 = p3
  generalize c 4 = p4
  obtain ⟨x0, y0, z0⟩ := p0
  obtain ⟨x1, y1, z1⟩ := p1
  obtain ⟨x3, y3, z3⟩ := p3
  obtain ⟨x4, y4, z4⟩ := p4
  simp only [Prod.smul_mk, Prod.mk_add_mk, Prod.mk_sub_mk, smul_eq_mul, Prod.neg_mk, List.cons.injEq, Prod.mk.injEq, and_true]
  refine ⟨⟨?_, ?_, ?_⟩, ⟨?_, ?_, ?_⟩, ⟨?_, ?_, ?_⟩, ⟨?_, ?_, ?_⟩, ⟨?_, ?_, ?_⟩, ⟨?_, ?_, ?_⟩, ⟨?_, ?_, ?_⟩, ⟨?_, ?_, ?_⟩, ⟨?_, ?_, ?_⟩, ⟨?_, ?_, ?_⟩, ⟨?_, ?_, ?_⟩, ⟨?_, ?_, ?_⟩⟩ <;> ring

set_option maxHeartbeats 4000000 in
theorem pyrFace_affine (c : ℕ → V3 K) (h : Affine .pyr c) (A B C : V3 K) (hA : A = cross (c 3 - c 0) (c 4 - c 0)) (hB : B = cross (c 4 - c 0) (c 1 - c 0)) (hC : C = cross (c 1 - c 0) (c 3 - c 0)) :
    faceAreas c [0, 1, 4] = [(0 : K) • A + (-(1/6) : K) • B + (0 : K) • C, (0 : K) • A + (-(1/6) : K) • B + (0 : K) • C, (0 : K) • A + (-(1/6) : K) • B + (0 : K) • C] ∧
    faceAreas c [1, 2, 4] = [(1/6 : K) • A + (0 : K) • B + (1/6 : K) • C, (1/6 : K) • A + (0 : K) • B + (1/6 : K) • C, (1/6 : K) • A + (0 : K) • B + (1/6 : K) • C] ∧
    faceAreas c [2, 3, 4] = [(0 : K) • A + (1/6 : K) • B + (1/6 : K) • C, (0 : K) • A + (1/6 : K) • B + (1/6 : K) • C, (0 : K) • A + (1/6 : K) • B + (1/6 : K) • C] ∧
    faceAreas c [0, 4, 3] = [(-(1/6) : K) • A + (0 : K) • B + (0 : K) • C, (-(1/6) : K) • A + (0 : K) • B + (0 : K) • C, (-(1/6) : K) • A + (0 : K) • B + (0 : K) • C] ∧
    faceAreas c [0, 3, 2, 1] = [(0 : K) • A + (0 : K) • B + (-(1/4) : K) • C, (0 : K) • A + (0 : K) • B + (-(1/4) : K) • C, (0 : K) • A + (0 : K) • B + (-(1/4) : K) • C, (0 : K) • A + (0 : K) • B + (-(1/4) : K) • C] := by
  have h2 : c 2 = c 1 + c 3 - c 0 := h
  subst hA hB hC
  simp only [faceAreas, quad3dAreas, tri3dAreas, subFaceArea, mid2, mid3, mid4, cross, h2]
  generalize c 0 = p0
  generalize c 1 = p1
  generalize c 3 = p3
  generalize c 4 = p4
  obtain ⟨x0, y0, z0⟩ := p0
  obtain ⟨x1, y1, z1⟩ := p1
  obtain ⟨x3, y3, z3⟩ := p3
  obtain ⟨x4, y4, z4⟩ := p4
  simp only [Prod.smul_mk, Prod.mk_add_mk, Prod.mk_sub_mk, smul_eq_mul, Prod.neg_mk, List.cons.injEq, Prod.mk.injEq, and_true]
  refine ⟨⟨⟨?_, ?_, ?_⟩, ⟨?_, ?_, ?_⟩, ⟨?_, ?_, ?_⟩⟩, ⟨⟨?_, ?_, ?_⟩, ⟨?_, ?_, ?_⟩, ⟨?_, ?_, ?_⟩⟩, ⟨⟨?_, ?_, ?_⟩, ⟨?_, ?_, ?_⟩, ⟨?_, ?_, ?_⟩⟩, ⟨⟨?_, ?_, ?_⟩, ⟨?_, ?_, ?_⟩, ⟨?_, ?_, ?_⟩⟩, ⟨⟨?_, ?_, ?_⟩, ⟨?_, ?_, ?_⟩, ⟨?_, ?_, ?_⟩, ⟨?_, ?_, ?_⟩⟩⟩ <;> ring

set_option maxHeartbeats 4000000 in
theorem pyrScv_affine (c : ℕ → V3 K) (h : Affine .pyr c) :
    pyrScv c = [(8/135 : K) * dot (c 1 - c 0) (cross (c 3 - c 0) (c 4 - c 0)), (8/135 : K) * dot (c 1 - c 0) (cross (c 3 - c 0) (c 4 - c 0)), (8/135 : K) * dot (c 1 - c 0) (cross (c 3 - c 0) (c 4 - c 0)), (8/135 : K) * dot (c 1 - c 0) (cross (c 3 - c 0) (c 4 - c 0)), (13/135 : K) * dot (c 1 - c 0) (cross (c 3 - c 0) (c 4 - c 0))] := by
  have h2 : c 2 = c 1 + c 3 - c 0 := h
  simp only [pyrScv, pyrScvTable, List.map_cons, List.map_nil, hexVolumeGrandy_eq, bhexVolumeGrandy_eq, octVolume_eq, pyrTipRow, pick, List.cons_append, List.nil_append,
    List.getD_cons_zero, List.getD_cons_succ, pyrPts, mid2, mid3, mid4, cross, F, T, quadFlux, triFlux, dot, h2]
  generalize c 0 = p0
  generalize c 1 = p1
  generalize c 3 = p3
  generalize c 4 = p4
  obtain ⟨x0, y0, z0⟩ := p0
  obtain ⟨x1, y1, z1⟩ := p1
  obtain ⟨x3, y3, z3⟩ := p3
  obtain ⟨x4, y4, z4⟩ := p4
  simp only [Prod.smul_mk, Prod.mk_add_mk, Prod.mk_sub_mk, smul_eq_mul, Prod.neg_mk, List.cons.injEq, and_true]
  refine ⟨?_, ?_, ?_, ?_, ?_⟩ <;> ring

set_option maxHeartbeats 4000000 in
theorem pyr_exact (eps : K) (he0 : 0 < eps) (he1 : eps < 1 / 10) (c : ℕ → V3 K) (a : K) (g : V3 K) (h : Affine .pyr c) : LocalExact eps .pyr c a g := by
  intro n hn
  simp only [Topo.nn] at hn
  obtain ⟨A, hA⟩ : ∃ A, A = cross (c 3 - c 0) (c 4 - c 0) := ⟨_, rfl⟩
  obtain ⟨B, hB⟩ : ∃ B, B = cross (c 4 - c 0) (c 1 - c 0) := ⟨_, rfl⟩
  obtain ⟨C, hC⟩ : ∃ C, C = cross (c 1 - c 0) (c 3 - c 0) := ⟨_, rfl⟩
  obtain ⟨s, hs⟩ : ∃ s, s = dot g (c 0) := ⟨_, rfl⟩
  obtain ⟨gu, hu⟩ : ∃ s, s = dot g (c 1 - c 0) := ⟨_, rfl⟩
  obtain ⟨gv, hv⟩ : ∃ s, s = dot g (c 3 - c 0) := ⟨_, rfl⟩
  obtain ⟨gw, hw⟩ : ∃ s, s = dot g (c 4 - c 0) := ⟨_, rfl⟩
  have hscs := pyrScs_affine c h A B C hA hB hC
  have hscv := pyrScv_affine c h
  obtain ⟨e0, e1, e2, e3, e4⟩ := pyrFace_affine c h A B C hA hB hC
  have key := triple_expand g (c 1 - c 0) (c 3 - c 0) (c 4 - c 0)
  rw [← hA, ← hB, ← hC, ← hu, ← hv, ← hw] at key
  rw [← hA] at hscv
  obtain ⟨V, hV⟩ : ∃ V, V = dot (c 1 - c 0) A := ⟨_, rfl⟩
  rw [← hV] at key hscv
  have h2 : c 2 = c 1 + c 3 - c 0 := h
  have d0 : dot g (c 0) = s + 0 := by
    subst hs hu hv hw
    simp only [dot, h2, Prod.fst_add, Prod.snd_add, Prod.fst_sub, Prod.snd_sub]; ring
  have d1 : dot g (c 1) = s + gu := by
    subst hs hu hv hw
    simp only [dot, h2, Prod.fst_add, Prod.snd_add, Prod.fst_sub, Prod.snd_sub]; ring
  have d2 : dot g (c 2) = s + gu + gv := by
    subst hs hu hv hw
    simp only [dot, h2, Prod.fst_add, Prod.snd_add, Prod.fst_sub, Prod.snd_sub]; ring
  have d3 : dot g (c 3) = s + gv := by
    subst hs hu hv hw
    simp only [dot, h2, Prod.fst_add, Prod.snd_add, Prod.fst_sub, Prod.snd_sub]; ring
  have d4 : dot g (c 4) = s + gw := by
    subst hs hu hv hw
    simp only [dot, h2, Prod.fst_add, Prod.snd_add, Prod.fst_sub, Prod.snd_sub]; ring
  clear hA hB hC hs hu hv hw hV
  interval_cases n <;>
  (simp [Topo.nn, Topo.shape, Topo.scs, Topo.lr, Topo.sides, Topo.scv, scatterScs, pyrLr, pyrSides, scatterFace,
      ipFlux, ipVals, pyrShape_rows eps he0 he1, quadFace_rows, triFace_rows, range5, hscs, hscv, e0, e1, e2, e3, e4, d0, d1, d2, d3, d4, mul_smul, key]
   module)

end
end Verif.ElemGeom
