import Verif.Proofs.ElemGrad2

set_option linter.unusedSectionVars false
set_option linter.unusedSimpArgs false
set_option linter.unusedVariables false
set_option linter.style.multiGoal false

namespace Verif.ElemGeom

section
variable {K : Type*} [Field K] [LinearOrder K] [IsStrictOrderedRing K]

theorem quad2dRows : quad2dScsShape (K := K) = [[3/8, 3/8, 1/8, 1/8], [1/8, 3/8, 3/8, 1/8], [1/8, 1/8, 3/8, 3/8], [3/8, 1/8, 1/8, 3/8]] := by
  simp [quad2dScsShape, List.ofFn_succ, Verif.Shape.quadShape]
  norm_num

theorem tri2dRows : tri2dScsShape (K := K) = [[5/12, 5/12, 1/6], [1/6, 5/12, 5/12], [5/12, 1/6, 5/12]] := by
  simp [tri2dScsShape, List.ofFn_succ, Verif.Shape.triShape]
  norm_num

theorem edge2dRows : edge2dShape (K := K) = [[3/4, 1/4], [1/4, 3/4]] := by
  simp [edge2dShape]
  norm_num

/-- The local identity of a plane element. -/
def LocalExact2 (gq gt : K) (t : Topo2) (c : ℕ → K × K) (a : K) (g : K × K) : Prop :=
  ∀ n < t.nn, scatterScs (ipFlux t.shape ((List.range t.nn).map fun k => a + dot2 g (c k)) (t.scs c)) t.lr n
      + (t.sides.map fun s => scatterFace (ipFlux edge2dShape (s.map fun k => a + dot2 g (c k)) (sideAreas c s)) s n).sum
    = scatterFace (t.scv gq gt c) (List.range t.nn) n • g

theorem range3 : List.range 3 = [0, 1, 2] := by decide

set_option maxHeartbeats 4000000 in
theorem plane_exact (gq gt : K) (t : Topo2) (c : ℕ → K × K) (a : K) (g : K × K) : LocalExact2 gq gt t c a g := by
  intro n hn
  obtain ⟨g1, g2⟩ := g
  cases t
  · simp only [Topo2.nn] at hn
    interval_cases n <;>
    (simp [Topo2.nn, Topo2.shape, Topo2.scs, Topo2.lr, Topo2.sides, Topo2.scv, scatterScs, quad2dScs, quad2dScv, quad2dLr, quad2dSides, scatterFace,
        sideAreas, edge2dAreas, ipFlux, ipVals, quad2dRows, edge2dRows, range4, quadDetJ, dot2]
     generalize c 0 = p0
     generalize c 1 = p1
     generalize c 2 = p2
     generalize c 3 = p3
     obtain ⟨x0, y0⟩ := p0
     obtain ⟨x1, y1⟩ := p1
     obtain ⟨x2, y2⟩ := p2
     obtain ⟨x3, y3⟩ := p3
     simp only []
     refine ⟨?_, ?_⟩ <;> ring)
  · simp only [Topo2.nn] at hn
    interval_cases n <;>
    (simp [Topo2.nn, Topo2.shape, Topo2.scs, Topo2.lr, Topo2.sides, Topo2.scv, scatterScs, tri2dScs, tri2dScv, tri2dLr, tri2dSides, scatterFace,
        sideAreas, edge2dAreas, ipFlux, ipVals, tri2dRows, edge2dRows, range3, quadDetJ, dot2]
     generalize c 0 = p0
     generalize c 1 = p1
     generalize c 2 = p2
     obtain ⟨x0, y0⟩ := p0
     obtain ⟨x1, y1⟩ := p1
     obtain ⟨x2, y2⟩ := p2
     simp only []
     refine ⟨?_, ?_⟩ <;> ring)

/-- One side without the division by the volume. -/
def sideFluxAt (X : ℕ → K × K) (q : ℕ → K) (f : List ℕ) (N : ℕ) : K × K := scatterFace (ipFlux edge2dShape (f.map q) (sideAreas X f)) f N

theorem sideFluxAt_rev (X : ℕ → K × K) (q : ℕ → K) (f : List ℕ) (N : ℕ) : sideFluxAt X q f N + sideFluxAt X q f.reverse N = 0 := by
  match f with
  | [] => simp [sideFluxAt, scatterFace, sideAreas, ipFlux]
  | [_] => simp [sideFluxAt, scatterFace, sideAreas, ipFlux]
  | [a, b] =>
    simp only [sideFluxAt, scatterFace, ipFlux, ipVals, edge2dRows, sideAreas, edge2dAreas, List.reverse_cons, List.reverse_nil, List.nil_append, List.cons_append,
      List.zip_cons_cons, List.zip_nil_left, List.zipWith_cons_cons,
      List.zipWith_nil_left, List.map_cons, List.map_nil, List.sum_cons, List.sum_nil]
    generalize X a = p
    generalize X b = r
    obtain ⟨x0, y0⟩ := p
    obtain ⟨x1, y1⟩ := r
    by_cases h1 : a = N <;> by_cases h2 : b = N <;> simp [h1, h2] <;> (constructor <;> ring)
  | a :: b :: c :: l =>
    have : ∀ l' : List ℕ, 3 ≤ l'.length → sideAreas X l' = [] := by
      intro l' hl
      match l' with
      | [] => simp at hl
      | [_] => simp at hl
      | [_, _] => simp at hl
      | _ :: _ :: _ :: _ => rfl
    simp only [sideFluxAt, this _ (show 3 ≤ (a :: b :: c :: l).length by simp), this _ (show 3 ≤ (a :: b :: c :: l).reverse.length by simp)]
    simp [scatterFace, ipFlux]

/-- One plane element without the division by the volume. -/
def Elem2.fluxAt (e : Elem2) (X : ℕ → K × K) (q : ℕ → K) (N : ℕ) : K × K :=
  scatterScs (ipFlux e.topo.shape ((List.range e.topo.nn).map fun n => q (e.conn n)) (e.topo.scs fun n => X (e.conn n)))
    (e.topo.lr.map fun p => (e.conn p.1, e.conn p.2)) N

theorem topo2_lr_lt (t : Topo2) : ∀ p ∈ t.lr, p.1 < t.nn ∧ p.2 < t.nn := by cases t <;> decide
theorem topo2_sides_lt (t : Topo2) : ∀ s ∈ t.sides, ∀ n ∈ s, n < t.nn := by cases t <;> decide

theorem sideAreas_map (X : ℕ → K × K) (f : ℕ → ℕ) (s : List ℕ) : sideAreas X (s.map f) = sideAreas (fun n => X (f n)) s := by
  match s with
  | [] => rfl
  | [_] => rfl
  | [_, _] => rfl
  | _ :: _ :: _ :: _ => rfl

theorem elem2_global (gq gt : K) (e : Elem2) (X : ℕ → K × K) (q : ℕ → K) (a : K) (g : K × K)
    (hq : ∀ k < e.topo.nn, q (e.conn k) = a + dot2 g (X (e.conn k))) (N : ℕ) :
    e.fluxAt X q N + (e.faces.map fun f => sideFluxAt X q f N).sum = e.volAt gq gt X N • g := by
  have := local_to_global e.conn e.topo.nn N _ e.topo.lr e.topo.sides _ _ g (topo2_lr_lt _) (topo2_sides_lt _)
    (plane_exact gq gt e.topo (fun n => X (e.conn n)) a g)
  rw [Elem2.fluxAt, Elem2.volAt, ← this, Elem2.faces, List.map_map]
  congr 1
  · congr 2
    apply List.map_congr_left
    intro n hn
    exact hq n (List.mem_range.1 hn)
  · congr 1
    apply List.map_congr_left
    intro s hs
    simp only [Function.comp, sideFluxAt, sideAreas_map, List.map_map]
    congr 2
    apply List.map_congr_left
    intro n hn
    exact hq n (topo2_sides_lt _ s hs n hn)

theorem mesh_exact2 (gq gt : K) (es : List Elem2) (bdry : List (List ℕ)) (X : ℕ → K × K) (q : ℕ → K) (a : K) (g : K × K) (N : ℕ)
    (hc : Conforming2 es bdry) (hq : ∀ e ∈ es, ∀ k < e.topo.nn, q (e.conn k) = a + dot2 g (X (e.conn k))) :
    (es.map fun e => e.fluxAt X q N).sum + (bdry.map fun f => sideFluxAt X q f N).sum = dualVol2 gq gt es X N • g := by
  obtain ⟨inner, perm⟩ := hc
  have e1 : ((es.flatMap Elem2.faces).map fun f => sideFluxAt X q f N).sum = (bdry.map fun f => sideFluxAt X q f N).sum := by
    rw [(perm.map _).sum_eq, List.map_append, List.sum_append, sum_flatMap inner]
    rw [show (inner.map fun p => ([p, p.reverse].map fun f => sideFluxAt X q f N).sum).sum = 0 from ?_, add_zero]
    apply List.sum_eq_zero
    intro x hx
    obtain ⟨p, hpp, rfl⟩ := List.mem_map.1 hx
    simpa using sideFluxAt_rev X q p N
  rw [← e1, sum_flatMap, ← sum_map_add, dualVol2, list_sum_smul, List.map_map]
  congr 1
  apply List.map_congr_left
  intro e he
  exact elem2_global gq gt e X q a g (hq e he) N

end
end Verif.ElemGeom
