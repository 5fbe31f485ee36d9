import Verif.Proofs.ElemGrad

set_option linter.unusedSectionVars false
set_option linter.unusedSimpArgs false
set_option linter.unusedVariables false
set_option linter.style.multiGoal false

namespace Verif.ElemGeom

section gen
variable {K : Type*} [Field K]
variable {V : Type*} [AddCommGroup V] [Module K V]

theorem list_sum_smul (l : List K) (g : V) : l.sum • g = (l.map fun x => x • g).sum := by
  induction l with
  | nil => simp
  | cons a l ih => simp [add_smul, ih]

theorem scatterScsVol_eq (vol : ℕ → K) (q : List V) (lr : List (ℕ × ℕ)) (N : ℕ) :
    scatterScsVol vol q lr N = (1 / vol N) • scatterScs q lr N := by
  unfold scatterScsVol scatterScs
  rw [List.smul_sum, List.map_map]
  congr 1
  apply List.map_congr_left
  intro p _
  simp only [Function.comp, smul_sub, smul_ite, smul_zero]
  congr 1 <;> split <;> simp_all

theorem scatterFaceVol_eq (vol : ℕ → K) (q : List V) (l : List ℕ) (N : ℕ) :
    scatterFaceVol vol q l N = (1 / vol N) • scatterFace q l N := by
  unfold scatterFaceVol scatterFace
  rw [List.smul_sum, List.map_map]
  congr 1
  apply List.map_congr_left
  intro p _
  simp only [Function.comp, smul_ite, smul_zero]
  split <;> simp_all

theorem scatterScs_mapV (f : ℕ → ℕ) (m : ℕ) (q : List V) (lr : List (ℕ × ℕ)) (N : ℕ)
    (h : ∀ p ∈ lr, p.1 < m ∧ p.2 < m) :
    scatterScs q (lr.map fun p => (f p.1, f p.2)) N
      = ((List.range m).map fun n => if f n = N then scatterScs q lr n else 0).sum := by
  induction lr generalizing q with
  | nil => simp [scatterScs]
  | cons p lr ih =>
    cases q with
    | nil => simp [scatterScs]
    | cons a q =>
      have hp := h p (by simp)
      have ih' := ih q fun x hx => h x (by simp [hx])
      simp only [scatterScs, List.map_cons, List.zip_cons_cons, List.sum_cons] at ih' ⊢
      rw [ih', ← sum_indicator f m N a p.1 hp.1, ← sum_indicator f m N a p.2 hp.2, sub_eq_add_neg, ← sum_map_neg, ← sum_map_add, ← sum_map_add]
      congr 1
      apply List.map_congr_left
      intro n _
      by_cases h1 : f n = N <;> simp [h1, sub_eq_add_neg]

theorem scatterFace_mapV (f : ℕ → ℕ) (m : ℕ) (q : List V) (l : List ℕ) (N : ℕ)
    (h : ∀ p ∈ l, p < m) :
    scatterFace q (l.map f) N
      = ((List.range m).map fun n => if f n = N then scatterFace q l n else 0).sum := by
  induction l generalizing q with
  | nil => simp [scatterFace]
  | cons p l ih =>
    cases q with
    | nil => simp [scatterFace]
    | cons a q =>
      have ih' := ih q fun x hx => h x (by simp [hx])
      simp only [scatterFace, List.map_cons, List.zip_cons_cons, List.sum_cons] at ih' ⊢
      rw [ih', ← sum_indicator f m N a p (h p (by simp)), ← sum_map_add]
      congr 1
      apply List.map_congr_left
      intro n _
      by_cases h1 : f n = N <;> simp [h1]

/-- From local nodes to a global node: an identity at every local node becomes one at every global node. -/
theorem local_to_global (f : ℕ → ℕ) (m N : ℕ) (scs : List V) (lr : List (ℕ × ℕ)) (sides : List (List ℕ)) (fl : List ℕ → List V)
    (vols : List K) (g : V)
    (hlr : ∀ p ∈ lr, p.1 < m ∧ p.2 < m) (hs : ∀ s ∈ sides, ∀ n ∈ s, n < m)
    (h : ∀ n < m, scatterScs scs lr n + (sides.map fun s => scatterFace (fl s) s n).sum = scatterFace vols (List.range m) n • g) :
    scatterScs scs (lr.map fun p => (f p.1, f p.2)) N + (sides.map fun s => scatterFace (fl s) (s.map f) N).sum
      = scatterFace vols ((List.range m).map f) N • g := by
  rw [scatterScs_mapV f m _ _ N hlr, scatterFace_mapV f m vols (List.range m) N (by simp)]
  have e : sides.map (fun s => scatterFace (fl s) (s.map f) N)
      = sides.map fun s => ((List.range m).map fun n => if f n = N then scatterFace (fl s) s n else 0).sum := by
    apply List.map_congr_left
    intro s hs'
    exact scatterFace_mapV f m _ _ N (hs s hs')
  rw [e, sum_sum_ite, ← sum_map_add, list_sum_smul, List.map_map]
  congr 1
  apply List.map_congr_left
  intro n hn
  simp only [Function.comp]
  by_cases h1 : f n = N
  · simp only [h1, if_true]; exact h n (List.mem_range.1 hn)
  · simp [h1]

end gen

/-! ## Three dimensions -/

section
variable {K : Type*} [Field K] [LinearOrder K] [IsStrictOrderedRing K]

theorem faceShape_map (f : ℕ → ℕ) (s : List ℕ) : faceShape (K := K) (s.map f) = faceShape s := by
  match s with
  | [] => rfl
  | [_] => rfl
  | [_, _] => rfl
  | [_, _, _] => rfl
  | [_, _, _, _] => rfl
  | _ :: _ :: _ :: _ :: _ :: _ => rfl

/-- One face without the division by the volume. -/
def faceFluxAt (X : ℕ → V3 K) (q : ℕ → K) (f : List ℕ) (N : ℕ) : V3 K := scatterFace (ipFlux (faceShape f) (f.map q) (faceAreas X f)) f N

theorem ipFlux3 (r1 r2 r3 q : List K) (A1 A2 A3 : V3 K) :
    ipFlux [r1, r2, r3] q [A1, A2, A3] = [(List.zipWith (· * ·) r1 q).sum • A1, (List.zipWith (· * ·) r2 q).sum • A2, (List.zipWith (· * ·) r3 q).sum • A3] := rfl

theorem faceFluxAt_rot3 (X : ℕ → V3 K) (q : ℕ → K) (a b c N : ℕ) : faceFluxAt X q [b, c, a] N = faceFluxAt X q [a, b, c] N := by
  have h : mid3 (X b) (X c) (X a) = mid3 (X a) (X b) (X c) := by
    simp only [mid3]; congr 1; abel
  have e1 : 11 / 18 * q b + (7 / 36 * q c + (7 / 36 * q a + 0)) = 7 / 36 * q a + (11 / 18 * q b + (7 / 36 * q c + 0)) := by ring
  have e2 : 7 / 36 * q b + (11 / 18 * q c + (7 / 36 * q a + 0)) = 7 / 36 * q a + (7 / 36 * q b + (11 / 18 * q c + 0)) := by ring
  have e3 : 7 / 36 * q b + (7 / 36 * q c + (11 / 18 * q a + 0)) = 11 / 18 * q a + (7 / 36 * q b + (7 / 36 * q c + 0)) := by ring
  simp only [faceFluxAt, scatterFace, ipFlux, ipVals, triFace_rows, faceAreas, tri3dAreas, h, List.zip_cons_cons, List.zip_nil_left, List.zipWith_cons_cons,
    List.zipWith_nil_left, List.map_cons, List.map_nil, List.sum_cons, List.sum_nil, e1, e2, e3]
  abel

theorem faceFluxAt_rev3 (X : ℕ → V3 K) (q : ℕ → K) (a b c N : ℕ) : faceFluxAt X q [c, b, a] N = -faceFluxAt X q [a, b, c] N := by
  have h : mid3 (X c) (X b) (X a) = mid3 (X a) (X b) (X c) := by
    simp only [mid3]; congr 1; abel
  have h1 : ∀ (p : Prop) [Decidable p] (v : V3 K), (if p then -v else 0) = -(if p then v else 0) := by
    intro p _ v; split <;> simp
  have e1 : 11 / 18 * q c + (7 / 36 * q b + (7 / 36 * q a + 0)) = 7 / 36 * q a + (7 / 36 * q b + (11 / 18 * q c + 0)) := by ring
  have e2 : 7 / 36 * q c + (11 / 18 * q b + (7 / 36 * q a + 0)) = 7 / 36 * q a + (11 / 18 * q b + (7 / 36 * q c + 0)) := by ring
  have e3 : 7 / 36 * q c + (7 / 36 * q b + (11 / 18 * q a + 0)) = 11 / 18 * q a + (7 / 36 * q b + (7 / 36 * q c + 0)) := by ring
  simp only [faceFluxAt, scatterFace, ipFlux, ipVals, triFace_rows, faceAreas, tri3dAreas, h, List.zip_cons_cons, List.zip_nil_left, List.zipWith_cons_cons,
    List.zipWith_nil_left, List.map_cons, List.map_nil, List.sum_cons, List.sum_nil, e1, e2, e3]
  rw [subFace_neg _ (X c), subFace_neg _ (X b), subFace_neg _ (X a)]
  simp only [smul_neg, h1, mid2_comm (X b) (X a), mid2_comm (X c) (X b), mid2_comm (X a) (X c)]
  abel

theorem faceFluxAt_rot4 (X : ℕ → V3 K) (q : ℕ → K) (a b c d N : ℕ) :
    faceFluxAt X q [b, c, d, a] N = faceFluxAt X q [a, b, c, d] N := by
  have h : mid4 (X b) (X c) (X d) (X a) = mid4 (X a) (X b) (X c) (X d) := by
    simp only [mid4]; congr 1; abel
  have e : ∀ w x y z : K, w * q b + (x * q c + (y * q d + (z * q a + 0))) = z * q a + (w * q b + (x * q c + (y * q d + 0))) := by intros; ring
  simp only [faceFluxAt, scatterFace, ipFlux, ipVals, quadFace_rows, faceAreas, quad3dAreas, h, List.zip_cons_cons, List.zip_nil_left, List.zipWith_cons_cons,
    List.zipWith_nil_left, List.map_cons, List.map_nil, List.sum_cons, List.sum_nil, e]
  abel

theorem faceFluxAt_rev4 (X : ℕ → V3 K) (q : ℕ → K) (a b c d N : ℕ) :
    faceFluxAt X q [d, c, b, a] N = -faceFluxAt X q [a, b, c, d] N := by
  have h : mid4 (X d) (X c) (X b) (X a) = mid4 (X a) (X b) (X c) (X d) := by
    simp only [mid4]; congr 1; abel
  have h1 : ∀ (p : Prop) [Decidable p] (v : V3 K), (if p then -v else 0) = -(if p then v else 0) := by
    intro p _ v; split <;> simp
  have e : ∀ w x y z : K, w * q d + (x * q c + (y * q b + (z * q a + 0))) = z * q a + (y * q b + (x * q c + (w * q d + 0))) := by intros; ring
  simp only [faceFluxAt, scatterFace, ipFlux, ipVals, quadFace_rows, faceAreas, quad3dAreas, h, List.zip_cons_cons, List.zip_nil_left, List.zipWith_cons_cons,
    List.zipWith_nil_left, List.map_cons, List.map_nil, List.sum_cons, List.sum_nil, e]
  rw [subFace_neg _ (X d), subFace_neg _ (X c), subFace_neg _ (X b), subFace_neg _ (X a)]
  simp only [smul_neg, h1, mid2_comm (X b) (X a), mid2_comm (X c) (X b), mid2_comm (X d) (X c),
    mid2_comm (X a) (X d)]
  abel

theorem faceFluxAt_long (X : ℕ → V3 K) (q : ℕ → K) (f : List ℕ) (N : ℕ) (h3 : f.length ≠ 3) (h4 : f.length ≠ 4) :
    faceFluxAt X q f N = 0 := by
  match f with
  | [] => simp [faceFluxAt, scatterFace, faceAreas, ipFlux]
  | [_] => simp [faceFluxAt, scatterFace, faceAreas, ipFlux]
  | [_, _] => simp [faceFluxAt, scatterFace, faceAreas, ipFlux]
  | [_, _, _] => simp at h3
  | [_, _, _, _] => simp at h4
  | _ :: _ :: _ :: _ :: _ :: _ => simp [faceFluxAt, scatterFace, faceAreas, ipFlux]

theorem faceFluxAt_opposite (X : ℕ → V3 K) (q : ℕ → K) (f g : List ℕ) (N : ℕ) (h : Opposite f g) :
    faceFluxAt X q f N + faceFluxAt X q g N = 0 := by
  obtain ⟨k, hk, rfl⟩ := isRotated_mem _ _ h
  by_cases h3 : f.length = 3
  · obtain ⟨a, b, c, rfl⟩ := List.length_eq_three.1 h3
    simp only [List.length_reverse, List.length_cons, List.length_nil] at hk
    have e := faceFluxAt_rev3 X q a b c N
    have r1 := faceFluxAt_rot3 X q c b a N
    have r2 := faceFluxAt_rot3 X q b a c N
    interval_cases k
    · rw [show [a, b, c].reverse.rotate 0 = [c, b, a] from by simp [List.rotate]]
      rw [e]; simp
    · rw [show [a, b, c].reverse.rotate 1 = [b, a, c] from by simp [List.rotate]]
      rw [r1, e]; simp
    · rw [show [a, b, c].reverse.rotate 2 = [a, c, b] from by simp [List.rotate]]
      rw [r2, r1, e]; simp
    · rw [show [a, b, c].reverse.rotate 3 = [c, b, a] from by simp [List.rotate]]
      rw [e]; simp
  · by_cases h4 : f.length = 4
    · match f, h4 with
      | [a, b, c, d], _ =>
        simp only [List.length_reverse, List.length_cons, List.length_nil] at hk
        have e := faceFluxAt_rev4 X q a b c d N
        have r1 := faceFluxAt_rot4 X q d c b a N
        have r2 := faceFluxAt_rot4 X q c b a d N
        have r3 := faceFluxAt_rot4 X q b a d c N
        interval_cases k
        · rw [show [a, b, c, d].reverse.rotate 0 = [d, c, b, a] from by simp [List.rotate]]
          rw [e]; simp
        · rw [show [a, b, c, d].reverse.rotate 1 = [c, b, a, d] from by simp [List.rotate]]
          rw [r1, e]; simp
        · rw [show [a, b, c, d].reverse.rotate 2 = [b, a, d, c] from by simp [List.rotate]]
          rw [r2, r1, e]; simp
        · rw [show [a, b, c, d].reverse.rotate 3 = [a, d, c, b] from by simp [List.rotate]]
          rw [r3, r2, r1, e]; simp
        · rw [show [a, b, c, d].reverse.rotate 4 = [d, c, b, a] from by simp [List.rotate]]
          rw [e]; simp
    · rw [faceFluxAt_long X q f N h3 h4, faceFluxAt_long X q _ N (by simpa using h3) (by simpa using h4), add_zero]

/-- Faces of a conforming mesh: the interior ones cancel. -/
theorem conforming_faces (es : List Elem) (bdry : List (List ℕ)) (X : ℕ → V3 K) (q : ℕ → K) (N : ℕ) (h : Conforming es bdry) :
    (es.map fun e => (e.faces.map fun f => faceFluxAt X q f N).sum).sum = (bdry.map fun f => faceFluxAt X q f N).sum := by
  obtain ⟨pairs, hp, perm⟩ := h
  rw [← sum_flatMap, (perm.map _).sum_eq, List.map_append, List.sum_append, sum_flatMap pairs]
  rw [show (pairs.map fun p => ([p.1, p.2].map fun f => faceFluxAt X q f N).sum).sum = 0 from ?_, add_zero]
  apply List.sum_eq_zero
  intro x hx
  obtain ⟨p, hpp, rfl⟩ := List.mem_map.1 hx
  simpa using faceFluxAt_opposite X q p.1 p.2 N (hp p hpp)

/-- One element without the division by the volume. -/
def Elem.fluxAt (eps : K) (e : Elem) (X : ℕ → V3 K) (q : ℕ → K) (N : ℕ) : V3 K :=
  scatterScs (ipFlux (e.topo.shape eps) ((List.range e.topo.nn).map fun n => q (e.conn n)) (e.topo.scs (e.coords X)))
    (e.topo.lr.map fun p => (e.conn p.1, e.conn p.2)) N

theorem topo_lr_lt (t : Topo) : ∀ p ∈ t.lr, p.1 < t.nn ∧ p.2 < t.nn := by cases t <;> decide
theorem topo_sides_lt (t : Topo) : ∀ s ∈ t.sides, ∀ n ∈ s, n < t.nn := by cases t <;> decide

/-- The element identity at a global node. -/
theorem elem_global (eps : K) (e : Elem) (X : ℕ → V3 K) (q : ℕ → K) (a : K) (g : V3 K) (hq : ∀ k < e.topo.nn, q (e.conn k) = a + dot g (X (e.conn k)))
    (h : LocalExact eps e.topo (e.coords X) a g) (N : ℕ) :
    e.fluxAt eps X q N + (e.faces.map fun f => faceFluxAt X q f N).sum = e.volAt X N • g := by
  have := local_to_global e.conn e.topo.nn N _ e.topo.lr e.topo.sides _ _ g (topo_lr_lt _) (topo_sides_lt _) h
  rw [Elem.fluxAt, Elem.volAt, ← this, Elem.faces, List.map_map]
  congr 1
  · congr 2
    apply List.map_congr_left
    intro n hn
    exact hq n (List.mem_range.1 hn)
  · congr 1
    apply List.map_congr_left
    intro s hs
    simp only [Function.comp, faceFluxAt, faceShape_map, faceAreas_map, List.map_map]
    congr 2
    apply List.map_congr_left
    intro n hn
    exact hq n (topo_sides_lt _ s hs n hn)

theorem gradAt_eq (eps : K) (vol : ℕ → K) (e : Elem) (X : ℕ → V3 K) (q : ℕ → K) (N : ℕ) :
    e.gradAt eps vol X q N = (1 / vol N) • e.fluxAt eps X q N := scatterScsVol_eq _ _ _ _

theorem faceGradAt_eq (vol : ℕ → K) (X : ℕ → V3 K) (q : ℕ → K) (f : List ℕ) (N : ℕ) :
    faceGradAt vol X q f N = (1 / vol N) • faceFluxAt X q f N := scatterFaceVol_eq _ _ _ _

/-- The mesh identity behind linear exactness. -/
theorem mesh_exact (eps : K) (es : List Elem) (bdry : List (List ℕ)) (X : ℕ → V3 K) (q : ℕ → K) (a : K) (g : V3 K) (N : ℕ) (hc : Conforming es bdry)
    (hq : ∀ e ∈ es, ∀ k < e.topo.nn, q (e.conn k) = a + dot g (X (e.conn k))) (h : ∀ e ∈ es, LocalExact eps e.topo (e.coords X) a g) :
    (es.map fun e => e.fluxAt eps X q N).sum + (bdry.map fun f => faceFluxAt X q f N).sum = dualVol es X N • g := by
  rw [← conforming_faces es bdry X q N hc, ← sum_map_add, dualVol, list_sum_smul, List.map_map]
  congr 1
  apply List.map_congr_left
  intro e he
  exact elem_global eps e X q a g (hq e he) (h e he) N

/-- Affine elements are exact. -/
theorem affine_exact (eps : K) (he0 : 0 < eps) (he1 : eps < 1 / 10) (t : Topo) (c : ℕ → V3 K) (a : K) (g : V3 K) (h : Affine t c) :
    LocalExact eps t c a g := by
  cases t
  · exact hex_exact eps c a g h
  · exact tet_exact eps c a g
  · exact wed_exact eps c a g h
  · exact pyr_exact eps he0 he1 c a g h

end
end Verif.ElemGeom
