import Verif.Proofs.ElemGeometry
import Mathlib.Data.Rat.Lemmas
import Mathlib.Algebra.Field.Rat
import Mathlib.Tactic.FinCases

set_option linter.unusedSectionVars false
set_option linter.unusedSimpArgs false
set_option linter.unusedVariables false

/-!
# C42 (dual control volumes are closed) and C43 (sub-control volumes tile the element)
-/

namespace Verif.ElemGeom

variable {K : Type*} [Field K] [CharZero K]

/-! ## One element -/

/-- **C42 (hexahedron).**  For all coordinates, the area vectors collected at each node plus its
shares of the element's faces vanish. -/
theorem c42_hex_closed (c : ℕ → V3 K) (n : ℕ) (hn : n < 8) :
    scatterScs (hexScs c) hexLr n
      + ((hexSides.zip hexIpNode).map fun s => scatterFace (faceAreas c s.1) s.2 n).sum = 0 :=
  hex_closed c n hn
/-- **C42 (tetrahedron).** -/
theorem c42_tet_closed (c : ℕ → V3 K) (n : ℕ) (hn : n < 4) :
    scatterScs (tetScs c) tetLr n
      + ((tetSides.zip tetIpNode).map fun s => scatterFace (faceAreas c s.1) s.2 n).sum = 0 :=
  tet_closed c n hn
/-- **C42 (wedge).** -/
theorem c42_wed_closed (c : ℕ → V3 K) (n : ℕ) (hn : n < 6) :
    scatterScs (wedScs c) wedLr n
      + ((wedSides.zip wedIpNode).map fun s => scatterFace (faceAreas c s.1) s.2 n).sum = 0 :=
  wed_closed c n hn
/-- **C42 (pyramid).** -/
theorem c42_pyr_closed (c : ℕ → V3 K) (n : ℕ) (hn : n < 5) :
    scatterScs (pyrScs c) pyrLr n
      + ((pyrSides.zip pyrIpNode).map fun s => scatterFace (faceAreas c s.1) s.2 n).sum = 0 :=
  pyr_closed c n hn

/-- **C42 (2D quadrilateral).** -/
theorem c42_quad2d_closed (c : ℕ → K × K) (n : ℕ) (hn : n < 4) :
    scatterScs (quad2dScs c) quad2dLr n
      + (quad2dSides.map fun s => scatterFace (sideAreas c s) s n).sum = 0 := by
  interval_cases n <;>
  (simp [scatterScs, quad2dScs, quad2dLr, quad2dSides, scatterFace, sideAreas, edge2dAreas]
   try (refine ⟨?_, ?_⟩ <;> ring))
/-- **C42 (2D triangle).** -/
theorem c42_tri2d_closed (c : ℕ → K × K) (n : ℕ) (hn : n < 3) :
    scatterScs (tri2dScs c) tri2dLr n
      + (tri2dSides.map fun s => scatterFace (sideAreas c s) s n).sum = 0 := by
  interval_cases n <;>
  (simp [scatterScs, tri2dScs, tri2dLr, tri2dSides, scatterFace, sideAreas, edge2dAreas]
   try (refine ⟨?_, ?_⟩ <;> ring))

/-! ## A whole mesh -/

theorem sum_map_add {ι M : Type*} [AddCommGroup M] (l : List ι) (f g : ι → M) :
    (l.map fun i => f i + g i).sum = (l.map f).sum + (l.map g).sum := by
  induction l with
  | nil => simp
  | cons a l ih => simp only [List.map_cons, List.sum_cons, ih]; abel

theorem sum_map_neg {ι M : Type*} [AddCommGroup M] (l : List ι) (f : ι → M) :
    (l.map fun i => -f i).sum = -(l.map f).sum := by
  induction l with
  | nil => simp
  | cons a l ih => simp only [List.map_cons, List.sum_cons, ih]; abel

theorem sum_indicator {M : Type*} [AddCommGroup M] (f : ℕ → ℕ) (m N : ℕ) (a : M) (k : ℕ) (hk : k < m) :
    ((List.range m).map fun n => if f n = N then (if k = n then a else 0) else 0).sum
      = if f k = N then a else 0 := by
  rw [show (fun n => if f n = N then (if k = n then a else 0) else (0 : M))
      = fun n => if n = k then (if f k = N then a else 0) else 0 from ?_]
  · have : ∀ (l : List ℕ), l.Nodup → k ∈ l →
        (l.map fun n => if n = k then (if f k = N then a else 0) else (0 : M)).sum
          = if f k = N then a else 0 := by
      intro l hl hkl
      induction l with
      | nil => simp at hkl
      | cons x l ih2 =>
        rw [List.nodup_cons] at hl
        simp only [List.map_cons, List.sum_cons]
        by_cases hx : x = k
        · subst hx
          have z : (l.map fun n => if n = x then (if f x = N then a else 0) else (0 : M)).sum = 0 := by
            apply List.sum_eq_zero
            intro y hy
            obtain ⟨n, hn, rfl⟩ := List.mem_map.1 hy
            rw [if_neg]
            rintro rfl
            exact hl.1 hn
          rw [z]; simp
        · rw [if_neg hx, ih2 hl.2 (by simpa [Ne.symm hx] using hkl), zero_add]
    exact this _ List.nodup_range (List.mem_range.2 hk)
  · funext n
    by_cases h1 : n = k
    · subst h1; simp
    · simp [h1, Ne.symm h1]

theorem scatterScs_map (f : ℕ → ℕ) (m : ℕ) (q : List (V3 K)) (lr : List (ℕ × ℕ)) (N : ℕ)
    (h : ∀ p ∈ lr, p.1 < m ∧ p.2 < m) :
    scatterScs q (lr.map fun p => (f p.1, f p.2)) N
      = ((List.range m).map fun n => if f n = N then scatterScs q lr n else 0).sum := by
  induction lr generalizing q with
  | nil => simp [scatterScs]
  | cons p lr ih =>
    cases q with
    | nil => simp [scatterScs]
    | cons a q =>
      have hp := h p (by simp)
      have ih' := ih q fun x hx => h x (by simp [hx])
      simp only [scatterScs, List.map_cons, List.zip_cons_cons, List.sum_cons] at ih' ⊢
      rw [ih', ← sum_indicator f m N a p.1 hp.1, ← sum_indicator f m N a p.2 hp.2, sub_eq_add_neg, ← sum_map_neg, ← sum_map_add, ← sum_map_add]
      congr 1
      apply List.map_congr_left
      intro n _
      by_cases h1 : f n = N <;> simp [h1, sub_eq_add_neg]

theorem scatterFace_map (f : ℕ → ℕ) (m : ℕ) (q : List (V3 K)) (l : List ℕ) (N : ℕ)
    (h : ∀ p ∈ l, p < m) :
    scatterFace q (l.map f) N
      = ((List.range m).map fun n => if f n = N then scatterFace q l n else 0).sum := by
  induction l generalizing q with
  | nil => simp [scatterFace]
  | cons p l ih =>
    cases q with
    | nil => simp [scatterFace]
    | cons a q =>
      have ih' := ih q fun x hx => h x (by simp [hx])
      simp only [scatterFace, List.map_cons, List.zip_cons_cons, List.sum_cons] at ih' ⊢
      rw [ih', ← sum_indicator f m N a p (h p (by simp)), ← sum_map_add]
      congr 1
      apply List.map_congr_left
      intro n _
      by_cases h1 : f n = N <;> simp [h1]

theorem faceAreas_map (X : ℕ → V3 K) (f : ℕ → ℕ) (s : List ℕ) :
    faceAreas X (s.map f) = faceAreas (fun n => X (f n)) s := by
  match s with
  | [] => rfl
  | [_] => rfl
  | [_, _] => rfl
  | [_, _, _] => rfl
  | [_, _, _, _] => rfl
  | _ :: _ :: _ :: _ :: _ :: _ => rfl

theorem sum_range_ite {M : Type*} [AddCommGroup M] (f : ℕ → ℕ) (m N : ℕ) (g : ℕ → M)
    (h : ∀ n < m, g n = 0) : ((List.range m).map fun n => if f n = N then g n else 0).sum = 0 := by
  apply List.sum_eq_zero
  intro x hx
  obtain ⟨n, hn, rfl⟩ := List.mem_map.1 hx
  split
  · exact h n (List.mem_range.1 hn)
  · rfl

theorem sum_sum_ite {M : Type*} [AddCommGroup M] {ι : Type*} (f : ℕ → ℕ) (m N : ℕ) (l : List ι)
    (g : ι → ℕ → M) :
    (l.map fun s => ((List.range m).map fun n => if f n = N then g s n else 0).sum).sum
      = ((List.range m).map fun n => if f n = N then (l.map fun s => g s n).sum else 0).sum := by
  induction l with
  | nil => simp
  | cons a l ih =>
    simp only [List.map_cons, List.sum_cons, ih]
    rw [← sum_map_add]
    congr 1
    apply List.map_congr_left
    intro n _
    by_cases h1 : f n = N <;> simp [h1]

theorem elem_closed_aux (e : Elem) (X : ℕ → V3 K) (N m : ℕ)
    (hlr : ∀ p ∈ e.topo.lr, p.1 < m ∧ p.2 < m) (hs : ∀ s ∈ e.topo.sides, ∀ n ∈ s, n < m)
    (h : ∀ n < m, scatterScs (e.topo.scs (e.coords X)) e.topo.lr n
      + (e.topo.sides.map fun s => scatterFace (faceAreas (e.coords X) s) s n).sum = 0) :
    e.scsAt X N + (e.faces.map fun f => faceAt X f N).sum = 0 := by
  unfold Elem.scsAt Elem.faces faceAt
  rw [scatterScs_map e.conn m _ _ N hlr, List.map_map]
  have : (e.topo.sides.map ((fun f => scatterFace (faceAreas X f) f N) ∘ fun s => s.map e.conn))
      = e.topo.sides.map fun s => ((List.range m).map fun n =>
          if e.conn n = N then scatterFace (faceAreas (e.coords X) s) s n else 0).sum := by
    apply List.map_congr_left
    intro s hs'
    simp only [Function.comp]
    rw [faceAreas_map, scatterFace_map e.conn m _ _ N (hs s hs')]
    rfl
  rw [this, sum_sum_ite, ← sum_map_add]
  rw [show (fun n => (if e.conn n = N then scatterScs (e.topo.scs (e.coords X)) e.topo.lr n else 0)
      + (if e.conn n = N then (e.topo.sides.map fun s => scatterFace (faceAreas (e.coords X) s) s n).sum else 0))
      = fun n => if e.conn n = N then (scatterScs (e.topo.scs (e.coords X)) e.topo.lr n
        + (e.topo.sides.map fun s => scatterFace (faceAreas (e.coords X) s) s n).sum) else 0 from by
      funext n; split <;> simp]
  exact sum_range_ite _ _ _ _ h

theorem elem_closed (e : Elem) (X : ℕ → V3 K) (N : ℕ) :
    e.scsAt X N + (e.faces.map fun f => faceAt X f N).sum = 0 := by
  obtain ⟨t, conn⟩ := e
  cases t
  · refine elem_closed_aux ⟨.hex, conn⟩ X N 8 (by simp only [Topo.lr]; decide) (by simp only [Topo.sides]; decide) fun n hn => ?_
    exact hex_closed _ n hn
  · refine elem_closed_aux ⟨.tet, conn⟩ X N 4 (by simp only [Topo.lr]; decide) (by simp only [Topo.sides]; decide) fun n hn => ?_
    exact tet_closed _ n hn
  · refine elem_closed_aux ⟨.wed, conn⟩ X N 6 (by simp only [Topo.lr]; decide) (by simp only [Topo.sides]; decide) fun n hn => ?_
    exact wed_closed _ n hn
  · refine elem_closed_aux ⟨.pyr, conn⟩ X N 5 (by simp only [Topo.lr]; decide) (by simp only [Topo.sides]; decide) fun n hn => ?_
    exact pyr_closed _ n hn

theorem subFace_neg (c p a b : V3 K) : subFaceArea c p a b = -subFaceArea c p b a := by
  obtain ⟨c1, c2, c3⟩ := c
  obtain ⟨p1, p2, p3⟩ := p
  obtain ⟨a1, a2, a3⟩ := a
  obtain ⟨b1, b2, b3⟩ := b
  simp only [subFaceArea, cross, Prod.smul_mk, Prod.mk_sub_mk, smul_eq_mul, Prod.neg_mk]
  refine Prod.ext ?_ (Prod.ext ?_ ?_) <;> simp only [] <;> ring

theorem mid2_comm (a b : V3 K) : mid2 a b = mid2 b a := by simp only [mid2, add_comm]

theorem isRotated_mem (g f : List ℕ) (h : g.IsRotated f) : ∃ k ≤ f.length, g = f.rotate k := by
  obtain ⟨k, hk, e⟩ := List.isRotated_iff_mod.1 h.symm
  exact ⟨k, hk, e.symm⟩

theorem faceAt_rot3 (X : ℕ → V3 K) (a b c N : ℕ) : faceAt X [b, c, a] N = faceAt X [a, b, c] N := by
  have h : mid3 (X b) (X c) (X a) = mid3 (X a) (X b) (X c) := by
    simp only [mid3]; congr 1; abel
  simp only [faceAt, scatterFace, faceAreas, tri3dAreas, h, List.zip_cons_cons, List.zip_nil_left,
    List.map_cons, List.map_nil, List.sum_cons, List.sum_nil]
  abel

theorem faceAt_rev3 (X : ℕ → V3 K) (a b c N : ℕ) : faceAt X [c, b, a] N = -faceAt X [a, b, c] N := by
  have h : mid3 (X c) (X b) (X a) = mid3 (X a) (X b) (X c) := by
    simp only [mid3]; congr 1; abel
  have h1 : ∀ (p : Prop) [Decidable p] (v : V3 K), (if p then -v else 0) = -(if p then v else 0) := by
    intro p _ v; split <;> simp
  simp only [faceAt, scatterFace, faceAreas, tri3dAreas, h, List.zip_cons_cons, List.zip_nil_left,
    List.map_cons, List.map_nil, List.sum_cons, List.sum_nil]
  rw [subFace_neg _ (X c), subFace_neg _ (X b), subFace_neg _ (X a)]
  simp only [h1, mid2_comm (X b) (X a), mid2_comm (X c) (X b), mid2_comm (X a) (X c)]
  abel

theorem faceAt_rot4 (X : ℕ → V3 K) (a b c d N : ℕ) :
    faceAt X [b, c, d, a] N = faceAt X [a, b, c, d] N := by
  have h : mid4 (X b) (X c) (X d) (X a) = mid4 (X a) (X b) (X c) (X d) := by
    simp only [mid4]; congr 1; abel
  simp only [faceAt, scatterFace, faceAreas, quad3dAreas, h, List.zip_cons_cons, List.zip_nil_left,
    List.map_cons, List.map_nil, List.sum_cons, List.sum_nil]
  abel

theorem faceAt_rev4 (X : ℕ → V3 K) (a b c d N : ℕ) :
    faceAt X [d, c, b, a] N = -faceAt X [a, b, c, d] N := by
  have h : mid4 (X d) (X c) (X b) (X a) = mid4 (X a) (X b) (X c) (X d) := by
    simp only [mid4]; congr 1; abel
  have h1 : ∀ (p : Prop) [Decidable p] (v : V3 K), (if p then -v else 0) = -(if p then v else 0) := by
    intro p _ v; split <;> simp
  simp only [faceAt, scatterFace, faceAreas, quad3dAreas, h, List.zip_cons_cons, List.zip_nil_left,
    List.map_cons, List.map_nil, List.sum_cons, List.sum_nil]
  rw [subFace_neg _ (X d), subFace_neg _ (X c), subFace_neg _ (X b), subFace_neg _ (X a)]
  simp only [h1, mid2_comm (X b) (X a), mid2_comm (X c) (X b), mid2_comm (X d) (X c),
    mid2_comm (X a) (X d)]
  abel

theorem faceAt_long (X : ℕ → V3 K) (f : List ℕ) (N : ℕ) (h3 : f.length ≠ 3) (h4 : f.length ≠ 4) :
    faceAt X f N = 0 := by
  match f with
  | [] => simp [faceAt, scatterFace, faceAreas]
  | [_] => simp [faceAt, scatterFace, faceAreas]
  | [_, _] => simp [faceAt, scatterFace, faceAreas]
  | [_, _, _] => simp at h3
  | [_, _, _, _] => simp at h4
  | _ :: _ :: _ :: _ :: _ :: _ => simp [faceAt, scatterFace, faceAreas]

/-- The two sides of an interior face contribute opposite amounts to every node. -/
theorem faceAt_opposite (X : ℕ → V3 K) (f g : List ℕ) (N : ℕ) (h : Opposite f g) :
    faceAt X f N + faceAt X g N = 0 := by
  obtain ⟨k, hk, rfl⟩ := isRotated_mem _ _ h
  by_cases h3 : f.length = 3
  · obtain ⟨a, b, c, rfl⟩ := List.length_eq_three.1 h3
    simp only [List.length_reverse, List.length_cons, List.length_nil] at hk
    have e := faceAt_rev3 X a b c N
    have r1 := faceAt_rot3 X c b a N
    have r2 := faceAt_rot3 X b a c N
    interval_cases k
    · rw [show [a, b, c].reverse.rotate 0 = [c, b, a] from by simp [List.rotate]]
      rw [e]; simp
    · rw [show [a, b, c].reverse.rotate 1 = [b, a, c] from by simp [List.rotate]]
      rw [r1, e]; simp
    · rw [show [a, b, c].reverse.rotate 2 = [a, c, b] from by simp [List.rotate]]
      rw [r2, r1, e]; simp
    · rw [show [a, b, c].reverse.rotate 3 = [c, b, a] from by simp [List.rotate]]
      rw [e]; simp
  · by_cases h4 : f.length = 4
    · match f, h4 with
      | [a, b, c, d], _ =>
        simp only [List.length_reverse, List.length_cons, List.length_nil] at hk
        have e := faceAt_rev4 X a b c d N
        have r1 := faceAt_rot4 X d c b a N
        have r2 := faceAt_rot4 X c b a d N
        have r3 := faceAt_rot4 X b a d c N
        interval_cases k
        · rw [show [a, b, c, d].reverse.rotate 0 = [d, c, b, a] from by simp [List.rotate]]
          rw [e]; simp
        · rw [show [a, b, c, d].reverse.rotate 1 = [c, b, a, d] from by simp [List.rotate]]
          rw [r1, e]; simp
        · rw [show [a, b, c, d].reverse.rotate 2 = [b, a, d, c] from by simp [List.rotate]]
          rw [r2, r1, e]; simp
        · rw [show [a, b, c, d].reverse.rotate 3 = [a, d, c, b] from by simp [List.rotate]]
          rw [r3, r2, r1, e]; simp
        · rw [show [a, b, c, d].reverse.rotate 4 = [d, c, b, a] from by simp [List.rotate]]
          rw [e]; simp
    · rw [faceAt_long X f N h3 h4, faceAt_long X _ N (by simpa using h3) (by simpa using h4), add_zero]

theorem sum_flatMap {M : Type*} [AddCommGroup M] {ι κ : Type*} (l : List ι) (f : ι → List κ) (g : κ → M) :
    ((l.flatMap f).map g).sum = (l.map fun i => ((f i).map g).sum).sum := by
  induction l with
  | nil => simp
  | cons a l ih => simp [ih]

/-- **C42 (mesh).**  On every conforming mesh of hexahedra, tetrahedra, wedges and pyramids with
arbitrary coordinates, what the element loop collects at a node equals minus what the boundary
faces collect there: the dual control volume of every node is closed. -/
theorem c42_mesh_closed (es : List Elem) (bdry : List (List ℕ)) (X : ℕ → V3 K) (N : ℕ)
    (h : Conforming es bdry) :
    (es.map fun e => e.scsAt X N).sum + (bdry.map fun f => faceAt X f N).sum = 0 := by
  obtain ⟨pairs, hp, perm⟩ := h
  have e1 : ((es.flatMap Elem.faces).map fun f => faceAt X f N).sum
      = (bdry.map fun f => faceAt X f N).sum := by
    rw [(perm.map _).sum_eq, List.map_append, List.sum_append, sum_flatMap pairs]
    rw [show (pairs.map fun p => ([p.1, p.2].map fun f => faceAt X f N).sum).sum = 0 from ?_, add_zero]
    apply List.sum_eq_zero
    intro x hx
    obtain ⟨p, hpp, rfl⟩ := List.mem_map.1 hx
    simpa using faceAt_opposite X p.1 p.2 N (hp p hpp)
  rw [← e1, sum_flatMap, ← sum_map_add]
  apply List.sum_eq_zero
  intro x hx
  obtain ⟨e, _, rfl⟩ := List.mem_map.1 hx
  exact elem_closed e X N

/-- **C42 (interior node).**  A node on no boundary face sees area vectors summing to zero. -/
theorem c42_interior_node (es : List Elem) (bdry : List (List ℕ)) (X : ℕ → V3 K) (N : ℕ)
    (h : Conforming es bdry) (hN : ∀ f ∈ bdry, N ∉ f) :
    (es.map fun e => e.scsAt X N).sum = 0 := by
  have h1 := c42_mesh_closed es bdry X N h
  rw [show (bdry.map fun f => faceAt X f N).sum = 0 from ?_, add_zero] at h1
  · exact h1
  · apply List.sum_eq_zero
    intro x hx
    obtain ⟨f, hf, rfl⟩ := List.mem_map.1 hx
    unfold faceAt scatterFace
    apply List.sum_eq_zero
    intro y hy
    obtain ⟨p, hp, rfl⟩ := List.mem_map.1 hy
    rw [if_neg]
    rintro rfl
    exact hN f hf (List.of_mem_zip hp).2

/-! ## C43: volumes -/

/-- **C43 (hexahedron).**  The eight sub-control volumes add up to the volume enclosed by the six
bilinear faces, for all coordinates. -/
theorem c43_hex_volume (c : ℕ → V3 K) : (hexScv c).sum = (hexSides.map (faceFlux c)).sum :=
  hex_volume c
/-- **C43 (tetrahedron).** -/
theorem c43_tet_volume (c : ℕ → V3 K) : (tetScv c).sum = (tetSides.map (faceFlux c)).sum :=
  tet_volume c
/-- **C43 (wedge).** -/
theorem c43_wed_volume (c : ℕ → V3 K) : (wedScv c).sum = (wedSides.map (faceFlux c)).sum :=
  wed_volume c
/-- **C43 (pyramid).** -/
theorem c43_pyr_volume (c : ℕ → V3 K) : (pyrScv c).sum = (pyrSides.map (faceFlux c)).sum :=
  pyr_volume c

/-- **C43 (tetrahedron, closed form).**  The four sub-control volumes add up to
`(c1-c0) . ((c2-c0) x (c3-c0)) / 6`. -/
theorem c43_tet_closed_form (c : ℕ → V3 K) :
    (tetScv c).sum = dot (c 1 - c 0) (cross (c 2 - c 0) (c 3 - c 0)) / 6 := by
  rw [tet_volume]
  simp only [tetSides, List.map_cons, List.map_nil, List.sum_cons, List.sum_nil, faceFlux, triFlux,
    dot, cross, Prod.fst_sub, Prod.snd_sub]
  ring

/-- **C43 (tetrahedron, equal shares).**  Each sub-control volume is a quarter of the element. -/
theorem c43_tet_quarters (c : ℕ → V3 K) :
    tetScv c = List.replicate 4 (dot (c 1 - c 0) (cross (c 2 - c 0) (c 3 - c 0)) / 24) := by
  simp only [tetScv, tetScvTable, List.map_cons, List.map_nil, hexVolumeGrandy_eq, pick,
    List.getD_cons_zero, List.getD_cons_succ, tetPts, List.replicate]
  generalize c 0 = p0
  generalize c 1 = p1
  generalize c 2 = p2
  generalize c 3 = p3
  obtain ⟨x0, y0, z0⟩ := p0
  obtain ⟨x1, y1, z1⟩ := p1
  obtain ⟨x2, y2, z2⟩ := p2
  obtain ⟨x3, y3, z3⟩ := p3
  simp only [F, quadFlux, triFlux, dot, cross, mid2, mid3, mid4, Prod.smul_mk, Prod.mk_add_mk,
    Prod.mk_sub_mk, smul_eq_mul]
  refine List.cons_eq_cons.2 ⟨by ring, List.cons_eq_cons.2 ⟨by ring, List.cons_eq_cons.2 ⟨by ring,
    List.cons_eq_cons.2 ⟨by ring, rfl⟩⟩⟩⟩

theorem faceFlux_map (X : ℕ → V3 K) (f : ℕ → ℕ) (s : List ℕ) :
    faceFlux X (s.map f) = faceFlux (fun n => X (f n)) s := by
  match s with
  | [] => rfl
  | [_] => rfl
  | [_, _] => rfl
  | [_, _, _] => rfl
  | [_, _, _, _] => rfl
  | _ :: _ :: _ :: _ :: _ :: _ => rfl

theorem elem_volume (e : Elem) (X : ℕ → V3 K) :
    (e.topo.scv (e.coords X)).sum = (e.faces.map (faceFlux X)).sum := by
  have h : (e.topo.scv (e.coords X)).sum = (e.topo.sides.map (faceFlux (e.coords X))).sum := by
    obtain ⟨t, conn⟩ := e
    cases t
    · exact hex_volume _
    · exact tet_volume _
    · exact wed_volume _
    · exact pyr_volume _
  rw [h, Elem.faces, List.map_map]
  congr 1
  apply List.map_congr_left
  intro s _
  simp only [Function.comp]
  rw [faceFlux_map]; rfl

theorem faceFlux_opposite (X : ℕ → V3 K) (f g : List ℕ) (h : Opposite f g) :
    faceFlux X f + faceFlux X g = 0 := by
  obtain ⟨k, hk, rfl⟩ := isRotated_mem _ _ h
  by_cases h3 : f.length = 3
  · obtain ⟨a, b, c, rfl⟩ := List.length_eq_three.1 h3
    simp only [List.length_reverse, List.length_cons, List.length_nil] at hk
    interval_cases k <;> simp [List.rotate, faceFlux, triFlux, dot, cross] <;> ring
  · by_cases h4 : f.length = 4
    · match f, h4 with
      | [a, b, c, d], _ =>
        simp only [List.length_reverse, List.length_cons, List.length_nil] at hk
        interval_cases k <;> simp [List.rotate, faceFlux, quadFlux, triFlux, dot, cross] <;> ring
    · have z : ∀ l : List ℕ, l.length ≠ 3 → l.length ≠ 4 → faceFlux X l = 0 := by
        intro l a b
        match l with
        | [] => rfl
        | [_] => rfl
        | [_, _] => rfl
        | [_, _, _] => simp at a
        | [_, _, _, _] => simp at b
        | _ :: _ :: _ :: _ :: _ :: _ => rfl
      rw [z f h3 h4, z _ (by simpa using h3) (by simpa using h4), add_zero]

/-- **C43 (mesh).**  On every conforming mesh the dual (nodal) volumes add up to the volume
enclosed by the mesh boundary, whatever the interior node positions. -/
theorem c43_mesh_volume (es : List Elem) (bdry : List (List ℕ)) (X : ℕ → V3 K)
    (h : Conforming es bdry) :
    (es.map fun e => (e.topo.scv (e.coords X)).sum).sum = (bdry.map (faceFlux X)).sum := by
  obtain ⟨pairs, hp, perm⟩ := h
  have e1 : ((es.flatMap Elem.faces).map (faceFlux X)).sum = (bdry.map (faceFlux X)).sum := by
    rw [(perm.map _).sum_eq, List.map_append, List.sum_append, sum_flatMap pairs]
    rw [show (pairs.map fun p => ([p.1, p.2].map (faceFlux X)).sum).sum = 0 from ?_, add_zero]
    apply List.sum_eq_zero
    intro x hx
    obtain ⟨p, hpp, rfl⟩ := List.mem_map.1 hx
    simpa using faceFlux_opposite X p.1 p.2 (hp p hpp)
  rw [← e1, sum_flatMap]
  congr 1
  apply List.map_congr_left
  intro e _
  exact elem_volume e X

/-- Twice the area enclosed by a side (shoelace term). -/
def sideFlux (c : ℕ → K × K) : List ℕ → K
  | [a, b] => ((c a).1 * (c b).2 - (c b).1 * (c a).2) / 2
  | _ => 0

/-- **C43 (2D quadrilateral).**  The four sub-control areas add up to the shoelace area of the
quadrilateral, for every value `g` of the Gauss-point literal. -/
theorem c43_quad2d_area (g : K) (c : ℕ → K × K) :
    (quad2dScv g c).sum = (quad2dSides.map (sideFlux c)).sum := by
  simp only [quad2dScv, quad2dSides, quadDetJ, sideFlux, List.map_cons, List.map_nil, List.sum_cons,
    List.sum_nil]
  ring

/-- **C43 (2D triangle).**  Likewise for the triangle. -/
theorem c43_tri2d_area (g : K) (c : ℕ → K × K) :
    (tri2dScv g c).sum = (tri2dSides.map (sideFlux c)).sum := by
  simp only [tri2dScv, tri2dSides, quadDetJ, sideFlux, List.map_cons, List.map_nil, List.sum_cons,
    List.sum_nil, List.getD_cons_zero, List.getD_cons_succ, Prod.smul_fst, Prod.smul_snd, Prod.fst_add,
    Prod.snd_add, smul_eq_mul]
  ring

/-- **C43 (2D triangle, equal shares).** -/
theorem c43_tri2d_thirds (g : K) (c : ℕ → K × K) :
    tri2dScv g c = List.replicate 3 ((tri2dSides.map (sideFlux c)).sum / 3) := by
  simp only [tri2dScv, tri2dSides, quadDetJ, sideFlux, List.map_cons, List.map_nil, List.sum_cons,
    List.sum_nil, List.getD_cons_zero, List.getD_cons_succ, Prod.smul_fst, Prod.smul_snd, Prod.fst_add,
    Prod.snd_add, smul_eq_mul, List.replicate]
  refine List.cons_eq_cons.2 ⟨by ring, List.cons_eq_cons.2 ⟨by ring, List.cons_eq_cons.2 ⟨by ring, rfl⟩⟩⟩

/-! ## Witnesses -/

/-- A hexahedron and a pyramid glued on the top face. -/
def exMesh : List Elem := [⟨.hex, fun n => n⟩, ⟨.pyr, fun n => n + 4⟩]
/-- Its boundary faces. -/
def exBdry : List (List ℕ) :=
  [[0, 1, 5, 4], [1, 2, 6, 5], [2, 3, 7, 6], [0, 4, 7, 3], [0, 3, 2, 1],
   [4, 5, 8], [5, 6, 8], [6, 7, 8], [4, 8, 7]]
example : Conforming exMesh exBdry := by
  refine ⟨[([4, 5, 6, 7], [4, 7, 6, 5])], ?_, ?_⟩
  · intro p hp
    simp only [List.mem_singleton] at hp
    subst hp
    exact ⟨1, by decide⟩
  · decide
/-- Distorted unit cube with a pyramid on top: the assembled volume is the enclosed volume. -/
def exX : ℕ → V3 ℚ
  | 0 => (0, 0, 0) | 1 => (1, 0, 0) | 2 => (1, 1, 0) | 3 => (0, 1, 0)
  | 4 => (0, 0, 1) | 5 => (1, 0, 1) | 6 => (1, 1, 3/2) | 7 => (0, 1, 1) | _ => (1/2, 1/2, 2)
example : (exMesh.map fun e => (e.topo.scv (e.coords exX)).sum).sum = 17 / 12 := by decide +kernel
example : (exMesh.map fun e => e.scsAt exX 8).sum = (1 / 12, 1 / 12, -1 / 3) := by decide +kernel

end Verif.ElemGeom
