import Verif.Props.ElemGeometry
import Mathlib.Tactic.Linarith
import Mathlib.Tactic.Positivity

/-!
# Control volumes of regular elements (added after a seeded edit of the centroid weight survived)
-/

namespace Verif.ElemGeom

variable {K : Type*} [Field K] [CharZero K]

/-- A parallelepiped with corner `o` and edge vectors `a`, `b`, `d`, in the code's node order. -/
def IsParallelepiped (c : ℕ → V3 K) (o a b d : V3 K) : Prop :=
  c 0 = o ∧ c 1 = o + a ∧ c 2 = o + a + b ∧ c 3 = o + b ∧
  c 4 = o + d ∧ c 5 = o + a + d ∧ c 6 = o + a + b + d ∧ c 7 = o + b + d

set_option maxHeartbeats 4000000 in
/-- **C43 (hexahedron, equal shares).**  In a parallelepiped each of the eight sub-control volumes is an
eighth of the volume `(a × b) . d`. -/
theorem c43_hex_eighths (c : ℕ → V3 K) (o a b d : V3 K) (h : IsParallelepiped c o a b d) :
    hexScv c = List.replicate 8 (dot (cross a b) d / 8) := by
  obtain ⟨h0, h1, h2, h3, h4, h5, h6, h7⟩ := h
  simp only [hexScv, hexScvTable, List.map_cons, List.map_nil, hexVolumeGrandy_eq, pick,
    List.getD_cons_zero, List.getD_cons_succ, hexPts, List.replicate, h0, h1, h2, h3, h4, h5, h6, h7]
  obtain ⟨x0, y0, z0⟩ := o
  obtain ⟨x1, y1, z1⟩ := a
  obtain ⟨x2, y2, z2⟩ := b
  obtain ⟨x3, y3, z3⟩ := d
  simp only [F, quadFlux, triFlux, dot, cross, mid2, mid3, mid4, Prod.smul_mk, Prod.mk_add_mk,
    Prod.mk_sub_mk, smul_eq_mul]
  refine List.cons_eq_cons.2 ⟨by ring, List.cons_eq_cons.2 ⟨by ring, List.cons_eq_cons.2 ⟨by ring,
    List.cons_eq_cons.2 ⟨by ring, List.cons_eq_cons.2 ⟨by ring, List.cons_eq_cons.2 ⟨by ring,
    List.cons_eq_cons.2 ⟨by ring, List.cons_eq_cons.2 ⟨by ring, rfl⟩⟩⟩⟩⟩⟩⟩⟩

/-- A unit cube. -/
example : IsParallelepiped (K := ℚ) (fun n => ([(0,0,0),(1,0,0),(1,1,0),(0,1,0),(0,0,1),(1,0,1),(1,1,1),(0,1,1)] : List (V3 ℚ)).getD n 0)
    0 (1,0,0) (0,1,0) (0,0,1) := by
  refine ⟨?_, ?_, ?_, ?_, ?_, ?_, ?_, ?_⟩ <;> norm_num <;> rfl

/-- A triangular prism with corner `o`, base edges `a`, `b` and axis `d`. -/
def IsPrism (c : ℕ → V3 K) (o a b d : V3 K) : Prop :=
  c 0 = o ∧ c 1 = o + a ∧ c 2 = o + b ∧ c 3 = o + d ∧ c 4 = o + a + d ∧ c 5 = o + b + d

/-- A pyramid over a parallelogram with corner `o`, edges `a`, `b`, and apex `o + d`. -/
def IsAffinePyramid (c : ℕ → V3 K) (o a b d : V3 K) : Prop :=
  c 0 = o ∧ c 1 = o + a ∧ c 2 = o + a + b ∧ c 3 = o + b ∧ c 4 = o + d

/-- Area vector dotted with the vector from the left to the right node, for all surfaces of an element. -/
def alongEdge (areas : List (V3 K)) (lr : List (ℕ × ℕ)) (c : ℕ → V3 K) : List K :=
  (areas.zip lr).map fun q => dot q.1 (c q.2.2 - c q.2.1)

set_option maxHeartbeats 8000000 in
/-- **C43 (wedge, equal shares).**  In a prism each sub-control volume is a sixth of the volume `(a × b) . d / 2`. -/
theorem c43_wed_sixths (c : ℕ → V3 K) (o a b d : V3 K) (h : IsPrism c o a b d) :
    wedScv c = List.replicate 6 (dot (cross a b) d / 12) := by
  obtain ⟨h0, h1, h2, h3, h4, h5⟩ := h
  simp only [wedScv, wedPts, wedScvTable, wedPts, alongEdge, scsAreas, pick, List.map_cons, List.map_nil, List.zip_cons_cons, List.zip_nil_right, hexVolumeGrandy_eq,
    bhexVolumeGrandy_eq, List.getD_cons_zero, List.getD_cons_succ, List.replicate, List.cons_append, List.nil_append, h0,h1,h2,h3,h4,h5]
  obtain ⟨x0, y0, z0⟩ := o
  obtain ⟨x1, y1, z1⟩ := a
  obtain ⟨x2, y2, z2⟩ := b
  obtain ⟨x3, y3, z3⟩ := d
  simp only [F, quadFlux, triFlux, T, quadArea, dot, cross, mid2, mid3, mid4, Prod.smul_mk, Prod.mk_add_mk,
    Prod.mk_sub_mk, smul_eq_mul]
  exact List.cons_eq_cons.2 ⟨by ring, List.cons_eq_cons.2 ⟨by ring, List.cons_eq_cons.2 ⟨by ring, List.cons_eq_cons.2 ⟨by ring, List.cons_eq_cons.2 ⟨by ring, List.cons_eq_cons.2 ⟨by ring, rfl⟩⟩⟩⟩⟩⟩

set_option maxHeartbeats 8000000 in
/-- **C61 (hexahedron).**  In a parallelepiped of volume `V = (a × b) . d` every surface satisfies
`area . (x_right - x_left) = V/4`. -/
theorem c61_hex_left_to_right (c : ℕ → V3 K) (o a b d : V3 K) (h : IsParallelepiped c o a b d) :
    alongEdge (hexScs c) hexLr c = List.replicate 12 (dot (cross a b) d / 4) := by
  obtain ⟨h0, h1, h2, h3, h4, h5, h6, h7⟩ := h
  simp only [hexScs, hexScsTable, hexLr, hexPts, alongEdge, scsAreas, pick, List.map_cons, List.map_nil, List.zip_cons_cons, List.zip_nil_right, hexVolumeGrandy_eq,
    bhexVolumeGrandy_eq, List.getD_cons_zero, List.getD_cons_succ, List.replicate, List.cons_append, List.nil_append, h0,h1,h2,h3,h4,h5,h6,h7]
  obtain ⟨x0, y0, z0⟩ := o
  obtain ⟨x1, y1, z1⟩ := a
  obtain ⟨x2, y2, z2⟩ := b
  obtain ⟨x3, y3, z3⟩ := d
  simp only [F, quadFlux, triFlux, T, quadArea, dot, cross, mid2, mid3, mid4, Prod.smul_mk, Prod.mk_add_mk,
    Prod.mk_sub_mk, smul_eq_mul]
  exact List.cons_eq_cons.2 ⟨by ring, List.cons_eq_cons.2 ⟨by ring, List.cons_eq_cons.2 ⟨by ring, List.cons_eq_cons.2 ⟨by ring, List.cons_eq_cons.2 ⟨by ring, List.cons_eq_cons.2 ⟨by ring, List.cons_eq_cons.2 ⟨by ring, List.cons_eq_cons.2 ⟨by ring, List.cons_eq_cons.2 ⟨by ring, List.cons_eq_cons.2 ⟨by ring, List.cons_eq_cons.2 ⟨by ring, List.cons_eq_cons.2 ⟨by ring, rfl⟩⟩⟩⟩⟩⟩⟩⟩⟩⟩⟩⟩

set_option maxHeartbeats 8000000 in
/-- **C61 (wedge).**  In a prism of volume `V = (a × b) . d / 2` every surface satisfies
`area . (x_right - x_left) = V/3`. -/
theorem c61_wed_left_to_right (c : ℕ → V3 K) (o a b d : V3 K) (h : IsPrism c o a b d) :
    alongEdge (wedScs c) wedLr c = List.replicate 9 (dot (cross a b) d / 6) := by
  obtain ⟨h0, h1, h2, h3, h4, h5⟩ := h
  simp only [wedScs, wedScsTable, wedLr, wedPts, alongEdge, scsAreas, pick, List.map_cons, List.map_nil, List.zip_cons_cons, List.zip_nil_right, hexVolumeGrandy_eq,
    bhexVolumeGrandy_eq, List.getD_cons_zero, List.getD_cons_succ, List.replicate, List.cons_append, List.nil_append, h0,h1,h2,h3,h4,h5]
  obtain ⟨x0, y0, z0⟩ := o
  obtain ⟨x1, y1, z1⟩ := a
  obtain ⟨x2, y2, z2⟩ := b
  obtain ⟨x3, y3, z3⟩ := d
  simp only [F, quadFlux, triFlux, T, quadArea, dot, cross, mid2, mid3, mid4, Prod.smul_mk, Prod.mk_add_mk,
    Prod.mk_sub_mk, smul_eq_mul]
  exact List.cons_eq_cons.2 ⟨by ring, List.cons_eq_cons.2 ⟨by ring, List.cons_eq_cons.2 ⟨by ring, List.cons_eq_cons.2 ⟨by ring, List.cons_eq_cons.2 ⟨by ring, List.cons_eq_cons.2 ⟨by ring, List.cons_eq_cons.2 ⟨by ring, List.cons_eq_cons.2 ⟨by ring, List.cons_eq_cons.2 ⟨by ring, rfl⟩⟩⟩⟩⟩⟩⟩⟩⟩

set_option maxHeartbeats 8000000 in
/-- **C61 (pyramid).**  In a pyramid of volume `V = (a × b) . d / 3` over a parallelogram the surfaces satisfy
`area . (x_right - x_left) = 7V/20` (base edges) and `7V/30`, `V/6` (the two surfaces of each edge to the apex). -/
theorem c61_pyr_left_to_right (c : ℕ → V3 K) (o a b d : V3 K) (h : IsAffinePyramid c o a b d) :
    alongEdge (pyrScs c) pyrLr c = [7/60, 7/60, 7/60, 7/60, 7/90, 1/18, 7/90, 1/18, 7/90, 1/18, 7/90, 1/18].map
      (· * dot (cross a b) d) := by
  obtain ⟨h0, h1, h2, h3, h4⟩ := h
  simp only [pyrScs, pyrScsTable, pyrLr, pyrPts, alongEdge, scsAreas, pick, List.map_cons, List.map_nil, List.zip_cons_cons, List.zip_nil_right, hexVolumeGrandy_eq,
    bhexVolumeGrandy_eq, List.getD_cons_zero, List.getD_cons_succ, List.replicate, List.cons_append, List.nil_append, h0,h1,h2,h3,h4]
  obtain ⟨x0, y0, z0⟩ := o
  obtain ⟨x1, y1, z1⟩ := a
  obtain ⟨x2, y2, z2⟩ := b
  obtain ⟨x3, y3, z3⟩ := d
  simp only [F, quadFlux, triFlux, T, quadArea, dot, cross, mid2, mid3, mid4, Prod.smul_mk, Prod.mk_add_mk,
    Prod.mk_sub_mk, smul_eq_mul]
  exact List.cons_eq_cons.2 ⟨by ring, List.cons_eq_cons.2 ⟨by ring, List.cons_eq_cons.2 ⟨by ring, List.cons_eq_cons.2 ⟨by ring, List.cons_eq_cons.2 ⟨by ring, List.cons_eq_cons.2 ⟨by ring, List.cons_eq_cons.2 ⟨by ring, List.cons_eq_cons.2 ⟨by ring, List.cons_eq_cons.2 ⟨by ring, List.cons_eq_cons.2 ⟨by ring, List.cons_eq_cons.2 ⟨by ring, List.cons_eq_cons.2 ⟨by ring, rfl⟩⟩⟩⟩⟩⟩⟩⟩⟩⟩⟩⟩

set_option maxHeartbeats 8000000 in
/-- **C61 (tetrahedron).**  In every tetrahedron of volume `V` every surface satisfies
`area . (x_right - x_left) = V/2`. -/
theorem c61_tet_left_to_right (c : ℕ → V3 K) :
    alongEdge (tetScs c) tetLr c =
      List.replicate 6 (dot (c 1 - c 0) (cross (c 2 - c 0) (c 3 - c 0)) / 6 / 2) := by
  simp only [tetScs, tetScsTable, tetLr, tetPts, alongEdge, scsAreas, pick, List.map_cons, List.map_nil,
    List.zip_cons_cons, List.zip_nil_right, List.replicate]
  generalize c 0 = p0
  generalize c 1 = p1
  generalize c 2 = p2
  generalize c 3 = p3
  obtain ⟨x0, y0, z0⟩ := p0
  obtain ⟨x1, y1, z1⟩ := p1
  obtain ⟨x2, y2, z2⟩ := p2
  obtain ⟨x3, y3, z3⟩ := p3
  simp only [quadArea, dot, cross, mid2, mid3, mid4, Prod.smul_mk, Prod.mk_add_mk,
    Prod.mk_sub_mk, smul_eq_mul]
  exact List.cons_eq_cons.2 ⟨by ring, List.cons_eq_cons.2 ⟨by ring, List.cons_eq_cons.2 ⟨by ring, List.cons_eq_cons.2 ⟨by ring, List.cons_eq_cons.2 ⟨by ring, List.cons_eq_cons.2 ⟨by ring, rfl⟩⟩⟩⟩⟩⟩


set_option maxHeartbeats 8000000 in
/-- **C43 (pyramid).**  Over a parallelogram, with `V = (a × b) . d / 3`, the four base sub-control volumes are
`8V/45` each and the apex takes `13V/45`. -/
theorem c43_pyr_shares (c : ℕ → V3 K) (o a b d : V3 K) (h : IsAffinePyramid c o a b d) :
    pyrScv c = [8/135, 8/135, 8/135, 8/135, 13/135].map (· * dot (cross a b) d) := by
  obtain ⟨h0, h1, h2, h3, h4⟩ := h
  simp only [pyrScv, pyrScvTable, pyrPts, pyrTipRow, pick, List.map_cons, List.map_nil, octVolume_eq,
    bhexVolumeGrandy_eq, List.getD_cons_zero, List.getD_cons_succ, List.cons_append, List.nil_append, h0,h1,h2,h3,h4]
  obtain ⟨x0, y0, z0⟩ := o
  obtain ⟨x1, y1, z1⟩ := a
  obtain ⟨x2, y2, z2⟩ := b
  obtain ⟨x3, y3, z3⟩ := d
  simp only [F, T, quadFlux, triFlux, dot, cross, mid2, mid3, mid4, Prod.smul_mk, Prod.mk_add_mk,
    Prod.mk_sub_mk, smul_eq_mul]
  exact List.cons_eq_cons.2 ⟨by ring, List.cons_eq_cons.2 ⟨by ring, List.cons_eq_cons.2 ⟨by ring, List.cons_eq_cons.2 ⟨by ring, List.cons_eq_cons.2 ⟨by ring, rfl⟩⟩⟩⟩⟩

/-- Area vector dotted with the vector from the left to the right node, two dimensions. -/
def alongEdge2 (areas : List (K × K)) (lr : List (ℕ × ℕ)) (c : ℕ → K × K) : List K :=
  (areas.zip lr).map fun q => q.1.1 * ((c q.2.2).1 - (c q.2.1).1) + q.1.2 * ((c q.2.2).2 - (c q.2.1).2)

/-- Twice the signed area of the triangle `p q r`. -/
def orient (p q r : K × K) : K := (q.1 - p.1) * (r.2 - p.2) - (q.2 - p.2) * (r.1 - p.1)

/-- **C61 (2D triangle).**  In every triangle of area `A` every surface satisfies
`area . (x_right - x_left) = 2A/3`. -/
theorem c61_tri2d_left_to_right (c : ℕ → K × K) :
    alongEdge2 (tri2dScs c) tri2dLr c = List.replicate 3 (orient (c 0) (c 1) (c 2) / 3) := by
  simp only [tri2dScs, tri2dLr, alongEdge2, List.map_cons, List.map_nil, List.zip_cons_cons,
    List.zip_nil_right, List.replicate, orient, Prod.smul_fst, Prod.smul_snd, Prod.fst_add,
    Prod.snd_add, smul_eq_mul]
  exact List.cons_eq_cons.2 ⟨by ring, List.cons_eq_cons.2 ⟨by ring, List.cons_eq_cons.2 ⟨by ring, rfl⟩⟩⟩

/-- **C61 (2D quadrilateral).**  In every convex counter-clockwise quadrilateral every surface points from
its left to its right node. -/
theorem c61_quad2d_left_to_right [LinearOrder K] [IsStrictOrderedRing K] (c : ℕ → K × K)
    (h0 : 0 < orient (c 3) (c 0) (c 1)) (h1 : 0 < orient (c 0) (c 1) (c 2))
    (h2 : 0 < orient (c 1) (c 2) (c 3)) (h3 : 0 < orient (c 2) (c 3) (c 0)) :
    ∀ x ∈ alongEdge2 (quad2dScs c) quad2dLr c, 0 < x := by
  simp only [quad2dScs, quad2dLr, alongEdge2, List.map_cons, List.map_nil, List.zip_cons_cons,
    List.zip_nil_right, orient, Prod.smul_fst, Prod.smul_snd, Prod.fst_add,
    Prod.snd_add, smul_eq_mul, List.mem_cons, List.not_mem_nil, or_false, forall_eq_or_imp,
    forall_eq] at *
  refine ⟨?_, ?_, ?_, ?_⟩ <;> nlinarith

/-- The unit square is convex and counter-clockwise. -/
example : let c : ℕ → ℚ × ℚ := fun n => [(0,0),(1,0),(1,1),(0,1)].getD n 0
    0 < orient (c 3) (c 0) (c 1) ∧ 0 < orient (c 0) (c 1) (c 2) ∧ 0 < orient (c 1) (c 2) (c 3) ∧
      0 < orient (c 2) (c 3) (c 0) := by decide +kernel

/-- **C61 (hexahedron, wedge, pyramid, tetrahedron).**  With positive volume every surface points from its
left to its right node. -/
theorem c61_positive [LinearOrder K] [IsStrictOrderedRing K] (c : ℕ → V3 K) (o a b d : V3 K)
    (hv : 0 < dot (cross a b) d) :
    (IsParallelepiped c o a b d → ∀ x ∈ alongEdge (hexScs c) hexLr c, 0 < x) ∧
    (IsPrism c o a b d → ∀ x ∈ alongEdge (wedScs c) wedLr c, 0 < x) ∧
    (IsAffinePyramid c o a b d → ∀ x ∈ alongEdge (pyrScs c) pyrLr c, 0 < x) ∧
    (0 < dot (c 1 - c 0) (cross (c 2 - c 0) (c 3 - c 0)) →
      ∀ x ∈ alongEdge (tetScs c) tetLr c, 0 < x) := by
  refine ⟨fun h x hx => ?_, fun h x hx => ?_, fun h x hx => ?_, fun h x hx => ?_⟩
  · rw [c61_hex_left_to_right c o a b d h] at hx
    rw [List.eq_of_mem_replicate hx]; linarith
  · rw [c61_wed_left_to_right c o a b d h] at hx
    rw [List.eq_of_mem_replicate hx]; linarith
  · rw [c61_pyr_left_to_right c o a b d h] at hx
    obtain ⟨y, hy, rfl⟩ := List.mem_map.1 hx
    refine mul_pos ?_ hv
    simp only [List.mem_cons, List.not_mem_nil, or_false] at hy
    rcases hy with h | h | h | h | h | h | h | h | h | h | h | h <;> rw [h] <;> norm_num
  · rw [c61_tet_left_to_right c] at hx
    rw [List.eq_of_mem_replicate hx]; linarith

/-- A prism and a pyramid with positive volume. -/
example : (∃ c, IsPrism (K := ℚ) c 0 (1,0,0) (0,1,0) (0,0,1)) ∧
    (∃ c, IsAffinePyramid (K := ℚ) c 0 (1,0,0) (0,1,0) (0,0,1)) ∧
    0 < dot (cross (1,0,0) (0,1,0)) ((0,0,1) : V3 ℚ) := by
  refine ⟨⟨fun n => ([(0,0,0),(1,0,0),(0,1,0),(0,0,1),(1,0,1),(0,1,1)] : List (V3 ℚ)).getD n 0, ?_⟩,
    ⟨fun n => ([(0,0,0),(1,0,0),(1,1,0),(0,1,0),(0,0,1)] : List (V3 ℚ)).getD n 0, ?_⟩, ?_⟩
  · refine ⟨?_, ?_, ?_, ?_, ?_, ?_⟩ <;> norm_num <;> rfl
  · refine ⟨?_, ?_, ?_, ?_, ?_⟩ <;> norm_num <;> rfl
  · decide +kernel

end Verif.ElemGeom
