import Verif.Proofs.ElemGrad3

set_option linter.unusedSectionVars false
set_option linter.unusedSimpArgs false
set_option linter.unusedVariables false

/-!
# C246–C249: element-based nodal gradients on meshes

Vocabulary: `Conforming`, `Conforming2` (mesh and its boundary faces), `Affine`, `dot`, `dot2` in `Verif.Spec.ElemGeometry`, `Verif.Spec.ElemGrad`.
-/

namespace Verif.ElemGeom

variable {K : Type*} [Field K] [LinearOrder K] [IsStrictOrderedRing K]

/-! ## C246: two dimensions -/

/-- **C246** On every conforming plane mesh of quadrilaterals and triangles of any shape, the nodal gradient of a linear field `a + g·x` is exactly `g` at
every node with a dual volume, boundary and corner nodes included. -/
theorem c246_linear (gq gt : K) (es : List Elem2) (bdry : List (List ℕ)) (X : ℕ → K × K) (q qb : ℕ → K) (a : K) (g : K × K) (N : ℕ)
    (hc : Conforming2 es bdry) (hq : ∀ e ∈ es, ∀ k < e.topo.nn, q (e.conn k) = a + dot2 g (X (e.conn k)))
    (hb : ∀ f ∈ bdry, ∀ n ∈ f, qb n = a + dot2 g (X n)) (hv : dualVol2 gq gt es X N ≠ 0) : nodalGrad2 gq gt es bdry X q qb N = g := by
  have h := mesh_exact2 gq gt es bdry X (fun n => a + dot2 g (X n)) a g N hc fun _ _ _ _ => rfl
  have e1 : (es.map fun e => e.gradAt (dualVol2 gq gt es X) X q N)
      = (es.map fun e => e.fluxAt X (fun n => a + dot2 g (X n)) N).map fun x => (1 / dualVol2 gq gt es X N) • x := by
    rw [List.map_map]
    apply List.map_congr_left
    intro e he
    simp only [Function.comp]
    rw [show e.fluxAt X (fun n => a + dot2 g (X n)) N = e.fluxAt X q N from ?_]
    · exact scatterScsVol_eq _ _ _ _
    · unfold Elem2.fluxAt
      congr 2
      exact List.map_congr_left fun n hn => (hq e he n (List.mem_range.1 hn)).symm
  have e2 : (bdry.map fun f => sideGradAt (dualVol2 gq gt es X) X qb f N)
      = (bdry.map fun f => sideFluxAt X (fun n => a + dot2 g (X n)) f N).map fun x => (1 / dualVol2 gq gt es X N) • x := by
    rw [List.map_map]
    apply List.map_congr_left
    intro f hf
    simp only [Function.comp]
    rw [show sideFluxAt X (fun n => a + dot2 g (X n)) f N = sideFluxAt X qb f N from ?_]
    · exact scatterFaceVol_eq _ _ _ _
    · unfold sideFluxAt
      rw [List.map_congr_left (hb f hf)]
  unfold nodalGrad2
  rw [e1, e2, ← List.smul_sum, ← List.smul_sum, zero_add, ← smul_add, h, smul_smul, one_div, inv_mul_cancel₀ hv, one_smul]

/-- **C246** Constants have zero gradient there. -/
theorem c246_const (gq gt : K) (es : List Elem2) (bdry : List (List ℕ)) (X : ℕ → K × K) (q qb : ℕ → K) (a : K) (N : ℕ)
    (hc : Conforming2 es bdry) (hq : ∀ e ∈ es, ∀ k < e.topo.nn, q (e.conn k) = a) (hb : ∀ f ∈ bdry, ∀ n ∈ f, qb n = a)
    (hv : dualVol2 gq gt es X N ≠ 0) : nodalGrad2 gq gt es bdry X q qb N = 0 :=
  c246_linear gq gt es bdry X q qb a 0 N hc (fun e he k hk => by simp [dot2, hq e he k hk]) (fun f hf n hn => by simp [dot2, hb f hf n hn]) hv

/-! ## C247: three dimensions -/

/-- **C247** On every conforming mesh of tetrahedra of any shape and hexahedra, wedges and pyramids that are affine images of their reference elements,
mixed in any way, the nodal gradient of a linear field is exact at every node with a dual volume, boundary nodes included. -/
theorem c247_linear (eps : K) (he0 : 0 < eps) (he1 : eps < 1 / 10) (es : List Elem) (bdry : List (List ℕ)) (X : ℕ → V3 K) (q qb : ℕ → K) (a : K) (g : V3 K)
    (N : ℕ) (hc : Conforming es bdry) (haff : ∀ e ∈ es, Affine e.topo (e.coords X))
    (hq : ∀ e ∈ es, ∀ k < e.topo.nn, q (e.conn k) = a + dot g (X (e.conn k))) (hb : ∀ f ∈ bdry, ∀ n ∈ f, qb n = a + dot g (X n))
    (hv : dualVol es X N ≠ 0) : nodalGrad eps es bdry [] X q qb N = g := by
  rw [nodalGrad_eq eps es bdry [] X q qb N (by simp)]
  simp only [List.map_nil, List.append_nil, List.sum_nil, sub_zero]
  rw [mesh_exact' eps es bdry X q qb a g N hc hq hb fun e he => affine_exact eps he0 he1 _ _ _ _ (haff e he), smul_smul, one_div,
    inv_mul_cancel₀ hv, one_smul]

/-- **C247** Open boundaries of the pressure gradient: the faces `popen` subtract the dynamic pressure of their points, so what is computed is the exact
gradient minus the dynamic pressure force on the node's share of the open faces, per volume. -/
theorem c247_open (eps : K) (he0 : 0 < eps) (he1 : eps < 1 / 10) (es : List Elem) (bdry : List (List ℕ)) (popen : List (List ℕ × List K)) (X : ℕ → V3 K)
    (q qb : ℕ → K) (a : K) (g : V3 K) (N : ℕ) (hc : Conforming es (bdry ++ popen.map Prod.fst)) (haff : ∀ e ∈ es, Affine e.topo (e.coords X))
    (hq : ∀ e ∈ es, ∀ k < e.topo.nn, q (e.conn k) = a + dot g (X (e.conn k)))
    (hb : ∀ f ∈ bdry ++ popen.map Prod.fst, ∀ n ∈ f, qb n = a + dot g (X n)) (hd : ∀ f ∈ popen, f.2.length = f.1.length) (hv : dualVol es X N ≠ 0) :
    nodalGrad eps es bdry popen X q qb N
      = g - (1 / dualVol es X N) • (popen.map fun f => scatterFace (List.zipWith (fun s A => s • A) f.2 (faceAreas X f.1)) f.1 N).sum := by
  rw [nodalGrad_eq eps es bdry popen X q qb N hd,
    mesh_exact' eps es _ X q qb a g N hc hq hb fun e he => affine_exact eps he0 he1 _ _ _ _ (haff e he), smul_sub, smul_smul, one_div,
    inv_mul_cancel₀ hv, one_smul]

/-! ## C248: constants, any element shape -/

/-- **C248** Constants have zero nodal gradient on every conforming mesh of hexahedra, tetrahedra, wedges and pyramids of any shape (non-affine ones
included), at every node, whatever the dual volume is. -/
theorem c248_const (eps : K) (he0 : 0 < eps) (es : List Elem) (bdry : List (List ℕ)) (X : ℕ → V3 K) (q qb : ℕ → K) (a : K)
    (N : ℕ) (hc : Conforming es bdry) (hq : ∀ e ∈ es, ∀ k < e.topo.nn, q (e.conn k) = a) (hb : ∀ f ∈ bdry, ∀ n ∈ f, qb n = a) :
    nodalGrad eps es bdry [] X q qb N = 0 := by
  rw [nodalGrad_eq eps es bdry [] X q qb N (by simp)]
  simp only [List.map_nil, List.append_nil, List.sum_nil, sub_zero]
  rw [mesh_exact' eps es bdry X q qb a 0 N hc (fun e he k hk => by simp [dot, hq e he k hk]) (fun f hf n hn => by simp [dot, hb f hf n hn])
    fun e he => const_exact eps he0 _ _ _, smul_zero, smul_zero]

/-- **C248** Adding a constant to the field (pressure level) does not change the gradient, on every such mesh, for every field. -/
theorem c248_shift (eps : K) (he0 : 0 < eps) (es : List Elem) (bdry : List (List ℕ)) (X : ℕ → V3 K) (q : ℕ → K) (a : K)
    (N : ℕ) (hc : Conforming es bdry) :
    nodalGrad eps es bdry [] X (fun n => q n + a) (fun n => q n + a) N = nodalGrad eps es bdry [] X q q N := by
  have key := c248_const eps he0 es bdry X (fun _ => a) (fun _ => a) a N hc (fun _ _ _ _ => rfl) fun _ _ _ _ => rfl
  have vals : ∀ (rows : List (List K)) (l1 l2 : List K), l1.length = l2.length →
      ipVals rows (List.zipWith (· + ·) l1 l2) = List.zipWith (· + ·) (ipVals rows l1) (ipVals rows l2) := by
    intro rows l1 l2 hl
    have one : ∀ (r l1 l2 : List K), l1.length = l2.length → (List.zipWith (· * ·) r (List.zipWith (· + ·) l1 l2)).sum
        = (List.zipWith (· * ·) r l1).sum + (List.zipWith (· * ·) r l2).sum := by
      intro r
      induction r with
      | nil => simp
      | cons x r ih =>
        intro l1 l2 h
        cases l1 with
        | nil => cases l2 with
          | nil => simp
          | cons _ _ => simp at h
        | cons y l1 => cases l2 with
          | nil => simp at h
          | cons z l2 =>
            simp only [List.zipWith_cons_cons, List.sum_cons, ih l1 l2 (by simpa using h)]
            ring
    induction rows with
    | nil => rfl
    | cons r rows ih =>
      simp only [ipVals, List.map_cons, List.zipWith_cons_cons, List.cons.injEq] at ih ⊢
      exact ⟨one r l1 l2 hl, ih⟩
  have flux : ∀ (rows : List (List K)) (l1 l2 : List K) (As : List (V3 K)), l1.length = l2.length →
      ipFlux rows (List.zipWith (· + ·) l1 l2) As = List.zipWith (· + ·) (ipFlux rows l1 As) (ipFlux rows l2 As) := by
    intro rows l1 l2 As hl
    unfold ipFlux
    rw [vals rows l1 l2 hl]
    have hl3 : (ipVals rows l1).length = (ipVals rows l2).length := by simp [ipVals]
    generalize ipVals rows l1 = u at hl3
    generalize ipVals rows l2 = v at hl3
    induction u generalizing v As with
    | nil => cases v with
      | nil => rfl
      | cons _ _ => simp at hl3
    | cons x u ih => cases v with
      | nil => simp at hl3
      | cons y v => cases As with
        | nil => rfl
        | cons A As => simp only [List.zipWith_cons_cons, ih As v (by simpa using hl3), add_smul]
  have sScs : ∀ (u v : List (V3 K)) (lr : List (ℕ × ℕ)), u.length = v.length →
      scatterScs (List.zipWith (· + ·) u v) lr N = scatterScs u lr N + scatterScs v lr N := by
    intro u
    induction u with
    | nil => intro v lr h; cases v with
      | nil => simp [scatterScs]
      | cons _ _ => simp at h
    | cons x u ih => intro v lr h; cases v with
      | nil => simp at h
      | cons y v => cases lr with
        | nil => simp [scatterScs]
        | cons p lr =>
          have := ih v lr (by simpa using h)
          simp only [scatterScs, List.zipWith_cons_cons, List.zip_cons_cons, List.map_cons, List.sum_cons] at this ⊢
          rw [this]
          split <;> split <;> abel
  have sFace : ∀ (u v : List (V3 K)) (l : List ℕ), u.length = v.length →
      scatterFace (List.zipWith (· + ·) u v) l N = scatterFace u l N + scatterFace v l N := by
    intro u
    induction u with
    | nil => intro v lr h; cases v with
      | nil => simp [scatterFace]
      | cons _ _ => simp at h
    | cons x u ih => intro v lr h; cases v with
      | nil => simp at h
      | cons y v => cases lr with
        | nil => simp [scatterFace]
        | cons p lr =>
          have := ih v lr (by simpa using h)
          simp only [scatterFace, List.zipWith_cons_cons, List.zip_cons_cons, List.map_cons, List.sum_cons] at this ⊢
          rw [this]
          split <;> abel
  have zmap : ∀ (l : List ℕ) (f g : ℕ → K), l.map (fun n => f n + g n) = List.zipWith (· + ·) (l.map f) (l.map g) := by
    intro l f g
    induction l with
    | nil => rfl
    | cons x l ih => simp only [List.map_cons, List.zipWith_cons_cons, ih]
  have elemA : ∀ e : Elem, e.fluxAt eps X (fun n => q n + a) N = e.fluxAt eps X q N + e.fluxAt eps X (fun _ => a) N := by
    intro e
    unfold Elem.fluxAt
    rw [zmap _ (fun n => q (e.conn n)) fun _ => a, flux _ _ _ _ (by simp), sScs _ _ _ (by simp [ipFlux, ipVals])]
  have faceA : ∀ f : List ℕ, faceFluxAt X (fun n => q n + a) f N = faceFluxAt X q f N + faceFluxAt X (fun _ => a) f N := by
    intro f
    unfold faceFluxAt
    rw [zmap _ q fun _ => a, flux _ _ _ _ (by simp), sFace _ _ _ (by simp [ipFlux, ipVals])]
  rw [nodalGrad_eq eps es bdry [] X _ _ N (by simp)] at key ⊢
  rw [nodalGrad_eq eps es bdry [] X q q N (by simp)]
  simp only [List.map_nil, List.append_nil, List.sum_nil, sub_zero] at key ⊢
  simp only [elemA, faceA]
  rw [sum_map_add, sum_map_add]
  rw [show ∀ w x y z : V3 K, w + x + (y + z) = (w + y) + (x + z) from fun w x y z => by abel, smul_add, key, add_zero]

/-! ## C249: the projected nodal gradient system on a mesh -/

/-- **C249** The exact gradient solves the projected nodal gradient system: with a linear field and the constant gradient at every node of the mesh, every
residual vanishes (affine elements; `sv` any volume shape function table with rows that sum to one). -/
theorem c249_exact (eps : K) (he0 : 0 < eps) (he1 : eps < 1 / 10) (es : List Elem) (bdry : List (List ℕ)) (X : ℕ → V3 K) (q qb : ℕ → K) (a : K) (g : V3 K)
    (G : ℕ → V3 K) (N : ℕ) (hc : Conforming es bdry) (haff : ∀ e ∈ es, Affine e.topo (e.coords X))
    (hq : ∀ e ∈ es, ∀ k < e.topo.nn, q (e.conn k) = a + dot g (X (e.conn k))) (hb : ∀ f ∈ bdry, ∀ n ∈ f, qb n = a + dot g (X n))
    (hG : ∀ e ∈ es, ∀ k < e.topo.nn, G (e.conn k) = g) : pngRhs eps (Topo.shapeV eps) es bdry X q qb G N = 0 := by
  have e1 : (es.map fun e => e.pngAt eps (Topo.shapeV eps) X q G N) = es.map fun e => e.fluxAt eps X q N + -(e.volAt X N • g) := by
    apply List.map_congr_left
    intro e he
    rw [pngAt_eq eps _ (topo_unitRowsV eps he0) e X q G g (hG e he) N, sub_eq_add_neg]
  unfold pngRhs
  rw [e1, sum_map_add, sum_map_neg]
  have h := mesh_exact' eps es bdry X q qb a g N hc hq hb fun e he => affine_exact eps he0 he1 _ _ _ _ (haff e he)
  rw [dualVol, list_sum_smul, List.map_map] at h
  have e2 : (bdry.map fun f => facePngAt X qb f N) = bdry.map fun f => faceFluxAt X qb f N := rfl
  rw [e2, add_right_comm, h]
  exact add_neg_cancel _

/-- **C249** Constants: on elements of any shape the zero gradient solves the system for a constant field. -/
theorem c249_const (eps : K) (he0 : 0 < eps) (es : List Elem) (bdry : List (List ℕ)) (X : ℕ → V3 K) (q qb : ℕ → K) (a : K) (G : ℕ → V3 K) (N : ℕ)
    (hc : Conforming es bdry) (hq : ∀ e ∈ es, ∀ k < e.topo.nn, q (e.conn k) = a) (hb : ∀ f ∈ bdry, ∀ n ∈ f, qb n = a)
    (hG : ∀ e ∈ es, ∀ k < e.topo.nn, G (e.conn k) = 0) : pngRhs eps (Topo.shapeV eps) es bdry X q qb G N = 0 := by
  have e1 : (es.map fun e => e.pngAt eps (Topo.shapeV eps) X q G N) = es.map fun e => e.fluxAt eps X q N := by
    apply List.map_congr_left
    intro e he
    rw [pngAt_eq eps _ (topo_unitRowsV eps he0) e X q G 0 (hG e he) N, smul_zero, sub_zero]
  unfold pngRhs
  rw [e1]
  have h := mesh_exact' eps es bdry X q qb a 0 N hc (fun e he k hk => by simp [dot, hq e he k hk]) (fun f hf n hn => by simp [dot, hb f hf n hn])
    fun e he => const_exact eps he0 _ _ _
  rw [smul_zero] at h
  exact h

/-- **C249** Lumping: the residual of the zero gradient divided by the dual volume is the explicitly computed nodal gradient, for every mesh and field. -/
theorem c249_lumped (eps : K) (he0 : 0 < eps) (es : List Elem) (bdry : List (List ℕ)) (X : ℕ → V3 K) (q qb : ℕ → K) (N : ℕ) :
    nodalGrad eps es bdry [] X q qb N = (1 / dualVol es X N) • pngRhs eps (Topo.shapeV eps) es bdry X q qb (fun _ => 0) N := by
  rw [nodalGrad_eq eps es bdry [] X q qb N (by simp)]
  simp only [List.map_nil, List.append_nil, List.sum_nil, sub_zero]
  unfold pngRhs
  congr 2
  congr 1
  apply List.map_congr_left
  intro e he
  rw [pngAt_eq eps _ (topo_unitRowsV eps he0) e X q _ 0 (fun _ _ => rfl) N, smul_zero, sub_zero]

/-- **C249** and the rows of the matrix sum to the dual volume. -/
theorem c249_rowsum (eps : K) (he0 : 0 < eps) (es : List Elem) (X : ℕ → V3 K) (N : ℕ) (S : Finset ℕ) (hS : ∀ e ∈ es, ∀ k < e.topo.nn, e.conn k ∈ S) :
    ∑ M ∈ S, pngLhs (Topo.shapeV eps) es X N M = dualVol es X N := by
  have one : ∀ e ∈ es, ∑ M ∈ S, scatterFace (List.zipWith (fun r V => scatterFace (r.map fun x => x * V) ((List.range e.topo.nn).map e.conn) M)
      (Topo.shapeV eps e.topo) (e.topo.scv (e.coords X))) ((List.range e.topo.nn).map e.conn) N = e.volAt X N := by
    intro e he
    have hl : ∀ n ∈ (List.range e.topo.nn).map e.conn, n ∈ S := fun n hn => by
      obtain ⟨k, hk, rfl⟩ := List.mem_map.1 hn
      exact hS e he k (List.mem_range.1 hk)
    unfold Elem.volAt
    have hrows := (topo_unitRowsV eps he0 e.topo).1
    have hlen : (Topo.shapeV eps e.topo).length = (e.topo.scv (e.coords X)).length := by rw [(topo_unitRowsV eps he0 e.topo).2, topo_scv_len]
    generalize hc : (List.range e.topo.nn).map e.conn = l at hl
    have hln : l.length = e.topo.nn := by rw [← hc]; simp
    rw [← hln] at hrows
    generalize Topo.shapeV eps e.topo = rows at hrows hlen
    generalize e.topo.scv (e.coords X) = vs at hlen
    suffices ∀ (l' : List ℕ), ∑ M ∈ S, scatterFace (List.zipWith (fun r V => scatterFace (r.map fun x => x * V) l M) rows vs) l' N = scatterFace vs l' N from
      this l
    induction rows generalizing vs with
    | nil =>
      have : vs = [] := List.length_eq_zero_iff.1 hlen.symm
      subst this; simp [scatterFace]
    | cons r rows ih => cases vs with
      | nil => simp at hlen
      | cons v vs =>
        intro l'
        cases l' with
        | nil => simp [scatterFace]
        | cons p l' =>
          have h1 := ih (fun x hx => hrows x (by simp [hx])) vs (by simpa using hlen) l'
          have hr := hrows r (by simp)
          simp only [scatterFace, List.zipWith_cons_cons, List.zip_cons_cons, List.map_cons, List.sum_cons] at h1 ⊢
          rw [Finset.sum_add_distrib, h1]
          congr 1
          by_cases h : p = N
          · simp only [h, if_true]
            have := scatterFace_total S (r.map fun x => x * v) l hl (by simp [hr.1])
            simp only [scatterFace] at this
            rw [this, List.sum_map_mul_right, List.map_id', hr.2, one_mul]
          · simp [h]
  unfold pngLhs dualVol
  have swap : ∀ l : List Elem, (∀ e ∈ l, e ∈ es) → ∑ M ∈ S, (l.map fun e => scatterFace (List.zipWith (fun r V => scatterFace (r.map fun x => x * V)
      ((List.range e.topo.nn).map e.conn) M) (Topo.shapeV eps e.topo) (e.topo.scv (e.coords X))) ((List.range e.topo.nn).map e.conn) N).sum
      = (l.map fun e => e.volAt X N).sum := by
    intro l
    induction l with
    | nil => simp
    | cons e l ih =>
      intro h
      simp only [List.map_cons, List.sum_cons, Finset.sum_add_distrib]
      rw [one e (h e (by simp)), ih fun x hx => h x (by simp [hx])]
  exact swap es fun _ h => h

/-! ## Witnesses -/

/-- The glued hexahedron and pyramid with affine coordinates. -/
def exXa : ℕ → V3 ℚ
  | 0 => (0, 0, 0) | 1 => (1, 0, 0) | 2 => (2, 1, 0) | 3 => (1, 1, 0)
  | 4 => (0, 0, 1) | 5 => (1, 0, 1) | 6 => (2, 1, 1) | 7 => (1, 1, 1) | _ => (1/2, 1/2, 3)
example : ∀ e ∈ exMesh, Affine e.topo (e.coords exXa) := by
  intro e he
  simp only [exMesh, List.mem_cons, List.not_mem_nil, or_false] at he
  rcases he with rfl | rfl <;> simp only [Affine] <;> decide +kernel
example : dualVol exMesh exXa 0 = 1 / 8 ∧ dualVol exMesh exXa 5 ≠ 0 ∧ dualVol exMesh exXa 8 ≠ 0 := by decide +kernel
/-- The corner value of a field with gradient (2,-1,3). -/
example : nodalGrad (1 / 1000) exMesh exBdry [] exXa (fun n => 7 + dot (2, -1, 3) (exXa n)) (fun n => 7 + dot (2, -1, 3) (exXa n)) 5 = (2, -1, 3) := by
  decide +kernel
/-- A non-affine element is not exact for linear fields: the hypothesis of C247 is needed. -/
example : nodalGrad (1 / 1000) exMesh exBdry [] exX (fun n => 7 + dot (2, -1, 3) (exX n)) (fun n => 7 + dot (2, -1, 3) (exX n)) 5 ≠ (2, -1, 3) := by
  decide +kernel
/-- Dynamic pressure on the bottom face. -/
example : nodalGrad (1 / 1000) exMesh (exBdry.erase [0, 3, 2, 1]) [([0, 3, 2, 1], [1, 2, 3, 4])] exXa (fun n => 7 + dot (2, -1, 3) (exXa n))
    (fun n => 7 + dot (2, -1, 3) (exXa n)) 0 = (2, -1, 5) := by decide +kernel

/-- A general quadrilateral and a triangle. -/
def exMesh2 : List Elem2 := [⟨.quad, fun n => n⟩, ⟨.tri, fun n => if n = 0 then 1 else if n = 1 then 4 else 2⟩]
/-- Coordinates. -/
def exX2 : ℕ → ℚ × ℚ
  | 0 => (0, 0) | 1 => (1, 0) | 2 => (3/2, 2) | 3 => (0, 1) | _ => (2, 1/2)
example : Conforming2 exMesh2 [[0, 1], [2, 3], [3, 0], [1, 4], [4, 2]] := ⟨[[1, 2]], by decide⟩
example : dualVol2 (1 / 7) (2 / 7) exMesh2 exX2 1 ≠ 0 := by decide +kernel

end Verif.ElemGeom
