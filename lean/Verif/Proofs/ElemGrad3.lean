import Verif.Proofs.ElemGrad2D
import Verif.Props.ShapeFunctions
import Mathlib.Algebra.BigOperators.Group.Finset.Basic

set_option linter.unusedSectionVars false
set_option linter.unusedSimpArgs false
set_option linter.unusedVariables false

namespace Verif.ElemGeom

section lists
variable {K : Type*} [Field K]
variable {V : Type*} [AddCommGroup V] [Module K V]

/-- A table of shape function rows: `n` values per row that sum to one. -/
def UnitRows (n : ℕ) (rows : List (List K)) : Prop := ∀ r ∈ rows, r.length = n ∧ r.sum = 1

theorem unitRows_map {n d : ℕ} {N : (Fin d → K) → Fin n → K} (h : Verif.Shape.PartitionOfUnity N) (ps : List (Fin d → K)) :
    UnitRows n (ps.map fun p => List.ofFn (N p)) := by
  intro r hr
  obtain ⟨p, -, rfl⟩ := List.mem_map.1 hr
  exact ⟨List.length_ofFn, by rw [List.sum_ofFn]; exact h p⟩

theorem zipWith_replicate (n : ℕ) (r : List K) (a : K) (h : r.length = n) : (List.zipWith (· * ·) r (List.replicate n a)).sum = r.sum * a := by
  subst h
  induction r with
  | nil => simp
  | cons x r ih => simp only [List.length_cons, List.replicate_succ, List.zipWith_cons_cons, List.sum_cons, ih]; ring

theorem ipFlux_const (n : ℕ) (rows : List (List K)) (hr : UnitRows n rows) (a : K) (As : List V) (hl : As.length ≤ rows.length) :
    ipFlux rows (List.replicate n a) As = As.map fun A => a • A := by
  induction rows generalizing As with
  | nil =>
    have : As = [] := List.length_eq_zero_iff.1 (by simpa using hl)
    subst this; rfl
  | cons r rows ih =>
    cases As with
    | nil => rfl
    | cons A As =>
      have h := hr r (by simp)
      have := ih (fun x hx => hr x (by simp [hx])) As (by simpa using hl)
      simp only [ipFlux, ipVals, List.map_cons, List.zipWith_cons_cons] at this ⊢
      rw [this, zipWith_replicate n r a h.1, h.2, one_mul]

theorem scatterScs_smul (a : K) (q : List V) (lr : List (ℕ × ℕ)) (N : ℕ) : scatterScs (q.map fun A => a • A) lr N = a • scatterScs q lr N := by
  induction q generalizing lr with
  | nil => simp [scatterScs]
  | cons x q ih =>
    cases lr with
    | nil => simp [scatterScs]
    | cons p lr =>
      have := ih lr
      simp only [scatterScs, List.map_cons, List.zip_cons_cons, List.sum_cons] at this ⊢
      rw [this, smul_add, smul_sub]
      congr 2 <;> split <;> simp

theorem scatterFace_smul (a : K) (q : List V) (l : List ℕ) (N : ℕ) : scatterFace (q.map fun A => a • A) l N = a • scatterFace q l N := by
  induction q generalizing l with
  | nil => simp [scatterFace]
  | cons x q ih =>
    cases l with
    | nil => simp [scatterFace]
    | cons p l =>
      have := ih l
      simp only [scatterFace, List.map_cons, List.zip_cons_cons, List.sum_cons] at this ⊢
      rw [this, smul_add]
      congr 1; split <;> simp

theorem scatterFace_zero (q : List V) (hq : ∀ x ∈ q, x = 0) (l : List ℕ) (N : ℕ) : scatterFace q l N = 0 := by
  apply List.sum_eq_zero
  intro x hx
  obtain ⟨p, hp, rfl⟩ := List.mem_map.1 hx
  split
  · exact hq _ (List.of_mem_zip hp).1
  · rfl

/-- Scalars times a fixed vector. -/
theorem scatterFace_mapsmul (q : List K) (g : V) (l : List ℕ) (N : ℕ) : scatterFace (q.map fun x => x • g) l N = scatterFace q l N • g := by
  induction q generalizing l with
  | nil => simp [scatterFace]
  | cons x q ih =>
    cases l with
    | nil => simp [scatterFace]
    | cons p l =>
      have := ih l
      simp only [scatterFace, List.map_cons, List.zip_cons_cons, List.sum_cons] at this ⊢
      rw [this, add_smul]
      congr 1; split <;> simp

/-- Everything a scatter loop distributes arrives at some node. -/
theorem scatterFace_total (S : Finset ℕ) (q : List V) (l : List ℕ) (hl : ∀ n ∈ l, n ∈ S) (hlen : q.length ≤ l.length) :
    ∑ M ∈ S, scatterFace q l M = q.sum := by
  induction q generalizing l with
  | nil => simp [scatterFace]
  | cons x q ih =>
    cases l with
    | nil => simp at hlen
    | cons p l =>
      have := ih l (fun n hn => hl n (by simp [hn])) (by simpa using hlen)
      simp only [scatterFace, List.zip_cons_cons, List.map_cons, List.sum_cons] at this ⊢
      rw [Finset.sum_add_distrib, this]
      congr 1
      rw [Finset.sum_ite_eq S p, if_pos (hl p (by simp))]

theorem smul_sub_lists (vol : ℕ → K) (vs ds : List K) (As : List V) (l : List ℕ) (N : ℕ) (h1 : As.length ≤ vs.length) (h2 : As.length ≤ ds.length) :
    scatterFaceVol vol (List.zipWith (fun s A => s • A) (List.zipWith (fun v d => -d + v) vs ds) As) l N
      = scatterFaceVol vol (List.zipWith (fun s A => s • A) vs As) l N - (1 / vol N) • scatterFace (List.zipWith (fun s A => s • A) ds As) l N := by
  induction As generalizing vs ds l with
  | nil => simp [scatterFaceVol, scatterFace]
  | cons A As ih =>
    cases vs with
    | nil => simp at h1
    | cons v vs =>
      cases ds with
      | nil => simp at h2
      | cons d ds =>
        cases l with
        | nil => simp [scatterFaceVol, scatterFace]
        | cons p l =>
          have := ih vs ds l (by simpa using h1) (by simpa using h2)
          simp only [scatterFaceVol, scatterFace, List.zipWith_cons_cons, List.zip_cons_cons, List.map_cons, List.sum_cons] at this ⊢
          rw [this]
          by_cases h : p = N
          · subst h; simp only [if_true]; module
          · simp only [h, if_false]; module

end lists

section
variable {K : Type*} [Field K] [LinearOrder K] [IsStrictOrderedRing K]

theorem topo_unitRows (eps : K) (he : 0 < eps) (t : Topo) : UnitRows t.nn (t.shape eps) := by
  have h := Verif.Shape.c40_partition_of_unity (K := K)
  cases t
  · exact unitRows_map h.1 _
  · exact unitRows_map h.2.2.1 _
  · exact unitRows_map h.2.2.2.1 _
  · exact unitRows_map (Verif.Shape.c40_pyr_partition_of_unity he) _

theorem topo_unitRowsV (eps : K) (he : 0 < eps) (t : Topo) : UnitRows t.nn (t.shapeV eps) ∧ (t.shapeV eps).length = t.nn := by
  have h := Verif.Shape.c40_partition_of_unity (K := K)
  cases t
  · exact ⟨unitRows_map h.1 _, rfl⟩
  · exact ⟨unitRows_map h.2.2.1 _, rfl⟩
  · exact ⟨unitRows_map h.2.2.2.1 _, rfl⟩
  · exact ⟨unitRows_map (Verif.Shape.c40_pyr_partition_of_unity he) _, rfl⟩

theorem topo_scs_len (eps : K) (t : Topo) (c : ℕ → V3 K) : (t.scs c).length ≤ (t.shape eps).length := by cases t <;> exact le_rfl

theorem topo_scv_len (t : Topo) (c : ℕ → V3 K) : (t.scv c).length = t.nn := by cases t <;> rfl

theorem face_const (f : List ℕ) (X : ℕ → V3 K) (a : K) (q : ℕ → K) (hq : ∀ n ∈ f, q n = a) :
    ipFlux (faceShape f) (f.map q) (faceAreas X f) = (faceAreas X f).map fun A => a • A := by
  have h := Verif.Shape.c40_partition_of_unity (K := K)
  have e : f.map q = List.replicate f.length a := List.eq_replicate_iff.2 ⟨by simp, fun x hx => by
    obtain ⟨n, hn, rfl⟩ := List.mem_map.1 hx; exact hq n hn⟩
  rw [e]
  match f with
  | [] => rfl
  | [_] => rfl
  | [_, _] => rfl
  | [x, y, z] => exact ipFlux_const 3 _ (unitRows_map h.2.2.2.2.2.2.2.1 _) a _ le_rfl
  | [x, y, z, w] => exact ipFlux_const 4 _ (unitRows_map h.2.2.2.2.2.1 _) a _ le_rfl
  | _ :: _ :: _ :: _ :: _ :: _ => rfl

theorem topo_closed (t : Topo) (c : ℕ → V3 K) (n : ℕ) (hn : n < t.nn) :
    scatterScs (t.scs c) t.lr n + (t.sides.map fun s => scatterFace (faceAreas c s) s n).sum = 0 := by
  cases t
  · exact hex_closed c n hn
  · exact tet_closed c n hn
  · exact wed_closed c n hn
  · exact pyr_closed c n hn

/-- Constants are exact on every element. -/
theorem const_exact (eps : K) (he : 0 < eps) (t : Topo) (c : ℕ → V3 K) (a : K) : LocalExact eps t c a 0 := by
  intro n hn
  have hd : ∀ k, a + dot (0 : V3 K) (c k) = a := fun k => by simp [dot]
  simp only [hd, smul_zero]
  have e : (List.range t.nn).map (fun _ => a) = List.replicate t.nn a := by simp
  rw [e, ipFlux_const t.nn _ (topo_unitRows eps he t) a _ (topo_scs_len eps t c), scatterScs_smul]
  have e2 : (t.sides.map fun s => scatterFace (ipFlux (faceShape s) (s.map fun _ => a) (faceAreas c s)) s n)
      = (t.sides.map fun s => scatterFace (faceAreas c s) s n).map fun x => a • x := by
    rw [List.map_map]
    apply List.map_congr_left
    intro s _
    simp only [Function.comp]
    rw [face_const s c a (fun _ => a) (fun _ _ => rfl), scatterFace_smul]
  rw [e2, ← List.smul_sum, ← smul_add, topo_closed t c n hn, smul_zero]

theorem fluxAt_congr (eps : K) (e : Elem) (X : ℕ → V3 K) (q q' : ℕ → K) (h : ∀ k < e.topo.nn, q (e.conn k) = q' (e.conn k)) (N : ℕ) :
    e.fluxAt eps X q N = e.fluxAt eps X q' N := by
  unfold Elem.fluxAt
  congr 2
  apply List.map_congr_left
  intro n hn
  exact h n (List.mem_range.1 hn)

theorem faceFluxAt_congr (X : ℕ → V3 K) (q q' : ℕ → K) (f : List ℕ) (h : ∀ n ∈ f, q n = q' n) (N : ℕ) : faceFluxAt X q f N = faceFluxAt X q' f N := by
  unfold faceFluxAt
  rw [List.map_congr_left h]

/-- The mesh identity with separate interior and boundary fields. -/
theorem mesh_exact' (eps : K) (es : List Elem) (bdry : List (List ℕ)) (X : ℕ → V3 K) (q qb : ℕ → K) (a : K) (g : V3 K) (N : ℕ) (hc : Conforming es bdry)
    (hq : ∀ e ∈ es, ∀ k < e.topo.nn, q (e.conn k) = a + dot g (X (e.conn k))) (hb : ∀ f ∈ bdry, ∀ n ∈ f, qb n = a + dot g (X n))
    (h : ∀ e ∈ es, LocalExact eps e.topo (e.coords X) a g) :
    (es.map fun e => e.fluxAt eps X q N).sum + (bdry.map fun f => faceFluxAt X qb f N).sum = dualVol es X N • g := by
  rw [← mesh_exact eps es bdry X (fun n => a + dot g (X n)) a g N hc (fun _ _ _ _ => rfl) h]
  congr 2
  · apply List.map_congr_left
    intro e he
    exact fluxAt_congr eps e X _ _ (hq e he) N
  · apply List.map_congr_left
    intro f hf
    exact faceFluxAt_congr X _ _ f (hb f hf) N

theorem nodalGrad_eq (eps : K) (es : List Elem) (bdry : List (List ℕ)) (popen : List (List ℕ × List K)) (X : ℕ → V3 K) (q qb : ℕ → K) (N : ℕ)
    (hd : ∀ f ∈ popen, f.2.length = f.1.length) :
    nodalGrad eps es bdry popen X q qb N = (1 / dualVol es X N) •
      ((es.map fun e => e.fluxAt eps X q N).sum + ((bdry ++ popen.map Prod.fst).map fun f => faceFluxAt X qb f N).sum
        - (popen.map fun f => scatterFace (List.zipWith (fun s A => s • A) f.2 (faceAreas X f.1)) f.1 N).sum) := by
  unfold nodalGrad
  have e1 : (es.map fun e => e.gradAt eps (dualVol es X) X q N) = (es.map fun e => e.fluxAt eps X q N).map fun x => (1 / dualVol es X N) • x := by
    rw [List.map_map]; exact List.map_congr_left fun e _ => gradAt_eq _ _ _ _ _ _
  have e2 : (bdry.map fun f => faceGradAt (dualVol es X) X qb f N) = (bdry.map fun f => faceFluxAt X qb f N).map fun x => (1 / dualVol es X N) • x := by
    rw [List.map_map]; exact List.map_congr_left fun e _ => faceGradAt_eq _ _ _ _ _
  have e3 : (popen.map fun f => faceGradPAt (dualVol es X) X qb f.2 f.1 N)
      = (popen.map fun f => faceFluxAt X qb f.1 N - scatterFace (List.zipWith (fun s A => s • A) f.2 (faceAreas X f.1)) f.1 N).map
          fun x => (1 / dualVol es X N) • x := by
    rw [List.map_map]
    apply List.map_congr_left
    intro f hf
    simp only [Function.comp]
    rw [smul_sub, ← faceGradAt_eq (dualVol es X)]
    have hlen := hd f hf
    have hl2 : (faceAreas X f.1).length ≤ f.1.length := by
      match f.1 with
      | [] => simp [faceAreas]
      | [_] => simp [faceAreas]
      | [_, _] => simp [faceAreas]
      | [_, _, _] => exact le_rfl
      | [_, _, _, _] => exact le_rfl
      | _ :: _ :: _ :: _ :: _ :: _ => simp [faceAreas]
    have hl1 : (faceAreas X f.1).length ≤ (ipVals (faceShape f.1) (f.1.map qb)).length := by
      match f.1 with
      | [] => simp [faceAreas]
      | [_] => simp [faceAreas]
      | [_, _] => simp [faceAreas]
      | [_, _, _] => exact le_rfl
      | [_, _, _, _] => exact le_rfl
      | _ :: _ :: _ :: _ :: _ :: _ => simp [faceAreas]
    exact smul_sub_lists _ _ _ _ _ _ hl1 (by omega)
  have e4 : (popen.map fun f => faceFluxAt X qb f.1 N - scatterFace (List.zipWith (fun s A => s • A) f.2 (faceAreas X f.1)) f.1 N).sum
      = ((popen.map Prod.fst).map fun f => faceFluxAt X qb f N).sum
        - (popen.map fun f => scatterFace (List.zipWith (fun s A => s • A) f.2 (faceAreas X f.1)) f.1 N).sum := by
    rw [List.map_map, sub_eq_add_neg, ← sum_map_neg, ← sum_map_add]
    congr 1
    apply List.map_congr_left
    intro f _
    exact sub_eq_add_neg _ _
  rw [e1, e2, e3, ← List.smul_sum, ← List.smul_sum, ← List.smul_sum, e4, List.map_append, List.sum_append, zero_add]
  module

/-- The projected residual of an element. -/
theorem pngAt_eq (eps : K) (sv : Topo → List (List K)) (hsv : ∀ t, UnitRows t.nn (sv t) ∧ (sv t).length = t.nn) (e : Elem) (X : ℕ → V3 K) (q : ℕ → K)
    (G : ℕ → V3 K) (g : V3 K) (hG : ∀ k < e.topo.nn, G (e.conn k) = g) (N : ℕ) :
    e.pngAt eps sv X q G N = e.fluxAt eps X q N - e.volAt X N • g := by
  unfold Elem.pngAt Elem.fluxAt Elem.volAt
  congr 1
  rw [← scatterFace_mapsmul]
  congr 1
  have hlen : (sv e.topo).length = (e.topo.scv (e.coords X)).length := by rw [(hsv _).2, topo_scv_len]
  have row : ∀ r ∈ sv e.topo, (List.zipWith (fun x n => x • G (e.conn n)) r (List.range e.topo.nn)).sum = g := by
    intro r hr
    obtain ⟨h1, h2⟩ := (hsv e.topo).1 r hr
    have e1 : List.zipWith (fun x n => x • G (e.conn n)) r (List.range e.topo.nn) = r.map fun x => x • g := by
      apply List.ext_getElem
      · simp [h1]
      · intro i hi hi2
        simp only [List.getElem_zipWith, List.getElem_range, List.getElem_map]
        rw [hG i (by simpa [h1] using hi2)]
    rw [e1, ← list_sum_smul, h2, one_smul]
  apply List.ext_getElem
  · simp [hlen]
  · intro i hi hi2
    simp only [List.getElem_zipWith, List.getElem_map]
    rw [row _ (List.getElem_mem _)]

end
end Verif.ElemGeom
