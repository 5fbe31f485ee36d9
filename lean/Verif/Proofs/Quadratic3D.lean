import Verif.Proofs.Quadratic2D

open Finset

namespace Nalu.P2
open Spec

/-! ### the area of a curved patch from its edges -/

/-- A function of two variables, quadratic in each, with its derivatives. -/
structure Patch (y ys yt yst : ℝ → ℝ → ℝ) : Prop where
  s : ∀ t, IsQuad (fun s => y s t) (fun s => ys s t)
  t : ∀ s, IsQuad (fun t => y s t) (fun t => yt s t)
  st : ∀ t, IsQuad (fun s => yt s t) (fun s => yst s t)
  ts : ∀ s, IsQuad (fun t => ys s t) (fun t => yst s t)

/-- The Gauss rule on a patch: four points give the circulation along the four edges, each by two points. -/
theorem patch_area {y ys yt yst z zs zt zst : ℝ → ℝ → ℝ} (hy : Patch y ys yt yst) (hz : Patch z zs zt zst) (k l : ℕ) :
    ∑ j ∈ range 2, ∑ i ∈ range 2, areaWt k l i j *
        (ys (gaussLoc k i) (gaussLoc l j) * zt (gaussLoc k i) (gaussLoc l j) - zs (gaussLoc k i) (gaussLoc l j) * yt (gaussLoc k i) (gaussLoc l j))
      = 1 / 2 * ((∑ j ∈ range 2, lineWt l j * (y (scsEnd (k + 1)) (gaussLoc l j) * zt (scsEnd (k + 1)) (gaussLoc l j)
              - z (scsEnd (k + 1)) (gaussLoc l j) * yt (scsEnd (k + 1)) (gaussLoc l j)))
          - (∑ j ∈ range 2, lineWt l j * (y (scsEnd k) (gaussLoc l j) * zt (scsEnd k) (gaussLoc l j)
              - z (scsEnd k) (gaussLoc l j) * yt (scsEnd k) (gaussLoc l j)))
          - (∑ i ∈ range 2, lineWt k i * (y (gaussLoc k i) (scsEnd (l + 1)) * zs (gaussLoc k i) (scsEnd (l + 1))
              - z (gaussLoc k i) (scsEnd (l + 1)) * ys (gaussLoc k i) (scsEnd (l + 1))))
          + ∑ i ∈ range 2, lineWt k i * (y (gaussLoc k i) (scsEnd l) * zs (gaussLoc k i) (scsEnd l)
              - z (gaussLoc k i) (scsEnd l) * ys (gaussLoc k i) (scsEnd l))) := by
  have a := fun t => gauss_prod (hy.s t) (hz.st t) k
  have b := fun t => gauss_prod (hz.s t) (hy.st t) k
  have c := fun s => gauss_prod (hy.t s) (hz.ts s) l
  have d := fun s => gauss_prod (hz.t s) (hy.ts s) l
  have a0 := a (gaussLoc l 0); have a1 := a (gaussLoc l 1)
  have b0 := b (gaussLoc l 0); have b1 := b (gaussLoc l 1)
  have c0 := c (gaussLoc k 0); have c1 := c (gaussLoc k 1)
  have d0 := d (gaussLoc k 0); have d1 := d (gaussLoc k 1)
  simp only [sum_range_succ, sum_range_zero, zero_add, areaWt_eq] at *
  linear_combination 1 / 2 * (lineWt l 0 * a0 + lineWt l 1 * a1 - lineWt l 0 * b0 - lineWt l 1 * b1)
    - 1 / 2 * (lineWt k 0 * c0 + lineWt k 1 * c1 - lineWt k 0 * d0 - lineWt k 1 * d1)

/-! ### the map of the cube -/

/-- The map of the cube with `f`, `g`, `h` (`ell` or its derivative) in the three directions. -/
noncomputable def m3 (f g h : ℤ → ℝ → ℝ) (x : ℕ → Fin 3 → ℝ) (c : Fin 3) (s t u : ℝ) : ℝ :=
  ∑ n ∈ range 27, f (ref3 n).1 s * g (ref3 n).2.1 t * h (ref3 n).2.2 u * x n c

theorem m3_quad_s (g h : ℤ → ℝ → ℝ) (x : ℕ → Fin 3 → ℝ) (c : Fin 3) (t u : ℝ) :
    IsQuad (fun s => m3 ell g h x c s t u) (fun s => m3 dell g h x c s t u) :=
  IsQuad.sum _ fun _ _ => (((isQuad_ell _).mul_const _).mul_const _).mul_const _

theorem m3_quad_t (f h : ℤ → ℝ → ℝ) (x : ℕ → Fin 3 → ℝ) (c : Fin 3) (s u : ℝ) :
    IsQuad (fun t => m3 f ell h x c s t u) (fun t => m3 f dell h x c s t u) :=
  IsQuad.sum _ fun _ _ => (((isQuad_ell _).const_mul _).mul_const _).mul_const _

theorem m3_quad_u (f g : ℤ → ℝ → ℝ) (x : ℕ → Fin 3 → ℝ) (c : Fin 3) (s t : ℝ) :
    IsQuad (fun u => m3 f g ell x c s t u) (fun u => m3 f g dell x c s t u) :=
  IsQuad.sum _ fun _ _ => ((isQuad_ell _).const_mul _).mul_const _

theorem tangent27_s (x : ℕ → Fin 3 → ℝ) (c : Fin 3) (s t u : ℝ) : tangent 27 (hex27Deriv s t u) x 0 c = m3 dell ell ell x c s t u :=
  Finset.sum_congr rfl fun n hn => by rw [hex27Deriv_eq (mem_range.1 hn)]; simp

theorem tangent27_t (x : ℕ → Fin 3 → ℝ) (c : Fin 3) (s t u : ℝ) : tangent 27 (hex27Deriv s t u) x 1 c = m3 ell dell ell x c s t u :=
  Finset.sum_congr rfl fun n hn => by rw [hex27Deriv_eq (mem_range.1 hn)]; simp

theorem tangent27_u (x : ℕ → Fin 3 → ℝ) (c : Fin 3) (s t u : ℝ) : tangent 27 (hex27Deriv s t u) x 2 c = m3 ell ell dell x c s t u :=
  Finset.sum_congr rfl fun n hn => by rw [hex27Deriv_eq (mem_range.1 hn)]; simp

/-- The patches of constant `u`, `t`, `s`. -/
theorem patch_u (x : ℕ → Fin 3 → ℝ) (c : Fin 3) (u : ℝ) : Patch (fun s t => m3 ell ell ell x c s t u) (fun s t => m3 dell ell ell x c s t u)
    (fun s t => m3 ell dell ell x c s t u) (fun s t => m3 dell dell ell x c s t u) :=
  ⟨fun _ => m3_quad_s .., fun _ => m3_quad_t .., fun _ => m3_quad_s .., fun _ => m3_quad_t ..⟩

theorem patch_t (x : ℕ → Fin 3 → ℝ) (c : Fin 3) (t : ℝ) : Patch (fun s u => m3 ell ell ell x c s t u) (fun s u => m3 dell ell ell x c s t u)
    (fun s u => m3 ell ell dell x c s t u) (fun s u => m3 dell ell dell x c s t u) :=
  ⟨fun _ => m3_quad_s .., fun _ => m3_quad_u .., fun _ => m3_quad_s .., fun _ => m3_quad_u ..⟩

theorem patch_s (x : ℕ → Fin 3 → ℝ) (c : Fin 3) (s : ℝ) : Patch (fun t u => m3 ell ell ell x c s t u) (fun t u => m3 ell dell ell x c s t u)
    (fun t u => m3 ell ell dell x c s t u) (fun t u => m3 ell dell dell x c s t u) :=
  ⟨fun _ => m3_quad_t .., fun _ => m3_quad_u .., fun _ => m3_quad_t .., fun _ => m3_quad_u ..⟩

/-- Component `c` of a cross product. -/
def cr (a b : Fin 3 → ℝ) (c : Fin 3) : ℝ := ![a 1 * b 2 - a 2 * b 1, a 2 * b 0 - a 0 * b 2, a 0 * b 1 - a 1 * b 0] c

/-- The vector area of the patch `(k,l)` of constant `u`, normal in the direction of `u`. -/
noncomputable def FU (x : ℕ → Fin 3 → ℝ) (k l : ℕ) (u : ℝ) (c : Fin 3) : ℝ :=
  ∑ j ∈ range 2, ∑ i ∈ range 2, areaWt k l i j * cr (fun c => m3 dell ell ell x c (gaussLoc k i) (gaussLoc l j) u)
    (fun c => m3 ell dell ell x c (gaussLoc k i) (gaussLoc l j) u) c

/-- The vector area of the patch `(k,l)` of constant `t`, normal against the direction of `t`. -/
noncomputable def FT (x : ℕ → Fin 3 → ℝ) (k l : ℕ) (t : ℝ) (c : Fin 3) : ℝ :=
  ∑ j ∈ range 2, ∑ i ∈ range 2, areaWt k l i j * cr (fun c => m3 dell ell ell x c (gaussLoc k i) t (gaussLoc l j))
    (fun c => m3 ell ell dell x c (gaussLoc k i) t (gaussLoc l j)) c

/-- The vector area of the patch `(k,l)` of constant `s`, normal in the direction of `s`. -/
noncomputable def FS (x : ℕ → Fin 3 → ℝ) (k l : ℕ) (s : ℝ) (c : Fin 3) : ℝ :=
  ∑ j ∈ range 2, ∑ i ∈ range 2, areaWt k l i j * cr (fun c => m3 ell dell ell x c s (gaussLoc k i) (gaussLoc l j))
    (fun c => m3 ell ell dell x c s (gaussLoc k i) (gaussLoc l j)) c

/-- The six faces of a sub-control volume enclose it. -/
theorem box_closure (x : ℕ → Fin 3 → ℝ) (k l m : ℕ) (c : Fin 3) :
    (FU x k l (scsEnd (m + 1)) c - FU x k l (scsEnd m) c) - (FT x k m (scsEnd (l + 1)) c - FT x k m (scsEnd l) c)
      + (FS x l m (scsEnd (k + 1)) c - FS x l m (scsEnd k) c) = 0 := by
  have hU := fun u p q => patch_area (patch_u x p u) (patch_u x q u) k l
  have hT := fun t p q => patch_area (patch_t x p t) (patch_t x q t) k m
  have hS := fun s p q => patch_area (patch_s x p s) (patch_s x q s) l m
  fin_cases c <;> simp only [FU, FT, FS, cr, Fin.zero_eta, Fin.mk_one, Fin.reduceFinMk, Matrix.cons_val_zero, Matrix.cons_val_one, Matrix.cons_val] <;>
    rw [hU, hU, hT, hT, hS, hS] <;> ring

/-! ### the sub-control surfaces of the code -/

theorem crossTan_cr {d : ℕ} (n : ℕ) (D : ℕ → Fin d → ℝ) (x : ℕ → Fin 3 → ℝ) (a b : Fin d) (c : Fin 3) :
    crossTan n D x a b c = cr (fun c => tangent n D x a c) (fun c => tangent n D x b c) c := rfl

theorem cr_swap (a b : Fin 3 → ℝ) (c : Fin 3) : cr b a c = -cr a b c := by
  fin_cases c <;> simp [cr] <;> ring

/-- The integration point `(i,j)` of the patch `(k,l)` on surface `m` of constant `u`, `t`, `s`. -/
noncomputable def uIp3 (m l k j i : ℕ) : ScsIp 3 :=
  { loc := ![gaussLoc k i, gaussLoc l j, scsLoc m], locShift := ![gaussLocShift k i, gaussLocShift l j, scsLoc m]
    left := if m = 0 then hexNode k l m else hexNode k l (m + 1)
    right := if m = 0 then hexNode k l (m + 1) else hexNode k l m
    weight := orientation m * areaWt k l i j, dir := 2 }
/-- see `uIp3` -/
noncomputable def tIp3 (m l k j i : ℕ) : ScsIp 3 :=
  { loc := ![gaussLoc k i, scsLoc m, gaussLoc l j], locShift := ![gaussLocShift k i, scsLoc m, gaussLocShift l j]
    left := if m = 0 then hexNode k m l else hexNode k (m + 1) l
    right := if m = 0 then hexNode k (m + 1) l else hexNode k m l
    weight := orientation m * areaWt k l i j, dir := 1 }
/-- see `uIp3` -/
noncomputable def sIp3 (m l k j i : ℕ) : ScsIp 3 :=
  { loc := ![scsLoc m, gaussLoc k i, gaussLoc l j], locShift := ![scsLoc m, gaussLocShift k i, gaussLocShift l j]
    left := if m = 0 then hexNode m k l else hexNode (m + 1) k l
    right := if m = 0 then hexNode (m + 1) k l else hexNode m k l
    weight := -orientation m * areaWt k l i j, dir := 0 }

theorem hex27_scs_sum (F : ScsIp 3 → ℝ) : (hex27ScsIps.map F).sum
    = (∑ m ∈ range 2, ∑ l ∈ range 3, ∑ k ∈ range 3, ∑ j ∈ range 2, ∑ i ∈ range 2, F (uIp3 m l k j i))
      + (∑ m ∈ range 2, ∑ l ∈ range 3, ∑ k ∈ range 3, ∑ j ∈ range 2, ∑ i ∈ range 2, F (tIp3 m l k j i))
      + ∑ m ∈ range 2, ∑ l ∈ range 3, ∑ k ∈ range 3, ∑ j ∈ range 2, ∑ i ∈ range 2, F (sIp3 m l k j i) := by
  simp only [hex27ScsIps, hex27UIps, hex27TIps, hex27SIps, List.map_append, List.sum_append, sum_flatMap_range, sum_map_range, uIp3, tIp3, sIp3]

theorem u_patch (x : ℕ → Fin 3 → ℝ) (m l k : ℕ) (c : Fin 3) :
    ∑ j ∈ range 2, ∑ i ∈ range 2, hex27AreaVec x (uIp3 m l k j i) c = -orientation m * FU x k l (scsLoc m) c := by
  rw [FU, Finset.mul_sum]
  refine Finset.sum_congr rfl fun j _ => ?_
  rw [Finset.mul_sum]
  refine Finset.sum_congr rfl fun i _ => ?_
  simp only [hex27AreaVec, uIp3, crossTan_cr]
  simp only [Matrix.cons_val_zero, Matrix.cons_val_one, Matrix.cons_val]
  norm_num
  simp only [tangent27_s, tangent27_t]
  rw [cr_swap (fun c => m3 dell ell ell x c (gaussLoc k i) (gaussLoc l j) (scsLoc m))]
  ring

theorem t_patch (x : ℕ → Fin 3 → ℝ) (m l k : ℕ) (c : Fin 3) :
    ∑ j ∈ range 2, ∑ i ∈ range 2, hex27AreaVec x (tIp3 m l k j i) c = orientation m * FT x k l (scsLoc m) c := by
  rw [FT, Finset.mul_sum]
  refine Finset.sum_congr rfl fun j _ => ?_
  rw [Finset.mul_sum]
  refine Finset.sum_congr rfl fun i _ => ?_
  simp only [hex27AreaVec, tIp3, crossTan_cr]
  simp only [Matrix.cons_val_zero, Matrix.cons_val_one, Matrix.cons_val]
  norm_num
  simp only [tangent27_s, tangent27_u]
  ring

theorem s_patch (x : ℕ → Fin 3 → ℝ) (m l k : ℕ) (c : Fin 3) :
    ∑ j ∈ range 2, ∑ i ∈ range 2, hex27AreaVec x (sIp3 m l k j i) c = -orientation m * FS x k l (scsLoc m) c := by
  rw [FS, Finset.mul_sum]
  refine Finset.sum_congr rfl fun j _ => ?_
  rw [Finset.mul_sum]
  refine Finset.sum_congr rfl fun i _ => ?_
  simp only [hex27AreaVec, sIp3, crossTan_cr]
  simp only [Matrix.cons_val_zero, Matrix.cons_val_one, Matrix.cons_val]
  norm_num
  simp only [tangent27_t, tangent27_u]
  ring

/-! ### nodes -/

theorem hexNode_surj {n : ℕ} (hn : n < 27) : ∃ a < 3, ∃ b < 3, ∃ d < 3, n = hexNode a b d := by
  have : ∀ n < 27, ∃ a < 3, ∃ b < 3, ∃ d < 3, n = hexNode a b d := by decide
  exact this n hn

set_option maxRecDepth 20000 in
theorem hexNode_ref {a b d : ℕ} (ha : a < 3) (hb : b < 3) (hd : d < 3) : ref3 (hexNode a b d) = ((a : ℤ) - 1, (b : ℤ) - 1, (d : ℤ) - 1) := by
  interval_cases a <;> interval_cases b <;> interval_cases d <;> rfl

theorem hexNode_inj {k l m a b d : ℕ} (hk : k < 3) (hl : l < 3) (hm : m < 3) (ha : a < 3) (hb : b < 3) (hd : d < 3) :
    hexNode k l m = hexNode a b d ↔ k = a ∧ l = b ∧ m = d := by
  constructor
  · intro h
    have h1 := hexNode_ref hk hl hm
    rw [h, hexNode_ref ha hb hd] at h1
    simp only [Prod.mk.injEq] at h1
    omega
  · rintro ⟨rfl, rfl, rfl⟩; rfl

theorem sum_two (f : ℕ → ℕ → ℝ) {P : ℕ → ℕ → Prop} [∀ k l, Decidable (P k l)] {a b : ℕ} (ha : a < 3) (hb : b < 3) {Q : Prop} [Decidable Q]
    (h : ∀ k < 3, ∀ l < 3, (P k l ↔ k = a ∧ l = b ∧ Q)) :
    (∑ l ∈ range 3, ∑ k ∈ range 3, if P k l then f k l else 0) = if Q then f a b else 0 := by
  rw [Finset.sum_eq_single_of_mem b (mem_range.2 hb)]
  · rw [Finset.sum_eq_single_of_mem a (mem_range.2 ha)]
    · have := h a ha b hb
      by_cases hQ : Q
      · rw [if_pos hQ, if_pos (this.2 ⟨rfl, rfl, hQ⟩)]
      · rw [if_neg hQ, if_neg fun hp => hQ (this.1 hp).2.2]
    · intro k hk hka
      rw [if_neg]; rw [h k (mem_range.1 hk) b hb]; tauto
  · intro l hl hlb
    refine Finset.sum_eq_zero fun k hk => ?_
    rw [if_neg]; rw [h k (mem_range.1 hk) l (mem_range.1 hl)]; tauto

end Nalu.P2
