import Verif.Proofs.Quadratic3D
import Verif.Proofs.Quadratic2DArea

open Finset

namespace Nalu.P2
open Spec

/-! ### the contributions of the interior surfaces to a node -/

theorem sum2 (f : ℕ → ℝ) : ∑ m ∈ range 2, f m = f 0 + f 1 := by rw [sum_range_succ, sum_range_one]
theorem sum6 (f : ℕ → ℝ) : ∑ m ∈ range 6, f m = f 0 + f 1 + f 2 + f 3 + f 4 + f 5 := by
  rw [sum_range_succ, sum_range_succ, sum_range_succ, sum_range_succ, sum_range_succ, sum_range_one]

theorem scsLoc_end : scsLoc 0 = scsEnd 1 ∧ scsLoc 1 = scsEnd 2 := ⟨rfl, rfl⟩

/-- What the two interior surfaces in one direction contribute to the node at position `d` in that direction. -/
noncomputable def inner (F : ℝ → ℝ) (d : ℕ) : ℝ := (if d < 2 then F (scsEnd (d + 1)) else 0) - if 0 < d then F (scsEnd d) else 0

theorem u_part (x : ℕ → Fin 3 → ℝ) {a b d : ℕ} (ha : a < 3) (hb : b < 3) (hd : d < 3) (c : Fin 3) :
    (∑ m ∈ range 2, ∑ l ∈ range 3, ∑ k ∈ range 3, ∑ j ∈ range 2, ∑ i ∈ range 2,
        if (uIp3 m l k j i).left = hexNode a b d then hex27AreaVec x (uIp3 m l k j i) c else 0)
      - (∑ m ∈ range 2, ∑ l ∈ range 3, ∑ k ∈ range 3, ∑ j ∈ range 2, ∑ i ∈ range 2,
        if (uIp3 m l k j i).right = hexNode a b d then hex27AreaVec x (uIp3 m l k j i) c else 0)
      = inner (fun u => FU x a b u c) d := by
  have l1 : ∀ m l k j i, (uIp3 m l k j i).left = if m = 0 then hexNode k l m else hexNode k l (m + 1) := fun _ _ _ _ _ => rfl
  have l2 : ∀ m l k j i, (uIp3 m l k j i).right = if m = 0 then hexNode k l (m + 1) else hexNode k l m := fun _ _ _ _ _ => rfl
  simp only [l1, l2, sum_ite_zero, u_patch]
  rw [sum2, sum2]
  simp only [if_true, one_ne_zero, if_false, zero_add]
  rw [sum_two _ ha hb (Q := 0 = d) fun k hk l hl => by rw [hexNode_inj hk hl (by norm_num) ha hb hd],
    sum_two _ ha hb (Q := 1 + 1 = d) fun k hk l hl => by rw [hexNode_inj hk hl (by norm_num) ha hb hd],
    sum_two _ ha hb (Q := 1 = d) fun k hk l hl => by rw [hexNode_inj hk hl (by norm_num) ha hb hd],
    sum_two _ ha hb (Q := 1 = d) fun k hk l hl => by rw [hexNode_inj hk hl (by norm_num) ha hb hd]]
  interval_cases d <;> simp [inner, orientation, scsLoc_end] <;> ring

theorem t_part (x : ℕ → Fin 3 → ℝ) {a b d : ℕ} (ha : a < 3) (hb : b < 3) (hd : d < 3) (c : Fin 3) :
    (∑ m ∈ range 2, ∑ l ∈ range 3, ∑ k ∈ range 3, ∑ j ∈ range 2, ∑ i ∈ range 2,
        if (tIp3 m l k j i).left = hexNode a b d then hex27AreaVec x (tIp3 m l k j i) c else 0)
      - (∑ m ∈ range 2, ∑ l ∈ range 3, ∑ k ∈ range 3, ∑ j ∈ range 2, ∑ i ∈ range 2,
        if (tIp3 m l k j i).right = hexNode a b d then hex27AreaVec x (tIp3 m l k j i) c else 0)
      = -inner (fun u => FT x a d u c) b := by
  have l1 : ∀ m l k j i, (tIp3 m l k j i).left = if m = 0 then hexNode k m l else hexNode k (m + 1) l := fun _ _ _ _ _ => rfl
  have l2 : ∀ m l k j i, (tIp3 m l k j i).right = if m = 0 then hexNode k (m + 1) l else hexNode k m l := fun _ _ _ _ _ => rfl
  simp only [l1, l2, sum_ite_zero, t_patch]
  rw [sum2, sum2]
  simp only [if_true, one_ne_zero, if_false, zero_add]
  rw [sum_two _ ha hd (Q := 0 = b) fun k hk l hl => by rw [hexNode_inj hk (by norm_num) hl ha hb hd]; tauto,
    sum_two _ ha hd (Q := 1 + 1 = b) fun k hk l hl => by rw [hexNode_inj hk (by norm_num) hl ha hb hd]; tauto,
    sum_two _ ha hd (Q := 1 = b) fun k hk l hl => by rw [hexNode_inj hk (by norm_num) hl ha hb hd]; tauto,
    sum_two _ ha hd (Q := 1 = b) fun k hk l hl => by rw [hexNode_inj hk (by norm_num) hl ha hb hd]; tauto]
  interval_cases b <;> simp [inner, orientation, scsLoc_end] <;> ring

theorem s_part (x : ℕ → Fin 3 → ℝ) {a b d : ℕ} (ha : a < 3) (hb : b < 3) (hd : d < 3) (c : Fin 3) :
    (∑ m ∈ range 2, ∑ l ∈ range 3, ∑ k ∈ range 3, ∑ j ∈ range 2, ∑ i ∈ range 2,
        if (sIp3 m l k j i).left = hexNode a b d then hex27AreaVec x (sIp3 m l k j i) c else 0)
      - (∑ m ∈ range 2, ∑ l ∈ range 3, ∑ k ∈ range 3, ∑ j ∈ range 2, ∑ i ∈ range 2,
        if (sIp3 m l k j i).right = hexNode a b d then hex27AreaVec x (sIp3 m l k j i) c else 0)
      = inner (fun u => FS x b d u c) a := by
  have l1 : ∀ m l k j i, (sIp3 m l k j i).left = if m = 0 then hexNode m k l else hexNode (m + 1) k l := fun _ _ _ _ _ => rfl
  have l2 : ∀ m l k j i, (sIp3 m l k j i).right = if m = 0 then hexNode (m + 1) k l else hexNode m k l := fun _ _ _ _ _ => rfl
  simp only [l1, l2, sum_ite_zero, s_patch]
  rw [sum2, sum2]
  simp only [if_true, one_ne_zero, if_false, zero_add]
  rw [sum_two _ hb hd (Q := 0 = a) fun k hk l hl => by rw [hexNode_inj (by norm_num) hk hl ha hb hd]; tauto,
    sum_two _ hb hd (Q := 1 + 1 = a) fun k hk l hl => by rw [hexNode_inj (by norm_num) hk hl ha hb hd]; tauto,
    sum_two _ hb hd (Q := 1 = a) fun k hk l hl => by rw [hexNode_inj (by norm_num) hk hl ha hb hd]; tauto,
    sum_two _ hb hd (Q := 1 = a) fun k hk l hl => by rw [hexNode_inj (by norm_num) hk hl ha hb hd]; tauto]
  interval_cases a <;> simp [inner, orientation, scsLoc_end] <;> ring

/-! ### boundary faces -/

/-- The integration point `(i,j)` of the patch `(k,l)` of a face. -/
noncomputable def fIp (l k j i : ℕ) : SideIp 2 := { loc := ![gaussLoc k i, gaussLoc l j], node := quadNode k l, weight := areaWt k l i j }

/-- The node the hexahedron assigns to the points of the patch `(k,l)` of a side. -/
def faceNode (side k l : ℕ) : ℕ :=
  match side with
  | 0 => hexNode k 0 l
  | 1 => hexNode 2 k l
  | 2 => hexNode (2 - k) 2 l
  | 3 => hexNode 0 l k
  | 4 => hexNode l k 0
  | _ => hexNode k l 2

/-- What the boundary faces contribute to a node: the points of the face element, each with the node the parent element assigns to it. -/
noncomputable def boundary3 (x : ℕ → Fin 3 → ℝ) (n : ℕ) (c : Fin 3) : ℝ :=
  ∑ side ∈ range 6, ((face9Ips.zip ((hex27FaceIps side).map FaceIp.node)).map fun e =>
    if e.2 = n then face9AreaVec (sideX x (hexSideNodes side)) e.1 c else 0).sum

theorem zip_side {side : ℕ} (hs : side < 6) : face9Ips.zip ((hex27FaceIps side).map FaceIp.node)
    = (List.range 3).flatMap fun l => (List.range 3).flatMap fun k => (List.range 2).flatMap fun j => (List.range 2).map fun i =>
        (fIp l k j i, faceNode side k l) := by
  interval_cases side <;> rfl

/-- The vector area of the patch `(k,l)` of a face. -/
noncomputable def FF (y : ℕ → Fin 3 → ℝ) (k l : ℕ) (c : Fin 3) : ℝ :=
  ∑ j ∈ range 2, ∑ i ∈ range 2, areaWt k l i j * cr (fun c => map2s y c (gaussLoc k i) (gaussLoc l j))
    (fun c => map2t y c (gaussLoc k i) (gaussLoc l j)) c

theorem f_patch (y : ℕ → Fin 3 → ℝ) (l k : ℕ) (c : Fin 3) :
    ∑ j ∈ range 2, ∑ i ∈ range 2, face9AreaVec y (fIp l k j i) c = FF y k l c := by
  refine Finset.sum_congr rfl fun j _ => Finset.sum_congr rfl fun i _ => ?_
  simp only [face9AreaVec, fIp, crossTan_cr, Matrix.cons_val_zero, Matrix.cons_val_one, tangentF_s, tangentF_t]

theorem boundary3_eq (x : ℕ → Fin 3 → ℝ) (n : ℕ) (c : Fin 3) : boundary3 x n c
    = ∑ side ∈ range 6, ∑ l ∈ range 3, ∑ k ∈ range 3, if faceNode side k l = n then FF (sideX x (hexSideNodes side)) k l c else 0 := by
  refine Finset.sum_congr rfl fun side hs => ?_
  rw [zip_side (mem_range.1 hs)]
  simp only [sum_flatMap_range, sum_map_range, sum_ite_zero, f_patch]

/-! ### traces -/

theorem ell_neg_one (a : ℤ) : ell a (-1) = if a = -1 then 1 else 0 := by
  simp only [ell]; split_ifs <;> norm_num
theorem ell_one (a : ℤ) (h : a = -1 ∨ a = 0 ∨ a = 1) : ell a 1 = if a = 1 then 1 else 0 := by
  rcases h with rfl | rfl | rfl <;> norm_num [ell]

theorem trace0 (f g : ℤ → ℝ → ℝ) (x : ℕ → Fin 3 → ℝ) (c : Fin 3) (s t : ℝ) :
    ∑ n ∈ range 9, f (ref2 n).1 s * g (ref2 n).2 t * sideX x (hexSideNodes 0) n c = m3 f ell g x c s (-1) t := by
  simp [m3, ell_neg_one, sum_range_succ, ref2, ref3, sideX, hexSideNodes]
  ring
theorem trace1 (f g : ℤ → ℝ → ℝ) (x : ℕ → Fin 3 → ℝ) (c : Fin 3) (s t : ℝ) :
    ∑ n ∈ range 9, f (ref2 n).1 s * g (ref2 n).2 t * sideX x (hexSideNodes 1) n c = m3 ell f g x c 1 s t := by
  simp [m3, ell_one, sum_range_succ, ref2, ref3, sideX, hexSideNodes]
  ring
theorem trace3 (f g : ℤ → ℝ → ℝ) (x : ℕ → Fin 3 → ℝ) (c : Fin 3) (s t : ℝ) :
    ∑ n ∈ range 9, f (ref2 n).1 s * g (ref2 n).2 t * sideX x (hexSideNodes 3) n c = m3 ell g f x c (-1) t s := by
  simp [m3, ell_neg_one, sum_range_succ, ref2, ref3, sideX, hexSideNodes]
  ring
theorem trace4 (f g : ℤ → ℝ → ℝ) (x : ℕ → Fin 3 → ℝ) (c : Fin 3) (s t : ℝ) :
    ∑ n ∈ range 9, f (ref2 n).1 s * g (ref2 n).2 t * sideX x (hexSideNodes 4) n c = m3 g f ell x c t s (-1) := by
  simp [m3, ell_neg_one, sum_range_succ, ref2, ref3, sideX, hexSideNodes]
  ring
theorem trace5 (f g : ℤ → ℝ → ℝ) (x : ℕ → Fin 3 → ℝ) (c : Fin 3) (s t : ℝ) :
    ∑ n ∈ range 9, f (ref2 n).1 s * g (ref2 n).2 t * sideX x (hexSideNodes 5) n c = m3 f g ell x c s t 1 := by
  simp [m3, ell_one, sum_range_succ, ref2, ref3, sideX, hexSideNodes]
theorem trace2 (f f' g : ℤ → ℝ → ℝ) (x : ℕ → Fin 3 → ℝ) (c : Fin 3) (s t r : ℝ) (h : ∀ a, a = -1 ∨ a = 0 ∨ a = 1 → f a s = r * f' (-a) (-s)) :
    ∑ n ∈ range 9, f (ref2 n).1 s * g (ref2 n).2 t * sideX x (hexSideNodes 2) n c = r * m3 f' ell g x c (-s) 1 t := by
  have h1 := h (-1) (by norm_num)
  have h2 := h 0 (by norm_num)
  have h3 := h 1 (by norm_num)
  norm_num at h1 h2 h3
  simp [m3, ell_one, sum_range_succ, ref2, ref3, sideX, hexSideNodes, h1, h2, h3]
  ring

theorem ell_reflect (s : ℝ) (a : ℤ) (h : a = -1 ∨ a = 0 ∨ a = 1) : ell a s = 1 * ell (-a) (-s) := by
  rcases h with rfl | rfl | rfl <;> norm_num [ell] <;> ring
theorem dell_reflect (s : ℝ) (a : ℤ) (h : a = -1 ∨ a = 0 ∨ a = 1) : dell a s = -1 * dell (-a) (-s) := by
  rcases h with rfl | rfl | rfl <;> norm_num [dell] <;> ring

theorem gaussLoc_reflect {k : ℕ} (hk : k < 3) {i : ℕ} (hi : i < 2) : -gaussLoc k i = gaussLoc (2 - k) (1 - i) := by
  interval_cases k <;> interval_cases i <;> simp [gaussLoc, isoMap, scsEnd, gaussAbs] <;> ring
theorem areaWt_reflect {k : ℕ} (hk : k < 3) (l i j : ℕ) {i' : ℕ} : areaWt k l i j = areaWt (2 - k) l i' j := by
  have g : ∀ i, gaussWt i = 1 / 2 := fun i => by cases i <;> rfl
  have h : scsEnd (k + 1) - scsEnd k = scsEnd (2 - k + 1) - scsEnd (2 - k) := by
    interval_cases k <;> simp [scsEnd] <;> ring
  simp only [areaWt, g, h]

theorem FF0 (x : ℕ → Fin 3 → ℝ) (k l : ℕ) (c : Fin 3) : FF (sideX x (hexSideNodes 0)) k l c = FT x k l (-1) c := by
  simp only [FF, FT, map2s, map2t, trace0]
theorem FF1 (x : ℕ → Fin 3 → ℝ) (k l : ℕ) (c : Fin 3) : FF (sideX x (hexSideNodes 1)) k l c = FS x k l 1 c := by
  simp only [FF, FS, map2s, map2t, trace1]
theorem FF5 (x : ℕ → Fin 3 → ℝ) (k l : ℕ) (c : Fin 3) : FF (sideX x (hexSideNodes 5)) k l c = FU x k l 1 c := by
  simp only [FF, FU, map2s, map2t, trace5]

theorem areaWt_swap (k l i j : ℕ) : areaWt k l i j = areaWt l k j i := by simp only [areaWt]; ring

theorem FF3 (x : ℕ → Fin 3 → ℝ) (k l : ℕ) (c : Fin 3) : FF (sideX x (hexSideNodes 3)) k l c = -FS x l k (-1) c := by
  simp only [FF, FS, map2s, map2t, trace3]
  rw [Finset.sum_comm, ← Finset.sum_neg_distrib]
  refine Finset.sum_congr rfl fun i _ => ?_
  rw [← Finset.sum_neg_distrib]
  refine Finset.sum_congr rfl fun j _ => ?_
  rw [areaWt_swap, cr_swap]; ring
theorem FF4 (x : ℕ → Fin 3 → ℝ) (k l : ℕ) (c : Fin 3) : FF (sideX x (hexSideNodes 4)) k l c = -FU x l k (-1) c := by
  simp only [FF, FU, map2s, map2t, trace4]
  rw [Finset.sum_comm, ← Finset.sum_neg_distrib]
  refine Finset.sum_congr rfl fun i _ => ?_
  rw [← Finset.sum_neg_distrib]
  refine Finset.sum_congr rfl fun j _ => ?_
  rw [areaWt_swap, cr_swap]; ring

theorem cr_neg_left (a b : Fin 3 → ℝ) (c : Fin 3) : cr (fun c => -1 * a c) b c = -cr a b c := by
  fin_cases c <;> simp [cr] <;> ring

theorem FF2 (x : ℕ → Fin 3 → ℝ) {k : ℕ} (hk : k < 3) (l : ℕ) (c : Fin 3) :
    FF (sideX x (hexSideNodes 2)) k l c = -FT x (2 - k) l 1 c := by
  have hs := fun (c : Fin 3) (s t : ℝ) => trace2 dell dell ell x c s t (-1) fun a h => dell_reflect s a h
  have ht := fun (c : Fin 3) (s t : ℝ) => trace2 ell ell dell x c s t 1 fun a h => ell_reflect s a h
  simp only [FF, FT, map2s, map2t, hs, ht, cr_neg_left, one_mul]
  rw [← Finset.sum_neg_distrib]
  refine Finset.sum_congr rfl fun j _ => ?_
  rw [sum_range_succ, sum_range_succ, sum_range_zero, sum_range_succ, sum_range_succ, sum_range_zero,
    gaussLoc_reflect hk (i := 0) (by norm_num), gaussLoc_reflect hk (i := 1) (by norm_num), areaWt_reflect hk l 0 j (i' := 1),
    areaWt_reflect hk l 1 j (i' := 0)]
  ring

/-- The boundary faces close the outermost volumes. -/
theorem boundary3_node (x : ℕ → Fin 3 → ℝ) {a b d : ℕ} (ha : a < 3) (hb : b < 3) (hd : d < 3) (c : Fin 3) :
    boundary3 x (hexNode a b d) c
      = (if b = 0 then FT x a d (scsEnd 0) c else 0) + (if a = 2 then FS x b d (scsEnd 3) c else 0)
        + (if b = 2 then -FT x a d (scsEnd 3) c else 0) + (if a = 0 then -FS x b d (scsEnd 0) c else 0)
        + (if d = 0 then -FU x a b (scsEnd 0) c else 0) + (if d = 2 then FU x a b (scsEnd 3) c else 0) := by
  rw [boundary3_eq]
  have e0 : scsEnd 0 = -1 := rfl
  have e3 : scsEnd 3 = 1 := rfl
  rw [e0, e3]
  rw [sum6]
  simp only [FF0, FF1, FF3, FF4, FF5]
  rw [sum_two _ ha hd (Q := b = 0) fun k hk l hl => by rw [show faceNode 0 k l = hexNode k 0 l from rfl, hexNode_inj hk (by norm_num) hl ha hb hd]; tauto,
    sum_two _ hb hd (Q := a = 2) fun k hk l hl => by rw [show faceNode 1 k l = hexNode 2 k l from rfl, hexNode_inj (by norm_num) hk hl ha hb hd]; tauto,
    sum_two _ (a := 2 - a) (by omega) hd (Q := b = 2) fun k hk l hl => by
      rw [show faceNode 2 k l = hexNode (2 - k) 2 l from rfl, hexNode_inj (by omega) (by norm_num) hl ha hb hd]; omega,
    sum_two _ hd hb (Q := a = 0) fun k hk l hl => by rw [show faceNode 3 k l = hexNode 0 l k from rfl, hexNode_inj (by norm_num) hl hk ha hb hd]; tauto,
    sum_two _ hb ha (Q := d = 0) fun k hk l hl => by rw [show faceNode 4 k l = hexNode l k 0 from rfl, hexNode_inj hl hk (by norm_num) ha hb hd]; tauto,
    sum_two _ ha hb (Q := d = 2) fun k hk l hl => by rw [show faceNode 5 k l = hexNode k l 2 from rfl, hexNode_inj hk hl (by norm_num) ha hb hd]; tauto,
    FF2 x (by omega), show 2 - (2 - a) = a by omega]

/-- The area vectors of a sub-control volume add up to zero. -/
theorem hex27_closure (x : ℕ → Fin 3 → ℝ) {n : ℕ} (hn : n < 27) (c : Fin 3) :
    (hex27ScsIps.map fun ip => if ip.left = n then hex27AreaVec x ip c else 0).sum
      - (hex27ScsIps.map fun ip => if ip.right = n then hex27AreaVec x ip c else 0).sum + boundary3 x n c = 0 := by
  obtain ⟨a, ha, b, hb, d, hd, rfl⟩ := hexNode_surj hn
  rw [hex27_scs_sum, hex27_scs_sum, boundary3_node x ha hb hd]
  have hu := u_part x ha hb hd c
  have ht := t_part x ha hb hd c
  have hs := s_part x ha hb hd c
  have h := box_closure x a b d c
  have e : ∀ F : ℝ → ℝ, ∀ k < 3, F (scsEnd (k + 1)) - F (scsEnd k) = inner F k + (if k = 2 then F (scsEnd 3) else 0) - if k = 0 then F (scsEnd 0) else 0 := by
    intro F k hk
    interval_cases k <;> simp [inner] <;> ring
  rw [e (fun u => FU x a b u c) d hd, e (fun u => FT x a d u c) b hb, e (fun u => FS x b d u c) a ha] at h
  have n1 : ∀ (p : Prop) [Decidable p] (r : ℝ), (if p then -r else 0) = -(if p then r else 0) := fun p _ r => by split_ifs <;> simp
  simp only [n1]
  linear_combination hu + ht + hs + h

end Nalu.P2
