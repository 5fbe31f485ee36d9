import Verif.Spec.WallElem
import Verif.Proofs.LegacyElem
import Verif.Proofs.ElemKernel
import Verif.Props.WallFunction

/-!
# Rows of the wall-function assembly
-/

set_option linter.unusedSectionVars false

namespace Nalu.WallElem
open Nalu.Edge Nalu.Kernel Nalu.Force Nalu.Wall Nalu.Legacy

variable {M : Type*} {nd : ℕ}

theorem wallLegacy_rel (o : WallOpts) {w : WallWs} {f : Face M nd} {W : WallData M nd} (hw : w.Holds f W) (F : Fields M nd) (a : Fin 4 → ℕ → ℝ)
    {s0 s : Flat ℝ} {t : LocalSys (Fin f.nf × Fin nd) ℝ} (h : Rel (f.nf * nd) rowV s0 s t) :
    Rel (f.nf * nd) rowV s0
      (wallLegacy o f.nf f.nip nd w (gather1 f.nf (fun ic => F.rho (f.node ic)) (a 0)) (gather1 f.nf (fun ic => F.mu (f.node ic)) (a 1))
        (gather2 f.nf nd (fun ic => F.u (f.node ic)) (a 2)) (gather2 f.nf nd (fun ic => F.ubc (f.node ic)) (a 3)) s)
      (wallKernel o W F f t) := by
  simp only [wallLegacy, wallKernel]
  refine h.loop fun ip s t h => ?_
  simp only [hw.shape, hw.areaVec, hw.near, hw.yp, hw.utau, gather1_get, gather2_get, Wall.aMag]
  refine h.loop fun i s t h => Rel.bumpR encV (h.loop fun j s t h => ?_) (f.near ip, i) rfl rfl
  by_cases hij : i = j
  · simp only [if_pos hij]
    exact h.loop fun ic s t h => Rel.bumpL encV h (f.near ip, i) (ic, i) (colV (f.near ip, i) (ic, i)) rfl
  · simp only [if_neg hij]
    exact h.loop fun ic s t h => Rel.bumpL encV h (f.near ip, i) (ic, j) (colV (f.near ip, i) (ic, j)) rfl

/-- `lambda` at a point. -/
noncomputable def lamAt (o : WallOpts) (W : WallData M nd) (F : Fields M nd) (f : Face M nd) (ip : Fin f.nip) : ℝ :=
  Wall.lambda o.elog o.kappa o.yplusCrit (f.val ip F.rho) (f.val ip F.mu) (W.yp f ip) (W.utau f ip) (Wall.aMag (f.area ip))

section rows
variable {m : ℕ} {near : Fin m} {v : Fin nd → ℝ} {V : Fin nd → Fin nd → ℝ} {N : Fin m → ℝ}

/-- The writes of one integration point. -/
noncomputable def ptStep (near : Fin m) (V : Fin nd → Fin nd → ℝ) (N : Fin m → ℝ) (v : Fin nd → ℝ) (s : LocalSys (Fin m × Fin nd) ℝ) :
    LocalSys (Fin m × Fin nd) ℝ :=
  loop nd (fun i s => addR (loop nd (fun j s => loop m (fun ic s => addL s (near, i) (ic, j) (V i j * N ic)) s) s) (near, i) (v i)) s

theorem ptStep_rhs (s : LocalSys (Fin m × Fin nd) ℝ) (n : Fin m) (k : Fin nd) :
    (ptStep near V N v s).rhs (n, k) = s.rhs (n, k) + if n = near then v k else 0 := by
  rw [ptStep, loop_rhs _ (fun i => if (n, k) = (near, i) then v i else 0) s (n, k) (fun i s => ?_)]
  · congr 1
    by_cases h : n = near
    · subst h; simp
    · simp [h]
  · rw [addR_rhs]
    congr 1
    refine (loop_rhs _ (fun _ => 0) s (n, k) fun j s => ?_).trans (by simp)
    exact loop_rhs _ (fun _ => 0) s (n, k) (fun ic s => by simp) |>.trans (by simp)

theorem ptStep_lhs (s : LocalSys (Fin m × Fin nd) ℝ) (n : Fin m) (k : Fin nd) (c : Fin m) (l : Fin nd) :
    (ptStep near V N v s).lhs (n, k) (c, l) = s.lhs (n, k) (c, l) + if n = near then V k l * N c else 0 := by
  rw [ptStep, loop_lhs _ (fun i => ∑ j, ∑ ic, if (n, k) = (near, i) ∧ (c, l) = (ic, j) then V i j * N ic else 0) s (n, k) (c, l) (fun i s => ?_)]
  · congr 1
    by_cases h : n = near
    · subst h
      rw [if_pos rfl, Finset.sum_eq_single k]
      · rw [Finset.sum_eq_single l]
        · rw [Finset.sum_eq_single c] <;> simp +contextual [eq_comm]
        · intro j _ hj; exact Finset.sum_eq_zero fun ic _ => if_neg fun hh => hj (by rw [Prod.mk.injEq, Prod.mk.injEq] at hh; exact hh.2.2.symm)
        · simp
      · intro i _ hi
        exact Finset.sum_eq_zero fun j _ => Finset.sum_eq_zero fun ic _ => if_neg fun hh => hi (by rw [Prod.mk.injEq] at hh; exact hh.1.2.symm)
      · simp
    · rw [if_neg h]
      exact Finset.sum_eq_zero fun i _ => Finset.sum_eq_zero fun j _ => Finset.sum_eq_zero fun ic _ => if_neg fun hh => h (by
        rw [Prod.mk.injEq] at hh; exact hh.1.1)
  · rw [addR_lhs]
    refine loop_lhs _ _ s _ _ fun j s => ?_
    exact loop_lhs _ _ s _ _ fun ic s => by rw [addL_lhs]
end rows

theorem wallKernel_eq (o : WallOpts) (W : WallData M nd) (F : Fields M nd) (f : Face M nd) (s : LocalSys (Fin f.nf × Fin nd) ℝ) :
    wallKernel o W F f s = loop f.nip (fun ip s => ptStep (f.near ip) (wallLhs (lamAt o W F f ip) (unitNormal (f.area ip))) (f.shape ip)
      (wallRhs (lamAt o W F f ip) (unitNormal (f.area ip)) (fun j => f.val ip fun m => F.u m j) (fun j => f.val ip fun m => F.ubc m j)) s) s := by
  rw [wallKernel]
  congr 1
  funext ip s
  simp only [ptStep]
  congr 1
  funext i s
  congr 1
  congr 1
  funext j s
  by_cases h : i = j
  · subst h; simp only [if_true, wallLhs, lamAt, Wall.lambda, Face.val, unitNormal, gt_iff_lt]; rfl
  · simp only [if_neg h, wallLhs, lamAt, Wall.lambda, Face.val, unitNormal, gt_iff_lt, neg_mul]; rfl

theorem wallKernel_rhs (o : WallOpts) (W : WallData M nd) (F : Fields M nd) (f : Face M nd) (s : LocalSys (Fin f.nf × Fin nd) ℝ)
    (n : Fin f.nf) (i : Fin nd) :
    (wallKernel o W F f s).rhs (n, i) = s.rhs (n, i) + scattered f (fun ip =>
      wallRhs (lamAt o W F f ip) (unitNormal (f.area ip)) (fun j => f.val ip fun m => F.u m j) (fun j => f.val ip fun m => F.ubc m j)) n i := by
  rw [wallKernel_eq, scattered]
  exact loop_rhs _ _ s (n, i) fun ip s => ptStep_rhs s n i

theorem wallKernel_lhs (o : WallOpts) (W : WallData M nd) (F : Fields M nd) (f : Face M nd) (s : LocalSys (Fin f.nf × Fin nd) ℝ)
    (n : Fin f.nf) (i : Fin nd) (c : Fin f.nf) (j : Fin nd) :
    (wallKernel o W F f s).lhs (n, i) (c, j) = s.lhs (n, i) (c, j) +
      ∑ ip, if n = f.near ip then wallLhs (lamAt o W F f ip) (unitNormal (f.area ip)) i j * f.shape ip c else 0 := by
  rw [wallKernel_eq]
  exact loop_lhs _ _ s _ _ fun ip s => ptStep_lhs s n i c j

theorem wallProjected_lhs (o : WallOpts) (W : WallData M nd) (F : Fields M nd) (f : Face M nd) (s : LocalSys (Fin f.nf × Fin nd) ℝ) (a b) :
    (wallProjected o W F f s).lhs a b = s.lhs a b := by
  rw [wallProjected]
  refine (loop_lhs _ (fun _ => 0) s a b fun ip s => ?_).trans (by simp)
  exact (loop_lhs _ (fun _ => 0) s a b fun i s => by simp).trans (by simp)

theorem wallProjected_rhs (o : WallOpts) (W : WallData M nd) (F : Fields M nd) (f : Face M nd) (s : LocalSys (Fin f.nf × Fin nd) ℝ)
    (n : Fin f.nf) (i : Fin nd) :
    (wallProjected o W F f s).rhs (n, i) = s.rhs (n, i) + scattered f (fun ip i => -(projectedPoint o W F f ip).vF i) n i := by
  rw [wallProjected, scattered]
  refine loop_rhs _ _ s (n, i) fun ip s => ?_
  rw [loop_rhs _ (fun k => if (n, i) = (f.near ip, k) then -(projectedPoint o W F f ip).vF k else 0) s (n, i) (fun k s => ?_)]
  · congr 1
    by_cases h : n = f.near ip
    · simp [h]
    · simp [h]
  · rw [addR_rhs]
    rfl

end Nalu.WallElem
