import Verif.Model.Nso
import Verif.Spec.Nso
import Verif.Proofs.ElemKernel
import Verif.Props.ElemKernel
import Mathlib.Tactic.Linarith
import Mathlib.Tactic.Positivity
import Mathlib.Tactic.FieldSimp

/-!
# Closed forms of the stabilization kernels
-/

namespace Nalu.Nso
open Nalu.Edge Nalu.Kernel Nalu.Nso.Spec

variable {nn nip nd : ℕ}

theorem quad_eq (g : Fin nd → Fin nd → ℝ) (v : Fin nd → ℝ) : quad g v = form g v := rfl

/-! ## The viscosity -/

theorem nuResidual_nonneg (o : Opt) (gup : Fin nd → Fin nd → ℝ) (R : ℝ) (dq : Fin nd → ℝ) : 0 ≤ nuResidual o gup R dq :=
  Real.sqrt_nonneg _

theorem nuResidual_sq (o : Opt) (gup : Fin nd → Fin nd → ℝ) (R : ℝ) (dq : Fin nd → ℝ) (hg : Psd gup) (hs : 0 < o.small) :
    nuResidual o gup R dq ^ 2 * (form gup dq + o.small) = R ^ 2 := by
  have h : 0 < form gup dq + o.small := by linarith [hg dq]
  rw [nuResidual, Real.sq_sqrt (by rw [quad_eq]; exact div_nonneg (mul_self_nonneg _) h.le), quad_eq]
  field_simp

/-! ## The flux loop -/

theorem lhsfac_eq (gup : Fin nd → Fin nd → ℝ) (a g : Fin nd → ℝ) : lhsfac gup a g = -∑ i, a i * ∑ j, gup i j * g j := by
  simp only [lhsfac, Finset.sum_neg_distrib, Finset.mul_sum]
  congr 1
  exact Finset.sum_congr rfl fun i _ => Finset.sum_congr rfl fun j _ => by ring

theorem sum_lhsfac (gup : Fin nd → Fin nd → ℝ) (a : Fin nd → ℝ) (dn : Fin nn → Fin nd → ℝ) (q : Fin nn → ℝ) :
    ∑ ic, lhsfac gup a (dn ic) * q ic = -∑ i, a i * ∑ j, gup i j * grad dn q j := by
  simp only [lhsfac_eq, neg_mul, Finset.sum_neg_distrib, grad, Finset.mul_sum, Finset.sum_mul]
  congr 1
  rw [Finset.sum_comm]
  refine Finset.sum_congr rfl fun i _ => ?_
  rw [Finset.sum_comm]
  exact Finset.sum_congr rfl fun j _ => Finset.sum_congr rfl fun ic _ => by ring

theorem gijFac_eq (o : Opt) (gup : Fin nd → Fin nd → ℝ) (r : Fin nn → ℝ) (dn : Fin nn → Fin nd → ℝ) (a : Fin nd → ℝ)
    (q : Fin nn → ℝ) (G : Fin nn → Fin nd → ℝ) :
    gijFac o gup r dn a q G = ∑ i, a i * ∑ j, gup i j * (grad dn q j - o.fourthFac * coordIp r G j) := by
  simp only [gijFac, grad, coordIp, Finset.mul_sum, ← Finset.sum_sub_distrib]
  rw [Finset.sum_comm]
  refine Finset.sum_congr rfl fun i _ => ?_
  rw [Finset.sum_comm]
  exact Finset.sum_congr rfl fun j _ => Finset.sum_congr rfl fun ic _ => by ring

variable {ι : Type*} [DecidableEq ι]

theorem fluxLoop_rhs (o : Opt) (nu : ℝ) (gup : Fin nd → Fin nd → ℝ) (r : Fin nn → ℝ)
    (dn : Fin nn → Fin nd → ℝ) (a : Fin nd → ℝ) (q : Fin nn → ℝ) (G : Fin nn → Fin nd → ℝ) (L R : ι) (col : Fin nn → ι)
    (s : LocalSys ι ℝ) (x : ι) :
    (fluxLoop o nu gup r dn a q G L R col s).rhs x
      = s.rhs x - lrs x L R (flux nu gup (fun j => grad dn q j - o.fourthFac * coordIp r G j) a) := by
  have h := loop_rhs (δ := fun _ : Fin nn => (0 : ℝ)) (body := fun ic s =>
    addL (addL s L (col ic) (nu * lhsfac gup a (dn ic))) R (col ic) (-(nu * lhsfac gup a (dn ic)))) (s := s) x
    (by intro k s; simp)
  simp only [fluxLoop, addR_rhs, h, gijFac_eq, flux, lrs, Finset.sum_const_zero]
  split_ifs <;> ring

theorem fluxLoop_act [Fintype ι] (o : Opt) (nu : ℝ) (gup : Fin nd → Fin nd → ℝ) (r : Fin nn → ℝ)
    (dn : Fin nn → Fin nd → ℝ) (a : Fin nd → ℝ) (q : Fin nn → ℝ) (G : Fin nn → Fin nd → ℝ) (L R : ι) (col : Fin nn → ι)
    (s : LocalSys ι ℝ) (d : ι → ℝ) (x : ι) :
    act (fluxLoop o nu gup r dn a q G L R col s) d x
      = act s d x + lrs x L R (flux nu gup (grad dn fun ic => d (col ic)) a) := by
  have h := loop_act (δ := fun ic : Fin nn => lrs x L R (nu * lhsfac gup a (dn ic) * d (col ic))) (body := fun ic s =>
    addL (addL s L (col ic) (nu * lhsfac gup a (dn ic))) R (col ic) (-(nu * lhsfac gup a (dn ic)))) (s := s) d x
    (by intro k s; simp only [addL_act, lrs]; split_ifs <;> ring)
  simp only [fluxLoop, addR_act, h, lrs_sum]
  congr 2
  simp only [mul_assoc, ← Finset.mul_sum, sum_lhsfac, flux]
  ring

/-! ## Scalar kernels -/

theorem scalar_rhs (o : Opt) (nu : Fin nip → ℝ) (e : Scs nn nip nd ℝ) (gup : Fin nip → Fin nd → Fin nd → ℝ) (q : Fin nn → ℝ)
    (G : Fin nn → Fin nd → ℝ) (s : LocalSys (Fin nn) ℝ) (x : Fin nn) :
    (loop nip (fun ip s => fluxLoop o (nu ip) (gup ip) (e.shape ip) (e.dndx ip) (e.area ip) q G
      (e.il ip) (e.ir ip) id s) s).rhs x = s.rhs x - ∑ ip, lrs x (e.il ip) (e.ir ip)
        (flux (nu ip) (gup ip) (fun j => grad (e.dndx ip) q j - o.fourthFac * coordIp (e.shape ip) G j) (e.area ip)) := by
  rw [sub_eq_add_neg, ← Finset.sum_neg_distrib, loop_rhs (a := x)]
  intro ip s
  rw [fluxLoop_rhs]; ring

theorem scalar_act (o : Opt) (nu : Fin nip → ℝ) (e : Scs nn nip nd ℝ) (gup : Fin nip → Fin nd → Fin nd → ℝ) (q : Fin nn → ℝ)
    (G : Fin nn → Fin nd → ℝ) (s : LocalSys (Fin nn) ℝ) (d : Fin nn → ℝ) (x : Fin nn) :
    act (loop nip (fun ip s => fluxLoop o (nu ip) (gup ip) (e.shape ip) (e.dndx ip) (e.area ip) q G
      (e.il ip) (e.ir ip) id s) s) d x = act s d x + ∑ ip, lrs x (e.il ip) (e.ir ip)
        (flux (nu ip) (gup ip) (grad (e.dndx ip) d) (e.area ip)) := by
  rw [loop_act (a := x)]
  intro ip s
  rw [fluxLoop_act]; rfl

/-! ## Momentum kernels -/

theorem momentumWith_rhs (o : Opt) (nu : Fin nip → Fin nd → ℝ) (e : Scs nn nip nd ℝ) (gup : Fin nip → Fin nd → Fin nd → ℝ)
    (u : Fin nn → Fin nd → ℝ) (Gju : Fin nn → Fin nd → Fin nd → ℝ) (s : LocalSys (Fin nn × Fin nd) ℝ) (n : Fin nn) (k : Fin nd) :
    (momentumWith o nu e gup u Gju s).rhs (n, k) = s.rhs (n, k) - ∑ ip, lrs n (e.il ip) (e.ir ip)
      (flux (nu ip k) (gup ip) (fun j => grad (e.dndx ip) (fun ic => u ic k) j
        - o.fourthFac * coordIp (e.shape ip) (fun ic => Gju ic k) j) (e.area ip)) := by
  rw [sub_eq_add_neg, ← Finset.sum_neg_distrib, momentumWith, loop_rhs (a := (n, k))]
  intro ip s
  rw [loop_rhs (a := (n, k)) (δ := fun k' => -lrs (n, k) (e.il ip, k') (e.ir ip, k')
      (flux (nu ip k') (gup ip) (fun j => grad (e.dndx ip) (fun ic => u ic k') j
        - o.fourthFac * coordIp (e.shape ip) (fun ic => Gju ic k') j) (e.area ip)))]
  · rw [Finset.sum_neg_distrib, sum_lrs_pair]
  · intro k' s
    rw [fluxLoop_rhs]; ring

theorem momentumWith_act (o : Opt) (nu : Fin nip → Fin nd → ℝ) (e : Scs nn nip nd ℝ) (gup : Fin nip → Fin nd → Fin nd → ℝ)
    (u : Fin nn → Fin nd → ℝ) (Gju : Fin nn → Fin nd → Fin nd → ℝ) (s : LocalSys (Fin nn × Fin nd) ℝ) (d : Fin nn × Fin nd → ℝ)
    (n : Fin nn) (k : Fin nd) :
    act (momentumWith o nu e gup u Gju s) d (n, k) = act s d (n, k) + ∑ ip, lrs n (e.il ip) (e.ir ip)
      (flux (nu ip k) (gup ip) (grad (e.dndx ip) (fun ic => d (ic, k))) (e.area ip)) := by
  rw [momentumWith, loop_act (a := (n, k))]
  intro ip s
  rw [loop_act (a := (n, k)) (δ := fun k' => lrs (n, k) (e.il ip, k') (e.ir ip, k')
      (flux (nu ip k') (gup ip) (grad (e.dndx ip) (fun ic => d (ic, k'))) (e.area ip)))]
  · rw [sum_lrs_pair]
  · intro k' s
    rw [fluxLoop_act]

/-! ## The stress form -/

/-- What one node contributes to the flux. -/
noncomputable def sijRow (nu : ℝ) (gup : Fin nd → Fin nd → ℝ) (dn a w : Fin nd → ℝ) (i : Fin nd) : ℝ :=
  (∑ j, -nu * gup i j * dn i * a j * w j) + (∑ j, -nu * gup i j * dn j * a j) * w i

theorem sijBody_rhs (o : Opt) (nu divU : ℝ) (gup : Fin nd → Fin nd → ℝ) (dn a : Fin nd → ℝ) (il ir ic : Fin nn)
    (u : Fin nd → ℝ) (i : Fin nd) (s : LocalSys (Fin nn × Fin nd) ℝ) (b : Fin nn × Fin nd) :
    (sijBody o nu divU gup dn a il ir ic u i s).rhs b = s.rhs b - lrs b (il, i) (ir, i)
      (sijRow nu gup dn a u i + 2 / 3 * nu * divU * a i * gup i i * o.includeDivU) := by
  unfold sijBody sijRow
  simp only [addR_rhs, addL_rhs]
  rw [loop_rhs (a := b) (δ := fun j => -lrs b (il, i) (ir, i) (-nu * gup i j * dn i * a j * u j))]
  · rw [Finset.sum_neg_distrib, lrs_sum]
    simp only [lrs]; split_ifs <;> ring
  · intro j s
    simp only [addR_rhs, addL_rhs, lrs]; split_ifs <;> ring

theorem sijBody_act (o : Opt) (nu divU : ℝ) (gup : Fin nd → Fin nd → ℝ) (dn a : Fin nd → ℝ) (il ir ic : Fin nn)
    (u : Fin nd → ℝ) (i : Fin nd) (s : LocalSys (Fin nn × Fin nd) ℝ) (d : Fin nn × Fin nd → ℝ) (b : Fin nn × Fin nd) :
    act (sijBody o nu divU gup dn a il ir ic u i s) d b = act s d b + lrs b (il, i) (ir, i)
      (sijRow nu gup dn a (fun j => d (ic, j)) i) := by
  unfold sijBody sijRow
  simp only [addR_act, addL_act]
  rw [loop_act (a := b) (δ := fun j => lrs b (il, i) (ir, i) (-nu * gup i j * dn i * a j * d (ic, j)))]
  · rw [lrs_sum]
    simp only [lrs]; split_ifs <;> ring
  · intro j s
    simp only [addR_act, addL_act, lrs]; split_ifs <;> ring

/-- The velocity gradient at an integration point, `H i j = du_i/dx_j`. -/
def velGrad (dn : Fin nn → Fin nd → ℝ) (u : Fin nn → Fin nd → ℝ) : Matrix (Fin nd) (Fin nd) ℝ :=
  Matrix.of fun i j => grad dn (fun ic => u ic i) j

theorem sum_sijRow (nu : ℝ) (gup : Fin nd → Fin nd → ℝ) (dn : Fin nn → Fin nd → ℝ) (a : Fin nd → ℝ) (u : Fin nn → Fin nd → ℝ)
    (i : Fin nd) : ∑ ic, sijRow nu gup (dn ic) a (u ic) i = stressFlux nu gup (velGrad dn u) 0 a i := by
  simp only [sijRow, stressFlux, velGrad, grad, Matrix.of_apply, zero_mul, mul_zero, sub_zero, Finset.sum_mul, Finset.mul_sum,
    ← Finset.sum_add_distrib]
  rw [Finset.sum_comm]
  refine Finset.sum_congr rfl fun j _ => ?_
  exact Finset.sum_congr rfl fun ic _ => by ring

theorem stressFlux_add (nu : ℝ) (g : Fin nd → Fin nd → ℝ) (H : Matrix (Fin nd) (Fin nd) ℝ) (m : ℝ) (a : Fin nd → ℝ) (i : Fin nd) :
    stressFlux nu g H m a i = stressFlux nu g H 0 a i + m * (2 / 3 * nu * H.trace * a i * g i i) := by
  have h : ∀ j, g i j * (H i j + H j i - 2 / 3 * (m * H.trace) * if i = j then 1 else 0) * a j
      = g i j * (H i j + H j i) * a j - if i = j then 2 / 3 * (m * H.trace) * g i j * a j else 0 := by
    intro j; split_ifs <;> ring
  simp only [stressFlux, h, Finset.sum_sub_distrib, Finset.sum_ite_eq, Finset.mem_univ, if_true, zero_mul, mul_zero, sub_zero]
  ring

theorem momentumSij_rhs (o : Opt) (e : Scs nn nip nd ℝ) (gup glo : Fin nip → Fin nd → Fin nd → ℝ) (f : KNodes nn nd)
    (s : LocalSys (Fin nn × Fin nd) ℝ) (n : Fin nn) (i : Fin nd) :
    (momentumSij o e gup glo f s).rhs (n, i) = s.rhs (n, i) - ∑ ip, lrs n (e.il ip) (e.ir ip)
      (stressFlux (keNu o 1 (gup ip) (glo ip) (e.shape ip) (e.dndx ip) f) (gup ip) (velGrad (e.dndx ip) f.u)
        (nn * o.includeDivU) (e.area ip) i) := by
  rw [sub_eq_add_neg, ← Finset.sum_neg_distrib, momentumSij, loop_rhs (a := (n, i))]
  intro ip s
  simp only
  set nu := keNu o 1 (gup ip) (glo ip) (e.shape ip) (e.dndx ip) f with hnu
  set divU := ∑ ic, ∑ j, f.u ic j * e.dndx ip ic j with hd
  rw [loop_rhs (a := (n, i)) (δ := fun ic => -lrs n (e.il ip) (e.ir ip)
      (sijRow nu (gup ip) (e.dndx ip ic) (e.area ip) (f.u ic) i + 2 / 3 * nu * divU * e.area ip i * gup ip i i * o.includeDivU))]
  · rw [Finset.sum_neg_distrib, lrs_sum, Finset.sum_add_distrib, sum_sijRow, stressFlux_add (m := nn * o.includeDivU)]
    have ht : (velGrad (e.dndx ip) f.u).trace = divU := by
      simp only [Matrix.trace, Matrix.diag_apply, velGrad, Matrix.of_apply, grad, hd]
      rw [Finset.sum_comm]
    rw [ht, Finset.sum_const, Finset.card_univ, Fintype.card_fin, nsmul_eq_mul]
    congr 3
    ring
  · intro ic s
    rw [loop_rhs (a := (n, i)) (δ := fun k => -lrs (n, i) (e.il ip, k) (e.ir ip, k)
      (sijRow nu (gup ip) (e.dndx ip ic) (e.area ip) (f.u ic) k + 2 / 3 * nu * divU * e.area ip k * gup ip k k * o.includeDivU))]
    · rw [Finset.sum_neg_distrib, sum_lrs_pair]
    · intro k s
      rw [sijBody_rhs]; ring

theorem momentumSij_act (o : Opt) (e : Scs nn nip nd ℝ) (gup glo : Fin nip → Fin nd → Fin nd → ℝ) (f : KNodes nn nd)
    (s : LocalSys (Fin nn × Fin nd) ℝ) (d : Fin nn × Fin nd → ℝ) (n : Fin nn) (i : Fin nd) :
    act (momentumSij o e gup glo f s) d (n, i) = act s d (n, i) + ∑ ip, lrs n (e.il ip) (e.ir ip)
      (stressFlux (keNu o 1 (gup ip) (glo ip) (e.shape ip) (e.dndx ip) f) (gup ip) (velGrad (e.dndx ip) (fun ic j => d (ic, j)))
        0 (e.area ip) i) := by
  rw [momentumSij, loop_act (a := (n, i))]
  intro ip s
  simp only
  rw [loop_act (a := (n, i)) (δ := fun ic => lrs n (e.il ip) (e.ir ip)
      (sijRow (keNu o 1 (gup ip) (glo ip) (e.shape ip) (e.dndx ip) f) (gup ip) (e.dndx ip ic) (e.area ip) (fun j => d (ic, j)) i))]
  · rw [lrs_sum, sum_sijRow _ _ _ _ (fun ic j => d (ic, j))]
  · intro ic s
    rw [loop_act (a := (n, i)) (δ := fun k => lrs (n, i) (e.il ip, k) (e.ir ip, k)
      (sijRow (keNu o 1 (gup ip) (glo ip) (e.shape ip) (e.dndx ip) f) (gup ip) (e.dndx ip ic) (e.area ip) (fun j => d (ic, j)) k))]
    · rw [sum_lrs_pair]
    · intro k s
      rw [sijBody_act]

/-! ## The finite element form -/

theorem femFac_sum (gup : Fin nd → Fin nd → ℝ) (gr : Fin nd → ℝ) (dn : Fin nn → Fin nd → ℝ) (q : Fin nn → ℝ) :
    ∑ ic, femFac gup gr (dn ic) * q ic = ∑ i, ∑ j, gr i * gup i j * grad dn q j := by
  simp only [femFac, grad, Finset.mul_sum, Finset.sum_mul]
  rw [Finset.sum_comm]
  refine Finset.sum_congr rfl fun i _ => ?_
  rw [Finset.sum_comm]
  exact Finset.sum_congr rfl fun j _ => Finset.sum_congr rfl fun ic _ => by ring

theorem femNso_rhs (o : Opt) (e : FemIp nn nip nd) (gup glo : Fin nip → Fin nd → Fin nd → ℝ) (rho : Fin nn → ℝ)
    (v : Fin nn → Fin nd → ℝ) (q : Fin nn → ℝ) (s : LocalSys (Fin nn) ℝ) (a : Fin nn) :
    (femNso o e gup glo rho v q s).rhs a = s.rhs a - ∑ ip, femNu o e gup glo rho v q ip
      * (∑ i, ∑ j, e.dndx ip a i * gup ip i j * grad (e.dndx ip) q j) * (e.detJ ip * e.w ip) := by
  rw [sub_eq_add_neg, ← Finset.sum_neg_distrib, femNso, loop_rhs (a := a)]
  intro ip s
  simp only
  rw [loop_rhs (a := a) (δ := fun ir => if a = ir then -(femNu o e gup glo rho v q ip
      * (∑ i, ∑ j, e.dndx ip ir i * gup ip i j * grad (e.dndx ip) q j) * (e.detJ ip * e.w ip)) else 0)]
  · rw [Finset.sum_ite_eq]; simp
  · intro ir s
    have h := loop_rhs (δ := fun _ : Fin nn => (0 : ℝ)) (body := fun ic s =>
      addL s ir ic (femNu o e gup glo rho v q ip * femFac (gup ip) (e.dndx ip ir) (e.dndx ip ic) * (e.detJ ip * e.w ip)))
      (s := s) a (by intro k s; simp)
    rw [addR_rhs, h, ← femFac_sum]
    simp only [femFac, Finset.sum_const_zero, add_zero, Finset.sum_mul]

theorem femNso_lhs (o : Opt) (e : FemIp nn nip nd) (gup glo : Fin nip → Fin nd → Fin nd → ℝ) (rho : Fin nn → ℝ)
    (v : Fin nn → Fin nd → ℝ) (q : Fin nn → ℝ) (s : LocalSys (Fin nn) ℝ) (a b : Fin nn) :
    (femNso o e gup glo rho v q s).lhs a b = s.lhs a b + ∑ ip, femNu o e gup glo rho v q ip
      * (∑ i, ∑ j, e.dndx ip a i * gup ip i j * e.dndx ip b j) * (e.detJ ip * e.w ip) := by
  rw [femNso, loop_lhs (a := a) (b := b)]
  intro ip s
  simp only
  rw [loop_lhs (a := a) (b := b) (δ := fun ir => if a = ir then femNu o e gup glo rho v q ip
      * (∑ i, ∑ j, e.dndx ip ir i * gup ip i j * e.dndx ip b j) * (e.detJ ip * e.w ip) else 0)]
  · rw [Finset.sum_ite_eq]; simp
  · intro ir s
    rw [addR_lhs, loop_lhs (a := a) (b := b) (δ := fun ic => if b = ic then (if a = ir then femNu o e gup glo rho v q ip
      * femFac (gup ip) (e.dndx ip ir) (e.dndx ip ic) * (e.detJ ip * e.w ip) else 0) else 0)]
    · rw [Finset.sum_ite_eq]; simp [femFac]
    · intro ic s
      rw [addL_lhs]
      by_cases h1 : a = ir <;> by_cases h2 : b = ic <;> simp [h1, h2]

end Nalu.Nso
