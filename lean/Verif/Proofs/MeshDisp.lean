import Verif.Model.MeshDisp
import Verif.Spec.MeshDisp
import Verif.Proofs.ElemKernel
import Verif.Props.ElemKernel

/-!
# Closed forms of the mesh displacement kernels
-/

namespace Nalu.MeshDisp
open Nalu.Edge Nalu.Kernel Nalu.MeshDisp.Spec Matrix

variable {K : Type*} [Field K] [LinearOrder K] [IsStrictOrderedRing K] {nn nip nf nd : ℕ}

theorem scatter_rhs {ι : Type*} [DecidableEq ι] (s : LocalSys ι K) (L R col a : ι) (f q : K) :
    (scatter s L R col f q).rhs a = s.rhs a - lrs a L R (f * q) := by
  simp only [scatter, addR_rhs, addL_rhs, lrs]; split_ifs <;> ring

theorem scatter_act {ι : Type*} [DecidableEq ι] [Fintype ι] (s : LocalSys ι K) (L R col a : ι) (f q : K) (d : ι → K) :
    act (scatter s L R col f q) d a = act s d a + lrs a L R (f * d col) := by
  simp only [scatter, addR_act, addL_act, lrs]; split_ifs <;> ring

theorem loop_scat_rhs {m : ℕ} {ι : Type*} [DecidableEq ι] (body : Fin m → LocalSys ι K → LocalSys ι K) (v : Fin m → K)
    (s : LocalSys ι K) (a L R : ι) (h : ∀ k s, (body k s).rhs a = s.rhs a - lrs a L R (v k)) :
    (loop m body s).rhs a = s.rhs a - lrs a L R (∑ k, v k) := by
  rw [loop_rhs (a := a) (δ := fun k => -lrs a L R (v k)) (h := by intro k s; rw [h]; ring),
    Finset.sum_neg_distrib, lrs_sum, sub_eq_add_neg]

theorem loop_scat_act {m : ℕ} {ι : Type*} [DecidableEq ι] [Fintype ι] (body : Fin m → LocalSys ι K → LocalSys ι K) (v : Fin m → K)
    (s : LocalSys ι K) (a L R : ι) (d : ι → K) (h : ∀ k s, act (body k s) d a = act s d a + lrs a L R (v k)) :
    act (loop m body s) d a = act s d a + lrs a L R (∑ k, v k) := by
  rw [loop_act (a := a) (δ := fun k => lrs a L R (v k)) (h := by intro k s; rw [h]), lrs_sum]

/-! ## Elastic -/

/-- What one node contributes to minus the traction, per area vector. -/
def elasticRow (mu lambda : K) (g a w : Fin nd → K) (i : Fin nd) : K :=
  (∑ j, (-mu * g i * a j * w j + ∑ l, -lambda * kd i j * g l * a j * w l)) + (∑ j, -mu * g j * a j) * w i

theorem elasticBody_rhs (mu lambda : K) (g a : Fin nd → K) (il ir ic : Fin nn) (u : Fin nd → K) (i : Fin nd)
    (s : LocalSys (Fin nn × Fin nd) K) (b : Fin nn × Fin nd) :
    (elasticBody mu lambda g a il ir ic u i s).rhs b
      = s.rhs b - lrs b (il, i) (ir, i) (elasticRow mu lambda g a u i) := by
  unfold elasticBody elasticRow
  simp only
  rw [scatter_rhs, loop_scat_rhs (v := fun j => -mu * g i * a j * u j + ∑ l, -lambda * kd i j * g l * a j * u l)
    (L := (il, i)) (R := (ir, i)), lrs_add]
  · ring
  · intro j s
    rw [loop_scat_rhs (v := fun l => -lambda * kd i j * g l * a j * u l) (L := (il, i)) (R := (ir, i)), scatter_rhs, lrs_add]
    · ring
    · intro l s
      rw [scatter_rhs]

theorem elasticBody_act (mu lambda : K) (g a : Fin nd → K) (il ir ic : Fin nn) (u : Fin nd → K) (i : Fin nd)
    (s : LocalSys (Fin nn × Fin nd) K) (d : Fin nn × Fin nd → K) (b : Fin nn × Fin nd) :
    act (elasticBody mu lambda g a il ir ic u i s) d b
      = act s d b + lrs b (il, i) (ir, i) (elasticRow mu lambda g a (fun j => d (ic, j)) i) := by
  unfold elasticBody elasticRow
  simp only
  rw [scatter_act, loop_scat_act (v := fun j => -mu * g i * a j * d (ic, j) + ∑ l, -lambda * kd i j * g l * a j * d (ic, l))
    (L := (il, i)) (R := (ir, i)), lrs_add]
  · ring
  · intro j s
    rw [loop_scat_act (v := fun l => -lambda * kd i j * g l * a j * d (ic, l)) (L := (il, i)) (R := (ir, i)), scatter_act, lrs_add]
    · ring
    · intro l s
      rw [scatter_act]

theorem elastic_rhs (e : Scs nn nip nd K) (mu lambda : Fin nn → K) (u : Fin nn → Fin nd → K)
    (s : LocalSys (Fin nn × Fin nd) K) (n : Fin nn) (i : Fin nd) :
    (elastic e mu lambda u s).rhs (n, i) = s.rhs (n, i) - ∑ ip, lrs n (e.il ip) (e.ir ip)
      (∑ ic, elasticRow (interp (e.shape ip) mu) (interp (e.shape ip) lambda) (e.dndx ip ic) (e.area ip) (u ic) i) := by
  rw [elastic, loop_rhs (a := (n, i)) (δ := fun ip => -lrs n (e.il ip) (e.ir ip)
    (∑ ic, elasticRow (interp (e.shape ip) mu) (interp (e.shape ip) lambda) (e.dndx ip ic) (e.area ip) (u ic) i))]
  · rw [Finset.sum_neg_distrib, sub_eq_add_neg]
  · intro ip s
    simp only
    rw [loop_rhs (a := (n, i)) (δ := fun ic => -lrs n (e.il ip) (e.ir ip)
      (elasticRow (interp (e.shape ip) mu) (interp (e.shape ip) lambda) (e.dndx ip ic) (e.area ip) (u ic) i))]
    · rw [Finset.sum_neg_distrib, lrs_sum]
    · intro ic s
      rw [loop_rhs (a := (n, i)) (δ := fun k => -lrs (n, i) (e.il ip, k) (e.ir ip, k)
        (elasticRow (interp (e.shape ip) mu) (interp (e.shape ip) lambda) (e.dndx ip ic) (e.area ip) (u ic) k))]
      · rw [Finset.sum_neg_distrib, sum_lrs_pair]
      · intro k s
        rw [elasticBody_rhs]; ring

theorem elastic_act (e : Scs nn nip nd K) (mu lambda : Fin nn → K) (u : Fin nn → Fin nd → K)
    (s : LocalSys (Fin nn × Fin nd) K) (d : Fin nn × Fin nd → K) (n : Fin nn) (i : Fin nd) :
    act (elastic e mu lambda u s) d (n, i) = act s d (n, i) + ∑ ip, lrs n (e.il ip) (e.ir ip)
      (∑ ic, elasticRow (interp (e.shape ip) mu) (interp (e.shape ip) lambda) (e.dndx ip ic) (e.area ip) (fun j => d (ic, j)) i) := by
  rw [elastic, loop_act (a := (n, i))]
  intro ip s
  simp only
  rw [loop_act (a := (n, i)) (δ := fun ic => lrs n (e.il ip) (e.ir ip)
    (elasticRow (interp (e.shape ip) mu) (interp (e.shape ip) lambda) (e.dndx ip ic) (e.area ip) (fun j => d (ic, j)) i))]
  · rw [lrs_sum]
  · intro ic s
    rw [loop_act (a := (n, i)) (δ := fun k => lrs (n, i) (e.il ip, k) (e.ir ip, k)
      (elasticRow (interp (e.shape ip) mu) (interp (e.shape ip) lambda) (e.dndx ip ic) (e.area ip) (fun j => d (ic, j)) k))]
    · rw [sum_lrs_pair]
    · intro k s
      rw [elasticBody_act]

theorem elasticRow_sum (mu lambda : K) (g : Fin nn → Fin nd → K) (a : Fin nd → K) (u : Fin nn → Fin nd → K) (i : Fin nd) :
    ∑ ic, elasticRow mu lambda (g ic) a (u ic) i = -traction (elasticStress mu lambda (dispGrad g u)) a i := by
  have h1 : ∀ ic, elasticRow mu lambda (g ic) a (u ic) i
      = -∑ j, (mu * (g ic j * u ic i + g ic i * u ic j) + lambda * (∑ l, g ic l * u ic l) * kd i j) * a j := by
    intro ic
    unfold elasticRow
    rw [Finset.sum_mul, ← Finset.sum_add_distrib, ← Finset.sum_neg_distrib]
    refine Finset.sum_congr rfl fun j _ => ?_
    have : ∑ l, -lambda * kd i j * g ic l * a j * u ic l = -(lambda * (∑ l, g ic l * u ic l) * kd i j * a j) := by
      rw [Finset.mul_sum, Finset.sum_mul, Finset.sum_mul, ← Finset.sum_neg_distrib]
      exact Finset.sum_congr rfl fun l _ => by ring
    rw [this]; ring
  simp only [h1, traction, Finset.sum_neg_distrib]
  rw [Finset.sum_comm]
  congr 1
  refine Finset.sum_congr rfl fun j _ => ?_
  rw [← Finset.sum_mul]
  congr 1
  simp only [elasticStress, dispGrad, Matrix.add_apply, Matrix.smul_apply, Matrix.transpose_apply, Matrix.of_apply, smul_eq_mul,
    Matrix.trace, Matrix.diag_apply, Matrix.one_apply]
  rw [Finset.sum_add_distrib, ← Finset.mul_sum, Finset.sum_add_distrib, ← Finset.sum_mul, ← Finset.mul_sum,
    Finset.sum_comm (f := fun ic l => g ic l * u ic l)]
  rfl

theorem elastic_residual (e : Scs nn nip nd K) (mu lambda : Fin nn → K) (u : Fin nn → Fin nd → K)
    (s : LocalSys (Fin nn × Fin nd) K) (n : Fin nn) (i : Fin nd) :
    (elastic e mu lambda u s).rhs (n, i) = s.rhs (n, i) + ∑ ip, lrs n (e.il ip) (e.ir ip)
      (traction (elasticStress (interp (e.shape ip) mu) (interp (e.shape ip) lambda) (dispGrad (e.dndx ip) u)) (e.area ip) i) := by
  rw [elastic_rhs, sub_eq_add_neg, ← Finset.sum_neg_distrib]
  congr 1
  refine Finset.sum_congr rfl fun ip _ => ?_
  rw [elasticRow_sum, lrs_neg, neg_neg]

/-! ## Neo-Hookean -/

/-- What one node contributes to minus the implicit part of the traction. -/
def neoRow (mu J : K) (F : Fin nd → Fin nd → K) (g a w : Fin nd → K) (i : Fin nd) : K :=
  (∑ j, ((∑ k, -(mu * beta F) * (F i k / J) * g k * a j * w j) + -(mu * beta F / J) * g i * a j * w j))
    + (∑ j, -(mu * beta F / J) * g j * a j) * w i

theorem neoBody_rhs (mu J : K) (F : Fin nd → Fin nd → K) (g a : Fin nd → K) (il ir ic : Fin nn) (u : Fin nd → K) (i : Fin nd)
    (s : LocalSys (Fin nn × Fin nd) K) (b : Fin nn × Fin nd) :
    (neoBody mu J F g a il ir ic u i s).rhs b = s.rhs b - lrs b (il, i) (ir, i) (neoRow mu J F g a u i) := by
  unfold neoBody neoRow
  simp only
  rw [scatter_rhs, loop_scat_rhs (v := fun j => (∑ k, -(mu * beta F) * (F i k / J) * g k * a j * u j)
    + -(mu * beta F / J) * g i * a j * u j) (L := (il, i)) (R := (ir, i)), lrs_add]
  · ring
  · intro j s
    rw [scatter_rhs, loop_scat_rhs (v := fun k => -(mu * beta F) * (F i k / J) * g k * a j * u j) (L := (il, i)) (R := (ir, i)),
      lrs_add]
    · ring
    · intro l s
      rw [scatter_rhs]

theorem neoBody_act (mu J : K) (F : Fin nd → Fin nd → K) (g a : Fin nd → K) (il ir ic : Fin nn) (u : Fin nd → K) (i : Fin nd)
    (s : LocalSys (Fin nn × Fin nd) K) (d : Fin nn × Fin nd → K) (b : Fin nn × Fin nd) :
    act (neoBody mu J F g a il ir ic u i s) d b
      = act s d b + lrs b (il, i) (ir, i) (neoRow mu J F g a (fun j => d (ic, j)) i) := by
  unfold neoBody neoRow
  simp only
  rw [scatter_act, loop_scat_act (v := fun j => (∑ k, -(mu * beta F) * (F i k / J) * g k * a j * d (ic, j))
    + -(mu * beta F / J) * g i * a j * d (ic, j)) (L := (il, i)) (R := (ir, i)), lrs_add]
  · ring
  · intro j s
    rw [scatter_act, loop_scat_act (v := fun k => -(mu * beta F) * (F i k / J) * g k * a j * d (ic, j)) (L := (il, i)) (R := (ir, i)),
      lrs_add]
    · ring
    · intro l s
      rw [scatter_act]

/-- The explicit part of the traction. -/
def neoExp (mu lambda J : K) (F : Fin nd → Fin nd → K) (a : Fin nd → K) (i : Fin nd) : K :=
  (lambda * (J - (1 + 3 / 4 * mu / lambda)) + mu * beta F / J) * a i

theorem neoExplicit_rhs (mu lambda J : K) (F : Fin nd → Fin nd → K) (a : Fin nd → K) (il ir : Fin nn)
    (s : LocalSys (Fin nn × Fin nd) K) (n : Fin nn) (i : Fin nd) :
    (neoExplicit mu lambda J F a il ir s).rhs (n, i) = s.rhs (n, i) + lrs n il ir (neoExp mu lambda J F a i) := by
  unfold neoExplicit
  rw [loop_rhs (a := (n, i)) (δ := fun k => lrs (n, i) (il, k) (ir, k) (neoExp mu lambda J F a k))]
  · rw [sum_lrs_pair]
  · intro k s
    rw [loop_rhs (a := (n, i)) (δ := fun j => lrs (n, i) (il, k) (ir, k)
      (lambda * kd k j * a j * (J - (1 + 3 / 4 * mu / lambda)) + mu * beta F / J * kd k j * a j))]
    · rw [lrs_sum]
      congr 2
      simp only [kd, mul_ite, ite_mul, mul_one, mul_zero, zero_mul, neoExp]
      rw [Finset.sum_add_distrib, Finset.sum_ite_eq, Finset.sum_ite_eq]
      simp only [Finset.mem_univ, if_true]; ring
    · intro j s
      simp only [addR_rhs, lrs]; split_ifs <;> ring

theorem neoExplicit_act (mu lambda J : K) (F : Fin nd → Fin nd → K) (a : Fin nd → K) (il ir : Fin nn)
    (s : LocalSys (Fin nn × Fin nd) K) (d : Fin nn × Fin nd → K) (b : Fin nn × Fin nd) :
    act (neoExplicit mu lambda J F a il ir s) d b = act s d b := by
  unfold neoExplicit
  rw [loop_act (a := b) (δ := fun _ => 0)]
  · simp
  · intro k s
    rw [loop_act (a := b) (δ := fun _ => 0)]
    · simp
    · intro j s; simp

theorem neo_rhs (det : (Fin nd → Fin nd → K) → K) (e : Scs nn nip nd K) (mu lambda : Fin nn → K) (u : Fin nn → Fin nd → K)
    (s : LocalSys (Fin nn × Fin nd) K) (n : Fin nn) (i : Fin nd) :
    (neohookean det e mu lambda u s).rhs (n, i) = s.rhs (n, i) + ∑ ip, lrs n (e.il ip) (e.ir ip)
      (neoExp (interp (e.shape ip) mu) (interp (e.shape ip) lambda) (det (gradTens (e.dndx ip) u)) (gradTens (e.dndx ip) u)
          (e.area ip) i
        - ∑ ic, neoRow (interp (e.shape ip) mu) (det (gradTens (e.dndx ip) u)) (gradTens (e.dndx ip) u) (e.dndx ip ic)
          (e.area ip) (u ic) i) := by
  rw [neohookean, loop_rhs (a := (n, i))]
  intro ip s
  simp only
  rw [neoExplicit_rhs, lrs_sub, loop_rhs (a := (n, i)) (δ := fun ic => -lrs n (e.il ip) (e.ir ip)
    (neoRow (interp (e.shape ip) mu) (det (gradTens (e.dndx ip) u)) (gradTens (e.dndx ip) u) (e.dndx ip ic) (e.area ip) (u ic) i))]
  · rw [Finset.sum_neg_distrib, lrs_sum]; ring
  · intro ic s
    rw [loop_rhs (a := (n, i)) (δ := fun k => -lrs (n, i) (e.il ip, k) (e.ir ip, k)
      (neoRow (interp (e.shape ip) mu) (det (gradTens (e.dndx ip) u)) (gradTens (e.dndx ip) u) (e.dndx ip ic) (e.area ip) (u ic) k))]
    · rw [Finset.sum_neg_distrib, sum_lrs_pair]
    · intro k s
      rw [neoBody_rhs]; ring

theorem neo_act (det : (Fin nd → Fin nd → K) → K) (e : Scs nn nip nd K) (mu lambda : Fin nn → K) (u : Fin nn → Fin nd → K)
    (s : LocalSys (Fin nn × Fin nd) K) (d : Fin nn × Fin nd → K) (n : Fin nn) (i : Fin nd) :
    act (neohookean det e mu lambda u s) d (n, i) = act s d (n, i) + ∑ ip, lrs n (e.il ip) (e.ir ip)
      (∑ ic, neoRow (interp (e.shape ip) mu) (det (gradTens (e.dndx ip) u)) (gradTens (e.dndx ip) u) (e.dndx ip ic)
          (e.area ip) (fun j => d (ic, j)) i) := by
  rw [neohookean, loop_act (a := (n, i))]
  intro ip s
  simp only
  rw [neoExplicit_act, loop_act (a := (n, i)) (δ := fun ic => lrs n (e.il ip) (e.ir ip)
    (neoRow (interp (e.shape ip) mu) (det (gradTens (e.dndx ip) u)) (gradTens (e.dndx ip) u) (e.dndx ip ic) (e.area ip)
      (fun j => d (ic, j)) i))]
  · rw [lrs_sum]
  · intro ic s
    rw [loop_act (a := (n, i)) (δ := fun k => lrs (n, i) (e.il ip, k) (e.ir ip, k)
      (neoRow (interp (e.shape ip) mu) (det (gradTens (e.dndx ip) u)) (gradTens (e.dndx ip) u) (e.dndx ip ic) (e.area ip)
        (fun j => d (ic, j)) k))]
    · rw [sum_lrs_pair]
    · intro k s
      rw [neoBody_act]

theorem neoRow_sum (mu J : K) (F : Fin nd → Fin nd → K) (g : Fin nn → Fin nd → K) (a : Fin nd → K) (u : Fin nn → Fin nd → K)
    (i : Fin nd) : ∑ ic, neoRow mu J F (g ic) a (u ic) i
      = -(mu * beta F / J * ∑ j, ((∑ k, F i k * dispGrad g u j k) + dispGrad g u j i + dispGrad g u i j) * a j) := by
  have h1 : ∀ ic, neoRow mu J F (g ic) a (u ic) i
      = ∑ j, -(mu * beta F / J) * (((∑ k, F i k * (g ic k * u ic j)) + g ic i * u ic j + g ic j * u ic i) * a j) := by
    intro ic
    unfold neoRow
    rw [Finset.sum_mul, ← Finset.sum_add_distrib]
    refine Finset.sum_congr rfl fun j _ => ?_
    have : ∑ k, -(mu * beta F) * (F i k / J) * g ic k * a j * u ic j
        = -(mu * beta F / J) * ((∑ k, F i k * (g ic k * u ic j)) * a j) := by
      rw [Finset.sum_mul, Finset.mul_sum]
      exact Finset.sum_congr rfl fun k _ => by ring
    rw [this]; ring
  simp only [h1]
  rw [Finset.sum_comm, Finset.mul_sum, ← Finset.sum_neg_distrib]
  refine Finset.sum_congr rfl fun j _ => ?_
  rw [← Finset.mul_sum, ← Finset.sum_mul, Finset.sum_add_distrib, Finset.sum_add_distrib, neg_mul]
  congr 3
  rw [Finset.sum_comm]
  simp only [dispGrad, Matrix.of_apply, Finset.mul_sum]

end Nalu.MeshDisp
