import Verif.Proofs.MeshDisp
import Verif.Props.ElemKernel2
import Mathlib.LinearAlgebra.Matrix.NonsingularInverse
import Mathlib.LinearAlgebra.Matrix.Notation
import Mathlib.Tactic.LinearCombination
import Mathlib.Tactic.FieldSimp
import Mathlib.Tactic.FinCases

/-!
# C169, C171: stresses of the deforming mesh
-/

namespace Nalu.MeshDisp
open Nalu.Edge Nalu.Kernel Nalu.MeshDisp.Spec Matrix

variable {K : Type*} [Field K] [LinearOrder K] [IsStrictOrderedRing K] {nn nip nf nd : ℕ}

/-- An affine displacement of the nodes at `x`. -/
def affineDisp (c : Fin nd → K) (W : Matrix (Fin nd) (Fin nd) K) (x : Fin nn → Fin nd → K) : Fin nn → Fin nd → K :=
  fun ic i => c i + ∑ l, W i l * x ic l

theorem dispGrad_affine (g x : Fin nn → Fin nd → K) (hg : GradConst g) (hl : GradLinear g x) (c : Fin nd → K)
    (W : Matrix (Fin nd) (Fin nd) K) : dispGrad g (affineDisp c W x) = W := by
  ext i j
  simp only [dispGrad, affineDisp, Matrix.of_apply, mul_add, Finset.sum_add_distrib, Finset.mul_sum]
  rw [← Finset.sum_mul, hg j, zero_mul, zero_add, Finset.sum_comm]
  have : ∀ l, ∑ ic, g ic j * (W i l * x ic l) = W i l * if l = j then 1 else 0 := by
    intro l
    rw [← hl l j, Finset.mul_sum]
    exact Finset.sum_congr rfl fun ic _ => by ring
  simp [this]

theorem gradTens_eq (g : Fin nn → Fin nd → K) (u : Fin nn → Fin nd → K) :
    Matrix.of (gradTens g u) = 1 + dispGrad g u := by
  ext i j
  simp only [Matrix.of_apply, gradTens, kd, Matrix.add_apply, Matrix.one_apply, dispGrad]; ring

/-! ## C169 -/

/-- C169: the residual of the elastic kernel is, at every node and in every direction, the net traction of the linear elastic stress
of the interpolated displacement over the sub-control surfaces around the node. -/
theorem c169_residual (e : Scs nn nip nd K) (mu lambda : Fin nn → K) (u : Fin nn → Fin nd → K)
    (s : LocalSys (Fin nn × Fin nd) K) (n : Fin nn) (i : Fin nd) :
    (elastic e mu lambda u s).rhs (n, i) = s.rhs (n, i) + netOut e.il e.ir (fun ip =>
      traction (elasticStress (interp (e.shape ip) mu) (interp (e.shape ip) lambda) (dispGrad (e.dndx ip) u)) (e.area ip) i) n := by
  rw [elastic_residual, ← sum_lrs_net]

/-- C169: no net force on the element: the kernel only exchanges momentum between its nodes. -/
theorem c169_conservative (e : Scs nn nip nd K) (mu lambda : Fin nn → K) (u : Fin nn → Fin nd → K) :
    ConservativeV (elastic e mu lambda u) :=
  conservativeV_of _ e.il e.ir
    (fun ip i => ∑ ic, elasticRow (interp (e.shape ip) mu) (interp (e.shape ip) lambda) (e.dndx ip ic) (e.area ip) (u ic) i)
    (fun d ip i => ∑ ic, elasticRow (interp (e.shape ip) mu) (interp (e.shape ip) lambda) (e.dndx ip ic) (e.area ip)
      (fun j => d (ic, j)) i)
    (fun s n i => elastic_rhs e mu lambda u s n i) (fun s d n i => elastic_act e mu lambda u s d n i)

theorem elasticRow_add (mu lambda : K) (g a v w : Fin nd → K) (i : Fin nd) :
    elasticRow mu lambda g a (v + w) i = elasticRow mu lambda g a v i + elasticRow mu lambda g a w i := by
  simp only [elasticRow, Pi.add_apply, mul_add, Finset.sum_add_distrib]; ring

/-- C169: the matrix is the exact derivative of the residual. -/
theorem c169_newton (e : Scs nn nip nd K) (mu lambda : Fin nn → K) :
    ExactNewton (fun q : Fin nn × Fin nd → K => elastic e mu lambda (fun n j => q (n, j))) := by
  refine newton_of _ (fun q a => -∑ ip, lrs a.1 (e.il ip) (e.ir ip) (∑ ic, elasticRow (interp (e.shape ip) mu)
      (interp (e.shape ip) lambda) (e.dndx ip ic) (e.area ip) (fun j => q (ic, j)) a.2))
    (fun d a => ∑ ip, lrs a.1 (e.il ip) (e.ir ip) (∑ ic, elasticRow (interp (e.shape ip) mu)
      (interp (e.shape ip) lambda) (e.dndx ip ic) (e.area ip) (fun j => d (ic, j)) a.2)) ?_ ?_ ?_
  · rintro q s ⟨n, i⟩; rw [elastic_rhs, sub_eq_add_neg]
  · rintro q s d ⟨n, i⟩; rw [elastic_act]
  · rintro q d ⟨n, i⟩
    have : ∀ ip ic, elasticRow (interp (e.shape ip) mu) (interp (e.shape ip) lambda) (e.dndx ip ic) (e.area ip)
        (fun j => (q + d) (ic, j)) i = elasticRow (interp (e.shape ip) mu) (interp (e.shape ip) lambda) (e.dndx ip ic) (e.area ip)
        (fun j => q (ic, j)) i + elasticRow (interp (e.shape ip) mu) (interp (e.shape ip) lambda) (e.dndx ip ic) (e.area ip)
        (fun j => d (ic, j)) i := fun ip ic => elasticRow_add _ _ _ _ _ _ _
    simp only [this, Finset.sum_add_distrib, lrs_add]
    ring

/-- C169: a mesh displaced affinely is in the constant stress of that strain, whatever the shape of the element. -/
theorem c169_affine (e : Scs nn nip nd K) (x : Fin nn → Fin nd → K) (hg : ∀ ip, GradConst (e.dndx ip))
    (hl : ∀ ip, GradLinear (e.dndx ip) x) (mu lambda : Fin nn → K) (c : Fin nd → K) (W : Matrix (Fin nd) (Fin nd) K)
    (s : LocalSys (Fin nn × Fin nd) K) (n : Fin nn) (i : Fin nd) :
    (elastic e mu lambda (affineDisp c W x) s).rhs (n, i) = s.rhs (n, i) + netOut e.il e.ir (fun ip =>
      traction (elasticStress (interp (e.shape ip) mu) (interp (e.shape ip) lambda) W) (e.area ip) i) n := by
  rw [c169_residual]
  simp only [dispGrad_affine _ _ (hg _) (hl _)]

/-- C169: translations and infinitesimal rotations of the mesh meet no resistance. -/
theorem c169_rigid (e : Scs nn nip nd K) (x : Fin nn → Fin nd → K) (hg : ∀ ip, GradConst (e.dndx ip))
    (hl : ∀ ip, GradLinear (e.dndx ip) x) (mu lambda : Fin nn → K) (c : Fin nd → K) (W : Matrix (Fin nd) (Fin nd) K)
    (hW : Wᵀ = -W) (s : LocalSys (Fin nn × Fin nd) K) (a : Fin nn × Fin nd) :
    (elastic e mu lambda (affineDisp c W x) s).rhs a = s.rhs a := by
  obtain ⟨n, i⟩ := a
  have h0 : ∀ m l : K, elasticStress m l W = 0 := by
    intro m l
    have ht : W.trace = 0 := by
      have h := congrArg Matrix.trace hW
      rw [Matrix.trace_transpose, Matrix.trace_neg] at h
      linarith
    unfold elasticStress
    rw [hW, ht]; simp
  rw [c169_affine e x hg hl, add_eq_left]
  simp only [h0, traction, Matrix.zero_apply, zero_mul, Finset.sum_const_zero, netOut, ite_self, sub_self]

/-! ## C171 -/

theorem iConst_eq (F : Fin nd → Fin nd → K) : iConst F = ((Matrix.of F)ᵀ * Matrix.of F).trace := by
  simp [iConst, Matrix.trace, Matrix.mul_apply]

theorem det3_eq (F : Fin 3 → Fin 3 → K) : det3 F = (Matrix.of F).det := by
  rw [Matrix.det_fin_three]; simp only [det3, Matrix.of_apply]; ring

theorem det2_eq (F : Fin 2 → Fin 2 → K) : det2 F = (Matrix.of F).det := by
  rw [Matrix.det_fin_two]; simp only [det2, Matrix.of_apply]; ring

theorem neoCauchy_eq (mu lambda : K) (F : Matrix (Fin nd) (Fin nd) K) (hJ : F.det ≠ 0) : neoCauchy mu lambda F
    = (mu * (1 - 1 / (1 + iConst fun i j => F i j)) / F.det) • (F * Fᵀ) + (lambda * (F.det - (1 + 3 / 4 * (mu / lambda)))) • 1 := by
  have h1 : (F.adjugate)ᵀ * Fᵀ = F.det • 1 := by
    rw [← Matrix.transpose_mul, Matrix.mul_adjugate, Matrix.transpose_smul, Matrix.transpose_one]
  have h2 : iConst (fun i j => F i j) = (Fᵀ * F).trace := iConst_eq _
  unfold neoCauchy neoPiola
  rw [Matrix.add_mul, Matrix.smul_mul, Matrix.smul_mul, h1, smul_add, smul_smul, smul_smul, smul_smul, h2]
  congr 1
  · congr 1; rw [add_comm 1]; ring
  · congr 1; field_simp

/-- C171: what the kernel adds to the right-hand side: the net traction of the stable neo-Hookean stress plus that of
`μβ/J` times the transposed displacement gradient, a spurious stress.  What is missing for the full
property is the absence of the second term; `c171_rotation` shows what it does.  (`det2` and `det3` of the code are the determinant: `det2_eq`,
`det3_eq`.) -/
theorem c171_residual_partial (det : (Fin nd → Fin nd → K) → K) (hdet : ∀ F, det F = (Matrix.of F).det) (e : Scs nn nip nd K)
    (mu lambda : Fin nn → K) (u : Fin nn → Fin nd → K)
    (hJ : ∀ ip, (1 + dispGrad (e.dndx ip) u).det ≠ 0)
    (s : LocalSys (Fin nn × Fin nd) K) (n : Fin nn) (i : Fin nd) :
    (neohookean det e mu lambda u s).rhs (n, i) = s.rhs (n, i) + netOut e.il e.ir (fun ip =>
      let F := 1 + dispGrad (e.dndx ip) u
      traction (neoCauchy (interp (e.shape ip) mu) (interp (e.shape ip) lambda) F
        + (interp (e.shape ip) mu * (1 - 1 / (1 + (Fᵀ * F).trace)) / F.det) • (dispGrad (e.dndx ip) u)ᵀ) (e.area ip) i) n := by
  rw [neo_rhs, ← sum_lrs_net]
  congr 1
  refine Finset.sum_congr rfl fun ip _ => ?_
  congr 1
  simp only
  have hF := gradTens_eq (e.dndx ip) u
  set H := dispGrad (e.dndx ip) u with hH
  have hg : ∀ a b, gradTens (e.dndx ip) u a b = (1 + H) a b := fun a b => congrFun (congrFun hF a) b
  rw [neoRow_sum, neoCauchy_eq _ _ _ (hJ ip), hdet, hF]
  have hI : iConst (gradTens (e.dndx ip) u) = iConst (fun i j => (1 + H) i j) := by
    unfold iConst; simp only [hg]
  have hI2 : iConst (fun i j => (1 + H) i j) = ((1 + H)ᵀ * (1 + H)).trace := iConst_eq _
  unfold neoExp beta
  rw [hI, hI2]
  generalize interp (e.shape ip) mu = m
  generalize interp (e.shape ip) lambda = l
  generalize (1 - 1 / (1 + ((1 + H)ᵀ * (1 + H)).trace)) = b
  generalize (1 + H).det = J
  simp only [traction, Matrix.add_apply, Matrix.smul_apply, smul_eq_mul, Matrix.transpose_apply, Matrix.mul_apply, hg]
  rw [sub_neg_eq_add]
  have h1 : ∀ j, ∑ k, ((1 : Matrix (Fin nd) (Fin nd) K) i k + H i k) * ((1 : Matrix (Fin nd) (Fin nd) K) j k + H j k)
      = (∑ k, ((1 : Matrix (Fin nd) (Fin nd) K) i k + H i k) * H j k) + (1 : Matrix (Fin nd) (Fin nd) K) i j + H i j := by
    intro j
    simp only [mul_add, Finset.sum_add_distrib, Matrix.one_apply]
    simp [add_mul, Finset.sum_add_distrib]
    ring
  simp only [← hH]
  simp only [h1]
  have h2 : ∀ c : K, c * e.area ip i = ∑ j, c * (1 : Matrix (Fin nd) (Fin nd) K) i j * e.area ip j := by
    intro c; simp [Matrix.one_apply]
  rw [h2, Finset.mul_sum, ← Finset.sum_add_distrib]
  refine Finset.sum_congr rfl fun j _ => ?_
  ring

/-- C171: no net force on the element, from the explicit part either. -/
theorem c171_conservative (det : (Fin nd → Fin nd → K) → K) (e : Scs nn nip nd K) (mu lambda : Fin nn → K) (u : Fin nn → Fin nd → K) :
    ConservativeV (neohookean det e mu lambda u) :=
  conservativeV_of _ e.il e.ir
    (fun ip i => (∑ ic, neoRow (interp (e.shape ip) mu) (det (gradTens (e.dndx ip) u)) (gradTens (e.dndx ip) u) (e.dndx ip ic)
          (e.area ip) (u ic) i)
      - neoExp (interp (e.shape ip) mu) (interp (e.shape ip) lambda) (det (gradTens (e.dndx ip) u)) (gradTens (e.dndx ip) u)
          (e.area ip) i)
    (fun d ip i => ∑ ic, neoRow (interp (e.shape ip) mu) (det (gradTens (e.dndx ip) u)) (gradTens (e.dndx ip) u) (e.dndx ip ic)
          (e.area ip) (fun j => d (ic, j)) i)
    (fun s n i => by
      rw [neo_rhs, sub_eq_add_neg, ← Finset.sum_neg_distrib]
      congr 1
      refine Finset.sum_congr rfl fun ip _ => ?_
      rw [← lrs_neg, neg_sub])
    (fun s d n i => neo_act det e mu lambda u s d n i)

/-- C171: the linearisation: what the kernel adds to the right-hand side is minus its matrix times the displacement plus the net
traction of the isotropic part that does not multiply the displacement.  (So each solve is a fixed-point iteration with the
coefficients of the last displacement.) -/
theorem c171_picard (det : (Fin nd → Fin nd → K) → K) (e : Scs nn nip nd K) (mu lambda : Fin nn → K) (u : Fin nn → Fin nd → K)
    (s : LocalSys (Fin nn × Fin nd) K) (n : Fin nn) (i : Fin nd) :
    (neohookean det e mu lambda u s).rhs (n, i) - s.rhs (n, i)
      = -(∑ b, ((neohookean det e mu lambda u s).lhs (n, i) b - s.lhs (n, i) b) * u b.1 b.2)
        + netOut e.il e.ir (fun ip =>
            let F := gradTens (e.dndx ip) u
            (interp (e.shape ip) lambda * (det F - (1 + 3 / 4 * (interp (e.shape ip) mu / interp (e.shape ip) lambda)))
              + interp (e.shape ip) mu * (1 - 1 / (1 + ((Matrix.of F)ᵀ * Matrix.of F).trace)) / det F) * e.area ip i) n := by
  have h := act_sub s (neohookean det e mu lambda u s) (fun b => u b.1 b.2) (n, i)
  rw [h, neo_rhs, neo_act, ← sum_lrs_net]
  simp only [lrs_sub, Finset.sum_sub_distrib, neoExp, beta, iConst_eq, mul_div_assoc]
  ring

/-- C171: the constitutive law the kernel implements is stress free in every rigid motion … -/
theorem c171_law_rigid (mu lambda : K) (R : Matrix (Fin 3) (Fin 3) K) (hR : Rᵀ * R = 1) (hd : R.det = 1) (hl : lambda ≠ 0) :
    neoCauchy mu lambda R = 0 := by
  have hR' : R * Rᵀ = 1 := mul_eq_one_comm.mp hR
  have ht : iConst (fun i j => R i j) = 3 := by
    have : iConst (fun i j => R i j) = (Rᵀ * R).trace := iConst_eq _
    rw [this, hR, Matrix.trace_one]; simp
  rw [neoCauchy_eq _ _ _ (by rw [hd]; exact one_ne_zero), hR', hd, ht, ← add_smul]
  have : mu * (1 - 1 / (1 + 3)) / 1 + lambda * (1 - (1 + 3 / 4 * (mu / lambda))) = 0 := by
    field_simp; ring
  rw [this, zero_smul]

/-- C171: … and so is the kernel when the mesh is only translated, in three dimensions … -/
theorem c171_translation (e : Scs nn nip 3 K) (hg : ∀ ip, GradConst (e.dndx ip))
    (mu lambda : Fin nn → K) (hl0 : ∀ ip, interp (e.shape ip) lambda ≠ 0) (c : Fin 3 → K)
    (s : LocalSys (Fin nn × Fin 3) K) (a : Fin nn × Fin 3) :
    (neohookean det3 e mu lambda (fun _ => c) s).rhs a = s.rhs a := by
  obtain ⟨n, i⟩ := a
  have h0 : ∀ ip, dispGrad (e.dndx ip) (fun _ : Fin nn => c) = 0 := by
    intro ip; ext k j
    simp only [dispGrad, Matrix.of_apply, ← Finset.sum_mul, hg ip j, zero_mul, Matrix.zero_apply]
  rw [c171_residual_partial det3 det3_eq _ _ _ _ (by intro ip; rw [h0]; simp), add_eq_left]
  simp only [h0, add_zero, Matrix.transpose_zero, smul_zero, c171_law_rigid _ _ (1 : Matrix (Fin 3) (Fin 3) K) (by simp) (by simp) (hl0 _),
    traction, Matrix.zero_apply, zero_mul, Finset.sum_const_zero, netOut, ite_self, sub_self]

/-- C171: … but a rigidly rotated mesh carries the spurious stress `3/4 μ (R - 1)ᵀ`: the residual is its net traction, not zero. -/
theorem c171_rotation (e : Scs nn nip 3 K) (x : Fin nn → Fin 3 → K) (hg : ∀ ip, GradConst (e.dndx ip))
    (hl : ∀ ip, GradLinear (e.dndx ip) x) (mu lambda : Fin nn → K) (hl0 : ∀ ip, interp (e.shape ip) lambda ≠ 0)
    (c : Fin 3 → K) (R : Matrix (Fin 3) (Fin 3) K) (hR : Rᵀ * R = 1) (hd : R.det = 1)
    (s : LocalSys (Fin nn × Fin 3) K) (n : Fin nn) (i : Fin 3) :
    (neohookean det3 e mu lambda (affineDisp c (R - 1) x) s).rhs (n, i) = s.rhs (n, i) + netOut e.il e.ir (fun ip =>
      traction ((3 / 4 * interp (e.shape ip) mu) • (R - 1)ᵀ) (e.area ip) i) n := by
  have hF : ∀ ip, 1 + dispGrad (e.dndx ip) (affineDisp c (R - 1) x) = R := by
    intro ip; rw [dispGrad_affine _ _ (hg _) (hl _), add_sub_cancel]
  rw [c171_residual_partial det3 det3_eq _ _ _ _ (by intro ip; rw [hF, hd]; exact one_ne_zero)]
  simp only [hF, c171_law_rigid _ _ R hR hd (hl0 _), zero_add, hR, hd, Matrix.trace_one, Fintype.card_fin]
  simp only [dispGrad_affine _ _ (hg _) (hl _)]
  congr 2
  ext ip
  congr 2
  push_cast
  ring

/-- C171: in two dimensions the undeformed mesh already carries the isotropic stress `-μ/12`. -/
theorem c171_rest_2d (e : Scs nn nip 2 K) (hg : ∀ ip, GradConst (e.dndx ip))
    (mu lambda : Fin nn → K) (hl0 : ∀ ip, interp (e.shape ip) lambda ≠ 0) (c : Fin 2 → K)
    (s : LocalSys (Fin nn × Fin 2) K) (n : Fin nn) (i : Fin 2) :
    (neohookean det2 e mu lambda (fun _ => c) s).rhs (n, i) = s.rhs (n, i) + netOut e.il e.ir (fun ip =>
      -(interp (e.shape ip) mu / 12) * e.area ip i) n := by
  have h0 : ∀ ip, dispGrad (e.dndx ip) (fun _ : Fin nn => c) = 0 := by
    intro ip; ext k j
    simp only [dispGrad, Matrix.of_apply, ← Finset.sum_mul, hg ip j, zero_mul, Matrix.zero_apply]
  have h1 : ∀ m l : K, l ≠ 0 → neoCauchy m l (1 : Matrix (Fin 2) (Fin 2) K) = (-(m / 12)) • 1 := by
    intro m l hl
    have ht : iConst (fun i j => (1 : Matrix (Fin 2) (Fin 2) K) i j) = 2 := by
      have : iConst (fun i j => (1 : Matrix (Fin 2) (Fin 2) K) i j) = ((1 : Matrix (Fin 2) (Fin 2) K)ᵀ * 1).trace := iConst_eq _
      rw [this]; simp
    rw [neoCauchy_eq _ _ _ (by simp), ht, Matrix.transpose_one, Matrix.mul_one, ← add_smul, Matrix.det_one]
    congr 1
    field_simp; ring
  rw [c171_residual_partial det2 det2_eq _ _ _ _ (by intro ip; rw [h0]; simp)]
  simp only [h0, add_zero, Matrix.transpose_zero, smul_zero, h1 _ _ (hl0 _)]
  congr 2
  ext ip
  simp [traction, Matrix.smul_apply, Matrix.one_apply]

/-! ## Non-vacuity -/

/-- A tetrahedron with one sub-control surface. -/
def tetScs : Scs 4 1 3 ℚ where
  shape := fun _ _ => 1 / 4
  adv := fun _ _ => 1 / 4
  dndx := fun _ => ![![-1, -1, -1], ![1, 0, 0], ![0, 1, 0], ![0, 0, 1]]
  area := fun _ => ![1, 0, 0]
  il := fun _ => 0
  ir := fun _ => 1

/-- Its nodes. -/
def tetX : Fin 4 → Fin 3 → ℚ := ![![0, 0, 0], ![1, 0, 0], ![0, 1, 0], ![0, 0, 1]]

theorem tetScs_const : ∀ ip, GradConst (tetScs.dndx ip) := by
  intro ip j; fin_cases j <;> simp [tetScs, Fin.sum_univ_four]

theorem tetScs_linear : ∀ ip, GradLinear (tetScs.dndx ip) tetX := by
  intro ip i j
  fin_cases i <;> fin_cases j <;> simp [tetScs, tetX, Fin.sum_univ_four]

/-- A quarter turn about the third axis. -/
def quarter : Matrix (Fin 3) (Fin 3) ℚ := !![0, -1, 0; 1, 0, 0; 0, 0, 1]

/-- C171: turned by a quarter, a tetrahedron of shear modulus one feels `(-3/4, -3/4, 0)`; linear elasticity of the infinitesimal
rotation would give nothing. -/
theorem c171_rotation_instance (s : LocalSys (Fin 4 × Fin 3) ℚ) :
    (neohookean det3 tetScs (fun _ => 1) (fun _ => 1) (affineDisp 0 (quarter - 1) tetX) s).rhs (0, 0) = s.rhs (0, 0) - 3 / 4
    ∧ (neohookean det3 tetScs (fun _ => 1) (fun _ => 1) (affineDisp 0 (quarter - 1) tetX) s).rhs (0, 1) = s.rhs (0, 1) - 3 / 4 := by
  have hq : quarterᵀ * quarter = 1 := by
    ext i j; fin_cases i <;> fin_cases j <;> simp [quarter, Matrix.mul_apply, Fin.sum_univ_three]
  have hd : quarter.det = 1 := by simp [quarter, Matrix.det_fin_three]
  have hl : ∀ ip, interp (tetScs.shape ip) (fun _ => (1 : ℚ)) ≠ 0 := by
    intro ip; simp [interp, tetScs]
  constructor <;>
  · rw [c171_rotation tetScs tetX tetScs_const tetScs_linear _ _ hl _ _ hq hd]
    simp [netOut, traction, tetScs, interp, quarter, Fin.sum_univ_three]
    ring

/-- C169: a rotation with a stress-free residual, and a stretch with a stress. -/
theorem c169_instance (s : LocalSys (Fin 4 × Fin 3) ℚ) :
    (elastic tetScs (fun _ => 1) (fun _ => 1) (affineDisp 0 !![0, -1, 0; 1, 0, 0; 0, 0, 0] tetX) s).rhs (0, 0) = s.rhs (0, 0)
    ∧ (elastic tetScs (fun _ => 1) (fun _ => 1) (affineDisp 0 !![1, 0, 0; 0, 0, 0; 0, 0, 0] tetX) s).rhs (0, 0) = s.rhs (0, 0) + 3 := by
  constructor
  · refine c169_rigid tetScs tetX tetScs_const tetScs_linear _ _ _ _ ?_ s _
    ext i j; fin_cases i <;> fin_cases j <;> simp
  · rw [c169_affine tetScs tetX tetScs_const tetScs_linear]
    simp [netOut, traction, elasticStress, tetScs, interp, Fin.sum_univ_three, Matrix.trace]
    norm_num

end Nalu.MeshDisp
