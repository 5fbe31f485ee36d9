import Verif.Proofs.ElemKernel

/-! # Closed form of the open-boundary momentum kernel -/

set_option linter.unusedSectionVars false

namespace Nalu.Kernel
open Nalu.Edge

variable {K : Type*} [Field K] [LinearOrder K] [IsStrictOrderedRing K]
variable {nn nip nf nd : ℕ}

theorem sum_if_ne {n : ℕ} (i : Fin n) (f : Fin n → K) :
    ∑ l, (if i ≠ l then f l else 0) = (∑ l, f l) - f i := by
  have : ∀ l, (if i ≠ l then f l else 0) = f l - if i = l then f l else 0 := by
    intro l; by_cases h : i = l <;> simp [h]
  simp [this, Finset.sum_sub_distrib]

theorem sum_rows {n m : ℕ} (r near : Fin n) (k : Fin m) (f : Fin m → K) :
    ∑ i, (if (r, k) = (near, i) then f i else 0) = if r = near then f k else 0 := by
  by_cases h : r = near <;> simp [h]

/-- per node and column of the loop: viscous traction `t_i`, contribution of node `ic` -/
theorem openViscous_rhs (mu inc : K) (g : Fin nn → Fin nd → K) (a nx : Fin nd → K) (near : Fin nn)
    (u : Fin nn → Fin nd → K) (s : LocalSys (Fin nn × Fin nd) K) (r : Fin nn) (k : Fin nd) :
    (openViscous mu inc g a nx near u s).rhs (r, k) = s.rhs (r, k) - if r = near then
      (∑ ic, viscRow mu (g ic) a (u ic) k) - nx k * (∑ l, nx l * ∑ ic, viscRow mu (g ic) a (u ic) l) +
        (2 / 3 * mu * (∑ ic, ∑ j, g ic j * u ic j * a j) * inc) *
          (1 - nx k * nx k + nx k * ((∑ l, nx l) - nx k)) else 0 := by
  let T : Fin nn → Fin nd → Fin nd → K := fun ic j i => -mu * g ic j * a j * u ic i + -mu * g ic i * a j * u ic j
  let D : Fin nn → Fin nd → K := fun ic j => 2 / 3 * mu * g ic j * u ic j * a j * inc
  let δ : Fin nn → Fin nd → Fin nd → K := fun ic j i =>
    T ic j i - nx i * ∑ l, nx l * T ic j l + D ic j * (1 - nx i * nx i + nx i * ((∑ l, nx l) - nx i))
  rw [openViscous, loop_rhs (a := (r, k)) (δ := fun ic => ∑ j, if r = near then -δ ic j k else 0)]
  · by_cases h : r = near
    · simp only [h, if_true, sub_eq_add_neg]
      congr 1
      simp only [Finset.sum_neg_distrib]
      rw [← sub_eq_add_neg]
      congr 1
      have hT : ∀ i, ∑ ic, viscRow mu (g ic) a (u ic) i = ∑ ic, ∑ j, T ic j i := by
        intro i
        refine Finset.sum_congr rfl fun ic _ => ?_
        rw [viscRow, Finset.sum_mul, ← Finset.sum_add_distrib]
        exact Finset.sum_congr rfl fun _ _ => by simp only [T]; ring
      have hD : 2 / 3 * mu * (∑ ic, ∑ j, g ic j * u ic j * a j) * inc = ∑ ic, ∑ j, D ic j := by
        simp only [Finset.mul_sum, Finset.sum_mul]
        exact Finset.sum_congr rfl fun _ _ => Finset.sum_congr rfl fun _ _ => by simp only [D]; ring
      have hN : ∑ l, nx l * ∑ ic, viscRow mu (g ic) a (u ic) l =
          ∑ ic, ∑ j, ∑ l, nx l * T ic j l := by
        simp only [hT, Finset.mul_sum]
        rw [Finset.sum_comm]
        refine Finset.sum_congr rfl fun ic _ => ?_
        rw [Finset.sum_comm]
      rw [hN, hT, hD]
      simp only [δ, Finset.sum_add_distrib, Finset.sum_sub_distrib, ← Finset.sum_mul, ← Finset.mul_sum]
      ring
    · simp [h]
  · intro ic s
    rw [loop_rhs (a := (r, k)) (δ := fun j => if r = near then -δ ic j k else 0)]
    intro j s
    simp only
    rw [loop_rhs (a := (r, k)) (δ := fun i => if (r, k) = (near, i) then -δ ic j i else 0)]
    · rw [sum_rows]
    · intro i s
      rw [loop_rhs (a := (r, k)) (δ := fun l => if i ≠ l then (if (r, k) = (near, i) then
        nx i * (nx l * T ic j l) - D ic j * (nx i * nx l) else 0) else 0)]
      · rw [sum_if_ne]
        simp only [addR_rhs, addL_rhs]
        by_cases h : (r, k) = (near, i)
        · simp only [h, if_true, Finset.sum_sub_distrib, ← Finset.mul_sum]
          simp only [δ, T, D]
          generalize hS : (∑ l, nx l * (-mu * g ic j * a j * u ic l + -mu * g ic l * a j * u ic j)) = S
          generalize (∑ l, nx l) = N
          ring
        · simp [h]
      · intro l s
        by_cases hl : i = l
        · simp [hl]
        · simp only [ne_eq, hl, not_false_eq_true, if_true, addR_rhs, addL_rhs, T, D]
          by_cases h : (r, k) = (near, i)
          · simp only [h, if_true]; ring
          · simp [h]

theorem openViscous_act (mu inc : K) (g : Fin nn → Fin nd → K) (a nx : Fin nd → K) (near : Fin nn)
    (u : Fin nn → Fin nd → K) (s : LocalSys (Fin nn × Fin nd) K) (d : Fin nn × Fin nd → K)
    (r : Fin nn) (k : Fin nd) :
    act (openViscous mu inc g a nx near u s) d (r, k) = act s d (r, k) + if r = near then
      (∑ ic, viscRow mu (g ic) a (fun i => d (ic, i)) k) -
        nx k * (∑ l, nx l * ∑ ic, viscRow mu (g ic) a (fun i => d (ic, i)) l) else 0 := by
  let T : Fin nn → Fin nd → Fin nd → K :=
    fun ic j i => -mu * g ic j * a j * d (ic, i) + -mu * g ic i * a j * d (ic, j)
  let δ : Fin nn → Fin nd → Fin nd → K := fun ic j i => T ic j i - nx i * ∑ l, nx l * T ic j l
  rw [openViscous, loop_act (a := (r, k)) (δ := fun ic => ∑ j, if r = near then δ ic j k else 0)]
  · by_cases h : r = near
    · simp only [h, if_true]
      congr 1
      have hT : ∀ i, ∑ ic, viscRow mu (g ic) a (fun i => d (ic, i)) i = ∑ ic, ∑ j, T ic j i := by
        intro i
        refine Finset.sum_congr rfl fun ic _ => ?_
        rw [viscRow, Finset.sum_mul, ← Finset.sum_add_distrib]
        exact Finset.sum_congr rfl fun _ _ => by simp only [T]; ring
      have hN : ∑ l, nx l * ∑ ic, viscRow mu (g ic) a (fun i => d (ic, i)) l =
          ∑ ic, ∑ j, ∑ l, nx l * T ic j l := by
        simp only [hT, Finset.mul_sum]
        rw [Finset.sum_comm]
        refine Finset.sum_congr rfl fun ic _ => ?_
        rw [Finset.sum_comm]
      rw [hN, hT]
      simp only [δ, Finset.sum_sub_distrib, ← Finset.mul_sum]
    · simp [h]
  · intro ic s
    rw [loop_act (a := (r, k)) (δ := fun j => if r = near then δ ic j k else 0)]
    intro j s
    simp only
    rw [loop_act (a := (r, k)) (δ := fun i => if (r, k) = (near, i) then δ ic j i else 0)]
    · rw [sum_rows]
    · intro i s
      rw [loop_act (a := (r, k)) (δ := fun l => if i ≠ l then (if (r, k) = (near, i) then
        -(nx i * (nx l * T ic j l)) else 0) else 0)]
      · rw [sum_if_ne]
        simp only [addR_act, addL_act]
        by_cases h : (r, k) = (near, i)
        · simp only [h, if_true, Finset.sum_neg_distrib, ← Finset.mul_sum]
          simp only [δ, T]
          generalize hS : (∑ l, nx l * (-mu * g ic j * a j * d (ic, l) + -mu * g ic l * a j * d (ic, j))) = S
          ring
        · simp [h]
      · intro l s
        by_cases hl : i = l
        · simp [hl]
        · simp only [ne_eq, hl, not_false_eq_true, if_true, addR_act, addL_act, T]
          by_cases h : (r, k) = (near, i)
          · simp only [h, if_true]; ring
          · simp [h]

/-- advection of the open momentum kernel at one integration point, leaving or entering -/
def openMomAdv (o : Opts K) (f : Face nn nf nip nd K) (mdot : Fin nip → K) (v : UpwNodes nn nd K)
    (m : OpenMom nn nd K) (ip : Fin nip) (i : Fin nd) : K :=
  if mdot ip > 0 then (openMomFlux o f mdot v m ip i).1 else (openMomFlux o f mdot v m ip i).2

/-- viscous traction (times area) on the face at one integration point -/
def openTraction (f : Face nn nf nip nd K) (mu : Fin nn → K) (u : Fin nn → Fin nd → K) (ip : Fin nip)
    (k : Fin nd) : K :=
  ∑ ic, viscRow (∑ ic, f.shape ip ic * mu (f.node ic)) (f.dndx ip ic) (f.area ip) (u ic) k

/-- `n` at an integration point -/
def faceNormal (f : Face nn nf nip nd K) (ip : Fin nip) (j : Fin nd) : K := f.area ip j / f.aMag ip

/-- the factor the explicit divergence term carries -/
def openDiv (f : Face nn nf nip nd K) (mu : Fin nn → K) (u : Fin nn → Fin nd → K) (ip : Fin nip) : K :=
  2 / 3 * (∑ ic, f.shape ip ic * mu (f.node ic)) * (∑ ic, ∑ j, f.dndx ip ic j * u ic j * f.area ip j)

theorem momentumOpenElem_rhs (o : Opts K) (f : Face nn nf nip nd K) (mdot : Fin nip → K)
    (v : UpwNodes nn nd K) (m : OpenMom nn nd K) (s : LocalSys (Fin nn × Fin nd) K) (r : Fin nn)
    (k : Fin nd) :
    (momentumOpenElem o f mdot v m s).rhs (r, k) = s.rhs (r, k) - ∑ ip, if r = f.near ip then
      openMomAdv o f mdot v m ip k +
      (openTraction f v.mu m.u ip k -
        faceNormal f ip k * (∑ l, faceNormal f ip l * openTraction f v.mu m.u ip l)) +
      openDiv f v.mu m.u ip * m.incDivU * (1 - faceNormal f ip k * faceNormal f ip k +
        faceNormal f ip k * ((∑ l, faceNormal f ip l) - faceNormal f ip k)) else 0 := by
  rw [momentumOpenElem, loop_rhs (a := (r, k)) (δ := fun ip => -(if r = f.near ip then
      openMomAdv o f mdot v m ip k +
      (openTraction f v.mu m.u ip k -
        faceNormal f ip k * (∑ l, faceNormal f ip l * openTraction f v.mu m.u ip l)) +
      openDiv f v.mu m.u ip * m.incDivU * (1 - faceNormal f ip k * faceNormal f ip k +
        faceNormal f ip k * ((∑ l, faceNormal f ip l) - faceNormal f ip k)) else 0))]
  · rw [Finset.sum_neg_distrib, sub_eq_add_neg]
  · intro ip s
    simp only
    rw [openViscous_rhs, loop_rhs (a := (r, k)) (δ := fun i => if (r, k) = (f.near ip, i) then
      -openMomAdv o f mdot v m ip i else 0)]
    · rw [sum_rows]
      by_cases h : r = f.near ip
      · simp only [h, if_true, openTraction, faceNormal, openDiv]; ring
      · simp [h]
    · intro i s
      simp only [addR_rhs]
      rw [loop_rhs (a := (r, k)) (δ := fun _ => 0) (h := by intro k s; simp)]
      simp only [addL_rhs, addR_rhs, openMomAdv]
      by_cases h : (r, k) = (f.near ip, i)
      · by_cases hm : mdot ip > 0
        · simp only [h, hm, if_true]; simp
        · simp only [h, hm, if_true, if_false]; simp
      · simp [h]

theorem momentumOpenElem_act (o : Opts K) (f : Face nn nf nip nd K) (mdot : Fin nip → K)
    (v : UpwNodes nn nd K) (m : OpenMom nn nd K) (s : LocalSys (Fin nn × Fin nd) K)
    (d : Fin nn × Fin nd → K) (r : Fin nn) (k : Fin nd) :
    act (momentumOpenElem o f mdot v m s) d (r, k) = act s d (r, k) + ∑ ip, if r = f.near ip then
      (if mdot ip > 0 then mdot ip * (pecFac o v (f.opp ip) (f.near ip) *
        (o.alphaUpw * d (f.near ip, k) + (1 - o.alphaUpw) * ∑ ic, f.adv ip ic * d (f.node ic, k)) +
        (1 - pecFac o v (f.opp ip) (f.near ip)) * ∑ ic, f.adv ip ic * d (f.node ic, k)) else 0) +
      (openTraction f v.mu (fun ic i => d (ic, i)) ip k -
        faceNormal f ip k * (∑ l, faceNormal f ip l *
          openTraction f v.mu (fun ic i => d (ic, i)) ip l)) else 0 := by
  rw [momentumOpenElem, loop_act (a := (r, k))]
  intro ip s
  simp only
  rw [openViscous_act, loop_act (a := (r, k)) (δ := fun i => if (r, k) = (f.near ip, i) then
      (if mdot ip > 0 then mdot ip * (pecFac o v (f.opp ip) (f.near ip) *
        (o.alphaUpw * d (f.near ip, i) + (1 - o.alphaUpw) * ∑ ic, f.adv ip ic * d (f.node ic, i)) +
        (1 - pecFac o v (f.opp ip) (f.near ip)) * ∑ ic, f.adv ip ic * d (f.node ic, i)) else 0) else 0)]
  · rw [sum_rows]
    by_cases h : r = f.near ip
    · simp only [h, if_true, openTraction, faceNormal]; ring
    · simp [h]
  · intro i s
    simp only [addR_act]
    rw [loop_act (a := (r, k)) (d := d) (h := by intro k s; rw [addL_act]), ite_sum]
    simp only [addL_act, addR_act]
    by_cases h : (r, k) = (f.near ip, i)
    · by_cases hm : mdot ip > 0
      · simp only [h, hm, if_true]
        have : ∀ c : K, ∑ ic, f.adv ip ic * c * d (f.node ic, i) =
            c * ∑ ic, f.adv ip ic * d (f.node ic, i) := by
          intro c; rw [Finset.mul_sum]; exact Finset.sum_congr rfl fun _ _ => by ring
        rw [this]; ring
      · simp [h, hm]
    · simp [h]

end Nalu.Kernel
