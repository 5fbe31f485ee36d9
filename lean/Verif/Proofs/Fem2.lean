import Verif.Proofs.Fem

/-! # Closed forms of the finite-element kernels on faces -/

set_option linter.unusedSectionVars false

namespace Nalu.Fem
open Nalu.Edge Nalu.Kernel

variable {K : Type*} [Field K] [LinearOrder K] [IsStrictOrderedRing K]
variable {nn nip nf nd : ℕ}

theorem sum_nodes {ι : Type*} [DecidableEq ι] [Fintype ι] (ρ : Fin nf → ι) (δ : Fin nf → K) (w : ι → K) :
    ∑ a, w a * ∑ ir, (if a = ρ ir then δ ir else 0) = ∑ ir, w (ρ ir) * δ ir := by
  simp only [Finset.mul_sum]
  rw [Finset.sum_comm]
  refine Finset.sum_congr rfl fun ir _ => ?_
  simp [mul_ite]

/-- a face kernel tested with `w` when the row `ir` gets `N_ir * X` -/
theorem tested_face (k : LocalSys (Fin nn) K → LocalSys (Fin nn) K) (s : LocalSys (Fin nn) K) (w : Fin nn → K)
    (f : Face nn nf nip nd K) (X : Fin nip → K)
    (h : ∀ a, (k s).rhs a = s.rhs a +
      ∑ ip, ∑ ir, if a = f.node ir then f.shape ip ir * X ip * f.fac ip else 0) :
    tested k s w = quadF f fun ip => trace f ip w * X ip := by
  rw [tested_of k s w _ h, quadF]
  refine Finset.sum_congr rfl fun ip _ => ?_
  rw [sum_nodes, trace, Finset.sum_mul, Finset.sum_mul]
  exact Finset.sum_congr rfl fun _ _ => by rw [Face.fac]; ring

theorem pngBc_rhs (f : BFace nf nip nd K) (q : Fin nf → K) (s : LocalSys (Fin nf × Fin nd) K) (n : Fin nf)
    (k : Fin nd) :
    (pngBc f q s).rhs (n, k) = s.rhs (n, k) +
      ∑ ip, f.shape ip n * interp (f.shape ip) q * f.fac ip * f.normal ip k := by
  rw [pngBc, loop_rhs (a := (n, k))]
  intro ip s
  simp only
  rw [vrow_rhs]
  intro ir s
  rw [comp_rhs (m := ir) (h := fun j s => by rw [addR_rhs])]

theorem continuityInflow_rhs (pts : K) (f : BFace nf nip nd K) (rho : Fin nf → K) (ubc : Fin nf → Fin nd → K)
    (s : LocalSys (Fin nf) K) (a : Fin nf) :
    (continuityInflow pts f rho ubc s).rhs a = s.rhs a +
      ∑ ip, -(f.shape ip a * inflowFlux f rho ubc ip / pts * f.fac ip) := by
  rw [continuityInflow, loop_rhs (a := a)]
  intro ip s
  rw [row_rhs (h := fun ir s => by rw [addR_rhs])]

theorem continuityOpen_rhs (pts pen : K) (f : Face nn nf nip nd K) (v : FlowNodes nn nd K) (pbc : Fin nn → K)
    (dynP : Fin nip → K) (s : LocalSys (Fin nn) K) (a : Fin nn) :
    (continuityOpen pts pen f v pbc dynP s).rhs a = s.rhs a + ∑ ip, ∑ ir, if a = f.node ir then
      f.shape ip ir * -(openFlux pts pen f v pbc dynP ip / pts) * f.fac ip else 0 := by
  rw [continuityOpen, loop_rhs (a := a)]
  intro ip s
  rw [loop_rhs (a := a)]
  intro ir s
  simp only
  rw [addR_rhs, cols_rhs (c := fun ic => ic), cols_rhs (c := f.node)]
  congr 1
  by_cases h : a = f.node ir
  · simp only [h, if_true]; ring
  · simp [h]

theorem continuityOpen_act (pts pen : K) (f : Face nn nf nip nd K) (v : FlowNodes nn nd K) (pbc : Fin nn → K)
    (dynP : Fin nip → K) (s : LocalSys (Fin nn) K) (d : Fin nn → K) (a : Fin nn) :
    act (continuityOpen pts pen f v pbc dynP s) d a = act s d a + ∑ ip, ∑ ir, if a = f.node ir then
      f.shape ip ir * (pen * invLength f ip * onFace f ip d - dot (grad (f.dndx ip) d) (f.normal ip)) *
        f.fac ip else 0 := by
  rw [continuityOpen, loop_act (a := a)]
  intro ip s
  rw [loop_act (a := a)]
  intro ir s
  simp only
  rw [addR_act, cols_act (c := fun ic => ic), cols_act (c := f.node), add_assoc]
  congr 1
  by_cases h : a = f.node ir
  · simp only [h, if_true, onFace, dot, grad, mul_sub, sub_mul, Finset.mul_sum, Finset.sum_mul]
    simp only [sub_eq_add_neg, ← Finset.sum_neg_distrib]
    congr 1
    · exact Finset.sum_congr rfl fun _ _ => by ring
    · rw [Finset.sum_comm]
      exact Finset.sum_congr rfl fun _ _ => Finset.sum_congr rfl fun _ _ => by ring
  · simp [h]

theorem scalarOpen_rhs (m : Fin nip → K) (f : Face nn nf nip nd K) (q qbc : Fin nn → K)
    (s : LocalSys (Fin nn) K) (a : Fin nn) :
    (scalarOpen m f q qbc s).rhs a = s.rhs a + ∑ ip, ∑ ir, if a = f.node ir then
      f.shape ip ir * -(m ip * if m ip > 0 then onFace f ip q else onFace f ip qbc) * f.fac ip else 0 := by
  rw [scalarOpen, loop_rhs (a := a)]
  intro ip s
  rw [loop_rhs (a := a)]
  intro ir s
  simp only
  rw [addR_rhs, cols_rhs (c := f.node), addR_rhs, add_assoc]
  congr 1
  by_cases h : a = f.node ir
  · by_cases hm : m ip > 0
    · simp only [h, hm, if_true]; ring
    · simp only [h, hm, if_true, if_false]; ring
  · simp [h]

theorem scalarOpen_act (m : Fin nip → K) (f : Face nn nf nip nd K) (q qbc : Fin nn → K)
    (s : LocalSys (Fin nn) K) (d : Fin nn → K) (a : Fin nn) :
    act (scalarOpen m f q qbc s) d a = act s d a + ∑ ip, ∑ ir, if a = f.node ir then
      f.shape ip ir * (m ip * if m ip > 0 then onFace f ip d else 0) * f.fac ip else 0 := by
  rw [scalarOpen, loop_act (a := a)]
  intro ip s
  rw [loop_act (a := a)]
  intro ir s
  simp only
  rw [addR_act, cols_act (c := f.node), addR_act]
  congr 1
  by_cases h : a = f.node ir
  · by_cases hm : m ip > 0
    · simp only [h, hm, if_true, onFace, Finset.mul_sum, Finset.sum_mul]
      exact Finset.sum_congr rfl fun _ _ => by ring
    · simp [h, hm]
  · simp [h]

theorem fluxPenalty_rhs (pen : K) (f : Face nn nf nip nd K) (mu q qbc : Fin nn → K) (s : LocalSys (Fin nn) K)
    (a : Fin nn) :
    (fluxPenalty pen f mu q qbc s).rhs a = s.rhs a + ∑ ip, ∑ ir, if a = f.node ir then
      f.shape ip ir * -(penaltyFlux pen f mu q qbc ip) * f.fac ip else 0 := by
  rw [fluxPenalty, loop_rhs (a := a)]
  intro ip s
  simp only
  rw [loop_rhs (a := a)]
  intro ir s
  rw [cols_rhs (c := fun ic => ic), cols_rhs (c := f.node), addR_rhs]
  congr 1
  by_cases h : a = f.node ir
  · simp only [h, if_true]; ring
  · simp [h]

theorem fluxPenalty_act (pen : K) (f : Face nn nf nip nd K) (mu q qbc : Fin nn → K) (s : LocalSys (Fin nn) K)
    (d : Fin nn → K) (a : Fin nn) :
    act (fluxPenalty pen f mu q qbc s) d a = act s d a + ∑ ip, ∑ ir, if a = f.node ir then
      f.shape ip ir * (onFace f ip mu * (pen * invLength f ip * onFace f ip d -
        dot (grad (f.dndx ip) d) (f.normal ip))) * f.fac ip else 0 := by
  rw [fluxPenalty, loop_act (a := a)]
  intro ip s
  simp only
  rw [loop_act (a := a)]
  intro ir s
  rw [cols_act (c := fun ic => ic), cols_act (c := f.node), addR_act, add_assoc]
  congr 1
  generalize onFace f ip mu = m
  by_cases h : a = f.node ir
  · simp only [h, if_true, onFace, dot, grad, mul_sub, sub_mul, Finset.mul_sum, Finset.sum_mul]
    simp only [sub_eq_add_neg, ← Finset.sum_neg_distrib]
    congr 1
    · exact Finset.sum_congr rfl fun _ _ => by ring
    · rw [Finset.sum_comm]
      exact Finset.sum_congr rfl fun _ _ => Finset.sum_congr rfl fun _ _ => by ring
  · simp [h]

theorem visc_traction (mu c : K) (g : Fin nn → Fin nd → K) (n : Fin nd → K) (u : Fin nn → Fin nd → K)
    (i : Fin nd) :
    ∑ ic, viscRow mu (g ic) (fun j => c * n j) (u ic) i = -(c * traction mu g n u i) := by
  simp only [viscRow, traction, grad, Finset.mul_sum, Finset.sum_mul, add_mul, mul_add,
    Finset.sum_add_distrib, ← Finset.sum_neg_distrib, neg_add]
  rw [Finset.sum_comm (f := fun ic j => (-mu) * g ic j * (c * n j) * u ic i),
    Finset.sum_comm (f := fun ic j => (-mu) * g ic i * (c * n j) * u ic j)]
  rw [add_comm]
  congr 1 <;> exact Finset.sum_congr rfl fun _ _ => Finset.sum_congr rfl fun _ _ => by ring

/-- the dilatational part of the viscous force at a face point as the code forms it -/
def divPart (mu inc : K) (g u : Fin nn → Fin nd → K) (n : Fin nd → K) (i : Fin nd) : K :=
  2 / 3 * mu * (∑ ic, ∑ j, g ic j * u ic j * n j) * inc * (1 - n i * n i + n i * ((∑ l, n l) - n i))

theorem momentumOpen_rhs (m : Fin nip → K) (f : Face nn nf nip nd K) (rho mu : Fin nn → K) (o : OpenMom nn nd K)
    (s : LocalSys (Fin nn × Fin nd) K) (n : Fin nn) (k : Fin nd) :
    (momentumOpen m f rho mu o s).rhs (n, k) = s.rhs (n, k) + ∑ ip, ∑ ir, if n = f.node ir then
      f.shape ip ir * (-(m ip * if m ip > 0 then (openVel (m ip) f rho o ip k).1
          else (openVel (m ip) f rho o ip k).2) +
        (tang (f.normal ip) (traction (onFace f ip mu) (f.dndx ip) (f.normal ip) o.u) k -
          divPart (onFace f ip mu) o.incDivU (f.dndx ip) o.u (f.normal ip) k)) * f.fac ip else 0 := by
  rw [momentumOpen, loop_rhs (a := (n, k))]
  intro ip s
  simp only
  rw [loop_rhs (a := (n, k)) (δ := fun ir => if n = f.node ir then
      f.shape ip ir * (tang (f.normal ip) (traction (onFace f ip mu) (f.dndx ip) (f.normal ip) o.u) k -
          divPart (onFace f ip mu) o.incDivU (f.dndx ip) o.u (f.normal ip) k) * f.fac ip else 0)]
  · rw [loop_rhs (a := (n, k)) (δ := fun i => ∑ ir, if (n, k) = (f.node ir, i) then
      f.shape ip ir * -(m ip * if m ip > 0 then (openVel (m ip) f rho o ip i).1
          else (openVel (m ip) f rho o ip i).2) * f.fac ip else 0)]
    · rw [add_assoc, Finset.sum_comm, ← Finset.sum_add_distrib]
      congr 1
      refine Finset.sum_congr rfl fun ir _ => ?_
      rw [sum_ite_pair n (f.node ir) k fun i => f.shape ip ir * -(m ip * if m ip > 0 then
        (openVel (m ip) f rho o ip i).1 else (openVel (m ip) f rho o ip i).2) * f.fac ip]
      by_cases h : n = f.node ir
      · simp only [h, if_true]; ring
      · simp [h]
    · intro i s
      rw [loop_rhs (a := (n, k))]
      intro ir s
      rw [addR_rhs, cols_rhs (c := fun ic => (f.node ic, i)), addR_rhs, add_assoc]
      congr 1
      by_cases h : (n, k) = (f.node ir, i)
      · by_cases hm : m ip > 0
        · simp only [h, hm, if_true]; ring
        · simp only [h, hm, if_true, if_false]; ring
      · simp [h]
  · intro ir s
    rw [openViscous_rhs, sub_eq_add_neg]
    congr 1
    by_cases h : n = f.node ir
    · simp only [h, if_true, visc_traction, tang, divPart]
      have e1 : ∑ ic, ∑ j, f.dndx ip ic j * o.u ic j * (f.shape ip ir * f.fac ip * f.normal ip j) =
          f.shape ip ir * f.fac ip * ∑ ic, ∑ j, f.dndx ip ic j * o.u ic j * f.normal ip j := by
        simp only [Finset.mul_sum]
        exact Finset.sum_congr rfl fun _ _ => Finset.sum_congr rfl fun _ _ => by ring
      have e2 : ∑ l, f.normal ip l * -(f.shape ip ir * f.fac ip *
            traction (onFace f ip mu) (f.dndx ip) (f.normal ip) o.u l) =
          -(f.shape ip ir * f.fac ip *
            ∑ l, f.normal ip l * traction (onFace f ip mu) (f.dndx ip) (f.normal ip) o.u l) := by
        simp only [Finset.mul_sum, ← Finset.sum_neg_distrib]
        exact Finset.sum_congr rfl fun _ _ => by ring
      rw [e1, e2]; ring
    · simp [h]

theorem momentumOpen_act (m : Fin nip → K) (f : Face nn nf nip nd K) (rho mu : Fin nn → K) (o : OpenMom nn nd K)
    (s : LocalSys (Fin nn × Fin nd) K) (d : Fin nn × Fin nd → K) (n : Fin nn) (k : Fin nd) :
    act (momentumOpen m f rho mu o s) d (n, k) = act s d (n, k) + ∑ ip, ∑ ir, if n = f.node ir then
      f.shape ip ir * ((m ip * if m ip > 0 then onFace f ip (fun c => d (c, k)) else 0) -
        tang (f.normal ip) (traction (onFace f ip mu) (f.dndx ip) (f.normal ip) fun c i => d (c, i)) k) *
          f.fac ip else 0 := by
  rw [momentumOpen, loop_act (a := (n, k))]
  intro ip s
  simp only
  rw [loop_act (a := (n, k)) (δ := fun ir => if n = f.node ir then
      -(f.shape ip ir * tang (f.normal ip) (traction (onFace f ip mu) (f.dndx ip) (f.normal ip)
        fun c i => d (c, i)) k * f.fac ip) else 0)]
  · rw [loop_act (a := (n, k)) (δ := fun i => ∑ ir, if (n, k) = (f.node ir, i) then
      f.shape ip ir * (m ip * if m ip > 0 then onFace f ip (fun c => d (c, i)) else 0) * f.fac ip else 0)]
    · rw [add_assoc, Finset.sum_comm, ← Finset.sum_add_distrib]
      congr 1
      refine Finset.sum_congr rfl fun ir _ => ?_
      rw [sum_ite_pair n (f.node ir) k fun i => f.shape ip ir * (m ip * if m ip > 0 then
        onFace f ip (fun c => d (c, i)) else 0) * f.fac ip]
      by_cases h : n = f.node ir
      · simp only [h, if_true]; ring
      · simp [h]
    · intro i s
      rw [loop_act (a := (n, k))]
      intro ir s
      rw [addR_act, cols_act (c := fun ic => (f.node ic, i)), addR_act]
      congr 1
      by_cases h : (n, k) = (f.node ir, i)
      · by_cases hm : m ip > 0
        · simp only [h, hm, if_true, onFace, Finset.mul_sum, Finset.sum_mul]
          exact Finset.sum_congr rfl fun _ _ => by ring
        · simp only [h, hm, if_true, if_false]; simp
      · simp [h]
  · intro ir s
    rw [openViscous_act]
    congr 1
    by_cases h : n = f.node ir
    · simp only [h, if_true, tang]
      have hv : ∀ l, ∑ ic, viscRow (onFace f ip mu) (f.dndx ip ic)
          (fun j => f.shape ip ir * f.fac ip * f.normal ip j) (fun i => d (ic, i)) l =
          -(f.shape ip ir * f.fac ip * traction (onFace f ip mu) (f.dndx ip) (f.normal ip)
            (fun c i => d (c, i)) l) := fun l => visc_traction _ _ _ _ (fun c i => d (c, i)) l
      simp only [hv]
      have e2 : ∑ l, f.normal ip l * -(f.shape ip ir * f.fac ip *
            traction (onFace f ip mu) (f.dndx ip) (f.normal ip) (fun c i => d (c, i)) l) =
          -(f.shape ip ir * f.fac ip *
            ∑ l, f.normal ip l * traction (onFace f ip mu) (f.dndx ip) (f.normal ip) (fun c i => d (c, i)) l) := by
        simp only [Finset.mul_sum, ← Finset.sum_neg_distrib]
        exact Finset.sum_congr rfl fun _ _ => by ring
      rw [e2]; ring
    · simp [h]

end Nalu.Fem
