import Verif.Model.Radiation
import Verif.Props.ElemKernel3
import Verif.Props.NonConformal

/-!
# Closed forms of the radiation assemblies
-/

namespace Nalu.Rad
open Nalu.Edge Nalu.Kernel

variable {K : Type*} [Field K] [LinearOrder K] [IsStrictOrderedRing K]
variable {nn nip nf nd : ℕ}

theorem interp_add (r q d : Fin nn → K) : interp r (q + d) = interp r q + interp r d := by
  simp [interp, mul_add, Finset.sum_add_distrib]

theorem interp_const {r : Fin nn → K} (h : Unity r) (c : K) : interp r (fun _ => c) = c := by
  rw [interp, ← Finset.sum_mul, h, one_mul]

/-! ## Edges -/

/-- Flux of the SUCV scheme. -/
def sucvFlux (pi : K) (Sk : Fin nd → K) (e : EdgeGeo nd K) (n : Fin 2 → NodeData K) (I : Fin 2 → K) : K :=
  sDot Sk e.area * (1 / 2 * (I 0 + I 1)) -
    e.tau * sDot Sk e.area * edgeResidual pi Sk e (n 0) (n 1) (I 0) (I 1)

/-- Linear part of the flux. -/
def sucvLin (Sk : Fin nd → K) (e : EdgeGeo nd K) (n : Fin 2 → NodeData K) (d : Fin 2 → K) : K :=
  sDot Sk e.area * (1 / 2 * (d 0 + d 1)) - e.tau * sDot Sk e.area * (extIp (n 0) (n 1) * (1 / 2) * (d 0 + d 1) +
    sDot Sk e.area * (d 1 - d 0) * (1 / axdx e.area e.xL e.xR))

theorem edgeSucv_rhs (pi : K) (Sk : Fin nd → K) (e : EdgeGeo nd K) (n : Fin 2 → NodeData K) (I : Fin 2 → K)
    (s : LocalSys (Fin 2) K) (a : Fin 2) :
    (edgeSucv pi Sk e n I s).rhs a = s.rhs a - lrs a 0 1 (sucvFlux pi Sk e n I) := by
  simp only [edgeSucv, addR_rhs, addL_rhs, sucvFlux, lrs]
  fin_cases a <;> simp <;> ring

theorem edgeSucv_act (pi : K) (Sk : Fin nd → K) (e : EdgeGeo nd K) (n : Fin 2 → NodeData K) (I : Fin 2 → K)
    (s : LocalSys (Fin 2) K) (d : Fin 2 → K) (a : Fin 2) :
    act (edgeSucv pi Sk e n I s) d a = act s d a + lrs a 0 1 (sucvLin Sk e n d) := by
  simp only [edgeSucv, addR_act, addL_act, sucvLin, lrs]
  fin_cases a <;> simp <;> ring

theorem sum_grad (Sk area : Fin nd → K) (c inv : K) : ∑ j, Sk j * c * area j * inv = sDot Sk area * c * inv := by
  rw [sDot, Finset.sum_mul, Finset.sum_mul]
  exact Finset.sum_congr rfl fun j _ => by ring

theorem sucvFlux_lin (pi : K) (Sk : Fin nd → K) (e : EdgeGeo nd K) (n : Fin 2 → NodeData K) (I d : Fin 2 → K) :
    sucvFlux pi Sk e n (I + d) = sucvFlux pi Sk e n I + sucvLin Sk e n d := by
  simp only [sucvFlux, sucvLin, edgeResidual, sum_grad, Pi.add_apply]
  ring

/-- Upwind flux. -/
def upwFluxR (Sk area : Fin nd → K) (I : Fin 2 → K) : K := sDot Sk area * (if sDot Sk area > 0 then I 0 else I 1)

theorem edgeUpw_rhs (Sk area : Fin nd → K) (I : Fin 2 → K) (s : LocalSys (Fin 2) K) (a : Fin 2) :
    (edgeUpw Sk area I s).rhs a = s.rhs a - lrs a 0 1 (upwFluxR Sk area I) := by
  simp only [edgeUpw, addR_rhs, addL_rhs, upwFluxR, lrs]
  generalize (if sDot Sk area > 0 then I 0 else I 1) = i
  fin_cases a <;> simp
  ring

theorem edgeUpw_act (Sk area : Fin nd → K) (I : Fin 2 → K) (s : LocalSys (Fin 2) K) (d : Fin 2 → K) (a : Fin 2) :
    act (edgeUpw Sk area I s) d a = act s d a + lrs a 0 1 (upwFluxR Sk area d) := by
  simp only [edgeUpw, addR_act, addL_act, upwFluxR, lrs]
  by_cases h : sDot Sk area > 0
  · rw [if_pos h, abs_of_pos h]
    generalize sDot Sk area = c
    have h1 : 1 / 2 * (c + c) = c := by ring
    simp only [h1]
    fin_cases a <;> simp
  · rw [if_neg h, abs_of_nonpos (not_lt.mp h)]
    generalize sDot Sk area = c
    have h1 : 1 / 2 * (c - -c) = c := by ring
    simp only [h1]
    fin_cases a <;> simp

theorem upwFluxR_lin (Sk area : Fin nd → K) (I d : Fin 2 → K) :
    upwFluxR Sk area (I + d) = upwFluxR Sk area I + upwFluxR Sk area d := by
  simp only [upwFluxR, Pi.add_apply]; split_ifs <;> ring

/-! ## Nodes -/

theorem nodeBlackBody_rhs (n : NodeData K) (vol : K) (I : Fin 1 → K) (s : LocalSys (Fin 1) K) (a : Fin 1) :
    (nodeBlackBody n vol I s).rhs a = s.rhs a - ((n.abs + n.scat) * I 0 - n.src) * vol := by
  fin_cases a
  simp [nodeBlackBody]
  ring

theorem nodeBlackBody_act (n : NodeData K) (vol : K) (I : Fin 1 → K) (s : LocalSys (Fin 1) K) (d : Fin 1 → K)
    (a : Fin 1) : act (nodeBlackBody n vol I s) d a = act s d a + (n.abs + n.scat) * vol * d 0 := by
  fin_cases a
  simp [nodeBlackBody]

/-! ## Walls -/

/-- Flux out of the domain through an integration point of a wall. -/
def wallFlux (Sk : Fin nd → K) (f : WallFace nf nip nd K) (bc I : Fin nf → K) (ip : Fin nip) : K :=
  if (∑ j, f.area ip j * Sk j) > 0 then interp (f.shape ip) I * ∑ j, f.area ip j * Sk j
  else interp (f.shape ip) bc * ∑ j, f.area ip j * Sk j

theorem wallAlg_rhs (Sk : Fin nd → K) (f : WallFace nf nip nd K) (bc I : Fin nf → K) (s : LocalSys (Fin nf) K)
    (a : Fin nf) : (wallAlg Sk f bc I s).rhs a =
      s.rhs a + ∑ ip, if a = f.near ip then -(wallFlux Sk f bc I ip) else 0 := by
  rw [wallAlg, loop_rhs (a := a)]
  intro ip s
  simp only [wallFlux]
  by_cases h : (∑ j, f.area ip j * Sk j) > 0
  · simp only [if_pos h, addR_rhs]
    congr 1
    rw [loop_rhs (a := a) (δ := fun _ => 0)]
    · simp
    · intro k s; simp
  · simp only [if_neg h, addR_rhs]

theorem wallAlg_act (Sk : Fin nd → K) (f : WallFace nf nip nd K) (bc I : Fin nf → K) (s : LocalSys (Fin nf) K)
    (d : Fin nf → K) (a : Fin nf) : act (wallAlg Sk f bc I s) d a =
      act s d a + ∑ ip, if a = f.near ip then wallFlux Sk f (fun _ => 0) d ip else 0 := by
  rw [wallAlg, loop_act (a := a)]
  intro ip s
  simp only [wallFlux]
  by_cases h : (∑ j, f.area ip j * Sk j) > 0
  · simp only [if_pos h, addR_act]
    rw [loop_act (a := a) (δ := fun ic => if a = f.near ip then (∑ j, f.area ip j * Sk j) * f.shape ip ic * d ic else 0)]
    · rw [ite_sum]
      congr 1
      by_cases ha : a = f.near ip
      · simp only [if_pos ha, interp, Finset.sum_mul]
        refine Finset.sum_congr rfl fun ic _ => ?_
        rw [Finset.mul_sum]
        exact Finset.sum_congr rfl fun j _ => by ring
      · simp only [if_neg ha]
    · intro k s; simp
  · simp only [if_neg h, addR_act]
    simp [interp]

theorem wallElem_rhs (Sk : Fin nd → K) (f : WallFace nf nip nd K) (bc I : Fin nf → K) (s : LocalSys (Fin nf) K)
    (a : Fin nf) : (wallElem Sk f bc I s).rhs a =
      s.rhs a + ∑ ip, if a = f.near ip then -(wallFlux Sk f bc I ip) else 0 := by
  rw [wallElem, loop_rhs (a := a)]
  intro ip s
  simp only [wallFlux, addR_rhs]
  rw [loop_rhs (a := a) (δ := fun _ => 0)]
  · by_cases h : (∑ j, f.area ip j * Sk j) > 0
    · simp only [if_pos h]
      split_ifs <;> simp
    · simp only [if_neg h]
      split_ifs <;> simp
  · intro k s; simp

theorem wallElem_act (Sk : Fin nd → K) (f : WallFace nf nip nd K) (bc I : Fin nf → K) (s : LocalSys (Fin nf) K)
    (d : Fin nf → K) (a : Fin nf) : act (wallElem Sk f bc I s) d a =
      act s d a + ∑ ip, if a = f.near ip then wallFlux Sk f (fun _ => 0) d ip else 0 := by
  rw [wallElem, loop_act (a := a)]
  intro ip s
  simp only [wallFlux, addR_act]
  rw [loop_act (a := a) (δ := fun ic => if a = f.near ip then (∑ j, f.area ip j * Sk j) * f.shape ip ic *
    (if (∑ j, f.area ip j * Sk j) > 0 then 1 else 0) * d ic else 0)]
  · rw [ite_sum]
    congr 1
    by_cases ha : a = f.near ip
    · simp only [if_pos ha]
      by_cases h : (∑ j, f.area ip j * Sk j) > 0
      · simp only [if_pos h, interp]
        generalize ∑ j, f.area ip j * Sk j = c
        rw [Finset.sum_mul]
        exact Finset.sum_congr rfl fun ic _ => by ring
      · simp [if_neg h, interp]
    · simp only [if_neg ha]
  · intro k s; simp

theorem wallFlux_lin (Sk : Fin nd → K) (f : WallFace nf nip nd K) (bc I d : Fin nf → K) (ip : Fin nip) :
    wallFlux Sk f bc (I + d) ip = wallFlux Sk f bc I ip + wallFlux Sk f (fun _ => 0) d ip := by
  simp only [wallFlux, interp_add]
  split_ifs
  · ring
  · simp [interp]

/-! ## Elements -/

/-- Flux of the element SUCV kernel through a sub-control surface. -/
def elemFlux (pi : K) (Sk : Fin nd → K) (tau : Fin nip → K) (e : Scs nn nip nd K) (n : Fin nn → NodeData K)
    (I : Fin nn → K) (ip : Fin nip) : K :=
  interp (e.shape ip) I * sDot Sk (e.area ip) - tau ip * sDot Sk (e.area ip) * elemResidual pi Sk e n I ip

/-- Its linear part. -/
def elemLin (Sk : Fin nd → K) (tau : Fin nip → K) (e : Scs nn nip nd K) (n : Fin nn → NodeData K)
    (d : Fin nn → K) (ip : Fin nip) : K :=
  interp (e.shape ip) d * sDot Sk (e.area ip) - tau ip * sDot Sk (e.area ip) *
    ((∑ ic, ∑ j, Sk j * e.dndx ip ic j * d ic) +
      interp (e.shape ip) (fun ic => (n ic).abs + (n ic).scat) * interp (e.shape ip) d)

theorem elemSucv_rhs (pi : K) (Sk : Fin nd → K) (tau : Fin nip → K) (e : Scs nn nip nd K) (n : Fin nn → NodeData K)
    (I : Fin nn → K) (s : LocalSys (Fin nn) K) (a : Fin nn) :
    (elemSucv pi Sk tau e n I s).rhs a =
      s.rhs a - ∑ ip, lrs a (e.il ip) (e.ir ip) (elemFlux pi Sk tau e n I ip) := by
  rw [elemSucv, loop_rhs (a := a) (δ := fun ip => - lrs a (e.il ip) (e.ir ip) (elemFlux pi Sk tau e n I ip))]
  · rw [Finset.sum_neg_distrib, sub_eq_add_neg]
  · intro ip s
    simp only [addR_rhs]
    rw [loop_rhs (a := a) (δ := fun _ => 0)]
    · simp only [addR_rhs]
      rw [loop_rhs (a := a) (δ := fun _ => 0)]
      · simp only [lrs, elemFlux, Finset.sum_const_zero, add_zero]
        split_ifs <;> ring
      · intro k s; simp
    all_goals intro k s; simp

theorem elemSucv_act (pi : K) (Sk : Fin nd → K) (tau : Fin nip → K) (e : Scs nn nip nd K) (n : Fin nn → NodeData K)
    (I : Fin nn → K) (s : LocalSys (Fin nn) K) (d : Fin nn → K) (a : Fin nn) :
    act (elemSucv pi Sk tau e n I s) d a =
      act s d a + ∑ ip, lrs a (e.il ip) (e.ir ip) (elemLin Sk tau e n d ip) := by
  rw [elemSucv, loop_act (a := a)]
  intro ip s
  simp only [addR_act]
  rw [loop_act (a := a) (δ := fun ic => lrs a (e.il ip) (e.ir ip) (-(tau ip) * sDot Sk (e.area ip) *
      (e.shape ip ic * interp (e.shape ip) (fun ic => (n ic).abs + (n ic).scat) + ∑ j, Sk j * e.dndx ip ic j) * d ic))]
  · simp only [addR_act]
    rw [loop_act (a := a) (δ := fun ic => lrs a (e.il ip) (e.ir ip) (sDot Sk (e.area ip) * e.shape ip ic * d ic))]
    · rw [lrs_sum, lrs_sum, add_assoc, ← lrs_add]
      congr 2
      simp only [elemLin]
      generalize sDot Sk (e.area ip) = sj
      generalize hE : interp (e.shape ip) (fun ic => (n ic).abs + (n ic).scat) = E
      simp only [interp]
      have h1 : ∑ k, sj * e.shape ip k * d k = (∑ ic, e.shape ip ic * d ic) * sj := by
        rw [Finset.sum_mul]; exact Finset.sum_congr rfl fun k _ => by ring
      have h2 : ∑ k, -tau ip * sj * (e.shape ip k * E + ∑ j, Sk j * e.dndx ip k j) * d k =
          -(tau ip * sj * ((∑ ic, ∑ j, Sk j * e.dndx ip ic j * d ic) + E * ∑ ic, e.shape ip ic * d ic)) := by
        rw [Finset.mul_sum, ← Finset.sum_add_distrib, Finset.mul_sum, ← Finset.sum_neg_distrib]
        refine Finset.sum_congr rfl fun k _ => ?_
        rw [← Finset.sum_mul]; ring
      rw [h1, h2]; ring
    · intro k s
      simp only [addL_act, lrs]
      split_ifs <;> ring
  · intro k s
    simp only [addL_act, lrs, Finset.sum_neg_distrib]
    split_ifs <;> ring

theorem elemFlux_lin (pi : K) (Sk : Fin nd → K) (tau : Fin nip → K) (e : Scs nn nip nd K) (n : Fin nn → NodeData K)
    (I d : Fin nn → K) (ip : Fin nip) :
    elemFlux pi Sk tau e n (I + d) ip = elemFlux pi Sk tau e n I ip + elemLin Sk tau e n d ip := by
  simp only [elemFlux, elemLin, elemResidual, interp_add, Pi.add_apply, mul_add, Finset.sum_add_distrib]
  ring

theorem elemBlackBody_rhs (e : Scv nn nip K) (n : Fin nn → NodeData K) (I : Fin nn → K) (s : LocalSys (Fin nn) K)
    (a : Fin nn) : (elemBlackBody e n I s).rhs a = s.rhs a + ∑ ip, if a = e.node ip then
      -((interp (e.shape ip) (fun ic => (n ic).abs + (n ic).scat) * interp (e.shape ip) I -
        interp (e.shape ip) (fun ic => (n ic).src)) * e.vol ip) else 0 := by
  rw [elemBlackBody, loop_rhs (a := a)]
  intro ip s
  rw [loop_rhs (a := a) (δ := fun _ => 0)]
  · simp
  · intro k s; simp

theorem elemBlackBody_act (e : Scv nn nip K) (n : Fin nn → NodeData K) (I : Fin nn → K) (s : LocalSys (Fin nn) K)
    (d : Fin nn → K) (a : Fin nn) : act (elemBlackBody e n I s) d a = act s d a + ∑ ip, if a = e.node ip then
      interp (e.shape ip) (fun ic => (n ic).abs + (n ic).scat) * interp (e.shape ip) d * e.vol ip else 0 := by
  rw [elemBlackBody, loop_act (a := a)]
  intro ip s
  rw [loop_act (a := a) (δ := fun ic => if a = e.node ip then e.shape ip ic *
    interp (e.shape ip) (fun ic => (n ic).abs + (n ic).scat) * e.vol ip * d ic else 0)]
  · rw [ite_sum, addR_act]
    congr 1
    by_cases ha : a = e.node ip
    · simp only [if_pos ha]
      generalize interp (e.shape ip) (fun ic => (n ic).abs + (n ic).scat) = E
      rw [interp, Finset.mul_sum, Finset.sum_mul]
      exact Finset.sum_congr rfl fun k _ => by ring
    · simp only [if_neg ha]
  · intro k s; simp

theorem elemScatter_rhs (pi : K) (e : Scv nn nip K) (n : Fin nn → NodeData K) (s : LocalSys (Fin nn) K) (a : Fin nn) :
    (elemScatter pi e n s).rhs a = s.rhs a + ∑ ip, if a = e.node ip then
      interp (e.shape ip) (fun ic => (n ic).scat * (n ic).G) * (1 / pi / 4) * e.vol ip else 0 := by
  rw [elemScatter, loop_rhs (a := a)]
  intro ip s
  simp

theorem elemScatter_act (pi : K) (e : Scv nn nip K) (n : Fin nn → NodeData K) (s : LocalSys (Fin nn) K)
    (d : Fin nn → K) (a : Fin nn) : act (elemScatter pi e n s) d a = act s d a := by
  rw [elemScatter, loop_act (a := a) (δ := fun _ => 0)]
  · simp
  · intro ip s; simp

/-! ## Wall heat flux of the conduction equation -/

theorem heatCondIrrad_rhs (sigma : K) (f : WallFace nf nip nd K) (amag : Fin nip → K) (irr eps T : Fin nf → K)
    (s : LocalSys (Fin nf) K) (a : Fin nf) : (heatCondIrrad sigma f amag irr eps T s).rhs a =
      s.rhs a + ∑ ip, if a = f.near ip then interp (f.shape ip) eps *
        (interp (f.shape ip) irr - sigma * interp (f.shape ip) T ^ 4) * amag ip else 0 := by
  rw [heatCondIrrad, loop_rhs (a := a)]
  intro ip s
  rw [loop_rhs (a := a) (δ := fun _ => 0)]
  · simp
  · intro k s; simp

theorem heatCondIrrad_act (sigma : K) (f : WallFace nf nip nd K) (amag : Fin nip → K) (irr eps T : Fin nf → K)
    (s : LocalSys (Fin nf) K) (d : Fin nf → K) (a : Fin nf) : act (heatCondIrrad sigma f amag irr eps T s) d a =
      act s d a + ∑ ip, if a = f.near ip then 4 * sigma * interp (f.shape ip) eps * amag ip *
        interp (f.shape ip) T ^ 3 * interp (f.shape ip) d else 0 := by
  rw [heatCondIrrad, loop_act (a := a)]
  intro ip s
  rw [loop_act (a := a) (δ := fun ic => if a = f.near ip then f.shape ip ic * (4 * sigma * interp (f.shape ip) eps *
    amag ip * interp (f.shape ip) T ^ 3) * d ic else 0)]
  · rw [ite_sum, addR_act]
    congr 1
    by_cases ha : a = f.near ip
    · simp only [if_pos ha]
      generalize 4 * sigma * interp (f.shape ip) eps * amag ip * interp (f.shape ip) T ^ 3 = E
      rw [interp, Finset.mul_sum]
      exact Finset.sum_congr rfl fun k _ => by ring
    · simp only [if_neg ha]
  · intro k s; simp

end Nalu.Rad
