import Verif.Model.Vof
import Verif.Props.ElemKernel3

/-!
# Closed forms of the volume-of-fluid kernels
-/

set_option linter.unusedSectionVars false

namespace Nalu.Vof
open Nalu.Edge Nalu.Kernel
open Nalu.NC (VofOpts)

variable {K : Type*} [Field K] [LinearOrder K] [IsStrictOrderedRing K]
variable {nn nip nf nd : ℕ} {M : Type*}

theorem loop_inv {S : Type*} (P : S → Prop) {n : ℕ} (body : Fin n → S → S)
    (h : ∀ k s, P s → P (body k s)) (s : S) (hs : P s) : P (loop n body s) := by
  unfold loop
  generalize List.finRange n = l
  induction l generalizing s with
  | nil => exact hs
  | cons x l ih => exact ih _ (h x s hs)

theorem foldl_inv {S E : Type*} (P : S → Prop) (body : S → E → S) (l : List E)
    (h : ∀ k ∈ l, ∀ s, P s → P (body s k)) (s : S) (hs : P s) : P (l.foldl body s) := by
  induction l generalizing s with
  | nil => exact hs
  | cons x l ih => exact ih (fun k hk => h k (by simp [hk])) _ (h x (by simp) s hs)

/-- Action from entries for a kernel that adds `±` a row to the rows `il`, `ir`. -/
theorem act_of_lhs (s t : LocalSys (Fin nn) K) (d : Fin nn → K) (a : Fin nn) (il ir : Fin nip → Fin nn)
    (row : Fin nip → Fin nn → K)
    (h : ∀ b, t.lhs a b = s.lhs a b + ∑ ip, lrs a (il ip) (ir ip) (row ip b)) :
    act t d a = act s d a + ∑ ip, lrs a (il ip) (ir ip) (∑ ic, row ip ic * d ic) := by
  simp only [act, h, add_mul, Finset.sum_add_distrib, Finset.sum_mul]
  congr 1
  rw [Finset.sum_comm]
  refine Finset.sum_congr rfl fun ip _ => ?_
  rw [← lrs_sum]
  exact Finset.sum_congr rfl fun ic _ => (lrs_smul ..).symm

theorem act_of_node (s t : LocalSys (Fin nn) K) (d : Fin nn → K) (a : Fin nn) (near : Fin nip → Fin nn)
    (row : Fin nip → Fin nn → K)
    (h : ∀ b, t.lhs a b = s.lhs a b + ∑ ip, if a = near ip then row ip b else 0) :
    act t d a = act s d a + ∑ ip, if a = near ip then ∑ ic, row ip ic * d ic else 0 := by
  simp only [act, h, add_mul, Finset.sum_add_distrib, Finset.sum_mul]
  congr 1
  rw [Finset.sum_comm]
  refine Finset.sum_congr rfl fun ip _ => ?_
  by_cases hn : a = near ip <;> simp [hn]

/-! ## Continuity -/

theorem continuityVofAdv_rhs (pts : K) (vo : VofOpts nd K) (e : Scs nn nip nd K)
    (dl : Fin nip → Fin nn → Fin nd → K) (v : VofNodes nn nd K) (s : LocalSys (Fin nn) K) (a : Fin nn) :
    (continuityVofAdv pts vo e dl v s).rhs a = s.rhs a - ∑ ip, lrs a (e.il ip) (e.ir ip)
      (scsVdot pts vo (e.shape ip) (e.dndx ip) (e.area ip) v / pts) := by
  rw [continuityVofAdv, loop_rhs (a := a) (δ := fun ip => - lrs a (e.il ip) (e.ir ip)
      (scsVdot pts vo (e.shape ip) (e.dndx ip) (e.area ip) v / pts))]
  · simp [Finset.sum_neg_distrib, sub_eq_add_neg]
  · intro ip s
    simp only [addR_rhs]
    rw [loop_rhs (a := a) (δ := fun _ => 0) (h := by intro k s; simp)]
    simp only [lrs]
    split_ifs <;> simp

theorem continuityVofAdv_act (pts : K) (vo : VofOpts nd K) (e : Scs nn nip nd K)
    (dl : Fin nip → Fin nn → Fin nd → K) (v : VofNodes nn nd K) (s : LocalSys (Fin nn) K) (d : Fin nn → K)
    (a : Fin nn) :
    act (continuityVofAdv pts vo e dl v s) d a = act s d a + ∑ ip, lrs a (e.il ip) (e.ir ip)
      (∑ ic, (∑ j, -(dl ip ic j) * e.area ip j) / interp (e.shape ip) v.rho * d ic) := by
  refine act_of_lhs _ _ d a e.il e.ir
    (fun ip b => (∑ j, -(dl ip b j) * e.area ip j) / interp (e.shape ip) v.rho) fun b => ?_
  rw [continuityVofAdv, loop_lhs (a := a) (b := b)]
  intro ip s
  simp only [addR_lhs]
  rw [loop_lhs (a := a) (b := b) (δ := fun ic =>
    if b = ic then lrs a (e.il ip) (e.ir ip)
      ((∑ j, -(dl ip ic j) * e.area ip j) / interp (e.shape ip) v.rho) else 0)]
  · simp
  · intro ic s
    simp only [addL_lhs, lrs]
    by_cases hb : b = ic <;> simp [hb]; ring

theorem continuityVofOpen_rhs (pts pen : K) (vo : VofOpts nd K) (f : Face nn nf nip nd K)
    (dl : Fin nip → Fin nn → Fin nd → K) (v : VofNodes nn nd K) (pbc : Fin nn → K)
    (dynP : Fin nip → K) (s : LocalSys (Fin nn) K) (a : Fin nn) :
    (continuityVofOpen pts pen vo f dl v pbc dynP s).rhs a = s.rhs a - ∑ ip, if a = f.near ip then
      openVdotKernel pts pen vo f v pbc dynP ip / pts else 0 := by
  rw [continuityVofOpen, loop_rhs (a := a) (δ := fun ip => -(if a = f.near ip then
      openVdotKernel pts pen vo f v pbc dynP ip / pts else 0))]
  · simp [Finset.sum_neg_distrib, sub_eq_add_neg]
  intro ip s
  simp only [addR_rhs]
  rw [loop_rhs (a := a) (δ := fun _ => 0) (h := by intro k s; simp),
    loop_rhs (a := a) (δ := fun _ => 0) (h := by intro k s; simp)]
  by_cases h : a = f.near ip <;> simp [h]

theorem continuityVofOpen_act (pts pen : K) (vo : VofOpts nd K) (f : Face nn nf nip nd K)
    (dl : Fin nip → Fin nn → Fin nd → K) (v : VofNodes nn nd K) (pbc : Fin nn → K)
    (dynP : Fin nip → K) (s : LocalSys (Fin nn) K) (d : Fin nn → K) (a : Fin nn) :
    act (continuityVofOpen pts pen vo f dl v pbc dynP s) d a = act s d a + ∑ ip, if a = f.near ip then
      (∑ ic, f.shape ip ic * pen / (∑ ic, f.shape ip ic * v.rho (f.node ic)) * invLength f ip * f.aMag ip *
        d (f.node ic)) +
      ∑ ic, (∑ j, -(dl ip ic j) * f.area ip j) / (∑ ic, f.shape ip ic * v.rho (f.node ic)) * d ic else 0 := by
  rw [continuityVofOpen, loop_act (a := a) (d := d)]
  intro ip s
  simp only [addR_act]
  rw [loop_act (a := a) (d := d) (δ := fun ic => if a = f.near ip then
      (∑ j, -(dl ip ic j) * f.area ip j) / (∑ ic, f.shape ip ic * v.rho (f.node ic)) * d ic else 0)
      (h := by intro k s; simp),
    loop_act (a := a) (d := d) (δ := fun ic => if a = f.near ip then
      f.shape ip ic * pen / (∑ ic, f.shape ip ic * v.rho (f.node ic)) * invLength f ip * f.aMag ip *
        d (f.node ic) else 0) (h := by intro k s; simp)]
  by_cases h : a = f.near ip <;> simp [h]; ring

theorem continuityVofInflow_rhs (pts : K) (f : Face nn nf nip nd K)
    (ubc : Fin nn → Fin nd → K) (s : LocalSys (Fin nf) K) (a : Fin nf) :
    (continuityVofInflow pts f ubc s).rhs a = s.rhs a - ∑ ip, if a = f.loc ip then
      inflowVdotIp f ubc ip / pts else 0 := by
  rw [continuityVofInflow, loop_rhs (a := a) (δ := fun ip => -(if a = f.loc ip then
      inflowVdotIp f ubc ip / pts else 0))]
  · simp [Finset.sum_neg_distrib, sub_eq_add_neg]
  intro ip s
  by_cases h : a = f.loc ip <;> simp [h]

/-! ## Volume-fraction kernels -/

theorem vofScsAdv_rhs (e : Scs nn nip nd K) (vdot : Fin nip → K) (q : Fin nn → K)
    (s : LocalSys (Fin nn) K) (a : Fin nn) :
    (vofScsAdv e vdot q s).rhs a = s.rhs a - ∑ ip, lrs a (e.il ip) (e.ir ip)
      (∑ ic, e.shape ip ic * vdot ip * q ic) := by
  rw [vofScsAdv, loop_rhs (a := a) (δ := fun ip => - lrs a (e.il ip) (e.ir ip)
      (∑ ic, e.shape ip ic * vdot ip * q ic))]
  · simp [Finset.sum_neg_distrib, sub_eq_add_neg]
  · intro ip s
    simp only [addR_rhs]
    rw [loop_rhs (a := a) (δ := fun _ => 0) (h := by intro k s; simp)]
    simp only [lrs]
    split_ifs <;> simp

theorem vofScsAdv_act (e : Scs nn nip nd K) (vdot : Fin nip → K) (q : Fin nn → K)
    (s : LocalSys (Fin nn) K) (d : Fin nn → K) (a : Fin nn) :
    act (vofScsAdv e vdot q s) d a = act s d a + ∑ ip, lrs a (e.il ip) (e.ir ip)
      (∑ ic, e.shape ip ic * vdot ip * d ic) := by
  refine act_of_lhs _ _ d a e.il e.ir (fun ip b => e.shape ip b * vdot ip) fun b => ?_
  rw [vofScsAdv, loop_lhs (a := a) (b := b)]
  intro ip s
  simp only [addR_lhs]
  rw [loop_lhs (a := a) (b := b) (δ := fun ic =>
    if b = ic then lrs a (e.il ip) (e.ir ip) (e.shape ip ic * vdot ip) else 0)]
  · simp
  · intro ic s
    simp only [addL_lhs, lrs]
    by_cases hb : b = ic <;> simp [hb]; ring

/-- Upwinded flux of the volume-fraction kernels. -/
def vofUpwFlux (o : Opts K) (e : Scs nn nip nd K) (vdot : Fin nip → K) (x : Fin nn → Fin nd → K)
    (q : Fin nn → K) (G : Fin nn → Fin nd → K) (ip : Fin nip) : K :=
  let ex := extrapolate o (coordIp (e.shape ip) x) (x (e.il ip)) (x (e.ir ip)) (G (e.il ip)) (G (e.ir ip))
    (q (e.il ip)) (q (e.ir ip))
  vdot ip * (if vdot ip > 0 then ex.1 else ex.2)

theorem vofScsUpw_rhs (o : Opts K) (e : Scs nn nip nd K) (vdot : Fin nip → K) (x : Fin nn → Fin nd → K)
    (q : Fin nn → K) (G : Fin nn → Fin nd → K) (s : LocalSys (Fin nn) K) (a : Fin nn) :
    (vofScsUpw o e vdot x q G s).rhs a = s.rhs a - ∑ ip, lrs a (e.il ip) (e.ir ip)
      (vofUpwFlux o e vdot x q G ip) := by
  rw [vofScsUpw, loop_rhs (a := a) (δ := fun ip => - lrs a (e.il ip) (e.ir ip)
      (vofUpwFlux o e vdot x q G ip))]
  · simp [Finset.sum_neg_distrib, sub_eq_add_neg]
  · intro ip s
    simp only [addR_rhs, addL_rhs, lrs, vofUpwFlux]
    rcases Classical.propComplete (a = e.il ip) with h1 | h1 <;>
      rcases Classical.propComplete (a = e.ir ip) with h2 | h2 <;> simp only [h1, h2, if_true, if_false] <;> ring

theorem vofScsUpw_lhs (o : Opts K) (e : Scs nn nip nd K) (vdot : Fin nip → K) (x : Fin nn → Fin nd → K)
    (q : Fin nn → K) (G : Fin nn → Fin nd → K) (s : LocalSys (Fin nn) K) (a b : Fin nn) :
    (vofScsUpw o e vdot x q G s).lhs a b = s.lhs a b + ∑ ip, lrs a (e.il ip) (e.ir ip)
      (if b = e.il ip then |vdot ip| else 0) := by
  rw [vofScsUpw, loop_lhs (a := a) (b := b)]
  intro ip s
  simp only [addL_lhs, addR_lhs, lrs]
  rcases Classical.propComplete (b = e.il ip) with hb | hb <;>
    rcases Classical.propComplete (a = e.il ip) with h1 | h1 <;>
    rcases Classical.propComplete (a = e.ir ip) with h2 | h2 <;>
    simp only [hb, h1, h2, and_true, and_false, true_and, false_and, if_true, if_false] <;> ring

theorem vofScsUpw_act (o : Opts K) (e : Scs nn nip nd K) (vdot : Fin nip → K) (x : Fin nn → Fin nd → K)
    (q : Fin nn → K) (G : Fin nn → Fin nd → K) (s : LocalSys (Fin nn) K) (d : Fin nn → K) (a : Fin nn) :
    act (vofScsUpw o e vdot x q G s) d a = act s d a + ∑ ip, lrs a (e.il ip) (e.ir ip)
      (|vdot ip| * d (e.il ip)) := by
  rw [act_of_lhs s _ d a e.il e.ir _ (vofScsUpw_lhs o e vdot x q G s a)]
  simp [ite_mul]

theorem vofMass_rhs (b : Bdf K) (e : Scv nn nip K) (q : Levels nn K) (s : LocalSys (Fin nn) K) (a : Fin nn) :
    (vofMass b e q s).rhs a = s.rhs a + ∑ ip, if a = e.node ip then
      -((b.g1 * interp (e.shape ip) q.np1 + b.g2 * interp (e.shape ip) q.n + b.g3 * interp (e.shape ip) q.nm1) /
        b.dt * e.vol ip) else 0 := by
  rw [vofMass, loop_rhs (a := a)]
  intro ip s
  simp only [addR_rhs]
  rw [loop_rhs (a := a) (δ := fun _ => 0) (h := by intro k s; simp)]
  simp

theorem vofMass_act (b : Bdf K) (e : Scv nn nip K) (q : Levels nn K) (s : LocalSys (Fin nn) K)
    (d : Fin nn → K) (a : Fin nn) :
    act (vofMass b e q s) d a = act s d a + ∑ ip, if a = e.node ip then
      ∑ ic, e.shape ip ic * b.g1 / b.dt * e.vol ip * d ic else 0 := by
  refine act_of_node _ _ d a e.node (fun ip ic => e.shape ip ic * b.g1 / b.dt * e.vol ip) fun c => ?_
  rw [vofMass, loop_lhs (a := a) (b := c)]
  intro ip s
  simp only [addR_lhs]
  rw [loop_lhs (a := a) (b := c) (δ := fun ic => if c = ic then
    (if a = e.node ip then e.shape ip ic * b.g1 / b.dt * e.vol ip else 0) else 0)]
  · simp
  · intro ic s
    by_cases hc : c = ic <;> by_cases ha : a = e.node ip <;> simp [hc, ha]

theorem vofGcl_rhs (e : Scv nn nip K) (divV q : Fin nn → K) (s : LocalSys (Fin nn) K) (a : Fin nn) :
    (vofGcl e divV q s).rhs a = s.rhs a + ∑ ip, if a = e.node ip then
      -(interp (e.shape ip) q * interp (e.shape ip) divV * e.vol ip) else 0 := by
  rw [vofGcl, loop_rhs (a := a)]
  intro ip s
  rw [loop_rhs (a := a) (δ := fun _ => 0) (h := by intro k s; simp)]
  simp

theorem vofGcl_act (e : Scv nn nip K) (divV q : Fin nn → K) (s : LocalSys (Fin nn) K)
    (d : Fin nn → K) (a : Fin nn) :
    act (vofGcl e divV q s) d a = act s d a + ∑ ip, if a = e.node ip then
      ∑ ic, e.shape ip ic * (interp (e.shape ip) divV * e.vol ip) * d ic else 0 := by
  refine act_of_node _ _ d a e.node (fun ip ic => e.shape ip ic * (interp (e.shape ip) divV * e.vol ip))
    fun c => ?_
  rw [vofGcl, loop_lhs (a := a) (b := c)]
  intro ip s
  rw [loop_lhs (a := a) (b := c) (δ := fun ic => if c = ic then
    (if a = e.node ip then e.shape ip ic * (interp (e.shape ip) divV * e.vol ip) else 0) else 0)]
  · simp
  · intro ic s
    by_cases hc : c = ic <;> by_cases ha : a = e.node ip <;> simp [hc, ha]

theorem vofDiv_rhs (e : Scv nn nip K) (g : Fin nip → Fin nn → Fin nd → K) (u : Fin nn → Fin nd → K)
    (q : Fin nn → K) (s : LocalSys (Fin nn) K) (a : Fin nn) :
    (vofDiv e g u q s).rhs a = s.rhs a + ∑ ip, if a = e.node ip then
      interp (e.shape ip) q * divU (g ip) u * e.vol ip else 0 := by
  rw [vofDiv, loop_rhs (a := a)]
  intro ip s
  simp only [addR_rhs]
  rw [loop_rhs (a := a) (δ := fun _ => 0) (h := by intro k s; simp)]
  simp

theorem vofDiv_act (e : Scv nn nip K) (g : Fin nip → Fin nn → Fin nd → K) (u : Fin nn → Fin nd → K)
    (q : Fin nn → K) (s : LocalSys (Fin nn) K) (d : Fin nn → K) (a : Fin nn) :
    act (vofDiv e g u q s) d a = act s d a + ∑ ip, if a = e.node ip then
      ∑ ic, -(e.shape ip ic * divU (g ip) u * e.vol ip) * d ic else 0 := by
  refine act_of_node _ _ d a e.node (fun ip ic => -(e.shape ip ic * divU (g ip) u * e.vol ip))
    fun c => ?_
  rw [vofDiv, loop_lhs (a := a) (b := c)]
  intro ip s
  simp only [addR_lhs]
  rw [loop_lhs (a := a) (b := c) (δ := fun ic => if c = ic then
    (if a = e.node ip then -(e.shape ip ic * divU (g ip) u * e.vol ip) else 0) else 0)]
  · simp
  · intro ic s
    by_cases hc : c = ic <;> by_cases ha : a = e.node ip <;> simp [hc, ha]

/-- row of the non-conservative advection kernel -/
def scvAdvRow (e : Scv nn nip K) (g : Fin nip → Fin nn → Fin nd → K) (u : Fin nn → Fin nd → K) (ip : Fin nip)
    (ic : Fin nn) : K := ∑ j, coordIp (e.shape ip) u j * g ip ic j

theorem vofScvAdv_rhs (e : Scv nn nip K) (g : Fin nip → Fin nn → Fin nd → K) (u : Fin nn → Fin nd → K)
    (q : Fin nn → K) (s : LocalSys (Fin nn) K) (a : Fin nn) :
    (vofScvAdv e g u q s).rhs a = s.rhs a + ∑ ip, if a = e.node ip then
      -((∑ ic, scvAdvRow e g u ip ic * q ic) * e.vol ip) else 0 := by
  rw [vofScvAdv, loop_rhs (a := a)]
  intro ip s
  simp only [addR_rhs, scvAdvRow]
  rw [loop_rhs (a := a) (δ := fun _ => 0) (h := by intro k s; simp)]
  simp

theorem vofScvAdv_act (e : Scv nn nip K) (g : Fin nip → Fin nn → Fin nd → K) (u : Fin nn → Fin nd → K)
    (q : Fin nn → K) (s : LocalSys (Fin nn) K) (d : Fin nn → K) (a : Fin nn) :
    act (vofScvAdv e g u q s) d a = act s d a + ∑ ip, if a = e.node ip then
      ∑ ic, scvAdvRow e g u ip ic * e.vol ip * d ic else 0 := by
  refine act_of_node _ _ d a e.node (fun ip ic => scvAdvRow e g u ip ic * e.vol ip)
    fun c => ?_
  rw [vofScvAdv, loop_lhs (a := a) (b := c)]
  intro ip s
  simp only [addR_lhs]
  rw [loop_lhs (a := a) (b := c) (δ := fun ic => if c = ic then
    (if a = e.node ip then scvAdvRow e g u ip ic * e.vol ip else 0) else 0)]
  · simp
  · intro ic s
    simp only [scvAdvRow, addL_lhs]
    by_cases hc : c = ic <;> by_cases ha : a = e.node ip <;> simp [hc, ha]

/-- What the open kernel removes at one boundary point. -/
def vofOpenFlux (f : Face nn nf nip nd K) (vdot : Fin nip → K) (q qbc : Fin nn → K) (ip : Fin nip) : K :=
  if vdot ip > 0 then vdot ip * ∑ ic, f.adv ip ic * q (f.node ic)
  else vdot ip * ∑ ic, f.adv ip ic * qbc (f.node ic)

theorem vofOpenAdv_rhs (f : Face nn nf nip nd K) (vdot : Fin nip → K) (q qbc : Fin nn → K)
    (s : LocalSys (Fin nn) K) (a : Fin nn) :
    (vofOpenAdv f vdot q qbc s).rhs a = s.rhs a + ∑ ip, if a = f.near ip then
      -vofOpenFlux f vdot q qbc ip else 0 := by
  rw [vofOpenAdv, loop_rhs (a := a)]
  intro ip s
  simp only [addR_rhs]
  rw [loop_rhs (a := a) (δ := fun _ => 0) (h := by intro k s; simp)]
  simp only [addR_rhs, vofOpenFlux]
  by_cases h : a = f.near ip <;> by_cases hv : vdot ip > 0 <;> simp [h, hv]

theorem vofOpenAdv_act (f : Face nn nf nip nd K) (vdot : Fin nip → K) (q qbc : Fin nn → K)
    (s : LocalSys (Fin nn) K) (d : Fin nn → K) (a : Fin nn) :
    act (vofOpenAdv f vdot q qbc s) d a = act s d a + ∑ ip, if a = f.near ip then
      (if vdot ip > 0 then vdot ip * ∑ ic, f.adv ip ic * d (f.node ic) else 0) else 0 := by
  rw [vofOpenAdv, loop_act (a := a) (d := d)]
  intro ip s
  simp only [addR_act]
  rw [loop_act (a := a) (d := d) (δ := fun ic => if a = f.near ip then
      f.adv ip ic * (vdot ip * (if vdot ip > 0 then 1 else 0)) * d (f.node ic) else 0)
      (h := by intro k s; simp)]
  simp only [addR_act]
  congr 1
  by_cases h : a = f.near ip
  · by_cases hv : vdot ip > 0
    · simp only [h, hv, if_true, Finset.mul_sum]
      exact Finset.sum_congr rfl fun _ _ => by ring
    · simp [h, hv]
  · simp [h]

theorem vofSharpen_rhs (cA : K) (e : Scv nn nip K) (g : Fin nip → Fin nn → Fin nd → K) (magU : Fin nn → K)
    (n : Fin nn → Fin nd → K) (q : Fin nn → K) (s : LocalSys (Fin nn) K) (a : Fin nn) :
    (vofSharpen cA e g magU n q s).rhs a = s.rhs a + ∑ ip, if a = e.node ip then
      -((∑ ic, (∑ j, compression cA magU n ic j * g ip ic j) * (q ic * (1 - q ic))) * e.vol ip) else 0 := by
  rw [vofSharpen, loop_rhs (a := a)]
  intro ip s
  simp only [addR_rhs]
  rw [loop_rhs (a := a) (δ := fun _ => 0) (h := by intro k s; simp)]
  simp

theorem vofSharpen_act (cA : K) (e : Scv nn nip K) (g : Fin nip → Fin nn → Fin nd → K) (magU : Fin nn → K)
    (n : Fin nn → Fin nd → K) (q : Fin nn → K) (s : LocalSys (Fin nn) K) (d : Fin nn → K) (a : Fin nn) :
    act (vofSharpen cA e g magU n q s) d a = act s d a + ∑ ip, if a = e.node ip then
      ∑ ic, (∑ j, compression cA magU n ic j * g ip ic j) * e.vol ip * d ic else 0 := by
  refine act_of_node _ _ d a e.node (fun ip ic => (∑ j, compression cA magU n ic j * g ip ic j) * e.vol ip)
    fun c => ?_
  rw [vofSharpen, loop_lhs (a := a) (b := c)]
  intro ip s
  simp only [addR_lhs]
  rw [loop_lhs (a := a) (b := c) (δ := fun ic => if c = ic then
    (if a = e.node ip then (∑ j, compression cA magU n ic j * g ip ic j) * e.vol ip else 0) else 0)]
  · simp
  · intro ic s
    simp only [addL_lhs]
    by_cases hc : c = ic <;> by_cases ha : a = e.node ip <;> simp [hc, ha]

end Nalu.Vof
