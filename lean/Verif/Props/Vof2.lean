import Verif.Props.Vof

/-!
# Balanced-force two-phase flow: discrete volume conservation (C104), fixed points (C103)
-/

set_option linter.unusedSectionVars false

namespace Nalu.Vof
open Nalu.Edge Nalu.Kernel
open Nalu.NC (VofOpts)

variable {K : Type*} [Field K] [LinearOrder K] [IsStrictOrderedRing K]
variable {nn nip nf nd : ℕ} {M : Type*}

theorem vdot_shift (pts r : K) (A P D B G a : Fin nd → K) :
    ∑ j, (A j - pts * (((P j + D j) - B j) / r - G j)) * a j =
      ∑ j, (A j - pts * ((P j - B j) / r - G j)) * a j + pts * -((∑ j, D j * a j) / r) := by
  rw [mul_neg, ← neg_mul, Finset.sum_div, Finset.mul_sum, ← Finset.sum_add_distrib]
  exact Finset.sum_congr rfl fun _ _ => by ring

theorem scsVdot_lin (pts : K) (vo : VofOpts nd K) (N : Fin nn → K) (g : Fin nn → Fin nd → K) (a : Fin nd → K)
    (v : VofNodes nn nd K) (d : Fin nn → K) :
    scsVdot pts vo N g a { v with p := v.p + d } = scsVdot pts vo N g a v +
      pts * ∑ ic, (∑ j, -(g ic j) * a j) / interp N v.rho * d ic := by
  have h : ∑ ic, (∑ j, -(g ic j) * a j) / interp N v.rho * d ic =
      -((∑ j, (∑ ic, g ic j * d ic) * a j) / interp N v.rho) := by
    rw [← neg_div, ← gradSum, Finset.sum_div]
    exact Finset.sum_congr rfl fun _ _ => by ring
  rw [h]
  simp only [scsVdot, rowLin, sigmaKappa]
  rw [vdot_shift pts (interp N v.rho) (fun j => ∑ ic, N ic * v.vrtm ic j) (fun j => ∑ ic, g ic j * v.p ic)
    (fun j => ∑ ic, g ic j * d ic) (fun j => vo.buoy * interp N v.rho * vo.gravity j)
    (fun j => ∑ ic, N ic * v.Gp ic j) a]
  ring

theorem openVdot_lin (pts pen : K) (vo : VofOpts nd K) (f : Face nn nf nip nd K) (v : VofNodes nn nd K)
    (pbc : Fin nn → K) (dynP : Fin nip → K) (ip : Fin nip) (d : Fin nn → K) :
    openVdotKernel pts pen vo f { v with p := v.p + d } pbc dynP ip = openVdotKernel pts pen vo f v pbc dynP ip +
      pts * ((∑ ic, f.shape ip ic * pen / (∑ ic, f.shape ip ic * v.rho (f.node ic)) * invLength f ip * f.aMag ip *
        d (f.node ic)) +
      ∑ ic, (∑ j, -(f.dndx ip ic j) * f.area ip j) / (∑ ic, f.shape ip ic * v.rho (f.node ic)) * d ic) := by
  generalize hr : (∑ ic, f.shape ip ic * v.rho (f.node ic)) = r
  have h1 : ∑ ic, f.shape ip ic * (v.p + d) (f.node ic) =
      ∑ ic, f.shape ip ic * v.p (f.node ic) + ∑ ic, f.shape ip ic * d (f.node ic) :=
    rowLin (f.shape ip) (fun ic => v.p (f.node ic)) (fun ic => d (f.node ic))
  have h2 : ∑ ic, f.shape ip ic * pen / r * invLength f ip * f.aMag ip * d (f.node ic) =
      pen / r * invLength f ip * f.aMag ip * ∑ ic, f.shape ip ic * d (f.node ic) := by
    rw [Finset.mul_sum]; exact Finset.sum_congr rfl fun _ _ => by ring
  have h3 : ∑ ic, (∑ j, -(f.dndx ip ic j) * f.area ip j) / r * d ic =
      -((∑ j, (∑ ic, f.dndx ip ic j * d ic) * f.area ip j) / r) := by
    rw [← neg_div, ← gradSum, Finset.sum_div]
    exact Finset.sum_congr rfl fun _ _ => by ring
  rw [h2, h3]
  simp only [openVdotKernel, openVdotWith, h1, hr]
  have h4 : ∀ j, ∑ ic, f.dndx ip ic j * (v.p + d) ic =
      ∑ ic, f.dndx ip ic j * v.p ic + ∑ ic, f.dndx ip ic j * d ic :=
    fun j => rowLin (fun ic => f.dndx ip ic j) v.p d
  simp only [h4]
  rw [vdot_shift pts r (fun j => ∑ ic, f.shape ip ic * v.vrtm (f.node ic) j)
    (fun j => ∑ ic, f.dndx ip ic j * v.p ic) (fun j => ∑ ic, f.dndx ip ic j * d ic)
    (fun j => vo.buoy * r * vo.gravity j) (fun j => ∑ ic, f.shape ip ic * v.Gp (f.node ic) j) (f.area ip)]
  ring

/-- **C104** The interior continuity kernel adds the exact derivative of its residual (same gradient operators on both
sides), whatever the density field. -/
theorem c104_newton_interior (pts : K) (hpts : pts ≠ 0) (vo : VofOpts nd K) (e : Scs nn nip nd K)
    (v : VofNodes nn nd K) : ExactNewton (fun p => continuityVofAdv pts vo e e.dndx { v with p := p }) := by
  refine newton_of _ (fun p a => -∑ ip, lrs a (e.il ip) (e.ir ip)
      (scsVdot pts vo (e.shape ip) (e.dndx ip) (e.area ip) { v with p := p } / pts))
    (fun d a => ∑ ip, lrs a (e.il ip) (e.ir ip)
      (∑ ic, (∑ j, -(e.dndx ip ic j) * e.area ip j) / interp (e.shape ip) v.rho * d ic))
    (fun q s a => by rw [continuityVofAdv_rhs, sub_eq_add_neg])
    (fun q s d a => continuityVofAdv_act pts vo e e.dndx { v with p := q } s d a) (fun p d a => ?_)
  rw [← neg_add', ← Finset.sum_add_distrib]
  congr 1
  refine Finset.sum_congr rfl fun ip _ => ?_
  rw [← lrs_add, scsVdot_lin pts vo (e.shape ip) (e.dndx ip) (e.area ip) { v with p := p } d]
  congr 1
  rw [add_div, mul_div_cancel_left₀ _ hpts]

/-- **C104** So does the open-boundary kernel. -/
theorem c104_newton_open (pts pen : K) (hpts : pts ≠ 0) (vo : VofOpts nd K) (f : Face nn nf nip nd K)
    (v : VofNodes nn nd K) (pbc : Fin nn → K) (dynP : Fin nip → K) :
    ExactNewton (fun p => continuityVofOpen pts pen vo f f.dndx { v with p := p } pbc dynP) := by
  refine newton_of _ (fun p a => -∑ ip, if a = f.near ip then
      openVdotKernel pts pen vo f { v with p := p } pbc dynP ip / pts else 0)
    (fun d a => ∑ ip, if a = f.near ip then
      (∑ ic, f.shape ip ic * pen / (∑ ic, f.shape ip ic * v.rho (f.node ic)) * invLength f ip * f.aMag ip *
        d (f.node ic)) +
      ∑ ic, (∑ j, -(f.dndx ip ic j) * f.area ip j) / (∑ ic, f.shape ip ic * v.rho (f.node ic)) * d ic else 0)
    (fun q s a => by rw [continuityVofOpen_rhs, sub_eq_add_neg])
    (fun q s d a => continuityVofOpen_act pts pen vo f f.dndx { v with p := q } pbc dynP s d a)
    (fun p d a => ?_)
  rw [← neg_add', ← Finset.sum_add_distrib]
  congr 1
  refine Finset.sum_congr rfl fun ip _ => ?_
  by_cases h : a = f.near ip
  · simp only [h, if_true]
    rw [openVdot_lin pts pen vo f { v with p := p } pbc dynP ip d]
    rw [add_div, mul_div_cancel_left₀ _ hpts]
  · simp [h]

/-- **C104** The interior kernel only moves volume between the nodes of an element. -/
theorem c104_conservative (pts : K) (vo : VofOpts nd K) (e : Scs nn nip nd K)
    (dl : Fin nip → Fin nn → Fin nd → K) (v : VofNodes nn nd K) :
    Conservative (continuityVofAdv pts vo e dl v) :=
  conservative_of _ e.il e.ir _ _ (fun s a => continuityVofAdv_rhs pts vo e dl v s a)
    (fun s d a => continuityVofAdv_act pts vo e dl v s d a)

theorem vnewton_elem (b : Bdf K) (hb : b.pts ≠ 0) (vo : VofOpts nd K) (F : VofFields M nd K) (e : ElemRec M nd K) :
    ExactNewton (vofElemWork b vo F e).kern :=
  c104_newton_interior b.pts hb vo e.scs (F.gather e.node fun _ => 0)

theorem vnewton_open (b : Bdf K) (hb : b.pts ≠ 0) (pen : K) (vo : VofOpts nd K) (F : VofFields M nd K)
    (f : FaceRec M nd K) : ExactNewton (vofOpenWork b pen vo F f).kern :=
  c104_newton_open b.pts pen hb vo f.face (F.gather f.node fun _ => 0) _ _

theorem vnewton_inflow (b : Bdf K) (F : VofFields M nd K) (f : FaceRec M nd K) :
    ExactNewton (vofInflowWork b F f).kern := by
  suffices H : ExactNewton (fun (_ : Fin f.nf → K) s => continuityVofInflow b.pts f.face
    (fun a => F.ubc (f.node a)) s) from H
  intro q d s s' a
  have hl : ∀ c, (continuityVofInflow b.pts f.face
      (fun a => F.ubc (f.node a)) s).lhs a c = s.lhs a c := fun c => by
    rw [continuityVofInflow, loop_lhs (a := a) (b := c) (δ := fun _ => 0)] <;> simp
  simp only [hl, continuityVofInflow_rhs]
  simp

theorem vnewton_all (b : Bdf K) (hb : b.pts ≠ 0) (pen : K) (vo : VofOpts nd K) (F : VofFields M nd K)
    (elems : List (ElemRec M nd K)) (opens inflows : List (FaceRec M nd K)) :
    ∀ w ∈ elems.map (vofElemWork b vo F) ++ opens.map (vofOpenWork b pen vo F) ++ inflows.map (vofInflowWork b F),
      ExactNewton w.kern := by
  intro w hw
  simp only [List.mem_append, List.mem_map] at hw
  rcases hw with (⟨e, _, rfl⟩ | ⟨f, _, rfl⟩) | ⟨f, _, rfl⟩
  · exact vnewton_elem b hb vo F e
  · exact vnewton_open b hb pen vo F f
  · exact vnewton_inflow b F f

/-! ## The mesh -/

/-- Volume flow rates of the mesh at pressure `p`: interior (as stored for the other equations), open (as in the
kernel) and prescribed. -/
def elemVdot (b : Bdf K) (vo : VofOpts nd K) (F : VofFields M nd K) (p : M → K) (e : ElemRec M nd K)
    (ip : Fin e.nipS) : K := storedVdot b.pts vo e.scs (F.gather e.node fun a => p (e.node a)) ip
@[inherit_doc elemVdot]
def openVdotAt (b : Bdf K) (pen : K) (vo : VofOpts nd K) (F : VofFields M nd K) (p : M → K) (f : FaceRec M nd K)
    (ip : Fin f.nip) : K :=
  openVdotKernel b.pts pen vo f.face (F.gather f.node fun a => p (f.node a)) (fun a => F.pbc (f.node a)) f.dynP ip
@[inherit_doc elemVdot]
def inflowVdotAt (F : VofFields M nd K) (f : FaceRec M nd K) (ip : Fin f.nip) : K :=
  inflowVdotIp f.face (fun a => F.ubc (f.node a)) ip

theorem velem_row [DecidableEq M] (b : Bdf K) (hb : b.pts ≠ 0) (vo : VofOpts nd K) (F : VofFields M nd K)
    (e : ElemRec M nd K) (p : M → K) (i : M) :
    ∑ a, (if i = e.node a then ((vofElemWork b vo F e).kern (fun a => p (e.node a))
      ⟨fun _ _ => 0, fun _ => 0⟩).rhs a else 0) * b.pts =
    -(∑ ip, ((if i = e.node (e.scs.il ip) then elemVdot b vo F p e ip else 0) -
        if i = e.node (e.scs.ir ip) then elemVdot b vo F p e ip else 0)) := by
  have h : ∀ a : Fin e.nn, (if i = e.node a then ((vofElemWork b vo F e).kern (fun a => p (e.node a))
      ⟨fun _ _ => 0, fun _ => 0⟩).rhs a else 0) * b.pts =
      -((if i = e.node a then ∑ ip, (if a = e.scs.il ip then elemVdot b vo F p e ip else 0) else 0) -
        if i = e.node a then ∑ ip, (if a = e.scs.ir ip then elemVdot b vo F p e ip else 0) else 0) := by
    intro a
    by_cases hi : i = e.node a
    · simp only [hi, if_true, vofElemWork]
      rw [continuityVofAdv_rhs, sum_lrs_net]
      rw [netOut, zero_sub, neg_mul, Finset.sum_mul, ← Finset.sum_sub_distrib]
      congr 1
      refine Finset.sum_congr rfl fun ip _ => ?_
      have : scsVdot b.pts vo (e.scs.shape ip) (e.scs.dndx ip) (e.scs.area ip)
          (F.gather e.node fun a => p (e.node a)) / b.pts * b.pts = elemVdot b vo F p e ip :=
        div_mul_cancel₀ _ hb
      rw [sub_mul, ite_mul, ite_mul, this]; simp
    · simp [hi]
  simp only [h, Finset.sum_sub_distrib, Finset.sum_neg_distrib, sum_ite_push]

theorem vopen_row [DecidableEq M] (b : Bdf K) (hb : b.pts ≠ 0) (pen : K) (vo : VofOpts nd K) (F : VofFields M nd K)
    (f : FaceRec M nd K) (p : M → K) (i : M) :
    ∑ a, (if i = f.node a then ((vofOpenWork b pen vo F f).kern (fun a => p (f.node a))
      ⟨fun _ _ => 0, fun _ => 0⟩).rhs a else 0) * b.pts =
    -∑ ip, if i = f.node (f.face.near ip) then openVdotAt b pen vo F p f ip else 0 := by
  have h : ∀ a : Fin f.nn, (if i = f.node a then ((vofOpenWork b pen vo F f).kern (fun a => p (f.node a))
      ⟨fun _ _ => 0, fun _ => 0⟩).rhs a else 0) * b.pts =
      -if i = f.node a then ∑ ip, (if a = f.face.near ip then openVdotAt b pen vo F p f ip else 0) else 0 := by
    intro a
    by_cases hi : i = f.node a
    · simp only [hi, if_true, vofOpenWork]
      rw [continuityVofOpen_rhs, zero_sub, neg_mul, Finset.sum_mul]
      congr 1
      refine Finset.sum_congr rfl fun ip _ => ?_
      rw [ite_mul, zero_mul, div_mul_cancel₀ _ hb]; rfl
    · simp [hi]
  simp only [h, Finset.sum_neg_distrib, sum_ite_push]

theorem vinflow_row [DecidableEq M] (b : Bdf K) (hb : b.pts ≠ 0) (F : VofFields M nd K)
    (f : FaceRec M nd K) (p : M → K) (i : M) :
    ∑ a, (if i = f.node (f.face.node a) then ((vofInflowWork b F f).kern (fun a => p (f.node (f.face.node a)))
      ⟨fun _ _ => 0, fun _ => 0⟩).rhs a else 0) * b.pts =
    -∑ ip, if i = f.node (f.face.node (f.face.loc ip)) then inflowVdotAt F f ip else 0 := by
  have h : ∀ a : Fin f.nf, (if i = f.node (f.face.node a) then ((vofInflowWork b F f).kern
      (fun a => p (f.node (f.face.node a))) ⟨fun _ _ => 0, fun _ => 0⟩).rhs a else 0) * b.pts =
      -if i = f.node (f.face.node a) then ∑ ip, (if a = f.face.loc ip then inflowVdotAt F f ip else 0)
        else 0 := by
    intro a
    by_cases hi : i = f.node (f.face.node a)
    · simp only [hi, if_true, vofInflowWork]
      rw [continuityVofInflow_rhs, zero_sub, neg_mul, Finset.sum_mul]
      congr 1
      refine Finset.sum_congr rfl fun ip _ => ?_
      rw [ite_mul, zero_mul, div_mul_cancel₀ _ hb]; rfl
    · simp [hi]
  simp only [h, Finset.sum_neg_distrib]
  rw [sum_ite_push i (fun a => f.node (f.face.node a)) f.face.loc]

/-- **C104** The right-hand side of the balanced-force continuity system is minus the volume imbalance of the node over
the projection time scale, at every pressure. -/
theorem c104_rhs_is_imbalance [DecidableEq M] (b : Bdf K) (hb : b.pts ≠ 0) (pen : K) (vo : VofOpts nd K)
    (F : VofFields M nd K) (elems : List (ElemRec M nd K)) (opens inflows : List (FaceRec M nd K))
    (p : M → K) (i : M) :
    (vofContinuity b pen vo F elems opens inflows p).rhs i * b.pts =
      -volumeBalance elems opens inflows (elemVdot b vo F p) (openVdotAt b pen vo F p) (inflowVdotAt F) i := by
  rw [vofContinuity, assembleWorks_rhs, List.map_append, List.map_append, List.map_map, List.map_map,
    List.map_map, List.sum_append, List.sum_append, add_mul, add_mul, ← List.sum_map_mul_right,
    ← List.sum_map_mul_right, ← List.sum_map_mul_right]
  have h1 : elems.map (fun e => (((fun w : Work M K => ∑ a, if i = w.dof a then
      (w.kern (fun a => p (w.dof a)) ⟨fun _ _ => 0, fun _ => 0⟩).rhs a else 0) ∘ vofElemWork b vo F) e) * b.pts) =
      elems.map (fun e => -(∑ ip, ((if i = e.node (e.scs.il ip) then elemVdot b vo F p e ip else 0) -
        if i = e.node (e.scs.ir ip) then elemVdot b vo F p e ip else 0))) := by
    refine List.map_congr_left fun e _ => ?_
    rw [← velem_row b hb vo F e p i, ← Finset.sum_mul]; rfl
  have h2 : opens.map (fun e => (((fun w : Work M K => ∑ a, if i = w.dof a then
      (w.kern (fun a => p (w.dof a)) ⟨fun _ _ => 0, fun _ => 0⟩).rhs a else 0) ∘ vofOpenWork b pen vo F) e) *
        b.pts) =
      opens.map (fun f => -∑ ip, if i = f.node (f.face.near ip) then openVdotAt b pen vo F p f ip else 0) := by
    refine List.map_congr_left fun f _ => ?_
    rw [← vopen_row b hb pen vo F f p i, ← Finset.sum_mul]; rfl
  have h3 : inflows.map (fun e => (((fun w : Work M K => ∑ a, if i = w.dof a then
      (w.kern (fun a => p (w.dof a)) ⟨fun _ _ => 0, fun _ => 0⟩).rhs a else 0) ∘ vofInflowWork b F) e) *
        b.pts) =
      inflows.map (fun f => -∑ ip, if i = f.node (f.face.node (f.face.loc ip)) then
        inflowVdotAt F f ip else 0) := by
    refine List.map_congr_left fun f _ => ?_
    rw [← vinflow_row b hb F f p i, ← Finset.sum_mul]; rfl
  rw [h1, h2, h3, volumeBalance]
  have hneg : ∀ {α : Type _} (l : List α) (g : α → K), (l.map fun x => -g x).sum = -(l.map g).sum := by
    intro α l g
    induction l with
    | nil => simp
    | cons x l ih => simp [ih]; ring
  rw [hneg, hneg, hneg]; ring

/-- **C104** Once a row of the continuity system is solved, the volume flow rates recomputed at the corrected pressure
are divergence free at that node: whatever the density ratio, the interface and the mesh. -/
theorem c104_divergence_free [DecidableEq M] [Fintype M] (b : Bdf K) (hb : b.pts ≠ 0) (pen : K) (vo : VofOpts nd K)
    (F : VofFields M nd K) (elems : List (ElemRec M nd K)) (opens inflows : List (FaceRec M nd K))
    (p dp : M → K) (i : M)
    (hsolve : ∑ j, (vofContinuity b pen vo F elems opens inflows p).mat i j * dp j =
      (vofContinuity b pen vo F elems opens inflows p).rhs i) :
    volumeBalance elems opens inflows (elemVdot b vo F (p + dp)) (openVdotAt b pen vo F (p + dp))
      (inflowVdotAt F) i = 0 := by
  have h := c84_solved_row _ p dp (vnewton_all b hb pen vo F elems opens inflows) i hsolve
  have h2 := c104_rhs_is_imbalance b hb pen vo F elems opens inflows (p + dp) i
  rw [vofContinuity, h, zero_mul] at h2
  linarith

/-- **C104** Summed over the mesh: what leaves through open faces plus the prescribed rates is zero. -/
theorem c104_total_volume [DecidableEq M] [Fintype M] (b : Bdf K) (hb : b.pts ≠ 0) (pen : K) (vo : VofOpts nd K)
    (F : VofFields M nd K) (elems : List (ElemRec M nd K)) (opens inflows : List (FaceRec M nd K))
    (p dp : M → K)
    (hsolve : ∀ i, ∑ j, (vofContinuity b pen vo F elems opens inflows p).mat i j * dp j =
      (vofContinuity b pen vo F elems opens inflows p).rhs i) :
    (opens.map fun f => ∑ ip, openVdotAt b pen vo F (p + dp) f ip).sum +
      (inflows.map fun f => ∑ ip, inflowVdotAt F f ip).sum = 0 := by
  have h : ∑ i, volumeBalance elems opens inflows (elemVdot b vo F (p + dp)) (openVdotAt b pen vo F (p + dp))
      (inflowVdotAt F) i = 0 :=
    Finset.sum_eq_zero fun i _ => c104_divergence_free b hb pen vo F elems opens inflows p dp i (hsolve i)
  simp only [volumeBalance, Finset.sum_add_distrib, sum_list, sum_point] at h
  have hz : (elems.map fun e => ∑ i, ∑ ip, ((if i = e.node (e.scs.il ip) then elemVdot b vo F (p + dp) e ip else 0) -
      if i = e.node (e.scs.ir ip) then elemVdot b vo F (p + dp) e ip else 0)).sum = 0 := by
    rw [List.sum_eq_zero]
    intro x hx
    obtain ⟨e, _, rfl⟩ := List.mem_map.mp hx
    simp only [Finset.sum_sub_distrib, sum_point, sub_self]
  rw [hz, zero_add] at h
  exact h

/-- **C104** The stored mass flow rate is the interpolated density times the stored volume flow rate. -/
theorem c104_stored_mdot (pts : K) (vo : VofOpts nd K) (e : Scs nn nip nd K) (v : VofNodes nn nd K) (ip : Fin nip) :
    storedMdot pts vo e v ip = (∑ ic, e.shape ip ic * v.rho ic) * storedVdot pts vo e v ip := rfl

/-- **C104** The open rate stored for the other equations is the one of the kernel if the localisation is constant or the
nodes of the face are the first nodes of the element, in order. -/
theorem c104_open_stored (pts pen : K) (vo : VofOpts nd K) (f : Face nn nf nip nd K) (v : VofNodes nn nd K)
    (pbc : Fin nn → K) (dynP : Fin nip → K) (ip : Fin nip)
    (h : ConstLoc vo ∨ ∀ ic : Fin nf, (f.node ic).val = ic.val) :
    openVdotStored pts pen vo f v pbc dynP ip = openVdotKernel pts pen vo f v pbc dynP ip := by
  rcases h with h | h
  · simp only [openVdotStored, openVdotKernel, openVdotWith]
    rw [h]
  · have : ∀ ic, elemIndex v.vof ic = v.vof (f.node ic) := by
      intro ic
      have hlt : ic.val < nn := by rw [← h ic]; exact (f.node ic).isLt
      simp only [elemIndex, hlt, dif_pos]
      congr 1
      exact Fin.ext (h ic).symm
    simp only [openVdotStored, openVdotKernel, this]

/-! ## Fixed points (C103) -/

/-- **C103** A state in equilibrium and at rest is a fixed point of the pressure projection, on any mesh: the right-hand
side of every row of the continuity system is zero, so the zero correction solves it. -/
theorem c103_rest_continuity [DecidableEq M] (b : Bdf K) (hb : b.pts ≠ 0) (pen : K) (vo : VofOpts nd K)
    (hl : ConstLoc vo) (F : VofFields M nd K) (p : M → K) (elems : List (ElemRec M nd K))
    (bnd : List (Bool × FaceRec M nd K)) (opens inflows : List (FaceRec M nd K))
    (h : Accelerating vo F p elems bnd fun _ => 0) (hG : F.Gp = pawGradient vo F elems bnd p)
    (ht : ∀ i j, touching elems bnd i j ≠ 0) (hm : Consistent elems bnd)
    (ho : ∀ f ∈ opens, (true, f) ∈ bnd ∧ ∀ ip, f.dynP ip = 0) (hu : ∀ m j, F.vrtm m j = 0)
    (hub : ∀ m j, F.ubc m j = 0) (i : M) :
    (vofContinuity b pen vo F elems opens inflows p).rhs i = 0 := by
  have h2 := c104_rhs_is_imbalance b hb pen vo F elems opens inflows p i
  have hE : ∀ e ∈ elems, ∀ ip, elemVdot b vo F p e ip = 0 := by
    intro e he ip
    have := c103_vdot_accelerating b.pts vo hl F p elems bnd _ h hG ht e he ip (hm.unityE e he ip)
    rw [elemVdot, this]
    simp [hu]
  have hO : ∀ f ∈ opens, ∀ ip, openVdotAt b pen vo F p f ip = 0 := by
    intro f hf ip
    have := c103_open_accelerating b.pts pen vo hl F p elems bnd _ h hG ht f (ho f hf).1 ip
      (hm.unityF _ (ho f hf).1 ip) ((ho f hf).2 ip)
    rw [openVdotAt, this]
    simp [hu]
  have hI : ∀ f ∈ inflows, ∀ ip, inflowVdotAt F f ip = 0 := by
    intro f _ ip
    simp [inflowVdotAt, inflowVdotIp, hub]
  have hz : volumeBalance elems opens inflows (elemVdot b vo F p) (openVdotAt b pen vo F p) (inflowVdotAt F) i = 0 := by
    unfold volumeBalance
    rw [List.sum_eq_zero, List.sum_eq_zero, List.sum_eq_zero]
    · simp
    all_goals
      intro x hx
      obtain ⟨e, he, rfl⟩ := List.mem_map.mp hx
      refine Finset.sum_eq_zero fun ip _ => ?_
      first
        | rw [hE e he ip]; simp
        | rw [hO e he ip]; simp
        | rw [hI e he ip]; simp
  rw [hz, neg_zero] at h2
  exact (mul_eq_zero.mp h2).resolve_right hb

/-- **C103** and the velocity update with an unchanged nodal gradient leaves the velocity unchanged. -/
theorem c103_projection_fixed (pts df rho u g : K) : projectNode pts df rho u g g = u := by
  simp [projectNode]

/-- **C103** With balanced force the projection subtracts the change of the nodal acceleration times the time scale,
without dividing by the density again. -/
theorem c103_projection_balanced (pts rho u g g' : K) : projectNode pts 1 rho u g g' = u - pts * (g' - g) := by
  simp [projectNode]

end Nalu.Vof
