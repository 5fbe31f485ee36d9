import Verif.Model.ElemContinuity
import Verif.Props.ElemKernel2

/-!
# Element-based discrete continuity (C87)
-/

set_option linter.unusedSectionVars false

namespace Nalu.Kernel
open Nalu.Edge

variable {K : Type*} [Field K] [LinearOrder K] [IsStrictOrderedRing K]
variable {M : Type*} {nd : ℕ}

theorem assembleWorks_rhs [DecidableEq M] (ws : List (Work M K)) (q : M → K) (i : M) :
    (assembleWorks ws q).rhs i = (ws.map fun w => ∑ a, if i = w.dof a then
      (w.kern (fun a => q (w.dof a)) ⟨fun _ _ => 0, fun _ => 0⟩).rhs a else 0).sum := by
  suffices H : ∀ (l : List (Work M K)) (s : Sys M K), (l.foldl (fun s w => s.applyCoeff w.dof
        (w.kern (fun a => q (w.dof a)) ⟨fun _ _ => 0, fun _ => 0⟩)) s).rhs i = s.rhs i +
      (l.map fun w => ∑ a, if i = w.dof a then
        (w.kern (fun a => q (w.dof a)) ⟨fun _ _ => 0, fun _ => 0⟩).rhs a else 0).sum by
    rw [assembleWorks, H]; simp [Sys.zero]
  intro l
  induction l with
  | nil => intro s; simp
  | cons w l ih =>
    intro s
    rw [List.foldl_cons, ih]
    simp [Sys.applyCoeff, add_assoc]

theorem newton_elem (b : Bdf K) (hb : b.pts ≠ 0) (F : FlowFields M nd K) (e : ElemRec M nd K) :
    ExactNewton (elemWork b F e).kern := by
  have h1 : ExactNewton (fun p => continuityAdv b.pts e.scs e.scs.dndx (F.gather e.node p)) :=
    c84_continuityAdv b.pts hb e.scs (F.gather e.node fun _ => 0)
  have h2 : ExactNewton (fun (_ : Fin e.nn → K) => continuityMass b e.scv (F.levels e.node)) := by
    intro q d s s' a
    simp only [continuityMass_rhs, continuityMass_lhs]; simp
  exact c84_sequence (fun p => continuityAdv b.pts e.scs e.scs.dndx (F.gather e.node p))
    (fun (_ : Fin e.nn → K) => continuityMass b e.scv (F.levels e.node)) h1 h2

theorem newton_open (b : Bdf K) (hb : b.pts ≠ 0) (pen : K) (F : FlowFields M nd K)
    (f : FaceRec M nd K) : ExactNewton (openWork b pen F f).kern :=
  c84_continuityOpen b.pts pen hb f.face (F.gather f.node fun _ => 0) _ _

theorem newton_inflow (b : Bdf K) (F : FlowFields M nd K) (f : FaceRec M nd K) :
    ExactNewton (inflowWork b F f).kern := by
  suffices H : ExactNewton (fun (_ : Fin f.nf → K) s => continuityInflowElem b.pts f.face
    (fun a => F.rho (f.node a)) (fun a => F.ubc (f.node a)) s) from H
  intro q d s s' a
  have hl : ∀ c, (continuityInflowElem b.pts f.face (fun a => F.rho (f.node a))
      (fun a => F.ubc (f.node a)) s).lhs a c = s.lhs a c := fun c => by
    rw [continuityInflowElem, loop_lhs (a := a) (b := c) (δ := fun _ => 0)] <;> simp
  simp only [hl, continuityInflowElem_rhs]
  simp

theorem newton_all (b : Bdf K) (hb : b.pts ≠ 0) (pen : K) (F : FlowFields M nd K)
    (elems : List (ElemRec M nd K)) (opens inflows : List (FaceRec M nd K)) :
    ∀ w ∈ elems.map (elemWork b F) ++ opens.map (openWork b pen F) ++ inflows.map (inflowWork b F),
      ExactNewton w.kern := by
  intro w hw
  simp only [List.mem_append, List.mem_map] at hw
  rcases hw with (⟨e, _, rfl⟩ | ⟨f, _, rfl⟩) | ⟨f, _, rfl⟩
  · exact newton_elem b hb F e
  · exact newton_open b hb pen F f
  · exact newton_inflow b F f

/-- What the mass flow rates at pressure `p` take out of mesh node `i`: interior sub-control surfaces,
open and inflow faces, and density accumulation. -/
def massBalance [DecidableEq M] (b : Bdf K) (pen : K) (F : FlowFields M nd K)
    (elems : List (ElemRec M nd K)) (opens inflows : List (FaceRec M nd K)) (p : M → K) (i : M) : K :=
  (elems.map fun e => ∑ ip, ((if i = e.node (e.scs.il ip) then elemMdot b F p e ip else 0) -
    if i = e.node (e.scs.ir ip) then elemMdot b F p e ip else 0)).sum +
  (opens.map fun f => ∑ ip, if i = f.node (f.face.near ip) then openMdotAt b pen F p f ip else 0).sum +
  (inflows.map fun f => ∑ ip, if i = f.node (f.face.node (f.face.loc ip)) then
    inflowMdotAt F f ip else 0).sum +
  (elems.map fun e => ∑ ip, if i = e.node (e.scv.node ip) then accumAt b F e ip else 0).sum

theorem sum_ite_push {n m : ℕ} (i : M) [DecidableEq M] (node : Fin n → M) (t : Fin m → Fin n) (v : Fin m → K) :
    ∑ a, (if i = node a then ∑ ip, (if a = t ip then v ip else 0) else 0) =
      ∑ ip, if i = node (t ip) then v ip else 0 := by
  have : ∀ a, (if i = node a then ∑ ip, (if a = t ip then v ip else 0) else 0) =
      ∑ ip, if a = t ip then (if i = node (t ip) then v ip else 0) else 0 := by
    intro a
    by_cases h : i = node a
    · simp only [h, if_true]
      refine Finset.sum_congr rfl fun ip _ => ?_
      by_cases h' : a = t ip
      · simp [← h']
      · simp [h']
    · rw [if_neg h, Finset.sum_eq_zero]
      intro ip _
      by_cases h' : a = t ip
      · simp [← h', h]
      · simp [h']
  simp only [this]
  rw [Finset.sum_comm]; simp

theorem elem_row [DecidableEq M] (b : Bdf K) (hb : b.pts ≠ 0) (F : FlowFields M nd K) (e : ElemRec M nd K)
    (p : M → K) (i : M) :
    ∑ a, (if i = e.node a then ((elemWork b F e).kern (fun a => p (e.node a))
      ⟨fun _ _ => 0, fun _ => 0⟩).rhs a else 0) * b.pts =
    -(∑ ip, ((if i = e.node (e.scs.il ip) then elemMdot b F p e ip else 0) -
        if i = e.node (e.scs.ir ip) then elemMdot b F p e ip else 0)) -
      ∑ ip, if i = e.node (e.scv.node ip) then accumAt b F e ip else 0 := by
  have h : ∀ a : Fin e.nn, (if i = e.node a then ((elemWork b F e).kern (fun a => p (e.node a))
      ⟨fun _ _ => 0, fun _ => 0⟩).rhs a else 0) * b.pts =
      -((if i = e.node a then ∑ ip, (if a = e.scs.il ip then elemMdot b F p e ip else 0) else 0) -
        if i = e.node a then ∑ ip, (if a = e.scs.ir ip then elemMdot b F p e ip else 0) else 0) -
      if i = e.node a then ∑ ip, (if a = e.scv.node ip then accumAt b F e ip else 0) else 0 := by
    intro a
    by_cases hi : i = e.node a
    · simp only [hi, if_true, elemWork]
      rw [continuityMass_rhs, continuityAdv_rhs, sum_lrs_net]
      rw [netOut, zero_sub, add_mul, neg_mul, Finset.sum_mul, Finset.sum_mul, ← Finset.sum_sub_distrib,
        sub_eq_add_neg]
      congr 1
      · congr 1
        refine Finset.sum_congr rfl fun ip _ => ?_
        have : scsMdot b.pts (e.scs.shape ip) (e.scs.dndx ip) (e.scs.area ip)
            (F.gather e.node fun a => p (e.node a)) / b.pts * b.pts = elemMdot b F p e ip :=
          div_mul_cancel₀ _ hb
        rw [sub_mul, ite_mul, ite_mul, this]; simp
      · rw [← Finset.sum_neg_distrib]
        refine Finset.sum_congr rfl fun ip _ => ?_
        have hb' : b.dt / b.g1 ≠ 0 := hb
        rw [ite_mul, zero_mul]
        by_cases hn : a = e.scv.node ip
        · simp only [hn, if_true, Bdf.pts, accumAt]
          rw [div_mul_cancel₀ _ hb']; ring
        · simp [hn]
    · simp [hi]
  simp only [h, Finset.sum_sub_distrib, Finset.sum_neg_distrib, sum_ite_push]

theorem open_row [DecidableEq M] (b : Bdf K) (hb : b.pts ≠ 0) (pen : K) (F : FlowFields M nd K)
    (f : FaceRec M nd K) (p : M → K) (i : M) :
    ∑ a, (if i = f.node a then ((openWork b pen F f).kern (fun a => p (f.node a))
      ⟨fun _ _ => 0, fun _ => 0⟩).rhs a else 0) * b.pts =
    -∑ ip, if i = f.node (f.face.near ip) then openMdotAt b pen F p f ip else 0 := by
  have h : ∀ a : Fin f.nn, (if i = f.node a then ((openWork b pen F f).kern (fun a => p (f.node a))
      ⟨fun _ _ => 0, fun _ => 0⟩).rhs a else 0) * b.pts =
      -if i = f.node a then ∑ ip, (if a = f.face.near ip then openMdotAt b pen F p f ip else 0) else 0 := by
    intro a
    by_cases hi : i = f.node a
    · simp only [hi, if_true, openWork]
      rw [continuityOpenElem_rhs, zero_sub, neg_mul, Finset.sum_mul]
      congr 1
      refine Finset.sum_congr rfl fun ip _ => ?_
      rw [ite_mul, zero_mul, div_mul_cancel₀ _ hb]; rfl
    · simp [hi]
  simp only [h, Finset.sum_neg_distrib, sum_ite_push]

theorem inflow_row [DecidableEq M] (b : Bdf K) (hb : b.pts ≠ 0) (F : FlowFields M nd K)
    (f : FaceRec M nd K) (p : M → K) (i : M) :
    ∑ a, (if i = f.node (f.face.node a) then ((inflowWork b F f).kern (fun a => p (f.node (f.face.node a)))
      ⟨fun _ _ => 0, fun _ => 0⟩).rhs a else 0) * b.pts =
    -∑ ip, if i = f.node (f.face.node (f.face.loc ip)) then inflowMdotAt F f ip else 0 := by
  have h : ∀ a : Fin f.nf, (if i = f.node (f.face.node a) then ((inflowWork b F f).kern
      (fun a => p (f.node (f.face.node a))) ⟨fun _ _ => 0, fun _ => 0⟩).rhs a else 0) * b.pts =
      -if i = f.node (f.face.node a) then ∑ ip, (if a = f.face.loc ip then inflowMdotAt F f ip else 0)
        else 0 := by
    intro a
    by_cases hi : i = f.node (f.face.node a)
    · simp only [hi, if_true, inflowWork]
      rw [continuityInflowElem_rhs, zero_sub, neg_mul, Finset.sum_mul]
      congr 1
      refine Finset.sum_congr rfl fun ip _ => ?_
      rw [ite_mul, zero_mul, div_mul_cancel₀ _ hb]; rfl
    · simp [hi]
  simp only [h, Finset.sum_neg_distrib]
  rw [sum_ite_push i (fun a => f.node (f.face.node a)) f.face.loc]

/-- **C87** The right-hand side of the continuity system, at every pressure, is minus the mass imbalance of the
node divided by the projection time scale. -/
theorem c87_rhs_is_imbalance [DecidableEq M] (b : Bdf K) (hb : b.pts ≠ 0) (pen : K)
    (F : FlowFields M nd K) (elems : List (ElemRec M nd K)) (opens inflows : List (FaceRec M nd K))
    (p : M → K) (i : M) :
    (elemContinuity b pen F elems opens inflows p).rhs i * b.pts =
      -massBalance b pen F elems opens inflows p i := by
  rw [elemContinuity, assembleWorks_rhs, List.map_append, List.map_append, List.map_map, List.map_map,
    List.map_map, List.sum_append, List.sum_append, add_mul, add_mul, ← List.sum_map_mul_right,
    ← List.sum_map_mul_right, ← List.sum_map_mul_right]
  have h1 : elems.map (fun e => (((fun w : Work M K => ∑ a, if i = w.dof a then
      (w.kern (fun a => p (w.dof a)) ⟨fun _ _ => 0, fun _ => 0⟩).rhs a else 0) ∘ elemWork b F) e) * b.pts) =
      elems.map (fun e => -(∑ ip, ((if i = e.node (e.scs.il ip) then elemMdot b F p e ip else 0) -
        if i = e.node (e.scs.ir ip) then elemMdot b F p e ip else 0)) +
        -(∑ ip, if i = e.node (e.scv.node ip) then accumAt b F e ip else 0)) := by
    refine List.map_congr_left fun e _ => ?_
    rw [← sub_eq_add_neg, ← elem_row b hb F e p i, ← Finset.sum_mul]; rfl
  have h2 : opens.map (fun e => (((fun w : Work M K => ∑ a, if i = w.dof a then
      (w.kern (fun a => p (w.dof a)) ⟨fun _ _ => 0, fun _ => 0⟩).rhs a else 0) ∘ openWork b pen F) e) *
        b.pts) =
      opens.map (fun f => -∑ ip, if i = f.node (f.face.near ip) then openMdotAt b pen F p f ip else 0) := by
    refine List.map_congr_left fun f _ => ?_
    rw [← open_row b hb pen F f p i, ← Finset.sum_mul]; rfl
  have h3 : inflows.map (fun e => (((fun w : Work M K => ∑ a, if i = w.dof a then
      (w.kern (fun a => p (w.dof a)) ⟨fun _ _ => 0, fun _ => 0⟩).rhs a else 0) ∘ inflowWork b F) e) *
        b.pts) =
      inflows.map (fun f => -∑ ip, if i = f.node (f.face.node (f.face.loc ip)) then
        inflowMdotAt F f ip else 0) := by
    refine List.map_congr_left fun f _ => ?_
    rw [← inflow_row b hb F f p i, ← Finset.sum_mul]; rfl
  rw [h1, h2, h3, List.sum_map_add, massBalance]
  have hneg : ∀ {α : Type _} (l : List α) (g : α → K), (l.map fun x => -g x).sum = -(l.map g).sum := by
    intro α l g
    induction l with
    | nil => simp
    | cons x l ih => simp [ih]; ring
  rw [hneg, hneg, hneg, hneg]; ring

/-- **C87** If the pressure correction solves row `i` of the element-based continuity system, then the mass flow
rates recomputed at the corrected pressure balance exactly at node `i`: what leaves through the interior
sub-control surfaces of its control volume, plus what leaves through open faces, plus the prescribed
(negative) inflow, plus the rate of change of its mass, is zero; for every mesh of elements of any mixture
of types, any geometry and any fields. -/
theorem c87_discrete_continuity [DecidableEq M] [Fintype M] (b : Bdf K) (hb : b.pts ≠ 0) (pen : K)
    (F : FlowFields M nd K) (elems : List (ElemRec M nd K)) (opens inflows : List (FaceRec M nd K))
    (p dp : M → K) (i : M)
    (hsolve : ∑ j, (elemContinuity b pen F elems opens inflows p).mat i j * dp j =
      (elemContinuity b pen F elems opens inflows p).rhs i) :
    massBalance b pen F elems opens inflows (p + dp) i = 0 := by
  have h := c84_solved_row _ p dp (newton_all b hb pen F elems opens inflows) i hsolve
  have h2 := c87_rhs_is_imbalance b hb pen F elems opens inflows (p + dp) i
  rw [elemContinuity, h, zero_mul] at h2
  linarith

/-- **C87** Conversely, a correction after which node `i` balances solves row `i`. -/
theorem c87_converse [DecidableEq M] [Fintype M] (b : Bdf K) (hb : b.pts ≠ 0) (pen : K)
    (F : FlowFields M nd K) (elems : List (ElemRec M nd K)) (opens inflows : List (FaceRec M nd K))
    (p dp : M → K) (i : M) (hbal : massBalance b pen F elems opens inflows (p + dp) i = 0) :
    ∑ j, (elemContinuity b pen F elems opens inflows p).mat i j * dp j =
      (elemContinuity b pen F elems opens inflows p).rhs i := by
  have h := c84_mesh_newton _ p dp (newton_all b hb pen F elems opens inflows) i
  have h2 := c87_rhs_is_imbalance b hb pen F elems opens inflows (p + dp) i
  rw [hbal, neg_zero] at h2
  have h3 := (mul_eq_zero.mp h2).resolve_right hb
  rw [elemContinuity] at h3
  rw [h3] at h
  simp only [elemContinuity]
  linarith

theorem sum_list {E : Type*} [Fintype M] (l : List E) (g : E → M → K) :
    ∑ i, (l.map fun e => g e i).sum = (l.map fun e => ∑ i, g e i).sum := by
  induction l with
  | nil => simp
  | cons x l ih => simp [Finset.sum_add_distrib, ih]

theorem sum_point [DecidableEq M] [Fintype M] {m : ℕ} (t : Fin m → M) (v : Fin m → K) :
    ∑ i, ∑ ip, (if i = t ip then v ip else 0) = ∑ ip, v ip := by
  rw [Finset.sum_comm]; simp

/-- The whole mesh: accumulation plus inflow plus open rate, the "Total mass closure" of the mass balance
review. -/
def closure (b : Bdf K) (pen : K) (F : FlowFields M nd K)
    (elems : List (ElemRec M nd K)) (opens inflows : List (FaceRec M nd K)) (p : M → K) : K :=
  (opens.map fun f => ∑ ip, openMdotAt b pen F p f ip).sum +
  (inflows.map fun f => ∑ ip, inflowMdotAt F f ip).sum + (elems.map fun e => ∑ ip, accumAt b F e ip).sum

/-- Interior surfaces cancel: the imbalances of the nodes sum to the closure, at every pressure. -/
theorem c87_balance_total [DecidableEq M] [Fintype M] (b : Bdf K) (pen : K)
    (F : FlowFields M nd K) (elems : List (ElemRec M nd K)) (opens inflows : List (FaceRec M nd K))
    (p : M → K) :
    ∑ i, massBalance b pen F elems opens inflows p i = closure b pen F elems opens inflows p := by
  simp only [massBalance, Finset.sum_add_distrib, sum_list, sum_point, closure]
  have : (elems.map fun e => ∑ i, ∑ ip, ((if i = e.node (e.scs.il ip) then elemMdot b F p e ip else 0) -
      if i = e.node (e.scs.ir ip) then elemMdot b F p e ip else 0)).sum = 0 := by
    rw [List.sum_eq_zero]
    intro x hx
    obtain ⟨e, _, rfl⟩ := List.mem_map.mp hx
    simp only [Finset.sum_sub_distrib, sum_point, sub_self]
  rw [this, zero_add]

/-- **C87** If every row is solved, the total mass closure at the corrected pressure is zero. -/
theorem c87_total_mass_closure [DecidableEq M] [Fintype M] (b : Bdf K) (hb : b.pts ≠ 0) (pen : K)
    (F : FlowFields M nd K) (elems : List (ElemRec M nd K)) (opens inflows : List (FaceRec M nd K))
    (p dp : M → K)
    (hsolve : ∀ i, ∑ j, (elemContinuity b pen F elems opens inflows p).mat i j * dp j =
      (elemContinuity b pen F elems opens inflows p).rhs i) :
    closure b pen F elems opens inflows (p + dp) = 0 := by
  rw [← c87_balance_total]
  exact Finset.sum_eq_zero fun i _ => c87_discrete_continuity b hb pen F elems opens inflows p dp i (hsolve i)

/-- **C87** Compatibility: on a domain without open boundary the system has a solution only if the prescribed
inflow balances the accumulation, whatever the pressure: it cannot be fixed by the solver. -/
theorem c87_compatibility [DecidableEq M] [Fintype M] (b : Bdf K) (hb : b.pts ≠ 0) (pen : K)
    (F : FlowFields M nd K) (elems : List (ElemRec M nd K)) (inflows : List (FaceRec M nd K)) (p dp : M → K)
    (hsolve : ∀ i, ∑ j, (elemContinuity b pen F elems [] inflows p).mat i j * dp j =
      (elemContinuity b pen F elems [] inflows p).rhs i) :
    (inflows.map fun f => ∑ ip, inflowMdotAt F f ip).sum +
      (elems.map fun e => ∑ ip, accumAt b F e ip).sum = 0 := by
  have := c87_total_mass_closure b hb pen F elems [] inflows p dp hsolve
  simpa [closure] using this

/-- **C87** and there the pressure is determined only up to a constant: adding a constant to a solution is a
solution. -/
theorem c87_pressure_level [DecidableEq M] [Fintype M] (b : Bdf K) (hb : b.pts ≠ 0) (pen : K)
    (F : FlowFields M nd K) (elems : List (ElemRec M nd K)) (inflows : List (FaceRec M nd K))
    (hg : ∀ e ∈ elems, ∀ ip, GradConst (e.scs.dndx ip)) (p dp : M → K) (c : K) (i : M)
    (hsolve : ∑ j, (elemContinuity b pen F elems [] inflows p).mat i j * dp j =
      (elemContinuity b pen F elems [] inflows p).rhs i) :
    ∑ j, (elemContinuity b pen F elems [] inflows p).mat i j * (dp j + c) =
      (elemContinuity b pen F elems [] inflows p).rhs i := by
  have h1 := c87_discrete_continuity b hb pen F elems [] inflows p dp i hsolve
  have hm : ∀ e ∈ elems, ∀ ip, elemMdot b F (p + fun j => dp j + c) e ip = elemMdot b F (p + dp) e ip := by
    intro e he ip
    have h := scsMdot_lin b.pts (e.scs.shape ip) (e.scs.dndx ip) (e.scs.area ip)
      (F.gather e.node fun a => (p + dp) (e.node a)) (fun _ => c)
    rw [gradSum] at h
    have hz : ∑ j, (∑ ic, e.scs.dndx ip ic j * c) * e.scs.area ip j = 0 := by
      refine Finset.sum_eq_zero fun j _ => ?_
      rw [← Finset.sum_mul, hg e he ip j]; simp
    rw [hz, neg_zero, mul_zero, add_zero] at h
    rw [elemMdot, elemMdot, ← h]
    simp only [FlowFields.gather]
    congr 2
    funext a; simp [add_assoc]
  refine c87_converse b hb pen F elems [] inflows p (fun j => dp j + c) i ?_
  rw [← h1]
  simp only [massBalance, List.map_nil]
  congr 3
  congr 1
  refine List.map_congr_left fun e he => ?_
  simp only [hm e he]

end Nalu.Kernel
