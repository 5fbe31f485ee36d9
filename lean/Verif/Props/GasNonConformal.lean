import Verif.Model.GasNonConformal
import Verif.Props.GasDynamics
import Mathlib.Tactic.FinCases
import Mathlib.Tactic.NormNum.Abs

/-!
# C259–C262: gas dynamics across a non-conformal interface
-/

namespace Nalu.GasNC

open Nalu.Gas

variable {n M F : ℕ}

/-! ## Specification side -/

/-- The same point seen from the other side: sides exchanged, area vector reversed. -/
def Pt.mirror {N : Type*} (q : Pt N n M F) (node' : N) (gen' : Fin n → ℝ) : Pt N n M F :=
  ⟨node', fun j => -q.area j, gen', q.opp, q.cur⟩

/-- The Euler flux of a state through the area `a`, relative to a surface moving with velocity `w`. -/
def eulerFlux (a w : Fin n → ℝ) (s : Side n M F) : Dof n → ℝ
  | .mom i => (∑ j, (s.vel j - w j) * a j) * s.mom i + s.p * a i
  | .mass => (∑ j, (s.vel j - w j) * a j) * s.rho
  | .energy => (∑ j, (s.vel j - w j) * a j) * s.totalH

/-- An inviscid, non-conducting side. -/
def Side.Ideal (s : Side n M F) : Prop := s.visc = 0 ∧ s.cond = 0

/-- Off-diagonal workspace entries are zero. -/
def Work.Clean (w : Work n) : Prop := ∀ i j, i ≠ j → w.tC i j = 0 ∧ w.tO i j = 0

/-! ## Auxiliary facts -/

theorem splitMminusOpen_eq (m : ℝ) : splitMminusOpen m = splitMminus m := by
  unfold splitMminusOpen splitMminus
  by_cases h : |m| = 1
  · rw [if_neg (by rw [h]; exact lt_irrefl _), if_pos h.ge]
    rcases (abs_eq (by norm_num : (0 : ℝ) ≤ 1)).1 h with h | h <;> subst h <;> norm_num
  · rcases lt_or_gt_of_ne h with h | h
    · rw [if_neg (not_lt.2 h.le), if_neg (not_le.2 h)]
    · rw [if_pos h, if_pos h.le]

theorem aMag_neg (a : Fin n → ℝ) : aMag (fun j => -a j) = aMag a := by simp [aMag, asq]

theorem curNormal_neg (a : Fin n → ℝ) (j : Fin n) : curNormal (fun j => -a j) j = -curNormal a j := by
  rw [curNormal, curNormal, aMag_neg, neg_div]

theorem Mplus_neg (m : ℝ) : splitMplus (-m) = -splitMminus m := by
  have := (c63_mirror m).1; linarith
theorem Mminus_neg (m : ℝ) : splitMminus (-m) = -splitMplus m := by
  have := (c63_mirror (-m)).1; rwa [neg_neg] at this
theorem Pplus_neg (m : ℝ) : splitPplus (-m) = splitPminus m := by
  by_cases h : m = 0
  · subst h; norm_num [splitPplus, splitPminus]
  · exact ((c63_mirror m).2 h).symm
theorem Pminus_neg (m : ℝ) : splitPminus (-m) = splitPplus m := by rw [← Pplus_neg (-m), neg_neg]

theorem machC_static (a : Fin n → ℝ) (fac : ℝ) (c o : Side n M F) (h : ∀ j, fac * c.mesh j = 0) :
    machC a fac c o = -machO (fun j => -a j) o c := by
  simp only [machC, machO, curNormal_neg, ← Finset.sum_neg_distrib]
  refine Finset.sum_congr rfl fun j _ => ?_
  rw [h j, add_comm o.c c.c]; ring

theorem mCO_mirror (a : Fin n → ℝ) (fac : ℝ) (c o : Side n M F) (hc : ∀ j, fac * c.mesh j = 0)
    (ho : ∀ j, fac * o.mesh j = 0) : mCO (fun j => -a j) fac o c = -mCO a fac c o := by
  have h1 := machC_static a fac c o hc
  have h2 := machC_static (fun j => -a j) fac o c ho
  simp only [neg_neg] at h2
  have h3 : machO (fun j => -a j) o c = -machC a fac c o := by rw [h1, neg_neg]
  simp only [mCO, splitMminusOpen_eq]
  rw [h2, h3, Mplus_neg, Mminus_neg]; ring

theorem pCO_mirror (a : Fin n → ℝ) (fac : ℝ) (c o : Side n M F) (hc : ∀ j, fac * c.mesh j = 0)
    (ho : ∀ j, fac * o.mesh j = 0) : pCO (fun j => -a j) fac o c = pCO a fac c o := by
  have h1 := machC_static a fac c o hc
  have h2 := machC_static (fun j => -a j) fac o c ho
  simp only [neg_neg] at h2
  have h3 : machO (fun j => -a j) o c = -machC a fac c o := by rw [h1, neg_neg]
  simp only [pCO]
  rw [h2, h3, Pplus_neg, Pminus_neg]; ring

theorem advect_mirror (a : Fin n → ℝ) (fac : ℝ) (c o : Side n M F) (hc : ∀ j, fac * c.mesh j = 0)
    (ho : ∀ j, fac * o.mesh j = 0) (f g : ℝ) :
    advect (fun j => -a j) fac o c g f = -advect a fac c o f g := by
  simp only [advect, mCO_mirror a fac c o hc ho, aMag_neg, abs_neg]; ring

theorem oppNormal_cur (a gen : Fin n → ℝ) (j : Fin n) : oppNormal true a gen j = -curNormal a j := by
  simp [oppNormal]

/-! ## C259: convection -/

/-- **C259** Mass: what leaves one side enters the other, when the mesh does not move. -/
theorem c259_mass_conserved {N : Type*} (useCur : Bool) (fac : ℝ) (w w' : Work n) (q : Pt N n M F) (node' : N)
    (gen' : Fin n → ℝ) (hc : ∀ j, fac * q.cur.mesh j = 0) (ho : ∀ j, fac * q.opp.mesh j = 0) :
    flux useCur fac w' (q.mirror node' gen') .mass = -flux useCur fac w q .mass := by
  simp only [flux, Pt.mirror]
  exact advect_mirror q.area fac q.cur q.opp hc ho _ _

/-- **C259** Inviscid gas: every row is conserved between the two sides (static mesh; stress workspace clean —
see C261). -/
theorem c259_inviscid_conserved {N : Type*} (useCur : Bool) (fac : ℝ) (w w' : Work n) (q : Pt N n M F) (node' : N)
    (gen' : Fin n → ℝ) (hc : ∀ j, fac * q.cur.mesh j = 0) (ho : ∀ j, fac * q.opp.mesh j = 0)
    (ic : q.cur.Ideal) (io : q.opp.Ideal) (hw : w.Clean) (hw' : w'.Clean) (d : Dof n) :
    flux useCur fac w' (q.mirror node' gen') d = -flux useCur fac w q d := by
  have hA := advect_mirror q.area fac q.cur q.opp hc ho
  have hP := pCO_mirror q.area fac q.cur q.opp hc ho
  have tz : ∀ (t : Fin n → Fin n → ℝ) (s : Side n M F), s.Ideal → (∀ i j, i ≠ j → t i j = 0) →
      ∀ i j, tauNew t s i j = 0 := by
    intro t s hs ht i j
    simp only [tauNew, hs.1]
    split_ifs with h
    · simp
    · simp [ht i j h]
  have hz : ∀ (t : Fin n → Fin n → ℝ) (s : Side n M F) (nrm : Fin n → ℝ), s.Ideal → (∀ i j, i ≠ j → t i j = 0) →
      heat nrm (tauNew t s) s = 0 := by
    intro t s nrm hs ht
    simp only [heat, tz t s hs ht, hs.2]; simp
  cases d with
  | mom i =>
    simp only [flux, Pt.mirror, hA, hP, viscC, viscO, penalty, ic.1, io.1]
    simp only [mul_zero, zero_mul, neg_zero, Finset.sum_const_zero, add_zero, sub_zero, zero_div]
    ring
  | mass => exact c259_mass_conserved useCur fac w w' q node' gen' hc ho
  | energy =>
    simp only [flux, Pt.mirror, hA, penalty, ic.2, io.2,
      hz w.tC q.cur _ ic (fun i j h => (hw i j h).1), hz w.tO q.opp _ io (fun i j h => (hw i j h).2),
      hz w'.tC q.opp _ io (fun i j h => (hw' i j h).1), hz w'.tO q.cur _ ic (fun i j h => (hw' i j h).2)]
    ring

theorem normal_flux (a v : Fin n → ℝ) (c : ℝ) (ha : 0 < asq a) (hc : c ≠ 0) :
    aMag a * (∑ j, v j * curNormal a j / (1 / 2 * (c + c))) * c = ∑ j, v j * a j :=
  edge_normal a v c ha hc

/-- **C259** Consistency: when both sides hold the same state, are at rest relative to the mesh frame of the solver
(no mesh motion) and behind each face temperature and velocity are uniform, the flux is exactly the Euler flux,
at every Mach number, for viscous gases too. -/
theorem c259_consistent_partial {N : Type*} (useCur : Bool) (fac : ℝ) (w : Work n) (q : Pt N n M F)
    (ha : 0 < asq q.area) (hc : q.cur.c ≠ 0) (hm : ∀ j, fac * q.cur.mesh j = 0)
    (hrho : q.opp.rho = q.cur.rho) (hmom : q.opp.mom = q.cur.mom) (hvel : q.opp.vel = q.cur.vel)
    (hH : q.opp.totalH = q.cur.totalH) (hp : q.opp.p = q.cur.p) (hT : q.opp.T = q.cur.T) (hcc : q.opp.c = q.cur.c)
    (uC : ∀ ic, q.cur.elemT ic = q.cur.T ∧ q.cur.elemVel ic = q.cur.vel)
    (uO : ∀ ic, q.opp.elemT ic = q.opp.T ∧ q.opp.elemVel ic = q.opp.vel)
    (pC : ∀ i, ∑ ic, q.cur.dndx ic i = 0) (pO : ∀ i, ∑ ic, q.opp.dndx ic i = 0)
    (hw : w.Clean) (d : Dof n) :
    flux useCur fac w q d = eulerFlux q.area (fun _ => 0) q.cur d := by
  have hM : machC q.area fac q.cur q.opp = machO q.area q.cur q.opp := by
    simp only [machC, machO, hm, hvel, sub_zero]
  have hm1 : mCO q.area fac q.cur q.opp = machO q.area q.cur q.opp := by
    rw [mCO, hM, splitMminusOpen_eq]; exact (c63_split_mach _).1
  have hn : aMag q.area * mCO q.area fac q.cur q.opp * q.cur.c = ∑ j, q.cur.vel j * q.area j := by
    rw [hm1, machO, hcc, hvel]; exact normal_flux q.area q.cur.vel q.cur.c ha hc
  have hP : pCO q.area fac q.cur q.opp = q.cur.p := by
    rw [pCO, hM, hp, ← add_mul, (c63_split_pressure _).1, one_mul]
  have hadv : ∀ f, advect q.area fac q.cur q.opp (f * q.cur.c) (f * q.cur.c) =
      (∑ j, q.cur.vel j * q.area j) * f := by
    intro f; rw [← hn, advect]; ring
  have gz : ∀ (s : Side n M F), (∀ ic, s.elemT ic = s.T ∧ s.elemVel ic = s.vel) →
      (∀ i, ∑ ic, s.dndx ic i = 0) → (∀ i j, gradU s i j = 0) ∧ (∀ i, gradT s i = 0) ∧ divU s = 0 := by
    intro s hu hp
    have h1 : ∀ i j, gradU s i j = 0 := by
      intro i j
      simp only [gradU, (hu _).2]
      rw [← Finset.sum_mul, hp i, zero_mul]
    refine ⟨h1, ?_, ?_⟩
    · intro i
      simp only [gradT, (hu _).1]
      rw [← Finset.sum_mul, hp i, zero_mul]
    · simp [divU, h1]
  obtain ⟨c1, c2, c3⟩ := gz q.cur uC pC
  obtain ⟨o1, o2, o3⟩ := gz q.opp uO pO
  have tz : ∀ (t : Fin n → Fin n → ℝ) (s : Side n M F), (∀ i j, gradU s i j = 0) → divU s = 0 →
      (∀ i j, i ≠ j → t i j = 0) → ∀ i j, tauNew t s i j = 0 := by
    intro t s h1 h2 ht i j
    simp only [tauNew, h1, h2]
    split_ifs with h
    · simp
    · simp [ht i j h]
  have tc := tz w.tC q.cur c1 c3 (fun i j h => (hw i j h).1)
  have tO := tz w.tO q.opp o1 o3 (fun i j h => (hw i j h).2)
  cases d with
  | mom i =>
    simp only [flux, eulerFlux, viscC, viscO, c1, c3, o1, o3, hmom, hcc, hadv, hP, sub_zero]
    simp
  | mass => simp only [flux, eulerFlux, hrho, hcc, hadv, sub_zero]
  | energy =>
    simp only [flux, eulerFlux, hH, hcc, hadv, heat, c2, o2, tc, tO, hT, sub_zero]
    simp

/-- **C259** The convected value is the upwind one, selected by the sign of the interface Mach number; the mass
flux therefore takes its density and its speed of sound from one and the same side. -/
theorem c259_upwind {N : Type*} (useCur : Bool) (fac : ℝ) (w : Work n) (q : Pt N n M F) :
    flux useCur fac w q .mass = aMag q.area * mCO q.area fac q.cur q.opp *
      (if 0 ≤ mCO q.area fac q.cur q.opp then q.cur.rho * q.cur.c else q.opp.rho * q.opp.c) := by
  simp only [flux, advect]
  split_ifs with h
  · rw [abs_of_nonneg h]; ring
  · rw [abs_of_neg (not_le.1 h)]; ring

/-- One-dimensional side with everything quiet except a velocity `u` and mesh velocity `w`. -/
def side1 (u w : ℝ) : Side 1 1 1 :=
  { rho := 1, mom := fun _ => u, vel := fun _ => u, mesh := fun _ => w, totalH := 1, p := 1, T := 1, c := 1,
    visc := 0, cond := 0, elemT := fun _ => 1, elemVel := fun _ _ => u, dndx := fun _ _ => 0, face := fun _ => 0 }

/-- The point of the interface with both sides in state `side1 u w`. -/
def pt1 (u w : ℝ) : Pt Unit 1 1 1 := ⟨(), fun _ => 1, fun _ => -1, side1 u w, side1 u w⟩

theorem aMag_one : aMag (fun _ : Fin 1 => (1 : ℝ)) = 1 := by simp [aMag, asq]

theorem mass_pt1 (u w : ℝ) (W : Work 1) :
    flux false 1 W (pt1 u w) .mass = splitMplus (u - w) + splitMminus u := by
  simp only [flux, pt1, advect, aMag_one, side1, mCO, machC, machO, curNormal, splitMminusOpen_eq]
  simp
  norm_num
  ring

theorem mass_pt1_mirror (u w : ℝ) (W : Work 1) :
    flux false 1 W ((pt1 u w).mirror () (fun _ => 1)) .mass = splitMplus (w - u) + splitMminus (-u) := by
  simp only [flux, pt1, Pt.mirror, advect, aMag_neg, aMag_one, side1, mCO, machC, machO, curNormal,
    splitMminusOpen_eq]
  simp
  norm_num
  ring

/-- **C259 (moving meshes, wrong)** The mesh velocity enters only the current side's Mach number.  A gas at rest
relative to a mesh that moves at Mach 2, uniform over both sides, should see no mass flux; the code computes one, and
the two sides' fluxes do not cancel: mass is created at the interface. -/
theorem c259_moving_mesh_wrong : ∃ (q : Pt Unit 1 1 1) (W : Work 1), 0 < asq q.area ∧ q.cur = q.opp ∧
    (∀ j, q.cur.vel j - 1 * q.cur.mesh j = 0) ∧
    flux false 1 W q .mass ≠ eulerFlux q.area q.cur.mesh q.cur .mass ∧
    flux false 1 W (q.mirror () (fun _ => 1)) .mass ≠ -flux false 1 W q .mass := by
  refine ⟨pt1 2 2, ⟨fun _ _ => 0, fun _ _ => 0⟩, ?_, rfl, ?_, ?_, ?_⟩
  · simp [asq, pt1]
  · intro j; simp [pt1, side1]
  · rw [mass_pt1]; norm_num [eulerFlux, pt1, side1, splitMplus, splitMminus]
  · rw [mass_pt1, mass_pt1_mirror]; norm_num [splitMplus, splitMminus]

/-- Total of the residual over all nodes after the loop: each point takes its flux away. -/
theorem execute_total {N : Type*} [DecidableEq N] [Fintype N] (useCur : Bool) (fac : ℝ)
    (pts : List (Pt N n M F)) : ∀ (r : N → Dof n → ℝ) (w : Work n),
    ∑ k, (execute useCur fac r w pts).1 k .mass =
      ∑ k, r k .mass - (pts.map fun q => flux useCur fac ⟨fun _ _ => 0, fun _ _ => 0⟩ q .mass).sum := by
  induction pts with
  | nil => intro r w; simp [execute]
  | cons q l ih =>
    intro r w
    simp only [execute, List.foldl_cons] at ih ⊢
    have h : step useCur fac (r, w) q = (addAt r q.node (fun d => -flux useCur fac w q d), workNext w q) := rfl
    rw [h, ih, sum_addAt]
    simp only [List.map_cons, List.sum_cons, flux]
    ring

/-- **C259** Over the whole interface: if every Gauss point has a mirror point on the other side (in any order, any
number of points), the interface neither creates nor destroys mass, on a static mesh. -/
theorem c259_interface_mass_partial {N : Type*} [DecidableEq N] [Fintype N] (useCur : Bool) (fac : ℝ)
    (r : N → Dof n → ℝ) (w : Work n) (pairs : List (Pt N n M F × N × (Fin n → ℝ))) (pts : List (Pt N n M F))
    (hpts : pts.Perm (pairs.map (fun t => t.1) ++ pairs.map (fun t => t.1.mirror t.2.1 t.2.2)))
    (hs : ∀ t ∈ pairs, ∀ j, fac * t.1.cur.mesh j = 0 ∧ fac * t.1.opp.mesh j = 0) :
    ∑ k, (execute useCur fac r w pts).1 k .mass = ∑ k, r k .mass := by
  rw [execute_total]
  have hp := (hpts.map fun q => flux useCur fac ⟨fun _ _ => 0, fun _ _ => 0⟩ q .mass).sum_eq
  rw [hp, List.map_append, List.sum_append, List.map_map, List.map_map]
  clear hp hpts
  suffices h : (pairs.map ((fun q => flux useCur fac ⟨fun _ _ => 0, fun _ _ => 0⟩ q .mass) ∘ fun t => t.1)).sum +
      (pairs.map ((fun q => flux useCur fac ⟨fun _ _ => 0, fun _ _ => 0⟩ q .mass) ∘
        fun t => t.1.mirror t.2.1 t.2.2)).sum = 0 by rw [h, sub_zero]
  induction pairs with
  | nil => simp
  | cons t l ih =>
    have h1 := ih fun s hs' => hs s (List.mem_cons_of_mem _ hs')
    have h2 := c259_mass_conserved useCur fac ⟨fun _ _ => 0, fun _ _ => 0⟩ ⟨fun _ _ => 0, fun _ _ => 0⟩ t.1 t.2.1
      t.2.2 (fun j => (hs t (List.mem_cons_self ..) j).1) (fun j => (hs t (List.mem_cons_self ..) j).2)
    simp only [List.map_cons, List.sum_cons, Function.comp_apply] at h1 ⊢
    rw [h2]; linarith

/-! ## C260: diffusion -/

/-- The true velocity gradient of the element behind the face, `∂u_i/∂x_j`. -/
def trueGradU (s : Side n M F) (i j : Fin n) : ℝ := ∑ ic, s.dndx ic j * s.elemVel ic i

/-- The deviatoric Newtonian stress. -/
noncomputable def newton (s : Side n M F) (i j : Fin n) : ℝ :=
  s.visc * (trueGradU s i j + trueGradU s j i) - if i = j then 2 / 3 * s.visc * ∑ k, trueGradU s k k else 0

/-- **C260** Heat conduction (gas at rest at the point): the energy flux is convection plus the mean of the two
sides' conductive fluxes along the normal plus a penalty on the temperature jump. -/
theorem c260_heat_flux {N : Type*} (fac : ℝ) (w : Work n) (q : Pt N n M F)
    (hC : ∀ i, q.cur.vel i = 0) (hO : ∀ i, q.opp.vel i = 0) (ha : 0 < asq q.area) :
    flux true fac w q .energy =
      advect q.area fac q.cur q.opp (q.cur.totalH * q.cur.c) (q.opp.totalH * q.opp.c)
      - ∑ i, (q.cur.cond * gradT q.cur i + q.opp.cond * gradT q.opp i) / 2 * q.area i
      + penalty q.cur.cond q.opp.cond (invLen q.cur (curNormal q.area)) (-invLen q.opp (curNormal q.area))
          * (q.cur.T - q.opp.T) * aMag q.area := by
  have hm : aMag q.area ≠ 0 := (Real.sqrt_pos.2 ha).ne'
  have hl : invLen q.opp (oppNormal true q.area q.gen) = -invLen q.opp (curNormal q.area) := by
    simp only [invLen, oppNormal_cur, mul_neg, Finset.sum_neg_distrib]
  simp only [flux]
  rw [hl]
  have h1 : (heat (curNormal q.area) (tauNew w.tC q.cur) q.cur -
      heat (oppNormal true q.area q.gen) (tauNew w.tO q.opp) q.opp) * aMag q.area =
      -∑ i, (q.cur.cond * gradT q.cur i + q.opp.cond * gradT q.opp i) * q.area i := by
    simp only [heat, hC, hO, oppNormal_cur]
    rw [← Finset.sum_sub_distrib, Finset.sum_mul, ← Finset.sum_neg_distrib]
    refine Finset.sum_congr rfl fun i _ => ?_
    simp only [neg_zero, zero_mul, Finset.sum_const_zero, add_zero, curNormal]
    field_simp
    ring
  have h2 : ∑ i, (q.cur.cond * gradT q.cur i + q.opp.cond * gradT q.opp i) / 2 * q.area i =
      1 / 2 * ∑ i, (q.cur.cond * gradT q.cur i + q.opp.cond * gradT q.opp i) * q.area i := by
    rw [Finset.mul_sum]; exact Finset.sum_congr rfl fun i _ => by ring
  rw [h2]
  linear_combination (1 / 2 : ℝ) * h1

/-- **C260** Conductive heat is conserved between the sides (gas at rest, static mesh). -/
theorem c260_heat_conserved {N : Type*} (fac : ℝ) (w w' : Work n) (q : Pt N n M F) (node' : N) (gen' : Fin n → ℝ)
    (hC : ∀ i, q.cur.vel i = 0) (hO : ∀ i, q.opp.vel i = 0) (ha : 0 < asq q.area)
    (hc : ∀ j, fac * q.cur.mesh j = 0) (ho : ∀ j, fac * q.opp.mesh j = 0) :
    flux true fac w' (q.mirror node' gen') .energy = -flux true fac w q .energy := by
  have ha' : 0 < asq (q.mirror node' gen').area := by simpa [Pt.mirror, asq] using ha
  rw [c260_heat_flux fac w' (q.mirror node' gen') hO hC ha', c260_heat_flux fac w q hC hO ha]
  simp only [Pt.mirror]
  have hl : ∀ s : Side n M F, invLen s (curNormal fun j => -q.area j) = -invLen s (curNormal q.area) := by
    intro s; simp only [invLen, curNormal_neg, mul_neg, Finset.sum_neg_distrib]
  rw [advect_mirror q.area fac q.cur q.opp hc ho, aMag_neg, hl, hl]
  have h2 : ∑ i, (q.opp.cond * gradT q.opp i + q.cur.cond * gradT q.cur i) / 2 * -q.area i =
      -∑ i, (q.cur.cond * gradT q.cur i + q.opp.cond * gradT q.opp i) / 2 * q.area i := by
    rw [← Finset.sum_neg_distrib]; exact Finset.sum_congr rfl fun i _ => by ring
  rw [h2]
  simp only [penalty]; ring

/-- **C260** The penalty pushes heat from the hot to the cold side whenever both inverse lengths are positive. -/
theorem c260_penalty_dissipative (kC kO lC lO jump : ℝ) (hC : 0 ≤ kC) (hO : 0 ≤ kO) (hlC : 0 ≤ lC) (hlO : 0 ≤ lO) :
    0 ≤ penalty kC kO lC lO * jump * jump := by
  unfold penalty
  have : 0 ≤ (kC * lC + kO * lO) / 2 := by positivity
  nlinarith [mul_nonneg this (mul_self_nonneg jump)]

/-- **C260** The velocity divergence used is the true one. -/
theorem c260_divergence_exact (s : Side n M F) : divU s = ∑ k, trueGradU s k k := rfl

/-- **C260 (defect, exactly)** Off the diagonal the code's gradient repeats the diagonal derivative. -/
theorem c260_gradient_repeats_diagonal (s : Side n M F) (i j : Fin n) : gradU s i j = trueGradU s i i := rfl

/-- **C260 (defect)** Hence the momentum lost by the two sides at a matched point, instead of being zero, is exactly
`2/3 (μ_c ∇·u_c − μ_o ∇·u_o) A` : the divergence part of the opposing stress carries the wrong normal. -/
theorem c260_momentum_imbalance {N : Type*} (fac : ℝ) (w w' : Work n) (q : Pt N n M F) (node' : N)
    (gen' : Fin n → ℝ) (ha : 0 < asq q.area) (hc : ∀ j, fac * q.cur.mesh j = 0) (ho : ∀ j, fac * q.opp.mesh j = 0)
    (i : Fin n) :
    flux true fac w q (.mom i) + flux true fac w' (q.mirror node' gen') (.mom i) =
      2 / 3 * (q.cur.visc * divU q.cur - q.opp.visc * divU q.opp) * q.area i := by
  have hm : aMag q.area ≠ 0 := (Real.sqrt_pos.2 ha).ne'
  have hl : ∀ s : Side n M F, invLen s (curNormal fun j => -q.area j) = -invLen s (curNormal q.area) := by
    intro s; simp only [invLen, curNormal_neg, mul_neg, Finset.sum_neg_distrib]
  have hlo : ∀ (s : Side n M F) (g : Fin n → ℝ),
      invLen s (oppNormal true q.area g) = -invLen s (curNormal q.area) := by
    intro s g; simp only [invLen, oppNormal_cur, mul_neg, Finset.sum_neg_distrib]
  have hlo' : ∀ (s : Side n M F) (g : Fin n → ℝ),
      invLen s (oppNormal true (fun j => -q.area j) g) = invLen s (curNormal q.area) := by
    intro s g; simp only [invLen, oppNormal_cur, curNormal_neg, neg_neg]
  simp only [flux, Pt.mirror]
  rw [advect_mirror q.area fac q.cur q.opp hc ho, pCO_mirror q.area fac q.cur q.opp hc ho, aMag_neg, hl, hlo, hlo']
  simp only [viscC, viscO, oppNormal_cur, curNormal_neg, penalty, mul_neg, neg_neg, Finset.sum_neg_distrib]
  have hn : q.area i = curNormal q.area i * aMag q.area := by rw [curNormal]; field_simp
  rw [hn]; ring

/-- **C260 (partial)** Momentum is conserved between the sides exactly when `μ ∇·u` agrees (in particular for
divergence-free flow). -/
theorem c260_momentum_conserved_partial {N : Type*} (fac : ℝ) (w w' : Work n) (q : Pt N n M F) (node' : N)
    (gen' : Fin n → ℝ) (ha : 0 < asq q.area) (hc : ∀ j, fac * q.cur.mesh j = 0) (ho : ∀ j, fac * q.opp.mesh j = 0) :
    (∀ i, flux true fac w' (q.mirror node' gen') (.mom i) = -flux true fac w q (.mom i)) ↔
      q.cur.visc * divU q.cur = q.opp.visc * divU q.opp := by
  constructor
  · intro h
    obtain ⟨i, hi⟩ : ∃ i, q.area i ≠ 0 := by
      by_contra hh
      push Not at hh
      simp [asq, hh] at ha
    have := c260_momentum_imbalance fac w w' q node' gen' ha hc ho i
    rw [h i] at this
    have h2 : (q.cur.visc * divU q.cur - q.opp.visc * divU q.opp) * q.area i = 0 := by linarith
    rcases mul_eq_zero.1 h2 with h3 | h3
    · linarith
    · exact absurd h3 hi
  · intro h i
    have := c260_momentum_imbalance fac w w' q node' gen' ha hc ho i
    rw [h, sub_self] at this
    linarith

/-- A two-dimensional side in simple shear `u = (y, 0)`, viscosity one: two nodes, derivatives in `y` only. -/
def shearSide : Side 2 2 1 :=
  { rho := 1, mom := fun _ => 0, vel := fun _ => 0, mesh := fun _ => 0, totalH := 1, p := 0, T := 1, c := 1,
    visc := 1, cond := 0, elemT := fun _ => 1,
    elemVel := fun k i => if k = 1 ∧ i = 0 then 1 else 0,
    dndx := fun k j => if j = 1 then (if k = 1 then 1 else -1) else 0, face := fun _ => 1 }

/-- **C260 (wrong)** Simple shear `u = (y,0)` along an interface `y = const`: the stress is `τ_xy = μ`, but the code's
momentum flux has no viscous part at all. -/
theorem c260_shear_wrong : ∃ (q : Pt Unit 2 2 1) (w : Work 2), q.cur = q.opp ∧ 0 < asq q.area ∧ w.Clean ∧
    newton q.cur 0 1 = 1 ∧ q.area = (fun j => if j = 1 then 1 else 0) ∧
    flux true 0 w q (.mom 0) = 0 := by
  refine ⟨⟨(), fun j => if j = 1 then 1 else 0, fun _ => 0, shearSide, shearSide⟩, ⟨fun _ _ => 0, fun _ _ => 0⟩,
    rfl, ?_, fun _ _ _ => ⟨rfl, rfl⟩, ?_, rfl, ?_⟩
  · simp [asq]
  · simp [newton, trueGradU, shearSide]
  · have hg : ∀ i j, gradU shearSide i j = 0 := by
      intro i j
      fin_cases i <;> simp [gradU, shearSide]
    have hd : divU shearSide = 0 := by simp [divU, hg]
    simp only [flux, viscC, viscO, hg, hd, advect]
    simp [shearSide]

/-- **C260 (partial)** On a face whose normal is the coordinate direction `k`, the *normal* component of the current
side's viscous traction is the Newtonian one, whatever the velocity field. -/
theorem c260_normal_traction_partial (s : Side n M F) (k : Fin n) :
    viscC (fun j => if j = k then 1 else 0) s k = -newton s k k := by
  simp only [viscC, newton, c260_divergence_exact, c260_gradient_repeats_diagonal, mul_ite, mul_one, mul_zero,
    Finset.sum_ite_eq', Finset.mem_univ, if_true]
  ring

/-! ## C261: history -/

/-- **C261** Mass and momentum fluxes do not depend on which points were processed before. -/
theorem c261_mass_momentum_history_free {N : Type*} (useCur : Bool) (fac : ℝ) (w w' : Work n) (q : Pt N n M F) :
    flux useCur fac w q .mass = flux useCur fac w' q .mass ∧
    ∀ i, flux useCur fac w q (.mom i) = flux useCur fac w' q (.mom i) := ⟨rfl, fun _ => rfl⟩

/-- **C261 (defect, exactly)** The off-diagonal stress workspace is a running total: after any list of points it holds
its initial (uninitialised) value plus the contributions of *all* points so far. -/
theorem c261_workspace_accumulates {N : Type*} [DecidableEq N] (useCur : Bool) (fac : ℝ) (i j : Fin n) (hij : i ≠ j)
    (pts : List (Pt N n M F)) : ∀ (r : N → Dof n → ℝ) (w : Work n),
    (execute useCur fac r w pts).2.tC i j =
        w.tC i j + (pts.map fun q => q.cur.visc * (gradU q.cur i j + gradU q.cur j i)).sum ∧
    (execute useCur fac r w pts).2.tO i j =
        w.tO i j + (pts.map fun q => q.opp.visc * (gradU q.opp i j + gradU q.opp j i)).sum := by
  induction pts with
  | nil => intro r w; simp [execute]
  | cons q l ih =>
    intro r w
    have h := ih (step useCur fac (r, w) q).1 (step useCur fac (r, w) q).2
    simp only [execute, List.foldl_cons] at h ⊢
    refine ⟨?_, ?_⟩
    · rw [h.1]; simp only [step, workNext, tauNew, hij, if_false, List.map_cons, List.sum_cons]; ring
    · rw [h.2]; simp only [step, workNext, tauNew, hij, if_false, List.map_cons, List.sum_cons]; ring

/-- **C261** What the energy row's stress workspace should hold: with clean workspaces it is the stress built from
the code's gradients. -/
theorem c261_clean_stress (t : Fin n → Fin n → ℝ) (s : Side n M F) (ht : ∀ i j, i ≠ j → t i j = 0) (i j : Fin n) :
    tauNew t s i j = s.visc * (gradU s i j + gradU s j i) - if i = j then 2 / 3 * s.visc * divU s else 0 := by
  unfold tauNew
  split_ifs with h
  · ring
  · rw [ht i j h]; ring

/-- **C261 (partial)** Energy: for an inviscid gas, clean workspaces stay clean over any number of points, so the
energy flux is history-free. -/
theorem c261_inviscid_stays_clean_partial {N : Type*} [DecidableEq N] (useCur : Bool) (fac : ℝ)
    (pts : List (Pt N n M F)) (r : N → Dof n → ℝ) (w : Work n) (hw : w.Clean)
    (hi : ∀ q ∈ pts, q.cur.visc = 0 ∧ q.opp.visc = 0) : (execute useCur fac r w pts).2.Clean := by
  intro i j hij
  obtain ⟨h1, h2⟩ := c261_workspace_accumulates useCur fac i j hij pts r w
  rw [h1, h2, (hw i j hij).1, (hw i j hij).2]
  have e1 : (pts.map fun q => q.cur.visc * (gradU q.cur i j + gradU q.cur j i)) = pts.map fun _ => (0 : ℝ) :=
    List.map_congr_left fun q hq => by rw [(hi q hq).1, zero_mul]
  have e2 : (pts.map fun q => q.opp.visc * (gradU q.opp i j + gradU q.opp j i)) = pts.map fun _ => (0 : ℝ) :=
    List.map_congr_left fun q hq => by rw [(hi q hq).2, zero_mul]
  rw [e1, e2]
  simp

/-- A side stretching along `x` with velocity `(0,1)` at the face. -/
def stretchSide : Side 2 2 1 :=
  { rho := 1, mom := fun _ => 0, vel := fun i => if i = 1 then 1 else 0, mesh := fun _ => 0, totalH := 0, p := 0,
    T := 1, c := 1, visc := 1, cond := 0, elemT := fun _ => 1,
    elemVel := fun k i => if k = 1 ∧ i = 0 then 1 else 0,
    dndx := fun k j => if j = 0 then (if k = 1 then 1 else -1) else 0, face := fun _ => 1 }

/-- **C261 (wrong)** The same Gauss point processed twice in a row gives two different energy fluxes. -/
theorem c261_energy_history_wrong : ∃ (q : Pt Unit 2 2 1) (w : Work 2), w.Clean ∧ 0 < asq q.area ∧
    flux true 0 w q .energy ≠ flux true 0 (workNext w q) q .energy := by
  refine ⟨⟨(), fun j => if j = 0 then 1 else 0, fun _ => 0, stretchSide, stretchSide⟩,
    ⟨fun _ _ => 0, fun _ _ => 0⟩, fun _ _ _ => ⟨rfl, rfl⟩, ?_, ?_⟩
  · simp [asq]
  · have g0 : ∀ j, gradU stretchSide 0 j = 1 := by intro j; simp [gradU, stretchSide]
    have g1 : ∀ j, gradU stretchSide 1 j = 0 := by intro j; simp [gradU, stretchSide]
    have hd : divU stretchSide = 1 := by simp [divU, g0, g1]
    have ha : aMag (fun j : Fin 2 => if j = 0 then (1 : ℝ) else 0) = 1 := by simp [aMag, asq]
    simp only [flux, heat, workNext, tauNew, Fin.sum_univ_two, g0, g1, hd, oppNormal_cur, curNormal, ha, advect]
    simp [stretchSide]
    norm_num

/-! ## C262: gathering the opposing face -/

theorem gather_inner (cur ni dim : ℕ) (v : ℕ → ℕ → ℝ) (m : ℕ → ℝ) (k : ℕ) (h : ∀ i < dim, gatherPos cur i ni ≠ k) :
    (List.range dim).foldl (fun m i => Function.update m (gatherPos cur i ni) (v ni i)) m k = m k := by
  induction dim generalizing m with
  | zero => simp
  | succ d ih =>
    rw [List.range_succ, List.foldl_append]
    simp only [List.foldl_cons, List.foldl_nil]
    rw [Function.update_of_ne (Ne.symm (h d (Nat.lt_succ_self d)))]
    exact ih m fun i hi => h i (Nat.lt_succ_of_lt hi)

theorem gather_inner_hit (cur ni dim : ℕ) (hcur : 0 < cur) (v : ℕ → ℕ → ℝ) (m : ℕ → ℝ) (i : ℕ) (hi : i < dim) :
    (List.range dim).foldl (fun m i => Function.update m (gatherPos cur i ni) (v ni i)) m (gatherPos cur i ni) =
      v ni i := by
  induction dim generalizing m with
  | zero => omega
  | succ d ih =>
    rw [List.range_succ, List.foldl_append]
    simp only [List.foldl_cons, List.foldl_nil]
    by_cases h : i = d
    · subst h; rw [Function.update_self]
    · rw [Function.update_of_ne]
      · exact ih m (by omega)
      · intro h2
        apply h
        have : i * cur = d * cur := by unfold gatherPos at h2; omega
        exact Nat.eq_of_mul_eq_mul_right hcur this

/-- **C262 (partial)** When the two faces have the same number of nodes, the interpolation reads exactly the gathered
nodal vectors, for any number of nodes and components. -/
theorem c262_gather_same_topology_partial (nodes dim : ℕ) (v : ℕ → ℕ → ℝ) (init : ℕ → ℝ) (i ni : ℕ) (hi : i < dim)
    (hn : ni < nodes) : gather nodes nodes dim v init (readPos nodes i ni) = v ni i := by
  unfold gather readPos
  have key : ∀ m k : ℕ, k ≤ nodes → ni < k → ((List.range k).foldl (fun m ni =>
      (List.range dim).foldl (fun m i => Function.update m (gatherPos nodes i ni) (v ni i)) m) init)
      (i * nodes + ni) = v ni i := by
    intro _ k
    induction k with
    | zero => intro _ h; omega
    | succ k ih =>
      intro hk hnk
      rw [List.range_succ, List.foldl_append]
      simp only [List.foldl_cons, List.foldl_nil]
      by_cases h : ni = k
      · subst h; exact gather_inner_hit nodes ni dim (by omega) v _ i hi
      · rw [gather_inner]
        · exact ih (by omega) (by omega)
        · intro i' _ h2
          apply h
          unfold gatherPos at h2
          have h3 := congrArg (· % nodes) h2
          simp only [Nat.mul_comm i' nodes, Nat.mul_comm i nodes] at h3
          rw [Nat.mul_add_mod, Nat.mul_add_mod, Nat.mod_eq_of_lt (by omega), Nat.mod_eq_of_lt hn] at h3
          exact h3.symm
  exact key 0 nodes le_rfl hn

/-- **C262** The gather stays inside the array (`opposingNodes*dim` entries) exactly when the current face has at most
as many nodes as the opposing one (more than one dimension): a quadrilateral facing a triangle writes beyond the end. -/
theorem c262_write_in_bounds_iff (cur opp dim : ℕ) (ho : 0 < opp) (hd : 2 ≤ dim) :
    (∀ i < dim, ∀ ni < opp, gatherPos cur i ni < opp * dim) ↔ cur ≤ opp := by
  constructor
  · intro h
    have h1 := h (dim - 1) (by omega) (opp - 1) (by omega)
    unfold gatherPos at h1
    obtain ⟨d, rfl⟩ : ∃ d, dim = d + 2 := ⟨dim - 2, by omega⟩
    by_contra hc
    push Not at hc
    have h2 : (d + 2 - 1) * (opp + 1) ≤ (d + 2 - 1) * cur := Nat.mul_le_mul_left _ hc
    have h3 : (d + 2 - 1) * (opp + 1) + (opp - 1) < opp * (d + 2) := lt_of_le_of_lt (by omega) h1
    have e : d + 2 - 1 = d + 1 := by omega
    rw [e] at h3
    have h4 : (d + 1) * (opp + 1) = opp * (d + 1) + (d + 1) := by ring
    have h5 : opp * (d + 2) = opp * (d + 1) + opp := by ring
    omega
  · intro h i hi ni hni
    unfold gatherPos
    have h1 : i * cur ≤ i * opp := Nat.mul_le_mul_left _ h
    have h2 : i * opp + opp ≤ dim * opp := by
      have := Nat.mul_le_mul_right opp (show i + 1 ≤ dim by omega)
      rw [Nat.add_mul, one_mul] at this; exact this
    rw [Nat.mul_comm opp dim]; omega

/-- **C262 (wrong)** A triangle (3 nodes) facing a quadrilateral (4 nodes): the `y` component read at the quadrilateral's
first node is the second node's (the array is overlapped), whatever the fields are. -/
theorem c262_mixed_topology_wrong (v : ℕ → ℕ → ℝ) (init : ℕ → ℝ) :
    gather 3 4 3 v init (readPos 4 1 0) = v 1 1 := by
  have e : ∀ k m : ℕ, k = m → (k = m) = True := fun _ _ h => by simp [h]
  simp only [gather, readPos, gatherPos, show List.range 4 = [0, 1, 2, 3] from rfl, show List.range 3 = [0, 1, 2] from rfl,
    List.foldl_cons, List.foldl_nil, Function.update_apply]
  norm_num

/-! ## Non-vacuity -/

example : flux false 1 ⟨fun _ _ => 0, fun _ _ => 0⟩ (pt1 2 0) .mass = 2 := by
  rw [mass_pt1]; norm_num [splitMplus, splitMminus]

example : (side1 3 0).Ideal := ⟨rfl, rfl⟩
example : divU stretchSide = 1 := by simp [divU, gradU, stretchSide]
example : gather 4 4 3 (fun ni i => (10 * ni + i : ℝ)) (fun _ => 0) (readPos 4 2 3) = 32 := by
  rw [c262_gather_same_topology_partial 4 3 _ _ 2 3 (by norm_num) (by norm_num)]; norm_num

end Nalu.GasNC
