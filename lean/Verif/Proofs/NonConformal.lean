import Verif.Model.NonConformal
import Verif.Proofs.ElemKernel
import Mathlib.Algebra.BigOperators.Field

/-!
# Closed forms of the non-conformal interface algorithms
-/

set_option linter.unusedSectionVars false

namespace Nalu.NC
open Nalu.Edge Nalu.Kernel

variable {K : Type*} [Field K] [LinearOrder K] [IsStrictOrderedRing K]
variable {nc no fc fo nd : ℕ}

theorem val_def {nn nf : ℕ} (s : Side nn nf nd K) (q : Fin nn → K) :
    s.val q = ∑ ic, s.N ic * q (s.ord ic) := rfl

theorem val_add {nn nf : ℕ} (s : Side nn nf nd K) (q d : Fin nn → K) :
    s.val (fun a => q a + d a) = s.val q + s.val d := by
  simp only [Side.val, mul_add, Finset.sum_add_distrib]

theorem val_smul {nn nf : ℕ} (s : Side nn nf nd K) (c : K) (q : Fin nn → K) :
    s.val (fun a => c * q a) = c * s.val q := by
  simp only [Side.val, Finset.mul_sum]; exact Finset.sum_congr rfl fun _ _ => by ring

theorem gradFlux_eq {nn nf : ℕ} (s : Side nn nf nd K) (n : Fin nd → K) (q : Fin nn → K) :
    s.gradFlux n q = ∑ ic, s.lhscd n ic * q ic := by
  simp only [Side.gradFlux, Side.lhscd, neg_mul, Finset.sum_mul, Finset.sum_neg_distrib]

theorem gradFlux_add {nn nf : ℕ} (s : Side nn nf nd K) (n : Fin nd → K) (q d : Fin nn → K) :
    s.gradFlux n (fun a => q a + d a) = s.gradFlux n q + s.gradFlux n d := by
  simp only [gradFlux_eq, mul_add, Finset.sum_add_distrib]

theorem gradFlux_grad {nn nf : ℕ} (s : Side nn nf nd K) (n : Fin nd → K) (q : Fin nn → K) :
    s.gradFlux n q = -∑ j, s.grad q j * n j := by
  simp only [Side.gradFlux, Side.grad, Finset.sum_mul]
  rw [Finset.sum_comm]
  congr 1
  exact Finset.sum_congr rfl fun _ _ => Finset.sum_congr rfl fun _ _ => by ring

theorem grad_add {nn nf : ℕ} (s : Side nn nf nd K) (q d : Fin nn → K) (j : Fin nd) :
    s.grad (fun a => q a + d a) j = s.grad q j + s.grad d j := by
  simp only [Side.grad, mul_add, Finset.sum_add_distrib]

/-! ### one-row systems: face part and element part of both sides -/

/-- A loop that adds `v ic` to the entries `(r, c ic)`: the action on a vector. -/
theorem loopL_act {ι : Type*} [DecidableEq ι] [Fintype ι] {n : ℕ} (r : ι) (c : Fin n → ι) (v : Fin n → K)
    (s : LocalSys ι K) (d : ι → K) (a : ι) :
    act (loop n (fun ic s => addL s r (c ic) (v ic)) s) d a =
      act s d a + if a = r then ∑ ic, v ic * d (c ic) else 0 := by
  rw [loop_act (δ := fun ic => if a = r then v ic * d (c ic) else 0) (h := fun k s => by simp), ite_sum]

theorem loopL_rhs {ι : Type*} [DecidableEq ι] {n : ℕ} (r : ι) (c : Fin n → ι) (v : Fin n → K)
    (s : LocalSys ι K) (a : ι) :
    (loop n (fun ic s => addL s r (c ic) (v ic)) s).rhs a = s.rhs a := by
  rw [loop_rhs (δ := fun _ => 0) (h := fun k s => by simp)]; simp

theorem scalarNC_rhs (eta mdot : K) (p : Point nc fc no fo nd K) (muC : Fin nc → K) (muO : Fin no → K)
    (q : Row nc no → K) (s : LocalSys (Row nc no) K) (a : Row nc no) :
    (scalarNC eta mdot p muC muO q s).rhs a = s.rhs a - if a = .inl p.near then
      scalarFlux eta mdot p muC muO (fun b => q (.inl b)) (fun b => q (.inr b)) else 0 := by
  simp only [scalarNC, loopL_rhs, addR_rhs]
  split_ifs <;> ring

theorem scalarNC_act (eta mdot : K) (p : Point nc fc no fo nd K) (muC : Fin nc → K) (muO : Fin no → K)
    (q : Row nc no → K) (s : LocalSys (Row nc no) K) (d : Row nc no → K) (a : Row nc no) :
    act (scalarNC eta mdot p muC muO q s) d a = act s d a + if a = .inl p.near then
      scalarFlux eta mdot p muC muO (fun b => d (.inl b)) (fun b => d (.inr b)) else 0 := by
  simp only [scalarNC, loopL_act, addR_act]
  split_ifs with h
  · simp only [scalarFlux, ncAdv, gradFlux_eq, Side.val]
    have e1 : ∀ (n : ℕ) (v w : Fin n → K) (f : K), ∑ ic, v ic * f * w ic = f * ∑ ic, v ic * w ic := by
      intro n v w f; rw [Finset.mul_sum]; exact Finset.sum_congr rfl fun _ _ => by ring
    have e2 : ∀ (n : ℕ) (m f : K) (v w : Fin n → K),
        ∑ ic, m * v ic * f / 2 * w ic = m * f / 2 * ∑ ic, v ic * w ic := by
      intro n m f v w; rw [Finset.mul_sum]; exact Finset.sum_congr rfl fun _ _ => by ring
    simp only [neg_mul, Finset.sum_neg_distrib, e1, e2]
    ring
  · simp

theorem scalarDiffNC_eq (p : Point nc fc no fo nd K) (muC : Fin nc → K) (muO : Fin no → K)
    (q : Row nc no → K) (s : LocalSys (Row nc no) K) :
    scalarDiffNC p muC muO q s = scalarNC 0 0 p muC muO q s := by
  have : penalty p muC muO =
      1 / 2 * (p.cur.val muC * p.cur.invLen p.cN + p.opp.val muO * p.opp.invLen p.oN) := by
    rw [penalty]; ring
  simp [scalarDiffNC, scalarNC, scalarFlux, ncAdv, this]

theorem vofNC_rhs (eta vdot : K) (p : Point nc fc no fo nd K)
    (q : Row nc no → K) (s : LocalSys (Row nc no) K) (a : Row nc no) :
    (vofNC eta vdot p q s).rhs a = s.rhs a - if a = .inl p.near then
      ncAdv 1 vdot (p.cur.val fun b => q (.inl b)) (p.opp.val fun b => q (.inr b)) else 0 := by
  simp only [vofNC, loopL_rhs, addR_rhs, ncAdv, one_mul]
  split_ifs <;> ring

theorem vofNC_act (eta vdot : K) (p : Point nc fc no fo nd K)
    (q : Row nc no → K) (s : LocalSys (Row nc no) K) (d : Row nc no → K) (a : Row nc no) :
    act (vofNC eta vdot p q s) d a = act s d a + if a = .inl p.near then
      ncAdv eta vdot (p.cur.val fun b => d (.inl b)) (p.opp.val fun b => d (.inr b)) else 0 := by
  simp only [vofNC, loopL_act, addR_act]
  split_ifs with h
  · simp only [ncAdv, Side.val]
    have e1 : ∀ (n : ℕ) (v w : Fin n → K) (f : K), ∑ ic, v ic * f * w ic = f * ∑ ic, v ic * w ic := by
      intro n v w f; rw [Finset.mul_sum]; exact Finset.sum_congr rfl fun _ _ => by ring
    simp only [neg_mul, Finset.sum_neg_distrib, e1]
    ring
  · simp

/-! ### continuity -/

/-- The part of the mass flow rate that depends on the pressure, divided by the projection time scale. -/
def presFlux (w pstab : K) (p : Point nc fc no fo nd K) (rc ro : K) (dC : Fin nc → K)
    (dO : Fin no → K) : K :=
  (1 / 2 * (p.cur.gradFlux p.cN dC / rc - p.opp.gradFlux p.oN dO / ro) * pstab +
    w * (p.cur.val dC - p.opp.val dO)) * p.amag

theorem continuityNC_rhs (o : MdotOpts K) (p : Point nc fc no fo nd K) (c : FlowSide nc nd K)
    (f : FlowSide no nd K) (pr : Row nc no → K) (s : LocalSys (Row nc no) K) (a : Row nc no) :
    (continuityNC o p c f pr s).rhs a = s.rhs a - if a = .inl p.near then
      ncMdot o p c f (fun b => pr (.inl b)) (fun b => pr (.inr b)) / o.pts else 0 := by
  simp only [continuityNC, loopL_rhs, addR_rhs]
  split_ifs <;> ring

theorem cont_core {na nb fa fb : ℕ} (w pst am rc ro : K) (Na : Fin fa → K) (da : Fin fa → K) (Nb db : Fin fb → K)
    (la ea : Fin na → K) (lb eb : Fin nb → K) :
    (∑ i, Na i * (w * am) * da i) + (∑ i, 1 / 2 * la i * am / rc * pst * ea i) +
      (∑ i, -(Nb i * (w * am)) * db i) + (∑ i, -(1 / 2 * lb i * am / ro * pst) * eb i) =
    (1 / 2 * ((∑ i, la i * ea i) / rc - (∑ i, lb i * eb i) / ro) * pst +
      w * ((∑ i, Na i * da i) - ∑ i, Nb i * db i)) * am := by
  have e1 : ∀ (n : ℕ) (v w : Fin n → K) (f : K), ∑ ic, v ic * f * w ic = f * ∑ ic, v ic * w ic := by
    intro n v w f; rw [Finset.mul_sum]; exact Finset.sum_congr rfl fun _ _ => by ring
  have e2 : ∀ (n : ℕ) (r : K) (v w : Fin n → K), ∑ ic, 1 / 2 * v ic * am / r * pst * w ic =
      1 / 2 * am / r * pst * ∑ ic, v ic * w ic := by
    intro n r v w; rw [Finset.mul_sum]; exact Finset.sum_congr rfl fun _ _ => by ring
  simp only [neg_mul, Finset.sum_neg_distrib, e2]
  simp only [e1]
  ring

theorem continuityNC_act (o : MdotOpts K) (ho : o.pts ≠ 0) (p : Point nc fc no fo nd K) (c : FlowSide nc nd K)
    (f : FlowSide no nd K) (pr : Row nc no → K) (s : LocalSys (Row nc no) K) (d : Row nc no → K)
    (a : Row nc no) :
    act (continuityNC o p c f pr s) d a = act s d a + if a = .inl p.near then
      presFlux (1 / 2 * (p.cur.invLen p.cN + p.opp.invLen p.oN)) o.pstab p 1 1
        (fun b => d (.inl b)) (fun b => d (.inr b)) else 0 := by
  simp only [continuityNC, loopL_act, addR_act]
  split_ifs with h
  · have hw : o.pts * (1 / 2) * (p.cur.invLen p.cN + p.opp.invLen p.oN) * p.amag / o.pts =
        1 / 2 * (p.cur.invLen p.cN + p.opp.invLen p.oN) * p.amag := by field_simp
    rw [hw, add_assoc, add_assoc, add_assoc, presFlux, gradFlux_eq, gradFlux_eq, Side.val, Side.val]
    congr 1
    rw [← cont_core, ← add_assoc, ← add_assoc]
    simp only [div_one]
  · simp

theorem ncMdot_lin (o : MdotOpts K) (p : Point nc fc no fo nd K) (c : FlowSide nc nd K) (f : FlowSide no nd K)
    (pC dC : Fin nc → K) (pO dO : Fin no → K) :
    ncMdot o p c f (fun a => pC a + dC a) (fun a => pO a + dO a) = ncMdot o p c f pC pO +
      o.pts * presFlux (1 / 2 * (p.cur.invLen p.cN + p.opp.invLen p.oN)) o.pstab p 1 1 dC dO := by
  simp only [ncMdot, presFlux, gradFlux_grad, val_add, grad_add]
  have : ∀ (A B P D G : Fin nd → K) (Q E H : Fin nd → K),
      ∑ j, 1 / 2 * ((P j + D j - G j) * A j - (Q j + E j - H j) * B j) =
      (∑ j, 1 / 2 * ((P j - G j) * A j - (Q j - H j) * B j)) +
        1 / 2 * ((∑ j, D j * A j) - ∑ j, E j * B j) := by
    intro A B P D G Q E H
    rw [mul_sub, Finset.mul_sum, Finset.mul_sum, ← Finset.sum_sub_distrib, ← Finset.sum_add_distrib]
    exact Finset.sum_congr rfl fun _ _ => by ring
  rw [this]
  generalize (∑ j, p.cur.grad dC j * p.cN j) = X
  generalize (∑ j, p.opp.grad dO j * p.oN j) = Y
  ring

theorem continuityVofNC_rhs (o : MdotOpts K) (vo : VofOpts nd K) (p : Point nc fc no fo nd K)
    (c : FlowSide nc nd K) (f : FlowSide no nd K) (wc : VofSide nc K) (wo : VofSide no K)
    (pr : Row nc no → K) (s : LocalSys (Row nc no) K) (a : Row nc no) :
    (continuityVofNC o vo p c f wc wo pr s).rhs a = s.rhs a - if a = .inl p.near then
      ncVdot o vo p c f wc wo (fun b => pr (.inl b)) (fun b => pr (.inr b)) / o.pts else 0 := by
  simp only [continuityVofNC, loopL_rhs, addR_rhs]
  split_ifs <;> ring

theorem continuityVofNC_act (o : MdotOpts K) (ho : o.pts ≠ 0) (vo : VofOpts nd K)
    (p : Point nc fc no fo nd K) (c : FlowSide nc nd K) (f : FlowSide no nd K) (wc : VofSide nc K)
    (wo : VofSide no K) (pr : Row nc no → K) (s : LocalSys (Row nc no) K) (d : Row nc no → K)
    (a : Row nc no) :
    act (continuityVofNC o vo p c f wc wo pr s) d a = act s d a + if a = .inl p.near then
      presFlux (1 / 2 * (p.cur.invLen p.cN + p.opp.invLen p.oN) /
        (1 / 2 * (p.cur.val c.rho + p.opp.val f.rho))) o.pstab p (p.cur.val c.rho) (p.opp.val f.rho)
        (fun b => d (.inl b)) (fun b => d (.inr b)) else 0 := by
  simp only [continuityVofNC, loopL_act, addR_act]
  split_ifs with h
  · have hw : ∀ r : K, o.pts * (1 / 2) * (p.cur.invLen p.cN + p.opp.invLen p.oN) / r * p.amag / o.pts =
        1 / 2 * (p.cur.invLen p.cN + p.opp.invLen p.oN) / r * p.amag := by
      intro r
      rw [div_eq_iff ho]; ring
    rw [hw, add_assoc, add_assoc, add_assoc, presFlux, gradFlux_eq, gradFlux_eq]
    congr 1
    rw [val_def p.cur (fun b => d (Sum.inl b)), val_def p.opp (fun b => d (Sum.inr b))]
    rw [← cont_core, ← add_assoc, ← add_assoc]
  · simp

theorem ncVdot_lin (o : MdotOpts K) (vo : VofOpts nd K) (p : Point nc fc no fo nd K)
    (c : FlowSide nc nd K) (f : FlowSide no nd K) (wc : VofSide nc K) (wo : VofSide no K)
    (pC dC : Fin nc → K) (pO dO : Fin no → K) :
    ncVdot o vo p c f wc wo (fun a => pC a + dC a) (fun a => pO a + dO a) =
      ncVdot o vo p c f wc wo pC pO +
      o.pts * presFlux (1 / 2 * (p.cur.invLen p.cN + p.opp.invLen p.oN) /
        (1 / 2 * (p.cur.val c.rho + p.opp.val f.rho))) o.pstab p (p.cur.val c.rho) (p.opp.val f.rho)
        dC dO := by
  simp only [ncVdot, presFlux, gradFlux_grad, val_add, Side.vofStab, grad_add]
  generalize p.cur.val c.rho = rc
  generalize p.opp.val f.rho = ro
  generalize 1 / 2 * (rc + ro) = rb
  have : ∀ (A B P D X G : Fin nd → K) (Q E Y H : Fin nd → K) (T U : Fin nd → K),
      ∑ j, 1 / 2 * (((P j + D j - X j + T j) / rc - G j) * A j - ((Q j + E j - Y j + U j) / ro - H j) * B j) =
      (∑ j, 1 / 2 * (((P j - X j + T j) / rc - G j) * A j - ((Q j - Y j + U j) / ro - H j) * B j)) +
        1 / 2 * ((∑ j, D j * A j) / rc - (∑ j, E j * B j) / ro) := by
    intro A B P D X G Q E Y H T U
    rw [mul_sub, Finset.sum_div, Finset.sum_div, Finset.mul_sum, Finset.mul_sum, ← Finset.sum_sub_distrib,
      ← Finset.sum_add_distrib]
    exact Finset.sum_congr rfl fun _ _ => by ring
  rw [this]
  generalize (∑ j, p.cur.grad dC j * p.cN j) = X
  generalize (∑ j, p.opp.grad dO j * p.oN j) = Y
  ring

/-! ### vector systems: one row per component -/

theorem stress_add {nn nf : ℕ} (s : Side nn nf nd K) (inc mu : K) (n : Fin nd → K)
    (u d : Fin nn → Fin nd → K) (i : Fin nd) :
    s.stress inc mu n (fun a j => u a j + d a j) i = s.stress inc mu n u i + s.stress inc mu n d i := by
  simp only [Side.stress, ← Finset.sum_add_distrib]
  exact Finset.sum_congr rfl fun _ _ => Finset.sum_congr rfl fun _ _ => by ring

theorem momFlux_add (eta inc mdot : K) (p : Point nc fc no fo nd K) (muC : Fin nc → K) (muO : Fin no → K)
    (uC dC : Fin nc → Fin nd → K) (uO dO : Fin no → Fin nd → K) (i : Fin nd) :
    momFlux eta inc mdot p muC muO (fun a j => uC a j + dC a j) (fun a j => uO a j + dO a j) i =
      momFlux eta inc mdot p muC muO uC uO i + momFlux eta inc mdot p muC muO dC dO i := by
  simp only [momFlux, stress_add, val_add, ncAdv]
  ring

/-- A loop over the components, each of which adds to its own row of the right-hand side. -/
theorem comp_rhs {ι : Type*} [DecidableEq ι] (r : ι) (body : Fin nd → LocalSys (ι × Fin nd) K →
      LocalSys (ι × Fin nd) K) (F : Fin nd → K)
    (h : ∀ i s a, (body i s).rhs a = s.rhs a + if a = (r, i) then F i else 0)
    (s : LocalSys (ι × Fin nd) K) (a : ι × Fin nd) :
    (loop nd body s).rhs a = s.rhs a + if a.1 = r then F a.2 else 0 := by
  rw [loop_rhs (δ := fun i => if a = (r, i) then F i else 0) (h := fun i s => h i s a)]
  obtain ⟨x, k⟩ := a
  congr 1
  by_cases hx : x = r
  · simp [hx]
  · simp [hx]

theorem comp_act {ι : Type*} [DecidableEq ι] [Fintype ι] (r : ι) (body : Fin nd → LocalSys (ι × Fin nd) K →
      LocalSys (ι × Fin nd) K) (d : ι × Fin nd → K) (F : Fin nd → K)
    (h : ∀ i s a, act (body i s) d a = act s d a + if a = (r, i) then F i else 0)
    (s : LocalSys (ι × Fin nd) K) (a : ι × Fin nd) :
    act (loop nd body s) d a = act s d a + if a.1 = r then F a.2 else 0 := by
  rw [loop_act (δ := fun i => if a = (r, i) then F i else 0) (h := fun i s => h i s a)]
  obtain ⟨x, k⟩ := a
  congr 1
  by_cases hx : x = r
  · simp [hx]
  · simp [hx]

/-- The double loop of the viscous sensitivities. -/
theorem viscLoop_rhs {ι : Type*} [DecidableEq ι] {n : ℕ} (r : ι × Fin nd) (c : Fin n → ι) (i : Fin nd)
    (v w : Fin n → Fin nd → K) (s : LocalSys (ι × Fin nd) K) (a : ι × Fin nd) :
    (loop n (fun ic s => loop nd (fun j s => addL (addL s r (c ic, i) (v ic j)) r (c ic, j) (w ic j)) s)
      s).rhs a = s.rhs a := by
  rw [loop_rhs (δ := fun _ => 0)]
  · simp
  · intro k s
    rw [loop_rhs (δ := fun _ => 0) (h := fun j s => by simp)]; simp

theorem viscLoop_act {ι : Type*} [DecidableEq ι] [Fintype ι] {n : ℕ} (r : ι × Fin nd) (c : Fin n → ι) (i : Fin nd)
    (v w : Fin n → Fin nd → K) (s : LocalSys (ι × Fin nd) K) (d : ι × Fin nd → K) (a : ι × Fin nd) :
    act (loop n (fun ic s => loop nd (fun j s => addL (addL s r (c ic, i) (v ic j)) r (c ic, j) (w ic j)) s)
      s) d a = act s d a + if a = r then ∑ ic, ∑ j, (v ic j * d (c ic, i) + w ic j * d (c ic, j)) else 0 := by
  rw [loop_act (δ := fun ic => if a = r then ∑ j, (v ic j * d (c ic, i) + w ic j * d (c ic, j)) else 0), ite_sum]
  intro k s
  rw [loop_act (δ := fun j => if a = r then v k j * d (c k, i) + w k j * d (c k, j) else 0), ite_sum]
  intro j s
  simp only [addL_act]
  split_ifs <;> ring

theorem momentumNC_rhs (eta inc mdot : K) (p : Point nc fc no fo nd K) (muC : Fin nc → K)
    (muO : Fin no → K) (u : Row nc no × Fin nd → K) (s : LocalSys (Row nc no × Fin nd) K)
    (a : Row nc no × Fin nd) :
    (momentumNC eta inc mdot p muC muO u s).rhs a = s.rhs a + if a.1 = .inl p.near then
      -momFlux eta inc mdot p muC muO (fun b i => u (.inl b, i)) (fun b i => u (.inr b, i)) a.2 else 0 := by
  rw [momentumNC]
  apply comp_rhs (F := fun i => -momFlux eta inc mdot p muC muO (fun b i => u (.inl b, i))
    (fun b i => u (.inr b, i)) i)
  intro i s a
  simp only [viscLoop_rhs, loopL_rhs, addR_rhs]

theorem momentumNC_act (eta inc mdot : K) (p : Point nc fc no fo nd K) (muC : Fin nc → K)
    (muO : Fin no → K) (u : Row nc no × Fin nd → K) (s : LocalSys (Row nc no × Fin nd) K)
    (d : Row nc no × Fin nd → K) (a : Row nc no × Fin nd) :
    act (momentumNC eta inc mdot p muC muO u s) d a = act s d a + if a.1 = .inl p.near then
      momFlux eta 0 mdot p muC muO (fun b i => d (.inl b, i)) (fun b i => d (.inr b, i)) a.2 else 0 := by
  rw [momentumNC]
  apply comp_act (F := fun i => momFlux eta 0 mdot p muC muO (fun b i => d (.inl b, i))
    (fun b i => d (.inr b, i)) i)
  intro i s a
  simp only [viscLoop_act, loopL_act, addR_act]
  split_ifs with h
  · simp only [momFlux, ncAdv, Side.val, Side.stress]
    have e1 : ∀ (n : ℕ) (v w : Fin n → K) (f : K), ∑ ic, v ic * f * w ic = f * ∑ ic, v ic * w ic := by
      intro n v w f; rw [Finset.mul_sum]; exact Finset.sum_congr rfl fun _ _ => by ring
    have e2 : ∀ (n : ℕ) (m : K) (g : Fin n → Fin nd → K) (N : Fin nd → K) (w : Fin n → Fin nd → K),
        ∑ ic, ∑ j, (-m * g ic j * N j * p.amag / 2 * w ic i + -m * g ic i * N j * p.amag / 2 * w ic j) =
        (∑ ic, ∑ j, ((-m * g ic j * N j * w ic i + 2 / 3 * m * g ic j * w ic j * N j * 0) +
          -m * g ic i * N j * w ic j)) * p.amag / 2 := by
      intro n m g N w
      rw [Finset.sum_mul, Finset.sum_div]
      refine Finset.sum_congr rfl fun _ _ => ?_
      rw [Finset.sum_mul, Finset.sum_div]
      exact Finset.sum_congr rfl fun _ _ => by ring
    have e3 : ∀ (n : ℕ) (m : K) (g : Fin n → Fin nd → K) (N : Fin nd → K) (w : Fin n → Fin nd → K),
        ∑ ic, ∑ j, (-(-m * g ic j * N j * p.amag / 2) * w ic i + -(-m * g ic i * N j * p.amag / 2) * w ic j) =
        -((∑ ic, ∑ j, ((-m * g ic j * N j * w ic i + 2 / 3 * m * g ic j * w ic j * N j * 0) +
          -m * g ic i * N j * w ic j)) * p.amag / 2) := by
      intro n m g N w
      rw [← e2 n m g N w, ← Finset.sum_neg_distrib]
      refine Finset.sum_congr rfl fun _ _ => ?_
      rw [← Finset.sum_neg_distrib]
      exact Finset.sum_congr rfl fun _ _ => by ring
    rw [e2 nc _ p.cur.dndx p.cN (fun ic j => d (.inl ic, j)), e3 no _ p.opp.dndx p.oN (fun ic j => d (.inr ic, j))]
    have e4 : ∀ (f : K), ∑ ic, -(p.opp.N ic * f) * d (.inr (p.opp.ord ic), i) =
        -(f * ∑ ic, p.opp.N ic * d (.inr (p.opp.ord ic), i)) := by
      intro f; rw [← e1, ← Finset.sum_neg_distrib]; exact Finset.sum_congr rfl fun _ _ => by ring
    rw [e4, e1]
    generalize (∑ ic, ∑ j, ((-(∑ ic, p.cur.N ic * muC (p.cur.ord ic)) * p.cur.dndx ic j * p.cN j * d (.inl ic, i) +
      2 / 3 * (∑ ic, p.cur.N ic * muC (p.cur.ord ic)) * p.cur.dndx ic j * d (.inl ic, j) * p.cN j * 0) +
      -(∑ ic, p.cur.N ic * muC (p.cur.ord ic)) * p.cur.dndx ic i * p.cN j * d (.inl ic, j))) = X
    generalize (∑ ic, ∑ j, ((-(∑ ic, p.opp.N ic * muO (p.opp.ord ic)) * p.opp.dndx ic j * p.oN j * d (.inr ic, i) +
      2 / 3 * (∑ ic, p.opp.N ic * muO (p.opp.ord ic)) * p.opp.dndx ic j * d (.inr ic, j) * p.oN j * 0) +
      -(∑ ic, p.opp.N ic * muO (p.opp.ord ic)) * p.opp.dndx ic i * p.oN j * d (.inr ic, j))) = Y
    ring
  · simp

theorem pngNC_rhs (fac : K) (p : Point nc fc no fo nd K) (qC : Fin nc → K) (qO : Fin no → K)
    (G : Row nc no × Fin nd → K) (s : LocalSys (Row nc no × Fin nd) K) (a : Row nc no × Fin nd) :
    (pngNC fac p qC qO G s).rhs a = s.rhs a + if a.1 = .inl p.near then
      (1 / 2 * (p.cur.val qC + p.opp.val qO) * p.area a.2 +
        1 / 2 * (1 / p.cur.invLen p.cN + 1 / p.opp.invLen p.oN) * fac *
        ((p.cur.val fun b => G (.inl b, a.2)) - p.opp.val fun b => G (.inr b, a.2)) * p.amag) else 0 := by
  rw [pngNC]
  apply comp_rhs (F := fun i => (1 / 2 * (p.cur.val qC + p.opp.val qO) * p.area i +
        1 / 2 * (1 / p.cur.invLen p.cN + 1 / p.opp.invLen p.oN) * fac *
        ((p.cur.val fun b => G (.inl b, i)) - p.opp.val fun b => G (.inr b, i)) * p.amag))
  intro i s a
  simp only [loopL_rhs, addR_rhs]

theorem pngNC_act (fac : K) (p : Point nc fc no fo nd K) (qC : Fin nc → K) (qO : Fin no → K)
    (G : Row nc no × Fin nd → K) (s : LocalSys (Row nc no × Fin nd) K) (d : Row nc no × Fin nd → K)
    (a : Row nc no × Fin nd) :
    act (pngNC fac p qC qO G s) d a = act s d a + if a.1 = .inl p.near then
      -(1 / 2 * (1 / p.cur.invLen p.cN + 1 / p.opp.invLen p.oN) * fac *
        ((p.cur.val fun b => d (.inl b, a.2)) - p.opp.val fun b => d (.inr b, a.2)) * p.amag) else 0 := by
  rw [pngNC]
  apply comp_act (F := fun i => -(1 / 2 * (1 / p.cur.invLen p.cN + 1 / p.opp.invLen p.oN) * fac *
        ((p.cur.val fun b => d (.inl b, i)) - p.opp.val fun b => d (.inr b, i)) * p.amag))
  intro i s a
  simp only [loopL_act, addR_act]
  split_ifs with h
  · have e1 : ∀ (n : ℕ) (v w : Fin n → K) (f : K), ∑ ic, v ic * f * w ic = f * ∑ ic, v ic * w ic := by
      intro n v w f; rw [Finset.mul_sum]; exact Finset.sum_congr rfl fun _ _ => by ring
    simp only [neg_mul, Finset.sum_neg_distrib, e1, Side.val]
    ring
  · simp

end Nalu.NC
