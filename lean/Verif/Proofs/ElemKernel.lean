import Verif.Model.ElemKernel
import Mathlib.Tactic.Ring
import Mathlib.Tactic.Linarith
import Mathlib.Tactic.FieldSimp
import Mathlib.Algebra.BigOperators.Ring.Finset

/-!
# Closed forms of the element kernels

Every kernel only adds to `lhs` and `rhs`; these lemmas give the total it adds, seen through four
observations: an entry of `rhs`, an entry of `lhs`, the action of a row of `lhs` on a vector, and a
column sum of `lhs`.
-/

set_option linter.unusedSectionVars false

namespace Nalu.Kernel
open Nalu.Edge

variable {K : Type*} [Field K] [LinearOrder K] [IsStrictOrderedRing K]
variable {nn nip nf nd : ℕ}

theorem foldl_meas {S E : Type*} (φ : S → K) (body : E → S → S) (δ : E → K)
    (h : ∀ k s, φ (body k s) = φ s + δ k) (l : List E) (s : S) :
    φ (l.foldl (fun s k => body k s) s) = φ s + (l.map δ).sum := by
  induction l generalizing s with
  | nil => simp
  | cons x l ih => simp only [List.foldl_cons, List.map_cons, List.sum_cons]; rw [ih, h]; ring

theorem loop_meas {S : Type*} (φ : S → K) {n : ℕ} (body : Fin n → S → S) (δ : Fin n → K)
    (h : ∀ k s, φ (body k s) = φ s + δ k) (s : S) :
    φ (loop n body s) = φ s + ∑ k, δ k := by
  rw [loop, foldl_meas φ body δ h, Fin.sum_univ_def]

/-- The action of row `a` of the local matrix on a vector. -/
def act {ι : Type*} [Fintype ι] (s : LocalSys ι K) (d : ι → K) (a : ι) : K := ∑ b, s.lhs a b * d b

section loops
variable {ι : Type*} {n : ℕ} (body : Fin n → LocalSys ι K → LocalSys ι K) (δ : Fin n → K)
  (s : LocalSys ι K)
theorem loop_rhs (a : ι) (h : ∀ k s, (body k s).rhs a = s.rhs a + δ k) :
    (loop n body s).rhs a = s.rhs a + ∑ k, δ k := loop_meas (fun s => s.rhs a) body δ h s
theorem loop_lhs (a b : ι) (h : ∀ k s, (body k s).lhs a b = s.lhs a b + δ k) :
    (loop n body s).lhs a b = s.lhs a b + ∑ k, δ k := loop_meas (fun s => s.lhs a b) body δ h s
theorem loop_act [Fintype ι] (d : ι → K) (a : ι) (h : ∀ k s, act (body k s) d a = act s d a + δ k) :
    act (loop n body s) d a = act s d a + ∑ k, δ k := loop_meas (fun s => act s d a) body δ h s
end loops

section upd
variable {ι : Type*} [DecidableEq ι] (s : LocalSys ι K) (r c a b : ι) (v : K)

@[simp] theorem addL_rhs : (addL s r c v).rhs a = s.rhs a := rfl
@[simp] theorem addR_lhs : (addR s r v).lhs a b = s.lhs a b := rfl
@[simp] theorem addR_rhs : (addR s r v).rhs a = s.rhs a + if a = r then v else 0 := by
  by_cases h : a = r <;> simp [addR, h]
@[simp] theorem addL_lhs : (addL s r c v).lhs a b = s.lhs a b + if a = r ∧ b = c then v else 0 := by
  by_cases h : a = r ∧ b = c
  · simp [addL, h]
  · simp [addL, h]
variable [Fintype ι] (d : ι → K)
@[simp] theorem addR_act : act (addR s r v) d a = act s d a := rfl
@[simp] theorem addL_act : act (addL s r c v) d a = act s d a + if a = r then v * d c else 0 := by
  simp only [act, addL_lhs, add_mul, Finset.sum_add_distrib, ite_mul, zero_mul]
  congr 1
  by_cases h : a = r
  · simp [h]
  · simp [h]
end upd

theorem ite_sum {n : ℕ} (p : Prop) [Decidable p] (f : Fin n → K) :
    (∑ k, if p then f k else 0) = if p then ∑ k, f k else 0 := by
  by_cases h : p <;> simp [h]

/-- A flux scattered with one sign to the left node and the other to the right node. -/
def lrs {ι : Type*} [DecidableEq ι] (a il ir : ι) (v : K) : K :=
  (if a = il then v else 0) + if a = ir then -v else 0

theorem lrs_add {ι : Type*} [DecidableEq ι] (a il ir : ι) (v w : K) :
    lrs a il ir (v + w) = lrs a il ir v + lrs a il ir w := by
  simp only [lrs]; split_ifs <;> ring
theorem lrs_sub {ι : Type*} [DecidableEq ι] (a il ir : ι) (v w : K) :
    lrs a il ir (v - w) = lrs a il ir v - lrs a il ir w := by
  simp only [lrs]; split_ifs <;> ring
theorem lrs_neg {ι : Type*} [DecidableEq ι] (a il ir : ι) (v : K) :
    lrs a il ir (-v) = -lrs a il ir v := by
  simp only [lrs]; split_ifs <;> ring
theorem lrs_sum {ι E : Type*} [DecidableEq ι] (a il ir : ι) (t : Finset E) (f : E → K) :
    ∑ k ∈ t, lrs a il ir (f k) = lrs a il ir (∑ k ∈ t, f k) := by
  classical
  induction t using Finset.induction_on with
  | empty => simp [lrs]
  | insert x t hx ih => rw [Finset.sum_insert hx, Finset.sum_insert hx, ih, lrs_add]

theorem lrs_smul {ι : Type*} [DecidableEq ι] (a il ir : ι) (v c : K) :
    lrs a il ir (v * c) = lrs a il ir v * c := by
  simp only [lrs]; split_ifs <;> ring

/-- What is scattered cancels in the sum over the rows. -/
theorem sum_lrs {ι : Type*} [DecidableEq ι] [Fintype ι] (il ir : ι) (v : K) :
    ∑ a, lrs a il ir v = 0 := by
  simp [lrs, Finset.sum_add_distrib]

/-! ## Scalar advection-diffusion -/

/-- matrix row added per ip by `scalarAdvDiff` -/
def advDiffRow (e : Scs nn nip nd K) (mdot : Fin nip → K) (mu : Fin nn → K) (ip : Fin nip)
    (ic : Fin nn) : K :=
  e.adv ip ic * mdot ip + diffFac (interp (e.shape ip) mu) (e.dndx ip ic) (e.area ip)

theorem scalarAdvDiff_rhs (e : Scs nn nip nd K) (mdot : Fin nip → K) (mu q : Fin nn → K)
    (s : LocalSys (Fin nn) K) (a : Fin nn) :
    (scalarAdvDiff e mdot mu q s).rhs a =
      s.rhs a - ∑ ip, lrs a (e.il ip) (e.ir ip) (∑ ic, advDiffRow e mdot mu ip ic * q ic) := by
  rw [scalarAdvDiff, loop_rhs (a := a) (δ := fun ip => - lrs a (e.il ip) (e.ir ip)
    (∑ ic, advDiffRow e mdot mu ip ic * q ic))]
  · simp [Finset.sum_neg_distrib, sub_eq_add_neg]
  · intro ip s
    simp only [addR_rhs]
    rw [loop_rhs (a := a) (δ := fun _ => 0) (h := by intro k s; simp)]
    simp only [advDiffRow, add_mul, Finset.sum_add_distrib, lrs]
    split_ifs <;> simp <;> ring

theorem scalarAdvDiff_lhs (e : Scs nn nip nd K) (mdot : Fin nip → K) (mu q : Fin nn → K)
    (s : LocalSys (Fin nn) K) (a b : Fin nn) :
    (scalarAdvDiff e mdot mu q s).lhs a b =
      s.lhs a b + ∑ ip, lrs a (e.il ip) (e.ir ip) (advDiffRow e mdot mu ip b) := by
  rw [scalarAdvDiff, loop_lhs (a := a) (b := b)]
  intro ip s
  simp only [addR_lhs]
  rw [loop_lhs (a := a) (b := b) (δ := fun ic =>
    if b = ic then lrs a (e.il ip) (e.ir ip) (advDiffRow e mdot mu ip ic) else 0)]
  · simp
  · intro ic s
    simp only [addL_lhs, advDiffRow, lrs]
    by_cases hb : b = ic <;> simp [hb]; ring

theorem scalarDiff_eq (e : Scs nn nip nd K) (mu q : Fin nn → K) (s : LocalSys (Fin nn) K) :
    scalarDiff e mu q s = scalarAdvDiff e (fun _ => 0) mu q s := by
  simp [scalarDiff, scalarAdvDiff]

/-! ## Upwind scalar kernel -/

/-- advective flux of the upwind kernel at one integration point -/
def upwAdv (o : Opts K) (e : Scs nn nip nd K) (mdot : Fin nip → K) (v : UpwNodes nn nd K)
    (q : Fin nn → K) (G : Fin nn → Fin nd → K) (ip : Fin nip) : K :=
  let ex := extrapolate o (coordIp (e.adv ip) v.x) (v.x (e.il ip)) (v.x (e.ir ip)) (G (e.il ip))
    (G (e.ir ip)) (q (e.il ip)) (q (e.ir ip))
  upwFlux o (mdot ip) (pecFac o v (e.il ip) (e.ir ip)) ex.1 ex.2 (interp (e.adv ip) q)

/-- row of the upwind kernel at one integration point -/
def upwRow (o : Opts K) (e : Scs nn nip nd K) (mdot : Fin nip → K) (v : UpwNodes nn nd K)
    (ip : Fin nip) (ic : Fin nn) : K :=
  let pec := pecFac o v (e.il ip) (e.ir ip)
  (if ic = e.il ip then alhsfacL o (mdot ip) pec else 0) +
    (if ic = e.ir ip then alhsfacR o (mdot ip) pec else 0) +
    e.adv ip ic * cenFac o (mdot ip) pec +
    diffFac (interp (e.shape ip) v.mu) (e.dndx ip ic) (e.area ip)

theorem scalarUpw_rhs (o : Opts K) (e : Scs nn nip nd K) (mdot : Fin nip → K) (v : UpwNodes nn nd K)
    (q : Fin nn → K) (G : Fin nn → Fin nd → K) (s : LocalSys (Fin nn) K) (a : Fin nn) :
    (scalarUpw o e mdot v q G s).rhs a =
      s.rhs a - ∑ ip, lrs a (e.il ip) (e.ir ip) (upwAdv o e mdot v q G ip +
        ∑ ic, diffFac (interp (e.shape ip) v.mu) (e.dndx ip ic) (e.area ip) * q ic) := by
  rw [scalarUpw, loop_rhs (a := a) (δ := fun ip => - lrs a (e.il ip) (e.ir ip)
    (upwAdv o e mdot v q G ip +
        ∑ ic, diffFac (interp (e.shape ip) v.mu) (e.dndx ip ic) (e.area ip) * q ic))]
  · simp [Finset.sum_neg_distrib, sub_eq_add_neg]
  · intro ip s
    simp only [addR_rhs]
    rw [loop_rhs (a := a) (δ := fun _ => 0) (h := by intro k s; simp)]
    simp only [addL_rhs, addR_rhs, upwAdv, lrs]
    split_ifs <;> simp <;> ring

theorem upw_entry {ι : Type*} [DecidableEq ι] (a b il ir : ι) (x fL fR : K) :
    (((x + if a = il ∧ b = il then fL else 0) + if a = ir ∧ b = il then -fL else 0) +
      if a = ir ∧ b = ir then -fR else 0) + (if a = il ∧ b = ir then fR else 0) =
    x + lrs a il ir (if b = il then fL else 0) + lrs a il ir (if b = ir then fR else 0) := by
  simp only [lrs]
  have key : ∀ (A B C D : Prop) [Decidable A] [Decidable B] [Decidable C] [Decidable D],
      (((x + if A ∧ C then fL else 0) + if B ∧ C then -fL else 0) +
        if B ∧ D then -fR else 0) + (if A ∧ D then fR else 0) =
      x + ((if A then if C then fL else 0 else 0) + if B then -(if C then fL else 0) else 0) +
        ((if A then if D then fR else 0 else 0) + if B then -(if D then fR else 0) else 0) := by
    intro A B C D _ _ _ _
    by_cases A <;> by_cases B <;> by_cases C <;> by_cases D <;> simp [*]
  exact key _ _ _ _

theorem scalarUpw_lhs (o : Opts K) (e : Scs nn nip nd K) (mdot : Fin nip → K) (v : UpwNodes nn nd K)
    (q : Fin nn → K) (G : Fin nn → Fin nd → K) (s : LocalSys (Fin nn) K) (a b : Fin nn) :
    (scalarUpw o e mdot v q G s).lhs a b =
      s.lhs a b + ∑ ip, lrs a (e.il ip) (e.ir ip) (upwRow o e mdot v ip b) := by
  rw [scalarUpw, loop_lhs (a := a) (b := b)]
  intro ip s
  simp only [addR_lhs]
  rw [loop_lhs (a := a) (b := b) (δ := fun ic =>
    if b = ic then lrs a (e.il ip) (e.ir ip) (e.adv ip ic * cenFac o (mdot ip)
      (pecFac o v (e.il ip) (e.ir ip)) +
      diffFac (interp (e.shape ip) v.mu) (e.dndx ip ic) (e.area ip)) else 0)]
  · simp only [addL_lhs, addR_lhs, upwRow, lrs_add, Finset.sum_ite_eq, Finset.mem_univ, if_true]
    rw [upw_entry]; ring
  · intro ic s
    simp only [addL_lhs, lrs]
    by_cases hb : b = ic
    · simp only [hb, and_true, if_true]; split_ifs <;> ring
    · simp [hb]

/-! ## Control-volume kernels -/

theorem scalarMass_rhs (b : Bdf K) (e : Scv nn nip K) (rho q : Levels nn K)
    (s : LocalSys (Fin nn) K) (a : Fin nn) :
    (scalarMass b e rho q s).rhs a = s.rhs a + ∑ ip, if a = e.node ip then
      -(b.g1 * interp (e.shape ip) rho.np1 * interp (e.shape ip) q.np1 +
        b.g2 * interp (e.shape ip) rho.n * interp (e.shape ip) q.n +
        b.g3 * interp (e.shape ip) rho.nm1 * interp (e.shape ip) q.nm1) * e.vol ip / b.dt else 0 := by
  rw [scalarMass, loop_rhs (a := a)]
  intro ip s
  rw [loop_rhs (a := a) (δ := fun _ => 0) (h := by intro k s; simp)]
  simp

theorem scalarMass_lhs (b : Bdf K) (e : Scv nn nip K) (rho q : Levels nn K)
    (s : LocalSys (Fin nn) K) (a c : Fin nn) :
    (scalarMass b e rho q s).lhs a c = s.lhs a c + ∑ ip, if a = e.node ip then
      e.shape ip c * b.g1 * interp (e.shape ip) rho.np1 * e.vol ip / b.dt else 0 := by
  rw [scalarMass, loop_lhs (a := a) (b := c)]
  intro ip s
  rw [loop_lhs (a := a) (b := c) (δ := fun ic => if c = ic then if a = e.node ip then
      e.shape ip ic * b.g1 * interp (e.shape ip) rho.np1 * e.vol ip / b.dt else 0 else 0)]
  · simp
  · intro ic s
    by_cases h : c = ic <;> simp [h]

theorem scalarGcl_rhs (e : Scv nn nip K) (rho divV q : Fin nn → K) (s : LocalSys (Fin nn) K)
    (a : Fin nn) :
    (scalarGcl e rho divV q s).rhs a = s.rhs a - ∑ ip, if a = e.node ip then
      interp (e.shape ip) rho * interp (e.shape ip) q * interp (e.shape ip) divV * e.vol ip else 0 := by
  rw [scalarGcl, loop_rhs (a := a) (δ := fun ip => -(if a = e.node ip then
      interp (e.shape ip) rho * interp (e.shape ip) q * interp (e.shape ip) divV * e.vol ip else 0))]
  · simp [Finset.sum_neg_distrib, sub_eq_add_neg]
  intro ip s
  rw [loop_rhs (a := a) (δ := fun _ => 0) (h := by intro k s; simp)]
  by_cases h : a = e.node ip <;> simp [h]

theorem scalarGcl_lhs (e : Scv nn nip K) (rho divV q : Fin nn → K) (s : LocalSys (Fin nn) K)
    (a c : Fin nn) :
    (scalarGcl e rho divV q s).lhs a c = s.lhs a c + ∑ ip, if a = e.node ip then
      e.shape ip c * (interp (e.shape ip) rho * interp (e.shape ip) divV * e.vol ip) else 0 := by
  rw [scalarGcl, loop_lhs (a := a) (b := c)]
  intro ip s
  rw [loop_lhs (a := a) (b := c) (δ := fun ic => if c = ic then if a = e.node ip then
      e.shape ip ic * (interp (e.shape ip) rho * interp (e.shape ip) divV * e.vol ip) else 0 else 0)]
  · simp
  · intro ic s
    by_cases h : c = ic <;> simp [h]

/-! ## Continuity -/

theorem continuityAdv_rhs (pts : K) (e : Scs nn nip nd K) (dl : Fin nip → Fin nn → Fin nd → K)
    (v : FlowNodes nn nd K) (s : LocalSys (Fin nn) K) (a : Fin nn) :
    (continuityAdv pts e dl v s).rhs a = s.rhs a - ∑ ip, lrs a (e.il ip) (e.ir ip)
      (scsMdot pts (e.shape ip) (e.dndx ip) (e.area ip) v / pts) := by
  rw [continuityAdv, loop_rhs (a := a) (δ := fun ip => - lrs a (e.il ip) (e.ir ip)
      (scsMdot pts (e.shape ip) (e.dndx ip) (e.area ip) v / pts))]
  · simp [Finset.sum_neg_distrib, sub_eq_add_neg]
  · intro ip s
    simp only [addR_rhs]
    rw [loop_rhs (a := a) (δ := fun _ => 0) (h := by intro k s; simp)]
    simp only [lrs]
    split_ifs <;> simp

theorem continuityAdv_lhs (pts : K) (e : Scs nn nip nd K) (dl : Fin nip → Fin nn → Fin nd → K)
    (v : FlowNodes nn nd K) (s : LocalSys (Fin nn) K) (a b : Fin nn) :
    (continuityAdv pts e dl v s).lhs a b = s.lhs a b + ∑ ip, lrs a (e.il ip) (e.ir ip)
      (∑ j, -(dl ip b j) * e.area ip j) := by
  rw [continuityAdv, loop_lhs (a := a) (b := b)]
  intro ip s
  simp only [addR_lhs]
  rw [loop_lhs (a := a) (b := b) (δ := fun ic =>
    if b = ic then lrs a (e.il ip) (e.ir ip) (∑ j, -(dl ip ic j) * e.area ip j) else 0)]
  · simp
  · intro ic s
    simp only [addL_lhs, lrs]
    by_cases hb : b = ic <;> simp [hb]; ring

theorem continuityMass_rhs (b : Bdf K) (e : Scv nn nip K) (rho : Levels nn K)
    (s : LocalSys (Fin nn) K) (a : Fin nn) :
    (continuityMass b e rho s).rhs a = s.rhs a + ∑ ip, if a = e.node ip then
      -(b.g1 * interp (e.shape ip) rho.np1 + b.g2 * interp (e.shape ip) rho.n +
        b.g3 * interp (e.shape ip) rho.nm1) * e.vol ip / b.dt / (b.dt / b.g1) else 0 := by
  rw [continuityMass, loop_rhs (a := a)]
  intro ip s; simp

theorem continuityMass_lhs (b : Bdf K) (e : Scv nn nip K) (rho : Levels nn K)
    (s : LocalSys (Fin nn) K) (a c : Fin nn) :
    (continuityMass b e rho s).lhs a c = s.lhs a c := by
  rw [continuityMass, loop_lhs (a := a) (b := c) (δ := fun _ => 0)] <;> simp

theorem continuityGcl_rhs (pts densFac : K) (e : Scv nn nip K) (rho divV : Fin nn → K)
    (s : LocalSys (Fin nn) K) (a : Fin nn) :
    (continuityGcl pts densFac e rho divV s).rhs a = s.rhs a + ∑ ip, if a = e.node ip then
      -((densFac * interp (e.shape ip) rho + (1 - densFac)) * interp (e.shape ip) divV * e.vol ip / pts)
      else 0 := by
  rw [continuityGcl, loop_rhs (a := a)]
  intro ip s; simp

theorem continuityOpenElem_rhs (pts pen : K) (f : Face nn nf nip nd K)
    (dl : Fin nip → Fin nn → Fin nd → K) (v : FlowNodes nn nd K) (pbc : Fin nn → K)
    (dynP : Fin nip → K) (s : LocalSys (Fin nn) K) (a : Fin nn) :
    (continuityOpenElem pts pen f dl v pbc dynP s).rhs a = s.rhs a - ∑ ip, if a = f.near ip then
      openMdotIp pts pen f v pbc dynP ip / pts else 0 := by
  rw [continuityOpenElem, loop_rhs (a := a) (δ := fun ip => -(if a = f.near ip then
      openMdotIp pts pen f v pbc dynP ip / pts else 0))]
  · simp [Finset.sum_neg_distrib, sub_eq_add_neg]
  intro ip s
  simp only [addR_rhs]
  rw [loop_rhs (a := a) (δ := fun _ => 0) (h := by intro k s; simp),
    loop_rhs (a := a) (δ := fun _ => 0) (h := by intro k s; simp)]
  by_cases h : a = f.near ip <;> simp [h]

theorem continuityOpenElem_act (pts pen : K) (f : Face nn nf nip nd K)
    (dl : Fin nip → Fin nn → Fin nd → K) (v : FlowNodes nn nd K) (pbc : Fin nn → K)
    (dynP : Fin nip → K) (s : LocalSys (Fin nn) K) (d : Fin nn → K) (a : Fin nn) :
    act (continuityOpenElem pts pen f dl v pbc dynP s) d a = act s d a + ∑ ip, if a = f.near ip then
      (∑ ic, f.shape ip ic * pen * invLength f ip * f.aMag ip * d (f.node ic)) +
        ∑ ic, (∑ j, -(dl ip ic j) * f.area ip j) * d ic else 0 := by
  rw [continuityOpenElem, loop_act (a := a) (d := d)]
  intro ip s
  simp only [addR_act]
  rw [loop_act (a := a) (d := d) (δ := fun ic => if a = f.near ip then
      (∑ j, -(dl ip ic j) * f.area ip j) * d ic else 0) (h := by intro k s; simp),
    loop_act (a := a) (d := d) (δ := fun ic => if a = f.near ip then
      f.shape ip ic * pen * invLength f ip * f.aMag ip * d (f.node ic) else 0)
      (h := by intro k s; simp)]
  by_cases h : a = f.near ip <;> simp [h]; ring

theorem continuityInflowElem_rhs (pts : K) (f : Face nn nf nip nd K) (rho : Fin nn → K)
    (ubc : Fin nn → Fin nd → K) (s : LocalSys (Fin nf) K) (a : Fin nf) :
    (continuityInflowElem pts f rho ubc s).rhs a = s.rhs a - ∑ ip, if a = f.loc ip then
      inflowMdotIp f rho ubc ip / pts else 0 := by
  rw [continuityInflowElem, loop_rhs (a := a) (δ := fun ip => -(if a = f.loc ip then
      inflowMdotIp f rho ubc ip / pts else 0))]
  · simp [Finset.sum_neg_distrib, sub_eq_add_neg]
  intro ip s
  by_cases h : a = f.loc ip <;> simp [h]

/-! ## Momentum -/

theorem lrs_pair (n il ir : Fin nn) (k i : Fin nd) (v : K) :
    lrs (n, k) (il, i) (ir, i) v = if k = i then lrs n il ir v else 0 := by
  by_cases h : k = i
  · simp [lrs, h]
  · simp [lrs, h]

theorem sum_lrs_pair (n il ir : Fin nn) (k : Fin nd) (f : Fin nd → K) :
    ∑ i, lrs (n, k) (il, i) (ir, i) (f i) = lrs n il ir (f k) := by
  simp [lrs_pair]

/-- viscous stress times area, direction `k`, per node `ic`:
`-mu (sum_j dN/dx_k A_j d_j + sum_j dN/dx_j A_j d_k)` -/
def viscRow (mu : K) (g a : Fin nd → K) (d : Fin nd → K) (k : Fin nd) : K :=
  (∑ j, -mu * g k * a j * d j) + (∑ j, -mu * g j * a j) * d k

theorem viscousLoop_rhs (cen : Fin nn → K) (mu : K) (g : Fin nn → Fin nd → K) (a : Fin nd → K)
    (il ir : Fin nn) (u : Fin nn → Fin nd → K) (s : LocalSys (Fin nn × Fin nd) K)
    (n : Fin nn) (k : Fin nd) :
    (viscousLoop cen mu g a il ir u s).rhs (n, k) =
      s.rhs (n, k) - lrs n il ir (∑ ic, viscRow mu (g ic) a (u ic) k) := by
  rw [viscousLoop, loop_rhs (a := (n, k)) (δ := fun ic => -lrs n il ir (viscRow mu (g ic) a (u ic) k))]
  · rw [Finset.sum_neg_distrib, lrs_sum, sub_eq_add_neg]
  · intro ic s
    rw [loop_rhs (a := (n, k)) (δ := fun i => -lrs (n, k) (il, i) (ir, i) (viscRow mu (g ic) a (u ic) i))]
    · rw [Finset.sum_neg_distrib, sum_lrs_pair]
    · intro i s
      simp only [addR_rhs, addL_rhs]
      rw [loop_rhs (a := (n, k)) (δ := fun j => -lrs (n, k) (il, i) (ir, i) (-mu * g ic i * a j * u ic j))]
      · rw [Finset.sum_neg_distrib, lrs_sum, viscRow, lrs_add]
        simp only [addL_rhs]
        generalize (∑ j, -mu * g ic i * a j * u ic j) = A
        generalize (∑ j, -mu * g ic j * a j) * u ic i = B
        simp only [lrs]; split_ifs <;> ring
      · intro j s
        simp only [addR_rhs, addL_rhs, lrs]; split_ifs <;> ring

theorem viscousLoop_act (cen : Fin nn → K) (mu : K) (g : Fin nn → Fin nd → K) (a : Fin nd → K)
    (il ir : Fin nn) (u : Fin nn → Fin nd → K) (s : LocalSys (Fin nn × Fin nd) K)
    (d : Fin nn × Fin nd → K) (n : Fin nn) (k : Fin nd) :
    act (viscousLoop cen mu g a il ir u s) d (n, k) =
      act s d (n, k) + lrs n il ir (∑ ic, (cen ic * d (ic, k) +
        viscRow mu (g ic) a (fun j => d (ic, j)) k)) := by
  rw [viscousLoop, loop_act (a := (n, k)) (δ := fun ic => lrs n il ir (cen ic * d (ic, k) +
    viscRow mu (g ic) a (fun j => d (ic, j)) k))]
  · rw [lrs_sum]
  · intro ic s
    rw [loop_act (a := (n, k)) (δ := fun i => lrs (n, k) (il, i) (ir, i) (cen ic * d (ic, i) +
      viscRow mu (g ic) a (fun j => d (ic, j)) i))]
    · rw [sum_lrs_pair]
    · intro i s
      simp only [addR_act, addL_act]
      rw [loop_act (a := (n, k)) (δ := fun j => lrs (n, k) (il, i) (ir, i) (-mu * g ic i * a j * d (ic, j)))]
      · rw [lrs_sum, viscRow, lrs_add, lrs_add]
        simp only [addL_act]
        generalize (∑ j, -mu * g ic i * a j * d (ic, j)) = A
        generalize (∑ j, -mu * g ic j * a j) = B
        simp only [lrs]; split_ifs <;> ring
      · intro j s
        simp only [addR_act, addL_act, lrs]; split_ifs <;> ring

theorem momentumAdvDiff_rhs (inc : K) (e : Scs nn nip nd K) (mdot : Fin nip → K) (mu : Fin nn → K)
    (u : Fin nn → Fin nd → K) (s : LocalSys (Fin nn × Fin nd) K) (n : Fin nn) (k : Fin nd) :
    (momentumAdvDiff inc e mdot mu u s).rhs (n, k) = s.rhs (n, k) -
      ∑ ip, lrs n (e.il ip) (e.ir ip) (mdot ip * coordIp (e.adv ip) u k +
        2 / 3 * interp (e.shape ip) mu * divU (e.dndx ip) u * e.area ip k * inc +
        ∑ ic, viscRow (interp (e.shape ip) mu) (e.dndx ip ic) (e.area ip) (u ic) k) := by
  rw [momentumAdvDiff, loop_rhs (a := (n, k)) (δ := fun ip => -lrs n (e.il ip) (e.ir ip)
    (mdot ip * coordIp (e.adv ip) u k +
        2 / 3 * interp (e.shape ip) mu * divU (e.dndx ip) u * e.area ip k * inc +
        ∑ ic, viscRow (interp (e.shape ip) mu) (e.dndx ip ic) (e.area ip) (u ic) k))]
  · rw [Finset.sum_neg_distrib, sub_eq_add_neg]
  · intro ip s
    simp only
    rw [viscousLoop_rhs, loop_rhs (a := (n, k)) (δ := fun i => -lrs (n, k) (e.il ip, i) (e.ir ip, i)
      (mdot ip * coordIp (e.adv ip) u i +
        2 / 3 * interp (e.shape ip) mu * divU (e.dndx ip) u * e.area ip i * inc))]
    · rw [Finset.sum_neg_distrib, sum_lrs_pair, lrs_add _ _ _ (_ + _)]; ring
    · intro i s
      simp only [addR_rhs, lrs]; split_ifs <;> ring

theorem momentumAdvDiff_act (inc : K) (e : Scs nn nip nd K) (mdot : Fin nip → K) (mu : Fin nn → K)
    (u : Fin nn → Fin nd → K) (s : LocalSys (Fin nn × Fin nd) K) (d : Fin nn × Fin nd → K)
    (n : Fin nn) (k : Fin nd) :
    act (momentumAdvDiff inc e mdot mu u s) d (n, k) = act s d (n, k) +
      ∑ ip, lrs n (e.il ip) (e.ir ip) (∑ ic, (e.adv ip ic * mdot ip * d (ic, k) +
        viscRow (interp (e.shape ip) mu) (e.dndx ip ic) (e.area ip) (fun j => d (ic, j)) k)) := by
  rw [momentumAdvDiff, loop_act (a := (n, k))]
  intro ip s
  simp only
  rw [viscousLoop_act, loop_act (a := (n, k)) (δ := fun _ => 0)]
  · simp
  · intro i s; simp

/-- advective flux of component `k` in the upwind momentum kernel -/
def momUpwAdv (o : Opts K) (e : Scs nn nip nd K) (mdot : Fin nip → K) (v : UpwNodes nn nd K)
    (u : Fin nn → Fin nd → K) (G : Fin nn → Fin nd → Fin nd → K) (ip : Fin nip) (k : Fin nd) : K :=
  upwAdv o e mdot v (fun ic => u ic k) (fun ic => G ic k) ip

theorem momentumUpw_rhs (o : Opts K) (inc : K) (e : Scs nn nip nd K) (mdot : Fin nip → K)
    (v : UpwNodes nn nd K) (u : Fin nn → Fin nd → K) (G : Fin nn → Fin nd → Fin nd → K)
    (s : LocalSys (Fin nn × Fin nd) K) (n : Fin nn) (k : Fin nd) :
    (momentumUpw o inc e mdot v u G s).rhs (n, k) = s.rhs (n, k) -
      ∑ ip, lrs n (e.il ip) (e.ir ip) (momUpwAdv o e mdot v u G ip k +
        2 / 3 * interp (e.shape ip) v.mu * divU (e.dndx ip) u * e.area ip k * inc +
        ∑ ic, viscRow (interp (e.shape ip) v.mu) (e.dndx ip ic) (e.area ip) (u ic) k) := by
  rw [momentumUpw, loop_rhs (a := (n, k)) (δ := fun ip => -lrs n (e.il ip) (e.ir ip)
    (momUpwAdv o e mdot v u G ip k +
        2 / 3 * interp (e.shape ip) v.mu * divU (e.dndx ip) u * e.area ip k * inc +
        ∑ ic, viscRow (interp (e.shape ip) v.mu) (e.dndx ip ic) (e.area ip) (u ic) k))]
  · rw [Finset.sum_neg_distrib, sub_eq_add_neg]
  · intro ip s
    simp only
    rw [viscousLoop_rhs, loop_rhs (a := (n, k)) (δ := fun i => -lrs (n, k) (e.il ip, i) (e.ir ip, i)
      (momUpwAdv o e mdot v u G ip i +
        2 / 3 * interp (e.shape ip) v.mu * divU (e.dndx ip) u * e.area ip i * inc))]
    · rw [Finset.sum_neg_distrib, sum_lrs_pair, lrs_add _ _ _ (_ + _)]; ring
    · intro i s
      simp only [addR_rhs, addL_rhs, momUpwAdv, upwAdv, lrs, coordIp, interp]; split_ifs <;> ring

theorem momentumUpw_act (o : Opts K) (inc : K) (e : Scs nn nip nd K) (mdot : Fin nip → K)
    (v : UpwNodes nn nd K) (u : Fin nn → Fin nd → K) (G : Fin nn → Fin nd → Fin nd → K)
    (s : LocalSys (Fin nn × Fin nd) K) (d : Fin nn × Fin nd → K) (n : Fin nn) (k : Fin nd) :
    act (momentumUpw o inc e mdot v u G s) d (n, k) = act s d (n, k) +
      ∑ ip, lrs n (e.il ip) (e.ir ip)
        (alhsfacL o (mdot ip) (pecFac o v (e.il ip) (e.ir ip)) * d (e.il ip, k) +
         alhsfacR o (mdot ip) (pecFac o v (e.il ip) (e.ir ip)) * d (e.ir ip, k) +
         ∑ ic, (e.adv ip ic * cenFac o (mdot ip) (pecFac o v (e.il ip) (e.ir ip)) * d (ic, k) +
        viscRow (interp (e.shape ip) v.mu) (e.dndx ip ic) (e.area ip) (fun j => d (ic, j)) k)) := by
  rw [momentumUpw, loop_act (a := (n, k))]
  intro ip s
  simp only
  rw [viscousLoop_act, loop_act (a := (n, k)) (δ := fun i => lrs (n, k) (e.il ip, i) (e.ir ip, i)
     (alhsfacL o (mdot ip) (pecFac o v (e.il ip) (e.ir ip)) * d (e.il ip, i) +
         alhsfacR o (mdot ip) (pecFac o v (e.il ip) (e.ir ip)) * d (e.ir ip, i)))]
  · rw [sum_lrs_pair, lrs_add _ _ _ (_ + _)]; ring
  · intro i s
    simp only [addR_act, addL_act, lrs]; split_ifs <;> ring

theorem scalarAdvDiff_act (e : Scs nn nip nd K) (mdot : Fin nip → K) (mu q : Fin nn → K)
    (s : LocalSys (Fin nn) K) (d : Fin nn → K) (a : Fin nn) :
    act (scalarAdvDiff e mdot mu q s) d a = act s d a + ∑ ip, lrs a (e.il ip) (e.ir ip)
      (∑ ic, advDiffRow e mdot mu ip ic * d ic) := by
  simp only [act, scalarAdvDiff_lhs, add_mul, Finset.sum_add_distrib, Finset.sum_mul]
  congr 1
  rw [Finset.sum_comm]
  refine Finset.sum_congr rfl fun ip _ => ?_
  rw [← lrs_sum]
  exact Finset.sum_congr rfl fun ic _ => (lrs_smul ..).symm

theorem scalarUpw_act (o : Opts K) (e : Scs nn nip nd K) (mdot : Fin nip → K) (v : UpwNodes nn nd K)
    (q : Fin nn → K) (G : Fin nn → Fin nd → K) (s : LocalSys (Fin nn) K) (d : Fin nn → K) (a : Fin nn) :
    act (scalarUpw o e mdot v q G s) d a = act s d a + ∑ ip, lrs a (e.il ip) (e.ir ip)
      (∑ ic, upwRow o e mdot v ip ic * d ic) := by
  simp only [act, scalarUpw_lhs, add_mul, Finset.sum_add_distrib, Finset.sum_mul]
  congr 1
  rw [Finset.sum_comm]
  refine Finset.sum_congr rfl fun ip _ => ?_
  rw [← lrs_sum]
  exact Finset.sum_congr rfl fun ic _ => (lrs_smul ..).symm

theorem continuityAdv_act (pts : K) (e : Scs nn nip nd K) (dl : Fin nip → Fin nn → Fin nd → K)
    (v : FlowNodes nn nd K) (s : LocalSys (Fin nn) K) (d : Fin nn → K) (a : Fin nn) :
    act (continuityAdv pts e dl v s) d a = act s d a + ∑ ip, lrs a (e.il ip) (e.ir ip)
      (∑ ic, (∑ j, -(dl ip ic j) * e.area ip j) * d ic) := by
  simp only [act, continuityAdv_lhs, add_mul, Finset.sum_add_distrib, Finset.sum_mul]
  congr 1
  rw [Finset.sum_comm]
  refine Finset.sum_congr rfl fun ip _ => ?_
  rw [← lrs_sum]
  refine Finset.sum_congr rfl fun ic _ => ?_
  rw [← Finset.sum_mul]
  exact (lrs_smul ..).symm

/-! ## Source kernels of momentum -/

theorem sum_ite_pair (n m : Fin nn) (k : Fin nd) (f : Fin nd → K) :
    (∑ i, if (n, k) = (m, i) then f i else 0) = if n = m then f k else 0 := by
  by_cases h : n = m
  · simp [h]
  · simp [h]

theorem momentumMass_rhs (b : Bdf K) (df : K) (e : Scv nn nip K) (rho : Levels nn K)
    (u : VLevels nn nd K) (Gp : Fin nn → Fin nd → K) (s : LocalSys (Fin nn × Fin nd) K)
    (n : Fin nn) (k : Fin nd) :
    (momentumMass b df e rho u Gp s).rhs (n, k) = s.rhs (n, k) + ∑ ip, if n = e.node ip then
      (-(b.g1 * interp (e.shape ip) rho.np1 * coordIp (e.shape ip) u.np1 k +
        b.g2 * interp (e.shape ip) rho.n * coordIp (e.shape ip) u.n k +
        b.g3 * interp (e.shape ip) rho.nm1 * coordIp (e.shape ip) u.nm1 k) * e.vol ip / b.dt -
        coordIp (e.shape ip) Gp k * e.vol ip * (interp (e.shape ip) rho.np1 * df + (1 - df))) else 0 := by
  rw [momentumMass, loop_rhs (a := (n, k))]
  intro ip s
  simp only
  rw [loop_rhs (a := (n, k)) (δ := fun _ => 0) (h := by
      intro ic s
      rw [loop_rhs (a := (n, k)) (δ := fun _ => 0) (h := by intro k s; simp)]; simp),
    loop_rhs (a := (n, k)) (h := by intro j s; rw [addR_rhs])]
  simp only [sum_ite_pair, Finset.sum_const_zero, add_zero]

theorem momentumMass_act (b : Bdf K) (df : K) (e : Scv nn nip K) (rho : Levels nn K)
    (u : VLevels nn nd K) (Gp : Fin nn → Fin nd → K) (s : LocalSys (Fin nn × Fin nd) K)
    (d : Fin nn × Fin nd → K) (n : Fin nn) (k : Fin nd) :
    act (momentumMass b df e rho u Gp s) d (n, k) = act s d (n, k) + ∑ ip, if n = e.node ip then
      ∑ ic, e.shape ip ic * b.g1 * interp (e.shape ip) rho.np1 * e.vol ip / b.dt * d (ic, k) else 0 := by
  rw [momentumMass, loop_act (a := (n, k))]
  intro ip s
  simp only
  rw [loop_act (a := (n, k)) (δ := fun ic => if n = e.node ip then
      e.shape ip ic * b.g1 * interp (e.shape ip) rho.np1 * e.vol ip / b.dt * d (ic, k) else 0),
    loop_act (a := (n, k)) (δ := fun _ => 0)]
  · simp [ite_sum]
  · intro j s; simp
  · intro ic s
    rw [loop_act (a := (n, k)) (h := by intro j s; rw [addL_act])]
    rw [sum_ite_pair]

theorem momentumGcl_rhs (e : Scv nn nip K) (rho divV : Fin nn → K) (u : Fin nn → Fin nd → K)
    (s : LocalSys (Fin nn × Fin nd) K) (n : Fin nn) (k : Fin nd) :
    (momentumGcl e rho divV u s).rhs (n, k) = s.rhs (n, k) + ∑ ip, if n = e.node ip then
      -(interp (e.shape ip) rho * coordIp (e.shape ip) u k * interp (e.shape ip) divV * e.vol ip)
      else 0 := by
  rw [momentumGcl, loop_rhs (a := (n, k))]
  intro ip s
  simp only
  rw [loop_rhs (a := (n, k)) (δ := fun _ => 0) (h := by
      intro ic s
      rw [loop_rhs (a := (n, k)) (δ := fun _ => 0) (h := by intro k s; simp)]; simp),
    loop_rhs (a := (n, k)) (h := by intro j s; rw [addR_rhs])]
  simp only [sum_ite_pair, Finset.sum_const_zero, add_zero]

theorem momentumGcl_act (e : Scv nn nip K) (rho divV : Fin nn → K) (u : Fin nn → Fin nd → K)
    (s : LocalSys (Fin nn × Fin nd) K) (d : Fin nn × Fin nd → K) (n : Fin nn) (k : Fin nd) :
    act (momentumGcl e rho divV u s) d (n, k) = act s d (n, k) + ∑ ip, if n = e.node ip then
      ∑ ic, e.shape ip ic * interp (e.shape ip) rho * interp (e.shape ip) divV * e.vol ip * d (ic, k)
      else 0 := by
  rw [momentumGcl, loop_act (a := (n, k))]
  intro ip s
  simp only
  rw [loop_act (a := (n, k)) (δ := fun ic => if n = e.node ip then
      e.shape ip ic * interp (e.shape ip) rho * interp (e.shape ip) divV * e.vol ip * d (ic, k) else 0),
    loop_act (a := (n, k)) (δ := fun _ => 0)]
  · simp [ite_sum]
  · intro j s; simp
  · intro ic s
    rw [loop_act (a := (n, k)) (h := by intro j s; rw [addL_act])]
    rw [sum_ite_pair]

theorem buoyancy_rhs (rhoRef : K) (grav : Fin nd → K) (e : Scv nn nip K) (rho : Fin nn → K)
    (s : LocalSys (Fin nn × Fin nd) K) (n : Fin nn) (k : Fin nd) :
    (buoyancy rhoRef grav e rho s).rhs (n, k) = s.rhs (n, k) + ∑ ip, if n = e.node ip then
      (interp (e.shape ip) rho - rhoRef) * e.vol ip * grav k else 0 := by
  rw [buoyancy, loop_rhs (a := (n, k))]
  intro ip s
  simp only
  rw [loop_rhs (a := (n, k)) (h := by intro j s; rw [addR_rhs])]
  rw [sum_ite_pair]

theorem buoyancy_lhs (rhoRef : K) (grav : Fin nd → K) (e : Scv nn nip K) (rho : Fin nn → K)
    (s : LocalSys (Fin nn × Fin nd) K) (a b : Fin nn × Fin nd) :
    (buoyancy rhoRef grav e rho s).lhs a b = s.lhs a b := by
  rw [buoyancy, loop_lhs (a := a) (b := b) (δ := fun _ => 0)]
  · simp
  · intro ip s
    simp only
    rw [loop_lhs (a := a) (b := b) (δ := fun _ => 0)] <;> simp

theorem boussinesq_rhs (rhoRef beta tRef : K) (grav : Fin nd → K) (e : Scv nn nip K) (T : Fin nn → K)
    (s : LocalSys (Fin nn × Fin nd) K) (n : Fin nn) (k : Fin nd) :
    (boussinesq rhoRef beta tRef grav e T s).rhs (n, k) = s.rhs (n, k) + ∑ ip, if n = e.node ip then
      -rhoRef * beta * (interp (e.shape ip) T - tRef) * e.vol ip * grav k else 0 := by
  rw [boussinesq, loop_rhs (a := (n, k))]
  intro ip s
  simp only
  rw [loop_rhs (a := (n, k)) (h := by intro j s; rw [addR_rhs])]
  rw [sum_ite_pair]

/-! ## Open-boundary kernels -/

theorem scalarFluxPenalty_rhs (pen : K) (f : Face nn nf nip nd K) (mu q qbc : Fin nn → K)
    (s : LocalSys (Fin nn) K) (a : Fin nn) :
    (scalarFluxPenalty pen f mu q qbc s).rhs a = s.rhs a + ∑ ip, if a = f.near ip then
      -(pen * (∑ ic, f.shape ip ic * mu (f.node ic)) * invLength f ip *
          ((∑ ic, f.shape ip ic * q (f.node ic)) - ∑ ic, f.shape ip ic * qbc (f.node ic)) * f.aMag ip -
        ∑ j, (∑ ic, f.shape ip ic * mu (f.node ic)) * (∑ ic, f.dndx ip ic j * q ic) * f.area ip j)
      else 0 := by
  rw [scalarFluxPenalty, loop_rhs (a := a)]
  intro ip s
  simp only
  rw [loop_rhs (a := a) (δ := fun _ => 0) (h := by intro k s; simp),
    loop_rhs (a := a) (δ := fun _ => 0) (h := by intro k s; simp)]
  simp

theorem scalarFluxPenalty_act (pen : K) (f : Face nn nf nip nd K) (mu q qbc : Fin nn → K)
    (s : LocalSys (Fin nn) K) (d : Fin nn → K) (a : Fin nn) :
    act (scalarFluxPenalty pen f mu q qbc s) d a = act s d a + ∑ ip, if a = f.near ip then
      (∑ ic, f.shape ip ic * pen * (∑ ic, f.shape ip ic * mu (f.node ic)) * invLength f ip * f.aMag ip *
          d (f.node ic)) +
        ∑ ic, (∑ ic, f.shape ip ic * mu (f.node ic)) * (∑ j, -(f.dndx ip ic j) * f.area ip j) * d ic
      else 0 := by
  rw [scalarFluxPenalty, loop_act (a := a)]
  intro ip s
  simp only
  rw [loop_act (a := a) (d := d) (δ := fun ic => if a = f.near ip then
        (∑ ic, f.shape ip ic * mu (f.node ic)) * (∑ j, -(f.dndx ip ic j) * f.area ip j) * d ic else 0)
      (h := by intro k s; simp),
    loop_act (a := a) (d := d) (δ := fun ic => if a = f.near ip then
       f.shape ip ic * pen * (∑ ic, f.shape ip ic * mu (f.node ic)) * invLength f ip * f.aMag ip *
          d (f.node ic) else 0) (h := by intro k s; simp)]
  rw [ite_sum, ite_sum]
  by_cases h : a = f.near ip
  · simp only [h, if_true, addR_act]; ring
  · simp [h]

/-- advective outflow / entrainment of the open scalar kernel at one integration point -/
def openScalarFlux (o : Opts K) (f : Face nn nf nip nd K) (mdot : Fin nip → K) (v : UpwNodes nn nd K)
    (q qbc : Fin nn → K) (G : Fin nn → Fin nd → K) (ip : Fin nip) : K :=
  if mdot ip > 0 then
    mdot ip * (pecFac o v (f.opp ip) (f.near ip) *
      (o.alphaUpw * (q (f.node (f.loc ip)) + ∑ i, ((∑ ic, f.adv ip ic * v.x (f.node ic) i) -
          v.x (f.near ip) i) * G (f.node (f.loc ip)) i * o.hoUpwind) +
        (1 - o.alphaUpw) * ∑ ic, f.adv ip ic * q (f.node ic)) +
      (1 - pecFac o v (f.opp ip) (f.near ip)) * ∑ ic, f.adv ip ic * q (f.node ic))
  else mdot ip * ∑ ic, f.adv ip ic * qbc (f.node ic)

theorem scalarOpenElem_rhs (o : Opts K) (f : Face nn nf nip nd K) (mdot : Fin nip → K)
    (v : UpwNodes nn nd K) (q qbc : Fin nn → K) (G : Fin nn → Fin nd → K) (s : LocalSys (Fin nn) K)
    (a : Fin nn) :
    (scalarOpenElem o f mdot v q qbc G s).rhs a = s.rhs a + ∑ ip, if a = f.near ip then
      -openScalarFlux o f mdot v q qbc G ip else 0 := by
  rw [scalarOpenElem, loop_rhs (a := a)]
  intro ip s
  simp only [addR_rhs]
  rw [loop_rhs (a := a) (δ := fun _ => 0) (h := by intro k s; simp)]
  simp only [addL_rhs, addR_rhs, openScalarFlux]
  by_cases h : a = f.near ip
  · by_cases hm : mdot ip > 0
    · simp only [h, hm, if_true]; simp
    · simp only [h, hm, if_true, if_false]; simp
  · simp [h]

theorem scalarOpenElem_act (o : Opts K) (f : Face nn nf nip nd K) (mdot : Fin nip → K)
    (v : UpwNodes nn nd K) (q qbc : Fin nn → K) (G : Fin nn → Fin nd → K) (s : LocalSys (Fin nn) K)
    (d : Fin nn → K) (a : Fin nn) :
    act (scalarOpenElem o f mdot v q qbc G s) d a = act s d a + ∑ ip, if a = f.near ip then
      (if mdot ip > 0 then mdot ip * (pecFac o v (f.opp ip) (f.near ip) *
        (o.alphaUpw * d (f.near ip) + (1 - o.alphaUpw) * ∑ ic, f.adv ip ic * d (f.node ic)) +
        (1 - pecFac o v (f.opp ip) (f.near ip)) * ∑ ic, f.adv ip ic * d (f.node ic)) else 0) else 0 := by
  rw [scalarOpenElem, loop_act (a := a)]
  intro ip s
  simp only [addR_act]
  rw [loop_act (a := a) (d := d) (h := by intro k s; rw [addL_act]), ite_sum]
  simp only [addL_act, addR_act]
  by_cases h : a = f.near ip
  · by_cases hm : mdot ip > 0
    · simp only [h, hm, if_true]
      have : ∀ c : K, ∑ ic, f.adv ip ic * c * d (f.node ic) = c * ∑ ic, f.adv ip ic * d (f.node ic) := by
        intro c; rw [Finset.mul_sum]; exact Finset.sum_congr rfl fun _ _ => by ring
      rw [this]; ring
    · simp [h, hm]
  · simp [h]

end Nalu.Kernel
