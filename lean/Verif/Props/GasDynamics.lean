import Verif.Model.GasDynamics
import Mathlib.Tactic.Ring
import Mathlib.Tactic.FieldSimp
import Mathlib.Tactic.Linarith
import Mathlib.Tactic.Positivity
import Mathlib.Tactic.NormNum
import Mathlib.Tactic.LinearCombination
import Mathlib.Tactic.FinCases
import Mathlib.Algebra.BigOperators.Field
import Mathlib.Algebra.BigOperators.Ring.Finset
import Mathlib.Topology.Algebra.Order.Group
import Mathlib.Topology.Order.OrderClosed
import Mathlib.Topology.Piecewise

/-!
# C62–C65: explicit gas dynamics
-/

namespace Nalu.Gas

open Finset

/-! ## The split functions -/

theorem abs_lt_one_bounds {m : ℝ} (h : ¬ 1 ≤ |m|) : -1 < m ∧ m < 1 := by
  push Not at h
  exact abs_lt.1 h

/-- **C63** The split Mach numbers add up to the Mach number and carry it to the right sides: the left one is
nonnegative, the right one nonpositive, for every Mach number. -/
theorem c63_split_mach (m : ℝ) :
    splitMplus m + splitMminus m = m ∧ 0 ≤ splitMplus m ∧ splitMminus m ≤ 0 := by
  unfold splitMplus splitMminus
  by_cases h : 1 ≤ |m|
  · simp only [h, if_true]
    refine ⟨by ring, ?_, ?_⟩
    · linarith [neg_abs_le m]
    · linarith [le_abs_self m]
  · simp only [h, if_false]
    refine ⟨by ring, by positivity, ?_⟩
    nlinarith [sq_nonneg (m - 1), sq_nonneg (m * m - 1)]

/-- **C63** The split pressures are weights: each in `[0,1]`, adding up to one, for every Mach number. -/
theorem c63_split_pressure (m : ℝ) :
    splitPplus m + splitPminus m = 1 ∧ 0 ≤ splitPplus m ∧ splitPplus m ≤ 1 ∧
      0 ≤ splitPminus m ∧ splitPminus m ≤ 1 := by
  have key : splitPplus m + splitPminus m = 1 ∧ 0 ≤ splitPplus m ∧ 0 ≤ splitPminus m := by
    unfold splitPplus splitPminus
    by_cases h : 1 ≤ |m|
    · simp only [h, if_true, sgn]
      refine ⟨by ring, ?_, ?_⟩ <;> split_ifs <;> norm_num
    · simp only [h, if_false]
      obtain ⟨h1, h2⟩ := abs_lt_one_bounds h
      refine ⟨by ring, ?_, ?_⟩
      · have e : 1 / 4 * (m + 1) ^ 2 * (2 - m) + 3 / 16 * m * (m * m - 1) ^ 2 =
            (m + 1) ^ 3 * (3 * (m - 3 / 2) ^ 2 + 5 / 4) / 16 := by ring
        rw [e]
        have : 0 < m + 1 := by linarith
        positivity
      · have e : 1 / 4 * (m - 1) ^ 2 * (2 + m) - 3 / 16 * m * (m * m - 1) ^ 2 =
            (1 - m) ^ 3 * (3 * (m + 3 / 2) ^ 2 + 5 / 4) / 16 := by ring
        rw [e]
        have : 0 < 1 - m := by linarith
        positivity
  obtain ⟨a, b, c⟩ := key
  exact ⟨a, b, by linarith, c, by linarith⟩

/-- **C63** Supersonic flow is fully upwinded: at Mach one and above everything comes from the left, at minus
one and below everything from the right. -/
theorem c63_supersonic (m : ℝ) :
    (1 ≤ m → splitMplus m = m ∧ splitMminus m = 0 ∧ splitPplus m = 1 ∧ splitPminus m = 0) ∧
    (m ≤ -1 → splitMplus m = 0 ∧ splitMminus m = m ∧ splitPplus m = 0 ∧ splitPminus m = 1) := by
  constructor
  · intro h
    have ha : |m| = m := abs_of_nonneg (by linarith)
    have h1 : 1 ≤ |m| := by rw [ha]; exact h
    have hp : 0 < m := by linarith
    simp only [splitMplus, splitMminus, splitPplus, splitPminus, h1, if_true, sgn, hp]
    rw [ha]
    refine ⟨by ring, by ring, by norm_num, by norm_num⟩
  · intro h
    have ha : |m| = -m := abs_of_nonpos (by linarith)
    have h1 : 1 ≤ |m| := by rw [ha]; linarith
    have hp : ¬ 0 < m := by linarith
    simp only [splitMplus, splitMminus, splitPplus, splitPminus, h1, if_true, sgn, hp, if_false]
    rw [ha]
    refine ⟨by ring, by ring, by norm_num, by norm_num⟩

/-- **C63** Left and right functions are mirror images. -/
theorem c63_mirror (m : ℝ) : splitMminus m = -splitMplus (-m) ∧
    (m ≠ 0 → splitPminus m = splitPplus (-m)) := by
  constructor
  · unfold splitMminus splitMplus
    rw [abs_neg]
    split_ifs <;> ring
  · intro h0
    unfold splitPminus splitPplus sgn
    rw [abs_neg]
    split_ifs with h1 h2 h3 h3
    · exact absurd h3 (by linarith)
    · norm_num
    · norm_num
    · exact absurd (lt_of_le_of_ne (not_lt.1 h2) h0) (by linarith)
    · ring

/-- **C63** No jump at the sonic points: the split functions are continuous. -/
theorem c63_continuous : Continuous splitMplus ∧ Continuous splitMminus := by
  have hc : Continuous fun m : ℝ => |m| := continuous_abs
  constructor
  · unfold splitMplus
    refine Continuous.if_le (by fun_prop) (by fun_prop) continuous_const hc ?_
    intro m hm
    rcases (abs_eq (by norm_num : (0 : ℝ) ≤ 1)).1 hm.symm with h | h <;> rw [h] <;> norm_num
  · unfold splitMminus
    refine Continuous.if_le (by fun_prop) (by fun_prop) continuous_const hc ?_
    intro m hm
    rcases (abs_eq (by norm_num : (0 : ℝ) ≤ 1)).1 hm.symm with h | h <;> rw [h] <;> norm_num

/-- **C63** Likewise the pressure weights. -/
theorem c63_pressure_no_jump (m : ℝ) (h : |m| = 1) :
    splitPplus m = 1 / 4 * (m + 1) ^ 2 * (2 - m) + 3 / 16 * m * (m * m - 1) ^ 2 ∧
    splitPminus m = 1 / 4 * (m - 1) ^ 2 * (2 + m) - 3 / 16 * m * (m * m - 1) ^ 2 := by
  rcases (abs_eq (by norm_num : (0 : ℝ) ≤ 1)).1 h with h | h <;> subst h <;>
    norm_num [splitPplus, splitPminus, sgn]

/-! ## Consistency -/

theorem edge_normal {n : ℕ} (a v : Fin n → ℝ) (c : ℝ) (ha : 0 < asq a) (hc : c ≠ 0) :
    aMag a * (∑ j, v j * (a j / aMag a) / (1 / 2 * (c + c))) * c = ∑ j, v j * a j := by
  have hm : aMag a ≠ 0 := (Real.sqrt_pos.2 ha).ne'
  rw [Finset.mul_sum, Finset.sum_mul]
  refine Finset.sum_congr rfl fun j _ => ?_
  field_simp
  ring

/-- **C63 (consistency)** Between two nodes in the same state the edge flux is the exact Euler flux:
`(u.A) ρu + pA`, `(u.A) ρ` and `(u.A) ρH`, whatever the Mach number. -/
theorem c63_consistent {n : ℕ} (a : Fin n → ℝ) (L R : NodeData n) (ha : 0 < asq a) (hc : L.c ≠ 0)
    (h : R = { L with x := R.x }) :
    (∀ i, edgeFlux a L R (.mom i) = (∑ j, L.vrtm j * a j) * L.mom i + L.p * a i) ∧
    edgeFlux a L R .mass = (∑ j, L.vrtm j * a j) * L.rho ∧
    edgeFlux a L R .energy = (∑ j, L.vrtm j * a j) * L.totalH := by
  have hv : R.vrtm = L.vrtm := by rw [h]
  have hcR : R.c = L.c := by rw [h]
  have hvel : R.vel = L.vel := by rw [h]
  have hmo : R.mom = L.mom := by rw [h]
  have hrho : R.rho = L.rho := by rw [h]
  have hH : R.totalH = L.totalH := by rw [h]
  have hp : R.p = L.p := by rw [h]
  have hT : R.T = L.T := by rw [h]
  have hm : mLR a L R = edgeMach a L R L.vrtm := by
    rw [mLR, hv]; exact (c63_split_mach _).1
  have hn := edge_normal a L.vrtm L.c ha hc
  have hM : aMag a * mLR a L R * L.c = ∑ j, L.vrtm j * a j := by
    rw [hm, edgeMach, hcR]; exact hn
  have hP : pLR a L R = L.p := by
    rw [pLR, hv, hp, ← add_mul, (c63_split_pressure _).1, one_mul]
  have hd : ∀ i j, duidxj a L R i j = 0 := by intro i j; rw [duidxj, hvel]; ring
  have hadv : ∀ f, advected a L R (f * L.c) (f * L.c) = (∑ j, L.vrtm j * a j) * f := by
    intro f; rw [← hM, advected]; ring
  have hdiv : divU a L R = 0 := by simp [divU, hd]
  have hvisc : ∀ i, viscousFlux a L R i = 0 := by intro i; simp [viscousFlux, hd, hdiv]
  have hen : energyDiffFlux a L R = 0 := by simp [energyDiffFlux, tauIp, hd, hdiv, hT]
  refine ⟨fun i => ?_, ?_, ?_⟩
  · simp only [edgeFlux]; rw [hmo, hcR, hadv, hP, hvisc, add_zero]
  · simp only [edgeFlux]; rw [hrho, hcR, hadv]
  · simp only [edgeFlux]; rw [hH, hcR, hadv, hen, add_zero]

/-- **C63 (dissipation)** The advected part carries `(mass rate) × (upwind value)`: with positive interface
Mach number the left value, else the right one. -/
theorem c63_upwind {n : ℕ} (a : Fin n → ℝ) (L R : NodeData n) (fL fR : ℝ) :
    advected a L R fL fR = aMag a * mLR a L R * (if 0 ≤ mLR a L R then fL else fR) := by
  unfold advected
  split_ifs with h
  · rw [abs_of_nonneg h]; ring
  · rw [abs_of_neg (not_le.1 h)]; ring

/-! ## Conservation -/

section
variable {N : Type*} [DecidableEq N] [Fintype N] {n : ℕ}

omit [DecidableEq N] in
theorem sum_addAt [DecidableEq N] {D : Type*} (r : N → D → ℝ) (i : N) (v : D → ℝ) (d : D) :
    ∑ k, addAt r i v k d = ∑ k, r k d + v d := by
  simp only [addAt]
  have : ∀ k, (if k = i then r k d + v d else r k d) = r k d + if k = i then v d else 0 := by
    intro k; split_ifs <;> simp
  simp only [this, Finset.sum_add_distrib, Finset.sum_ite_eq', Finset.mem_univ, if_true]

/-- **C62** Whatever the state, the residuals of all nodes add up to minus what leaves through the boundary:
interior edges cancel exactly, for mass, momentum and energy. -/
theorem c62_residual_sum (nd : N → NodeData n) (edges : List (Edge N n)) (bnd : List (BndFlux N n))
    (d : Dof n) : ∑ i, assemble nd edges bnd i d = -(bnd.map fun b => b.flux d).sum := by
  have he : ∀ (l : List (Edge N n)) (r : N → Dof n → ℝ),
      ∑ i, l.foldl (edgeStep nd) r i d = ∑ i, r i d := by
    intro l
    induction l with
    | nil => simp
    | cons e t ih => intro r; rw [List.foldl_cons, ih, edgeStep, sum_addAt, sum_addAt]; ring
  have hb : ∀ (l : List (BndFlux N n)) (r : N → Dof n → ℝ),
      ∑ i, l.foldl bndStep r i d = ∑ i, r i d - (l.map fun b => b.flux d).sum := by
    intro l
    induction l with
    | nil => simp
    | cons e t ih =>
      intro r; rw [List.foldl_cons, ih, bndStep, sum_addAt, List.map_cons, List.sum_cons]; ring
  rw [assemble, hb, he]
  simp

/-- **C62** One time step, any number of sweeps (at least one), no Dirichlet nodes: the total of each
conserved quantity changes by minus `dt` times the boundary flux of the last sweep. -/
theorem c62_step_budget (vol : N → ℝ) (hv : ∀ i, vol i ≠ 0) (edges : List (Edge N n))
    (q : N → Dof n → ℝ) (dt : ℝ) (sweeps : List (Sweep N n)) (s : Sweep N n) (d : Dof n) :
    ∑ i, vol i * timeStep (fun _ => false) vol edges q dt (sweeps ++ [s]) i d =
      ∑ i, vol i * q i d - dt * (s.bnd.map fun b => b.flux d).sum := by
  have : ∀ i, vol i * timeStep (fun _ => false) vol edges q dt (sweeps ++ [s]) i d =
      vol i * q i d + dt * assemble s.nd edges s.bnd i d := by
    intro i
    simp only [timeStep, List.foldl_append, List.foldl_cons, List.foldl_nil, update]
    simp only [Bool.false_eq_true, if_false]
    have := hv i
    field_simp
  simp only [this, Finset.sum_add_distrib, ← Finset.mul_sum, c62_residual_sum]
  ring

/-- **C62** Closed domains: over any history of time steps, step sizes and sweeps, if no boundary point passes
the quantity (periodic box; symmetry planes for mass and energy), its total is conserved exactly. -/
theorem c62_conserved (vol : N → ℝ) (hv : ∀ i, vol i ≠ 0) (edges : List (Edge N n)) (d : Dof n)
    (hist : List (ℝ × List (Sweep N n)))
    (hb : ∀ h ∈ hist, ∀ s ∈ h.2, ∀ b ∈ s.bnd, b.flux d = 0) (q : N → Dof n → ℝ) :
    ∑ i, vol i * (hist.foldl (fun q h => timeStep (fun _ => false) vol edges q h.1 h.2) q) i d =
      ∑ i, vol i * q i d := by
  induction hist generalizing q with
  | nil => simp
  | cons h t ih =>
    rw [List.foldl_cons, ih (fun h' hh => hb h' (by simp [hh]))]
    rcases List.eq_nil_or_concat h.2 with e | ⟨l, s, e⟩
    · rw [e]; simp [timeStep]
    · rw [List.concat_eq_append] at e
      rw [e, c62_step_budget vol hv]
      have : (s.bnd.map fun b => b.flux d).sum = 0 := by
        apply List.sum_eq_zero
        intro x hx
        obtain ⟨b, hb', rfl⟩ := List.mem_map.1 hx
        exact hb h (by simp) s (by simp [e]) b hb'
      rw [this]; ring

omit [Fintype N] in
/-- **C62** Dirichlet nodes are not touched by the update. -/
theorem c62_dirichlet_kept (dir : N → Bool) (vol : N → ℝ) (edges : List (Edge N n))
    (q : N → Dof n → ℝ) (dt : ℝ) (sweeps : List (Sweep N n)) (i : N) (hi : dir i = true) :
    timeStep dir vol edges q dt sweeps i = q i := by
  unfold timeStep
  have : ∀ (l : List (Sweep N n)) (r : N → Dof n → ℝ), r i = q i →
      (l.foldl (fun qNp1 s => update dir dt vol q qNp1 (assemble s.nd edges s.bnd)) r) i = q i := by
    intro l
    induction l with
    | nil => intro r hr; exact hr
    | cons s t ih =>
      intro r hr
      rw [List.foldl_cons]
      apply ih
      funext d
      simp [update, hi, hr]
  exact this sweeps q rfl

/-- Symmetry planes pass neither mass nor energy. -/
theorem c62_symmetry_no_mass (a : Fin n → ℝ) (p : ℝ) :
    symmFlux a p .mass = 0 ∧ symmFlux a p .energy = 0 := ⟨rfl, rfl⟩

/-- Reversing an edge reverses its area vector and exchanges its ends. -/
def Edge.reverse (e : Edge N n) : Edge N n := ⟨e.right, e.left, fun j => -e.area j⟩

omit [DecidableEq N] [Fintype N] in
/-- **C62 (orientation)** The flux through an edge does not depend on which node is called left, unless the
flow stands still exactly at a sonic-free tie (`M = 0` in the pressure weight is excluded only because the code
gives sign −1 to zero, which is irrelevant below Mach one). -/
theorem c62_flux_antisymmetric (a : Fin n → ℝ) (L R : NodeData n) (d : Dof n) :
    edgeFlux (fun j => -a j) R L d = -edgeFlux a L R d := by
  have hq : asq (fun j => -a j) = asq a := by simp [asq]
  have hmag : aMag (fun j => -a j) = aMag a := by simp [aMag, hq]
  have hax : axdx (fun j => -a j) R L = axdx a L R :=
    Finset.sum_congr rfl fun j _ => by ring
  have hmach : ∀ v, edgeMach (fun j => -a j) R L v = -edgeMach a L R v := by
    intro v
    simp only [edgeMach, hmag, ← Finset.sum_neg_distrib]
    refine Finset.sum_congr rfl fun j _ => ?_
    rw [add_comm R.c L.c]; ring
  have hmir : ∀ m, splitMplus (-m) = -splitMminus m := fun m => by
    have := (c63_mirror m).1; linarith
  have hmir' : ∀ m, splitMminus (-m) = -splitMplus m := fun m => by
    have := (c63_mirror (-m)).1; rwa [neg_neg] at this
  have hz : splitPplus 0 = splitPminus 0 := by norm_num [splitPplus, splitPminus]
  have hpm : ∀ m, splitPplus (-m) = splitPminus m := by
    intro m
    by_cases h : m = 0
    · subst h; simpa using hz
    · exact ((c63_mirror m).2 h).symm
  have hpm' : ∀ m, splitPminus (-m) = splitPplus m := by
    intro m; rw [← hpm (-m), neg_neg]
  have hm : mLR (fun j => -a j) R L = -mLR a L R := by
    simp only [mLR, hmach, hmir, hmir']; ring
  have hp : pLR (fun j => -a j) R L = pLR a L R := by
    simp only [pLR, hmach, hpm, hpm']; ring
  have hadv : ∀ fL fR, advected (fun j => -a j) R L fR fL = -advected a L R fL fR := by
    intro fL fR; simp only [advected, hmag, hm, abs_neg]; ring
  have hdu : ∀ i j, duidxj (fun j => -a j) R L i j = duidxj a L R i j := by
    intro i j; simp only [duidxj, hax]; ring
  have hdiv : divU (fun j => -a j) R L = divU a L R := by simp only [divU, hdu]
  have hvisc : ∀ i, viscousFlux (fun j => -a j) R L i = -viscousFlux a L R i := by
    intro i
    simp only [viscousFlux, hdu, hdiv, neg_add_rev, ← Finset.sum_neg_distrib]
    rw [add_comm]
    congr 1
    · refine Finset.sum_congr rfl fun j _ => by ring
    · ring
  have htau : ∀ i j, tauIp (fun j => -a j) R L i j = tauIp a L R i j := by
    intro i j; simp only [tauIp, hdu, hdiv]; rw [add_comm R.visc]
  have hen : energyDiffFlux (fun j => -a j) R L = -energyDiffFlux a L R := by
    simp only [energyDiffFlux, hq, hax, htau, neg_add_rev, ← Finset.sum_neg_distrib]
    rw [add_comm]
    congr 1
    · refine Finset.sum_congr rfl fun i _ => Finset.sum_congr rfl fun j _ => by ring
    · ring
  cases d with
  | mom i => simp only [edgeFlux, hadv, hp, hvisc]; ring
  | mass => simp only [edgeFlux, hadv]
  | energy => simp only [edgeFlux, hadv, hen]; ring

omit [Fintype N] in
/-- **C62 (orientation)** So reversing an edge of the mesh (`left ≠ right`) does not change its contribution. -/
theorem c62_orientation_free (nd : N → NodeData n) (r : N → Dof n → ℝ) (e : Edge N n)
    (hne : e.left ≠ e.right) : edgeStep nd r e.reverse = edgeStep nd r e := by
  funext k d
  simp only [edgeStep, Edge.reverse, addAt, c62_flux_antisymmetric]
  by_cases h1 : k = e.left
  · have : k ≠ e.right := fun h => hne (h1 ▸ h)
    simp [h1, hne]
  · by_cases h2 : k = e.right
    · simp [h2, hne.symm]
    · simp [h1, h2]

/-- Sum of the area vectors pointing out of a node. -/
def outArea (edges : List (Edge N n)) (i : N) (j : Fin n) : ℝ :=
  (edges.map fun e => (if e.left = i then e.area j else 0) - (if e.right = i then e.area j else 0)).sum

omit [Fintype N] in
/-- **C63 (free stream)** A uniform flow is preserved: at every node whose dual volume is closed (C42) the
residual vanishes, for every Mach number and every mesh. -/
theorem c63_free_stream (nd : N → NodeData n) (s : NodeData n) (edges : List (Edge N n)) (i : N)
    (hs : ∀ k, nd k = { s with x := (nd k).x }) (hc : s.c ≠ 0)
    (hpos : ∀ e ∈ edges, 0 < asq e.area)
    (hclosed : ∀ j, outArea edges i j = 0) (d : Dof n) : assemble nd edges [] i d = 0 := by
  have hflux : ∀ e ∈ edges, edgeFlux e.area (nd e.left) (nd e.right) d =
      ∑ j, e.area j * (match d with
        | .mom k => s.vrtm j * s.mom k + if j = k then s.p else 0
        | .mass => s.vrtm j * s.rho
        | .energy => s.vrtm j * s.totalH) := by
    intro e he
    have hL := hs e.left
    have hR := hs e.right
    have h := c63_consistent e.area (nd e.left) (nd e.right) (hpos e he)
      (by rw [hL]; exact hc) (by rw [hL, hR])
    have h1 : (nd e.left).vrtm = s.vrtm := by rw [hL]
    have h2 : (nd e.left).mom = s.mom := by rw [hL]
    have h3 : (nd e.left).p = s.p := by rw [hL]
    have h4 : (nd e.left).rho = s.rho := by rw [hL]
    have h5 : (nd e.left).totalH = s.totalH := by rw [hL]
    cases d with
    | mom k =>
      simp only
      rw [h.1 k, h1, h2, h3]
      simp only [mul_add, Finset.sum_add_distrib, mul_ite, mul_zero, Finset.sum_ite_eq', Finset.mem_univ,
        if_true, Finset.sum_mul]
      congr 1
      · exact Finset.sum_congr rfl fun j _ => by ring
      · ring
    | mass =>
      simp only
      rw [h.2.1, h1, h4, Finset.sum_mul]
      exact Finset.sum_congr rfl fun j _ => by ring
    | energy =>
      simp only
      rw [h.2.2, h1, h5, Finset.sum_mul]
      exact Finset.sum_congr rfl fun j _ => by ring
  generalize hw : (fun j => (match d with
        | .mom k => s.vrtm j * s.mom k + if j = k then s.p else 0
        | .mass => s.vrtm j * s.rho
        | .energy => s.vrtm j * s.totalH : ℝ)) = w at hflux
  have hflux' : ∀ e ∈ edges, edgeFlux e.area (nd e.left) (nd e.right) d = ∑ j, e.area j * w j := by
    intro e he; rw [hflux e he]; simp only [← hw]
  have hfold : ∀ (l : List (Edge N n)) (r : N → Dof n → ℝ),
      (∀ e ∈ l, edgeFlux e.area (nd e.left) (nd e.right) d = ∑ j, e.area j * w j) →
      l.foldl (edgeStep nd) r i d = r i d - ∑ j, outArea l i j * w j := by
    intro l
    induction l with
    | nil => intro r _; simp [outArea]
    | cons e t ih =>
      intro r hl
      rw [List.foldl_cons, ih _ (fun e he => hl e (by simp [he]))]
      have he := hl e (by simp)
      have : ∀ j, outArea (e :: t) i j = ((if e.left = i then e.area j else 0) -
          (if e.right = i then e.area j else 0)) + outArea t i j := by
        intro j; simp [outArea]
      simp only [this, add_mul, Finset.sum_add_distrib, sub_mul, Finset.sum_sub_distrib, ite_mul, zero_mul]
      simp only [edgeStep, addAt, he]
      have c1 : (i = e.left) = (e.left = i) := propext eq_comm
      have c2 : (i = e.right) = (e.right = i) := propext eq_comm
      simp only [c1, c2]
      by_cases h1 : e.left = i <;> by_cases h2 : e.right = i <;>
        simp only [h1, h2, if_true, if_false, Finset.sum_const_zero] <;> ring
  rw [assemble, List.foldl_nil, hfold edges _ hflux']
  simp [hclosed]

end

/-- Two nodes joined by two opposite edges in one dimension: closed at both nodes, areas positive. -/
example : (∀ i : Fin 2, ∀ j, outArea ([⟨0, 1, fun _ => 2⟩, ⟨1, 0, fun _ => 2⟩] : List (Edge (Fin 2) 1)) i j = 0) ∧
    0 < asq (n := 1) (fun _ => (2 : ℝ)) := by
  constructor
  · intro i j; fin_cases i <;> norm_num [outArea]
  · norm_num [asq]

/-! ## Auxiliary variables -/

/-- **C64** Pressure and total energy are inverse to each other at fixed density, velocity and `γ ≠ 1`. -/
theorem c64_pressure_energy_inverse {n : ℕ} (gamma rho p te : ℝ) (u : Fin n → ℝ) (hg : gamma ≠ 1) :
    pressureOf gamma rho (totalEnergyOf gamma rho p u) u = p ∧
    totalEnergyOf gamma rho (pressureOf gamma rho te u) u = te := by
  have : gamma - 1 ≠ 0 := sub_ne_zero.2 hg
  constructor <;> unfold pressureOf totalEnergyOf <;> field_simp <;> ring

/-- **C64** Velocity and momentum are inverse to each other for nonzero density. -/
theorem c64_velocity_momentum_inverse {n : ℕ} (rho : ℝ) (u m : Fin n → ℝ) (h : rho ≠ 0) :
    velocityOf rho (momentumOf rho u) = u ∧ momentumOf rho (velocityOf rho m) = m := by
  constructor <;> funext j <;> simp only [velocityOf, momentumOf] <;> field_simp

/-- **C64** With `γ = cp/cv` the recovered pressure and temperature satisfy the ideal-gas law
`p = ρ (cp - cv) T`, and the total enthalpy recomputed from `h = cp T` is total energy plus pressure. -/
theorem c64_ideal_gas {n : ℕ} (cp cv rho te : ℝ) (u : Fin n → ℝ) (hcv : cv ≠ 0) (hr : rho ≠ 0) :
    pressureOf (cp / cv) rho te u = rho * (cp - cv) * temperatureOf cv rho te u ∧
    totalEnthalpyOf rho (cp * temperatureOf cv rho te u) u = te + pressureOf (cp / cv) rho te u := by
  constructor <;> simp only [pressureOf, temperatureOf, totalEnthalpyOf] <;> field_simp <;> ring

/-- **C64** Physical states stay physical: if the total energy exceeds the kinetic energy, then for `γ > 1`,
positive `cv` and density, pressure, temperature and speed of sound are positive. -/
theorem c64_positive {n : ℕ} (gamma cv rho te : ℝ) (u : Fin n → ℝ) (hg : 1 < gamma) (hcv : 0 < cv)
    (hr : 0 < rho) (he : 1 / 2 * rho * uSq u < te) :
    0 < pressureOf gamma rho te u ∧ 0 < temperatureOf cv rho te u ∧
      0 < soundOf gamma rho (pressureOf gamma rho te u) := by
  have hp : 0 < pressureOf gamma rho te u := mul_pos (by linarith) (by linarith)
  refine ⟨hp, ?_, ?_⟩
  · refine div_pos ?_ hcv
    rw [sub_pos, lt_div_iff₀ hr]; linarith
  · refine Real.sqrt_pos.2 (div_pos (mul_pos (by linarith) hp) hr)

/-- **C64** The Mach number times the speed of sound is the flow speed. -/
theorem c64_mach {n : ℕ} (gamma rho p : ℝ) (u : Fin n → ℝ) (h : 0 < gamma * p / rho) :
    0 ≤ machOf gamma rho p u ∧ (machOf gamma rho p u * soundOf gamma rho p) ^ 2 = ∑ j, u j * u j := by
  have h1 : Real.sqrt (gamma * p / rho) ≠ 0 := (Real.sqrt_pos.2 h).ne'
  have h2 : 0 ≤ uSq u := Finset.sum_nonneg fun j _ => mul_self_nonneg _
  refine ⟨div_nonneg (Real.sqrt_nonneg _) (Real.sqrt_nonneg _), ?_⟩
  rw [machOf, soundOf, div_mul_cancel₀ _ h1, Real.sq_sqrt h2]; rfl

example : ∃ (te : ℝ) (u : Fin 2 → ℝ), 1 / 2 * 1 * uSq u < te := ⟨3, fun _ => 1, by norm_num [uSq]⟩

/-! ## Open boundaries -/

theorem open_normal {n : ℕ} (a : Fin n → ℝ) (o : OpenData n) :
    openMach a o = inOutCheck a o / openSound a o := by
  rw [openMach, inOutCheck, Finset.sum_div]

/-- **C65** Mass leaves through an open point exactly when the flow points out of the domain, and enters when
it points in (positive density and speed of sound). -/
theorem c65_mass_flux_sign {n : ℕ} (a : Fin n → ℝ) (o : OpenData n) (hr : 0 < o.rho)
    (hc : 0 < openSound a o) (ha : 0 < asq a) :
    (0 < inOutCheck a o → 0 < openFlux a o .mass) ∧
    (inOutCheck a o ≤ 0 → openFlux a o .mass < 0) := by
  have hm : 0 < aMag a := Real.sqrt_pos.2 ha
  constructor
  · intro h
    have hM : 0 < openMach a o := by rw [open_normal]; exact div_pos h hc
    have hs : 0 < splitMplus (openMach a o) := by
      unfold splitMplus
      split_ifs
      · linarith [abs_nonneg (openMach a o)]
      · have := sq_nonneg (openMach a o * openMach a o - 1); nlinarith
    simp only [openFlux, h, if_true]
    positivity
  · intro h
    have hM : openMach a o ≤ 0 := by rw [open_normal]; exact div_nonpos_of_nonpos_of_nonneg h hc.le
    have hs : splitMminusOpen (openMach a o) < 0 := by
      unfold splitMminusOpen
      split_ifs with h1
      · rw [abs_of_nonpos hM] at h1 ⊢; linarith
      · have := sq_nonneg (openMach a o * openMach a o - 1); nlinarith
    simp only [openFlux, not_lt.2 h, if_false]
    have : 0 < aMag a * o.rho * openSound a o := by positivity
    nlinarith

/-- **C65** Supersonic outflow: the flux is the exact Euler flux of the nodal state with the specified
pressure. -/
theorem c65_supersonic_outflow {n : ℕ} (a : Fin n → ℝ) (o : OpenData n) (ha : 0 < asq a)
    (hc : 0 < openSound a o) (hM : openSound a o ≤ inOutCheck a o) :
    (∀ i, openFlux a o (.mom i) = (∑ j, o.vrtm j * a j) * o.mom i + o.bcP * a i) ∧
    openFlux a o .mass = (∑ j, o.vrtm j * a j) * o.rho ∧
    openFlux a o .energy = (∑ j, o.vrtm j * a j) * o.totalH := by
  have hm : aMag a ≠ 0 := (Real.sqrt_pos.2 ha).ne'
  have hin : 0 < inOutCheck a o := lt_of_lt_of_le hc hM
  have h1 : 1 ≤ openMach a o := by rw [open_normal, le_div_iff₀ hc, one_mul]; exact hM
  obtain ⟨e1, -, e2, -⟩ := (c63_supersonic _).1 h1
  have hfl : aMag a * openMach a o * openSound a o = ∑ j, o.vrtm j * a j := by
    rw [open_normal, mul_assoc, div_mul_cancel₀ _ hc.ne', inOutCheck, Finset.mul_sum]
    exact Finset.sum_congr rfl fun j _ => by field_simp
  simp only [openFlux, hin, if_true, e1, e2]
  refine ⟨fun i => ?_, ?_, ?_⟩ <;> rw [← hfl] <;> ring

/-- **C65 is false of the code**: for entering flow the static pressure is not the specified total pressure
minus `ρ|u|²/2`, because the squares are missing; for a flow entering against the coordinate direction it even
exceeds the total pressure. -/
theorem c65_total_pressure_wrong : ∃ (a : Fin 1 → ℝ) (o : OpenData 1), 0 < asq a ∧ 0 < o.rho ∧
    inOutCheck a o < 0 ∧ openPressure a o ≠ o.bcP - 1 / 2 * o.rho * uSq o.vrtm ∧ o.bcP < openPressure a o := by
  refine ⟨fun _ => 1, ⟨1, fun _ => -1, fun _ => -1, 1, 5, 300, 1, 1⟩, ?_, ?_, ?_, ?_, ?_⟩ <;>
    norm_num [asq, inOutCheck, openPressure, openUSq, uSq, aMag]

/-- **C65, the part that holds**: leaving flow uses the specified pressure; entering flow uses the specified
total pressure minus `ρ|u|²/2` when every velocity component is zero or one.  Missing: all other entering
flows. -/
theorem c65_static_pressure_partial {n : ℕ} (a : Fin n → ℝ) (o : OpenData n) :
    (0 < inOutCheck a o → openPressure a o = o.bcP) ∧
    (inOutCheck a o ≤ 0 → (∀ j, o.vrtm j = 0 ∨ o.vrtm j = 1) →
      openPressure a o = o.bcP - 1 / 2 * o.rho * uSq o.vrtm) := by
  constructor
  · intro h; simp [openPressure, h]
  · intro h hu
    have : openUSq o = uSq o.vrtm :=
      Finset.sum_congr rfl fun j _ => by rcases hu j with e | e <;> rw [e] <;> norm_num
    simp [openPressure, not_lt.2 h, this]

end Nalu.Gas
