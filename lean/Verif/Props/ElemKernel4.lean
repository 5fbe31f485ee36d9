import Mathlib.Algebra.Order.BigOperators.Group.Finset
import Verif.Proofs.ElemOpen
import Verif.Props.ElemKernel3

/-!
# Element kernels at open boundaries, monotonicity and free-stream preservation (C88, C89)
-/

set_option linter.unusedSectionVars false

namespace Nalu.Kernel
open Nalu.Edge

variable {K : Type*} [Field K] [LinearOrder K] [IsStrictOrderedRing K]
variable {nn nip nf nd : ℕ}

theorem openTraction_lin (f : Face nn nf nip nd K) (mu : Fin nn → K) (u d : Fin nn → Fin nd → K)
    (ip : Fin nip) (k : Fin nd) :
    openTraction f mu (u + d) ip k = openTraction f mu u ip k + openTraction f mu d ip k := by
  rw [openTraction, openTraction, openTraction, ← Finset.sum_add_distrib]
  exact Finset.sum_congr rfl fun ic _ => viscRow_lin _ _ _ _ _ _

/-- **C84** Open boundary of the momentum equation: exact linearisation without the explicit divergence term
(gradients, mass flow rate and specified velocity held fixed). -/
theorem c84_momentumOpen (o : Opts K) (f : Face nn nf nip nd K) (mdot : Fin nip → K)
    (v : UpwNodes nn nd K) (m : OpenMom nn nd K) (hm : m.incDivU = 0) :
    ExactNewton (fun (u : Fin nn × Fin nd → K) =>
      momentumOpenElem o f mdot v { m with u := fun n i => u (n, i) }) := by
  refine newton_of _ (fun u a => -∑ ip, if a.1 = f.near ip then
      openMomAdv o f mdot v { m with u := fun n i => u (n, i) } ip a.2 +
      (openTraction f v.mu (fun n i => u (n, i)) ip a.2 -
        faceNormal f ip a.2 * (∑ l, faceNormal f ip l * openTraction f v.mu (fun n i => u (n, i)) ip l))
      else 0) _
    (fun u s a => ?_)
    (fun u s d a => momentumOpenElem_act o f mdot v { m with u := fun n i => u (n, i) } s d a.1 a.2)
    (fun u d a => ?_)
  · obtain ⟨r, k⟩ := a
    rw [momentumOpenElem_rhs, sub_eq_add_neg]
    simp only [hm, mul_zero, zero_mul, add_zero]
  · rw [← neg_add', ← Finset.sum_add_distrib]
    congr 1
    refine Finset.sum_congr rfl fun ip _ => ?_
    obtain ⟨r, k⟩ := a
    by_cases h : r = f.near ip
    · simp only [h, if_true]
      have hT : ∀ l, openTraction f v.mu (fun n i => (u + d) (n, i)) ip l =
          openTraction f v.mu (fun n i => u (n, i)) ip l + openTraction f v.mu (fun n i => d (n, i)) ip l :=
        fun l => openTraction_lin f v.mu (fun n i => u (n, i)) (fun n i => d (n, i)) ip l
      simp only [hT, mul_add, Finset.sum_add_distrib]
      have hA : openMomAdv o f mdot v { m with u := fun n i => (u + d) (n, i) } ip k =
          openMomAdv o f mdot v { m with u := fun n i => u (n, i) } ip k +
          (if mdot ip > 0 then mdot ip * (pecFac o v (f.opp ip) (f.near ip) *
            (o.alphaUpw * d (f.near ip, k) + (1 - o.alphaUpw) * ∑ ic, f.adv ip ic * d (f.node ic, k)) +
            (1 - pecFac o v (f.opp ip) (f.near ip)) * ∑ ic, f.adv ip ic * d (f.node ic, k)) else 0) := by
        by_cases hp : mdot ip > 0
        · simp only [openMomAdv, hp, if_true, openMomFlux]
          have hr : ∑ ic, f.adv ip ic * (u + d) (f.node ic, k) =
              ∑ ic, f.adv ip ic * u (f.node ic, k) + ∑ ic, f.adv ip ic * d (f.node ic, k) :=
            rowLin (f.adv ip) (fun ic => u (f.node ic, k)) (fun ic => d (f.node ic, k))
          rw [hr, Pi.add_apply]
          generalize (∑ j, ((∑ ic, f.adv ip ic * v.x (f.node ic) j) - v.x (f.near ip) j) *
            m.G (f.node (f.loc ip)) k j * o.hoUpwind) = E
          ring
        · simp [openMomAdv, hp, openMomFlux]
      rw [hA]; ring
    · simp [h]

/-! ## C88 -/

/-- **C88** With pure upwinding (`alpha_upw = 1`, Peclet factor 1) the upwind kernel adds nothing positive off the
diagonal beyond what diffusion alone adds, and its row sums are the net mass outflow of the node: with
non-obtuse diffusion and balanced mass flow rates the matrix is of non-negative type, so no new extrema are
created. -/
theorem c88_upwind_mmatrix (o : Opts K) (ha : o.alphaUpw = 1) (hp : ∀ x, o.peclet x = 1)
    (e : Scs nn nip nd K) (hN : ∀ ip, Unity (e.adv ip)) (hg : ∀ ip, GradConst (e.dndx ip))
    (mdot : Fin nip → K) (v : UpwNodes nn nd K) (q : Fin nn → K) (G : Fin nn → Fin nd → K)
    (s : LocalSys (Fin nn) K) (a : Fin nn) :
    (∀ b, a ≠ b → (scalarUpw o e mdot v q G s).lhs a b ≤ (scalarDiff e v.mu q s).lhs a b) ∧
    ∑ b, ((scalarUpw o e mdot v q G s).lhs a b - s.lhs a b) = netOut e.il e.ir mdot a := by
  have hpe : ∀ ip, pecFac o v (e.il ip) (e.ir ip) = 1 := fun ip => hp _
  have hrow : ∀ ip b, upwRow o e mdot v ip b =
      (if b = e.il ip then 1 / 2 * (mdot ip + |mdot ip|) else 0) +
        (if b = e.ir ip then 1 / 2 * (mdot ip - |mdot ip|) else 0) +
        diffFac (interp (e.shape ip) v.mu) (e.dndx ip b) (e.area ip) := by
    intro ip b
    simp only [upwRow, hpe, alhsfacL, alhsfacR, cenFac, ha]; simp
  constructor
  · intro b hab
    rw [scalarUpw_lhs, scalarDiff_eq, scalarAdvDiff_lhs]
    refine add_le_add le_rfl (Finset.sum_le_sum fun ip _ => ?_)
    rw [hrow]
    simp only [lrs, advDiffRow, mul_zero, zero_add]
    have h1 := le_abs_self (mdot ip)
    have h2 := neg_abs_le (mdot ip)
    have key : ∀ (A B C D : Prop) [Decidable A] [Decidable B] [Decidable C] [Decidable D] (m d : K),
        ¬(A ∧ C) → ¬(B ∧ D) → m ≤ |m| → -|m| ≤ m →
        ((if A then ((if C then 1 / 2 * (m + |m|) else 0) + (if D then 1 / 2 * (m - |m|) else 0)) + d else 0) +
          if B then -(((if C then 1 / 2 * (m + |m|) else 0) + (if D then 1 / 2 * (m - |m|) else 0)) + d) else 0) ≤
        (if A then d else 0) + if B then -d else 0 := by
      intro A B C D _ _ _ _ m d h1 h2 h3 h4
      by_cases A <;> by_cases B <;> by_cases C <;> by_cases D <;> simp_all <;> linarith
    exact key _ _ _ _ _ _ (fun h => hab (h.1.trans h.2.symm)) (fun h => hab (h.1.trans h.2.symm)) h1 h2
  · simp only [scalarUpw_lhs, add_sub_cancel_left]
    rw [Finset.sum_comm, ← sum_lrs_net]
    refine Finset.sum_congr rfl fun ip _ => ?_
    rw [lrs_sum]
    congr 1
    simp only [hrow, Finset.sum_add_distrib]
    have := diffFac_const (interp (e.shape ip) v.mu) (e.dndx ip) (e.area ip) (hg ip) 1
    simp only [mul_one] at this
    rw [this]
    simp; ring

/-- **C88** Where fluid enters through an open boundary a scalar enters with the specified value only: the interior
solution does not appear, neither in the right-hand side nor in the matrix. -/
theorem c88_scalar_open_entering (o : Opts K) (f : Face nn nf nip nd K) (mdot : Fin nip → K)
    (hm : ∀ ip, mdot ip ≤ 0) (v : UpwNodes nn nd K) (q qbc : Fin nn → K) (G : Fin nn → Fin nd → K)
    (s : LocalSys (Fin nn) K) (a : Fin nn) :
    (scalarOpenElem o f mdot v q qbc G s).rhs a = s.rhs a - ∑ ip, (if a = f.near ip then
      mdot ip * ∑ ic, f.adv ip ic * qbc (f.node ic) else 0) ∧
    ∀ b, (scalarOpenElem o f mdot v q qbc G s).lhs a b = s.lhs a b := by
  have hn : ∀ ip, ¬ mdot ip > 0 := fun ip => not_lt.mpr (hm ip)
  constructor
  · rw [scalarOpenElem_rhs, sub_eq_add_neg, ← Finset.sum_neg_distrib]
    congr 1
    refine Finset.sum_congr rfl fun ip _ => ?_
    simp only [openScalarFlux, hn, if_false]
    split_ifs <;> simp
  · intro b
    have := scalarOpenElem_act o f mdot v q qbc G s (Pi.single b 1) a
    simp only [hn, if_false, act_single] at this
    simpa using this

/-- **C88** Where fluid leaves, the specified value does not appear. -/
theorem c88_scalar_open_leaving (o : Opts K) (f : Face nn nf nip nd K) (mdot : Fin nip → K)
    (hm : ∀ ip, 0 < mdot ip) (v : UpwNodes nn nd K) (q qbc qbc' : Fin nn → K) (G : Fin nn → Fin nd → K)
    (s : LocalSys (Fin nn) K) (a : Fin nn) :
    (scalarOpenElem o f mdot v q qbc G s).rhs a = (scalarOpenElem o f mdot v q qbc' G s).rhs a ∧
    ∀ b, (scalarOpenElem o f mdot v q qbc G s).lhs a b = (scalarOpenElem o f mdot v q qbc' G s).lhs a b := by
  constructor
  · rw [scalarOpenElem_rhs, scalarOpenElem_rhs]
    congr 1
    refine Finset.sum_congr rfl fun ip _ => ?_
    simp only [openScalarFlux, hm ip, if_true]
  · intro b
    have h1 := scalarOpenElem_act o f mdot v q qbc G s (Pi.single b 1) a
    have h2 := scalarOpenElem_act o f mdot v q qbc' G s (Pi.single b 1) a
    rw [act_single] at h1 h2
    rw [h1, h2]

/-- **C88** A uniform scalar equal to the specified value leaves or enters at that value times the mass flow
rate. -/
theorem c88_scalar_open_uniform (o : Opts K) (f : Face nn nf nip nd K) (hN : ∀ ip, Unity (f.adv ip))
    (mdot : Fin nip → K) (v : UpwNodes nn nd K) (c : K) (s : LocalSys (Fin nn) K) (a : Fin nn) :
    (scalarOpenElem o f mdot v (fun _ => c) (fun _ => c) (fun _ _ => 0) s).rhs a =
      s.rhs a - c * ∑ ip, if a = f.near ip then mdot ip else 0 := by
  rw [scalarOpenElem_rhs, sub_eq_add_neg, ← mul_neg, ← Finset.sum_neg_distrib, Finset.mul_sum]
  congr 1
  refine Finset.sum_congr rfl fun ip _ => ?_
  have h1 : ∑ ic, f.adv ip ic * c = c := by
    rw [← Finset.sum_mul, show ∑ ic, f.adv ip ic = 1 from hN ip, one_mul]
  simp only [openScalarFlux, h1, mul_zero, zero_mul, Finset.sum_const_zero, add_zero]
  split_ifs <;> ring

/-- **C88** The weak Dirichlet flux is consistent: for an affine field equal to its specified value on the face the
penalty vanishes and the flux is exactly `-mu grad q . A`. -/
theorem c88_flux_penalty_consistent (pen : K) (f : Face nn nf nip nd K) (x : Fin nn → Fin nd → K)
    (hg : ∀ ip, GradConst (f.dndx ip)) (hg1 : ∀ ip, GradLinear (f.dndx ip) x) (mu qbc : Fin nn → K)
    (c : K) (w : Fin nd → K) (hbc : ∀ ic, qbc (f.node ic) = affine c w (x (f.node ic)))
    (s : LocalSys (Fin nn) K) (a : Fin nn) :
    (scalarFluxPenalty pen f mu (fun n => affine c w (x n)) qbc s).rhs a = s.rhs a + ∑ ip,
      if a = f.near ip then (∑ ic, f.shape ip ic * mu (f.node ic)) * ∑ j, w j * f.area ip j else 0 := by
  rw [scalarFluxPenalty_rhs]
  congr 1
  refine Finset.sum_congr rfl fun ip _ => ?_
  by_cases h : a = f.near ip
  · simp only [h, if_true, hbc, sub_self, mul_zero, zero_mul, zero_sub, neg_neg]
    rw [Finset.mul_sum]
    refine Finset.sum_congr rfl fun j _ => ?_
    rw [grad_affine _ x (hg ip) (hg1 ip)]; ring
  · simp [h]

/-- **C88** Momentum entrained through an open boundary: the velocity brought in has the normal component given by
the mass flow rate, `mdot/(rho A)`, and the tangential component specified by the user. -/
theorem c88_entrained_velocity (o : Opts K) (f : Face nn nf nip nd K) (mdot : Fin nip → K)
    (v : UpwNodes nn nd K) (m : OpenMom nn nd K) (hc : m.meshCorr = 0) (ip : Fin nip) (hm : mdot ip < 0)
    (hn : ∑ j, faceNormal f ip j * faceNormal f ip j = 1) :
    ∃ ue : Fin nd → K, (∀ i, openMomAdv o f mdot v m ip i = mdot ip * ue i) ∧
      ∑ i, ue i * faceNormal f ip i =
        mdot ip / ((∑ ic, f.shape ip ic * v.rho (f.node ic)) * f.aMag ip) ∧
      ∀ t : Fin nd → K, ∑ i, t i * faceNormal f ip i = 0 →
        ∑ i, ue i * t i = ∑ i, (∑ ic, f.adv ip ic * m.ubc (f.node ic) i) * t i := by
  set U := mdot ip / ((∑ ic, f.shape ip ic * v.rho (f.node ic)) * f.aMag ip) with hU
  set us : Fin nd → K := fun i => ∑ ic, f.adv ip ic * m.ubc (f.node ic) i with hus
  set n := faceNormal f ip with hnn
  refine ⟨fun i => U * n i + (us i - (∑ j, us j * n j) * n i), fun i => ?_, ?_, fun t ht => ?_⟩
  · have hp : ¬ mdot ip > 0 := by linarith [hm]
    simp only [openMomAdv, hp, if_false, openMomFlux, hc, mul_zero, add_zero]
    rw [← hU]
    change mdot ip * U * n i + mdot ip * (us i - (∑ j, us j * n j) * n i) = _
    ring
  · generalize hS : (∑ j, us j * n j) = S
    have : ∀ i, (U * n i + (us i - S * n i)) * n i = (U - S) * (n i * n i) + us i * n i := fun i => by ring
    simp only [this, Finset.sum_add_distrib, ← Finset.mul_sum, hn, hS]; ring
  · generalize (∑ j, us j * n j) = S
    have : ∀ i, (U * n i + (us i - S * n i)) * t i = (U - S) * (t i * n i) + us i * t i := fun i => by ring
    simp only [this, Finset.sum_add_distrib, ← Finset.mul_sum, ht]; ring

/-- **C88** Without the explicit divergence term the viscous force of an open boundary is the tangential part of
the viscous traction: it has no component along the normal, and tangentially it equals the traction.
Partial: with `include_divergence` on, the claim fails; see `c88_open_divU_spurious`. -/
theorem c88_open_viscous_tangential_partial (o : Opts K) (f : Face nn nf nip nd K) (mdot : Fin nip → K)
    (v : UpwNodes nn nd K) (m : OpenMom nn nd K) (hd : m.incDivU = 0)
    (hn : ∀ ip, ∑ j, faceNormal f ip j * faceNormal f ip j = 1) (s : LocalSys (Fin nn × Fin nd) K)
    (r : Fin nn) :
    ∃ F : Fin nip → Fin nd → K,
      (∀ k, (momentumOpenElem o f mdot v m s).rhs (r, k) = s.rhs (r, k) - ∑ ip, if r = f.near ip then
        openMomAdv o f mdot v m ip k + F ip k else 0) ∧
      (∀ ip, ∑ k, F ip k * faceNormal f ip k = 0) ∧
      ∀ ip (t : Fin nd → K), ∑ k, t k * faceNormal f ip k = 0 →
        ∑ k, F ip k * t k = ∑ k, openTraction f v.mu m.u ip k * t k := by
  refine ⟨fun ip k => openTraction f v.mu m.u ip k -
    faceNormal f ip k * (∑ l, faceNormal f ip l * openTraction f v.mu m.u ip l), fun k => ?_,
    fun ip => ?_, fun ip t ht => ?_⟩
  · rw [momentumOpenElem_rhs]
    simp only [hd, mul_zero, zero_mul, add_zero]
  · generalize hS : (∑ l, faceNormal f ip l * openTraction f v.mu m.u ip l) = S
    have : ∀ k, (openTraction f v.mu m.u ip k - faceNormal f ip k * S) * faceNormal f ip k =
        faceNormal f ip k * openTraction f v.mu m.u ip k - S * (faceNormal f ip k * faceNormal f ip k) :=
      fun k => by ring
    simp only [this, Finset.sum_sub_distrib, ← Finset.mul_sum, hn, hS]; ring
  · beta_reduce
    generalize hS : (∑ l, faceNormal f ip l * openTraction f v.mu m.u ip l) = S
    have : ∀ k, (openTraction f v.mu m.u ip k - faceNormal f ip k * S) * t k =
        openTraction f v.mu m.u ip k * t k - S * (t k * faceNormal f ip k) := fun k => by ring
    simp only [this, Finset.sum_sub_distrib, ← Finset.mul_sum, ht]; ring

/-- Uniform traction-free stream `u = (x, 0)` through an outflow face with normal `x`: one two-node "element"
of the plane. -/
def spuriousFace : Face 2 1 1 2 ℚ :=
  ⟨fun _ _ => 1, fun _ _ => 1, fun _ => ![1, 0], fun _ => 1, fun _ => ![![-1, 0], ![1, 0]], fun _ => 1,
    fun _ => 1, fun _ => 0, fun _ => 0⟩

/-- **C88** The claim fails with the divergence term: on a face with normal `(1,0)` and the purely normal stream
`u = (x, 0)` the kernel adds a tangential (`y`) force `-2/3 mu du/dx A`, although by symmetry there is none
(and the interior kernel, whose divergence stress acts along the normal, has none). -/
theorem c88_open_divU_spurious :
    let m : OpenMom 2 2 ℚ := ⟨![![0, 0], ![1, 0]], fun _ _ => 0, fun _ _ => 0, fun _ _ _ => 0, 0, 1⟩
    let v : UpwNodes 2 2 ℚ := ⟨![![0, 0], ![1, 0]], fun _ _ => 0, fun _ => 1, fun _ => 3⟩
    let o : Opts ℚ := ⟨0, 1, 1, false, 0, 0, fun _ => 0⟩
    (momentumOpenElem o spuriousFace (fun _ => 0) v m ⟨fun _ _ => 0, fun _ => 0⟩).rhs (1, 1) = -2 := by
  decide +kernel

/-! ## C89 free-stream preservation -/

variable {M : Type*}

/-- Scalar kernels of one element: upwind advection-diffusion at the mass flow rates of the continuity equation,
then the mass term (AssembleElemSolverAlgorithm.C:97-135). -/
def scalarElemWork (o : Opts K) (b : Bdf K) (F : FlowFields M nd K) (p : M → K) (x : M → Fin nd → K)
    (mu qN qNm1 : M → K) (G : M → Fin nd → K) (e : ElemRec M nd K) : Work M K :=
  ⟨Fin e.nn, e.node, fun q s => scalarMass b e.scv (F.levels e.node)
      ⟨q, fun a => qN (e.node a), fun a => qNm1 (e.node a)⟩
    (scalarUpw o e.scs (elemMdot b F p e) ⟨fun a => x (e.node a), fun a => F.vrtm (e.node a),
      fun a => F.rho (e.node a), fun a => mu (e.node a)⟩ q (fun a => G (e.node a)) s)⟩

/-- Scalar kernel of one open face. -/
def scalarOpenWork (o : Opts K) (b : Bdf K) (pen : K) (F : FlowFields M nd K) (p : M → K)
    (x : M → Fin nd → K) (mu qbc : M → K) (G : M → Fin nd → K) (f : FaceRec M nd K) : Work M K :=
  ⟨Fin f.nn, f.node, fun q s => scalarOpenElem o f.face (openMdotAt b pen F p f)
    ⟨fun a => x (f.node a), fun a => F.vrtm (f.node a), fun a => F.rho (f.node a), fun a => mu (f.node a)⟩
    q (fun a => qbc (f.node a)) (fun a => G (f.node a)) s⟩

theorem sum_net_push [DecidableEq M] {n m : ℕ} (i : M) (node : Fin n → M) (il ir : Fin m → Fin n)
    (v : Fin m → K) :
    ∑ a, (if i = node a then netOut il ir v a else 0) =
      ∑ ip, ((if i = node (il ip) then v ip else 0) - if i = node (ir ip) then v ip else 0) := by
  have : ∀ a, (if i = node a then netOut il ir v a else 0) =
      (if i = node a then ∑ ip, (if a = il ip then v ip else 0) else 0) -
        if i = node a then ∑ ip, (if a = ir ip then v ip else 0) else 0 := by
    intro a; simp only [netOut, Finset.sum_sub_distrib]; split_ifs <;> simp
  simp only [this, Finset.sum_sub_distrib, sum_ite_push]

theorem sum_map_neg_mul {E : Type*} (l : List E) (c : K) (g : E → K) :
    (l.map fun e => -(c * g e)).sum = -(c * (l.map g).sum) := by
  induction l with
  | nil => simp
  | cons x l ih => simp [ih]; ring

/-- **C89** A uniform scalar stays uniform: if the mass flow rates balance at node `i` — which the continuity solve
guarantees, C87 — and `i` lies on no inflow face (there the value is imposed), then the assembled scalar
equation at node `i` has exactly zero residual when the field is the same constant at all time levels
and on the open boundary; for every mesh, diffusivity, blending, limiter and time scheme, and for
densities changing in time. -/
theorem c89_free_stream_scalar [DecidableEq M] (o : Opts K) (b : Bdf K) (pen : K) (F : FlowFields M nd K)
    (elems : List (ElemRec M nd K)) (opens inflows : List (FaceRec M nd K)) (p mu : M → K)
    (x : M → Fin nd → K) (c : K) (i : M)
    (hN : ∀ e ∈ elems, ∀ ip, Unity (e.scs.adv ip)) (hV : ∀ e ∈ elems, ∀ ip, Unity (e.scv.shape ip))
    (hg : ∀ e ∈ elems, ∀ ip, GradConst (e.scs.dndx ip)) (hO : ∀ f ∈ opens, ∀ ip, Unity (f.face.adv ip))
    (hi : ∀ f ∈ inflows, ∀ a, f.node (f.face.node a) ≠ i)
    (hbal : massBalance b pen F elems opens inflows p i = 0) :
    (assembleWorks (elems.map (scalarElemWork o b F p x mu (fun _ => c) (fun _ => c) (fun _ _ => 0)) ++
      opens.map (scalarOpenWork o b pen F p x mu (fun _ => c) (fun _ _ => 0))) (fun _ => c)).rhs i = 0 := by
  rw [assembleWorks_rhs, List.map_append, List.map_map, List.map_map, List.sum_append]
  have h1 : elems.map ((fun w : Work M K => ∑ a, if i = w.dof a then
      (w.kern (fun _ => c) ⟨fun _ _ => 0, fun _ => 0⟩).rhs a else 0) ∘
        scalarElemWork o b F p x mu (fun _ => c) (fun _ => c) (fun _ _ => 0)) =
      elems.map (fun e => -(c * ((∑ ip, ((if i = e.node (e.scs.il ip) then elemMdot b F p e ip else 0) -
        if i = e.node (e.scs.ir ip) then elemMdot b F p e ip else 0)) +
        ∑ ip, if i = e.node (e.scv.node ip) then accumAt b F e ip else 0))) := by
    refine List.map_congr_left fun e he => ?_
    rw [← sum_net_push i e.node, ← sum_ite_push i e.node e.scv.node, ← Finset.sum_add_distrib,
      Finset.mul_sum, ← Finset.sum_neg_distrib]
    change (∑ a : Fin e.nn, if i = e.node a then (scalarMass b e.scv (F.levels e.node)
      ⟨fun _ => c, fun _ => c, fun _ => c⟩ (scalarUpw o e.scs (elemMdot b F p e) ⟨fun a => x (e.node a),
        fun a => F.vrtm (e.node a), fun a => F.rho (e.node a), fun a => mu (e.node a)⟩ (fun _ => c)
        (fun _ _ => 0) ⟨fun _ _ => 0, fun _ => 0⟩)).rhs a else 0) = _
    refine Finset.sum_congr rfl fun a _ => ?_
    by_cases hia : i = e.node a
    · simp only [if_pos hia]
      rw [scalarMass_rhs, c85_uniform_scalarUpw o e.scs (hN e he) (hg e he), zero_sub, mul_add, neg_add,
        Finset.mul_sum (a := c), ← Finset.sum_neg_distrib]
      congr 1
      refine Finset.sum_congr rfl fun ip _ => ?_
      have hc : interp (e.scv.shape ip) (fun _ => c) = c := by
        rw [interp, ← Finset.sum_mul, show ∑ ic, e.scv.shape ip ic = 1 from hV e he ip, one_mul]
      simp only [hc, accumAt]
      split_ifs <;> ring
    · simp only [if_neg hia]; simp
  have h2 : opens.map ((fun w : Work M K => ∑ a, if i = w.dof a then
      (w.kern (fun _ => c) ⟨fun _ _ => 0, fun _ => 0⟩).rhs a else 0) ∘
        scalarOpenWork o b pen F p x mu (fun _ => c) (fun _ _ => 0)) =
      opens.map (fun f => -(c * (∑ ip, if i = f.node (f.face.near ip) then openMdotAt b pen F p f ip
        else 0))) := by
    refine List.map_congr_left fun f hf => ?_
    rw [← sum_ite_push i f.node f.face.near, Finset.mul_sum, ← Finset.sum_neg_distrib]
    change (∑ a : Fin f.nn, if i = f.node a then (scalarOpenElem o f.face (openMdotAt b pen F p f)
      ⟨fun a => x (f.node a), fun a => F.vrtm (f.node a), fun a => F.rho (f.node a),
        fun a => mu (f.node a)⟩ (fun _ => c) (fun _ => c) (fun _ _ => 0)
        ⟨fun _ _ => 0, fun _ => 0⟩).rhs a else 0) = _
    refine Finset.sum_congr rfl fun a _ => ?_
    by_cases hia : i = f.node a
    · simp only [if_pos hia]
      rw [c88_scalar_open_uniform o f.face (hO f hf), zero_sub]
    · simp only [if_neg hia]; simp
  have h3 : (inflows.map fun f => ∑ ip, if i = f.node (f.face.node (f.face.loc ip)) then
      inflowMdotAt F f ip else 0).sum = 0 := by
    rw [List.sum_eq_zero]
    intro y hy
    obtain ⟨f, hf, rfl⟩ := List.mem_map.mp hy
    exact Finset.sum_eq_zero fun ip _ => if_neg fun h => hi f hf _ h.symm
  rw [massBalance, h3, add_zero] at hbal
  rw [h1, h2, sum_map_neg_mul, sum_map_neg_mul, List.sum_map_add]
  linear_combination -c * hbal

/-- **C89** Composed with the pressure solve: after solving the continuity row of node `i` and recomputing the mass
flow rates, a uniform scalar has zero residual at `i`. -/
theorem c89_uniform_after_solve [DecidableEq M] [Fintype M] (o : Opts K) (b : Bdf K) (hb : b.pts ≠ 0)
    (pen : K) (F : FlowFields M nd K) (elems : List (ElemRec M nd K)) (opens inflows : List (FaceRec M nd K))
    (p dp mu : M → K) (x : M → Fin nd → K) (c : K) (i : M)
    (hN : ∀ e ∈ elems, ∀ ip, Unity (e.scs.adv ip)) (hV : ∀ e ∈ elems, ∀ ip, Unity (e.scv.shape ip))
    (hg : ∀ e ∈ elems, ∀ ip, GradConst (e.scs.dndx ip)) (hO : ∀ f ∈ opens, ∀ ip, Unity (f.face.adv ip))
    (hi : ∀ f ∈ inflows, ∀ a, f.node (f.face.node a) ≠ i)
    (hsolve : ∑ j, (elemContinuity b pen F elems opens inflows p).mat i j * dp j =
      (elemContinuity b pen F elems opens inflows p).rhs i) :
    (assembleWorks (elems.map (scalarElemWork o b F (p + dp) x mu (fun _ => c) (fun _ => c)
        (fun _ _ => 0)) ++
      opens.map (scalarOpenWork o b pen F (p + dp) x mu (fun _ => c) (fun _ _ => 0))) (fun _ => c)).rhs i =
      0 :=
  c89_free_stream_scalar o b pen F elems opens inflows (p + dp) mu x c i hN hV hg hO hi
    (c87_discrete_continuity b hb pen F elems opens inflows p dp i hsolve)

/-- **C85** A uniform velocity feels no viscous force and is advected by the mass imbalance only, with every
blending option and with or without the divergence term. -/
theorem c85_uniform_momentumUpw (o : Opts K) (inc : K) (e : Scs nn nip nd K) (hN : ∀ ip, Unity (e.adv ip))
    (hg : ∀ ip, GradConst (e.dndx ip)) (mdot : Fin nip → K) (v : UpwNodes nn nd K) (U : Fin nd → K)
    (s : LocalSys (Fin nn × Fin nd) K) (n : Fin nn) (k : Fin nd) :
    (momentumUpw o inc e mdot v (fun _ => U) (fun _ _ _ => 0) s).rhs (n, k) =
      s.rhs (n, k) - U k * netOut e.il e.ir mdot n := by
  rw [momentumUpw_rhs]
  congr 1
  rw [← sum_lrs_net, Finset.mul_sum]
  refine Finset.sum_congr rfl fun ip _ => ?_
  rw [mul_comm (U k), ← lrs_smul]
  congr 1
  have h1 : interp (e.adv ip) (fun _ => U k) = U k := by
    rw [interp, ← Finset.sum_mul, show ∑ ic, e.adv ip ic = 1 from hN ip, one_mul]
  have h2 : divU (e.dndx ip) (fun _ => U) = 0 := by
    rw [divU, Finset.sum_comm]
    exact Finset.sum_eq_zero fun j _ => by rw [← Finset.mul_sum, hg ip j, mul_zero]
  have h3 : ∑ ic, viscRow (interp (e.shape ip) v.mu) (e.dndx ip ic) (e.area ip) U k = 0 := by
    simp only [viscRow, Finset.sum_add_distrib]
    have a1 : ∑ ic, ∑ j, -(interp (e.shape ip) v.mu) * e.dndx ip ic k * e.area ip j * U j = 0 := by
      rw [Finset.sum_comm]
      refine Finset.sum_eq_zero fun j _ => ?_
      have : ∀ ic, -(interp (e.shape ip) v.mu) * e.dndx ip ic k * e.area ip j * U j =
          e.dndx ip ic k * (-(interp (e.shape ip) v.mu) * e.area ip j * U j) := fun ic => by ring
      simp only [this, ← Finset.sum_mul]
      rw [hg ip k, zero_mul]
    have a2 := diffFac_const (interp (e.shape ip) v.mu) (e.dndx ip) (e.area ip) (hg ip) (U k)
    simp only [diffFac] at a2
    rw [a1, a2, add_zero]
  rw [h2, h3]
  simp only [momUpwAdv, upwAdv, h1, extrapolate, mul_zero, Finset.sum_const_zero, zero_mul, add_zero, sub_zero,
    upwFlux]
  split_ifs <;> ring

/-- Momentum kernels of one element: upwind advection-diffusion, then the mass and pressure-gradient term. -/
def momentumElemWork (o : Opts K) (inc df : K) (b : Bdf K) (F : FlowFields M nd K) (p : M → K)
    (x : M → Fin nd → K) (mu : M → K) (uN uNm1 Gp : M → Fin nd → K) (G : M → Fin nd → Fin nd → K)
    (e : ElemRec M nd K) : Work (M × Fin nd) K :=
  ⟨Fin e.nn × Fin nd, fun a => (e.node a.1, a.2), fun u s => momentumMass b df e.scv (F.levels e.node)
      ⟨fun a i => u (a, i), fun a => uN (e.node a), fun a => uNm1 (e.node a)⟩ (fun a => Gp (e.node a))
    (momentumUpw o inc e.scs (elemMdot b F p e) ⟨fun a => x (e.node a), fun a => F.vrtm (e.node a),
      fun a => F.rho (e.node a), fun a => mu (e.node a)⟩ (fun a i => u (a, i)) (fun a => G (e.node a)) s)⟩

/-- **C89** A uniform stream stays uniform: at a node on no boundary face where the mass flow rates balance, a
velocity field equal to the same constant vector at all time levels, with no pressure gradient, has
exactly zero momentum residual in every component. -/
theorem c89_free_stream_momentum [DecidableEq M] (o : Opts K) (inc df : K) (b : Bdf K) (pen : K)
    (F : FlowFields M nd K) (elems : List (ElemRec M nd K)) (opens inflows : List (FaceRec M nd K))
    (p mu : M → K) (x : M → Fin nd → K) (U : Fin nd → K) (i : M) (k : Fin nd)
    (hN : ∀ e ∈ elems, ∀ ip, Unity (e.scs.adv ip)) (hV : ∀ e ∈ elems, ∀ ip, Unity (e.scv.shape ip))
    (hg : ∀ e ∈ elems, ∀ ip, GradConst (e.scs.dndx ip))
    (hi : ∀ f ∈ inflows, ∀ a, f.node (f.face.node a) ≠ i)
    (ho : ∀ f ∈ opens, ∀ ip, f.node (f.face.near ip) ≠ i)
    (hbal : massBalance b pen F elems opens inflows p i = 0) :
    (assembleWorks (elems.map (momentumElemWork o inc df b F p x mu (fun _ => U) (fun _ => U)
      (fun _ _ => 0) (fun _ _ _ => 0))) (fun a => U a.2)).rhs (i, k) = 0 := by
  rw [assembleWorks_rhs, List.map_map]
  have h1 : elems.map ((fun w : Work (M × Fin nd) K => ∑ a, if (i, k) = w.dof a then
      (w.kern (fun a => U (w.dof a).2) ⟨fun _ _ => 0, fun _ => 0⟩).rhs a else 0) ∘
        momentumElemWork o inc df b F p x mu (fun _ => U) (fun _ => U) (fun _ _ => 0) (fun _ _ _ => 0)) =
      elems.map (fun e => -(U k * ((∑ ip, ((if i = e.node (e.scs.il ip) then elemMdot b F p e ip else 0) -
        if i = e.node (e.scs.ir ip) then elemMdot b F p e ip else 0)) +
        ∑ ip, if i = e.node (e.scv.node ip) then accumAt b F e ip else 0))) := by
    refine List.map_congr_left fun e he => ?_
    rw [← sum_net_push i e.node, ← sum_ite_push i e.node e.scv.node, ← Finset.sum_add_distrib,
      Finset.mul_sum, ← Finset.sum_neg_distrib]
    change (∑ a : Fin e.nn × Fin nd, if (i, k) = (e.node a.1, a.2) then
      (momentumMass b df e.scv (F.levels e.node) ⟨fun _ => U, fun _ => U, fun _ => U⟩ (fun _ _ => 0)
        (momentumUpw o inc e.scs (elemMdot b F p e) ⟨fun a => x (e.node a), fun a => F.vrtm (e.node a),
          fun a => F.rho (e.node a), fun a => mu (e.node a)⟩ (fun _ => U) (fun _ _ _ => 0)
          ⟨fun _ _ => 0, fun _ => 0⟩)).rhs a else 0) = _
    rw [Fintype.sum_prod_type]
    refine Finset.sum_congr rfl fun a _ => ?_
    by_cases hia : i = e.node a
    · have hcol : ∀ j : Fin nd, ((i, k) = (e.node a, j)) ↔ k = j := fun j => by simp [hia]
      simp only [hcol, Finset.sum_ite_eq, Finset.mem_univ, if_true, if_pos hia]
      rw [momentumMass_rhs, c85_uniform_momentumUpw o inc e.scs (hN e he) (hg e he), zero_sub, mul_add,
        neg_add, Finset.mul_sum (a := U k), ← Finset.sum_neg_distrib]
      congr 1
      refine Finset.sum_congr rfl fun ip _ => ?_
      have hc : coordIp (e.scv.shape ip) (fun _ => U) k = U k := by
        rw [coordIp, ← Finset.sum_mul, show ∑ ic, e.scv.shape ip ic = 1 from hV e he ip, one_mul]
      have h0 : coordIp (e.scv.shape ip) (fun (_ : Fin e.nn) (_ : Fin nd) => (0 : K)) k = 0 := by
        simp [coordIp]
      simp only [hc, h0, accumAt]
      split_ifs <;> ring
    · have hcol : ∀ j : Fin nd, ¬((i, k) = (e.node a, j)) := fun j h => hia (Prod.ext_iff.mp h).1
      simp only [hcol, if_false, if_neg hia]; simp
  have h3 : (inflows.map fun f => ∑ ip, if i = f.node (f.face.node (f.face.loc ip)) then
      inflowMdotAt F f ip else 0).sum = 0 := by
    rw [List.sum_eq_zero]
    intro y hy
    obtain ⟨f, hf, rfl⟩ := List.mem_map.mp hy
    exact Finset.sum_eq_zero fun ip _ => if_neg fun h => hi f hf _ h.symm
  have h4 : (opens.map fun f => ∑ ip, if i = f.node (f.face.near ip) then openMdotAt b pen F p f ip
      else 0).sum = 0 := by
    rw [List.sum_eq_zero]
    intro y hy
    obtain ⟨f, hf, rfl⟩ := List.mem_map.mp hy
    exact Finset.sum_eq_zero fun ip _ => if_neg fun h => ho f hf _ h.symm
  rw [massBalance, h3, h4, add_zero, add_zero] at hbal
  rw [h1, sum_map_neg_mul, List.sum_map_add]
  linear_combination -U k * hbal

/-! ## A concrete case

A bar of two linear elements, inflow at its left end, open at its right end, density doubling over the step:
the pressure found balances every node. -/

/-- Linear bar element of length 1 with nodes `i`, `j`. -/
def barElem (i j : Fin 3) : ElemRec (Fin 3) 1 ℚ :=
  ⟨2, 1, 2, ⟨fun _ _ => 1 / 2, fun _ _ => 1 / 2, fun _ => ![![-1], ![1]], fun _ => ![1], fun _ => 0, fun _ => 1⟩,
    ⟨fun ip ic => if ip = ic then 1 else 0, fun _ => 1 / 2, id⟩, ![i, j]⟩

/-- End face of the bar at local node `k` with outward area `a`. -/
def barFace (i j : Fin 3) (k : Fin 2) (a : ℚ) : FaceRec (Fin 3) 1 ℚ :=
  ⟨2, 1, 1, ⟨fun _ _ => 1, fun _ _ => 1, fun _ => ![a], fun _ => 1, fun _ => ![![-1], ![1]], fun _ => k,
    fun _ => k, fun _ => 1 - k, fun _ => 0⟩, ![i, j], fun _ => 0⟩

def barFields : FlowFields (Fin 3) 1 ℚ :=
  ⟨fun _ => 1, fun _ => 1 / 2, fun _ => 0, fun _ _ => 1, fun _ _ => 0, fun _ => 0, fun _ _ => 3⟩

def barBdf : Bdf ℚ := ⟨1 / 2, 1, -1, 0⟩

/-- The correction `(7/2, 1/2, -1/2)` solves every row: the hypotheses of `c87_discrete_continuity` and
`c87_total_mass_closure` hold in a case with accumulation, inflow, outflow and non-zero corrections. -/
example : ∀ i, ∑ j, (elemContinuity barBdf 2 barFields [barElem 0 1, barElem 1 2] [barFace 1 2 1 1]
    [barFace 0 1 0 (-1)] (fun _ => 0)).mat i j * ![7 / 2, 1 / 2, -1 / 2] j =
    (elemContinuity barBdf 2 barFields [barElem 0 1, barElem 1 2] [barFace 1 2 1 1]
    [barFace 0 1 0 (-1)] (fun _ => 0)).rhs i := by decide +kernel

/-- and the system was not already balanced. -/
example : (elemContinuity barBdf 2 barFields [barElem 0 1, barElem 1 2] [barFace 1 2 1 1]
    [barFace 0 1 0 (-1)] (fun _ => 0)).rhs 0 ≠ 0 := by decide +kernel

/-- Its shape functions satisfy the consistency conditions used in C85 and C89. -/
example : (∀ ip, Unity ((barElem 0 1).scs.adv ip)) ∧ (∀ ip, Unity ((barElem 0 1).scv.shape ip)) ∧
    (∀ ip, GradConst ((barElem 0 1).scs.dndx ip)) ∧
    (∀ ip, GradLinear ((barElem 0 1).scs.dndx ip) (![![4], ![5]] : Fin 2 → Fin 1 → ℚ)) ∧
    (∀ ip, Unity ((barFace 1 2 1 1).face.adv ip)) := by
  refine ⟨?_, ?_, ?_, ?_, ?_⟩ <;> intro ip <;> simp only [Unity, GradConst, GradLinear] <;>
    revert ip <;> decide +kernel

/-- The convected quantity actually moves: with a non-uniform field the residual is not zero. -/
example : (assembleWorks ([barElem 0 1, barElem 1 2].map (scalarElemWork ⟨0, 1, 0, false, 0, 0, fun _ => 1⟩ barBdf
    barFields ![7 / 2, 1 / 2, -1 / 2] (fun _ _ => 0) (fun _ => 1) (fun _ => 1) (fun _ => 1) (fun _ _ => 0)))
    (![1, 2, 1] : Fin 3 → ℚ)).rhs 1 ≠ 0 := by decide +kernel

/-- The unit-normal hypothesis of `c88_entrained_velocity` and `c88_open_viscous_tangential_partial` on an
oblique face. -/
example : ∑ j, faceNormal ({ spuriousFace with area := fun _ => ![3, 4], aMag := fun _ => 5 }) 0 j *
    faceNormal ({ spuriousFace with area := fun _ => ![3, 4], aMag := fun _ => 5 }) 0 j = (1 : ℚ) := by
  decide +kernel

end Nalu.Kernel
