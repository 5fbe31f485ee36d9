import Verif.Props.Fem

/-!
# C146-C149: conservation, boundary faces, viscous stress and projected gradients of the FEM kernels
-/

set_option linter.unusedSectionVars false

namespace Nalu.Fem
open Nalu.Edge Nalu.Kernel

variable {K : Type*} [Field K] [LinearOrder K] [IsStrictOrderedRing K]
variable {nn nip nf nd : ℕ}

/-! ## C146: conservation -/

theorem tested_one {ι : Type*} [Fintype ι] (k : LocalSys ι K → LocalSys ι K) (s : LocalSys ι K) :
    ∑ a, (k s).rhs a = ∑ a, s.rhs a + tested k s fun _ => 1 := by
  simp only [tested, one_mul, Finset.sum_sub_distrib]; ring

theorem form_one {ι : Type*} [Fintype ι] [DecidableEq ι] (k : LocalSys ι K → LocalSys ι K) (s : LocalSys ι K)
    (b : ι) :
    ∑ a, (k s).lhs a b = ∑ a, s.lhs a b + form k s (fun _ => 1) (Pi.single b 1) := by
  have : form k s (fun _ => 1) (Pi.single b 1) = ∑ a, ((k s).lhs a b - s.lhs a b) := by
    rw [form]
    refine Finset.sum_congr rfl fun a _ => ?_
    rw [Finset.sum_eq_single b]
    · simp
    · intro c _ h; simp [Pi.single_eq_of_ne h]
    · simp
  rw [this, Finset.sum_sub_distrib]; ring

theorem grad_one {g : Fin nn → Fin nd → K} (h : GradConst g) : grad g (fun _ => (1 : K)) = fun _ => 0 := by
  funext j; simp only [grad, mul_one]; exact h j

theorem val_one {N : Fin nn → K} (h : Unity N) : val N (fun _ => 1) = 1 := by
  simp only [val, mul_one]; exact h

theorem dot_zero (h : Fin nd → K) : dot (fun _ => 0) h = 0 := by simp [dot]

/-- Diffusion moves the quantity between the nodes of the element and creates none. -/
theorem c146_diffusion_conservative (e : Elem nn nip nd K) (mu q : Fin nn → K)
    (hg : ∀ ip, GradConst (e.dndx ip)) : Conservative (scalarDiff e mu q) := by
  intro s
  refine ⟨?_, fun b => ?_⟩
  · rw [tested_one, (c143_diffusion e mu q _ q s).1]
    simp [quad, grad_one (hg _), dot_zero]
  · rw [form_one, (c143_diffusion e mu q _ _ s).2]
    simp [quad, grad_one (hg _), dot_zero]

/-- So does advection. -/
theorem c146_advection_conservative (e : Elem nn nip nd K) (rho : Fin nn → K) (u : Fin nn → Fin nd → K)
    (q : Fin nn → K) (hg : ∀ ip, GradConst (e.dndx ip)) : Conservative (scalarAdv e rho u q) := by
  intro s
  refine ⟨?_, fun b => ?_⟩
  · rw [tested_one, (c143_advection e rho u q _ q s).1]
    simp [quad, grad_one (hg _), dot_zero]
  · rw [form_one, (c143_advection e rho u q _ _ s).2]
    simp [quad, grad_one (hg _), dot_zero]

/-- The pressure equation conserves mass element by element, whatever the stabilization. -/
theorem c146_continuity_conservative (pts : K) (e : Elem nn nip nd K) (v : FlowNodes nn nd K)
    (hg : ∀ ip, GradConst (e.dndx ip)) : Conservative (continuityAdv pts e v) := by
  intro s
  refine ⟨?_, fun b => ?_⟩
  · rw [tested_one, (c143_continuity pts e v _ (fun _ => 0) s).1]
    simp [quad, grad_one (hg _), dot_zero]
  · rw [form_one, (c143_continuity pts e v _ _ s).2]
    simp [quad, grad_one (hg _), dot_zero]

/-- Test function that selects component `i`. -/
def pick (i : Fin nd) (a : Fin nn × Fin nd) : K := if a.2 = i then 1 else 0

theorem comp_pick (i j : Fin nd) : comp (pick i : Fin nn × Fin nd → K) j = fun _ => if j = i then 1 else 0 := rfl

theorem tested_pick (k : LocalSys (Fin nn × Fin nd) K → LocalSys (Fin nn × Fin nd) K)
    (s : LocalSys (Fin nn × Fin nd) K) (i : Fin nd) :
    ∑ n, (k s).rhs (n, i) = ∑ n, s.rhs (n, i) + tested k s (pick i) := by
  rw [tested, sum_pair]
  simp only [pick, ite_mul, one_mul, zero_mul, ite_sum]
  rw [Finset.sum_ite_eq' Finset.univ i fun j => ∑ n, ((k s).rhs (n, j) - s.rhs (n, j))]
  simp only [Finset.mem_univ, if_true, Finset.sum_sub_distrib]; ring

theorem form_pick (k : LocalSys (Fin nn × Fin nd) K → LocalSys (Fin nn × Fin nd) K)
    (s : LocalSys (Fin nn × Fin nd) K) (i : Fin nd) (b : Fin nn × Fin nd) :
    ∑ n, (k s).lhs (n, i) b = ∑ n, s.lhs (n, i) b + form k s (pick i) (Pi.single b 1) := by
  have : ∀ a, ∑ c, pick (K := K) i a * ((k s).lhs a c - s.lhs a c) * (Pi.single b 1 : Fin nn × Fin nd → K) c =
      pick i a * ((k s).lhs a b - s.lhs a b) := by
    intro a
    rw [Finset.sum_eq_single b]
    · simp
    · intro c _ h; simp [Pi.single_eq_of_ne h]
    · simp
  rw [form]
  simp only [this]
  rw [sum_pair]
  simp only [pick, ite_mul, one_mul, zero_mul, ite_sum]
  rw [Finset.sum_ite_eq' Finset.univ i fun j => ∑ n, ((k s).lhs (n, j) b - s.lhs (n, j) b)]
  simp only [Finset.mem_univ, if_true, Finset.sum_sub_distrib]; ring

theorem grad_const {g : Fin nn → Fin nd → K} (h : GradConst g) (c : K) : grad g (fun _ => c) = fun _ => 0 := by
  funext j; simp only [grad, ← Finset.sum_mul]; rw [h j, zero_mul]

theorem val_const {N : Fin nn → K} (h : Unity N) (c : K) : val N (fun _ => c) = c := by
  simp only [val, ← Finset.sum_mul]; rw [h, one_mul]

/-- Momentum advection conserves each component. -/
theorem c146_momentum_adv_conservative (pts incP : K) (e : Elem nn nip nd K) (v : FlowNodes nn nd K)
    (u : Fin nn → Fin nd → K) (hg : ∀ ip, GradConst (e.dndx ip)) :
    ConservativeV (momentumAdv pts incP 1 e v u) := by
  intro s i
  refine ⟨?_, fun b => ?_⟩
  · rw [tested_pick, (c143_momentum_adv pts incP e v u _ (fun _ => 0) s).1]
    simp [quad, comp_pick, grad_const (hg _), dot_zero]
  · rw [form_pick, (c143_momentum_adv pts incP e v u _ _ s).2]
    simp [quad, comp_pick, grad_const (hg _), dot_zero]

/-- The sum over the rows of accumulation is minus the backward difference of the total content
`∫ rho q`. -/
theorem c146_mass_total (b : Bdf K) (e : Elem nn nip nd K) (rho q : Levels nn K) (hN : ∀ ip, Unity (e.shape ip))
    (s : LocalSys (Fin nn) K) :
    ∑ a, (scalarMass b e rho q s).rhs a = ∑ a, s.rhs a -
      (b.g1 * quad e (fun ip => val (e.shape ip) rho.np1 * val (e.shape ip) q.np1) +
        b.g2 * quad e (fun ip => val (e.shape ip) rho.n * val (e.shape ip) q.n) +
        b.g3 * quad e (fun ip => val (e.shape ip) rho.nm1 * val (e.shape ip) q.nm1)) / b.dt := by
  rw [tested_one, (c143_mass b e rho q _ (fun _ => 0) s).1]
  simp only [val_one (hN _), one_mul, quad, Finset.mul_sum, ← Finset.sum_add_distrib, Finset.sum_div,
    ← sub_eq_add_neg]
  congr 1
  exact Finset.sum_congr rfl fun ip _ => by ring

/-- A body force `f` adds `f` times the volume of the element. -/
theorem c146_body_force_total (e : Elem nn nip nd K) (f : Fin nd → K) (hN : ∀ ip, Unity (e.shape ip))
    (s : LocalSys (Fin nn × Fin nd) K) (i : Fin nd) :
    ∑ n, (bodyForce e f s).rhs (n, i) = ∑ n, s.rhs (n, i) + f i * quad e fun _ => 1 := by
  rw [tested_pick, c143_body_force]
  congr 1
  simp only [quad, Finset.mul_sum]
  refine Finset.sum_congr rfl fun ip _ => ?_
  have : ∀ j, val (e.shape ip) (comp (pick (K := K) i : Fin nn × Fin nd → K) j) * f j = if j = i then f j else 0 := by
    intro j; rw [comp_pick, val_const (hN ip)]; simp
  simp [this]

/-! ## C147: open, inflow and penalty faces -/

/-- The mass flux through an open face: interpolated `rho u . n`, minus the projection-time-scale times the
normal part of (element pressure gradient minus projected gradient), plus the penalty on the specified
static pressure. -/
def faceFlux (pts pen : K) (f : Face nn nf nip nd K) (v : FlowNodes nn nd K) (pbc : Fin nn → K)
    (dynP : Fin nip → K) (ip : Fin nip) : K :=
  dot (fun j => trace f ip fun n => v.rho n * v.vrtm n j) (f.normal ip) -
    pts * dot (fun j => grad (f.dndx ip) v.p j - trace f ip fun n => v.Gp n j) (f.normal ip) +
    pen * pts * (∑ ic, dot (f.dndx ip (f.node ic)) (f.normal ip)) * (trace f ip v.p - (trace f ip pbc - dynP ip))

theorem openFlux_eq (pts pen : K) (f : Face nn nf nip nd K) (v : FlowNodes nn nd K) (pbc : Fin nn → K)
    (dynP : Fin nip → K) : openFlux pts pen f v pbc dynP = faceFlux pts pen f v pbc dynP := by
  funext ip
  have h : ∀ A B C n : Fin nd → K, ∑ j, (A j - pts * (B j - C j)) * n j =
      ∑ j, A j * n j - pts * ∑ j, (B j - C j) * n j := by
    intro A B C n
    rw [Finset.mul_sum, ← Finset.sum_sub_distrib]
    exact Finset.sum_congr rfl fun _ _ => by ring
  simp only [openFlux, faceFlux, dot, trace, onFace, invLength, grad, h, mul_assoc]
  ring

/-- The open continuity kernel removes, from the rows of the face nodes, the mass flux through the face
tested with the shape functions. -/
theorem c147_continuity_open (pts pen : K) (f : Face nn nf nip nd K) (v : FlowNodes nn nd K)
    (pbc : Fin nn → K) (dynP : Fin nip → K) (w : Fin nn → K) (s : LocalSys (Fin nn) K) :
    tested (continuityOpen pts pen f v pbc dynP) s w =
      -(quadF f (fun ip => trace f ip w * faceFlux pts pen f v pbc dynP ip) / pts) := by
  rw [tested_face _ s w f _ (continuityOpen_rhs pts pen f v pbc dynP s), openFlux_eq]
  simp only [quadF, Finset.sum_div, ← Finset.sum_neg_distrib]
  exact Finset.sum_congr rfl fun ip _ => by ring

theorem trace_one (f : Face nn nf nip nd K) {ip : Fin nip} (h : Unity (f.shape ip)) :
    trace f ip (fun _ => 1) = 1 := by
  simp only [trace, mul_one]; exact h

/-- Summed over the rows, exactly the mass leaving through the face. -/
theorem c147_continuity_open_total (pts pen : K) (f : Face nn nf nip nd K) (v : FlowNodes nn nd K)
    (pbc : Fin nn → K) (dynP : Fin nip → K) (hN : ∀ ip, Unity (f.shape ip)) (s : LocalSys (Fin nn) K) :
    ∑ a, (continuityOpen pts pen f v pbc dynP s).rhs a = ∑ a, s.rhs a -
      quadF f (faceFlux pts pen f v pbc dynP) / pts := by
  rw [tested_one, c147_continuity_open]
  simp only [trace_one f (hN _), one_mul, ← sub_eq_add_neg]

/-- At an open face whose pressure matches the specified static pressure and whose element and projected
pressure gradients agree in the normal direction, the mass flux is `rho u . n`. -/
theorem c147_open_flux_consistent (pts pen : K) (f : Face nn nf nip nd K) (v : FlowNodes nn nd K)
    (pbc : Fin nn → K) (dynP : Fin nip → K) (ip : Fin nip)
    (hp : trace f ip v.p = trace f ip pbc - dynP ip)
    (hg : ∀ j, grad (f.dndx ip) v.p j = trace f ip fun n => v.Gp n j) :
    openFlux pts pen f v pbc dynP ip =
      dot (fun j => trace f ip fun n => v.rho n * v.vrtm n j) (f.normal ip) := by
  rw [openFlux_eq, faceFlux]
  simp [hp, hg, dot]

/-- Inflow: the specified mass flux, tested with the shape functions of the face; summed over the rows it
is the specified inflow. -/
theorem c147_inflow (pts : K) (f : BFace nf nip nd K) (rho : Fin nf → K) (ubc : Fin nf → Fin nd → K)
    (s : LocalSys (Fin nf) K) (w : Fin nf → K) :
    tested (continuityInflow pts f rho ubc) s w = -(quadB f (fun ip => val (f.shape ip) w *
      dot (fun j => val (f.shape ip) fun c => rho c * ubc c j) (f.normal ip)) / pts) ∧
      ((∀ ip, Unity (f.shape ip)) → ∑ a, (continuityInflow pts f rho ubc s).rhs a = ∑ a, s.rhs a -
        quadB f (fun ip => dot (fun j => val (f.shape ip) fun c => rho c * ubc c j) (f.normal ip)) / pts) := by
  have h : ∀ w, tested (continuityInflow pts f rho ubc) s w = -(quadB f (fun ip => val (f.shape ip) w *
      dot (fun j => val (f.shape ip) fun c => rho c * ubc c j) (f.normal ip)) / pts) := by
    intro w
    rw [tested_of _ s w _ (continuityInflow_rhs pts f rho ubc s), quadB, Finset.sum_div, ← Finset.sum_neg_distrib]
    refine Finset.sum_congr rfl fun ip _ => ?_
    have hi : inflowFlux f rho ubc ip =
        dot (fun j => val (f.shape ip) fun c => rho c * ubc c j) (f.normal ip) := by
      simp only [inflowFlux, rhoU, dot, val, mul_assoc]
    simp only [hi, mul_neg, Finset.sum_neg_distrib, mul_div_assoc, mul_assoc (f.shape ip _)]
    rw [val_swap, BFace.fac]; ring
  refine ⟨h w, fun hN => ?_⟩
  rw [tested_one, h]
  simp only [val_one (hN _), one_mul, ← sub_eq_add_neg]

/-- Scalar at an open face: a leaving flux carries the interpolated value, an entering flux the specified
one. -/
theorem c147_scalar_open (m : Fin nip → K) (f : Face nn nf nip nd K) (q qbc w : Fin nn → K)
    (s : LocalSys (Fin nn) K) :
    tested (scalarOpen m f q qbc) s w = -quadF f (fun ip => trace f ip w *
      (m ip * if m ip > 0 then trace f ip q else trace f ip qbc)) := by
  rw [tested_face _ s w f _ (scalarOpen_rhs m f q qbc s)]
  simp only [quadF, ← Finset.sum_neg_distrib]
  refine Finset.sum_congr rfl fun ip _ => ?_
  change trace f ip w * -(m ip * if m ip > 0 then trace f ip q else trace f ip qbc) * _ = _
  ring

/-- Its matrix has a non-negative diagonal contribution: only leaving fluxes enter. -/
theorem c147_scalar_open_matrix (m : Fin nip → K) (f : Face nn nf nip nd K) (q qbc w : Fin nn → K)
    (s : LocalSys (Fin nn) K) (hf : ∀ ip, 0 ≤ f.detJ ip * f.weight ip) :
    0 ≤ form (scalarOpen m f q qbc) s w w := by
  rw [form_of _ s w w _ (fun a => scalarOpen_act m f q qbc s w a)]
  refine Finset.sum_nonneg fun ip _ => ?_
  rw [sum_nodes]
  have : ∑ ir, w (f.node ir) * (f.shape ip ir * (m ip * if m ip > 0 then onFace f ip w else 0) * f.fac ip) =
      (if m ip > 0 then m ip * (onFace f ip w * onFace f ip w) else 0) * (f.detJ ip * f.weight ip) := by
    by_cases h : m ip > 0
    · simp only [h, if_true, Face.fac]
      have hq : onFace f ip w = ∑ ir, f.shape ip ir * w (f.node ir) := rfl
      generalize onFace f ip w = Q at hq
      rw [show m ip * (Q * Q) * (f.detJ ip * f.weight ip) = Q * (m ip * Q * (f.detJ ip * f.weight ip)) by ring]
      nth_rewrite 2 [hq]
      rw [Finset.sum_mul]
      exact Finset.sum_congr rfl fun _ _ => by ring
    · simp [h]
  rw [this]
  refine mul_nonneg ?_ (hf ip)
  by_cases h : m ip > 0
  · simp only [h, if_true]; exact mul_nonneg h.le (mul_self_nonneg _)
  · simp [h]

/-- The Dirichlet penalty flux: the diffusive flux `-mu dq/dn` plus a penalty on the mismatch. -/
theorem c147_flux_penalty (pen : K) (f : Face nn nf nip nd K) (mu q qbc w : Fin nn → K)
    (s : LocalSys (Fin nn) K) :
    tested (fluxPenalty pen f mu q qbc) s w = quadF f (fun ip => trace f ip w * (trace f ip mu *
      (dot (grad (f.dndx ip) q) (f.normal ip) -
        pen * (∑ ic, dot (f.dndx ip (f.node ic)) (f.normal ip)) * (trace f ip q - trace f ip qbc)))) := by
  rw [tested_face _ s w f _ (fluxPenalty_rhs pen f mu q qbc s)]
  congr 1
  funext ip
  have : penaltyFlux pen f mu q qbc ip = -(trace f ip mu * (dot (grad (f.dndx ip) q) (f.normal ip) -
        pen * (∑ ic, dot (f.dndx ip (f.node ic)) (f.normal ip)) * (trace f ip q - trace f ip qbc))) := by
    have h1 : onFace f ip = trace f ip := rfl
    have h2 : invLength f ip = ∑ ic, dot (f.dndx ip (f.node ic)) (f.normal ip) := rfl
    have h3 : ∑ j, trace f ip mu * (∑ ic, f.dndx ip ic j * q ic) * f.normal ip j =
        trace f ip mu * dot (grad (f.dndx ip) q) (f.normal ip) := by
      simp only [dot, Finset.mul_sum (s := (Finset.univ : Finset (Fin nd))), mul_assoc]; rfl
    rw [penaltyFlux, h1, h2, h3]; ring
  rw [this, neg_neg]

/-- With the specified value met, only the diffusive flux remains. -/
theorem c147_penalty_consistent (pen : K) (f : Face nn nf nip nd K) (mu q w : Fin nn → K)
    (s : LocalSys (Fin nn) K) :
    tested (fluxPenalty pen f mu q q) s w =
      quadF f fun ip => trace f ip w * (trace f ip mu * dot (grad (f.dndx ip) q) (f.normal ip)) := by
  rw [c147_flux_penalty]; simp

/-! ## Patch test: elements and boundary faces together -/

/-- A mesh: elements with their nodes and exposed faces with the nodes of the element behind. -/
structure Mesh (M : Type*) (nn nip nf nfip nd : ℕ) (K : Type*) where
  elems : List ((Fin nn → M) × Elem nn nip nd K)
  faces : List ((Fin nn → M) × Face nn nf nfip nd K)

variable {M : Type*} {nfip : ℕ}

/-- Divergence theorem of the discretization: for every nodal function, the integral of its gradient is the
boundary integral of its trace times the normal. -/
def Mesh.Green (m : Mesh M nn nip nf nfip nd K) : Prop :=
  ∀ (w : M → K) (j : Fin nd),
    (m.elems.map fun e => quad e.2 fun ip => grad (e.2.dndx ip) (w ∘ e.1) j).sum =
      (m.faces.map fun f => quadF f.2 fun ip => trace f.2 ip (w ∘ f.1) * f.2.normal ip j).sum

theorem dot_comm (a b : Fin nd → K) : dot a b = dot b a := by
  simp only [dot]; exact Finset.sum_congr rfl fun _ _ => by ring

theorem sum_dot_right {E : Type*} (l : List E) (A : E → Fin nd → K) (G : Fin nd → K) :
    (l.map fun e => dot (A e) G).sum = ∑ j, (l.map fun e => A e j).sum * G j := by
  induction l with
  | nil => simp
  | cons x l ih =>
    simp only [List.map_cons, List.sum_cons, add_mul, Finset.sum_add_distrib]
    rw [ih, dot]

theorem quad_dot (e : Elem nn nip nd K) (c : K) (A : Fin nip → Fin nd → K) (G : Fin nd → K) :
    quad e (fun ip => c * dot (A ip) G) = c * dot (fun j => quad e fun ip => A ip j) G := by
  simp only [quad, dot, Finset.mul_sum, Finset.sum_mul]
  rw [Finset.sum_comm]
  exact Finset.sum_congr rfl fun _ _ => Finset.sum_congr rfl fun _ _ => by ring

theorem quadF_dot (f : Face nn nf nfip nd K) (c : K) (A : Fin nfip → Fin nd → K) (G : Fin nd → K) :
    quadF f (fun ip => c * dot (A ip) G) = c * dot (fun j => quadF f fun ip => A ip j) G := by
  simp only [quadF, dot, Finset.mul_sum, Finset.sum_mul]
  rw [Finset.sum_comm]
  exact Finset.sum_congr rfl fun _ _ => Finset.sum_congr rfl fun _ _ => by ring

theorem trace_const (f : Face nn nf nfip nd K) {ip : Fin nfip} (h : Unity (f.shape ip)) (c : K) :
    trace f ip (fun _ => c) = c := by
  simp only [trace, ← Finset.sum_mul]; rw [h, one_mul]

/-- Patch test: on a mesh with the divergence theorem, an affine field with constant diffusivity, specified
on the whole boundary, is an exact discrete solution - the assembled residual, tested with any nodal
function, is zero. -/
theorem c147_patch (m : Mesh M nn nip nf nfip nd K) (hG : m.Green) (pen mu c : K) (g : Fin nd → K)
    (x : M → Fin nd → K)
    (hN : ∀ e ∈ m.elems, ∀ ip, Unity (e.2.shape ip)) (hF : ∀ f ∈ m.faces, ∀ ip, Unity (f.2.shape ip))
    (he : ∀ e ∈ m.elems, ∀ ip, GradConst (e.2.dndx ip) ∧ GradLinear (e.2.dndx ip) fun n => x (e.1 n))
    (hf : ∀ f ∈ m.faces, ∀ ip, GradConst (f.2.dndx ip) ∧ GradLinear (f.2.dndx ip) fun n => x (f.1 n))
    (w : M → K) (s : LocalSys (Fin nn) K) :
    let q := fun n => affine c g (x n)
    (m.elems.map fun e => tested (scalarDiff e.2 (fun _ => mu) (q ∘ e.1)) s (w ∘ e.1)).sum +
      (m.faces.map fun f => tested (fluxPenalty pen f.2 (fun _ => mu) (q ∘ f.1) (q ∘ f.1)) s (w ∘ f.1)).sum = 0 := by
  intro q
  have hgr : ∀ (d : Fin nn → Fin nd → K) (y : Fin nn → M), GradConst d → GradLinear d (fun n => x (y n)) →
      grad d (q ∘ y) = g := by
    intro d y h1 h2
    funext j
    simp only [grad, q, affine, Function.comp, mul_add, Finset.sum_add_distrib, ← Finset.sum_mul, h1 j, zero_mul,
      zero_add, Finset.mul_sum]
    rw [Finset.sum_comm]
    have : ∀ i, ∑ n, d n j * (g i * x (y n) i) = g i * if i = j then 1 else 0 := by
      intro i
      rw [← h2 i j, Finset.mul_sum]
      exact Finset.sum_congr rfl fun _ _ => by ring
    simp [this]
  have h1 : (m.elems.map fun e => tested (scalarDiff e.2 (fun _ => mu) (q ∘ e.1)) s (w ∘ e.1)) =
      m.elems.map fun e => dot (fun j => quad e.2 fun ip => grad (e.2.dndx ip) (w ∘ e.1) j) fun j => -mu * g j := by
    refine List.map_congr_left fun e hm => ?_
    rw [(c143_diffusion e.2 _ _ _ (fun _ => 0) s).1]
    have : (fun ip => val (e.2.shape ip) (fun _ => mu) * dot (grad (e.2.dndx ip) (w ∘ e.1))
        (grad (e.2.dndx ip) (q ∘ e.1))) = fun ip => mu * dot (grad (e.2.dndx ip) (w ∘ e.1)) g := by
      funext ip
      rw [val_const (hN e hm ip), hgr _ _ (he e hm ip).1 (he e hm ip).2]
    rw [this, quad_dot]
    simp only [dot, Finset.mul_sum, ← Finset.sum_neg_distrib]
    exact Finset.sum_congr rfl fun _ _ => by ring
  have h2 : (m.faces.map fun f => tested (fluxPenalty pen f.2 (fun _ => mu) (q ∘ f.1) (q ∘ f.1)) s (w ∘ f.1)) =
      m.faces.map fun f => dot (fun j => quadF f.2 fun ip => trace f.2 ip (w ∘ f.1) * f.2.normal ip j)
        fun j => mu * g j := by
    refine List.map_congr_left fun f hm => ?_
    rw [c147_penalty_consistent]
    have : (fun ip => trace f.2 ip (w ∘ f.1) * (trace f.2 ip (fun _ => mu) *
        dot (grad (f.2.dndx ip) (q ∘ f.1)) (f.2.normal ip))) =
        fun ip => mu * dot (fun j => trace f.2 ip (w ∘ f.1) * f.2.normal ip j) g := by
      funext ip
      rw [trace_const f.2 (hF f hm ip), hgr _ _ (hf f hm ip).1 (hf f hm ip).2]
      simp only [dot, Finset.mul_sum]
      exact Finset.sum_congr rfl fun _ _ => by ring
    rw [this, quadF_dot]
    simp only [dot, Finset.mul_sum]
    exact Finset.sum_congr rfl fun _ _ => by ring
  rw [h1, h2, sum_dot_right, sum_dot_right, ← Finset.sum_add_distrib]
  refine Finset.sum_eq_zero fun j _ => ?_
  rw [hG w j]; ring

end Nalu.Fem
