import Verif.Props.Fem2

/-!
# C148-C149: viscous stress, open momentum faces and projected gradients of the FEM kernels
-/

set_option linter.unusedSectionVars false

namespace Nalu.Fem
open Nalu.Edge Nalu.Kernel

variable {K : Type*} [Field K] [LinearOrder K] [IsStrictOrderedRing K]
variable {nn nip nf nd : ℕ}

/-- Viscous stress `mu (du_i/dx_j + du_j/dx_i) - 2/3 mu inc (div u) delta_ij` at an integration point. -/
def stress (inc : K) (N mu : Fin nn → K) (g u : Fin nn → Fin nd → K) (i j : Fin nd) : K :=
  val N mu * (grad g (fun c => u c i) j + grad g (fun c => u c j) i) -
    if i = j then inc * (2 / 3 * val N mu * ∑ k, grad g (fun c => u c k) k) else 0

theorem div_eq (g u : Fin nn → Fin nd → K) : divIp g u = ∑ k, grad g (fun c => u c k) k := by
  simp only [divIp, grad]; exact Finset.sum_comm

/-- What the code assembles: the weak form with the dilatational part multiplied by the number of nodes of
the element. -/
theorem c148_viscous_actual (inc : K) (e : Elem nn nip nd K) (mu : Fin nn → K) (u : Fin nn → Fin nd → K)
    (w : Fin nn × Fin nd → K) (s : LocalSys (Fin nn × Fin nd) K) :
    tested (momentumDiff inc e mu u) s w = -quad e fun ip =>
      ∑ i, dot (grad (e.dndx ip) (comp w i)) (stress (nn * inc) (e.shape ip) mu (e.dndx ip) u i) := by
  rw [tested_of _ s w _ (fun a => momentumDiff_rhs inc e mu u s a.1 a.2), quad, ← Finset.sum_neg_distrib]
  refine Finset.sum_congr rfl fun ip _ => ?_
  rw [sum_pair, Finset.sum_mul, ← Finset.sum_neg_distrib]
  refine Finset.sum_congr rfl fun i _ => ?_
  have h : ∀ n, (∑ j, e.dndx ip n j * (val (e.shape ip) mu * (grad (e.dndx ip) (fun c => u c i) j +
          grad (e.dndx ip) (fun c => u c j) i))) -
        e.dndx ip n i * (nn * (2 / 3 * val (e.shape ip) mu * divIp (e.dndx ip) u * inc)) =
      ∑ j, e.dndx ip n j * stress (nn * inc) (e.shape ip) mu (e.dndx ip) u i j := by
    intro n
    simp only [stress, mul_sub, Finset.sum_sub_distrib, mul_ite, mul_zero, Finset.sum_ite_eq, Finset.mem_univ,
      if_true, div_eq]
    ring
  simp only [h, mul_neg, Finset.sum_neg_distrib]
  rw [grad_swap_c, Elem.fac]

/-- C148, partial: where the dilatational term is off or the discrete velocity is divergence free at the
integration points, the residual is minus the quadrature of `grad w : stress`.  Missing: with
`include_divu` and a non-zero divergence the code's residual is a different one
(`c148_dilatation_overcounted`). -/
theorem c148_viscous_partial (inc : K) (e : Elem nn nip nd K) (mu : Fin nn → K) (u : Fin nn → Fin nd → K)
    (h : ∀ ip, inc * ∑ k, grad (e.dndx ip) (fun c => u c k) k = 0)
    (w : Fin nn × Fin nd → K) (s : LocalSys (Fin nn × Fin nd) K) :
    tested (momentumDiff inc e mu u) s w = -quad e fun ip =>
      ∑ i, dot (grad (e.dndx ip) (comp w i)) (stress inc (e.shape ip) mu (e.dndx ip) u i) := by
  rw [c148_viscous_actual]
  congr 2
  funext ip
  refine Finset.sum_congr rfl fun i _ => ?_
  congr 1
  funext j
  have h' : ∀ c m : K, c * inc * (2 / 3 * m * ∑ k, grad (e.dndx ip) (fun c => u c k) k) = 0 := by
    intro c m
    linear_combination c * (2 / 3 * m) * h ip
  have h1 := h' 1 (val (e.shape ip) mu)
  rw [one_mul] at h1
  simp only [stress, h' nn, h1]

/-- The full statement fails: on a two-node element with unit viscosity and unit divergence, the code
subtracts the dilatational part twice, once per node. -/
theorem c148_dilatation_overcounted :
    ∃ (e : Elem 2 1 1 ℚ) (mu : Fin 2 → ℚ) (u : Fin 2 → Fin 1 → ℚ) (w : Fin 2 × Fin 1 → ℚ)
      (s : LocalSys (Fin 2 × Fin 1) ℚ), (∀ ip, Unity (e.shape ip)) ∧ (∀ ip, GradConst (e.dndx ip)) ∧
      tested (momentumDiff 1 e mu u) s w ≠ -quad e fun ip =>
        ∑ i, dot (grad (e.dndx ip) (comp w i)) (stress 1 (e.shape ip) mu (e.dndx ip) u i) := by
  refine ⟨bar, fun _ => 1, fun n _ => if n = 0 then 0 else 2, fun a => if a.1 = 0 then 0 else 1,
    ⟨fun _ _ => 0, fun _ => 0⟩, ?_, ?_, ?_⟩
  · intro ip; simp [Unity, bar]
  · intro ip j; simp [bar]; norm_num
  · rw [c148_viscous_actual]
    simp [quad, dot, grad, comp, stress, val, bar, Fin.sum_univ_two]

/-- A rigid motion produces no viscous force, whatever the dilatational option. -/
theorem c148_rigid (inc : K) (e : Elem nn nip nd K) (mu : Fin nn → K) (x : Fin nn → Fin nd → K)
    (c : Fin nd → K) (W : Fin nd → Fin nd → K) (hW : ∀ i j, W i j = -W j i)
    (h : ∀ ip, GradConst (e.dndx ip) ∧ GradLinear (e.dndx ip) x)
    (w : Fin nn × Fin nd → K) (s : LocalSys (Fin nn × Fin nd) K) :
    tested (momentumDiff inc e mu fun n i => affine (c i) (W i) (x n)) s w = 0 := by
  have hg : ∀ ip i j, grad (e.dndx ip) (fun n => affine (c i) (W i) (x n)) j = W i j := by
    intro ip i j
    simp only [grad, affine, mul_add, Finset.sum_add_distrib, ← Finset.sum_mul, (h ip).1 j, zero_mul, zero_add,
      Finset.mul_sum]
    rw [Finset.sum_comm]
    have : ∀ k, ∑ n, e.dndx ip n j * (W i k * x n k) = W i k * if k = j then 1 else 0 := by
      intro k
      rw [← (h ip).2 k j, Finset.mul_sum]
      exact Finset.sum_congr rfl fun _ _ => by ring
    simp [this]
  have hd : ∀ i, W i i = 0 := fun i => by
    have := hW i i
    linarith
  rw [c148_viscous_actual]
  have : ∀ ip i j, stress (nn * inc) (e.shape ip) mu (e.dndx ip) (fun n i => affine (c i) (W i) (x n)) i j = 0 := by
    intro ip i j
    simp only [stress, hg, hd, Finset.sum_const_zero, mul_zero, ite_self, sub_zero]
    rw [hW i j]; ring
  simp [quad, dot, this]

theorem sum_swap_ij (f : Fin nd → Fin nd → K) : ∑ i, ∑ j, f i j = ∑ i, ∑ j, f j i := Finset.sum_comm

/-- The viscous matrix is symmetric and dissipative: its quadratic form is
`1/2 * quadrature of mu * sum of squares of the strain rates`. -/
theorem c148_dissipative (inc : K) (e : Elem nn nip nd K) (mu : Fin nn → K) (u : Fin nn → Fin nd → K)
    (w d : Fin nn × Fin nd → K) (s : LocalSys (Fin nn × Fin nd) K) :
    form (momentumDiff inc e mu u) s w d = 1 / 2 * quad e (fun ip => val (e.shape ip) mu * ∑ i, ∑ j,
      (grad (e.dndx ip) (comp w i) j + grad (e.dndx ip) (comp w j) i) *
        (grad (e.dndx ip) (comp d i) j + grad (e.dndx ip) (comp d j) i)) ∧
      ((∀ ip, 0 ≤ val (e.shape ip) mu) → (∀ ip, 0 ≤ e.detJ ip * e.weight ip) →
        0 ≤ form (momentumDiff inc e mu u) s w w) := by
  have key : ∀ w d, form (momentumDiff inc e mu u) s w d = 1 / 2 * quad e (fun ip => val (e.shape ip) mu * ∑ i, ∑ j,
      (grad (e.dndx ip) (comp w i) j + grad (e.dndx ip) (comp w j) i) *
        (grad (e.dndx ip) (comp d i) j + grad (e.dndx ip) (comp d j) i)) := by
    intro w d
    rw [form_of _ s w d _ (fun a => momentumDiff_act inc e mu u s d a.1 a.2), quad, Finset.mul_sum]
    refine Finset.sum_congr rfl fun ip _ => ?_
    rw [sum_pair]
    have h1 : ∀ i, ∑ n, w (n, i) * ((∑ j, e.dndx ip n j * (val (e.shape ip) mu *
        (grad (e.dndx ip) (fun c => d (c, i)) j + grad (e.dndx ip) (fun c => d (c, j)) i))) * e.fac ip) =
        (∑ j, grad (e.dndx ip) (comp w i) j * (val (e.shape ip) mu *
          (grad (e.dndx ip) (comp d i) j + grad (e.dndx ip) (comp d j) i))) * e.fac ip := by
      intro i
      rw [grad_swap_c, dot]; rfl
    refine (Finset.sum_congr rfl fun i _ => h1 i).trans ?_
    rw [← Finset.sum_mul, Elem.fac]
    generalize val (e.shape ip) mu = m
    have h2 : ∑ i, ∑ j, grad (e.dndx ip) (comp w i) j * (m *
          (grad (e.dndx ip) (comp d i) j + grad (e.dndx ip) (comp d j) i)) =
        1 / 2 * (m * ∑ i, ∑ j, (grad (e.dndx ip) (comp w i) j + grad (e.dndx ip) (comp w j) i) *
          (grad (e.dndx ip) (comp d i) j + grad (e.dndx ip) (comp d j) i)) := by
      have h3 := sum_swap_ij fun i j => grad (e.dndx ip) (comp w i) j *
          (grad (e.dndx ip) (comp d i) j + grad (e.dndx ip) (comp d j) i)
      have h4 : ∑ i, ∑ j, (grad (e.dndx ip) (comp w i) j + grad (e.dndx ip) (comp w j) i) *
          (grad (e.dndx ip) (comp d i) j + grad (e.dndx ip) (comp d j) i) =
          ∑ i, ∑ j, grad (e.dndx ip) (comp w i) j *
            (grad (e.dndx ip) (comp d i) j + grad (e.dndx ip) (comp d j) i) +
          ∑ i, ∑ j, grad (e.dndx ip) (comp w j) i *
            (grad (e.dndx ip) (comp d j) i + grad (e.dndx ip) (comp d i) j) := by
        simp only [← Finset.sum_add_distrib]
        exact Finset.sum_congr rfl fun _ _ => Finset.sum_congr rfl fun _ _ => by ring
      rw [h4, ← h3]
      have h5 : ∑ i, ∑ j, grad (e.dndx ip) (comp w i) j * (m *
          (grad (e.dndx ip) (comp d i) j + grad (e.dndx ip) (comp d j) i)) =
          m * ∑ i, ∑ j, grad (e.dndx ip) (comp w i) j *
          (grad (e.dndx ip) (comp d i) j + grad (e.dndx ip) (comp d j) i) := by
        simp only [Finset.mul_sum]
        exact Finset.sum_congr rfl fun _ _ => Finset.sum_congr rfl fun _ _ => by ring
      rw [h5]; ring
    rw [h2]; ring
  refine ⟨key w d, fun hm hf => ?_⟩
  rw [key]
  refine mul_nonneg (by norm_num) (Finset.sum_nonneg fun ip _ => mul_nonneg (mul_nonneg (hm ip) ?_) (hf ip))
  exact Finset.sum_nonneg fun i _ => Finset.sum_nonneg fun j _ => mul_self_nonneg _

/-- Viscous forces are internal: each component summed over the nodes is zero. -/
theorem c148_conservative (inc : K) (e : Elem nn nip nd K) (mu : Fin nn → K) (u : Fin nn → Fin nd → K)
    (hg : ∀ ip, GradConst (e.dndx ip)) (s : LocalSys (Fin nn × Fin nd) K) (i : Fin nd) :
    ∑ n, (momentumDiff inc e mu u s).rhs (n, i) = ∑ n, s.rhs (n, i) := by
  rw [tested_pick, c148_viscous_actual]
  simp [quad, comp_pick, grad_const (hg _), dot_zero]

/-- Open momentum face (dilatational term off): advection of the selected velocity by the mass flux, and the
tangential viscous traction. -/
theorem c148_open (m : Fin nip → K) (f : Face nn nf nip nd K) (rho mu : Fin nn → K) (o : OpenMom nn nd K)
    (h0 : o.incDivU = 0) (w : Fin nn × Fin nd → K) (s : LocalSys (Fin nn × Fin nd) K) :
    tested (momentumOpen m f rho mu o) s w = quadF f fun ip => ∑ i, trace f ip (comp w i) *
      (-(m ip * if m ip > 0 then trace f ip (fun n => o.u n i) else (openVel (m ip) f rho o ip i).2) +
        tang (f.normal ip) (traction (trace f ip mu) (f.dndx ip) (f.normal ip) o.u) i) := by
  rw [tested_of _ s w _ (fun a => momentumOpen_rhs m f rho mu o s a.1 a.2), quadF]
  refine Finset.sum_congr rfl fun ip _ => ?_
  rw [sum_pair, Finset.sum_mul]
  refine Finset.sum_congr rfl fun i _ => ?_
  have hd : divPart (onFace f ip mu) o.incDivU (f.dndx ip) o.u (f.normal ip) i = 0 := by simp [divPart, h0]
  simp only [hd, sub_zero]
  rw [sum_nodes f.node _ fun n => w (n, i)]
  simp only [trace, comp, Finset.sum_mul]
  exact Finset.sum_congr rfl fun ir _ => by
    rw [Face.fac]
    simp only [openVel, onFace]
    ring

/-- The entrained velocity: its normal component carries exactly the mass flux (plus the mesh motion when the
mesh moves), its tangential part is the tangential part of the specified velocity. -/
theorem c148_entrained (m : K) (f : Face nn nf nip nd K) (rho : Fin nn → K) (o : OpenMom nn nd K) (ip : Fin nip)
    (hn : dot (f.normal ip) (f.normal ip) = 1) :
    let u := fun i => (openVel m f rho o ip i).2
    dot u (f.normal ip) = m / trace f ip rho + o.meshCorr *
        (dot (fun j => trace f ip fun n => rho n * o.vmesh n j) (f.normal ip) / trace f ip rho) ∧
      ∀ i, tang (f.normal ip) u i = tang (f.normal ip) (fun j => trace f ip fun n => o.ubc n j) i := by
  intro u
  set n := f.normal ip with hN
  set b : Fin nd → K := fun j => trace f ip fun n => o.ubc n j with hb
  set E : K := m / trace f ip rho + o.meshCorr *
        (dot (fun j => trace f ip fun n => rho n * o.vmesh n j) n / trace f ip rho) with hE
  have hu : ∀ i, u i = E * n i + (b i - dot b n * n i) := by
    intro i
    simp only [u, openVel, onFace, hE, hb, trace, dot, mul_assoc]
    ring
  have hdot : dot u n = E := by
    have : dot u n = E * dot n n + (dot b n - dot b n * dot n n) := by
      simp only [dot, hu]
      rw [Finset.mul_sum, Finset.mul_sum, ← Finset.sum_sub_distrib, ← Finset.sum_add_distrib]
      exact Finset.sum_congr rfl fun _ _ => by ring
    rw [this, hn]; ring
  refine ⟨hdot, fun i => ?_⟩
  have h1 : ∑ l, n l * u l = E := by rw [← hdot, dot]; exact Finset.sum_congr rfl fun _ _ => by ring
  have h2 : ∑ l, n l * b l = dot b n := by rw [dot]; exact Finset.sum_congr rfl fun _ _ => by ring
  rw [tang, tang, h1, h2, hu]; ring

/-! ## C149: projected nodal gradient -/

/-- Summed over the rows, the volume part takes out the integral of the projected gradient. -/
theorem c149_volume_total (e : Elem nn nip nd K) (q : Fin nn → K) (G : Fin nn → Fin nd → K)
    (hN : ∀ ip, Unity (e.shape ip)) (hg : ∀ ip, GradConst (e.dndx ip)) (s : LocalSys (Fin nn × Fin nd) K)
    (j : Fin nd) :
    ∑ n, (png e q G s).rhs (n, j) = ∑ n, s.rhs (n, j) - quad e fun ip => val (e.shape ip) fun c => G c j := by
  rw [tested_pick, (c143_png e q G _ (fun _ => 0) s).1, ← sub_eq_add_neg]
  congr 2
  funext ip
  simp [comp_pick, grad_const (hg ip), val_const (hN ip)]

theorem tested_pngBc (f : BFace nf nip nd K) (q : Fin nf → K) (w : Fin nf × Fin nd → K)
    (s : LocalSys (Fin nf × Fin nd) K) :
    tested (pngBc f q) s w = quadB f fun ip =>
      ∑ j, val (f.shape ip) (comp w j) * (val (f.shape ip) q * f.normal ip j) := by
  rw [tested_of _ s w _ (fun a => pngBc_rhs f q s a.1 a.2), quadB]
  refine Finset.sum_congr rfl fun ip _ => ?_
  rw [sum_pair, Finset.sum_mul]
  refine Finset.sum_congr rfl fun j _ => ?_
  simp only [mul_assoc (f.shape ip _)]
  rw [val_swap_c, BFace.fac]
  change _ * (val _ _ * _ * _) = _
  ring

/-- Summed over the rows, a boundary face brings in the boundary integral of `q n`. -/
theorem c149_face_total (f : BFace nf nip nd K) (q : Fin nf → K) (hN : ∀ ip, Unity (f.shape ip))
    (s : LocalSys (Fin nf × Fin nd) K) (j : Fin nd) :
    ∑ n, (pngBc f q s).rhs (n, j) = ∑ n, s.rhs (n, j) +
      quadB f fun ip => val (f.shape ip) q * f.normal ip j := by
  rw [tested_pick, tested_pngBc]
  congr 2
  funext ip
  simp [comp_pick, val_const (hN ip)]

variable {M : Type*} {nfip : ℕ}

/-- The mesh of a projected-gradient solve. -/
structure GMesh (M : Type*) (nn nip nf nfip nd : ℕ) (K : Type*) where
  elems : List ((Fin nn → M) × Elem nn nip nd K)
  faces : List ((Fin nf → M) × BFace nf nfip nd K)

/-- The assembled residual of the projected gradient `G` of `q`, tested with a nodal vector function. -/
def GMesh.residual (m : GMesh M nn nip nf nfip nd K) (q : M → K) (G : M → Fin nd → K) (w : M → Fin nd → K) : K :=
  (m.elems.map fun e => tested (png e.2 (q ∘ e.1) (G ∘ e.1)) ⟨fun _ _ => 0, fun _ => 0⟩
      fun a => w (e.1 a.1) a.2).sum +
    (m.faces.map fun f => tested (pngBc f.2 (q ∘ f.1)) ⟨fun _ _ => 0, fun _ => 0⟩ fun a => w (f.1 a.1) a.2).sum

/-- Integration by parts of the discretization for the pair `(w, q)`. -/
def GMesh.Green (m : GMesh M nn nip nf nfip nd K) (w q : M → K) (j : Fin nd) : Prop :=
  (m.elems.map fun e => quad e.2 fun ip => grad (e.2.dndx ip) (w ∘ e.1) j * val (e.2.shape ip) (q ∘ e.1) +
      val (e.2.shape ip) (w ∘ e.1) * grad (e.2.dndx ip) (q ∘ e.1) j).sum =
    (m.faces.map fun f => quadB f.2 fun ip => val (f.2.shape ip) (w ∘ f.1) * val (f.2.shape ip) (q ∘ f.1) *
      f.2.normal ip j).sum

theorem quad_sum (e : Elem nn nip nd K) (F : Fin nip → Fin nd → K) :
    quad e (fun ip => ∑ j, F ip j) = ∑ j, quad e fun ip => F ip j := by
  simp only [quad, Finset.sum_mul]; exact Finset.sum_comm

theorem quadB_sum (f : BFace nf nip nd K) (F : Fin nip → Fin nd → K) :
    quadB f (fun ip => ∑ j, F ip j) = ∑ j, quadB f fun ip => F ip j := by
  simp only [quadB, Finset.sum_mul]; exact Finset.sum_comm

theorem sum_list_j {E : Type*} (l : List E) (F : E → Fin nd → K) :
    (l.map fun e => ∑ j, F e j).sum = ∑ j, (l.map fun e => F e j).sum := by
  induction l with
  | nil => simp
  | cons x l ih => simp only [List.map_cons, List.sum_cons, ih, Finset.sum_add_distrib]

theorem list_sub {E : Type*} (l : List E) (F H : E → K) :
    (l.map fun e => F e - H e).sum = (l.map F).sum - (l.map H).sum := by
  induction l with
  | nil => simp
  | cons x l ih => simp only [List.map_cons, List.sum_cons, ih]; ring

/-- On a mesh with the divergence theorem, the assembled residual of the projected gradient is the weighted
difference between the gradient of the interpolant and the interpolated projected gradient: `G` is the
`L2` projection of the element gradients. -/
theorem c149_l2_projection (m : GMesh M nn nip nf nfip nd K) (q : M → K) (G w : M → Fin nd → K)
    (hG : ∀ j, m.Green (fun n => w n j) q j) :
    m.residual q G w = (m.elems.map fun e => quad e.2 fun ip => ∑ j, val (e.2.shape ip) (fun n => w (e.1 n) j) *
      (grad (e.2.dndx ip) (q ∘ e.1) j - val (e.2.shape ip) fun n => G (e.1 n) j)).sum := by
  have h1 : (m.elems.map fun e => tested (png e.2 (q ∘ e.1) (G ∘ e.1)) ⟨fun _ _ => 0, fun _ => 0⟩
      fun a => w (e.1 a.1) a.2) = m.elems.map fun e =>
        (quad e.2 fun ip => ∑ j, val (e.2.shape ip) (fun n => w (e.1 n) j) *
          (grad (e.2.dndx ip) (q ∘ e.1) j - val (e.2.shape ip) fun n => G (e.1 n) j)) -
        ∑ j, quad e.2 fun ip => grad (e.2.dndx ip) (fun n => w (e.1 n) j) j * val (e.2.shape ip) (q ∘ e.1) +
          val (e.2.shape ip) (fun n => w (e.1 n) j) * grad (e.2.dndx ip) (q ∘ e.1) j := by
    refine List.map_congr_left fun e _ => ?_
    rw [(c143_png e.2 _ _ _ (fun _ => 0) _).1, ← quad_sum]
    simp only [quad]
    rw [← Finset.sum_sub_distrib, ← Finset.sum_neg_distrib]
    refine Finset.sum_congr rfl fun ip _ => ?_
    rw [← sub_mul, ← Finset.sum_sub_distrib, ← neg_mul]
    congr 1
    rw [Finset.sum_mul, ← Finset.sum_add_distrib, ← Finset.sum_neg_distrib]
    refine Finset.sum_congr rfl fun j _ => ?_
    have e1 : comp (fun a : Fin nn × Fin nd => w (e.1 a.1) a.2) j = fun n => w (e.1 n) j := rfl
    have e2 : (fun c => (G ∘ e.1) c j) = fun n => G (e.1 n) j := rfl
    rw [e1, e2]; ring
  have h2 : (m.faces.map fun f => tested (pngBc f.2 (q ∘ f.1)) ⟨fun _ _ => 0, fun _ => 0⟩
      fun a => w (f.1 a.1) a.2) = m.faces.map fun f => ∑ j, quadB f.2 fun ip =>
        val (f.2.shape ip) (fun n => w (f.1 n) j) * val (f.2.shape ip) (q ∘ f.1) * f.2.normal ip j := by
    refine List.map_congr_left fun f _ => ?_
    rw [tested_pngBc, ← quadB_sum]
    congr 1
    funext ip
    exact Finset.sum_congr rfl fun j _ => by rw [mul_assoc]; rfl
  rw [GMesh.residual, h1, h2, list_sub, sum_list_j, sum_list_j]
  have h3 : ∀ j, _ := hG
  simp only [GMesh.Green] at h3
  have h4 : ∑ j, (m.faces.map fun f => quadB f.2 fun ip =>
        val (f.2.shape ip) (fun n => w (f.1 n) j) * val (f.2.shape ip) (q ∘ f.1) * f.2.normal ip j).sum =
      ∑ j, (m.elems.map fun e => quad e.2 fun ip =>
        grad (e.2.dndx ip) (fun n => w (e.1 n) j) j * val (e.2.shape ip) (q ∘ e.1) +
          val (e.2.shape ip) (fun n => w (e.1 n) j) * grad (e.2.dndx ip) (q ∘ e.1) j).sum :=
    Finset.sum_congr rfl fun j _ => (h3 j).symm
  rw [h4]; ring

/-- So for an affine field the exact constant gradient solves the projected-gradient system. -/
theorem c149_affine_exact (m : GMesh M nn nip nf nfip nd K) (x : M → Fin nd → K) (c : K) (g : Fin nd → K)
    (w : M → Fin nd → K) (hG : ∀ j, m.Green (fun n => w n j) (fun n => affine c g (x n)) j)
    (hN : ∀ e ∈ m.elems, ∀ ip, Unity (e.2.shape ip))
    (he : ∀ e ∈ m.elems, ∀ ip, GradConst (e.2.dndx ip) ∧ GradLinear (e.2.dndx ip) fun n => x (e.1 n)) :
    m.residual (fun n => affine c g (x n)) (fun _ => g) w = 0 := by
  rw [c149_l2_projection m _ _ w hG]
  have : (m.elems.map fun e => quad e.2 fun ip => ∑ j, val (e.2.shape ip) (fun n => w (e.1 n) j) *
      (grad (e.2.dndx ip) ((fun n => affine c g (x n)) ∘ e.1) j - val (e.2.shape ip) fun _ => g j)) =
      m.elems.map fun _ => 0 := by
    refine List.map_congr_left fun e hm => ?_
    have hg : ∀ ip j, grad (e.2.dndx ip) ((fun n => affine c g (x n)) ∘ e.1) j = g j := by
      intro ip j
      simp only [grad, affine, Function.comp, mul_add, Finset.sum_add_distrib, ← Finset.sum_mul,
        (he e hm ip).1 j, zero_mul, zero_add, Finset.mul_sum]
      rw [Finset.sum_comm]
      have : ∀ i, ∑ n, e.2.dndx ip n j * (g i * x (e.1 n) i) = g i * if i = j then 1 else 0 := by
        intro i
        rw [← (he e hm ip).2 i j, Finset.mul_sum]
        exact Finset.sum_congr rfl fun _ _ => by ring
      simp [this]
    simp [hg, val_const (hN e hm _), quad]
  rw [this]; simp

/-! ## A concrete mesh: the bar with its two ends -/

/-- End faces of `bar` seen from the element. -/
def barEnd (a : Fin 2) : Face 2 1 1 1 ℚ where
  shape := fun _ _ => 1
  normal := fun _ _ => if a = 0 then -1 else 1
  detJ := fun _ => 1
  weight := fun _ => 1
  dndx := fun _ b _ => if b = 0 then -1 / 2 else 1 / 2
  node := fun _ => a

def barMesh : Mesh (Fin 2) 2 1 1 1 1 ℚ := ⟨[(id, bar)], [(id, barEnd 0), (id, barEnd 1)]⟩

/-- The hypotheses of the patch test hold on it. -/
example : barMesh.Green ∧ (∀ e ∈ barMesh.elems, ∀ ip, Unity (e.2.shape ip) ∧ GradConst (e.2.dndx ip) ∧
      GradLinear (e.2.dndx ip) fun n (_ : Fin 1) => if n = 0 then (0 : ℚ) else 2) ∧
    ∀ f ∈ barMesh.faces, ∀ ip, Unity (f.2.shape ip) ∧ GradConst (f.2.dndx ip) := by
  refine ⟨?_, ?_, ?_⟩
  · intro w j
    simp [barMesh, quad, quadF, bar, barEnd, grad, trace, Fin.sum_univ_two]
    ring
  · intro e he ip
    simp only [barMesh, List.mem_singleton] at he
    subst he
    refine ⟨by simp [Unity, bar], by intro j; simp [bar]; norm_num, by
      intro i j; simp [bar, Subsingleton.elim i j]⟩
  · intro f hf ip
    simp only [barMesh, List.mem_cons, List.not_mem_nil, or_false] at hf
    rcases hf with rfl | rfl
    · exact ⟨by simp [Unity, barEnd], by intro j; simp [barEnd]; norm_num⟩
    · exact ⟨by simp [Unity, barEnd], by intro j; simp [barEnd]; norm_num⟩

def barB (a : Fin 2) : BFace 1 1 1 ℚ where
  shape := fun _ _ => 1
  normal := fun _ _ => if a = 0 then -1 else 1
  detJ := fun _ => 1
  weight := fun _ => 1

def barG : GMesh (Fin 2) 2 1 1 1 1 ℚ :=
  ⟨[(id, bar)], [((fun _ => 0), barB 0), ((fun _ => 1), barB 1)]⟩

/-- Integration by parts holds on the bar for every pair of nodal functions. -/
example (w q : Fin 2 → ℚ) (j : Fin 1) : barG.Green w q j := by
  simp [barG, GMesh.Green, quad, quadB, bar, barB, grad, val, Fin.sum_univ_two]
  ring

/-- A unit normal and an entering flux, for the entrained velocity. -/
example : dot ((barEnd 0).normal 0) ((barEnd 0).normal 0) = 1 := by simp [dot, barEnd]

end Nalu.Fem
