import Verif.Props.NodeSource
import Verif.Props.Edge
import Mathlib.Algebra.Order.BigOperators.Ring.Finset
import Mathlib.Algebra.Order.Chebyshev

/-!
# Properties of node sources and their assembly

* C124: a uniform field stays uniform on moving meshes (edge scheme).
* C125: forces, work and dissipation.
* C126: the node loop.
-/

namespace Nalu.Node
open Nalu.Edge Nalu.Kernel Finset

variable {K : Type*} [Field K] [LinearOrder K] [IsStrictOrderedRing K] {nd : ℕ}

/-! ## C126 -/

theorem assembleNodes_rhs {N M ι : Type*} [DecidableEq M] [Fintype ι] (p : Parts N) (rows : N → ι → M)
    (algs : List (N → LocalSys ι K → LocalSys ι K)) (mesh : List N) (s : Sys M K) (i : M) :
    (assembleNodes p rows algs mesh s).rhs i = s.rhs i + (mesh.map fun n => if p.selected n then
      ∑ a, (if i = rows n a then (nodeLocal algs n).rhs a else 0) else 0).sum := by
  rw [assembleNodes, fold_rhs]
  congr 1
  induction mesh with
  | nil => simp
  | cons n l ih =>
    by_cases h : p.selected n = true
    · simp [h, ih]
    · simp [h, ih]

theorem assembleNodes_mat {N M ι : Type*} [DecidableEq M] [Fintype ι] (p : Parts N) (rows : N → ι → M)
    (algs : List (N → LocalSys ι K → LocalSys ι K)) (mesh : List N) (s : Sys M K) (i j : M) :
    (assembleNodes p rows algs mesh s).mat i j = s.mat i j + (mesh.map fun n => if p.selected n then
      ∑ a, ∑ b, (if i = rows n a ∧ j = rows n b then (nodeLocal algs n).lhs a b else 0) else 0).sum := by
  rw [assembleNodes, fold_mat]
  congr 1
  induction mesh with
  | nil => simp
  | cons n l ih =>
    by_cases h : p.selected n = true
    · simp [h, ih]
    · simp [h, ih]

theorem sum_once {N : Type*} [DecidableEq N] (l : List N) (hl : l.Nodup) (f : N → K) (n : N) :
    (l.map fun m => if m = n then f m else 0).sum = if n ∈ l then f n else 0 := by
  induction l with
  | nil => simp
  | cons m l ih =>
    rw [List.nodup_cons] at hl
    rw [List.map_cons, List.sum_cons, ih hl.2]
    by_cases h : m = n
    · subst h; simp [hl.1]
    · simp [h, Ne.symm h]

/-- Row numbers of different (node, component) pairs are different. -/
def RowsDistinct {N M ι : Type*} (rows : N → ι → M) : Prop := ∀ n a m b, rows n a = rows m b → n = m ∧ a = b

/-- Every node is held and owned by exactly one rank, and no rank holds a node twice. -/
def OwnedOnce {R N : Type*} (p : R → Parts N) (mesh : R → List N) : Prop :=
  (∀ r, (mesh r).Nodup) ∧ ∀ n, ∃ r, n ∈ mesh r ∧ (p r).owned n = true ∧ ∀ r', n ∈ mesh r' → (p r').owned n = true → r' = r

/-- **C126** Over all ranks, every node that is in the target parts and neither a periodic subject nor inactive receives the contribution of
all its supplemental algorithms exactly once, in its own rows; all other nodes receive nothing.  The result does not depend on the
partition or on the order in which ranks hold their nodes. -/
theorem c126_once {R N M ι : Type*} [Fintype R] [DecidableEq R] [DecidableEq N] [DecidableEq M] [Fintype ι] [DecidableEq ι]
    (p : R → Parts N) (mesh : R → List N)
    (inPart subject inactive : N → Bool) (hp : ∀ r, (p r).inPart = inPart ∧ (p r).subject = subject ∧ (p r).inactive = inactive)
    (hown : OwnedOnce p mesh) (rows : N → ι → M) (hrows : RowsDistinct rows) (algs : List (N → LocalSys ι K → LocalSys ι K)) (n : N) (a : ι) :
    ∑ r, (assembleNodes (p r) rows algs (mesh r) (Sys.zero M K)).rhs (rows n a) =
      if inPart n && !subject n && !inactive n then (nodeLocal algs n).rhs a else 0 := by
  obtain ⟨r0, hm0, ho0, hu⟩ := hown.2 n
  have key : ∀ r, (assembleNodes (p r) rows algs (mesh r) (Sys.zero M K)).rhs (rows n a) =
      if r = r0 then (if inPart n && !subject n && !inactive n then
        (nodeLocal algs n).rhs a else 0) else 0 := by
    intro r
    rw [assembleNodes_rhs]
    have e : ∀ m, (if (p r).selected m then ∑ b, (if rows n a = rows m b then
          (nodeLocal algs m).rhs b else 0) else 0) =
        if m = n then (if (p r).selected m then (nodeLocal algs m).rhs a else 0) else 0 := by
      intro m
      by_cases h : m = n
      · subst h
        rw [if_pos rfl]
        congr 1
        rw [Finset.sum_eq_single a]
        · simp
        · intro b _ hb
          exact if_neg fun h' => hb (hrows _ _ _ _ h').2.symm
        · simp
      · rw [if_neg h]
        split_ifs
        · exact Finset.sum_eq_zero fun b _ => if_neg fun h' => h (hrows _ _ _ _ h').1.symm
        · rfl
    simp only [e]
    rw [sum_once _ (hown.1 r) (fun m => if (p r).selected m then (nodeLocal algs m).rhs a else 0)]
    simp only [Sys.zero, zero_add, Parts.selected, (hp r).1, (hp r).2.1, (hp r).2.2]
    by_cases hr : r = r0
    · subst hr; simp [hm0, ho0]
    · rw [if_neg hr]
      split_ifs with h1 h2
      · exfalso
        apply hr
        apply hu r h1
        revert h2
        cases (p r).owned n <;> simp
      · rfl
      · rfl
  simp only [key]
  simp

/-- **C126** The node loop couples only components of the same node: every matrix entry between two different nodes is untouched. -/
theorem c126_block_diagonal {N M ι : Type*} [DecidableEq M] [Fintype ι] (p : Parts N) (rows : N → ι → M) (hrows : RowsDistinct rows)
    (algs : List (N → LocalSys ι K → LocalSys ι K)) (mesh : List N) (s : Sys M K) (n m : N) (hnm : n ≠ m) (a b : ι) :
    (assembleNodes p rows algs mesh s).mat (rows n a) (rows m b) = s.mat (rows n a) (rows m b) := by
  rw [assembleNodes_mat]
  have : (mesh.map fun k => if p.selected k then ∑ a', ∑ b', (if rows n a = rows k a' ∧ rows m b = rows k b' then
      (nodeLocal algs k).lhs a' b' else 0) else 0) = mesh.map fun _ => (0 : K) := by
    refine List.map_congr_left fun k _ => ?_
    split_ifs
    · refine Finset.sum_eq_zero fun a' _ => Finset.sum_eq_zero fun b' _ => if_neg fun h => hnm ?_
      exact (hrows _ _ _ _ h.1).1.trans (hrows _ _ _ _ h.2).1.symm
    · rfl
  rw [this]; simp

/-! ## C124 -/

/-- Fields of a moving mesh at the nodes. -/
structure MovingMesh (N K : Type*) where
  rho : N → Lv K
  divV : N → K
  vol : N → K

/-- What the continuity equation accumulates at node `n`: minus its time and mesh-motion terms, in mass per time. -/
def accumulation {N : Type*} (ns : ℕ) (b : Bdf K) (f : MovingMesh N K) (n : N) : K :=
  -((continuityGcl b (f.rho n).np1 (f.divV n) (f.vol n)
    (continuityMassAlg ns b (f.rho n) (f.vol n) ⟨fun _ _ => 0, fun _ => 0⟩)).rhs 0) * (b.dt / b.g1)

theorem accumulation_eq {N : Type*} (ns : ℕ) (b : Bdf K) (hdt : b.dt ≠ 0) (hg : b.g1 ≠ 0) (h2 : ns = 2 → b.g1 = 1 ∧ b.g2 = -1 ∧ b.g3 = 0)
    (f : MovingMesh N K) (n : N) :
    accumulation ns b f n = (b.g1 * (f.rho n).np1 + b.g2 * (f.rho n).n + b.g3 * (f.rho n).nm1) * f.vol n / b.dt +
      (f.rho n).np1 * f.divV n * f.vol n := by
  by_cases h : ns = 2
  · obtain ⟨h1, h3, h4⟩ := h2 h
    simp [accumulation, continuityMassAlg, h, continuityMassBE, continuityGcl, h1, h3, h4]
    field_simp
    ring
  · simp [accumulation, continuityMassAlg, h, continuityMassBdf2, continuityGcl]
    field_simp
    ring

/-- The scalar transport system of the edge scheme: edges, open faces, then time term and mesh-motion term at the nodes. -/
def scalarSystem {N : Type*} [DecidableEq N] {n : ℕ} (o : Opts K) (ns : ℕ) (b : Bdf K) (f : MovingMesh N K) (node : N → ScalarNode n K)
    (qOld qOldOld bc : N → K) (edges : List (EdgeRec N n K)) (ips : List (OpenIp N n K)) (p : Parts N) (mesh : List N) : Sys N K :=
  assembleNodes p (fun i (_ : Fin 1) => i)
    [fun i s => scalarMassAlg ns b ⟨(node i).q, qOld i, qOldOld i⟩ (f.rho i) (f.vol i) s,
     fun i s => scalarGcl (node i).q (f.rho i).np1 (f.divV i) (f.vol i) s] mesh
    (assembleScalarOpen (fun i => (node i).q) bc ips (assembleScalar o node edges (Sys.zero N K)))

/-- **C124** For a scalar uniform in space and time the whole residual of node `i` is minus its value times the mass balance of the node:
net outflow through edges and open faces plus the accumulation of the continuity equation. -/
theorem c124_scalar_residual {N : Type*} [DecidableEq N] {n : ℕ} (o : Opts K) (ns : ℕ) (b : Bdf K) (hdt : b.dt ≠ 0) (hg : b.g1 ≠ 0)
    (h2 : ns = 2 → b.g1 = 1 ∧ b.g2 = -1 ∧ b.g3 = 0) (f : MovingMesh N K) (node : N → ScalarNode n K) (c : K)
    (hq : ∀ i, (node i).q = c ∧ (node i).dqdx = 0) (edges : List (EdgeRec N n K)) (ips : List (OpenIp N n K)) (p : Parts N) (mesh : List N)
    (hmesh : mesh.Nodup) (i : N) (hi : i ∈ mesh) (hsel : p.selected i = true) :
    (scalarSystem o ns b f node (fun _ => c) (fun _ => c) (fun _ => c) edges ips p mesh).rhs i =
      -c * (netMass edges (fun e => e.mdot) i + (ips.map fun ip => if i = ip.nearest then ip.mdot else 0).sum + accumulation ns b f i) := by
  rw [scalarSystem, assembleNodes_rhs]
  have e1 : (assembleScalarOpen (fun i => (node i).q) (fun _ => c) ips (assembleScalar o node edges (Sys.zero N K))).rhs i =
      -c * (netMass edges (fun e => e.mdot) i + (ips.map fun ip => if i = ip.nearest then ip.mdot else 0).sum) := by
    rw [assembleScalarOpen, fold_rhs, assembleScalar, fold_rhs, netMass, mul_add, ← List.sum_map_mul_left, ← List.sum_map_mul_left]
    simp only [Sys.zero, zero_add]
    congr 1
    · congr 1
      refine List.map_congr_left fun e _ => ?_
      rw [c24_constant o e.area e.mdot c _ _ (hq e.left) (hq e.right)]
      simp only [EdgeRec.node, Fin.sum_univ_two, Matrix.cons_val_zero, Matrix.cons_val_one]
      by_cases hl : e.left = i <;> by_cases hr : e.right = i <;> simp [eq_comm (a := i), hl, hr] <;> ring
    · congr 1
      refine List.map_congr_left fun ip _ => ?_
      simp only [Fintype.sum_unique, (hq _).1, scalarOpen]
      split_ifs <;> ring
  have e2 : ∀ m, (if p.selected m then ∑ a : Fin 1, (if i = m then
        (nodeLocal [fun i s => scalarMassAlg ns b ⟨(node i).q, c, c⟩ (f.rho i) (f.vol i) s,
          fun i s => scalarGcl (node i).q (f.rho i).np1 (f.divV i) (f.vol i) s] m).rhs a else 0) else 0) =
      if m = i then (if p.selected m then -c * accumulation ns b f m else 0) else 0 := by
    intro m
    by_cases h : m = i
    · subst h
      simp only [if_true, Fintype.sum_unique, nodeLocal, List.foldl_cons, List.foldl_nil]
      congr 1
      rw [accumulation_eq ns b hdt hg h2, (hq m).1]
      by_cases h : ns = 2
      · obtain ⟨g1, g2, g3⟩ := h2 h
        simp [scalarMassAlg, h, scalarMassBE, scalarGcl, g1, g2, g3]; ring
      · simp [scalarMassAlg, h, scalarMassBdf2, scalarGcl]; ring
    · simp [h, Ne.symm h]
  rw [e1]
  simp only [e2]
  rw [sum_once _ hmesh (fun m => if p.selected m then -c * accumulation ns b f m else 0), if_pos hi, if_pos hsel]
  ring

/-- **C124** Free-stream preservation on a moving mesh: after the pressure correction solves the continuity row of node `i` (time and
mesh-motion terms included), a scalar uniform in space and time has zero residual there, whatever the mesh velocity and density are. -/
theorem c124_uniform_after_solve {N : Type*} [DecidableEq N] [Fintype N] {n : ℕ} (o : Opts K) (ns : ℕ) (b : Bdf K) (hdt : b.dt ≠ 0)
    (hg : b.g1 ≠ 0) (h2 : ns = 2 → b.g1 = 1 ∧ b.g2 = -1 ∧ b.g3 = 0) (f : MovingMesh N K) (node : N → ScalarNode n K) (c noc : K)
    (hq : ∀ i, (node i).q = c ∧ (node i).dqdx = 0) (md : N → MdotNode n K) (bcP dp : N → K) (edges : List (EdgeRec N n K))
    (ips : List (OpenIp N n K)) (p : Parts N) (mesh : List N) (hmesh : mesh.Nodup) (i : N) (hi : i ∈ mesh) (hsel : p.selected i = true)
    (inflow : N → K) (hin : inflow i = 0)
    (hsolve : ∑ j, (assembleContinuity (b.dt / b.g1) noc md bcP edges ips inflow (accumulation ns b f)).mat i j * dp j =
      (assembleContinuity (b.dt / b.g1) noc md bcP edges ips inflow (accumulation ns b f)).rhs i)
    (edges' : List (EdgeRec N n K)) (he : edges' = edges.map fun e => { e with mdot := newEdgeMdot (b.dt / b.g1) noc md dp e })
    (ips' : List (OpenIp N n K)) (hip : ips' = ips.map fun ip => { ip with mdot := newOpenMdot (b.dt / b.g1) noc md bcP dp ip }) :
    (scalarSystem o ns b f node (fun _ => c) (fun _ => c) (fun _ => c) edges' ips' p mesh).rhs i = 0 := by
  rw [c124_scalar_residual o ns b hdt hg h2 f node c hq edges' ips' p mesh hmesh i hi hsel]
  have := c54_discrete_continuity (b.dt / b.g1) noc (div_ne_zero hdt hg) md bcP edges ips inflow (accumulation ns b f) dp i hsolve
  rw [hin, add_zero] at this
  subst he hip
  have e : netMass (edges.map fun e => { e with mdot := newEdgeMdot (b.dt / b.g1) noc md dp e }) (fun e => e.mdot) i =
      netMass edges (newEdgeMdot (b.dt / b.g1) noc md dp) i := by
    simp only [netMass, List.map_map]; rfl
  rw [e, List.map_map]
  have e' : (ips.map ((fun ip : OpenIp N n K => if i = ip.nearest then ip.mdot else 0) ∘
      fun ip => { ip with mdot := newOpenMdot (b.dt / b.g1) noc md bcP dp ip })).sum =
      (ips.map fun ip => if i = ip.nearest then newOpenMdot (b.dt / b.g1) noc md bcP dp ip else 0).sum := rfl
  rw [e', this, mul_zero]

/-- The momentum system of the edge scheme without boundaries. -/
def momentumSystem {N : Type*} [DecidableEq N] {n : ℕ} (o : Opts K) (inc : K) (ns : ℕ) (b : Bdf K) (f : MovingMesh N K)
    (node : N → MomNode n K) (uOld uOldOld dpdx : N → Fin n → K) (edges : List (EdgeRec N n K)) (p : Parts N) (mesh : List N) :
    Sys (N × Fin n) K :=
  assembleNodes p (fun i k => (i, k))
    [fun i s => momentumMassAlg ns b ⟨(node i).u, uOld i, uOldOld i⟩ (f.rho i) (dpdx i) (f.vol i) s,
     fun i s => momentumGcl (node i).u (f.rho i).np1 (f.divV i) (f.vol i) s] mesh
    (assembleMomentum o inc node edges (Sys.zero _ K))

theorem momentumGcl_rhs (u : Fin nd → K) (rho divV vol : K) (s : LocalSys (Fin nd) K) (a : Fin nd) :
    (momentumGcl u rho divV vol s).rhs a = s.rhs a - rho * divV * vol * u a := by
  rw [momentumGcl, loop_rhs (a := a) (δ := fun i => if a = i then -(rho * divV * vol * u i) else 0)]
  · simp; ring
  · intro k s; simp

theorem momentum_uniform {n : ℕ} (o : Opts K) (inc : K) (a : Fin n → K) (mdot : K) (L R : MomNode n K) (U : Fin n → K)
    (hL : L.u = U ∧ L.dudx = 0) (hR : R.u = U ∧ R.dudx = 0) (r : Fin 2 × Fin n) :
    (momentumEdge o inc a mdot L R).rhs r = (![-(mdot * U r.2), mdot * U r.2] : Fin 2 → K) r.1 := by
  have hd : ∀ i j, duidxj o a L R i j = 0 := by
    intro i j; simp [duidxj, hL.1, hL.2, hR.1, hR.2]
  have h1 : momDiffFlux o inc a L R r.2 = 0 := by simp [momDiffFlux, hd]
  have h2 : momAdvFlux o mdot L R r.2 = mdot * U r.2 := by
    have := c24_constant o a mdot (U r.2) (L.comp r.2) (R.comp r.2)
      ⟨by simp [MomNode.comp, hL.1], by simp [MomNode.comp, hL.2]⟩ ⟨by simp [MomNode.comp, hR.1], by simp [MomNode.comp, hR.2]⟩
    have h0 := congrFun this 1
    have hdf : diffFlux o a (L.comp r.2) (R.comp r.2) = 0 := by
      simp [diffFlux, nonOrth, MomNode.comp, hL.1, hL.2, hR.1, hR.2]
    simpa [scalarEdge, hdf, momAdvFlux] using h0
  simp only [momentumEdge, h1, h2, add_zero]

/-- **C124** For a velocity uniform in space and time and no pressure gradient the momentum residual of an interior node is minus the
velocity times the mass balance: uniform flow is preserved on moving meshes once continuity holds. -/
theorem c124_momentum_residual {N : Type*} [DecidableEq N] {n : ℕ} (o : Opts K) (inc : K) (ns : ℕ) (b : Bdf K) (hdt : b.dt ≠ 0)
    (hg : b.g1 ≠ 0) (h2 : ns = 2 → b.g1 = 1 ∧ b.g2 = -1 ∧ b.g3 = 0) (f : MovingMesh N K) (node : N → MomNode n K) (U : Fin n → K)
    (hu : ∀ i, (node i).u = U ∧ (node i).dudx = 0) (edges : List (EdgeRec N n K)) (p : Parts N) (mesh : List N) (hmesh : mesh.Nodup) (i : N)
    (hi : i ∈ mesh) (hsel : p.selected i = true) (k : Fin n) :
    (momentumSystem o inc ns b f node (fun _ => U) (fun _ => U) (fun _ _ => 0) edges p mesh).rhs (i, k) =
      -U k * (netMass edges (fun e => e.mdot) i + accumulation ns b f i) := by
  rw [momentumSystem, assembleNodes_rhs]
  have e1 : (assembleMomentum o inc node edges (Sys.zero (N × Fin n) K)).rhs (i, k) = -U k * netMass edges (fun e => e.mdot) i := by
    rw [assembleMomentum, fold_rhs, netMass, ← List.sum_map_mul_left]
    simp only [Sys.zero, zero_add]
    congr 1
    refine List.map_congr_left fun e _ => ?_
    rw [Fintype.sum_prod_type, Fin.sum_univ_two]
    have : ∀ (r : Fin 2), (∑ y, if (i, k) = (e.node r, y) then
        (momentumEdge o inc e.area e.mdot (node e.left) (node e.right)).rhs (r, y) else 0) =
        if i = e.node r then (![-(e.mdot * U k), e.mdot * U k] : Fin 2 → K) r else 0 := by
      intro r
      rw [Finset.sum_eq_single k]
      · rw [momentum_uniform o inc e.area e.mdot _ _ U (hu e.left) (hu e.right)]
        simp
      · intro y _ hy
        exact if_neg fun h => hy (Prod.mk.inj h).2.symm
      · simp
    rw [this 0, this 1]
    simp only [EdgeRec.node, Matrix.cons_val_zero, Matrix.cons_val_one]
    by_cases hl : e.left = i <;> by_cases hr : e.right = i <;> simp [eq_comm (a := i), hl, hr] <;> ring
  have e2 : ∀ m, (if p.selected m then ∑ a : Fin n, (if (i, k) = (m, a) then
        (nodeLocal [fun i s => momentumMassAlg ns b ⟨(node i).u, U, U⟩ (f.rho i) (fun _ => 0) (f.vol i) s,
          fun i s => momentumGcl (node i).u (f.rho i).np1 (f.divV i) (f.vol i) s] m).rhs a else 0) else 0) =
      if m = i then (if p.selected m then -U k * accumulation ns b f m else 0) else 0 := by
    intro m
    by_cases h : m = i
    · subst h
      simp only [if_true, nodeLocal, List.foldl_cons, List.foldl_nil, Prod.mk.injEq, true_and]
      congr 1
      rw [Finset.sum_ite_eq, if_pos (Finset.mem_univ _), accumulation_eq ns b hdt hg h2, (hu m).1, momentumGcl_rhs]
      by_cases h : ns = 2
      · obtain ⟨g1, g2, g3⟩ := h2 h
        simp only [momentumMassAlg, h, if_true, momentumMassBE_rhs, g1, g2, g3]; ring
      · simp only [momentumMassAlg, h, if_false, momentumMassBdf2_rhs]; ring
    · simp [h, Ne.symm h]
  rw [e1]
  simp only [e2]
  rw [sum_once _ hmesh (fun m => if p.selected m then -U k * accumulation ns b f m else 0), if_pos hi, if_pos hsel]
  ring

/-! ## C125 -/

theorem bodyForce_rhs (params : Fin nd → K) (vol : K) (s : LocalSys (Fin nd) K) (a : Fin nd) :
    (bodyForce params vol s).rhs a = s.rhs a + vol * params a := by
  rw [bodyForce, loop_rhs (a := a) (δ := fun i => if a = i then vol * params i else 0)]
  · simp
  · intro k s; simp

theorem buoyancy_rhs (rhoRef : K) (grav : Fin nd → K) (rho vol : K) (s : LocalSys (Fin nd) K) (a : Fin nd) :
    (buoyancy rhoRef grav rho vol s).rhs a = s.rhs a + (rho - rhoRef) * vol * grav a := by
  rw [buoyancy, loop_rhs (a := a) (δ := fun i => if a = i then (rho - rhoRef) * vol * grav i else 0)]
  · simp
  · intro k s; simp

theorem boussinesq_rhs (rhoRef beta tRef : K) (grav : Fin nd → K) (T vol : K) (s : LocalSys (Fin nd) K) (a : Fin nd) :
    (boussinesq rhoRef beta tRef grav T vol s).rhs a = s.rhs a + -rhoRef * beta * (T - tRef) * vol * grav a := by
  rw [boussinesq, loop_rhs (a := a) (δ := fun i => if a = i then -rhoRef * beta * (T - tRef) * vol * grav i else 0)]
  · simp
  · intro k s; simp

theorem actuator_rhs (src : Fin nd → K) (srcLhs vol : K) (s : LocalSys (Fin nd) K) (a : Fin nd) :
    (actuator src srcLhs vol s).rhs a = s.rhs a + src a * vol := by
  rw [actuator, loop_rhs (a := a) (δ := fun i => if a = i then src i * vol else 0)]
  · simp
  · intro k s; simp

/-- **C125** The total of a constant body force over any mesh is the force per volume times the volume; buoyancy is the excess mass times
gravity (in total), it vanishes at the reference density, and the Boussinesq force is the buoyancy of the density linear in temperature. -/
theorem c125_forces {N : Type*} (mesh : List N) (vol rho T : N → K) (F grav : Fin nd → K) (rhoRef beta tRef : K)
    (s : LocalSys (Fin nd) K) (k : Fin nd) :
    (mesh.map fun n => (bodyForce F (vol n) s).rhs k - s.rhs k).sum = F k * (mesh.map vol).sum ∧
    (mesh.map fun n => (buoyancy rhoRef grav (rho n) (vol n) s).rhs k - s.rhs k).sum =
      ((mesh.map fun n => rho n * vol n).sum - rhoRef * (mesh.map vol).sum) * grav k ∧
    (∀ n, (buoyancy rhoRef grav rhoRef (vol n) s).rhs k = s.rhs k) ∧
    ∀ n, (boussinesq rhoRef beta tRef grav (T n) (vol n) s).rhs k =
      (buoyancy rhoRef grav (rhoRef * (1 - beta * (T n - tRef))) (vol n) s).rhs k := by
  refine ⟨?_, ?_, ?_, ?_⟩
  · rw [← List.sum_map_mul_left]
    congr 1
    exact List.map_congr_left fun n _ => by rw [bodyForce_rhs]; ring
  · have : ∀ l : List N, (l.map fun n => (buoyancy rhoRef grav (rho n) (vol n) s).rhs k - s.rhs k).sum =
        ((l.map fun n => rho n * vol n).sum - rhoRef * (l.map vol).sum) * grav k := by
      intro l
      induction l with
      | nil => simp
      | cons n l ih => rw [List.map_cons, List.sum_cons, ih, buoyancy_rhs, List.map_cons, List.sum_cons, List.map_cons, List.sum_cons]; ring
    exact this mesh
  · intro n; rw [buoyancy_rhs]; ring
  · intro n; rw [boussinesq_rhs, buoyancy_rhs]; ring

/-- **C125** The pressure work added to the enthalpy is exactly the power that the pressure gradient takes from the momentum equation at the
same node: mechanical and thermal energy balance. -/
theorem c125_pressure_work (ns : ℕ) (b : Bdf K) (u : Lv (Fin nd → K)) (rho : Lv K) (dpdx : Fin nd → K) (vol : K) (s : LocalSys (Fin nd) K)
    (t : LocalSys (Fin 1) K) :
    ∑ k, u.np1 k * ((momentumMassAlg ns b u rho dpdx vol s).rhs k - (momentumMassAlg ns b u rho (fun _ => 0) vol s).rhs k) +
      ((pressureWork u.np1 dpdx vol t).rhs 0 - t.rhs 0) = 0 := by
  have e : ∀ k, u.np1 k * ((momentumMassAlg ns b u rho dpdx vol s).rhs k - (momentumMassAlg ns b u rho (fun _ => 0) vol s).rhs k) =
      -(u.np1 k * dpdx k * vol) := by
    intro k
    by_cases h : ns = 2
    · simp only [momentumMassAlg, h, if_true, momentumMassBE_rhs]; ring
    · simp only [momentumMassAlg, h, if_false, momentumMassBdf2_rhs]; ring
  simp only [e]
  simp [pressureWork, Finset.sum_mul]

/-- **C125** Low-speed compressible terms of the enthalpy equation together are the material derivative of pressure, for a pressure affine in
time and space. -/
theorem c125_material_derivative (c r t dt : K) (g x u : Fin nd → K) (hdt : dt ≠ 0) (vol : K) (s : LocalSys (Fin 1) K) :
    (pressureWork u g vol (enthalpyLowSpeed dt (affine c g x + r * t) (affine c g x + r * (t + dt)) vol s)).rhs 0 =
      s.rhs 0 + (r + ∑ j, u j * g j) * vol := by
  simp [pressureWork, enthalpyLowSpeed]
  field_simp
  ring

/-- Specification: twice the strain rate squared, minus two thirds of the dilatation squared. -/
def dissipation (inc : K) (g : Fin nd → Fin nd → K) : K :=
  1 / 2 * (∑ i, ∑ j, (g i j + g j i) ^ 2) - 2 / 3 * inc * (∑ k, g k k) ^ 2

/-- **C125** Viscous work is the viscous dissipation function. -/
theorem c125_viscous_work (inc : K) (g : Fin nd → Fin nd → K) (mu vol : K) (s : LocalSys (Fin 1) K) :
    (viscousWork inc g mu vol s).rhs 0 = s.rhs 0 + mu * dissipation inc g * vol := by
  have e : ∑ i, ∑ j, viscousTerm inc g i j = dissipation inc g := by
    simp only [viscousTerm, dissipation, Finset.sum_sub_distrib]
    have h1 : ∑ i, ∑ j, g i j * (g i j + g j i) = 1 / 2 * ∑ i, ∑ j, (g i j + g j i) ^ 2 := by
      have hs : ∑ i, ∑ j, g j i * (g i j + g j i) = ∑ i, ∑ j, g i j * (g i j + g j i) := by
        rw [Finset.sum_comm]
        exact Finset.sum_congr rfl fun i _ => Finset.sum_congr rfl fun j _ => by ring
      have : ∑ i, ∑ j, (g i j + g j i) ^ 2 = ∑ i, ∑ j, g i j * (g i j + g j i) + ∑ i, ∑ j, g j i * (g i j + g j i) := by
        rw [← Finset.sum_add_distrib]
        refine Finset.sum_congr rfl fun i _ => ?_
        rw [← Finset.sum_add_distrib]
        exact Finset.sum_congr rfl fun j _ => by ring
      rw [this, hs]; ring
    rw [h1]
    congr 1
    have h2 : ∀ i, (∑ j, if i = j then g i j * 2 / 3 * (∑ k, g k k) * inc else 0) = g i i * 2 / 3 * (∑ k, g k k) * inc := by
      intro i; simp
    simp only [h2]
    have h3 : ∀ i, g i i * 2 / 3 * (∑ k, g k k) * inc = g i i * (2 / 3 * (∑ k, g k k) * inc) := fun i => by ring
    simp only [h3]
    rw [← Finset.sum_mul]
    ring
  simp only [viscousWork, e, addL_rhs, addR_rhs, if_true]
  ring

/-- **C125** Second law: in up to three dimensions viscous work never removes energy, whether or not the dilatation part is included. -/
theorem c125_dissipation_nonneg (hnd : nd ≤ 3) (inc : K) (hi : inc ≤ 1) (g : Fin nd → Fin nd → K) (mu vol : K) (hmu : 0 ≤ mu) (hv : 0 ≤ vol)
    (s : LocalSys (Fin 1) K) : s.rhs 0 ≤ (viscousWork inc g mu vol s).rhs 0 := by
  rw [c125_viscous_work]
  have hd : 0 ≤ dissipation inc g := by
    have h1 : ∑ i, (2 * g i i) ^ 2 ≤ ∑ i, ∑ j, (g i j + g j i) ^ 2 := by
      refine Finset.sum_le_sum fun i _ => ?_
      have := Finset.single_le_sum (f := fun j => (g i j + g j i) ^ 2) (fun j _ => sq_nonneg _) (Finset.mem_univ i)
      linarith [this, show (g i i + g i i) ^ 2 = (2 * g i i) ^ 2 by ring]
    have h2 : (∑ k, g k k) ^ 2 ≤ (nd : K) * ∑ k, (g k k) ^ 2 := by
      have := sq_sum_le_card_mul_sum_sq (s := (Finset.univ : Finset (Fin nd))) (f := fun k => g k k)
      simpa using this
    have h3 : (nd : K) ≤ 3 := by exact_mod_cast hnd
    have h4 : 0 ≤ ∑ k, (g k k) ^ 2 := Finset.sum_nonneg fun _ _ => sq_nonneg _
    have h5 : (∑ k, g k k) ^ 2 ≤ 3 * ∑ k, (g k k) ^ 2 := h2.trans (mul_le_mul_of_nonneg_right h3 h4)
    have h6 : ∑ i, (2 * g i i) ^ 2 = 4 * ∑ k, (g k k) ^ 2 := by
      rw [Finset.mul_sum]; exact Finset.sum_congr rfl fun _ _ => by ring
    have h7 : inc * (∑ k, g k k) ^ 2 ≤ (∑ k, g k k) ^ 2 := by
      have := mul_le_mul_of_nonneg_right hi (sq_nonneg (∑ k, g k k)); linarith
    unfold dissipation
    have h8 : 2 / 3 * inc * (∑ k, g k k) ^ 2 = 2 / 3 * (inc * (∑ k, g k k) ^ 2) := by ring
    rw [h8]
    linarith
  have := mul_nonneg (mul_nonneg hmu hd) hv
  linarith

/-- **C125** Viscous work does not see rigid rotation: adding an antisymmetric part to the velocity gradient changes nothing, and a rigid
motion dissipates nothing. -/
theorem c125_rigid (inc : K) (g w : Fin nd → Fin nd → K) (hw : ∀ i j, w i j = -w j i) (mu vol : K) (s : LocalSys (Fin 1) K) :
    (viscousWork inc (fun i j => g i j + w i j) mu vol s).rhs 0 = (viscousWork inc g mu vol s).rhs 0 ∧
      (viscousWork inc w mu vol s).rhs 0 = s.rhs 0 := by
  have hd : ∀ k, w k k = 0 := by
    intro k
    have := hw k k
    linarith
  constructor
  · rw [c125_viscous_work, c125_viscous_work]
    have : dissipation inc (fun i j => g i j + w i j) = dissipation inc g := by
      simp only [dissipation, hd, add_zero]
      congr 2
      refine Finset.sum_congr rfl fun i _ => Finset.sum_congr rfl fun j _ => ?_
      rw [hw i j]; ring
    rw [this]
  · rw [c125_viscous_work]
    have : dissipation inc w = 0 := by
      simp only [dissipation, hd, Finset.sum_const_zero]
      have : ∀ i j, (w i j + w j i) ^ 2 = 0 := by
        intro i j; rw [hw i j]; ring
      simp [this]
    rw [this]; ring

/-- **C125** (finding) Low-speed compressibility: for a density proportional to pressure the matrix entry is the derivative of the density
accumulation with respect to pressure for backward Euler, but lacks the first weight under BDF2: exact only when that weight is one. -/
theorem c125_low_speed_newton (b : Bdf K) (hdt : b.dt ≠ 0) (hg : b.g1 ≠ 0) (psi vol rhoN rhoNm1 : K) (hv : psi * vol ≠ 0) :
    (∀ p d, p ≠ 0 → ∀ s : LocalSys (Fin 1) K,
      (continuityMassBdf2 b ⟨psi * (p + d), rhoN, rhoNm1⟩ vol s).rhs 0 =
        (continuityMassBdf2 b ⟨psi * p, rhoN, rhoNm1⟩ vol s).rhs 0 -
          b.g1 * (((continuityLowSpeed b (psi * p) p vol s).lhs 0 0 - s.lhs 0 0) * d)) ∧
    ((∀ p d, p ≠ 0 → ∀ s : LocalSys (Fin 1) K,
      (continuityMassBdf2 b ⟨psi * (p + d), rhoN, rhoNm1⟩ vol s).rhs 0 =
        (continuityMassBdf2 b ⟨psi * p, rhoN, rhoNm1⟩ vol s).rhs 0 -
          ((continuityLowSpeed b (psi * p) p vol s).lhs 0 0 - s.lhs 0 0) * d) ↔ b.g1 = 1) := by
  have key : ∀ p d, p ≠ 0 → ∀ s : LocalSys (Fin 1) K,
      (continuityMassBdf2 b ⟨psi * (p + d), rhoN, rhoNm1⟩ vol s).rhs 0 =
        (continuityMassBdf2 b ⟨psi * p, rhoN, rhoNm1⟩ vol s).rhs 0 -
          b.g1 * (((continuityLowSpeed b (psi * p) p vol s).lhs 0 0 - s.lhs 0 0) * d) := by
    intro p d hp s
    simp [continuityMassBdf2, continuityLowSpeed]
    field_simp
    ring
  refine ⟨key, ⟨?_, ?_⟩⟩
  · intro h
    have h1 := h 1 1 one_ne_zero ⟨fun _ _ => 0, fun _ => 0⟩
    have h2 := key 1 1 one_ne_zero ⟨fun _ _ => 0, fun _ => 0⟩
    rw [h2] at h1
    have h3 : (b.g1 - 1) * ((continuityLowSpeed b (psi * 1) 1 vol ⟨fun _ _ => 0, fun _ => 0⟩).lhs 0 0) = 0 := by
      simp only [sub_zero, mul_one] at h1 ⊢
      linear_combination -h1
    rcases mul_eq_zero.mp h3 with h4 | h4
    · exact sub_eq_zero.mp h4
    · exfalso
      simp [continuityLowSpeed] at h4
      rcases h4 with h4 | h4
      · exact hv (by rcases h4 with h4 | h4 <;> simp_all)
      · rcases h4 with h4 | h4 <;> simp_all
  · intro h p d hp s
    rw [key p d hp s, h, one_mul]

/-- **C125** The actuator source adds its force times the volume, and its linearisation only to the diagonal. -/
theorem c125_actuator (src : Fin nd → K) (srcLhs vol : K) (s : LocalSys (Fin nd) K) (a c : Fin nd) :
    (actuator src srcLhs vol s).rhs a = s.rhs a + src a * vol ∧
      (actuator src srcLhs vol s).lhs a c = s.lhs a c + if a = c then srcLhs * vol else 0 := by
  refine ⟨actuator_rhs src srcLhs vol s a, ?_⟩
  rw [actuator, loop_lhs (a := a) (b := c) (δ := fun i => if a = i ∧ c = i then srcLhs * vol else 0)]
  · congr 1
    by_cases h : a = c
    · subst h; simp
    · rw [if_neg h]
      exact Finset.sum_eq_zero fun i _ => if_neg fun ⟨h1, h2⟩ => h (h1.trans h2.symm)
  · intro k s; simp

/-! ## The hypotheses are met -/

/-- Two ranks share node `1`; rank `0` owns it. -/
def exMesh : Fin 2 → List (Fin 3) := fun r => if r = 0 then [0, 1] else [1, 2]
/-- Parts of the example. -/
def exParts : Fin 2 → Parts (Fin 3) := fun r => ⟨fun n => decide (n ≤ 1) == decide (r = 0), fun _ => true, fun _ => false, fun _ => false⟩

example : OwnedOnce exParts exMesh := by
  constructor
  · decide
  · decide

example : RowsDistinct (fun (n : Fin 3) (a : Fin 2) => (n, a)) := fun _ _ _ _ h => ⟨(Prod.mk.inj h).1, (Prod.mk.inj h).2⟩

example : ∃ b : Bdf ℚ, b.dt ≠ 0 ∧ b.g1 ≠ 0 ∧ b.g1 + b.g2 + b.g3 = 0 :=
  ⟨{ dt := 1, g1 := 3 / 2, g2 := -2, g3 := 1 / 2 }, by norm_num, by norm_num, by norm_num⟩

end Nalu.Node
