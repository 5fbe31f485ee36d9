import Verif.Model.ElemSource
import Verif.Props.ElemKernel
import Verif.Props.Mms

set_option linter.unusedSectionVars false

/-!
# C255–C257: hybrid turbulence stress, constant element sources, manufactured element sources
-/

namespace Nalu.ElemSource
open Nalu.Edge Nalu.Kernel Nalu.Mms Verif.Pde

variable {K : Type*} [Field K] [LinearOrder K] [IsStrictOrderedRing K]
variable {nn nip nd : ℕ}

/-! ## C255: hybrid turbulence stress -/

/-- Gradient at an integration point: component `i`, direction `l`. -/
def gradU (g : Fin nn → Fin nd → K) (u : Fin nn → Fin nd → K) (i l : Fin nd) : K := ∑ ic, g ic l * u ic i

/-- Turbulent stress of the tensor viscosity model, component `k` on direction `j`: the anisotropic part. -/
def anisoStress (mt du : Fin nd → Fin nd → K) (k j : Fin nd) : K := ∑ l, mt j l * du k l + ∑ l, mt k l * du j l

/-- What the code forms for one node. -/
def hybRow (al : K) (mt : Fin nd → Fin nd → K) (g a d : Fin nd → K) (k : Fin nd) : K :=
  (∑ j, (∑ l, -mt k l * g l * a j) * al * d j) + (∑ j, (∑ l, -mt j l * g l * a j) * al) * d k

theorem hybrid_rhs (e : Scs nn nip nd K) (rho tke alpha : Fin nn → K) (mt : Fin nn → Fin nd → Fin nd → K) (u : Fin nn → Fin nd → K)
    (s : LocalSys (Fin nn × Fin nd) K) (n : Fin nn) (k : Fin nd) :
    (hybridTurb e rho tke alpha mt u s).rhs (n, k) = s.rhs (n, k) - ∑ ip, lrs n (e.il ip) (e.ir ip)
      (∑ ic, (hybRow (interp (e.shape ip) alpha) (fun i j => interp (e.shape ip) fun ic => mt ic i j) (e.dndx ip ic) (e.area ip) (u ic) k
        + 2 / 3 * interp (e.shape ip) alpha * interp (e.shape ip) rho * interp (e.shape ip) tke * e.area ip k)) := by
  rw [hybridTurb, loop_rhs (a := (n, k)) (δ := fun ip => -lrs n (e.il ip) (e.ir ip)
      (∑ ic, (hybRow (interp (e.shape ip) alpha) (fun i j => interp (e.shape ip) fun ic => mt ic i j) (e.dndx ip ic) (e.area ip) (u ic) k
        + 2 / 3 * interp (e.shape ip) alpha * interp (e.shape ip) rho * interp (e.shape ip) tke * e.area ip k)))]
  · rw [Finset.sum_neg_distrib, sub_eq_add_neg]
  intro ip s
  simp only
  generalize interp (e.shape ip) alpha = al
  generalize interp (e.shape ip) rho = rh
  generalize interp (e.shape ip) tke = tk
  obtain ⟨m, hm⟩ : ∃ m : Fin nd → Fin nd → K, ∀ i j, interp (e.shape ip) (fun ic => mt ic i j) = m i j := ⟨_, fun _ _ => rfl⟩
  simp only [hm]
  rw [loop_rhs (a := (n, k)) (δ := fun ic => -lrs n (e.il ip) (e.ir ip) (hybRow al m (e.dndx ip ic) (e.area ip) (u ic) k
        + 2 / 3 * al * rh * tk * e.area ip k))]
  · rw [Finset.sum_neg_distrib, lrs_sum]
  intro ic s
  rw [loop_rhs (a := (n, k)) (δ := fun i => -lrs (n, k) (e.il ip, i) (e.ir ip, i) (hybRow al m (e.dndx ip ic) (e.area ip) (u ic) i
        + 2 / 3 * al * rh * tk * e.area ip i))]
  · rw [Finset.sum_neg_distrib, sum_lrs_pair]
  intro i s
  simp only [addR_rhs, addL_rhs]
  rw [loop_rhs (a := (n, k)) (δ := fun j => -lrs (n, k) (e.il ip, i) (e.ir ip, i) ((∑ l, -m i l * e.dndx ip ic l * e.area ip j) * al * u ic j))]
  · rw [Finset.sum_neg_distrib, lrs_sum, hybRow]
    generalize (∑ j, (∑ l, -m i l * e.dndx ip ic l * e.area ip j) * al * u ic j) = A
    generalize (∑ j, (∑ l, -m j l * e.dndx ip ic l * e.area ip j) * al) * u ic i = B
    simp only [lrs]; split_ifs <;> ring
  · intro j s
    simp only [addR_rhs, addL_rhs, lrs]; split_ifs <;> ring

theorem hybrid_act (e : Scs nn nip nd K) (rho tke alpha : Fin nn → K) (mt : Fin nn → Fin nd → Fin nd → K) (u : Fin nn → Fin nd → K)
    (s : LocalSys (Fin nn × Fin nd) K) (d : Fin nn × Fin nd → K) (n : Fin nn) (k : Fin nd) :
    act (hybridTurb e rho tke alpha mt u s) d (n, k) = act s d (n, k) + ∑ ip, lrs n (e.il ip) (e.ir ip)
      (∑ ic, hybRow (interp (e.shape ip) alpha) (fun i j => interp (e.shape ip) fun ic => mt ic i j) (e.dndx ip ic) (e.area ip)
        (fun j => d (ic, j)) k) := by
  rw [hybridTurb, loop_act (a := (n, k))]
  intro ip s
  simp only
  generalize interp (e.shape ip) alpha = al
  generalize interp (e.shape ip) rho = rh
  generalize interp (e.shape ip) tke = tk
  obtain ⟨m, hm⟩ : ∃ m : Fin nd → Fin nd → K, ∀ i j, interp (e.shape ip) (fun ic => mt ic i j) = m i j := ⟨_, fun _ _ => rfl⟩
  simp only [hm]
  rw [loop_act (a := (n, k)) (δ := fun ic => lrs n (e.il ip) (e.ir ip) (hybRow al m (e.dndx ip ic) (e.area ip) (fun j => d (ic, j)) k))]
  · rw [lrs_sum]
  intro ic s
  rw [loop_act (a := (n, k)) (δ := fun i => lrs (n, k) (e.il ip, i) (e.ir ip, i) (hybRow al m (e.dndx ip ic) (e.area ip) (fun j => d (ic, j)) i))]
  · rw [sum_lrs_pair]
  intro i s
  simp only [addR_act, addL_act]
  rw [loop_act (a := (n, k)) (δ := fun j => lrs (n, k) (e.il ip, i) (e.ir ip, i) ((∑ l, -m i l * e.dndx ip ic l * e.area ip j) * al * d (ic, j)))]
  · rw [lrs_sum, hybRow, lrs_add]
    generalize (∑ j, (∑ l, -m i l * e.dndx ip ic l * e.area ip j) * al * d (ic, j)) = A
    generalize (∑ j, (∑ l, -m j l * e.dndx ip ic l * e.area ip j) * al) = B
    simp only [lrs]; split_ifs <;> ring
  · intro j s
    simp only [addR_act, addL_act, lrs]; split_ifs <;> ring

theorem hybRow_sum (al : K) (mt : Fin nd → Fin nd → K) (g : Fin nn → Fin nd → K) (a : Fin nd → K) (u : Fin nn → Fin nd → K) (k : Fin nd) :
    ∑ ic, hybRow al mt (g ic) a (u ic) k = -∑ j, al * anisoStress mt (gradU g u) k j * a j := by
  simp only [hybRow, anisoStress, gradU, Finset.sum_add_distrib, mul_add, add_mul, Finset.mul_sum, Finset.sum_mul, ← Finset.sum_neg_distrib, neg_add]
  rw [add_comm]
  congr 1
  · rw [Finset.sum_comm]
    refine Finset.sum_congr rfl fun j _ => ?_
    rw [Finset.sum_comm]
    exact Finset.sum_congr rfl fun l _ => Finset.sum_congr rfl fun ic _ => by ring
  · rw [Finset.sum_comm]
    refine Finset.sum_congr rfl fun j _ => ?_
    rw [Finset.sum_comm]
    exact Finset.sum_congr rfl fun l _ => Finset.sum_congr rfl fun ic _ => by ring

/-- **C255** The kernel adds, to every node and component, minus the net outflow of: minus the anisotropic stress `mu_jl du_k/dx_l + mu_kl du_j/dx_l`
times area, weighted with the adaptivity parameter, plus the isotropic part `2/3 rho k` times area.  The full property has the isotropic part once; the
code adds it once for every node of the element (`nn` times). -/
theorem c255_stress_partial (e : Scs nn nip nd K) (rho tke alpha : Fin nn → K) (mt : Fin nn → Fin nd → Fin nd → K) (u : Fin nn → Fin nd → K)
    (s : LocalSys (Fin nn × Fin nd) K) (n : Fin nn) (k : Fin nd) :
    (hybridTurb e rho tke alpha mt u s).rhs (n, k) = s.rhs (n, k) - netOut e.il e.ir (fun ip =>
      -(∑ j, interp (e.shape ip) alpha * anisoStress (fun i j => interp (e.shape ip) fun ic => mt ic i j) (gradU (e.dndx ip) u) k j * e.area ip j)
      + nn * (2 / 3 * interp (e.shape ip) alpha * interp (e.shape ip) rho * interp (e.shape ip) tke * e.area ip k)) n := by
  rw [hybrid_rhs, ← sum_lrs_net]
  congr 1
  refine Finset.sum_congr rfl fun ip _ => ?_
  rw [Finset.sum_add_distrib, hybRow_sum, Finset.sum_const, Finset.card_univ, Fintype.card_fin, nsmul_eq_mul]

/-- **C255** In particular the isotropic stress does act when the velocity gradient vanishes, with `nn` times its value. -/
theorem c255_overcounted_partial (e : Scs nn nip nd K) (rho tke alpha : Fin nn → K) (mt : Fin nn → Fin nd → Fin nd → K)
    (s : LocalSys (Fin nn × Fin nd) K) (n : Fin nn) (k : Fin nd) :
    (hybridTurb e rho tke alpha mt (fun _ _ => 0) s).rhs (n, k) = s.rhs (n, k) - nn * netOut e.il e.ir (fun ip =>
      2 / 3 * interp (e.shape ip) alpha * interp (e.shape ip) rho * interp (e.shape ip) tke * e.area ip k) n := by
  rw [c255_stress_partial]
  simp only [anisoStress, gradU, mul_zero, Finset.sum_const_zero, zero_mul, neg_zero, zero_add, add_zero, netOut, Finset.mul_sum]
  congr 1
  refine Finset.sum_congr rfl fun ip _ => ?_
  split_ifs <;> ring

/-- **C255** Conservation, for every component. -/
theorem c255_conservative (e : Scs nn nip nd K) (rho tke alpha : Fin nn → K) (mt : Fin nn → Fin nd → Fin nd → K) (u : Fin nn → Fin nd → K) :
    ConservativeV (hybridTurb e rho tke alpha mt u) :=
  conservativeV_of _ e.il e.ir _ _ (fun s n i => hybrid_rhs e rho tke alpha mt u s n i) (fun s d n i => hybrid_act e rho tke alpha mt u s d n i)

theorem hybRow_lin (al : K) (mt : Fin nd → Fin nd → K) (g a u d : Fin nd → K) (k : Fin nd) :
    hybRow al mt g a (fun j => u j + d j) k = hybRow al mt g a u k + hybRow al mt g a d k := by
  simp only [hybRow, mul_add, Finset.sum_add_distrib]; ring

/-- **C255** The matrix is the exact derivative with respect to the velocity, all components coupled. -/
theorem c255_newton (e : Scs nn nip nd K) (rho tke alpha : Fin nn → K) (mt : Fin nn → Fin nd → Fin nd → K) :
    ExactNewton fun u : Fin nn × Fin nd → K => hybridTurb e rho tke alpha mt fun n i => u (n, i) := by
  rintro u d s s' ⟨n, k⟩
  simp only
  rw [act_sub s _ d, hybrid_act, hybrid_rhs, hybrid_rhs]
  simp only [Pi.add_apply, hybRow_lin, Finset.sum_add_distrib, lrs_add]
  ring

/-! ## C256: constant sources -/

theorem bodyForce_rhs (e : Scv nn nip K) (f : Fin nd → K) (s : LocalSys (Fin nn × Fin nd) K) (n : Fin nn) (k : Fin nd) :
    (bodyForce e f s).rhs (n, k) = s.rhs (n, k) + ∑ ip, if n = e.node ip then e.vol ip * f k else 0 := by
  rw [bodyForce, loop_rhs (a := (n, k))]
  intro ip s
  rw [loop_rhs (a := (n, k)) (h := by intro j s; rw [addR_rhs]), sum_ite_pair]

theorem volumetric_rhs (e : Scv nn nip K) (src : K) (s : LocalSys (Fin nn) K) (n : Fin nn) :
    (volumetric e src s).rhs n = s.rhs n + ∑ ip, if n = e.node ip then src * e.vol ip else 0 := by
  rw [volumetric, loop_rhs (a := n) (h := by intro ip s; rw [addR_rhs])]

/-- **C256** The matrix is untouched by constant sources. -/
theorem c256_matrix (e : Scv nn nip K) (f : Fin nd → K) (src : K) (s : LocalSys (Fin nn × Fin nd) K) (t : LocalSys (Fin nn) K) :
    (bodyForce e f s).lhs = s.lhs ∧ (volumetric e src t).lhs = t.lhs := by
  refine ⟨funext fun a => funext fun b => ?_, funext fun a => funext fun b => ?_⟩
  · rw [bodyForce, loop_lhs (a := a) (b := b) (δ := fun _ => 0)]
    · simp
    · intro ip s
      rw [loop_lhs (a := a) (b := b) (δ := fun _ => 0)] <;> simp
  · rw [volumetric, loop_lhs (a := a) (b := b) (δ := fun _ => 0)] <;> simp

theorem assemble_scv (es : List (MElem K)) (c : (e : MElem K) → Fin e.nip → K) (N : ℕ) :
    assemble es (fun e a => ∑ ip, if a = e.scv.node ip then c e ip else 0) N
      = (es.map fun e => ∑ ip, if e.conn (e.scv.node ip) = N then c e ip else 0).sum := by
  simp only [assemble]
  congr 1
  refine List.map_congr_left fun e _ => ?_
  have : ∀ a, (if e.conn a = N then ∑ ip, if a = e.scv.node ip then c e ip else 0 else 0)
      = ∑ ip, if a = e.scv.node ip then (if e.conn a = N then c e ip else 0) else 0 := fun a => by
    split
    · rfl
    · simp
  simp only [this]
  rw [Finset.sum_comm]
  exact Finset.sum_congr rfl fun ip _ => by simp

/-- **C256** On every mesh the assembled body force at a node is the force density times the dual volume of the node, and likewise the volumetric
source: the total is density times volume of the domain. -/
theorem c256_mesh (es : List (MElem K)) (f : Fin nd → K) (src : K) (N : ℕ) :
    (∀ k, assemble es (fun e a => (bodyForce e.scv f zeroSys).rhs (a, k)) N = f k * dualVol es N) ∧
    assemble es (fun e a => (volumetric e.scv src zeroSys).rhs a) N = src * dualVol es N := by
  refine ⟨fun k => ?_, ?_⟩
  · simp only [bodyForce_rhs, zeroSys, zero_add]
    rw [assemble_scv es (fun e ip => e.scv.vol ip * f k), dualVol, ← List.sum_map_mul_left]
    congr 1
    refine List.map_congr_left fun e _ => ?_
    rw [Finset.mul_sum]
    exact Finset.sum_congr rfl fun ip _ => by split <;> ring
  · simp only [volumetric_rhs, zeroSys, zero_add]
    rw [assemble_scv es (fun e ip => src * e.scv.vol ip), dualVol, ← List.sum_map_mul_left]
    congr 1
    refine List.map_congr_left fun e _ => ?_
    rw [Finset.mul_sum]
    exact Finset.sum_congr rfl fun ip _ => by split <;> ring

/-- **C256** The body force kernel needs the parameters of `momentum`; given at least as many as dimensions, component `k` is the `k`-th of them. -/
theorem c256_params (p : Option (List K)) :
    (p = none → ∃ msg, bodyForceParams nd p = .error msg) ∧
    ∀ l, p = some l → nd ≤ l.length → ∃ f, bodyForceParams nd p = .ok (some f) ∧ ∀ (k : Fin nd) (h : k.val < l.length), f k = l[k.val] := by
  refine ⟨?_, ?_⟩
  · rintro rfl; exact ⟨_, rfl⟩
  · rintro l rfl h
    refine ⟨fun k => l.getD k 0, by simp only [bodyForceParams, if_pos h], fun k hk => ?_⟩
    simp [List.getD_eq_getElem?_getD, List.getElem?_eq_getElem hk]

/-- **C256** The monolithic momentum-continuity kernel can be configured (without the three options) but every execution ends in an error. -/
theorem c256_monolithic (a b c : Bool) :
    (∀ k, monolithicKernel (nn := nn) (K := K) a b c = .ok k → ∀ s, ∃ msg, k s = .error msg) ∧
    ((∃ msg, monolithicKernel (nn := nn) (K := K) a b c = .error msg) ↔ a = true ∨ b = true ∨ c = true) := by
  cases a <;> cases b <;> cases c <;> simp [monolithicKernel] <;> exact fun s => ⟨_, rfl⟩

/-! ## C257: manufactured element sources -/

theorem srcElem_rhs (src : Pt → ℝ) (w : ℝ) (e : Scv nn nip ℝ) (x : Fin nn → Fin 3 → ℝ) (s : LocalSys (Fin nn) ℝ) (n : Fin nn) :
    (srcElem src w e x s).rhs n = s.rhs n + ∑ ip, if n = e.node ip then src (scvPoint e x ip) * e.vol ip / w else 0 := by
  rw [srcElem, loop_rhs (a := n) (h := by intro ip s; rw [addR_rhs])]

theorem srcElemV_rhs (src : Fin 3 → Pt → ℝ) (e : Scv nn nip ℝ) (x : Fin nn → Fin 3 → ℝ) (s : LocalSys (Fin nn × Fin 3) ℝ) (n : Fin nn) (k : Fin 3) :
    (srcElemV src e x s).rhs (n, k) = s.rhs (n, k) + ∑ ip, if n = e.node ip then src k (scvPoint e x ip) * e.vol ip else 0 := by
  rw [srcElemV, loop_rhs (a := (n, k))]
  intro ip s
  rw [loop_rhs (a := (n, k)) (h := by intro j s; rw [addR_rhs]), sum_ite_pair]

/-- **C257** The element form of the continuity source integrates the residual of the manufactured solution: every sub-control volume contributes, to its
node, the left-hand side of the continuity equation at its integration point times its volume over the projection time scale. -/
theorem c257_continuity (P : VD) (pts : ℝ) (e : Scv nn nip ℝ) (x : Fin nn → Fin 3 → ℝ) (hV : ∀ ip, specificVolume P (scvPoint e x ip) ≠ 0)
    (s : LocalSys (Fin nn) ℝ) (n : Fin nn) :
    (srcElem (vdContinuitySrc P) pts e x s).rhs n = s.rhs n + ∑ ip, if n = e.node ip then
      continuity (density P) (vel P.unot P.vnot P.wnot P.a) (scvPoint e x ip) * e.vol ip / pts else 0 := by
  rw [srcElem_rhs]
  congr 1
  refine Finset.sum_congr rfl fun ip _ => ?_
  rw [c138_continuity P (hV ip)]

/-- **C257** Lumped consistency: at points that are the nodes (shape functions one at the own node, zero elsewhere) the assembled element source at a node
is what the nodal form of the source adds there, for the same function on every mesh. -/
theorem c257_lumped (src : Pt → ℝ) (w : ℝ) (X : ℕ → Fin 3 → ℝ) (es : List (MElem ℝ))
    (hs : ∀ e ∈ es, ∀ ip ic, e.scv.shape ip ic = if ic = e.scv.node ip then 1 else 0) (N : ℕ) (r : ℝ) :
    r + assemble es (fun e a => (srcElem src w e.scv (fun a => X (e.conn a)) zeroSys).rhs a) N = srcNode src w (X N) (dualVol es N) r := by
  simp only [srcElem_rhs, zeroSys, zero_add]
  rw [assemble_scv es (fun e ip => src (scvPoint e.scv (fun a => X (e.conn a)) ip) * e.scv.vol ip / w), srcNode, dualVol, mul_div_right_comm,
    ← List.sum_map_mul_left]
  congr 2
  refine List.map_congr_left fun e he => ?_
  rw [Finset.mul_sum]
  refine Finset.sum_congr rfl fun ip _ => ?_
  split
  · rename_i h
    have : scvPoint e.scv (fun a => X (e.conn a)) ip = ![X N 0, X N 1, X N 2, 0] := by
      simp only [scvPoint, hs e he, ite_mul, one_mul, zero_mul, Finset.sum_ite_eq', Finset.mem_univ, if_true, h]
    rw [this]; ring
  · ring

/-- **C257** The same for the components of the momentum source. -/
theorem c257_lumped_momentum (src : Fin 3 → Pt → ℝ) (X : ℕ → Fin 3 → ℝ) (es : List (MElem ℝ))
    (hs : ∀ e ∈ es, ∀ ip ic, e.scv.shape ip ic = if ic = e.scv.node ip then 1 else 0) (N : ℕ) (k : Fin 3) (r : ℝ) :
    r + assemble es (fun e a => (srcElemV src e.scv (fun a => X (e.conn a)) zeroSys).rhs (a, k)) N = srcNode (src k) 1 (X N) (dualVol es N) r := by
  rw [← c257_lumped (src k) 1 X es hs N r]
  simp only [srcElemV_rhs, srcElem_rhs, div_one, zeroSys]

theorem sum_scv (e : Scv nn nip ℝ) (c : Fin nip → ℝ) : ∑ n, (∑ ip, if n = e.node ip then c ip else 0) = ∑ ip, c ip := by
  rw [Finset.sum_comm]
  exact Finset.sum_congr rfl fun ip _ => by simp

/-- **C257** Total of an element: the quadrature of the residual of the momentum equation over the element; the matrix is untouched. -/
theorem c257_momentum_total (P : VD) (e : Scv nn nip ℝ) (x : Fin nn → Fin 3 → ℝ) (hV : ∀ ip, specificVolume P (scvPoint e x ip) ≠ 0) (k : Fin 3) :
    (∑ n, (srcElemV (vdMomentumSrc P) e x zeroSys).rhs (n, k) = ∑ ip,
      momentum (density P) (vel P.unot P.vnot P.wnot P.a) (pressure P.pnot P.a) P.visc P.twoThirds P.rhoRef P.g k (scvPoint e x ip) * e.vol ip) ∧
    (srcElemV (vdMomentumSrc P) e x zeroSys).lhs = fun _ _ => 0 := by
  refine ⟨?_, funext fun a => funext fun b => ?_⟩
  · simp only [srcElemV_rhs, zeroSys, zero_add]
    rw [sum_scv]
    refine Finset.sum_congr rfl fun ip _ => ?_
    congr 1
    fin_cases k
    · exact c138_momentum0 P (hV ip)
    · exact c138_momentum1 P (hV ip)
    · exact c138_momentum2 P (hV ip)
  · rw [srcElemV, loop_lhs (a := a) (b := b) (δ := fun _ => 0)]
    · simp [zeroSys]
    · intro ip s
      rw [loop_lhs (a := a) (b := b) (δ := fun _ => 0)] <;> simp

/-! ## Witnesses -/

/-- A bar of two nodes with one surface: the isotropic stress 2/3 enters twice. -/
def barScs : Scs 2 1 1 ℚ := ⟨fun _ _ => 1 / 2, fun _ _ => 1 / 2, fun _ => ![fun _ => -1, fun _ => 1], fun _ _ => 1, fun _ => 0, fun _ => 1⟩

example : (hybridTurb barScs (fun _ => 1) (fun _ => 3) (fun _ => 1) (fun _ _ _ => 0) (fun _ _ => 0) zeroSys).rhs (0, 0) = -4 := by
  rw [c255_overcounted_partial]
  simp [netOut, barScs, interp, zeroSys]; norm_num

/-- Two elements sharing a node: its dual volume is the sum of two parts, and the source is lumped. -/
noncomputable def barScv : Scv 2 2 ℝ := ⟨fun ip ic => if ic = ip then 1 else 0, fun _ => 1 / 2, id⟩

example : ∀ e ∈ ([⟨2, 2, ![0, 1], barScv⟩, ⟨2, 2, ![1, 2], barScv⟩] : List (MElem ℝ)), ∀ ip ic,
    e.scv.shape ip ic = if ic = e.scv.node ip then 1 else 0 := by
  simp [barScv]
example : dualVol ([⟨2, 2, ![0, 1], barScv⟩, ⟨2, 2, ![1, 2], barScv⟩] : List (MElem ℝ)) 1 = 1 := by
  simp [dualVol, barScv, Fin.sum_univ_two]; norm_num

end Nalu.ElemSource
