import Verif.Proofs.Radiation

/-!
# C98-C100: assembly of the radiative transport equation
-/

namespace Nalu.Rad
open Nalu.Edge Nalu.Kernel

variable {K : Type*} [Field K] [LinearOrder K] [IsStrictOrderedRing K]
variable {nn nip nf nd : ℕ}

/-! ## C98: conservation and exact linearisation -/

theorem edge_conservative (k : LocalSys (Fin 2) K → LocalSys (Fin 2) K) (F : K) (R : (Fin 2 → K) → K)
    (h1 : ∀ s a, (k s).rhs a = s.rhs a - lrs a 0 1 F) (h2 : ∀ s d a, act (k s) d a = act s d a + lrs a 0 1 (R d)) :
    Conservative k :=
  conservative_of k (fun _ : Fin 1 => 0) (fun _ => 1) (fun _ => F) (fun d _ => R d)
    (fun s a => by rw [h1]; simp) (fun s d a => by rw [h2]; simp)

/-- **C98** The SUCV edge scheme only moves intensity between the two nodes of the edge. -/
theorem c98_edge_sucv_conservative (pi : K) (Sk : Fin nd → K) (e : EdgeGeo nd K) (n : Fin 2 → NodeData K)
    (I : Fin 2 → K) : Conservative (edgeSucv pi Sk e n I) :=
  edge_conservative _ _ _ (fun s a => edgeSucv_rhs pi Sk e n I s a) (fun s d a => edgeSucv_act pi Sk e n I s d a)

/-- **C98** The same for the upwind scheme. -/
theorem c98_edge_upw_conservative (Sk area : Fin nd → K) (I : Fin 2 → K) : Conservative (edgeUpw Sk area I) :=
  edge_conservative _ _ _ (fun s a => edgeUpw_rhs Sk area I s a) (fun s d a => edgeUpw_act Sk area I s d a)

/-- **C98** The element SUCV kernel only moves intensity between the nodes of the element. -/
theorem c98_elem_sucv_conservative (pi : K) (Sk : Fin nd → K) (tau : Fin nip → K) (e : Scs nn nip nd K)
    (n : Fin nn → NodeData K) (I : Fin nn → K) : Conservative (elemSucv pi Sk tau e n I) :=
  conservative_of _ e.il e.ir _ _ (fun s a => elemSucv_rhs pi Sk tau e n I s a)
    (fun s d a => elemSucv_act pi Sk tau e n I s d a)

theorem newton_edgeSucv (pi : K) (Sk : Fin nd → K) (e : EdgeGeo nd K) (n : Fin 2 → NodeData K) :
    ExactNewton (fun I => edgeSucv pi Sk e n I) := by
  refine newton_of _ (fun I a => -lrs a 0 1 (sucvFlux pi Sk e n I)) _
    (fun I s a => by rw [edgeSucv_rhs, sub_eq_add_neg]) (fun I s d a => edgeSucv_act pi Sk e n I s d a) (fun I d a => ?_)
  rw [sucvFlux_lin, lrs_add]; ring

theorem newton_edgeUpw (Sk area : Fin nd → K) : ExactNewton (fun I => edgeUpw Sk area I) := by
  refine newton_of _ (fun I a => -lrs a 0 1 (upwFluxR Sk area I)) _
    (fun I s a => by rw [edgeUpw_rhs, sub_eq_add_neg]) (fun I s d a => edgeUpw_act Sk area I s d a) (fun I d a => ?_)
  rw [upwFluxR_lin, lrs_add]; ring

theorem newton_node (pi : K) (n : NodeData K) (vol : K) :
    ExactNewton (fun I s => nodeScatter pi n vol (nodeBlackBody n vol I s)) := by
  refine newton_of _ (fun I _ => -((n.abs + n.scat) * I 0 - n.src) * vol + n.scat * n.G / 4 * (1 / pi) * vol)
    (fun d _ => (n.abs + n.scat) * vol * d 0) (fun I s a => ?_) (fun I s d a => ?_) (fun I d a => ?_)
  · simp only [nodeScatter, addR_rhs, nodeBlackBody_rhs]
    rw [if_pos (Subsingleton.elim a 0)]; ring
  · simp only [nodeScatter, addR_act, nodeBlackBody_act]
  · simp only [Pi.add_apply]; ring

theorem newton_wall (Sk : Fin nd → K) (f : WallFace nf nip nd K) (bc : Fin nf → K)
    (k : (Fin nf → K) → LocalSys (Fin nf) K → LocalSys (Fin nf) K)
    (h1 : ∀ I s a, (k I s).rhs a = s.rhs a + ∑ ip, if a = f.near ip then -(wallFlux Sk f bc I ip) else 0)
    (h2 : ∀ I s d a, act (k I s) d a =
      act s d a + ∑ ip, if a = f.near ip then wallFlux Sk f (fun _ => 0) d ip else 0) : ExactNewton k := by
  refine newton_of _ _ _ h1 h2 (fun I d a => ?_)
  rw [← Finset.sum_sub_distrib]
  refine Finset.sum_congr rfl fun ip _ => ?_
  rw [wallFlux_lin]
  split_ifs <;> ring

theorem newton_elemKern {M : Type} (pi : K) (Sk : Fin nd → K) (g : ElemMesh M nd K) (e : Elem M nd K) :
    ExactNewton (elemKern pi Sk g e) := by
  refine newton_of _ (fun I a => (∑ ip, if a = e.scv.node ip then
        interp (e.scv.shape ip) (fun ic => (g.data (e.node ic)).scat * (g.data (e.node ic)).G) * (1 / pi / 4) *
          e.scv.vol ip else 0) + (∑ ip, if a = e.scv.node ip then
      -((interp (e.scv.shape ip) (fun ic => (g.data (e.node ic)).abs + (g.data (e.node ic)).scat) *
        interp (e.scv.shape ip) I - interp (e.scv.shape ip) (fun ic => (g.data (e.node ic)).src)) * e.scv.vol ip)
        else 0) - ∑ ip, lrs a (e.scs.il ip) (e.scs.ir ip)
          (elemFlux pi Sk e.tau e.scs (fun a => g.data (e.node a)) I ip))
    (fun d a => (∑ ip, if a = e.scv.node ip then
      interp (e.scv.shape ip) (fun ic => (g.data (e.node ic)).abs + (g.data (e.node ic)).scat) *
        interp (e.scv.shape ip) d * e.scv.vol ip else 0) + ∑ ip, lrs a (e.scs.il ip) (e.scs.ir ip)
          (elemLin Sk e.tau e.scs (fun a => g.data (e.node a)) d ip)) (fun I s a => ?_) (fun I s d a => ?_) (fun I d a => ?_)
  · rw [elemKern, elemScatter_rhs, elemBlackBody_rhs, elemSucv_rhs]; ring
  · rw [elemKern, elemScatter_act, elemBlackBody_act, elemSucv_act]; ring
  · have h1 : ∀ ip, lrs a (e.scs.il ip) (e.scs.ir ip) (elemFlux pi Sk e.tau e.scs (fun a => g.data (e.node a)) (I + d) ip) =
        lrs a (e.scs.il ip) (e.scs.ir ip) (elemFlux pi Sk e.tau e.scs (fun a => g.data (e.node a)) I ip) +
        lrs a (e.scs.il ip) (e.scs.ir ip) (elemLin Sk e.tau e.scs (fun a => g.data (e.node a)) d ip) := by
      intro ip; rw [elemFlux_lin, lrs_add]
    have h2 : ∀ ip, (if a = e.scv.node ip then
      -((interp (e.scv.shape ip) (fun ic => (g.data (e.node ic)).abs + (g.data (e.node ic)).scat) *
        interp (e.scv.shape ip) (I + d) - interp (e.scv.shape ip) (fun ic => (g.data (e.node ic)).src)) * e.scv.vol ip)
        else 0) = (if a = e.scv.node ip then
      -((interp (e.scv.shape ip) (fun ic => (g.data (e.node ic)).abs + (g.data (e.node ic)).scat) *
        interp (e.scv.shape ip) I - interp (e.scv.shape ip) (fun ic => (g.data (e.node ic)).src)) * e.scv.vol ip)
        else 0) - (if a = e.scv.node ip then
      interp (e.scv.shape ip) (fun ic => (g.data (e.node ic)).abs + (g.data (e.node ic)).scat) *
        interp (e.scv.shape ip) d * e.scv.vol ip else 0) := by
      intro ip; rw [interp_add]; split_ifs <;> ring
    simp only [h1, h2, Finset.sum_add_distrib, Finset.sum_sub_distrib]
    ring

theorem edgeKern_sucv {M : Type} (pi : K) (Sk : Fin nd → K) (g : EdgeMesh M nd K) (e : (Fin 2 → M) × EdgeGeo nd K) :
    edgeKern false pi Sk g e = fun I => edgeSucv pi Sk e.2 (fun a => g.data (e.1 a)) I := by
  funext I s; simp [edgeKern]

theorem edgeKern_upw {M : Type} (pi : K) (Sk : Fin nd → K) (g : EdgeMesh M nd K) (e : (Fin 2 → M) × EdgeGeo nd K) :
    edgeKern true pi Sk g e = fun I => edgeUpw Sk e.2.area I := by
  funext I s; simp [edgeKern]

/-- **C98** Every piece of the assembled edge based system is linearised exactly. -/
theorem c98_edge_newton {M : Type} (upw : Bool) (pi : K) (Sk : Fin nd → K) (g : EdgeMesh M nd K) (nodes : List M) :
    ∀ w ∈ edgeWorks upw pi Sk g nodes, ExactNewton w.kern := by
  intro w hw
  simp only [edgeWorks, List.mem_append, List.mem_map] at hw
  rcases hw with (⟨e, _, rfl⟩ | ⟨m, _, rfl⟩) | ⟨b, _, rfl⟩
  · cases upw
    · simp only [edgeKern_sucv]; exact newton_edgeSucv pi Sk e.2 _
    · simp only [edgeKern_upw]; exact newton_edgeUpw Sk e.2.area
  · exact newton_node pi _ _
  · exact newton_wall Sk b.face _ _ (fun I s a => wallAlg_rhs Sk b.face _ I s a)
      (fun I s d a => wallAlg_act Sk b.face _ I s d a)

/-- **C98** Every piece of the assembled element based system is linearised exactly. -/
theorem c98_elem_newton {M : Type} (pi : K) (Sk : Fin nd → K) (g : ElemMesh M nd K) :
    ∀ w ∈ elemWorks pi Sk g, ExactNewton w.kern := by
  intro w hw
  simp only [elemWorks, List.mem_append, List.mem_map] at hw
  rcases hw with ⟨e, _, rfl⟩ | ⟨b, _, rfl⟩
  · exact newton_elemKern pi Sk g e
  · exact newton_wall Sk b.face _ _ (fun I s a => wallElem_rhs Sk b.face _ I s a)
      (fun I s d a => wallElem_act Sk b.face _ I s d a)

/-- **C98** One solve is exact: if the update solves the assembled linear system, the residual of the updated intensity
is zero at every node, with either scheme. -/
theorem c98_one_solve {M : Type} [DecidableEq M] [Fintype M] (ws : List (Work M K)) (h : ∀ w ∈ ws, ExactNewton w.kern)
    (I d : M → K) (hs : ∀ i, ∑ j, (assembleWorks ws I).mat i j * d j = (assembleWorks ws I).rhs i) (i : M) :
    (assembleWorks ws (I + d)).rhs i = 0 := by
  rw [c84_mesh_newton ws I d h, hs, sub_self]

/-! ## The assembled residual -/

theorem sum_map_neg {α : Type*} (l : List α) (f : α → K) : (l.map fun a => -f a).sum = -(l.map f).sum := by
  induction l with
  | nil => simp
  | cons a l ih => simp [ih]; ring

theorem sum_map_add' {α : Type*} (l : List α) (f h : α → K) :
    (l.map fun a => f a + h a).sum = (l.map f).sum + (l.map h).sum := by
  induction l with
  | nil => simp
  | cons a l ih => simp [ih]; ring

theorem sum_map_mul' {α : Type*} (l : List α) (c : K) (f : α → K) :
    (l.map fun a => c * f a).sum = c * (l.map f).sum := by
  induction l with
  | nil => simp
  | cons a l ih => simp [ih]; ring

/-- What a wall face contributes to a row. -/
theorem wall_row {M : Type} [DecidableEq M] (b : Wall M nd K) (Sk : Fin nd → K) (bc I : M → K) (m : M)
    (k : LocalSys (Fin b.nf) K)
    (hk : ∀ a, k.rhs a = ∑ ip, if a = b.face.near ip then
      -(wallFlux Sk b.face (fun a => bc (b.node a)) (fun a => I (b.node a)) ip) else 0) :
    (∑ a, if m = b.node a then k.rhs a else 0) = -(∑ ip, if m = b.node (b.face.near ip) then
        wallFlux Sk b.face (fun a => bc (b.node a)) (fun a => I (b.node a)) ip else 0) := by
  simp only [hk]
  have : ∀ a, (if m = b.node a then ∑ ip, (if a = b.face.near ip then
      -(wallFlux Sk b.face (fun a => bc (b.node a)) (fun a => I (b.node a)) ip) else 0) else 0) =
      ∑ ip, if a = b.face.near ip then (if m = b.node a then
      -(wallFlux Sk b.face (fun a => bc (b.node a)) (fun a => I (b.node a)) ip) else 0) else 0 := by
    intro a
    split_ifs with h
    · rfl
    · simp
  simp only [this]
  rw [Finset.sum_comm, ← Finset.sum_neg_distrib]
  refine Finset.sum_congr rfl fun ip _ => ?_
  rw [Finset.sum_ite_eq' Finset.univ (b.face.near ip)]
  simp only [Finset.mem_univ, if_true]
  split_ifs <;> simp

/-- Flux along an edge in the scheme chosen. -/
def edgeFluxOf {M : Type} (upw : Bool) (pi : K) (Sk : Fin nd → K) (g : EdgeMesh M nd K) (I : M → K)
    (e : (Fin 2 → M) × EdgeGeo nd K) : K :=
  if upw then upwFluxR Sk e.2.area (fun a => I (e.1 a))
  else sucvFlux pi Sk e.2 (fun a => g.data (e.1 a)) (fun a => I (e.1 a))

/-- The assembled residual of the edge based scheme. -/
theorem edge_assembled {M : Type} [DecidableEq M] (upw : Bool) (pi : K) (Sk : Fin nd → K) (g : EdgeMesh M nd K)
    (nodes : List M) (I : M → K) (m : M) :
    (assembleWorks (edgeWorks upw pi Sk g nodes) I).rhs m =
      -(g.edges.map fun e => (if m = e.1 0 then edgeFluxOf upw pi Sk g I e else 0) -
        if m = e.1 1 then edgeFluxOf upw pi Sk g I e else 0).sum +
      (nodes.map fun i => if m = i then ((g.data i).src + (g.data i).scat * (g.data i).G / 4 * (1 / pi) -
        ((g.data i).abs + (g.data i).scat) * I i) * g.vol i else 0).sum -
      (g.walls.map fun b => ∑ ip, if m = b.node (b.face.near ip) then
        wallFlux Sk b.face (fun a => g.bc (b.node a)) (fun a => I (b.node a)) ip else 0).sum := by
  rw [assembleWorks_rhs, edgeWorks, List.map_append, List.map_append, List.sum_append, List.sum_append, List.map_map,
    List.map_map, List.map_map]
  have h1 : ∀ e : (Fin 2 → M) × EdgeGeo nd K, (∑ a, if m = e.1 a then
      (edgeKern upw pi Sk g e (fun a => I (e.1 a)) ⟨fun _ _ => 0, fun _ => 0⟩).rhs a else 0) =
      -((if m = e.1 0 then edgeFluxOf upw pi Sk g I e else 0) -
        if m = e.1 1 then edgeFluxOf upw pi Sk g I e else 0) := by
    intro e
    have : ∀ a, (edgeKern upw pi Sk g e (fun a => I (e.1 a)) ⟨fun _ _ => 0, fun _ => 0⟩).rhs a =
        0 - lrs a 0 1 (edgeFluxOf upw pi Sk g I e) := by
      intro a
      cases upw
      · rw [edgeKern_sucv, edgeSucv_rhs]; simp [edgeFluxOf]
      · rw [edgeKern_upw, edgeUpw_rhs]; simp [edgeFluxOf]
    have l0 : lrs (0 : Fin 2) 0 1 (edgeFluxOf upw pi Sk g I e) = edgeFluxOf upw pi Sk g I e := by simp [lrs]
    have l1 : lrs (1 : Fin 2) 0 1 (edgeFluxOf upw pi Sk g I e) = -edgeFluxOf upw pi Sk g I e := by simp [lrs]
    simp only [this, Fin.sum_univ_two, l0, l1]
    by_cases h0 : m = e.1 0
    · by_cases h1 : m = e.1 1
      · simp only [if_pos h0, if_pos h1]; ring
      · simp only [if_pos h0, if_neg h1]; ring
    · by_cases h1 : m = e.1 1
      · simp only [if_neg h0, if_pos h1]; ring
      · simp only [if_neg h0, if_neg h1]; ring
  have h2 : ∀ i : M, (∑ a : Fin 1, if m = (fun _ => i) a then
      (nodeScatter pi (g.data i) (g.vol i) (nodeBlackBody (g.data i) (g.vol i) (fun _ => I i)
        ⟨fun _ _ => 0, fun _ => 0⟩)).rhs a else 0) =
      if m = i then ((g.data i).src + (g.data i).scat * (g.data i).G / 4 * (1 / pi) -
        ((g.data i).abs + (g.data i).scat) * I i) * g.vol i else 0 := by
    intro i
    simp only [Fin.sum_univ_one, nodeScatter, addR_rhs, nodeBlackBody_rhs, if_true]
    split_ifs <;> ring
  have h3 : ∀ b : Wall M nd K, (∑ a, if m = b.node a then
      (wallAlg Sk b.face (fun a => g.bc (b.node a)) (fun a => I (b.node a)) ⟨fun _ _ => 0, fun _ => 0⟩).rhs a else 0) =
      -(∑ ip, if m = b.node (b.face.near ip) then
        wallFlux Sk b.face (fun a => g.bc (b.node a)) (fun a => I (b.node a)) ip else 0) := by
    intro b
    exact wall_row b Sk g.bc I m _ (fun a => by rw [wallAlg_rhs, zero_add])
  have g1 : (g.edges.map ((fun w : Work M K => ∑ a, if m = w.dof a then
      (w.kern (fun a => I (w.dof a)) ⟨fun _ _ => 0, fun _ => 0⟩).rhs a else 0) ∘
        fun e => (⟨Fin 2, e.1, edgeKern upw pi Sk g e⟩ : Work M K))).sum =
      -(g.edges.map fun e => (if m = e.1 0 then edgeFluxOf upw pi Sk g I e else 0) -
        if m = e.1 1 then edgeFluxOf upw pi Sk g I e else 0).sum := by
    rw [← sum_map_neg]
    congr 1
    exact List.map_congr_left fun e _ => h1 e
  have g3 : (g.walls.map ((fun w : Work M K => ∑ a, if m = w.dof a then
      (w.kern (fun a => I (w.dof a)) ⟨fun _ _ => 0, fun _ => 0⟩).rhs a else 0) ∘
        fun b => (⟨Fin b.nf, b.node, fun I s => wallAlg Sk b.face (fun a => g.bc (b.node a)) I s⟩ : Work M K))).sum =
      -(g.walls.map fun b => ∑ ip, if m = b.node (b.face.near ip) then
        wallFlux Sk b.face (fun a => g.bc (b.node a)) (fun a => I (b.node a)) ip else 0).sum := by
    rw [← sum_map_neg]
    congr 1
    exact List.map_congr_left fun b _ => h3 b
  rw [g1, g3, ← sub_eq_add_neg]
  congr 2
  congr 1
  exact List.map_congr_left fun i _ => h2 i

/-- The assembled residual of the element based scheme. -/
theorem elem_assembled {M : Type} [DecidableEq M] (pi : K) (Sk : Fin nd → K) (g : ElemMesh M nd K) (I : M → K) (m : M) :
    (assembleWorks (elemWorks pi Sk g) I).rhs m =
      -(g.elems.map fun e => ∑ ip, ((if m = e.node (e.scs.il ip) then
          elemFlux pi Sk e.tau e.scs (fun a => g.data (e.node a)) (fun a => I (e.node a)) ip else 0) -
        if m = e.node (e.scs.ir ip) then
          elemFlux pi Sk e.tau e.scs (fun a => g.data (e.node a)) (fun a => I (e.node a)) ip else 0)).sum +
      (g.elems.map fun e => ∑ ip, if m = e.node (e.scv.node ip) then
        (interp (e.scv.shape ip) (fun a => (g.data (e.node a)).src) +
          interp (e.scv.shape ip) (fun a => (g.data (e.node a)).scat * (g.data (e.node a)).G) * (1 / pi / 4) -
          interp (e.scv.shape ip) (fun a => (g.data (e.node a)).abs + (g.data (e.node a)).scat) *
            interp (e.scv.shape ip) (fun a => I (e.node a))) * e.scv.vol ip else 0).sum -
      (g.walls.map fun b => ∑ ip, if m = b.node (b.face.near ip) then
        wallFlux Sk b.face (fun a => g.bc (b.node a)) (fun a => I (b.node a)) ip else 0).sum := by
  rw [assembleWorks_rhs, elemWorks, List.map_append, List.sum_append, List.map_map, List.map_map]
  have h1 : ∀ e : Elem M nd K, (∑ a, if m = e.node a then
      (elemKern pi Sk g e (fun a => I (e.node a)) ⟨fun _ _ => 0, fun _ => 0⟩).rhs a else 0) =
      -(∑ ip, ((if m = e.node (e.scs.il ip) then
          elemFlux pi Sk e.tau e.scs (fun a => g.data (e.node a)) (fun a => I (e.node a)) ip else 0) -
        if m = e.node (e.scs.ir ip) then
          elemFlux pi Sk e.tau e.scs (fun a => g.data (e.node a)) (fun a => I (e.node a)) ip else 0)) +
      ∑ ip, if m = e.node (e.scv.node ip) then
        (interp (e.scv.shape ip) (fun a => (g.data (e.node a)).src) +
          interp (e.scv.shape ip) (fun a => (g.data (e.node a)).scat * (g.data (e.node a)).G) * (1 / pi / 4) -
          interp (e.scv.shape ip) (fun a => (g.data (e.node a)).abs + (g.data (e.node a)).scat) *
            interp (e.scv.shape ip) (fun a => I (e.node a))) * e.scv.vol ip else 0 := by
    intro e
    have hk : ∀ a, (elemKern pi Sk g e (fun a => I (e.node a)) ⟨fun _ _ => 0, fun _ => 0⟩).rhs a =
        -(∑ ip, ((if a = e.scs.il ip then
          elemFlux pi Sk e.tau e.scs (fun a => g.data (e.node a)) (fun a => I (e.node a)) ip else 0) -
          if a = e.scs.ir ip then
          elemFlux pi Sk e.tau e.scs (fun a => g.data (e.node a)) (fun a => I (e.node a)) ip else 0)) +
        ∑ ip, if a = e.scv.node ip then
        (interp (e.scv.shape ip) (fun a => (g.data (e.node a)).src) +
          interp (e.scv.shape ip) (fun a => (g.data (e.node a)).scat * (g.data (e.node a)).G) * (1 / pi / 4) -
          interp (e.scv.shape ip) (fun a => (g.data (e.node a)).abs + (g.data (e.node a)).scat) *
            interp (e.scv.shape ip) (fun a => I (e.node a))) * e.scv.vol ip else 0 := by
      intro a
      rw [elemKern, elemScatter_rhs, elemBlackBody_rhs, elemSucv_rhs]
      simp only [lrs_eq]
      rw [zero_sub, add_assoc, ← Finset.sum_add_distrib]
      congr 1
      refine Finset.sum_congr rfl fun ip _ => ?_
      split_ifs <;> ring
    simp only [hk]
    have hsel : ∀ (n : ℕ) (j : Fin n → Fin e.nn) (f : Fin n → K), (∑ a, if m = e.node a then
        ∑ ip, (if a = j ip then f ip else 0) else 0) = ∑ ip, if m = e.node (j ip) then f ip else 0 := by
      intro n j f
      have : ∀ a, (if m = e.node a then ∑ ip, (if a = j ip then f ip else 0) else 0) =
          ∑ ip, if a = j ip then (if m = e.node a then f ip else 0) else 0 := by
        intro a
        split_ifs with h
        · rfl
        · simp
      simp only [this]
      rw [Finset.sum_comm]
      refine Finset.sum_congr rfl fun ip _ => ?_
      rw [Finset.sum_ite_eq' Finset.univ (j ip)]
      simp
    have hsp : ∀ a (x y : K), (if m = e.node a then -x + y else 0) =
        -(if m = e.node a then x else 0) + if m = e.node a then y else 0 := by
      intro a x y; split_ifs <;> simp
    have hsd : ∀ a (x y : K), (if m = e.node a then x - y else 0) =
        (if m = e.node a then x else 0) - if m = e.node a then y else 0 := by
      intro a x y; split_ifs <;> simp
    simp only [hsp, Finset.sum_add_distrib, Finset.sum_neg_distrib, Finset.sum_sub_distrib, hsd, hsel]
  have g1 : (g.elems.map ((fun w : Work M K => ∑ a, if m = w.dof a then
      (w.kern (fun a => I (w.dof a)) ⟨fun _ _ => 0, fun _ => 0⟩).rhs a else 0) ∘
        fun e => (⟨Fin e.nn, e.node, elemKern pi Sk g e⟩ : Work M K))).sum = _ :=
    congrArg List.sum (List.map_congr_left fun e _ => h1 e)
  have g3 : (g.walls.map ((fun w : Work M K => ∑ a, if m = w.dof a then
      (w.kern (fun a => I (w.dof a)) ⟨fun _ _ => 0, fun _ => 0⟩).rhs a else 0) ∘
        fun b => (⟨Fin b.nf, b.node, fun I s => wallElem Sk b.face (fun a => g.bc (b.node a)) I s⟩ : Work M K))).sum =
      -(g.walls.map fun b => ∑ ip, if m = b.node (b.face.near ip) then
        wallFlux Sk b.face (fun a => g.bc (b.node a)) (fun a => I (b.node a)) ip else 0).sum := by
    rw [← sum_map_neg]
    congr 1
    exact List.map_congr_left fun b _ => wall_row b Sk g.bc I m _ (fun a => by rw [wallElem_rhs, zero_add])
  rw [g1, g3, sum_map_add', sum_map_neg, ← sub_eq_add_neg]

end Nalu.Rad
