import Verif.Props.Radiation

/-!
# C99, C100: equilibrium, bounds and uniqueness of the discrete intensity
-/

namespace Nalu.Rad
open Nalu.Edge Nalu.Kernel

variable {K : Type*} [Field K] [LinearOrder K] [IsStrictOrderedRing K]
variable {nd : ℕ}

/-! ## Specification -/

/-- The area vectors around each node of the edge based mesh, walls included, add up to zero. -/
def EdgeClosed {M : Type} [DecidableEq M] (g : EdgeMesh M nd K) : Prop :=
  ∀ m j, (g.edges.map fun e => (if m = e.1 0 then e.2.area j else 0) - if m = e.1 1 then e.2.area j else 0).sum +
    (g.walls.map fun b => ∑ ip, if m = b.node (b.face.near ip) then b.face.area ip j else 0).sum = 0

/-- The same for the element based mesh. -/
def ElemClosed {M : Type} [DecidableEq M] (g : ElemMesh M nd K) : Prop :=
  ∀ m j, (g.elems.map fun e => ∑ ip, ((if m = e.node (e.scs.il ip) then e.scs.area ip j else 0) -
      if m = e.node (e.scs.ir ip) then e.scs.area ip j else 0)).sum +
    (g.walls.map fun b => ∑ ip, if m = b.node (b.face.near ip) then b.face.area ip j else 0).sum = 0

/-- Radiative equilibrium at black body intensity `Ib`: emission is absorption coefficient times `Ib` and, where there is
scattering, the scalar flux is that of an isotropic intensity `Ib`. -/
def Equilibrium (pi Ib : K) (n : NodeData K) : Prop := n.src = n.abs * Ib ∧ n.scat * n.G = n.scat * (4 * pi * Ib)

/-! ## Lemmas -/

theorem list_fin_swap {α : Type*} (l : List α) (c : Fin nd → K) (f : α → Fin nd → K) :
    ∑ j, c j * (l.map fun a => f a j).sum = (l.map fun a => ∑ j, c j * f a j).sum := by
  induction l with
  | nil => simp
  | cons a l ih => simp [mul_add, Finset.sum_add_distrib, ih]

theorem sum_ite_mul (p : Prop) [Decidable p] (c a : Fin nd → K) :
    ∑ j, c j * (if p then a j else 0) = if p then ∑ j, c j * a j else 0 := by
  by_cases h : p <;> simp [h]

theorem area_dot (Sk a : Fin nd → K) : ∑ j, a j * Sk j = sDot Sk a := Finset.sum_congr rfl fun j _ => mul_comm _ _

theorem wall_closed {M : Type} [DecidableEq M] (walls : List (Wall M nd K)) (Sk : Fin nd → K) (m : M) :
    ∑ j, Sk j * (walls.map fun b => ∑ ip, if m = b.node (b.face.near ip) then b.face.area ip j else 0).sum =
      (walls.map fun b => ∑ ip, if m = b.node (b.face.near ip) then ∑ j, b.face.area ip j * Sk j else 0).sum := by
  rw [list_fin_swap]
  congr 1
  refine List.map_congr_left fun b _ => ?_
  simp only [Finset.mul_sum]
  rw [Finset.sum_comm]
  refine Finset.sum_congr rfl fun ip _ => ?_
  rw [sum_ite_mul, area_dot]; rfl

theorem edge_closed {M : Type} [DecidableEq M] {g : EdgeMesh M nd K} (h : EdgeClosed g) (Sk : Fin nd → K) (m : M) :
    (g.edges.map fun e => (if m = e.1 0 then sDot Sk e.2.area else 0) - if m = e.1 1 then sDot Sk e.2.area else 0).sum +
      (g.walls.map fun b => ∑ ip, if m = b.node (b.face.near ip) then ∑ j, b.face.area ip j * Sk j else 0).sum = 0 := by
  have h0 : ∑ j, Sk j * ((g.edges.map fun e => (if m = e.1 0 then e.2.area j else 0) -
      if m = e.1 1 then e.2.area j else 0).sum +
    (g.walls.map fun b => ∑ ip, if m = b.node (b.face.near ip) then b.face.area ip j else 0).sum) = 0 :=
    Finset.sum_eq_zero fun j _ => by rw [h m j, mul_zero]
  simp only [mul_add, Finset.sum_add_distrib] at h0
  rw [wall_closed, list_fin_swap] at h0
  refine Eq.trans ?_ h0
  congr 2
  refine List.map_congr_left fun e _ => ?_
  simp only [mul_sub, Finset.sum_sub_distrib, sum_ite_mul]
  rfl

theorem elem_closed {M : Type} [DecidableEq M] {g : ElemMesh M nd K} (h : ElemClosed g) (Sk : Fin nd → K) (m : M) :
    (g.elems.map fun e => ∑ ip, ((if m = e.node (e.scs.il ip) then sDot Sk (e.scs.area ip) else 0) -
      if m = e.node (e.scs.ir ip) then sDot Sk (e.scs.area ip) else 0)).sum +
      (g.walls.map fun b => ∑ ip, if m = b.node (b.face.near ip) then ∑ j, b.face.area ip j * Sk j else 0).sum = 0 := by
  have h0 : ∑ j, Sk j * ((g.elems.map fun e => ∑ ip, ((if m = e.node (e.scs.il ip) then e.scs.area ip j else 0) -
      if m = e.node (e.scs.ir ip) then e.scs.area ip j else 0)).sum +
    (g.walls.map fun b => ∑ ip, if m = b.node (b.face.near ip) then b.face.area ip j else 0).sum) = 0 :=
    Finset.sum_eq_zero fun j _ => by rw [h m j, mul_zero]
  simp only [mul_add, Finset.sum_add_distrib] at h0
  rw [wall_closed, list_fin_swap] at h0
  refine Eq.trans ?_ h0
  congr 2
  refine List.map_congr_left fun e _ => ?_
  simp only [Finset.mul_sum]
  rw [Finset.sum_comm]
  refine Finset.sum_congr rfl fun ip _ => ?_
  simp only [mul_sub, Finset.sum_sub_distrib, sum_ite_mul]
  rfl

theorem wallFlux_const {nf nip : ℕ} (Sk : Fin nd → K) (f : WallFace nf nip nd K) (hu : ∀ ip, Unity (f.shape ip)) (c : K)
    (ip : Fin nip) : wallFlux Sk f (fun _ => c) (fun _ => c) ip = c * ∑ j, f.area ip j * Sk j := by
  simp only [wallFlux, interp_const (hu ip), ite_self]

theorem eq_balance {pi Ib : K} (hpi : pi ≠ 0) {n : NodeData K} (h : Equilibrium pi Ib n) :
    n.src + n.scat * n.G / 4 * (1 / pi) - (n.abs + n.scat) * Ib = 0 := by
  rw [h.1, h.2]
  field_simp
  ring

theorem edgeFlux_const {M : Type} (upw : Bool) {pi Ib : K} (hpi : pi ≠ 0) (Sk : Fin nd → K) (g : EdgeMesh M nd K)
    (hd : ∀ m, Equilibrium pi Ib (g.data m)) (e : (Fin 2 → M) × EdgeGeo nd K) :
    edgeFluxOf upw pi Sk g (fun _ => Ib) e = Ib * sDot Sk e.2.area := by
  cases upw
  · have h0 := eq_balance hpi (hd (e.1 0))
    have h1 := eq_balance hpi (hd (e.1 1))
    have hr : edgeResidual pi Sk e.2 (g.data (e.1 0)) (g.data (e.1 1)) Ib Ib = 0 := by
      simp only [edgeResidual, sum_grad, extIp, sub_self]
      generalize (g.data (e.1 0)).scat * (g.data (e.1 0)).G = a at h0 ⊢
      generalize (g.data (e.1 1)).scat * (g.data (e.1 1)).G = b at h1 ⊢
      linear_combination (-(1 / 2 : K)) * h0 - 1 / 2 * h1
    simp only [edgeFluxOf, sucvFlux, hr, Bool.false_eq_true, if_false]
    ring
  · simp only [edgeFluxOf, upwFluxR, if_true, ite_self]
    ring

/-! ## C99 -/

/-- **C99** A uniform intensity equal to the black body intensity of an isothermal enclosure with the wall intensity at the
same value has zero residual at every node: edge based, both schemes, any ordinate, any absorption and scattering
coefficients, provided that the scalar flux used for scattering is the full one. -/
theorem c99_edge_equilibrium_partial {M : Type} [DecidableEq M] (upw : Bool) {pi Ib : K} (hpi : pi ≠ 0) (Sk : Fin nd → K)
    (g : EdgeMesh M nd K) (nodes : List M) (hc : EdgeClosed g) (hd : ∀ m, Equilibrium pi Ib (g.data m))
    (hb : ∀ m, g.bc m = Ib) (hu : ∀ b ∈ g.walls, ∀ ip, Unity (b.face.shape ip)) (m : M) :
    (assembleWorks (edgeWorks upw pi Sk g nodes) (fun _ => Ib)).rhs m = 0 := by
  rw [edge_assembled]
  have h1 : (g.edges.map fun e => (if m = e.1 0 then edgeFluxOf upw pi Sk g (fun _ => Ib) e else 0) -
        if m = e.1 1 then edgeFluxOf upw pi Sk g (fun _ => Ib) e else 0).sum =
      Ib * (g.edges.map fun e => (if m = e.1 0 then sDot Sk e.2.area else 0) -
        if m = e.1 1 then sDot Sk e.2.area else 0).sum := by
    rw [← sum_map_mul']
    congr 1
    refine List.map_congr_left fun e _ => ?_
    rw [edgeFlux_const upw hpi Sk g hd e]
    split_ifs <;> ring
  have h2 : (nodes.map fun i => if m = i then ((g.data i).src + (g.data i).scat * (g.data i).G / 4 * (1 / pi) -
        ((g.data i).abs + (g.data i).scat) * Ib) * g.vol i else 0).sum = 0 := by
    apply List.sum_eq_zero
    intro v hv
    obtain ⟨i, _, rfl⟩ := List.mem_map.mp hv
    simp only [eq_balance hpi (hd i), zero_mul, ite_self]
  have h3 : (g.walls.map fun b => ∑ ip, if m = b.node (b.face.near ip) then
        wallFlux Sk b.face (fun a => g.bc (b.node a)) (fun _ => Ib) ip else 0).sum =
      Ib * (g.walls.map fun b => ∑ ip, if m = b.node (b.face.near ip) then ∑ j, b.face.area ip j * Sk j else 0).sum := by
    rw [← sum_map_mul']
    congr 1
    refine List.map_congr_left fun b hbm => ?_
    rw [Finset.mul_sum]
    refine Finset.sum_congr rfl fun ip _ => ?_
    simp only [hb, wallFlux_const Sk b.face (hu b hbm) Ib ip]
    split_ifs <;> ring
  have := edge_closed hc Sk m
  rw [h1, h2, h3]
  linear_combination (-Ib) * this

/-- **C99** The same for the element based scheme. -/
theorem c99_elem_equilibrium_partial {M : Type} [DecidableEq M] {pi Ib : K} (hpi : pi ≠ 0) (Sk : Fin nd → K)
    (g : ElemMesh M nd K) (hc : ElemClosed g) (hd : ∀ m, Equilibrium pi Ib (g.data m)) (hb : ∀ m, g.bc m = Ib)
    (hu : ∀ b ∈ g.walls, ∀ ip, Unity (b.face.shape ip))
    (hs : ∀ e ∈ g.elems, (∀ ip, Unity (e.scs.shape ip)) ∧ (∀ ip, GradConst (e.scs.dndx ip)) ∧
      ∀ ip, Unity (e.scv.shape ip)) (m : M) :
    (assembleWorks (elemWorks pi Sk g) (fun _ => Ib)).rhs m = 0 := by
  rw [elem_assembled]
  have hint : ∀ (nn : ℕ) (r : Fin nn → K) (node : Fin nn → M), Unity r →
      interp r (fun a => (g.data (node a)).src) +
        interp r (fun a => (g.data (node a)).scat * (g.data (node a)).G) * (1 / pi / 4) -
        interp r (fun a => (g.data (node a)).abs + (g.data (node a)).scat) * interp r (fun _ => Ib) = 0 := by
    intro nn r node hr
    rw [interp_const hr]
    simp only [interp]
    rw [Finset.sum_mul, Finset.sum_mul, ← Finset.sum_add_distrib, ← Finset.sum_sub_distrib]
    refine Finset.sum_eq_zero fun a _ => ?_
    have := eq_balance hpi (hd (node a))
    linear_combination r a * this
  have hflux : ∀ e ∈ g.elems, ∀ ip, elemFlux pi Sk e.tau e.scs (fun a => g.data (e.node a)) (fun _ => Ib) ip =
      Ib * sDot Sk (e.scs.area ip) := by
    intro e he ip
    obtain ⟨hN, hG, -⟩ := hs e he
    have hr : elemResidual pi Sk e.scs (fun a => g.data (e.node a)) (fun _ => Ib) ip = 0 := by
      have h0 := hint _ (e.scs.shape ip) e.node (hN ip)
      have h1 : (∑ ic, ∑ j, Sk j * e.scs.dndx ip ic j * Ib) = 0 := by
        rw [Finset.sum_comm]
        refine Finset.sum_eq_zero fun j _ => ?_
        rw [← Finset.sum_mul, ← Finset.mul_sum, hG ip j]; ring
      have h2 : ∑ ic, e.scs.shape ip ic * (g.data (e.node ic)).scat * (g.data (e.node ic)).G * (1 / pi / 4) =
          interp (e.scs.shape ip) (fun a => (g.data (e.node a)).scat * (g.data (e.node a)).G) * (1 / pi / 4) := by
        rw [interp, Finset.sum_mul]
        exact Finset.sum_congr rfl fun a _ => by ring
      simp only [elemResidual, h1, h2]
      linear_combination -h0
    rw [elemFlux, hr, interp_const (hN ip)]; ring
  have h1 : (g.elems.map fun e => ∑ ip, ((if m = e.node (e.scs.il ip) then
          elemFlux pi Sk e.tau e.scs (fun a => g.data (e.node a)) (fun _ => Ib) ip else 0) -
        if m = e.node (e.scs.ir ip) then
          elemFlux pi Sk e.tau e.scs (fun a => g.data (e.node a)) (fun _ => Ib) ip else 0)).sum =
      Ib * (g.elems.map fun e => ∑ ip, ((if m = e.node (e.scs.il ip) then sDot Sk (e.scs.area ip) else 0) -
      if m = e.node (e.scs.ir ip) then sDot Sk (e.scs.area ip) else 0)).sum := by
    rw [← sum_map_mul']
    congr 1
    refine List.map_congr_left fun e he => ?_
    rw [Finset.mul_sum]
    refine Finset.sum_congr rfl fun ip _ => ?_
    rw [hflux e he ip]
    split_ifs <;> ring
  have h2 : (g.elems.map fun e => ∑ ip, if m = e.node (e.scv.node ip) then
        (interp (e.scv.shape ip) (fun a => (g.data (e.node a)).src) +
          interp (e.scv.shape ip) (fun a => (g.data (e.node a)).scat * (g.data (e.node a)).G) * (1 / pi / 4) -
          interp (e.scv.shape ip) (fun a => (g.data (e.node a)).abs + (g.data (e.node a)).scat) *
            interp (e.scv.shape ip) (fun _ => Ib)) * e.scv.vol ip else 0).sum = 0 := by
    apply List.sum_eq_zero
    intro v hv
    obtain ⟨e, he, rfl⟩ := List.mem_map.mp hv
    refine Finset.sum_eq_zero fun ip _ => ?_
    rw [hint _ (e.scv.shape ip) e.node ((hs e he).2.2 ip), zero_mul, ite_self]
  have h3 : (g.walls.map fun b => ∑ ip, if m = b.node (b.face.near ip) then
        wallFlux Sk b.face (fun a => g.bc (b.node a)) (fun _ => Ib) ip else 0).sum =
      Ib * (g.walls.map fun b => ∑ ip, if m = b.node (b.face.near ip) then ∑ j, b.face.area ip j * Sk j else 0).sum := by
    rw [← sum_map_mul']
    congr 1
    refine List.map_congr_left fun b hbm => ?_
    rw [Finset.mul_sum]
    refine Finset.sum_congr rfl fun ip _ => ?_
    simp only [hb, wallFlux_const Sk b.face (hu b hbm) Ib ip]
    split_ifs <;> ring
  have := elem_closed hc Sk m
  rw [h1, h2, h3]
  linear_combination (-Ib) * this

/-- **C99** The emission the code computes and the wall intensity of a black wall are in equilibrium at equal
temperature; so is the initial intensity. -/
theorem c99_emission (pi sb kappa T envT irr : K) (scat G : K) (hs : scat = 0 ∨ G = 4 * pi * initIntensity pi sb T) :
    Equilibrium pi (initIntensity pi sb T) ⟨kappa, scat, radiationSource pi sb kappa T, G⟩ ∧
      bcIntensity pi sb 1 0 T envT irr = initIntensity pi sb T := by
  refine ⟨⟨?_, ?_⟩, ?_⟩
  · simp only [radiationSource, initIntensity]; ring
  · rcases hs with h | h
    · simp [h]
    · simp [h]
  · simp only [bcIntensity, initIntensity]; ring

/-- **C99** (grey walls) A reflecting wall stays in equilibrium exactly when its irradiation is `π` times the
intensity, that is when the half range flux of the quadrature is exact. -/
theorem c99_grey_wall {pi sb eps T envT irr : K} (hpi : pi ≠ 0) (he : eps ≠ 1) :
    bcIntensity pi sb eps 0 T envT irr = initIntensity pi sb T ↔ irr = pi * initIntensity pi sb T := by
  have he' : 1 - eps ≠ 0 := sub_ne_zero.mpr (Ne.symm he)
  simp only [bcIntensity, initIntensity]
  constructor
  · intro h
    have h2 : (1 - eps) * irr = (1 - eps) * (sb * T * T * T * T) := by
      field_simp at h
      linear_combination h
    have h3 := mul_left_cancel₀ he' h2
    rw [h3]; field_simp
  · intro h
    rw [h]; field_simp; ring

/-- **C99** (windows) A wall that also transmits stays in equilibrium with surroundings of the same temperature exactly when its
irradiation is `π` times the intensity, unless it reflects nothing (then whatever the irradiation). -/
theorem c99_window {pi sb eps tau T irr : K} (hpi : pi ≠ 0) :
    bcIntensity pi sb eps tau T T irr = initIntensity pi sb T ↔ eps + tau = 1 ∨ irr = pi * initIntensity pi sb T := by
  simp only [bcIntensity, initIntensity]
  constructor
  · intro h
    by_cases he : eps + tau = 1
    · exact Or.inl he
    · right
      have he' : 1 - eps - tau ≠ 0 := fun h0 => he (by linear_combination -h0)
      have h2 : (1 - eps - tau) * irr = (1 - eps - tau) * (sb * T * T * T * T) := by
        field_simp at h
        linear_combination h
      have h3 := mul_left_cancel₀ he' h2
      rw [h3]; field_simp
  · rintro (h | h)
    · have : eps = 1 - tau := by linear_combination h
      rw [this]; ring
    · rw [h]; field_simp; ring

/-! ## C100 -/

/-- Wall faces use the shifted integration points: the value at a point is the value at its node. -/
def ShiftedWalls {M : Type} (walls : List (Wall M nd K)) : Prop :=
  ∀ b ∈ walls, ∀ ip a, b.face.shape ip a = if a = b.face.near ip then 1 else 0

theorem interp_shift {n : ℕ} {r : Fin n → K} {i : Fin n} (h : ∀ a, r a = if a = i then 1 else 0) (f : Fin n → K) :
    interp r f = f i := by
  simp [interp, h]

/-- Emission and in-scattering at a node. -/
def gain (pi : K) (n : NodeData K) : K := n.src + n.scat * n.G / 4 * (1 / pi)

/-- The residual of the upwind scheme as a sum of differences with non-negative coefficients. -/
theorem upw_row {M : Type} [DecidableEq M] [Fintype M] (pi : K) (Sk : Fin nd → K) (g : EdgeMesh M nd K)
    (hc : EdgeClosed g) (hw : ShiftedWalls g.walls) (I : M → K) (m : M) :
    (assembleWorks (edgeWorks true pi Sk g Finset.univ.toList) I).rhs m =
      (g.edges.map fun e => (if m = e.1 0 then max (-sDot Sk e.2.area) 0 * (I (e.1 1) - I m) else 0) +
        if m = e.1 1 then max (sDot Sk e.2.area) 0 * (I (e.1 0) - I m) else 0).sum +
      (gain pi (g.data m) - ((g.data m).abs + (g.data m).scat) * I m) * g.vol m +
      (g.walls.map fun b => ∑ ip, if m = b.node (b.face.near ip) then
        max (-∑ j, b.face.area ip j * Sk j) 0 * (g.bc m - I m) else 0).sum := by
  rw [edge_assembled]
  have h1 : (g.edges.map fun e => (if m = e.1 0 then max (-sDot Sk e.2.area) 0 * (I (e.1 1) - I m) else 0) +
        if m = e.1 1 then max (sDot Sk e.2.area) 0 * (I (e.1 0) - I m) else 0).sum =
      -(g.edges.map fun e => (if m = e.1 0 then edgeFluxOf true pi Sk g I e else 0) -
        if m = e.1 1 then edgeFluxOf true pi Sk g I e else 0).sum +
      I m * (g.edges.map fun e => (if m = e.1 0 then sDot Sk e.2.area else 0) -
        if m = e.1 1 then sDot Sk e.2.area else 0).sum := by
    rw [← sum_map_neg, ← sum_map_mul', ← sum_map_add']
    congr 1
    refine List.map_congr_left fun e _ => ?_
    simp only [edgeFluxOf, if_true, upwFluxR]
    have hL : ∀ c : K, (if m = e.1 0 then max (-c) 0 * (I (e.1 1) - I m) else 0) =
        -(if m = e.1 0 then c * (if c > 0 then I (e.1 0) else I (e.1 1)) else 0) +
          I m * if m = e.1 0 then c else 0 := by
      intro c
      by_cases hm : m = e.1 0
      · rw [if_pos hm, if_pos hm, if_pos hm]
        by_cases hp : c > 0
        · rw [if_pos hp, max_eq_right (by linarith), ← hm]; ring
        · rw [if_neg hp, max_eq_left (by linarith [not_lt.mp hp])]; ring
      · simp [hm]
    have hR : ∀ c : K, (if m = e.1 1 then max c 0 * (I (e.1 0) - I m) else 0) =
        (if m = e.1 1 then c * (if c > 0 then I (e.1 0) else I (e.1 1)) else 0) -
          I m * if m = e.1 1 then c else 0 := by
      intro c
      by_cases hm : m = e.1 1
      · rw [if_pos hm, if_pos hm, if_pos hm]
        by_cases hp : c > 0
        · rw [if_pos hp, max_eq_left hp.le]; ring
        · rw [if_neg hp, max_eq_right (not_lt.mp hp), ← hm]; ring
      · simp [hm]
    rw [hL, hR]; ring
  have h2 : ((Finset.univ : Finset M).toList.map fun i => if m = i then
        ((g.data i).src + (g.data i).scat * (g.data i).G / 4 * (1 / pi) -
        ((g.data i).abs + (g.data i).scat) * I i) * g.vol i else 0).sum =
      (gain pi (g.data m) - ((g.data m).abs + (g.data m).scat) * I m) * g.vol m := by
    rw [Finset.sum_map_toList]
    simp [gain]
  have h3 : (g.walls.map fun b => ∑ ip, if m = b.node (b.face.near ip) then
        max (-∑ j, b.face.area ip j * Sk j) 0 * (g.bc m - I m) else 0).sum =
      -(g.walls.map fun b => ∑ ip, if m = b.node (b.face.near ip) then
        wallFlux Sk b.face (fun a => g.bc (b.node a)) (fun a => I (b.node a)) ip else 0).sum +
      I m * (g.walls.map fun b => ∑ ip, if m = b.node (b.face.near ip) then
        ∑ j, b.face.area ip j * Sk j else 0).sum := by
    rw [← sum_map_neg, ← sum_map_mul', ← sum_map_add']
    congr 1
    refine List.map_congr_left fun b hb => ?_
    rw [Finset.mul_sum, ← Finset.sum_neg_distrib, ← Finset.sum_add_distrib]
    refine Finset.sum_congr rfl fun ip _ => ?_
    simp only [wallFlux, interp_shift (hw b hb ip)]
    generalize ∑ j, b.face.area ip j * Sk j = c
    by_cases hm : m = b.node (b.face.near ip)
    · simp only [← hm, if_true]
      by_cases hp : c > 0
      · rw [if_pos hp, max_eq_right (by linarith)]; ring
      · rw [if_neg hp, max_eq_left (by linarith [not_lt.mp hp])]; ring
    · simp [hm]
  have h4 := edge_closed hc Sk m
  rw [h1, h2, h3]
  linear_combination (-I m) * h4

theorem sum_nonneg_list {α : Type*} (l : List α) (f : α → K) (h : ∀ a ∈ l, 0 ≤ f a) : 0 ≤ (l.map f).sum :=
  List.sum_nonneg fun x hx => by obtain ⟨a, ha, rfl⟩ := List.mem_map.mp hx; exact h a ha

theorem sum_nonpos_list {α : Type*} (l : List α) (f : α → K) (h : ∀ a ∈ l, f a ≤ 0) : (l.map f).sum ≤ 0 := by
  have := sum_nonneg_list l (fun a => -f a) (fun a ha => by linarith [h a ha])
  rw [sum_map_neg] at this
  linarith

/-- Hypotheses on the coefficients: positive extinction and dual volume at each node. -/
def Absorbing {M : Type} (g : EdgeMesh M nd K) : Prop := ∀ m, 0 < (g.data m).abs + (g.data m).scat ∧ 0 < g.vol m

/-- A node is on a wall. -/
def OnWall {M : Type} (walls : List (Wall M nd K)) (m : M) : Prop := ∃ b ∈ walls, ∃ ip, m = b.node (b.face.near ip)

/-- **C100** Discrete maximum principle of the upwind scheme: a solution of the assembled equations for one ordinate is
bounded above by every bound on the wall intensities and on the ratio of emission plus in-scattering to
extinction. -/
theorem c100_upper {M : Type} [DecidableEq M] [Fintype M] (pi : K) (Sk : Fin nd → K) (g : EdgeMesh M nd K)
    (hc : EdgeClosed g) (hw : ShiftedWalls g.walls) (ha : Absorbing g) (I : M → K)
    (hsol : ∀ m, (assembleWorks (edgeWorks true pi Sk g Finset.univ.toList) I).rhs m = 0) (B : K)
    (hbc : ∀ m, OnWall g.walls m → g.bc m ≤ B) (hg : ∀ m, gain pi (g.data m) ≤ ((g.data m).abs + (g.data m).scat) * B) :
    ∀ m, I m ≤ B := by
  intro m0
  obtain ⟨m, -, hm⟩ := Finset.exists_max_image Finset.univ I ⟨m0, Finset.mem_univ _⟩
  refine le_trans (hm m0 (Finset.mem_univ _)) ?_
  by_contra hlt
  have hlt := not_le.mp hlt
  have h0 := hsol m
  rw [upw_row pi Sk g hc hw I m] at h0
  have h1 : (g.edges.map fun e => (if m = e.1 0 then max (-sDot Sk e.2.area) 0 * (I (e.1 1) - I m) else 0) +
        if m = e.1 1 then max (sDot Sk e.2.area) 0 * (I (e.1 0) - I m) else 0).sum ≤ 0 := by
    apply sum_nonpos_list
    intro e _
    have a1 := mul_nonneg (le_max_right (-sDot Sk e.2.area) 0) (sub_nonneg.mpr (hm (e.1 1) (Finset.mem_univ _)))
    have a2 := mul_nonneg (le_max_right (sDot Sk e.2.area) 0) (sub_nonneg.mpr (hm (e.1 0) (Finset.mem_univ _)))
    apply add_nonpos
    · split_ifs
      · linarith
      · rfl
    · split_ifs
      · linarith
      · rfl
  have h2 : (g.walls.map fun b => ∑ ip, if m = b.node (b.face.near ip) then
        max (-∑ j, b.face.area ip j * Sk j) 0 * (g.bc m - I m) else 0).sum ≤ 0 := by
    apply sum_nonpos_list
    intro b hb
    apply Finset.sum_nonpos
    intro ip _
    split_ifs with h
    · exact mul_nonpos_of_nonneg_of_nonpos (le_max_right _ _) (by linarith [hbc m ⟨b, hb, ip, h⟩])
    · rfl
  have h3 : (gain pi (g.data m) - ((g.data m).abs + (g.data m).scat) * I m) * g.vol m < 0 := by
    apply mul_neg_of_neg_of_pos _ (ha m).2
    have := mul_lt_mul_of_pos_left hlt (ha m).1
    linarith [hg m]
  linarith

/-- **C100** The matching lower bound. -/
theorem c100_lower {M : Type} [DecidableEq M] [Fintype M] (pi : K) (Sk : Fin nd → K) (g : EdgeMesh M nd K)
    (hc : EdgeClosed g) (hw : ShiftedWalls g.walls) (ha : Absorbing g) (I : M → K)
    (hsol : ∀ m, (assembleWorks (edgeWorks true pi Sk g Finset.univ.toList) I).rhs m = 0) (B : K)
    (hbc : ∀ m, OnWall g.walls m → B ≤ g.bc m) (hg : ∀ m, ((g.data m).abs + (g.data m).scat) * B ≤ gain pi (g.data m)) :
    ∀ m, B ≤ I m := by
  intro m0
  obtain ⟨m, -, hm⟩ := Finset.exists_min_image Finset.univ I ⟨m0, Finset.mem_univ _⟩
  refine le_trans ?_ (hm m0 (Finset.mem_univ _))
  by_contra hlt
  have hlt := not_le.mp hlt
  have h0 := hsol m
  rw [upw_row pi Sk g hc hw I m] at h0
  have h1 : 0 ≤ (g.edges.map fun e => (if m = e.1 0 then max (-sDot Sk e.2.area) 0 * (I (e.1 1) - I m) else 0) +
        if m = e.1 1 then max (sDot Sk e.2.area) 0 * (I (e.1 0) - I m) else 0).sum := by
    apply sum_nonneg_list
    intro e _
    have a1 := mul_nonneg (le_max_right (-sDot Sk e.2.area) 0) (sub_nonneg.mpr (hm (e.1 1) (Finset.mem_univ _)))
    have a2 := mul_nonneg (le_max_right (sDot Sk e.2.area) 0) (sub_nonneg.mpr (hm (e.1 0) (Finset.mem_univ _)))
    apply add_nonneg
    · split_ifs
      · exact a1
      · rfl
    · split_ifs
      · exact a2
      · rfl
  have h2 : 0 ≤ (g.walls.map fun b => ∑ ip, if m = b.node (b.face.near ip) then
        max (-∑ j, b.face.area ip j * Sk j) 0 * (g.bc m - I m) else 0).sum := by
    apply sum_nonneg_list
    intro b hb
    apply Finset.sum_nonneg
    intro ip _
    split_ifs with h
    · exact mul_nonneg (le_max_right _ _) (by linarith [hbc m ⟨b, hb, ip, h⟩])
    · rfl
  have h3 : 0 < (gain pi (g.data m) - ((g.data m).abs + (g.data m).scat) * I m) * g.vol m := by
    apply mul_pos _ (ha m).2
    have := mul_lt_mul_of_pos_left hlt (ha m).1
    linarith [hg m]
  linarith

/-- **C100** The upwind intensity is never negative. -/
theorem c100_nonneg {M : Type} [DecidableEq M] [Fintype M] {pi : K} (hpi : 0 < pi) (Sk : Fin nd → K) (g : EdgeMesh M nd K)
    (hc : EdgeClosed g) (hw : ShiftedWalls g.walls) (ha : Absorbing g) (I : M → K)
    (hsol : ∀ m, (assembleWorks (edgeWorks true pi Sk g Finset.univ.toList) I).rhs m = 0)
    (hbc : ∀ m, OnWall g.walls m → 0 ≤ g.bc m)
    (hg : ∀ m, 0 ≤ (g.data m).src ∧ 0 ≤ (g.data m).scat ∧ 0 ≤ (g.data m).G) : ∀ m, 0 ≤ I m := by
  refine c100_lower pi Sk g hc hw ha I hsol 0 hbc fun m => ?_
  obtain ⟨h1, h2, h3⟩ := hg m
  rw [mul_zero, gain]
  positivity

/-- **C100** The equations of one ordinate have at most one solution: equal residuals mean equal intensities. -/
theorem c100_unique {M : Type} [DecidableEq M] [Fintype M] (pi : K) (Sk : Fin nd → K) (g : EdgeMesh M nd K)
    (hc : EdgeClosed g) (hw : ShiftedWalls g.walls) (ha : Absorbing g) (I J : M → K)
    (h : ∀ m, (assembleWorks (edgeWorks true pi Sk g Finset.univ.toList) I).rhs m =
      (assembleWorks (edgeWorks true pi Sk g Finset.univ.toList) J).rhs m) : I = J := by
  suffices H : ∀ I J : M → K, (∀ m, (assembleWorks (edgeWorks true pi Sk g Finset.univ.toList) I).rhs m =
      (assembleWorks (edgeWorks true pi Sk g Finset.univ.toList) J).rhs m) → ∀ m, I m ≤ J m from
    funext fun m => le_antisymm (H I J h m) (H J I (fun m => (h m).symm) m)
  intro I J h m0
  obtain ⟨m, -, hm⟩ := Finset.exists_max_image Finset.univ (fun m => I m - J m) ⟨m0, Finset.mem_univ _⟩
  suffices hle : I m - J m ≤ 0 by linarith [hm m0 (Finset.mem_univ _)]
  by_contra hlt
  have hlt := not_le.mp hlt
  have h0 := h m
  rw [upw_row pi Sk g hc hw I m, upw_row pi Sk g hc hw J m] at h0
  have h1 : (g.edges.map fun e => (if m = e.1 0 then max (-sDot Sk e.2.area) 0 * (I (e.1 1) - I m) else 0) +
        if m = e.1 1 then max (sDot Sk e.2.area) 0 * (I (e.1 0) - I m) else 0).sum ≤
      (g.edges.map fun e => (if m = e.1 0 then max (-sDot Sk e.2.area) 0 * (J (e.1 1) - J m) else 0) +
        if m = e.1 1 then max (sDot Sk e.2.area) 0 * (J (e.1 0) - J m) else 0).sum := by
    apply List.sum_le_sum
    intro e _
    have b1 := hm (e.1 1) (Finset.mem_univ _)
    have b0 := hm (e.1 0) (Finset.mem_univ _)
    apply add_le_add
    · split_ifs
      · exact mul_le_mul_of_nonneg_left (by linarith) (le_max_right _ _)
      · rfl
    · split_ifs
      · exact mul_le_mul_of_nonneg_left (by linarith) (le_max_right _ _)
      · rfl
  have h2 : (g.walls.map fun b => ∑ ip, if m = b.node (b.face.near ip) then
        max (-∑ j, b.face.area ip j * Sk j) 0 * (g.bc m - I m) else 0).sum ≤
      (g.walls.map fun b => ∑ ip, if m = b.node (b.face.near ip) then
        max (-∑ j, b.face.area ip j * Sk j) 0 * (g.bc m - J m) else 0).sum := by
    apply List.sum_le_sum
    intro b _
    apply Finset.sum_le_sum
    intro ip _
    split_ifs
    · exact mul_le_mul_of_nonneg_left (by linarith) (le_max_right _ _)
    · rfl
  have h3 := mul_pos (mul_pos (ha m).1 hlt) (ha m).2
  linarith

/-- **C100** The matrix of one ordinate is nonsingular. -/
theorem c100_nonsingular {M : Type} [DecidableEq M] [Fintype M] (pi : K) (Sk : Fin nd → K) (g : EdgeMesh M nd K)
    (hc : EdgeClosed g) (hw : ShiftedWalls g.walls) (ha : Absorbing g) (I d : M → K)
    (h : ∀ i, ∑ j, (assembleWorks (edgeWorks true pi Sk g Finset.univ.toList) I).mat i j * d j = 0) : d = 0 := by
  have := c100_unique pi Sk g hc hw ha (I + d) I fun m => by
    rw [c84_mesh_newton _ I d (c98_edge_newton true pi Sk g _) m, h, sub_zero]
  simpa using this

end Nalu.Rad
