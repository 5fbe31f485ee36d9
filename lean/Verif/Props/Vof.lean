import Verif.Spec.Vof
import Verif.Proofs.Vof
import Verif.Props.ElemKernel4
import Verif.Props.NonConformal2

/-!
# Balanced-force two-phase flow: equilibrium (C103)
-/

set_option linter.unusedSectionVars false

namespace Nalu.Vof
open Nalu.Edge Nalu.Kernel
open Nalu.NC (VofOpts)

variable {K : Type*} [Field K] [LinearOrder K] [IsStrictOrderedRing K]
variable {nn nip nf nd : ℕ} {M : Type*}

/-- The localisation does not matter: it is the same number at every volume fraction (`n = m = 0`, the default). -/
def ConstLoc (vo : VofOpts nd K) : Prop := ∀ x y, vo.loc x = vo.loc y

theorem sum_add_mul_area (A B a : Fin nd → K) (t r : K) :
    t * (∑ j, B j * a j) / r + ∑ j, A j * a j = ∑ j, (A j + t * (B j / r)) * a j := by
  rw [Finset.mul_sum, Finset.sum_div, ← Finset.sum_add_distrib]
  exact Finset.sum_congr rfl fun _ _ => by ring

/-- **C103** The volume flow rate of an interior surface is the flux of the interpolated velocity corrected by the
difference between the local acceleration imbalance and the interpolated nodal one. -/
theorem c103_vdot_formula (pts : K) (vo : VofOpts nd K) (F : VofFields M nd K) (p : M → K) (e : ElemRec M nd K)
    (ip : Fin e.nipS) :
    storedVdot pts vo e.scs (F.gather e.node fun a => p (e.node a)) ip =
      ∑ j, ((∑ ic, e.scs.shape ip ic * F.vrtm (e.node ic) j) -
        pts * (elemImbalance vo F p e ip j / elemRho F e ip -
          ∑ ic, e.scs.shape ip ic * F.Gp (e.node ic) j)) * e.scs.area ip j := by
  simp only [storedVdot, scsVdot, VofFields.gather, sigmaKappa, elemImbalance, imbalance, elemRho, interp]
  have h : ∑ ic, ∑ j, e.scs.dndx ip ic j * F.vof (e.node ic) * e.scs.area ip j =
      ∑ j, (∑ ic, e.scs.dndx ip ic j * F.vof (e.node ic)) * e.scs.area ip j := by
    rw [Finset.sum_comm]; simp only [Finset.sum_mul]
  rw [h, sum_add_mul_area]
  exact Finset.sum_congr rfl fun _ _ => by ring

/-- **C103** The same at an open face, with the penalty on the pressure. -/
theorem c103_open_vdot_formula (pts pen : K) (vo : VofOpts nd K) (F : VofFields M nd K) (p : M → K)
    (f : FaceRec M nd K) (ip : Fin f.nip) :
    openVdotKernel pts pen vo f.face (F.gather f.node fun a => p (f.node a)) (fun a => F.pbc (f.node a)) f.dynP ip =
      pen * pts / faceRho F f ip * invLength f.face ip *
        ((∑ ic, f.face.shape ip ic * (p (f.node (f.face.node ic)) - F.pbc (f.node (f.face.node ic)))) + f.dynP ip) *
        f.face.aMag ip +
      ∑ j, ((∑ ic, f.face.shape ip ic * F.vrtm (f.node (f.face.node ic)) j) -
        pts * (faceImbalance vo F p f ip j / faceRho F f ip -
          ∑ ic, f.face.shape ip ic * F.Gp (f.node (f.face.node ic)) j)) * f.face.area ip j := by
  simp only [openVdotKernel, openVdotWith, VofFields.gather, faceImbalance, imbalance, faceRho]
  have h : ∑ ic, ∑ j, f.face.dndx ip ic j * F.vof (f.node ic) * f.face.area ip j =
      ∑ j, (∑ ic, f.face.dndx ip ic j * F.vof (f.node ic)) * f.face.area ip j := by
    rw [Finset.sum_comm]; simp only [Finset.sum_mul]
  have h2 : ∑ ic, f.face.shape ip ic * (p (f.node (f.face.node ic)) - F.pbc (f.node (f.face.node ic))) =
      ∑ ic, f.face.shape ip ic * p (f.node (f.face.node ic)) -
        ∑ ic, f.face.shape ip ic * F.pbc (f.node (f.face.node ic)) := by
    rw [← Finset.sum_sub_distrib]; exact Finset.sum_congr rfl fun _ _ => by ring
  rw [h, add_assoc, sum_add_mul_area, h2]
  congr 1
  · ring
  · exact Finset.sum_congr rfl fun _ _ => by ring

/-! ## Projected nodal gradient -/

/-- The two sums are in the ratio `c`. -/
def Ratio (c : Fin nd → K) (s : Paw M nd K) : Prop := ∀ i k, s.grad i k = c k * s.wt i k

theorem add_ratio [DecidableEq M] (c : Fin nd → K) (s : Paw M nd K) (m : M) (j : Fin nd) (x w : K) (hx : x = c j * w)
    (h : Ratio c s) : Ratio c (s.add m j x w) := by
  intro i k
  simp only [Paw.add]
  by_cases hc : i = m ∧ k = j
  · simp only [hc, and_self, if_true]
    rw [h, hx]; ring
  · simp only [hc, if_false]
    exact h i k

theorem face_pressure (ovr : Bool) (f : FaceRec M nd K) (F : VofFields M nd K) (p : M → K)
    (h : ovr = true → ∀ ic, F.pbc (f.node (f.face.node ic)) = p (f.node (f.face.node ic))) (a : Fin f.nn) :
    overridden ovr f.face (fun a => p (f.node a)) (fun a => F.pbc (f.node a)) a = p (f.node a) := by
  unfold overridden
  split_ifs with hc
  · obtain ⟨ho, ic, rfl⟩ := hc
    exact h ho ic
  · rfl

/-- **C103** In uniform acceleration the assembled nodal sums are in the ratio `c`, at every node. -/
theorem c103_paw_ratio [DecidableEq M] (vo : VofOpts nd K) (hl : ConstLoc vo) (F : VofFields M nd K) (p : M → K)
    (elems : List (ElemRec M nd K)) (bnd : List (Bool × FaceRec M nd K)) (c : Fin nd → K)
    (h : Accelerating vo F p elems bnd c) (i : M) (j : Fin nd) :
    (pawSums vo F elems bnd p).grad i j = c j * (pawSums vo F elems bnd p).wt i j := by
  suffices H : Ratio c (pawSums vo F elems bnd p) from H i j
  unfold pawSums
  refine foldl_inv (Ratio c) _ _ ?_ _ (foldl_inv (Ratio c) _ _ ?_ _ (by intro i k; simp))
  · intro f hf s hs
    unfold pawFace
    refine loop_inv (Ratio c) _ (fun ip s hs => loop_inv (Ratio c) _
      (fun j s hs => add_ratio c s _ j _ _ ?_ hs) _ hs) _ hs
    have h1 := h.face f hf ip j
    have h2 := h.rhoF f hf ip
    simp only [face_pressure f.1 f.2 F p (h.pbc f hf)]
    simp only [faceImbalance, imbalance, faceRho] at h1 h2
    rw [hl (∑ ic, f.2.face.shape ip ic * elemIndex (fun a => F.vof (f.2.node a)) ic)
      (∑ ic, f.2.face.shape ip ic * F.vof (f.2.node (f.2.face.node ic))), h1]
    field_simp
  · intro e he s hs
    unfold pawElem
    refine loop_inv (Ratio c) _ (fun ip s hs => loop_inv (Ratio c) _ (fun j s hs => ?_) _ hs) _ hs
    have h1 := h.elem e he ip j
    have h2 := h.rhoE e he ip
    have h3 : pawTerm vo (e.scs.shape ip) (e.scs.dndx ip) (e.scs.area ip) (F.gather e.node fun a => p (e.node a)) j =
        c j * |e.scs.area ip j| := by
      simp only [elemImbalance, imbalance, elemRho] at h1 h2
      simp only [pawTerm, VofFields.gather, sigmaKappa]
      have h1' : (∑ ic, e.scs.dndx ip ic j * p (e.node ic)) -
          (∑ ic, e.scs.shape ip ic * F.rho (e.node ic)) * vo.gravity j * vo.buoy -
          (∑ ic, e.scs.shape ip ic * F.sigma (e.node ic) * F.kappa (e.node ic)) *
            vo.loc (∑ ic, e.scs.shape ip ic * F.vof (e.node ic)) *
            ∑ ic, e.scs.dndx ip ic j * F.vof (e.node ic) =
          c j * ∑ ic, e.scs.shape ip ic * F.rho (e.node ic) := by
        rw [← h1]; ring
      rw [h1']
      field_simp
    exact add_ratio c _ _ j _ _ h3 (add_ratio c s _ j _ _ h3 hs)

theorem foldl_meas' {S E : Type*} (φ : S → K) (body : S → E → S) (δ : E → K)
    (h : ∀ k s, φ (body s k) = φ s + δ k) (l : List E) (s : S) :
    φ (l.foldl body s) = φ s + (l.map δ).sum := by
  induction l generalizing s with
  | nil => simp
  | cons x l ih => rw [List.foldl_cons, ih, h]; simp [add_assoc]

theorem add_wt [DecidableEq M] (s : Paw M nd K) (m i : M) (j k : Fin nd) (x w : K) :
    (s.add m j x w).wt i k = s.wt i k + if k = j then (if i = m then w else 0) else 0 := by
  simp only [Paw.add]
  by_cases h1 : i = m <;> by_cases h2 : k = j <;> simp [h1, h2]

/-- **C103** The weights are the areas of the surfaces touching the node. -/
theorem c103_paw_weight [DecidableEq M] (vo : VofOpts nd K) (F : VofFields M nd K) (p : M → K)
    (elems : List (ElemRec M nd K)) (bnd : List (Bool × FaceRec M nd K)) (i : M) (j : Fin nd) :
    (pawSums vo F elems bnd p).wt i j = touching elems bnd i j := by
  unfold pawSums touching
  rw [foldl_meas' (fun s : Paw M nd K => s.wt i j) _ (fun f : Bool × FaceRec M nd K =>
      ∑ ip, if i = f.2.node (f.2.face.node (f.2.face.loc ip)) then |f.2.face.area ip j| else 0),
    foldl_meas' (fun s : Paw M nd K => s.wt i j) _ (fun e : ElemRec M nd K =>
      ∑ ip, ((if i = e.node (e.scs.il ip) then |e.scs.area ip j| else 0) +
        if i = e.node (e.scs.ir ip) then |e.scs.area ip j| else 0))]
  · simp
  · intro e s
    refine loop_meas (fun s : Paw M nd K => s.wt i j) _ _ (fun ip s => ?_) _
    refine (loop_meas (fun s : Paw M nd K => s.wt i j) _ (fun k => if j = k then
      (if i = e.node (e.scs.il ip) then |e.scs.area ip k| else 0) +
        (if i = e.node (e.scs.ir ip) then |e.scs.area ip k| else 0) else 0) (fun k s => ?_) _).trans ?_
    · simp only [add_wt]
      by_cases hk : j = k <;> simp [hk, add_assoc]
    · simp
  · intro f s
    refine loop_meas (fun s : Paw M nd K => s.wt i j) _ _ (fun ip s => ?_) _
    refine (loop_meas (fun s : Paw M nd K => s.wt i j) _ (fun k => if j = k then
      (if i = f.2.node (f.2.face.node (f.2.face.loc ip)) then |f.2.face.area ip k| else 0) else 0)
      (fun k s => ?_) _).trans ?_
    · simp only [add_wt]
    · simp

/-- **C103** In uniform acceleration `c` the projected nodal gradient is `c` at every node that has a surface seen in
each direction; whatever the mesh, the density ratio, the interface and the curvature. -/
theorem c103_paw_gradient [DecidableEq M] (vo : VofOpts nd K) (hl : ConstLoc vo) (F : VofFields M nd K) (p : M → K)
    (elems : List (ElemRec M nd K)) (bnd : List (Bool × FaceRec M nd K)) (c : Fin nd → K)
    (h : Accelerating vo F p elems bnd c) (i : M) (j : Fin nd) (ht : touching elems bnd i j ≠ 0) :
    pawGradient vo F elems bnd p i j = c j := by
  rw [pawGradient, c103_paw_ratio vo hl F p elems bnd c h, c103_paw_weight]
  field_simp

/-- **C103** Then the pressure stabilisation vanishes exactly: the volume flow rate of every interior surface is the flux
of the interpolated velocity. -/
theorem c103_vdot_accelerating [DecidableEq M] (pts : K) (vo : VofOpts nd K) (hl : ConstLoc vo)
    (F : VofFields M nd K) (p : M → K) (elems : List (ElemRec M nd K)) (bnd : List (Bool × FaceRec M nd K))
    (c : Fin nd → K) (h : Accelerating vo F p elems bnd c) (hG : F.Gp = pawGradient vo F elems bnd p)
    (ht : ∀ i j, touching elems bnd i j ≠ 0) (e : ElemRec M nd K) (he : e ∈ elems) (ip : Fin e.nipS)
    (hN : Unity (e.scs.shape ip)) :
    storedVdot pts vo e.scs (F.gather e.node fun a => p (e.node a)) ip =
      ∑ j, (∑ ic, e.scs.shape ip ic * F.vrtm (e.node ic) j) * e.scs.area ip j := by
  rw [c103_vdot_formula]
  refine Finset.sum_congr rfl fun j _ => ?_
  rw [h.elem e he ip j, mul_div_cancel_right₀ _ (h.rhoE e he ip)]
  have : ∀ ic, F.Gp (e.node ic) j = c j := fun ic => by
    rw [hG]; exact c103_paw_gradient vo hl F p elems bnd c h _ j (ht _ _)
  simp only [this, ← Finset.sum_mul]
  rw [show ∑ ic, e.scs.shape ip ic = 1 from hN]
  ring

/-- **C103** The same at an open face whose boundary pressure is the pressure and that has no dynamic pressure. -/
theorem c103_open_accelerating [DecidableEq M] (pts pen : K) (vo : VofOpts nd K) (hl : ConstLoc vo)
    (F : VofFields M nd K) (p : M → K) (elems : List (ElemRec M nd K)) (bnd : List (Bool × FaceRec M nd K))
    (c : Fin nd → K) (h : Accelerating vo F p elems bnd c) (hG : F.Gp = pawGradient vo F elems bnd p)
    (ht : ∀ i j, touching elems bnd i j ≠ 0) (f : FaceRec M nd K) (hf : (true, f) ∈ bnd) (ip : Fin f.nip)
    (hN : Unity (f.face.shape ip)) (hd : f.dynP ip = 0) :
    openVdotKernel pts pen vo f.face (F.gather f.node fun a => p (f.node a)) (fun a => F.pbc (f.node a)) f.dynP ip =
      ∑ j, (∑ ic, f.face.shape ip ic * F.vrtm (f.node (f.face.node ic)) j) * f.face.area ip j := by
  rw [c103_open_vdot_formula]
  have h0 : ∑ ic, f.face.shape ip ic * (p (f.node (f.face.node ic)) - F.pbc (f.node (f.face.node ic))) = 0 :=
    Finset.sum_eq_zero fun ic _ => by rw [h.pbc (true, f) hf rfl ic]; ring
  rw [h0, hd, add_zero, mul_zero, zero_mul, zero_add]
  refine Finset.sum_congr rfl fun j _ => ?_
  rw [h.face (true, f) hf ip j, mul_div_cancel_right₀ _ (h.rhoF (true, f) hf ip)]
  have : ∀ ic, F.Gp (f.node (f.face.node ic)) j = c j := fun ic => by
    rw [hG]; exact c103_paw_gradient vo hl F p elems bnd c h _ j (ht _ _)
  simp only [this, ← Finset.sum_mul]
  rw [show ∑ ic, f.face.shape ip ic = 1 from hN]
  ring

/-! ## States in equilibrium -/

/-- Shape functions of the mesh sum to one and its gradient operators annihilate constants. -/
structure Consistent (elems : List (ElemRec M nd K)) (bnd : List (Bool × FaceRec M nd K)) : Prop where
  unityE : ∀ e ∈ elems, ∀ ip, Unity (e.scs.shape ip)
  unityF : ∀ f ∈ bnd, ∀ ip, Unity (f.2.face.shape ip)
  constE : ∀ e ∈ elems, ∀ ip, GradConst (e.scs.dndx ip)
  constF : ∀ f ∈ bnd, ∀ ip, GradConst (f.2.face.dndx ip)

theorem sum_unity {n : ℕ} (N s k : Fin n → K) (hN : Unity N) (c : K) (h : ∀ a, s a * k a = c) :
    ∑ ic, N ic * s ic * k ic = c := by
  simp only [mul_assoc, h, ← Finset.sum_mul]
  rw [show ∑ ic, N ic = 1 from hN, one_mul]

/-- **C103** Laplace equilibrium: with the interface force not localised, a uniform product of surface tension and
curvature and no gravity, the pressure `p0 + σκ·α` is in equilibrium, for any volume fraction field, any density
field and any mesh. -/
theorem c103_laplace (vo : VofOpts nd K) (h1 : ∀ x, vo.loc x = 1) (hg : ∀ j, vo.buoy * vo.gravity j = 0)
    (F : VofFields M nd K) (elems : List (ElemRec M nd K)) (bnd : List (Bool × FaceRec M nd K))
    (hm : Consistent elems bnd) (p0 sk : K) (hsk : ∀ m, F.sigma m * F.kappa m = sk) (p : M → K)
    (hp : ∀ m, p m = p0 + sk * F.vof m) (hpbc : ∀ m, F.pbc m = p m)
    (hrE : ∀ e ∈ elems, ∀ ip, elemRho F e ip ≠ 0) (hrF : ∀ f ∈ bnd, ∀ ip, faceRho F f.2 ip ≠ 0) :
    Accelerating vo F p elems bnd (fun _ => 0) := by
  have key : ∀ {n : ℕ} (g : Fin n → Fin nd → K) (node : Fin n → M) (j : Fin nd), GradConst g →
      ∑ ic, g ic j * p (node ic) = sk * ∑ ic, g ic j * F.vof (node ic) := by
    intro n g node j hg0
    simp only [hp, mul_add, Finset.sum_add_distrib, ← Finset.sum_mul]
    rw [hg0 j, zero_mul, zero_add, Finset.mul_sum]
    exact Finset.sum_congr rfl fun _ _ => by ring
  refine ⟨hrE, hrF, fun e he ip j => ?_, fun f hf ip j => ?_, fun f _ _ ic => hpbc _⟩
  · have hgj := hg j
    simp only [elemImbalance, imbalance]
    rw [key _ _ _ (hm.constE e he ip), sum_unity _ _ _ (hm.unityE e he ip) sk (fun a => hsk _), h1]
    linear_combination (-(∑ ic, e.scs.shape ip ic * F.rho (e.node ic))) * hgj
  · have hgj := hg j
    simp only [faceImbalance, imbalance]
    rw [key _ _ _ (hm.constF f hf ip), sum_unity _ _ _ (hm.unityF f hf ip) sk (fun a => hsk _), h1]
    linear_combination (-(∑ ic, f.2.face.shape ip ic * F.rho (f.2.node (f.2.face.node ic)))) * hgj

/-- **C103** Uniform density: the pressure `p0 + ρ(g + c)·x + σκ·α` accelerates the fluid uniformly by `c` (`c = 0`:
the hydrostatic column). -/
theorem c103_hydrostatic (vo : VofOpts nd K) (h1 : ∀ x, vo.loc x = 1)
    (F : VofFields M nd K) (elems : List (ElemRec M nd K)) (bnd : List (Bool × FaceRec M nd K))
    (hm : Consistent elems bnd) (x : M → Fin nd → K)
    (hlE : ∀ e ∈ elems, ∀ ip, GradLinear (e.scs.dndx ip) fun a => x (e.node a))
    (hlF : ∀ f ∈ bnd, ∀ ip, GradLinear (f.2.face.dndx ip) fun a => x (f.2.node a))
    (p0 sk rho : K) (c : Fin nd → K) (hrho : rho ≠ 0) (hr : ∀ m, F.rho m = rho)
    (hsk : ∀ m, F.sigma m * F.kappa m = sk) (p : M → K)
    (hp : ∀ m, p m = affine p0 (fun j => rho * (vo.buoy * vo.gravity j + c j)) (x m) + sk * F.vof m)
    (hpbc : ∀ m, F.pbc m = p m) :
    Accelerating vo F p elems bnd c := by
  have key : ∀ {n : ℕ} (g : Fin n → Fin nd → K) (node : Fin n → M) (j : Fin nd), GradConst g →
      GradLinear g (fun a => x (node a)) → ∑ ic, g ic j * p (node ic) =
        rho * (vo.buoy * vo.gravity j + c j) + sk * ∑ ic, g ic j * F.vof (node ic) := by
    intro n g node j hg0 hg1
    simp only [hp, mul_add, Finset.sum_add_distrib]
    have := grad_affine g (fun a => x (node a)) hg0 hg1 p0 (fun j => rho * (vo.buoy * vo.gravity j + c j)) j
    simp only [mul_add] at this
    rw [this, Finset.mul_sum]
    congr 1
    exact Finset.sum_congr rfl fun _ _ => by ring
  have hu : ∀ {n : ℕ} (N : Fin n → K) (node : Fin n → M), Unity N → ∑ ic, N ic * F.rho (node ic) = rho := by
    intro n N node hN
    simp only [hr, ← Finset.sum_mul]
    rw [show ∑ ic, N ic = 1 from hN, one_mul]
  have hrE : ∀ e ∈ elems, ∀ ip, elemRho F e ip = rho := fun e he ip => hu _ _ (hm.unityE e he ip)
  have hrF : ∀ f ∈ bnd, ∀ ip, faceRho F f.2 ip = rho := fun f hf ip =>
    hu (f.2.face.shape ip) (fun a => f.2.node (f.2.face.node a)) (hm.unityF f hf ip)
  refine ⟨fun e he ip => by rw [hrE e he ip]; exact hrho, fun f hf ip => by rw [hrF f hf ip]; exact hrho,
    fun e he ip j => ?_, fun f hf ip j => ?_, fun f _ _ ic => hpbc _⟩
  · have := hrE e he ip
    rw [this]
    simp only [elemRho] at this
    simp only [elemImbalance, imbalance]
    rw [key _ _ _ (hm.constE e he ip) (hlE e he ip), sum_unity _ _ _ (hm.unityE e he ip) sk (fun a => hsk _), h1,
      this]
    ring
  · have := hrF f hf ip
    rw [this]
    simp only [faceRho] at this
    simp only [faceImbalance, imbalance]
    rw [key _ _ _ (hm.constF f hf ip) (hlF f hf ip), sum_unity _ _ _ (hm.unityF f hf ip) sk (fun a => hsk _), h1,
      this]
    ring

/-- **C103** In equilibrium the momentum equation adds nothing for a fluid at rest: no acceleration and no matrix-free
force remains (with the density scaling of the balanced-force option or without it). -/
theorem c103_momentum_rest [DecidableEq M] (b : Bdf K) (df : K) (vo : VofOpts nd K) (hl : ConstLoc vo)
    (F : VofFields M nd K) (p : M → K) (elems : List (ElemRec M nd K)) (bnd : List (Bool × FaceRec M nd K))
    (h : Accelerating vo F p elems bnd fun _ => 0) (ht : ∀ i j, touching elems bnd i j ≠ 0)
    (e : ElemRec M nd K) (rho : Levels e.nn K) (s : LocalSys (Fin e.nn × Fin nd) K) (a : Fin e.nn × Fin nd) :
    (momentumMass b df e.scv rho ⟨fun _ _ => 0, fun _ _ => 0, fun _ _ => 0⟩
      (fun n => pawGradient vo F elems bnd p (e.node n)) s).rhs a = s.rhs a := by
  obtain ⟨n, k⟩ := a
  rw [momentumMass_rhs]
  have hz : ∀ m j, pawGradient vo F elems bnd p m j = 0 := fun m j =>
    c103_paw_gradient vo hl F p elems bnd _ h m j (ht m j)
  simp [coordIp, hz]

/-! ## Non-conformal interfaces -/

/-- **C103** At a non-conformal interface the code adds the surface tension force with the opposite sign.  In
equilibrium (pressure gradient balancing weight and surface tension on both sides, nodal gradients zero, fluid at
rest, pressure continuous) a spurious volume flow rate remains: twice the surface tension acceleration. -/
theorem c103_nonconformal_defect {nc no fc fo : ℕ} (o : NC.MdotOpts K) (vo : VofOpts nd K)
    (p : NC.Point nc fc no fo nd K) (c : NC.FlowSide nc nd K) (f : NC.FlowSide no nd K) (wc : NC.VofSide nc K)
    (wo : NC.VofSide no K) (pC : Fin nc → K) (pO : Fin no → K)
    (hc : ∀ j, imbalance vo (p.cur.val c.rho) (p.cur.val wc.sk) (p.cur.val wc.vof) (p.cur.grad pC)
      (p.cur.grad wc.vof) j = 0)
    (ho : ∀ j, imbalance vo (p.opp.val f.rho) (p.opp.val wo.sk) (p.opp.val wo.vof) (p.opp.grad pO)
      (p.opp.grad wo.vof) j = 0)
    (hGc : ∀ a j, c.G a j = 0) (hGo : ∀ a j, f.G a j = 0) (hu : ∀ a j, c.u a j = 0) (huo : ∀ a j, f.u a j = 0)
    (hv : ∀ a j, c.v a j = 0) (hp : p.cur.val pC = p.opp.val pO) :
    NC.ncVdot o vo p c f wc wo pC pO = -(o.pstab * o.pts * ∑ j,
      (p.cur.val wc.sk * vo.loc (p.cur.val wc.vof) * p.cur.grad wc.vof j / p.cur.val c.rho * p.cN j -
        p.opp.val wo.sk * vo.loc (p.opp.val wo.vof) * p.opp.grad wo.vof j / p.opp.val f.rho * p.oN j)) * p.amag := by
  have e1 : ∀ j, p.cur.vofStab vo c wc pC j =
      2 * (p.cur.val wc.sk * vo.loc (p.cur.val wc.vof) * p.cur.grad wc.vof j / p.cur.val c.rho) := by
    intro j
    have := hc j
    simp only [imbalance] at this
    have hz : (p.cur.val fun a => c.G a j) = 0 := by simp [NC.Side.val, hGc]
    rw [NC.Side.vofStab, hz, sub_zero,
      show p.cur.grad pC j - vo.buoy * p.cur.val c.rho * vo.gravity j +
        p.cur.val wc.sk * vo.loc (p.cur.val wc.vof) * p.cur.grad wc.vof j =
        2 * (p.cur.val wc.sk * vo.loc (p.cur.val wc.vof) * p.cur.grad wc.vof j) by linear_combination this]
    ring
  have e2 : ∀ j, p.opp.vofStab vo f wo pO j =
      2 * (p.opp.val wo.sk * vo.loc (p.opp.val wo.vof) * p.opp.grad wo.vof j / p.opp.val f.rho) := by
    intro j
    have := ho j
    simp only [imbalance] at this
    have hz : (p.opp.val fun a => f.G a j) = 0 := by simp [NC.Side.val, hGo]
    rw [NC.Side.vofStab, hz, sub_zero,
      show p.opp.grad pO j - vo.buoy * p.opp.val f.rho * vo.gravity j +
        p.opp.val wo.sk * vo.loc (p.opp.val wo.vof) * p.opp.grad wo.vof j =
        2 * (p.opp.val wo.sk * vo.loc (p.opp.val wo.vof) * p.opp.grad wo.vof j) by linear_combination this]
    ring
  have z1 : ∀ j, (p.cur.val fun a => c.u a j) = 0 := fun j => by simp [NC.Side.val, hu]
  have z2 : ∀ j, (p.opp.val fun a => f.u a j) = 0 := fun j => by simp [NC.Side.val, huo]
  have z3 : ∀ j, (p.cur.val fun a => c.v a j) = 0 := fun j => by simp [NC.Side.val, hv]
  simp only [NC.ncVdot, e1, e2, z1, z2, z3, hp]
  simp only [zero_mul, mul_zero, sub_self, Finset.sum_const_zero, add_zero, zero_sub]
  congr 2
  congr 1
  exact Finset.sum_congr rfl fun _ _ => by ring

end Nalu.Vof
