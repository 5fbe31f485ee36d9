import Mathlib.Analysis.Real.Sqrt
import Verif.Props.Vof2

/-!
# Clipping and smoothing of the volume fraction (C105), interface normal and curvature (C106)
-/

set_option linter.unusedSectionVars false

namespace Nalu.Vof
open Nalu.Edge Nalu.Kernel
open Nalu.NC (VofOpts)

variable {K : Type*} [Field K] [LinearOrder K] [IsStrictOrderedRing K]
variable {nn nip nf nd : ℕ} {M : Type*}

/-! ## C105 -/

/-- **C105** After the update the volume fraction lies in `[-δ, 1+δ]`. -/
theorem c105_clip_bounds (delta vof tmp : K) (h : 0 ≤ delta) :
    -delta ≤ updateAndClip delta vof tmp ∧ updateAndClip delta vof tmp ≤ 1 + delta := by
  simp only [updateAndClip]
  split_ifs with h1 h2
  · constructor <;> linarith
  · constructor <;> linarith
  · push Not at h1 h2
    exact ⟨by linarith, h2⟩

/-- **C105** A value already in range is the unclipped update. -/
theorem c105_clip_identity (delta vof tmp : K) (h1 : -delta ≤ vof + tmp) (h2 : vof + tmp ≤ 1 + delta) :
    updateAndClip delta vof tmp = vof + tmp := by
  simp only [updateAndClip]
  rw [if_neg (by linarith), if_neg (by linarith)]

/-- **C105** The clipped value is the closest value in range to the unclipped one. -/
theorem c105_clip_closest (delta vof tmp y : K) (hy1 : -delta ≤ y) (hy2 : y ≤ 1 + delta) :
    |updateAndClip delta vof tmp - (vof + tmp)| ≤ |y - (vof + tmp)| := by
  simp only [updateAndClip]
  split_ifs with h1 h2
  · rw [abs_of_nonneg (by linarith), abs_of_nonneg (by linarith)]; linarith
  · rw [abs_of_nonpos (by linarith), abs_of_nonpos (by linarith)]; linarith
  · simp

/-- **C105** Clipping preserves the order of two updates. -/
theorem c105_clip_mono (delta v1 t1 v2 t2 : K) (h : 0 ≤ delta) (hv : v1 + t1 ≤ v2 + t2) :
    updateAndClip delta v1 t1 ≤ updateAndClip delta v2 t2 := by
  simp only [updateAndClip]
  split_ifs <;> linarith

theorem addAt_val [DecidableEq M] (f : M → K) (m : M) (v : K) (i : M) :
    addAt f m v i = f i + if i = m then v else 0 := by
  simp only [addAt]; split_ifs <;> simp

theorem smoothRhs_eq [DecidableEq M] (vol : M → K) (elems : List (ElemRec M nd K)) (q : M → K) (i : M) :
    smoothRhs vol elems q i = (elems.map fun e => ∑ ip,
      (-(if i = e.node (e.scs.il ip) then smoothFlux e.scs (fun a => q (e.node a)) ip / vol i else 0) +
        if i = e.node (e.scs.ir ip) then smoothFlux e.scs (fun a => q (e.node a)) ip / vol i else 0)).sum := by
  unfold smoothRhs
  rw [foldl_meas' (fun r : M → K => r i) _ (fun e => ∑ ip,
      (-(if i = e.node (e.scs.il ip) then smoothFlux e.scs (fun a => q (e.node a)) ip / vol i else 0) +
        if i = e.node (e.scs.ir ip) then smoothFlux e.scs (fun a => q (e.node a)) ip / vol i else 0))]
  · simp
  · intro e r
    refine loop_meas (fun r : M → K => r i) _ _ (fun ip r => ?_) r
    simp only [addAt_val]
    by_cases h1 : i = e.node (e.scs.il ip) <;> by_cases h2 : i = e.node (e.scs.ir ip)
    · simp only [← h1, ← h2, if_true]; ring
    · rw [if_pos h1, if_neg h2, if_pos h1, if_neg h2, ← h1]; ring
    · rw [if_neg h1, if_pos h2, if_neg h1, if_pos h2, ← h2]; ring
    · rw [if_neg h1, if_neg h2, if_neg h1, if_neg h2]; ring

theorem smoothRhs_total [DecidableEq M] [Fintype M] (vol : M → K) (hv : ∀ i, vol i ≠ 0)
    (elems : List (ElemRec M nd K)) (q : M → K) : ∑ i, vol i * smoothRhs vol elems q i = 0 := by
  have : ∀ i, vol i * smoothRhs vol elems q i = (elems.map fun e => ∑ ip,
      (-(if i = e.node (e.scs.il ip) then smoothFlux e.scs (fun a => q (e.node a)) ip else 0) +
        if i = e.node (e.scs.ir ip) then smoothFlux e.scs (fun a => q (e.node a)) ip else 0)).sum := by
    intro i
    rw [smoothRhs_eq, ← List.sum_map_mul_left]
    congr 1
    refine List.map_congr_left fun e _ => ?_
    rw [Finset.mul_sum]
    refine Finset.sum_congr rfl fun ip _ => ?_
    have := hv i
    split_ifs <;> field_simp <;> ring
  simp only [this, sum_list]
  refine List.sum_eq_zero fun x hx => ?_
  obtain ⟨e, _, rfl⟩ := List.mem_map.mp hx
  simp only [Finset.sum_add_distrib, Finset.sum_neg_distrib, sum_point]
  ring

/-- **C105** One pass of smoothing is a step of diffusion: the value changes by `fac` over the dual volume times the gradient of
the volume fraction through the surfaces around the node, outward for the left node of a surface. -/
theorem c105_smoothing_diffuses [DecidableEq M] (fac : K) (vol : M → K) (elems : List (ElemRec M nd K)) (q : M → K)
    (i : M) : smoothVof fac vol elems 1 q i = q i + fac * ((elems.map fun e => ∑ ip,
      ((if i = e.node (e.scs.il ip) then ∑ j, (∑ ic, e.scs.dndx ip ic j * q (e.node ic)) * e.scs.area ip j else 0) -
        if i = e.node (e.scs.ir ip) then ∑ j, (∑ ic, e.scs.dndx ip ic j * q (e.node ic)) * e.scs.area ip j
        else 0)).sum / vol i) := by
  have hf : ∀ (e : ElemRec M nd K) ip, smoothFlux e.scs (fun a => q (e.node a)) ip =
      -∑ j, (∑ ic, e.scs.dndx ip ic j * q (e.node ic)) * e.scs.area ip j := by
    intro e ip
    simp only [smoothFlux, Finset.sum_mul]
    rw [Finset.sum_comm, ← Finset.sum_neg_distrib]
    exact Finset.sum_congr rfl fun _ _ => by
      rw [← Finset.sum_neg_distrib]; exact Finset.sum_congr rfl fun _ _ => by ring
  simp only [smoothVof]
  rw [smoothRhs_eq, add_comm, one_mul, div_eq_mul_inv, ← List.sum_map_mul_right]
  congr 3
  refine List.map_congr_left fun e _ => ?_
  rw [Finset.sum_mul]
  refine Finset.sum_congr rfl fun ip _ => ?_
  rw [hf]
  split_ifs <;> ring

/-- **C105** Smoothing conserves the total volume of the phase, for any number of sweeps, any Fourier number and any
field. -/
theorem c105_smoothing_conserves [DecidableEq M] [Fintype M] (fac : K) (vol : M → K) (hv : ∀ i, vol i ≠ 0)
    (elems : List (ElemRec M nd K)) (k : ℕ) (q : M → K) :
    ∑ i, vol i * smoothVof fac vol elems k q i = ∑ i, vol i * q i := by
  induction k generalizing q with
  | zero => rfl
  | succ k ih =>
    rw [smoothVof, ih]
    have : ∀ i, vol i * (fac * smoothRhs vol elems q i + 1 * q i) =
        fac * (vol i * smoothRhs vol elems q i) + vol i * q i := fun i => by ring
    simp only [this, Finset.sum_add_distrib, ← Finset.mul_sum]
    rw [smoothRhs_total vol hv]; ring

theorem smoothFlux_affine (e : Scs nn nip nd K) (ip : Fin nip) (hg : GradConst (e.dndx ip)) (a b : K)
    (q : Fin nn → K) : smoothFlux e (fun m => a + b * q m) ip = b * smoothFlux e q ip := by
  unfold smoothFlux
  rw [gradSum, gradSum]
  have : ∀ j, ∑ ic, e.dndx ip ic j * (a + b * q ic) = b * ∑ ic, e.dndx ip ic j * q ic := by
    intro j
    simp only [mul_add, Finset.sum_add_distrib, ← Finset.sum_mul, hg j, zero_mul, zero_add, Finset.mul_sum]
    exact Finset.sum_congr rfl fun _ _ => by ring
  simp only [this]
  rw [mul_neg, Finset.mul_sum]
  congr 1
  exact Finset.sum_congr rfl fun _ _ => by ring

/-- **C105** Smoothing commutes with affine changes of the field; in particular a uniform field is unchanged and swapping
the phases (`α ↦ 1 - α`) swaps the smoothed phases. -/
theorem c105_smoothing_affine [DecidableEq M] (fac : K) (vol : M → K) (elems : List (ElemRec M nd K))
    (hg : ∀ e ∈ elems, ∀ ip, GradConst (e.scs.dndx ip)) (k : ℕ) (a b : K) (q : M → K) (i : M) :
    smoothVof fac vol elems k (fun m => a + b * q m) i = a + b * smoothVof fac vol elems k q i := by
  induction k generalizing q with
  | zero => rfl
  | succ k ih =>
    rw [smoothVof, smoothVof]
    have : (fun i => fac * smoothRhs vol elems (fun m => a + b * q m) i + 1 * (a + b * q i)) =
        fun i => a + b * (fac * smoothRhs vol elems q i + 1 * q i) := by
      funext i
      have h : smoothRhs vol elems (fun m => a + b * q m) i = b * smoothRhs vol elems q i := by
        rw [smoothRhs_eq, smoothRhs_eq, ← List.sum_map_mul_left]
        congr 1
        refine List.map_congr_left fun e he => ?_
        rw [Finset.mul_sum]
        refine Finset.sum_congr rfl fun ip _ => ?_
        rw [smoothFlux_affine e.scs ip (hg e he ip) a b fun m => q (e.node m)]
        split_ifs <;> ring
      rw [h]; ring
    rw [this, ih]

/-- **C105** A uniform volume fraction stays as it is. -/
theorem c105_smoothing_uniform [DecidableEq M] (fac : K) (vol : M → K) (elems : List (ElemRec M nd K))
    (hg : ∀ e ∈ elems, ∀ ip, GradConst (e.scs.dndx ip)) (k : ℕ) (a : K) (i : M) :
    smoothVof fac vol elems k (fun _ => a) i = a := by
  have := c105_smoothing_affine fac vol elems hg k a 0 (fun _ => 0) i
  simpa using this

/-! ## C106 -/

/-- Sum over the sub-control volume points whose nearest node is `i`. -/
def nodeSum [DecidableEq M] (elems : List (ScvRec M nd K)) (i : M) (f : (e : ScvRec M nd K) → Fin e.nip → K) : K :=
  (elems.map fun e => ∑ ip, if i = e.node (e.near ip) then f e ip else 0).sum

theorem nodeSum_fold [DecidableEq M] (elems : List (ScvRec M nd K)) (i : M)
    (f : (e : ScvRec M nd K) → Fin e.nip → K) :
    (elems.foldl (fun r e => loop e.nip (fun ip r => addAt r (e.node (e.near ip)) (f e ip)) r)
      (fun _ => 0)) i = nodeSum elems i f := by
  rw [foldl_meas' (fun r : M → K => r i) _ (fun e => ∑ ip, if i = e.node (e.near ip) then f e ip else 0)]
  · simp [nodeSum]
  · intro e r
    exact loop_meas (fun r : M → K => r i) _ _ (fun ip r => by simp only [addAt_val]) r

theorem nodeSum_congr [DecidableEq M] (elems : List (ScvRec M nd K)) (i : M)
    (f g : (e : ScvRec M nd K) → Fin e.nip → K)
    (h : ∀ e ∈ elems, ∀ ip, i = e.node (e.near ip) → f e ip = g e ip) : nodeSum elems i f = nodeSum elems i g := by
  unfold nodeSum
  congr 1
  refine List.map_congr_left fun e he => Finset.sum_congr rfl fun ip _ => ?_
  split_ifs with hi
  · exact h e he ip hi
  · rfl

theorem nodeSum_le [DecidableEq M] (elems : List (ScvRec M nd K)) (i : M)
    (f g : (e : ScvRec M nd K) → Fin e.nip → K)
    (h : ∀ e ∈ elems, ∀ ip, i = e.node (e.near ip) → f e ip ≤ g e ip) : nodeSum elems i f ≤ nodeSum elems i g := by
  unfold nodeSum
  refine List.sum_le_sum fun e he => Finset.sum_le_sum fun ip _ => ?_
  split_ifs with hi
  · exact h e he ip hi
  · rfl

theorem nodeSum_mul [DecidableEq M] (elems : List (ScvRec M nd K)) (i : M)
    (f : (e : ScvRec M nd K) → Fin e.nip → K) (c : K) :
    nodeSum elems i f * c = nodeSum elems i fun e ip => f e ip * c := by
  unfold nodeSum
  rw [← List.sum_map_mul_right]
  congr 1
  refine List.map_congr_left fun e _ => ?_
  rw [Finset.sum_mul]
  exact Finset.sum_congr rfl fun ip _ => by split_ifs <;> simp

theorem nodeSum_sum [DecidableEq M] {m : ℕ} (elems : List (ScvRec M nd K)) (i : M)
    (f : Fin m → (e : ScvRec M nd K) → Fin e.nip → K) :
    ∑ j, nodeSum elems i (f j) = nodeSum elems i fun e ip => ∑ j, f j e ip := by
  unfold nodeSum
  induction elems with
  | nil => simp
  | cons e l ih =>
    simp only [List.map_cons, List.sum_cons, Finset.sum_add_distrib, ih]
    congr 1
    rw [Finset.sum_comm]
    refine Finset.sum_congr rfl fun ip _ => ?_
    split_ifs <;> simp

/-- The dual volume of node `i`: sum of the sub-control volumes nearest to it. -/
def dualVolume [DecidableEq M] (elems : List (ScvRec M nd K)) (i : M) : K := nodeSum elems i fun e ip => e.vol ip

/-- What is used of the library square root. -/
def IsSqrt (sqrt : K → K) : Prop := ∀ x, 0 < x → 0 < sqrt x ∧ sqrt x * sqrt x = x

example : IsSqrt Real.sqrt := fun _ hx => ⟨Real.sqrt_pos.mpr hx, Real.mul_self_sqrt hx.le⟩

/-- **C106** The interface normal at a node never has magnitude above one. -/
theorem c106_normal_bounded [DecidableEq M] (sqrt : K → K) (hs : IsSqrt sqrt) (small : K) (hsm : 0 < small)
    (vol : M → K) (elems : List (ScvRec M nd K)) (q : M → K) (i : M) (hpos : ∀ e ∈ elems, ∀ ip, 0 ≤ e.vol ip)
    (hv : vol i = dualVolume elems i) (hv0 : 0 < vol i) :
    ∑ j, interfaceNormal sqrt small vol elems q j i * interfaceNormal sqrt small vol elems q j i ≤ 1 := by
  set n : Fin nd → K := fun j => interfaceNormal sqrt small vol elems q j i with hn
  have hN : ∀ j, n j = nodeSum elems i fun e ip => normalTerm sqrt small vol q e ip j := fun j => by
    simp only [hn, interfaceNormal]
    exact nodeSum_fold elems i fun e ip => normalTerm sqrt small vol q e ip j
  have h1 : ∑ j, n j * n j = nodeSum elems i fun e ip => ∑ j, normalTerm sqrt small vol q e ip j * n j := by
    rw [← nodeSum_sum]
    refine Finset.sum_congr rfl fun j _ => ?_
    rw [← nodeSum_mul, ← hN j]
  have h2 : nodeSum elems i (fun e ip => ∑ j, normalTerm sqrt small vol q e ip j * n j) ≤
      nodeSum elems i fun e ip => e.vol ip * ((1 + ∑ j, n j * n j) / 2 / vol i) := by
    refine nodeSum_le _ _ _ _ fun e he ip hi => ?_
    simp only [normalTerm, ← hi]
    have hS : 0 ≤ ∑ k, e.grad q ip k * e.grad q ip k := Finset.sum_nonneg fun k _ => mul_self_nonneg _
    obtain ⟨hr, hrr⟩ := hs (small + ∑ k, e.grad q ip k * e.grad q ip k) (by linarith)
    set r := sqrt (small + ∑ k, e.grad q ip k * e.grad q ip k) with hrdef
    have hunit : ∑ j, e.grad q ip j / r * (e.grad q ip j / r) ≤ 1 := by
      have : ∑ j, e.grad q ip j / r * (e.grad q ip j / r) = (∑ j, e.grad q ip j * e.grad q ip j) / (r * r) := by
        rw [Finset.sum_div]
        exact Finset.sum_congr rfl fun _ _ => by field_simp
      rw [this, hrr, div_le_one (by linarith)]
      linarith
    have hdot : ∑ j, e.grad q ip j / r * n j ≤ (1 + ∑ j, n j * n j) / 2 := by
      have : ∑ j, e.grad q ip j / r * n j ≤ ∑ j, (e.grad q ip j / r * (e.grad q ip j / r) + n j * n j) / 2 :=
        Finset.sum_le_sum fun j _ => by nlinarith [mul_self_nonneg (e.grad q ip j / r - n j)]
      rw [← Finset.sum_div, Finset.sum_add_distrib] at this
      linarith
    have : ∑ j, e.grad q ip j / r * (e.vol ip / vol i) * n j = e.vol ip / vol i * ∑ j, e.grad q ip j / r * n j := by
      rw [Finset.mul_sum]; exact Finset.sum_congr rfl fun _ _ => by ring
    rw [this]
    calc e.vol ip / vol i * ∑ j, e.grad q ip j / r * n j
        ≤ e.vol ip / vol i * ((1 + ∑ j, n j * n j) / 2) :=
          mul_le_mul_of_nonneg_left hdot (div_nonneg (hpos e he ip) hv0.le)
      _ = e.vol ip * ((1 + ∑ j, n j * n j) / 2 / vol i) := by ring
  rw [← nodeSum_mul] at h2
  have h3 : nodeSum elems i (fun e ip => e.vol ip) = vol i := hv.symm
  rw [h3, mul_div_cancel₀ _ hv0.ne', ← h1] at h2
  linarith

/-- **C106** On a planar interface (volume fraction affine in position) the normal is the normalised gradient at every
node. -/
theorem c106_normal_planar [DecidableEq M] (sqrt : K → K) (small : K) (vol : M → K) (elems : List (ScvRec M nd K))
    (x : M → Fin nd → K) (hc : ∀ e ∈ elems, ∀ ip, GradConst (e.dndx ip))
    (hl : ∀ e ∈ elems, ∀ ip, GradLinear (e.dndx ip) fun a => x (e.node a)) (c : K) (w : Fin nd → K) (i : M)
    (hv : vol i = dualVolume elems i) (hv0 : vol i ≠ 0) (j : Fin nd) :
    interfaceNormal sqrt small vol elems (fun m => affine c w (x m)) j i = w j / sqrt (small + ∑ k, w k * w k) := by
  have hg : ∀ e ∈ elems, ∀ ip k, e.grad (fun m => affine c w (x m)) ip k = w k := fun e he ip k =>
    grad_affine (e.dndx ip) (fun a => x (e.node a)) (hc e he ip) (hl e he ip) c w k
  rw [interfaceNormal, nodeSum_fold elems i fun e ip => normalTerm sqrt small vol (fun m => affine c w (x m)) e ip j,
    nodeSum_congr elems i _ (fun e ip => e.vol ip * (w j / sqrt (small + ∑ k, w k * w k) / vol i))]
  · rw [← nodeSum_mul, show nodeSum elems i (fun e ip => e.vol ip) = vol i from hv.symm]
    field_simp
  · intro e he ip hi
    simp only [normalTerm, hg e he, ← hi]
    ring

/-- **C106** Where the volume fraction is uniform there is no normal. -/
theorem c106_normal_uniform [DecidableEq M] (sqrt : K → K) (small : K) (vol : M → K) (elems : List (ScvRec M nd K))
    (hc : ∀ e ∈ elems, ∀ ip, GradConst (e.dndx ip)) (c : K) (i : M) (j : Fin nd) :
    interfaceNormal sqrt small vol elems (fun _ => c) j i = 0 := by
  have hg : ∀ e ∈ elems, ∀ ip k, e.grad (fun _ => c) ip k = 0 := fun e he ip k => by
    simp only [ScvRec.grad, ← Finset.sum_mul, hc e he ip k, zero_mul]
  rw [interfaceNormal, nodeSum_fold elems i fun e ip => normalTerm sqrt small vol (fun _ => c) e ip j,
    nodeSum_congr elems i _ (fun e ip => 0)]
  · simp [nodeSum]
  · intro e he ip _
    simp [normalTerm, hg e he]

/-- **C106** Swapping the phases reverses the normal. -/
theorem c106_normal_phase_swap [DecidableEq M] (sqrt : K → K) (small : K) (vol : M → K) (elems : List (ScvRec M nd K))
    (hc : ∀ e ∈ elems, ∀ ip, GradConst (e.dndx ip)) (q : M → K) (i : M) (j : Fin nd) :
    interfaceNormal sqrt small vol elems (fun m => 1 - q m) j i = -interfaceNormal sqrt small vol elems q j i := by
  have hg : ∀ e ∈ elems, ∀ ip k, e.grad (fun m => 1 - q m) ip k = -e.grad q ip k := fun e he ip k => by
    simp only [ScvRec.grad, mul_sub, mul_one, Finset.sum_sub_distrib, hc e he ip k, zero_sub]
  rw [interfaceNormal, interfaceNormal,
    nodeSum_fold elems i fun e ip => normalTerm sqrt small vol (fun m => 1 - q m) e ip j,
    nodeSum_fold elems i fun e ip => normalTerm sqrt small vol q e ip j, neg_eq_neg_one_mul, mul_comm, nodeSum_mul]
  refine nodeSum_congr _ _ _ _ fun e he ip _ => ?_
  simp only [normalTerm, hg e he, neg_mul_neg]
  ring

/-- **C106** The curvature is minus the divergence: for a normal field affine in position, `n = b + A x`, it is minus the
trace of `A` at every node; in particular a planar interface has curvature zero. -/
theorem c106_curvature_affine [DecidableEq M] (vol : M → K) (elems : List (ScvRec M nd K))
    (x : M → Fin nd → K) (hc : ∀ e ∈ elems, ∀ ip, GradConst (e.dndx ip))
    (hl : ∀ e ∈ elems, ∀ ip, GradLinear (e.dndx ip) fun a => x (e.node a)) (b : Fin nd → K) (A : Fin nd → Fin nd → K)
    (i : M) (hv : vol i = dualVolume elems i) (hv0 : vol i ≠ 0) :
    interfaceCurvature vol elems (fun m j => affine (b j) (A j) (x m)) i = -∑ j, A j j := by
  rw [interfaceCurvature, nodeSum_fold elems i (fun e ip => -(∑ ic, ∑ j, e.dndx ip ic j *
      affine (b j) (A j) (x (e.node ic))) * e.vol ip / vol (e.node (e.near ip))),
    nodeSum_congr elems i _ (fun e ip => e.vol ip * (-(∑ j, A j j) / vol i))]
  · rw [← nodeSum_mul, show nodeSum elems i (fun e ip => e.vol ip) = vol i from hv.symm]
    field_simp
  · intro e he ip hi
    have : ∑ ic, ∑ j, e.dndx ip ic j * affine (b j) (A j) (x (e.node ic)) = ∑ j, A j j := by
      rw [Finset.sum_comm]
      exact Finset.sum_congr rfl fun j _ =>
        grad_affine (e.dndx ip) (fun a => x (e.node a)) (hc e he ip) (hl e he ip) (b j) (A j) j
    rw [this, ← hi]; ring

/-- **C106** Normal and curvature together: a planar interface has zero curvature at every node. -/
theorem c106_planar_curvature [DecidableEq M] (sqrt : K → K) (small : K) (vol : M → K) (elems : List (ScvRec M nd K))
    (x : M → Fin nd → K) (hc : ∀ e ∈ elems, ∀ ip, GradConst (e.dndx ip))
    (hl : ∀ e ∈ elems, ∀ ip, GradLinear (e.dndx ip) fun a => x (e.node a)) (c : K) (w : Fin nd → K)
    (hv : ∀ i, vol i = dualVolume elems i) (hv0 : ∀ i, vol i ≠ 0) (i : M) :
    interfaceCurvature vol elems
      (fun m j => interfaceNormal sqrt small vol elems (fun m => affine c w (x m)) j m) i = 0 := by
  have h : (fun m j => interfaceNormal sqrt small vol elems (fun m => affine c w (x m)) j m) =
      fun m j => affine (w j / sqrt (small + ∑ k, w k * w k)) (fun _ => 0) (x m) := by
    funext m j
    rw [c106_normal_planar sqrt small vol elems x hc hl c w m (hv m) (hv0 m) j]
    simp [affine]
  rw [h, c106_curvature_affine vol elems x hc hl _ (fun _ _ => 0) i (hv i) (hv0 i)]
  simp

/-- **C106** Swapping the phases (reversing the normal) reverses the curvature. -/
theorem c106_curvature_odd [DecidableEq M] (vol : M → K) (elems : List (ScvRec M nd K)) (n : M → Fin nd → K) (i : M) :
    interfaceCurvature vol elems (fun m j => -n m j) i = -interfaceCurvature vol elems n i := by
  rw [interfaceCurvature, interfaceCurvature,
    nodeSum_fold elems i (fun e ip => -(∑ ic, ∑ j, e.dndx ip ic j * -n (e.node ic) j) * e.vol ip /
      vol (e.node (e.near ip))),
    nodeSum_fold elems i (fun e ip => -(∑ ic, ∑ j, e.dndx ip ic j * n (e.node ic) j) * e.vol ip /
      vol (e.node (e.near ip))), neg_eq_neg_one_mul, mul_comm, nodeSum_mul]
  refine nodeSum_congr _ _ _ _ fun e _ ip _ => ?_
  simp only [mul_neg, Finset.sum_neg_distrib]
  ring

end Nalu.Vof
