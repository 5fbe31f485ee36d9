import Verif.Proofs.LegacyElem
import Verif.Props.ElemKernel
import Mathlib.Tactic.NormNum
import Mathlib.Tactic.FinCases
import Mathlib.Logic.Equiv.Fin.Basic
import Mathlib.Data.Rat.Defs

/-!
# C207, C208: the element solver algorithms with flat arrays do what the kernels do
-/

set_option linter.unusedSectionVars false

namespace Nalu.Legacy
open Nalu.Edge Nalu.Kernel

variable {K : Type*} [Field K] [LinearOrder K] [IsStrictOrderedRing K]
variable {nn nf nip nd : ℕ}

/-! ## The layouts are satisfiable -/

/-- Every element has flat arrays that hold it. -/
theorem exists_holds (e : Scs nn nip nd K) : ∃ w : ScsWs K, w.Holds e := by
  refine ⟨{ shape := gather2 nip nn e.shape 0, adv := gather2 nip nn e.adv 0
            dndx := gather2 nip (nn * nd) (fun ip k => e.dndx ip (finProdFinEquiv.symm k).1 (finProdFinEquiv.symm k).2) 0
            areav := gather2 nip nd e.area 0
            lrscv := fun p => if h : p / 2 < nip then (if p % 2 = 0 then e.il ⟨p / 2, h⟩ else e.ir ⟨p / 2, h⟩) else 0 },
    fun ip ic => gather2_get .., fun ip ic => gather2_get .., fun ip ic j => ?_, fun ip j => gather2_get .., fun ip => ?_, fun ip => ?_⟩
  · have := gather2_get (fun (ip : Fin nip) (k : Fin (nn * nd)) => e.dndx ip (finProdFinEquiv.symm k).1 (finProdFinEquiv.symm k).2) 0 ip
      (finProdFinEquiv (ic, j))
    rw [Equiv.symm_apply_apply] at this
    rw [← this]
    congr 1
    simp only [finProdFinEquiv_apply_val]; ring
  · have h : 2 * (ip : ℕ) / 2 = ip := by omega
    simp [h]
  · have h : (2 * (ip : ℕ) + 1) / 2 = ip := by omega
    simp [h]

/-! ## C207: interior algorithms -/

/-- **C207** Diffusion. -/
theorem c207_scalarDiff {w : ScsWs K} {e : Scs nn nip nd K} (hw : w.Holds e) (mu q : Fin nn → K) (a b : ℕ → K) (s0 : Flat K) :
    AgreesS s0 (scalarDiff nn nip nd w (gather1 nn mu a) (gather1 nn q b) (s0.zeroed (nn * nn) nn)) (Kernel.scalarDiff e mu q zeroSys) :=
  (scalarDiff_rel hw mu q a b (Rel.zero encS s0)).agreesS

/-- **C207** Scalar advection-diffusion with upwinding, limiter and Peclet blending. -/
theorem c207_scalarElem (o : Opts K) {w : ScsWs K} {e : Scs nn nip nd K} (hw : w.Holds e) (mdot : ℕ → K) (v : UpwNodes nn nd K)
    (q : Fin nn → K) (G : Fin nn → Fin nd → K) (a : Fin 6 → ℕ → K) (s0 : Flat K) :
    AgreesS s0
      (scalarElem nn nip nd o w mdot ⟨gather2 nn nd v.x (a 0), gather2 nn nd v.vrtm (a 1), gather1 nn v.rho (a 2), gather1 nn v.mu (a 3)⟩
        (gather1 nn q (a 4)) (gather2 nn nd G (a 5)) (s0.zeroed (nn * nn) nn))
      (Kernel.scalarUpw o e (fun ip => mdot ip) v q G zeroSys) :=
  (scalarElem_rel o hw mdot v q G a (Rel.zero encS s0)).agreesS

/-- **C207** Momentum. -/
theorem c207_momentumElem (o : Opts K) (inc : K) {w : ScsWs K} {e : Scs nn nip nd K} (hw : w.Holds e) (mdot : ℕ → K) (v : UpwNodes nn nd K)
    (u : Fin nn → Fin nd → K) (G : Fin nn → Fin nd → Fin nd → K) (a : Fin 6 → ℕ → K) (s0 : Flat K) :
    AgreesV s0
      (momentumElem nn nip nd o inc w mdot ⟨gather2 nn nd v.x (a 0), gather2 nn nd v.vrtm (a 1), gather1 nn v.rho (a 2), gather1 nn v.mu (a 3)⟩
        (gather2 nn nd u (a 4)) (gather3 nn nd G (a 5)) (s0.zeroed (nn * nd * (nn * nd)) (nn * nd)))
      (Kernel.momentumUpw o inc e (fun ip => mdot ip) v u G zeroSys) :=
  (momentumElem_rel o inc hw mdot v u G a (Rel.zero encV s0)).agreesV

/-- **C207** Continuity: with `shiftPoisson` residual and matrix use the shifted gradient, with `reducedSensitivities` alone only the matrix does. -/
theorem c207_continuityElem (pts : K) (sp red : Bool) {w : ScsWs K} {e : Scs nn nip nd K} (hw : w.Holds e)
    (S : ℕ → K) (dS : Fin nip → Fin nn → Fin nd → K) (hS : ∀ ip ic j, S (nd * nn * (ip : Fin nip) + (ic : Fin nn) * nd + (j : Fin nd)) = dS ip ic j)
    (v : FlowNodes nn nd K) (a : Fin 4 → ℕ → K) (s0 : Flat K) :
    AgreesS s0
      (continuityElem nn nip nd pts sp red w S
        ⟨gather1 nn v.rho (a 0), gather2 nn nd v.vrtm (a 1), gather1 nn v.p (a 2), gather2 nn nd v.Gp (a 3)⟩ (s0.zeroed (nn * nn) nn))
      (Kernel.continuityAdv pts { e with dndx := if sp then dS else e.dndx } (if sp || red then dS else e.dndx) v zeroSys) :=
  (continuityElem_rel pts sp red hw S dS hS v a (Rel.zero encS s0)).agreesS

/-- **C207** So the flat arrays inherit what C83 says about the kernel: residual and every matrix column of the scalar algorithm sum to zero over the
nodes of the element. -/
theorem c207_scalarElem_conserves (o : Opts K) {w : ScsWs K} {e : Scs nn nip nd K} (hw : w.Holds e) (mdot : ℕ → K) (v : UpwNodes nn nd K)
    (q : Fin nn → K) (G : Fin nn → Fin nd → K) (a : Fin 6 → ℕ → K) (s0 : Flat K) :
    let out := scalarElem nn nip nd o w mdot
      ⟨gather2 nn nd v.x (a 0), gather2 nn nd v.vrtm (a 1), gather1 nn v.rho (a 2), gather1 nn v.mu (a 3)⟩
      (gather1 nn q (a 4)) (gather2 nn nd G (a 5)) (s0.zeroed (nn * nn) nn)
    ∑ r : Fin nn, out.rhs r = 0 ∧ ∀ c : Fin nn, ∑ r : Fin nn, out.lhs (r * nn + c) = 0 := by
  obtain ⟨h1, h2, -, -⟩ := c207_scalarElem o hw mdot v q G a s0
  have h := c83_scalarUpw o e (fun ip : Fin nip => mdot ip) v q G zeroSys
  refine ⟨?_, fun c => ?_⟩
  · rw [Finset.sum_congr rfl fun r _ => h2 r, h.1]; simp [zeroSys]
  · rw [Finset.sum_congr rfl fun r _ => h1 r c, h.2 c]; simp [zeroSys]

/-- **C207** The same for momentum, component by component: row `r*nDim + i`, every column. -/
theorem c207_momentumElem_conserves (o : Opts K) (inc : K) {w : ScsWs K} {e : Scs nn nip nd K} (hw : w.Holds e) (mdot : ℕ → K)
    (v : UpwNodes nn nd K) (u : Fin nn → Fin nd → K) (G : Fin nn → Fin nd → Fin nd → K) (a : Fin 6 → ℕ → K) (s0 : Flat K) :
    let out := momentumElem nn nip nd o inc w mdot
      ⟨gather2 nn nd v.x (a 0), gather2 nn nd v.vrtm (a 1), gather1 nn v.rho (a 2), gather1 nn v.mu (a 3)⟩
      (gather2 nn nd u (a 4)) (gather3 nn nd G (a 5)) (s0.zeroed (nn * nd * (nn * nd)) (nn * nd))
    ∀ i : Fin nd, ∑ r : Fin nn, out.rhs (r * nd + i) = 0 ∧
      ∀ (c : Fin nn) (j : Fin nd), ∑ r : Fin nn, out.lhs ((r * nd + i) * (nn * nd) + (c * nd + j)) = 0 := by
  obtain ⟨h1, h2, -, -⟩ := c207_momentumElem o inc hw mdot v u G a s0
  intro out i
  have h := c83_momentumUpw o inc e (fun ip : Fin nip => mdot ip) v u G zeroSys i
  refine ⟨?_, fun c j => ?_⟩
  · rw [Finset.sum_congr rfl fun r _ => h2 r i, h.1]; simp [zeroSys]
  · rw [Finset.sum_congr rfl fun r _ => h1 r i c j, h.2 (c, j)]; simp [zeroSys]

/-- A bar of length 2 and unit section: two nodes, one integration point. -/
def bar : ScsWs ℚ where
  shape := fun _ => 1 / 2
  adv := fun _ => 1 / 2
  dndx := fun p => if p = 0 then -1 / 2 else 1 / 2
  areav := fun _ => 1
  lrscv := fun p => p

/-- The same as an element. -/
def barE : Scs 2 1 1 ℚ where
  shape := fun _ _ => 1 / 2
  adv := fun _ _ => 1 / 2
  dndx := fun _ ic _ => if ic = 0 then -1 / 2 else 1 / 2
  area := fun _ _ => 1
  il := fun _ => 0
  ir := fun _ => 1

theorem bar_holds : bar.Holds barE where
  shape _ _ := rfl
  adv _ _ := rfl
  dndx ip ic j := by fin_cases ip; fin_cases ic <;> fin_cases j <;> simp [bar, barE]
  areav _ _ := rfl
  il ip := by fin_cases ip; rfl
  ir ip := by fin_cases ip; rfl

/-- The hypotheses are met: the bar with coefficient 4 and end values 1 and 3 in arrays full of old values; the flux is `-4*(3-1)/2`. -/
example :
    let out := scalarDiff 2 1 1 bar (gather1 2 (fun _ => 4) fun _ => 77) (gather1 2 (fun k => if k = 0 then 1 else 3) fun _ => 77)
      (Flat.zeroed ⟨fun _ => 9, fun _ => 9⟩ (2 * 2) 2)
    out.lhs 0 = 2 ∧ out.lhs 1 = -2 ∧ out.lhs 2 = -2 ∧ out.lhs 3 = 2 ∧ out.lhs 4 = 9 ∧ out.rhs 0 = 4 ∧ out.rhs 1 = -4 := by
  decide +kernel

/-! ## C208: boundary algorithms -/

/-- **C208** Prescribed inflow. -/
theorem c208_inflow (pts : K) {w : FaceWs K} {f : Face nn nf nip nd K} (hw : w.Holds f) (rho : Fin nn → K) (ubc : Fin nn → Fin nd → K)
    (a b : ℕ → K) (s0 : Flat K) :
    AgreesS s0
      (continuityInflow nf nip nd pts w (gather1 nf (fun ic => rho (f.node ic)) a) (gather2 nf nd (fun ic => ubc (f.node ic)) b)
        (s0.zeroed (nf * nf) nf))
      (Kernel.continuityInflowElem pts f rho ubc zeroSys) :=
  (continuityInflow_rel pts hw rho ubc a b (Rel.zero encS s0)).agreesS

/-- **C208** Pressure at an open boundary. -/
theorem c208_continuityOpen (pts pen : K) (sp red : Bool) {w : FaceWs K} {f : Face nn nf nip nd K} (hw : w.Holds f)
    (S : ℕ → K) (dS : Fin nip → Fin nn → Fin nd → K) (hS : ∀ ip ic j, S (nd * nn * (ip : Fin nip) + (ic : Fin nn) * nd + (j : Fin nd)) = dS ip ic j)
    (v : FlowNodes nn nd K) (pbc : Fin nn → K) (dynP : ℕ → K) (a : Fin 5 → ℕ → K) (s0 : Flat K) :
    AgreesS s0
      (continuityOpen nn nf nip nd pts pen sp red w S
        ⟨gather1 nf (fun ic => v.rho (f.node ic)) (a 0), gather2 nf nd (fun ic => v.vrtm (f.node ic)) (a 1), gather1 nn v.p (a 2),
          gather2 nf nd (fun ic => v.Gp (f.node ic)) (a 3)⟩ (gather1 nf (fun ic => pbc (f.node ic)) (a 4)) dynP (s0.zeroed (nn * nn) nn))
      (Kernel.continuityOpenElem pts pen { f with dndx := if sp then dS else f.dndx } (if sp || red then dS else f.dndx) v pbc
        (fun ip => dynP ip) zeroSys) :=
  (continuityOpen_rel pts pen sp red hw S dS hS v pbc dynP a (Rel.zero encS s0)).agreesS

/-- **C208** Scalars at an open boundary.  The algorithm reads value and gradient at the nearest node of the element, the kernel at the node of the face
that carries the point; the two are the same when the master elements of face and element agree (`hloc`). -/
theorem c208_scalarOpen (o : Opts K) {w : FaceWs K} {f : Face nn nf nip nd K} (hw : w.Holds f) (hloc : ∀ ip, f.node (f.loc ip) = f.near ip)
    (oppN nearN : ℕ → Fin nn) (ho : ∀ ip : Fin nip, (oppN ip : ℕ) = w.opp ip) (hn : ∀ ip : Fin nip, (nearN ip : ℕ) = w.near ip) (mdot : ℕ → K)
    (v : UpwNodes nn nd K) (q qbc : Fin nn → K) (G : Fin nn → Fin nd → K) (a : Fin 3 → ℕ → K) (s0 : Flat K) :
    AgreesS s0
      (scalarOpen nf nip nd o w mdot (gather1 nf (fun ic => q (f.node ic)) (a 0)) (gather1 nf (fun ic => qbc (f.node ic)) (a 1))
        (gather2 nf nd (fun ic => v.x (f.node ic)) (a 2)) v q G oppN nearN (s0.zeroed (nn * nn) nn))
      (Kernel.scalarOpenElem o f (fun ip => mdot ip) v q qbc G zeroSys) :=
  (scalarOpen_rel o hw hloc oppN nearN (fun ip => Fin.ext ((ho ip).trans (hw.opp ip))) (fun ip => Fin.ext ((hn ip).trans (hw.near ip)))
    mdot v q qbc G a (Rel.zero encS s0)).agreesS

/-- **C208** Momentum at an open boundary. -/
theorem c208_momentumOpen (o : Opts K) {w : FaceWs K} {f : Face nn nf nip nd K} (hw : w.Holds f)
    (oppN nearN : ℕ → Fin nn) (ho : ∀ ip : Fin nip, (oppN ip : ℕ) = w.opp ip) (hn : ∀ ip : Fin nip, (nearN ip : ℕ) = w.near ip) (mdot : ℕ → K)
    (v : UpwNodes nn nd K) (m : OpenMom nn nd K) (a : Fin 7 → ℕ → K) (s0 : Flat K) :
    AgreesV s0
      (momentumOpen nf nip nd o m.incDivU m.meshCorr w mdot (gather1 nf (fun ic => v.rho (f.node ic)) (a 0))
        (gather1 nf (fun ic => v.mu (f.node ic)) (a 1)) (gather2 nf nd (fun ic => m.ubc (f.node ic)) (a 2))
        (gather2 nf nd (fun ic => m.vmesh (f.node ic)) (a 3)) (gather3 nf nd (fun ic => m.G (f.node ic)) (a 4)) (gather2 nn nd m.u (a 5))
        (gather2 nn nd v.x (a 6)) v m.u oppN nearN (s0.zeroed (nn * nd * (nn * nd)) (nn * nd)))
      (Kernel.momentumOpenElem o f (fun ip => mdot ip) v m zeroSys) :=
  (momentumOpen_rel o hw oppN nearN (fun ip => Fin.ext ((ho ip).trans (hw.opp ip))) (fun ip => Fin.ext ((hn ip).trans (hw.near ip)))
    mdot v m a (Rel.zero encV s0)).agreesV

/-- **C208** Momentum at a symmetry plane. -/
theorem c208_symmetry (inc : K) {w : FaceWs K} {f : Face nn nf nip nd K} (hw : w.Holds f) (mu : Fin nn → K)
    (u : Fin nn → Fin nd → K) (a b : ℕ → K) (s0 : Flat K) :
    AgreesV s0
      (momentumSymmetry nn nf nip nd inc w (gather1 nf (fun ic => mu (f.node ic)) a) (gather2 nn nd u b)
        (s0.zeroed (nn * nd * (nn * nd)) (nn * nd)))
      (Bc.symmetryElem inc f mu u zeroSys) :=
  (momentumSymmetry_rel inc hw mu u a b (Rel.zero encV s0)).agreesV

/-- The end of the bar as a face with one node. -/
def barFace : FaceWs ℚ where
  shape := fun _ => 1
  adv := fun _ => 1
  areav := fun _ => 1
  amag := fun _ => 1
  dndx := fun p => if p = 0 then -1 / 2 else 1 / 2
  ord := fun _ => 1
  near := fun _ => 1
  opp := fun _ => 0
  loc := fun _ => 0

/-- The same as a face of the element. -/
def barFaceE : Face 2 1 1 1 ℚ where
  shape := fun _ _ => 1
  adv := fun _ _ => 1
  area := fun _ _ => 1
  aMag := fun _ => 1
  dndx := fun _ ic _ => if ic = 0 then -1 / 2 else 1 / 2
  node := fun _ => 1
  near := fun _ => 1
  opp := fun _ => 0
  loc := fun _ => 0

/-- The hypotheses are met by the end of the bar. -/
theorem barFace_holds : barFace.Holds barFaceE ∧ ∀ ip, barFaceE.node (barFaceE.loc ip) = barFaceE.near ip := by
  refine ⟨⟨fun _ _ => rfl, fun _ _ => rfl, fun ip ic j => ?_, fun _ _ => rfl, fun _ => rfl, fun _ => rfl, fun _ => rfl, fun _ => rfl, fun _ => rfl⟩,
    fun _ => rfl⟩
  fin_cases ip; fin_cases ic <;> fin_cases j <;> simp [barFace, barFaceE]

/-- Inflow of density 2 and velocity -3 through the end of the bar, `projTimeScale` 1/2. -/
example :
    let out := continuityInflow 1 1 1 (1 / 2 : ℚ) barFace (gather1 1 (fun _ => 2) fun _ => 77) (gather2 1 1 (fun _ _ => -3) fun _ => 77)
      (Flat.zeroed ⟨fun _ => 9, fun _ => 9⟩ (1 * 1) 1)
    out.lhs 0 = 0 ∧ out.rhs 0 = 12 ∧ out.rhs 1 = 9 := by
  decide +kernel

end Nalu.Legacy
