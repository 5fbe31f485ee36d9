import Verif.Model.ElemKernel
import Verif.Model.Mms

/-!
# Element source terms and the hybrid turbulence stress

Models `kernel/MomentumHybridTurbElemKernel.C`, `kernel/MomentumBodyForceElemKernel.C`, `kernel/VolumetricSrcElemKernel.C`,
`kernel/MomentumContinuityElemKernel.C`, the element forms of the variable density sources
(`user_functions/VariableDensity{Continuity,MixFrac,Momentum}SrcElemSuppAlg.C`) and, for comparison, what the nodal forms add.
The arrays `lhs`, `rhs` are indexed by (node, component) as in `Verif.Model.ElemKernel`.
-/

namespace Nalu.ElemSource
open Nalu.Edge Nalu.Kernel Nalu.Mms Verif.Pde

variable {K : Type*} [Field K] [LinearOrder K] [IsStrictOrderedRing K]
variable {nn nip nd : ℕ}

/-- `MomentumHybridTurbElemKernel::execute` (kernel/MomentumHybridTurbElemKernel.C:77-195). -/
def hybridTurb (e : Scs nn nip nd K) (rho tke alpha : Fin nn → K) (mt : Fin nn → Fin nd → Fin nd → K) (u : Fin nn → Fin nd → K)
    (s : LocalSys (Fin nn × Fin nd) K) : LocalSys (Fin nn × Fin nd) K :=
  loop nip (fun ip s =>
    let il := e.il ip
    let ir := e.ir ip
    let mutScs := fun i j : Fin nd => interp (e.shape ip) fun ic => mt ic i j
    let rhoScs := interp (e.shape ip) rho
    let tkeScs := interp (e.shape ip) tke
    let alphaScs := interp (e.shape ip) alpha
    loop nn (fun ic s =>
      loop nd (fun i s =>
        let twoThirdRhoTke := 2 / 3 * alphaScs * rhoScs * tkeScs * e.area ip i
        let lhs_riC_i := ∑ j, (∑ k, -mutScs j k * e.dndx ip ic k * e.area ip j) * alphaScs
        let s := loop nd (fun j s =>
          let f := (∑ k, -mutScs i k * e.dndx ip ic k * e.area ip j) * alphaScs
          let s := addL (addL s (il, i) (ic, j) f) (ir, i) (ic, j) (-f)
          addR (addR s (il, i) (-(f * u ic j))) (ir, i) (f * u ic j)) s
        let s := addL (addL s (il, i) (ic, i) lhs_riC_i) (ir, i) (ic, i) (-lhs_riC_i)
        addR (addR s (il, i) (-(lhs_riC_i * u ic i + twoThirdRhoTke))) (ir, i) (lhs_riC_i * u ic i + twoThirdRhoTke)) s) s) s

/-- Constructor of the body force kernel (kernel/MomentumBodyForceElemKernel.C:41-53): the parameters of `momentum`; a missing entry is the error,
reading beyond the vector is `none` (undefined). -/
def bodyForceParams (nd : ℕ) (params : Option (List K)) : Except String (Option (Fin nd → K)) :=
  match params with
  | none => .error "MomentumBodyForceElemKernel is missing body force specification"
  | some bf => .ok (if nd ≤ bf.length then some fun k => bf.getD k 0 else none)

/-- `MomentumBodyForceElemKernel::execute` (kernel/MomentumBodyForceElemKernel.C:70-88). -/
def bodyForce (e : Scv nn nip K) (f : Fin nd → K) (s : LocalSys (Fin nn × Fin nd) K) : LocalSys (Fin nn × Fin nd) K :=
  loop nip (fun ip s => loop nd (fun i s => addR s (e.node ip, i) (e.vol ip * f i)) s) s

/-- `VolumetricSrcElemKernel::execute` (kernel/VolumetricSrcElemKernel.C:54-70). -/
def volumetric (e : Scv nn nip K) (src : K) (s : LocalSys (Fin nn) K) : LocalSys (Fin nn) K :=
  loop nip (fun ip s => addR s (e.node ip) (src * e.vol ip)) s

/-- `scvCoords_` (user_functions/VariableDensityContinuitySrcElemSuppAlg.C:131-141); the fourth coordinate, the time, is not used. -/
noncomputable def scvPoint (e : Scv nn nip ℝ) (x : Fin nn → Fin 3 → ℝ) (ip : Fin nip) : Pt :=
  ![∑ ic, e.shape ip ic * x ic 0, ∑ ic, e.shape ip ic * x ic 1, ∑ ic, e.shape ip ic * x ic 2, 0]

/-- `elem_execute` of the scalar sources (user_functions/VariableDensityContinuitySrcElemSuppAlg.C:124-148,
user_functions/VariableDensityMixFracSrcElemSuppAlg.C:127-151); `w` is the divisor (`projTimeScale_`, one for the mixture fraction). -/
noncomputable def srcElem (src : Pt → ℝ) (w : ℝ) (e : Scv nn nip ℝ) (x : Fin nn → Fin 3 → ℝ) (s : LocalSys (Fin nn) ℝ) : LocalSys (Fin nn) ℝ :=
  loop nip (fun ip s => addR s (e.node ip) (src (scvPoint e x ip) * e.vol ip / w)) s

/-- `elem_execute` of the momentum source (user_functions/VariableDensityMomentumSrcElemSuppAlg.C:135-172). -/
noncomputable def srcElemV (src : Fin 3 → Pt → ℝ) (e : Scv nn nip ℝ) (x : Fin nn → Fin 3 → ℝ) (s : LocalSys (Fin nn × Fin 3) ℝ) :
    LocalSys (Fin nn × Fin 3) ℝ :=
  loop nip (fun ip s => loop 3 (fun i s => addR s (e.node ip, i) (src i (scvPoint e x ip) * e.vol ip)) s) s

/-- What the nodal forms add (user_functions/VariableDensityContinuitySrcNodeSuppAlg.C:75-81, VariableDensityMixFracSrcNodeSuppAlg.C:77-83,
VariableDensityMomentumSrcNodeSuppAlg.C:88-103). -/
noncomputable def srcNode (src : Pt → ℝ) (w : ℝ) (x : Fin 3 → ℝ) (dualVolume rhs : ℝ) : ℝ := rhs + src ![x 0, x 1, x 2, 0] * dualVolume / w

/-- The three momentum sources. -/
noncomputable def vdMomentumSrc (P : VD) : Fin 3 → Pt → ℝ := ![vdMomentumSrc0 P, vdMomentumSrc1 P, vdMomentumSrc2 P]

/-- An element of a mesh: its nodes in the global numbering and its sub-control volumes. -/
structure MElem (K : Type*) where
  nn : ℕ
  nip : ℕ
  conn : Fin nn → ℕ
  scv : Scv nn nip K

/-- Assembled dual volume of a node (ComputeGeometryInteriorAlgorithm.C:110-120, summed over the ranks). -/
def dualVol (es : List (MElem K)) (N : ℕ) : K := (es.map fun e => ∑ ip, if e.conn (e.scv.node ip) = N then e.scv.vol ip else 0).sum

/-- Assembly of the local right-hand sides (`sumInto`): every element starts from zeroed arrays. -/
def assemble (es : List (MElem K)) (local' : (e : MElem K) → Fin e.nn → K) (N : ℕ) : K :=
  (es.map fun e => ∑ a, if e.conn a = N then local' e a else 0).sum

/-- The zeroed local arrays. -/
def zeroSys {ι : Type*} : LocalSys ι K := ⟨fun _ _ => 0, fun _ => 0⟩

/-- The monolithic kernel (kernel/MomentumContinuityElemKernel.C:104-137): construction refuses three options, execution always ends in an error. -/
def monolithicKernel (skewSymmetric shiftedGradOpU shiftedGradOpP : Bool) : Except String (LocalSys (Fin nn) K → Except String (LocalSys (Fin nn) K)) :=
  if skewSymmetric || shiftedGradOpU || shiftedGradOpP then
    .error "MomentumContinuityElemKernel::error: skewSymmetric || shiftedGradOpU || shiftedGradOpP"
  else .ok fun _ => .error "MomentumContinuityElemKernel::execute() Error: Not implemented!"

end Nalu.ElemSource
