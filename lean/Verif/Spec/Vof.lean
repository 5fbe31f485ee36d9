import Verif.Model.Vof
import Verif.Spec.ElemKernel

/-!
# What is claimed about the balanced-force two-phase solver

The specification mentions only the force density of the continuous equations, evaluated with the interpolation and
gradient operator of an integration point, and sums of what crosses the surfaces of a control volume.
-/

namespace Nalu.Vof
open Nalu.Edge Nalu.Kernel
open Nalu.NC (VofOpts)

variable {K : Type*} [Field K] [LinearOrder K] [IsStrictOrderedRing K]
variable {nn nip nf nd : ℕ} {M : Type*}

/-- The unbalanced force per unit volume at an integration point, component `j`: pressure gradient minus weight minus
surface tension `σκ·loc(α)·∇α`. -/
def imbalance (vo : VofOpts nd K) (rho sk alpha : K) (gradP gradA : Fin nd → K) (j : Fin nd) : K :=
  gradP j - vo.buoy * rho * vo.gravity j - sk * vo.loc alpha * gradA j

/-- The same at an interior point of an element, from mesh fields. -/
def elemImbalance (vo : VofOpts nd K) (F : VofFields M nd K) (p : M → K) (e : ElemRec M nd K) (ip : Fin e.nipS)
    (j : Fin nd) : K :=
  imbalance vo (∑ ic, e.scs.shape ip ic * F.rho (e.node ic))
    (∑ ic, e.scs.shape ip ic * F.sigma (e.node ic) * F.kappa (e.node ic))
    (∑ ic, e.scs.shape ip ic * F.vof (e.node ic))
    (fun j => ∑ ic, e.scs.dndx ip ic j * p (e.node ic)) (fun j => ∑ ic, e.scs.dndx ip ic j * F.vof (e.node ic)) j

/-- and at a point of a boundary face, interpolating from the nodes of the face. -/
def faceImbalance (vo : VofOpts nd K) (F : VofFields M nd K) (p : M → K) (f : FaceRec M nd K) (ip : Fin f.nip)
    (j : Fin nd) : K :=
  imbalance vo (∑ ic, f.face.shape ip ic * F.rho (f.node (f.face.node ic)))
    (∑ ic, f.face.shape ip ic * F.sigma (f.node (f.face.node ic)) * F.kappa (f.node (f.face.node ic)))
    (∑ ic, f.face.shape ip ic * F.vof (f.node (f.face.node ic)))
    (fun j => ∑ ic, f.face.dndx ip ic j * p (f.node ic)) (fun j => ∑ ic, f.face.dndx ip ic j * F.vof (f.node ic)) j

/-- Density at an interior point / at a boundary point. -/
def elemRho (F : VofFields M nd K) (e : ElemRec M nd K) (ip : Fin e.nipS) : K :=
  ∑ ic, e.scs.shape ip ic * F.rho (e.node ic)
@[inherit_doc elemRho]
def faceRho (F : VofFields M nd K) (f : FaceRec M nd K) (ip : Fin f.nip) : K :=
  ∑ ic, f.face.shape ip ic * F.rho (f.node (f.face.node ic))

/-- The whole state is in uniform acceleration `c` (with `c = 0`: in equilibrium): at every integration point the
unbalanced force density is `c` times a non-zero density; on faces whose pressure is overridden the boundary
pressure is the pressure. -/
structure Accelerating (vo : VofOpts nd K) (F : VofFields M nd K) (p : M → K) (elems : List (ElemRec M nd K))
    (bnd : List (Bool × FaceRec M nd K)) (c : Fin nd → K) : Prop where
  rhoE : ∀ e ∈ elems, ∀ ip, elemRho F e ip ≠ 0
  rhoF : ∀ f ∈ bnd, ∀ ip, faceRho F f.2 ip ≠ 0
  elem : ∀ e ∈ elems, ∀ ip j, elemImbalance vo F p e ip j = c j * elemRho F e ip
  face : ∀ f ∈ bnd, ∀ ip j, faceImbalance vo F p f.2 ip j = c j * faceRho F f.2 ip
  pbc : ∀ f ∈ bnd, f.1 = true → ∀ ic, F.pbc (f.2.node (f.2.face.node ic)) = p (f.2.node (f.2.face.node ic))

/-- Total area of the surfaces around node `i` projected on direction `j`. -/
def touching [DecidableEq M] (elems : List (ElemRec M nd K)) (bnd : List (Bool × FaceRec M nd K)) (i : M)
    (j : Fin nd) : K :=
  (elems.map fun e => ∑ ip, ((if i = e.node (e.scs.il ip) then |e.scs.area ip j| else 0) +
    if i = e.node (e.scs.ir ip) then |e.scs.area ip j| else 0)).sum +
  (bnd.map fun f => ∑ ip, if i = f.2.node (f.2.face.node (f.2.face.loc ip)) then |f.2.face.area ip j| else 0).sum

/-- What the volume flow rates take out of mesh node `i`. -/
def volumeBalance [DecidableEq M] (elems : List (ElemRec M nd K)) (opens inflows : List (FaceRec M nd K))
    (vE : (e : ElemRec M nd K) → Fin e.nipS → K) (vO vI : (f : FaceRec M nd K) → Fin f.nip → K) (i : M) : K :=
  (elems.map fun e => ∑ ip, ((if i = e.node (e.scs.il ip) then vE e ip else 0) -
    if i = e.node (e.scs.ir ip) then vE e ip else 0)).sum +
  (opens.map fun f => ∑ ip, if i = f.node (f.face.near ip) then vO f ip else 0).sum +
  (inflows.map fun f => ∑ ip, if i = f.node (f.face.node (f.face.loc ip)) then vI f ip else 0).sum

end Nalu.Vof
