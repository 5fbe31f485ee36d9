import Verif.Model.WallElem
import Verif.Spec.LegacyElem

/-!
# What the wall-function assembly is compared with
-/

namespace Nalu.WallElem
open Nalu.Edge Nalu.Kernel Nalu.Force Nalu.Wall Nalu.Legacy

variable {M : Type*} {nd : ℕ}

/-- The flat face data hold the face and its wall data. -/
structure WallWs.Holds (w : WallWs) (f : Face M nd) (W : WallData M nd) : Prop where
  shape : ∀ (ip : Fin f.nip) (ic : Fin f.nf), w.shape (ip * f.nf + ic) = f.shape ip ic
  areaVec : ∀ (ip : Fin f.nip) (j : Fin nd), w.areaVec (ip * nd + j) = f.area ip j
  near : ∀ ip : Fin f.nip, w.near ip = f.near ip
  yp : ∀ ip : Fin f.nip, w.yp ip = W.yp f ip
  utau : ∀ ip : Fin f.nip, w.utau ip = W.utau f ip

/-- Shape functions of the shifted rule: a point sees its nearest node only. -/
def Lumped (f : Face M nd) : Prop := ∀ ip ic, f.shape ip ic = if ic = f.near ip then 1 else 0

/-- Nodal velocities changed by `d`. -/
def moved (F : Fields M nd) (d : M → Fin nd → ℝ) : Fields M nd := { F with u := fun m i => F.u m i + d m i }

/-- The velocity relative to the wall at the nodes of the face, without its component along the unit vector `n`. -/
def slip (n v : Fin nd → ℝ) (i : Fin nd) : ℝ := v i - (∑ j, n j * v j) * n i

/-- Euclidean length. -/
noncomputable def len (v : Fin nd → ℝ) : ℝ := Real.sqrt (∑ i, v i ^ 2)

/-- What one nearest node receives at the points of a face, each `g ip` a force. -/
def scattered (f : Face M nd) (g : Fin f.nip → Fin nd → ℝ) (n : Fin f.nf) (i : Fin nd) : ℝ :=
  ∑ ip, if n = f.near ip then g ip i else 0

end Nalu.WallElem
