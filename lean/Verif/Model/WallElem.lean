import Verif.Model.SurfaceForce
import Verif.Model.LegacyElem

/-!
# Wall functions of the element scheme

Models `kernel/MomentumWallFunctionElemKernel.C`, `AssembleMomentumElemWallFunctionSolverAlgoirthm.C`,
`AssembleMomentumElemWallFunctionProjectedSolverAlgorithm.C` and the assembly of `AssembleMomentumEdgeWallFunctionSolverAlgoirthm.C`, on one
boundary face.  `double` is `ℝ`; faces, nodal fields and wall data are those of the force post-processing (`Nalu.Force`), so that what the
momentum equation receives can be compared with what is reported.  An accumulator that starts at zero and is only added to is a finite sum.
-/

namespace Nalu.WallElem
open Nalu.Edge Nalu.Kernel Nalu.Force Nalu.Wall Nalu.Legacy

variable {M : Type*} {nd : ℕ}

/-- `MomentumWallFunctionElemKernel::execute` (kernel/MomentumWallFunctionElemKernel.C:88-158). -/
noncomputable def wallKernel (o : WallOpts) (W : WallData M nd) (F : Fields M nd) (f : Face M nd) (s : LocalSys (Fin f.nf × Fin nd) ℝ) :
    LocalSys (Fin f.nf × Fin nd) ℝ :=
  loop f.nip (fun ip s =>
    let near := f.near ip
    let area := Wall.aMag (f.area ip)
    let rhoBip := ∑ ic, f.shape ip ic * F.rho (f.node ic)
    let muBip := ∑ ic, f.shape ip ic * F.mu (f.node ic)
    let uBip : Fin nd → ℝ := fun j => ∑ ic, f.shape ip ic * F.u (f.node ic) j
    let uBcBip : Fin nd → ℝ := fun j => ∑ ic, f.shape ip ic * F.ubc (f.node ic) j
    let nrm : Fin nd → ℝ := fun j => f.area ip j / area
    let yplus := rhoBip * W.yp f ip * W.utau f ip / muBip
    let lam := if yplus > o.yplusCrit then rhoBip * o.kappa * W.utau f ip / Real.log (o.elog * yplus) * area
      else muBip / W.yp f ip * area
    loop nd (fun i s =>
      let uiTan := ∑ j, if i = j then (1 - nrm i * nrm j) * uBip j else -(nrm i * nrm j * uBip j)
      let uiBcTan := ∑ j, if i = j then (1 - nrm i * nrm j) * uBcBip j else -(nrm i * nrm j * uBcBip j)
      let s := loop nd (fun j s =>
        let ninj := nrm i * nrm j
        if i = j then loop f.nf (fun ic s => addL s (near, i) (ic, i) (lam * (1 - ninj) * f.shape ip ic)) s
        else loop f.nf (fun ic s => addL s (near, i) (ic, j) (-(lam * ninj * f.shape ip ic))) s) s
      addR s (near, i) (-(lam * (uiTan - uiBcTan)))) s) s

/-- The nearest-node version of the edge scheme (AssembleMomentumEdgeWallFunctionSolverAlgoirthm.C:158-231): nothing is interpolated. -/
noncomputable def wallEdge (o : WallOpts) (W : WallData M nd) (F : Fields M nd) (f : Face M nd) (s : LocalSys (Fin f.nf × Fin nd) ℝ) :
    LocalSys (Fin f.nf × Fin nd) ℝ :=
  loop f.nip (fun ip s =>
    let near := f.near ip
    let area := Wall.aMag (f.area ip)
    let nodeR := f.node near
    let rhoBip := F.rho nodeR
    let muBip := F.mu nodeR
    let nrm : Fin nd → ℝ := fun j => f.area ip j / area
    let yplus := rhoBip * W.yp f ip * W.utau f ip / muBip
    let lam := if yplus > o.yplusCrit then rhoBip * o.kappa * W.utau f ip / Real.log (o.elog * yplus) * area
      else muBip / W.yp f ip * area
    loop nd (fun i s =>
      let uiTan := ∑ j, if i = j then (1 - nrm i * nrm j) * F.u nodeR j else -(nrm i * nrm j * F.u nodeR j)
      let uiBcTan := ∑ j, if i = j then (1 - nrm i * nrm j) * F.ubc nodeR j else -(nrm i * nrm j * F.ubc nodeR j)
      let s := loop nd (fun j s =>
        let ninj := nrm i * nrm j
        if i = j then addL s (near, i) (near, i) (lam * (1 - ninj)) else addL s (near, i) (near, j) (-(lam * ninj))) s
      addR s (near, i) (-(lam * (uiTan - uiBcTan)))) s) s

/-- Flat face data of the legacy algorithm: `p_face_shape_function`, `areaVec`, `faceIpNodeMap`, `wallNormalDistanceBip`,
`wallFrictionVelocityBip`. -/
structure WallWs where
  shape : ℕ → ℝ
  areaVec : ℕ → ℝ
  near : ℕ → ℕ
  yp : ℕ → ℝ
  utau : ℕ → ℝ

/-- `AssembleMomentumElemWallFunctionSolverAlgorithm::execute` on the gathered vectors `p_density`, `p_viscosity`, `p_velocityNp1`,
`p_bcVelocity` (AssembleMomentumElemWallFunctionSolverAlgoirthm.C:200-280). -/
noncomputable def wallLegacy (o : WallOpts) (nf nip nd : ℕ) (w : WallWs) (rho mu u ubc : ℕ → ℝ) (s : Flat ℝ) : Flat ℝ :=
  loop nip (fun ip s =>
    let offSetAveraVec := ip * nd
    let offSetSF_face := ip * nf
    let localFaceNode := w.near ip
    let aMag := Real.sqrt (∑ j : Fin nd, w.areaVec (offSetAveraVec + j) * w.areaVec (offSetAveraVec + j))
    let rhoBip := ∑ ic : Fin nf, w.shape (offSetSF_face + ic) * rho ic
    let muBip := ∑ ic : Fin nf, w.shape (offSetSF_face + ic) * mu ic
    let uBip := fun j : Fin nd => ∑ ic : Fin nf, w.shape (offSetSF_face + ic) * u (ic * nd + j)
    let uBcBip := fun j : Fin nd => ∑ ic : Fin nf, w.shape (offSetSF_face + ic) * ubc (ic * nd + j)
    let nrm := fun j : Fin nd => w.areaVec (offSetAveraVec + j) / aMag
    let yp := w.yp ip
    let utau := w.utau ip
    let yplus := rhoBip * yp * utau / muBip
    let lam := if yplus > o.yplusCrit then rhoBip * o.kappa * utau / Real.log (o.elog * yplus) * aMag else muBip / yp * aMag
    loop nd (fun i s =>
      let indexR := localFaceNode * nd + i
      let rowR := indexR * nf * nd
      let uiTan := ∑ j, if i = j then (1 - nrm i * nrm j) * uBip j else -(nrm i * nrm j * uBip j)
      let uiBcTan := ∑ j, if i = j then (1 - nrm i * nrm j) * uBcBip j else -(nrm i * nrm j * uBcBip j)
      let s := loop nd (fun j s =>
        let ninj := nrm i * nrm j
        if i = j then loop nf (fun ic s => s.bumpL (rowR + ic * nd + i) (lam * (1 - ninj) * w.shape (offSetSF_face + ic))) s
        else loop nf (fun ic s => s.bumpL (rowR + ic * nd + j) (-(lam * ninj * w.shape (offSetSF_face + ic)))) s) s
      s.bumpR indexR (-(lam * (uiTan - uiBcTan)))) s) s

/-- `AssembleMomentumElemWallFunctionProjectedSolverAlgorithm::execute` (lines 296-372): right-hand side only, on the two-dimensional indices of the
other algorithms; `W.uProj` is the velocity interpolated in the owning element. -/
noncomputable def wallProjected (o : WallOpts) (W : WallData M nd) (F : Fields M nd) (f : Face M nd) (s : LocalSys (Fin f.nf × Fin nd) ℝ) :
    LocalSys (Fin f.nf × Fin nd) ℝ :=
  loop f.nip (fun ip s =>
    let near := f.near ip
    let area := Wall.aMag (f.area ip)
    let rhoBip := ∑ ic, f.shape ip ic * F.rho (f.node ic)
    let muBip := ∑ ic, f.shape ip ic * F.mu (f.node ic)
    let uBcBip : Fin nd → ℝ := fun j => ∑ ic, f.shape ip ic * F.ubc (f.node ic) j
    let nrm : Fin nd → ℝ := fun j => f.area ip j / area
    let utau := W.utau f ip
    let yplus := rhoBip * W.yp f ip * utau / muBip
    let lam0 := if yplus > o.yplusCrit then rhoBip * o.kappa * utau / Real.log (o.elog * yplus) * area
      else muBip / W.yp f ip * area
    let odeFac := W.odeFac f ip
    let om_odeFac := 1 - odeFac
    let lam := lam0 * om_odeFac + odeFac * rhoBip * utau * utau * area
    let uiTan : Fin nd → ℝ := fun i => ∑ j, if i = j then (1 - nrm i * nrm j) * W.uProj f ip j else -(nrm i * nrm j * W.uProj f ip j)
    let uiBcTan : Fin nd → ℝ := fun i => ∑ j, if i = j then (1 - nrm i * nrm j) * uBcBip j else -(nrm i * nrm j * uBcBip j)
    let uTangential := Real.sqrt (∑ i, (uiTan i - uiBcTan i) * (uiTan i - uiBcTan i))
    let normalizeFac := 1 / (om_odeFac + odeFac * uTangential)
    loop nd (fun i s => addR s (near, i) (-(lam * (uiTan i - uiBcTan i) * normalizeFac))) s) s

end Nalu.WallElem
