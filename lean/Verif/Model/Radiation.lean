import Verif.Spec.ElemKernel
import Mathlib.Analysis.SpecialFunctions.Trigonometric.Inverse

/-!
# Participating media radiation

Models /repo/src/pmr: `RadiativeTransportEquationSystem.C`, `AssembleRadTransEdgeSolverAlgorithm.C`,
`AssembleRadTransEdgeUpwindSolverAlgorithm.C`, `AssembleRadTransWallSolverAlgorithm.C`,
`RadTransBlackBodyNodeSuppAlg.C`, `RadTransIsoScatteringNodeSuppAlg.C`, `RadTransAdvectionSUCVElemKernel.C`,
`RadTransAbsorptionBlackBodyElemKernel.C`, `RadTransIsotropicScatteringElemKernel.C`, `RadTransWallElemKernel.C`;
and the coupling `EnthalpyPmrSrcNodeSuppAlg.C`, `TemperaturePmrSrcNodeSuppAlg.C`,
`AssembleHeatCondIrradWallSolverAlgorithm.C`.

Simplifications: the quadrature set is over the real numbers, everything else over a linearly ordered field with a
parameter `pi`; the stabilisation time scale `tau`, a square root in the code, and the magnitude of an area vector
are part of the data; assembly in parallel is the ideal global assembly of `Nalu.Kernel.assembleWorks`.
-/

namespace Nalu.Rad
open Nalu.Edge Nalu.Kernel

/-! ## Quadrature set -/

/-- A point or direction. -/
structure V3 where
  x : ℝ
  y : ℝ
  z : ℝ

noncomputable section

/-- Dot product, norm and normalisation as written out in the code
(RadiativeTransportEquationSystem.C:263-297). -/
def V3.dot (a b : V3) : ℝ := a.x * b.x + a.y * b.y + a.z * b.z
/-- `ss` (RadiativeTransportEquationSystem.C:263, 271). -/
def V3.len (a : V3) : ℝ := Real.sqrt (a.x * a.x + a.y * a.y + a.z * a.z)
/-- Division by `ss` (RadiativeTransportEquationSystem.C:265-267, 272-274). -/
def V3.normalize (a : V3) : V3 := ⟨a.x / a.len, a.y / a.len, a.z / a.len⟩

/-- Three vertices `xs[3*t+0..2]`, `ys[..]`, `zs[..]`. -/
structure Tri where
  a : V3
  b : V3
  c : V3

/-- Basal triangle pointing up, inner loop body (RadiativeTransportEquationSystem.C:196-218). -/
def upTri (n j k : ℕ) : Tri :=
  let ds : ℝ := 1 / n
  let xx := 1 - j * ds
  let yy := 0
  let zz := 0 + j * ds
  ⟨⟨xx - k * ds, yy + k * ds, zz⟩, ⟨xx - (k + 1) * ds, yy + (k + 1) * ds, zz⟩,
    ⟨xx - (k + 1) * ds, yy + k * ds, zz + ds⟩⟩

/-- Basal triangle pointing down (RadiativeTransportEquationSystem.C:227-250). -/
def downTri (n j k : ℕ) : Tri :=
  let ds : ℝ := 1 / n
  let xx := 1 - (j + 1) * ds
  let yy := ds
  let zz := 0 + j * ds
  ⟨⟨xx - k * ds, yy + k * ds, zz⟩, ⟨xx - (k + 1) * ds, yy + k * ds, zz + ds⟩,
    ⟨xx - k * ds, yy + ((k : ℝ) - 1) * ds, zz + ds⟩⟩

/-- The triangles in the sequence in which their vertices are stored (RadiativeTransportEquationSystem.C:189-252);
`n` is the quadrature order. -/
def basal (n : ℕ) : List Tri :=
  ((List.range n).flatMap fun j => (List.range (n - j)).map fun k => upTri n j k) ++
  ((List.range (n - 1)).flatMap fun j => (List.range (n - j - 1)).map fun k => downTri n j k)

/-- Direction through the centroid (RadiativeTransportEquationSystem.C:258-267). -/
def Tri.dir (t : Tri) : V3 :=
  V3.normalize ⟨(t.a.x + t.b.x + t.c.x) / 3, (t.a.y + t.b.y + t.c.y) / 3, (t.a.z + t.b.z + t.c.z) / 3⟩

/-- Spherical excess (RadiativeTransportEquationSystem.C:269-319). -/
def Tri.weight (t : Tri) : ℝ :=
  let p := t.a.normalize
  let q := t.b.normalize
  let r := t.c.normalize
  let arc1 := Real.arccos (p.dot q)
  let arc2 := Real.arccos (q.dot r)
  let arc3 := Real.arccos (r.dot p)
  let ang1 := Real.arccos ((Real.cos arc1 - Real.cos arc2 * Real.cos arc3) / (Real.sin arc2 * Real.sin arc3))
  let ang2 := Real.arccos ((Real.cos arc2 - Real.cos arc3 * Real.cos arc1) / (Real.sin arc3 * Real.sin arc1))
  let ang3 := Real.arccos ((Real.cos arc3 - Real.cos arc1 * Real.cos arc2) / (Real.sin arc1 * Real.sin arc2))
  ang1 + ang2 + ang3 - Real.pi

/-- Rows 1 to 7 of `qsgn` (RadiativeTransportEquationSystem.C:176-179). -/
def qsgn : List V3 :=
  [⟨1, 1, -1⟩, ⟨1, -1, 1⟩, ⟨1, -1, -1⟩, ⟨-1, 1, 1⟩, ⟨-1, 1, -1⟩, ⟨-1, -1, 1⟩, ⟨-1, -1, -1⟩]

/-- An ordinate: direction `Sn_` and weight `weights_`. -/
structure Ordinate where
  s : V3
  w : ℝ

/-- First octant (RadiativeTransportEquationSystem.C:254-321). -/
def octant (n : ℕ) : List Ordinate := (basal n).map fun t => ⟨t.dir, t.weight⟩

/-- Reflected direction (RadiativeTransportEquationSystem.C:334-336). -/
def Ordinate.reflect (g : V3) (o : Ordinate) : Ordinate := ⟨⟨o.s.x * g.x, o.s.y * g.y, o.s.z * g.z⟩, o.w⟩

/-- `create_quadrature_set` in three dimensions (RadiativeTransportEquationSystem.C:163-340). -/
def quadrature (n : ℕ) : List Ordinate :=
  octant n ++ qsgn.flatMap fun g => (octant n).map (Ordinate.reflect g)

/-- Number of entries of `xs` written, and the size with which `xs` is allocated
(RadiativeTransportEquationSystem.C:182-184, 189-252). -/
def written (n : ℕ) : ℕ := 3 * (basal n).length
def allocated (nDim n : ℕ) : ℕ := nDim * n * n

end

variable {K : Type*} [Field K] [LinearOrder K] [IsStrictOrderedRing K]
variable {nn nip nf nd : ℕ}

/-! ## Edge based assembly -/

/-- Nodal fields read by the assembly: absorption and scattering coefficients, emission `radiation_source`, scalar
flux. -/
structure NodeData (K : Type*) where
  abs : K
  scat : K
  src : K
  G : K

/-- `sjaj` (AssembleRadTransEdgeUpwindSolverAlgorithm.C:125-129). -/
def sDot (Sk a : Fin nd → K) : K := ∑ j, Sk j * a j

/-- Geometry of an edge for one ordinate: area vector, coordinates of the two nodes, `tau`. -/
structure EdgeGeo (nd : ℕ) (K : Type*) where
  area : Fin nd → K
  xL : Fin nd → K
  xR : Fin nd → K
  tau : K

/-- Extinction at the middle of the edge (AssembleRadTransEdgeSolverAlgorithm.C:180-182). -/
def extIp (nL nR : NodeData K) : K := 1 / 2 * ((nL.abs + nL.scat) + (nR.abs + nR.scat))

/-- `residual` of the SUCV term (AssembleRadTransEdgeSolverAlgorithm.C:184-201). -/
def edgeResidual (pi : K) (Sk : Fin nd → K) (e : EdgeGeo nd K) (nL nR : NodeData K) (iL iR : K) : K :=
  extIp nL nR * (1 / 2) * (iL + iR) - 1 / 2 * (nL.src + nR.src) -
    1 / 2 * (nL.scat * nL.G + nR.scat * nR.G) / 4 * (1 / pi) +
    ∑ j, Sk j * (iR - iL) * e.area j * (1 / axdx e.area e.xL e.xR)

/-- `AssembleRadTransEdgeSolverAlgorithm::execute` for one edge (AssembleRadTransEdgeSolverAlgorithm.C:165-252):
rows and columns 0 (left) and 1 (right).  The code overwrites the scratch arrays, here what is written is added
to the arrays, which `assembleWorks` zeroes. -/
def edgeSucv (pi : K) (Sk : Fin nd → K) (e : EdgeGeo nd K) (nd' : Fin 2 → NodeData K) (I : Fin 2 → K)
    (s : LocalSys (Fin 2) K) : LocalSys (Fin 2) K :=
  let sjaj := sDot Sk e.area
  let inv := 1 / axdx e.area e.xL e.xR
  let f := 1 / 2 * sjaj
  let s := addL (addL (addL (addL s 0 0 f) 0 1 f) 1 0 (-f)) 1 1 (-f)
  let iIp := 1 / 2 * (I 0 + I 1)
  let s := addR (addR s 0 (-sjaj * iIp)) 1 (sjaj * iIp)
  let f := -e.tau * sjaj * sjaj * inv
  let s := addL (addL (addL (addL s 0 0 (-f)) 0 1 f) 1 0 f) 1 1 (-f)
  let f := -e.tau * sjaj * (1 / 2) * extIp (nd' 0) (nd' 1)
  let s := addL (addL (addL (addL s 0 0 f) 0 1 f) 1 0 (-f)) 1 1 (-f)
  let sucv := -e.tau * sjaj * edgeResidual pi Sk e (nd' 0) (nd' 1) (I 0) (I 1)
  addR (addR s 0 (-sucv)) 1 sucv

/-- `AssembleRadTransEdgeUpwindSolverAlgorithm::execute` for one edge
(AssembleRadTransEdgeUpwindSolverAlgorithm.C:120-147). -/
def edgeUpw (Sk area : Fin nd → K) (I : Fin 2 → K) (s : LocalSys (Fin 2) K) : LocalSys (Fin 2) K :=
  let sjaj := sDot Sk area
  let f := 1 / 2 * (sjaj + |sjaj|)
  let s := addL (addL s 0 0 f) 1 0 (-f)
  let f := 1 / 2 * (sjaj - |sjaj|)
  let s := addL (addL s 1 1 (-f)) 0 1 f
  let iIp := if sjaj > 0 then I 0 else I 1
  addR (addR s 0 (-sjaj * iIp)) 1 (sjaj * iIp)

/-- `RadTransBlackBodyNodeSuppAlg::node_execute` (RadTransBlackBodyNodeSuppAlg.C:63-79). -/
def nodeBlackBody (n : NodeData K) (vol : K) (I : Fin 1 → K) (s : LocalSys (Fin 1) K) : LocalSys (Fin 1) K :=
  addL (addR s 0 (-((n.abs + n.scat) * I 0 - n.src) * vol)) 0 0 ((n.abs + n.scat) * vol)

/-- `RadTransIsoScatteringNodeSuppAlg::node_execute` (RadTransIsoScatteringNodeSuppAlg.C:53-66). -/
def nodeScatter (pi : K) (n : NodeData K) (vol : K) (s : LocalSys (Fin 1) K) : LocalSys (Fin 1) K :=
  addR s 0 (n.scat * n.G / 4 * (1 / pi) * vol)

/-- A wall face: `shape_fcn` (or `shifted_shape_fcn`), exposed area vectors, `ipNodeMap`. -/
structure WallFace (nf nip nd : ℕ) (K : Type*) where
  shape : Fin nip → Fin nf → K
  area : Fin nip → Fin nd → K
  near : Fin nip → Fin nf

/-- `AssembleRadTransWallSolverAlgorithm::execute` for one face (AssembleRadTransWallSolverAlgorithm.C:163-202); the code
has `near ip = ip`. -/
def wallAlg (Sk : Fin nd → K) (f : WallFace nf nip nd K) (bc I : Fin nf → K) (s : LocalSys (Fin nf) K) :
    LocalSys (Fin nf) K :=
  loop nip (fun ip s =>
    let iBip := interp (f.shape ip) I
    let iBc := interp (f.shape ip) bc
    let ajsj := ∑ j, f.area ip j * Sk j
    if ajsj > 0 then
      addR (loop nf (fun ic s => addL s (f.near ip) ic (ajsj * f.shape ip ic)) s) (f.near ip) (-(iBip * ajsj))
    else addR s (f.near ip) (-(iBc * ajsj))) s

/-! ## Element based assembly -/

/-- Interpolated residual of the SUCV term (RadTransAdvectionSUCVElemKernel.C:125-199). -/
def elemResidual (pi : K) (Sk : Fin nd → K) (e : Scs nn nip nd K) (n : Fin nn → NodeData K) (I : Fin nn → K)
    (ip : Fin nip) : K :=
  (∑ ic, ∑ j, Sk j * e.dndx ip ic j * I ic) +
    interp (e.shape ip) (fun ic => (n ic).abs + (n ic).scat) * interp (e.shape ip) I -
    interp (e.shape ip) (fun ic => (n ic).src) -
    ∑ ic, e.shape ip ic * (n ic).scat * (n ic).G * (1 / pi / 4)

/-- `RadTransAdvectionSUCVElemKernel::execute` (RadTransAdvectionSUCVElemKernel.C:107-206); `tau` includes the factor
that turns the stabilisation off. -/
def elemSucv (pi : K) (Sk : Fin nd → K) (tau : Fin nip → K) (e : Scs nn nip nd K) (n : Fin nn → NodeData K)
    (I : Fin nn → K) (s : LocalSys (Fin nn) K) : LocalSys (Fin nn) K :=
  loop nip (fun ip s =>
    let sjaj := sDot Sk (e.area ip)
    let iScs := interp (e.shape ip) I
    let ext := interp (e.shape ip) (fun ic => (n ic).abs + (n ic).scat)
    let s := loop nn (fun ic s =>
      addL (addL s (e.il ip) ic (sjaj * e.shape ip ic)) (e.ir ip) ic (-(sjaj * e.shape ip ic))) s
    let s := addR (addR s (e.il ip) (-(iScs * sjaj))) (e.ir ip) (iScs * sjaj)
    let s := loop nn (fun ic s =>
      let s := addL (addL s (e.il ip) ic (-(tau ip) * sjaj * e.shape ip ic * ext)) (e.ir ip) ic
        (-(-(tau ip) * sjaj * e.shape ip ic * ext))
      let lhsfac := ∑ j, -(Sk j * e.dndx ip ic j)
      addL (addL s (e.il ip) ic (tau ip * sjaj * lhsfac)) (e.ir ip) ic (-(tau ip * sjaj * lhsfac))) s
    let residual := -(tau ip) * sjaj * elemResidual pi Sk e n I ip
    addR (addR s (e.il ip) (-residual)) (e.ir ip) residual) s

/-- `RadTransAbsorptionBlackBodyElemKernel::execute` (RadTransAbsorptionBlackBodyElemKernel.C:66-107). -/
def elemBlackBody (e : Scv nn nip K) (n : Fin nn → NodeData K) (I : Fin nn → K) (s : LocalSys (Fin nn) K) :
    LocalSys (Fin nn) K :=
  loop nip (fun ip s =>
    let iScv := interp (e.shape ip) I
    let ext := interp (e.shape ip) (fun ic => (n ic).abs + (n ic).scat)
    let src := interp (e.shape ip) (fun ic => (n ic).src)
    let s := addR s (e.node ip) (-((ext * iScv - src) * e.vol ip))
    loop nn (fun ic s => addL s (e.node ip) ic (e.shape ip ic * ext * e.vol ip)) s) s

/-- `RadTransIsotropicScatteringElemKernel::execute` (RadTransIsotropicScatteringElemKernel.C:66-90). -/
def elemScatter (pi : K) (e : Scv nn nip K) (n : Fin nn → NodeData K) (s : LocalSys (Fin nn) K) :
    LocalSys (Fin nn) K :=
  loop nip (fun ip s =>
    addR s (e.node ip) (interp (e.shape ip) (fun ic => (n ic).scat * (n ic).G) * (1 / pi / 4) * e.vol ip)) s

/-- `RadTransWallElemKernel::execute` (RadTransWallElemKernel.C:78-119). -/
def wallElem (Sk : Fin nd → K) (f : WallFace nf nip nd K) (bc I : Fin nf → K) (s : LocalSys (Fin nf) K) :
    LocalSys (Fin nf) K :=
  loop nip (fun ip s =>
    let iBip := interp (f.shape ip) I
    let iBc := interp (f.shape ip) bc
    let ajsj := ∑ j, f.area ip j * Sk j
    let fac : K := if ajsj > 0 then 1 else 0
    let s := loop nf (fun ic s => addL s (f.near ip) ic (ajsj * f.shape ip ic * fac)) s
    addR (addR s (f.near ip) (-(iBip * ajsj * fac))) (f.near ip) (-(iBc * ajsj * (1 - fac)))) s

/-! ## Quantities derived from the intensity -/

/-- `compute_radiation_source` at one node (RadiativeTransportEquationSystem.C:1078-1081). -/
def radiationSource (pi sb kappa T : K) : K := kappa * sb * T * T * T * T * (1 / pi)

/-- `compute_bc_intensity` at one node (RadiativeTransportEquationSystem.C:1032-1042). -/
def bcIntensity (pi sb eps tau T envT irr : K) : K :=
  1 / pi * (tau * sb * envT * envT * envT * envT + eps * sb * T * T * T * T + (1 - eps - tau) * irr)

/-- `initialize_intensity` at one node (RadiativeTransportEquationSystem.C:986-989). -/
def initIntensity (pi sb T : K) : K := 1 / pi * sb * T * T * T * T

/-- `divRadiativeHeatFlux` (RadiativeTransportEquationSystem.C:1470). -/
def divFlux (sb kappa T G : K) : K := kappa * (4 * sb * T * T * T * T - G)
/-- `divRadiativeHeatFluxLin` (RadiativeTransportEquationSystem.C:1471). -/
def divFluxLin (sb kappa T : K) : K := 16 * sb * kappa * T * T * T

/-- `TemperaturePmrSrcNodeSuppAlg::node_execute` (TemperaturePmrSrcNodeSuppAlg.C:49-62). -/
def temperaturePmr (divQ divQLin vol : K) (s : LocalSys (Fin 1) K) : LocalSys (Fin 1) K :=
  addL (addR s 0 (-(divQ * vol))) 0 0 (divQLin * vol)
/-- `EnthalpyPmrSrcNodeSuppAlg::node_execute` (EnthalpyPmrSrcNodeSuppAlg.C:49-65). -/
def enthalpyPmr (divQ divQLin cp vol : K) (s : LocalSys (Fin 1) K) : LocalSys (Fin 1) K :=
  addL (addR s 0 (-(divQ * vol))) 0 0 (divQLin / cp * vol)

/-- `AssembleHeatCondIrradWallSolverAlgorithm::execute` for one face (AssembleHeatCondIrradWallSolverAlgorithm.C:146-196);
`amag` is the magnitude of the area vector. -/
def heatCondIrrad (sigma : K) (f : WallFace nf nip nd K) (amag : Fin nip → K) (irr eps T : Fin nf → K)
    (s : LocalSys (Fin nf) K) : LocalSys (Fin nf) K :=
  loop nip (fun ip s =>
    let tB := interp (f.shape ip) T
    let s := addR s (f.near ip)
      (interp (f.shape ip) eps * (interp (f.shape ip) irr - sigma * tB ^ 4) * amag ip)
    let fac := 4 * sigma * interp (f.shape ip) eps * amag ip * tB ^ 3
    loop nf (fun ic s => addL s (f.near ip) ic (f.shape ip ic * fac)) s) s

/-! ## The sweep over the ordinates -/

/-- A wall face of the mesh for the irradiation, with the magnitudes of its area vectors. -/
structure Wall (M : Type*) (nd : ℕ) (K : Type*) where
  nf : ℕ
  nip : ℕ
  face : WallFace nf nip nd K
  node : Fin nf → M
  amag : Fin nip → K

/-- Fields of the equation system: `intensity_k`, `scalar_flux`, its old value, `radiative_heat_flux`,
`irradiation`. -/
structure State (M : Type*) (nd no : ℕ) (K : Type*) where
  I : Fin no → M → K
  G : M → K
  Gold : M → K
  q : M → Fin nd → K
  irr : M → K

variable {M : Type*} {no : ℕ}

/-- What `assemble_irradiation` adds to a node for one ordinate (RadiativeTransportEquationSystem.C:1350-1391), all
faces. -/
def irradAdd [DecidableEq M] (walls : List (Wall M nd K)) (w : K) (Sk : Fin nd → K) (I : M → K) (m : M) : K :=
  (walls.map fun b => ∑ ip, if m = b.node (b.face.near ip) then
    (let iBc := interp (b.face.shape ip) (fun a => I (b.node a))
     let dot := ∑ j, b.face.area ip j / b.amag ip * Sk j
     if dot > 0 then w * iBc * dot * b.amag ip else 0) else 0).sum

/-- `assemble_boundary_area` (RadiativeTransportEquationSystem.C:1200-1228). -/
def boundaryArea [DecidableEq M] (walls : List (Wall M nd K)) (m : M) : K :=
  (walls.map fun b => ∑ ip, if m = b.node (b.face.near ip) then b.amag ip else 0).sum

/-- One ordinate of the loop in `solve_and_update` (RadiativeTransportEquationSystem.C:859-889).  `solve` is assembly and
solution of the linear system: any function of the ordinate and the current fields. -/
def ordinateStep [DecidableEq M] (walls : List (Wall M nd K)) (w : Fin no → K) (S : Fin no → Fin nd → K)
    (solve : Fin no → State M nd no K → M → K) (k : Fin no) (st : State M nd no K) : State M nd no K :=
  let I' := solve k st
  { I := fun k' m => if k' = k then I' m else st.I k' m
    G := fun m => st.G m + I' m * w k
    Gold := st.Gold
    q := fun m j => st.q m j + I' m * S k j * w k
    irr := fun m => st.irr m + irradAdd walls (w k) (S k) I' m }

/-- One iteration of `solve_and_update` (RadiativeTransportEquationSystem.C:846-907): zero, all ordinates, normalise the
irradiation, save the scalar flux. -/
def sweep [DecidableEq M] (walls : List (Wall M nd K)) (w : Fin no → K) (S : Fin no → Fin nd → K)
    (solve : Fin no → State M nd no K → M → K) (st : State M nd no K) : State M nd no K :=
  let st := { st with G := fun _ => 0, q := fun _ _ => 0, irr := fun _ => 0 }
  let st := loop no (ordinateStep walls w S solve) st
  { st with irr := fun m => st.irr m / boundaryArea walls m, Gold := st.G }

/-- The iterations of `solve_and_update` (RadiativeTransportEquationSystem.C:842-923): at most `maxIt`, stopping after an
iteration that meets the tolerance. -/
def iterate [DecidableEq M] (walls : List (Wall M nd K)) (w : Fin no → K) (S : Fin no → Fin nd → K)
    (solve : Fin no → State M nd no K → M → K) (converged : State M nd no K → State M nd no K → Bool) :
    ℕ → State M nd no K → State M nd no K
  | 0, st => st
  | n + 1, st =>
    let st' := sweep walls w S solve st
    if converged st st' then st' else iterate walls w S solve converged n st'

/-! ## Assembly on a mesh -/

/-- The mesh of the edge based scheme: edges with their two nodes, dual volumes, nodal fields, wall faces, `intensity_bc`. -/
structure EdgeMesh (M : Type) (nd : ℕ) (K : Type*) where
  edges : List ((Fin 2 → M) × EdgeGeo nd K)
  vol : M → K
  data : M → NodeData K
  walls : List (Wall M nd K)
  bc : M → K

/-- Scheme on the edges: the SUCV or the upwind algorithm (RadiativeTransportEquationSystem.C:505-508). -/
def edgeKern {M : Type} (upw : Bool) (pi : K) (Sk : Fin nd → K) (g : EdgeMesh M nd K) (e : (Fin 2 → M) × EdgeGeo nd K)
    (I : Fin 2 → K) (s : LocalSys (Fin 2) K) : LocalSys (Fin 2) K :=
  if upw then edgeUpw Sk e.2.area I s else edgeSucv pi Sk e.2 (fun a => g.data (e.1 a)) I s

/-- Everything assembled for one ordinate with the edge based scheme (RadiativeTransportEquationSystem.C:499-539, 688):
edges, then the nodal sources, then the walls.  Without scattering the code leaves `nodeScatter` out; its coefficient is
then zero. -/
def edgeWorks {M : Type} (upw : Bool) (pi : K) (Sk : Fin nd → K) (g : EdgeMesh M nd K) (nodes : List M) :
    List (Work M K) :=
  (g.edges.map fun e => (⟨Fin 2, e.1, edgeKern upw pi Sk g e⟩ : Work M K)) ++
  (nodes.map fun m => (⟨Fin 1, fun _ => m, fun I s =>
    nodeScatter pi (g.data m) (g.vol m) (nodeBlackBody (g.data m) (g.vol m) I s)⟩ : Work M K)) ++
  (g.walls.map fun b => (⟨Fin b.nf, b.node, fun I s =>
    wallAlg Sk b.face (fun a => g.bc (b.node a)) I s⟩ : Work M K))

/-- An element of the mesh for the element based scheme. -/
structure Elem (M : Type) (nd : ℕ) (K : Type*) where
  nn : ℕ
  nip : ℕ
  nipv : ℕ
  node : Fin nn → M
  scs : Scs nn nip nd K
  scv : Scv nn nipv K
  tau : Fin nip → K

/-- The mesh of the element based scheme. -/
structure ElemMesh (M : Type) (nd : ℕ) (K : Type*) where
  elems : List (Elem M nd K)
  data : M → NodeData K
  walls : List (Wall M nd K)
  bc : M → K

/-- The three kernels of an element (RadiativeTransportEquationSystem.C:557-569). -/
def elemKern {M : Type} (pi : K) (Sk : Fin nd → K) (g : ElemMesh M nd K) (e : Elem M nd K) (I : Fin e.nn → K)
    (s : LocalSys (Fin e.nn) K) : LocalSys (Fin e.nn) K :=
  elemScatter pi e.scv (fun a => g.data (e.node a)) (elemBlackBody e.scv (fun a => g.data (e.node a)) I
    (elemSucv pi Sk e.tau e.scs (fun a => g.data (e.node a)) I s))

/-- Everything assembled for one ordinate with the element based scheme
(RadiativeTransportEquationSystem.C:543-573, 709). -/
def elemWorks {M : Type} (pi : K) (Sk : Fin nd → K) (g : ElemMesh M nd K) : List (Work M K) :=
  (g.elems.map fun e => (⟨Fin e.nn, e.node, elemKern pi Sk g e⟩ : Work M K)) ++
  (g.walls.map fun b => (⟨Fin b.nf, b.node, fun I s =>
    wallElem Sk b.face (fun a => g.bc (b.node a)) I s⟩ : Work M K))

/-- `compute_div_norm` over the ranks (RadiativeTransportEquationSystem.C:1452-1482): each rank has the change of the
scalar flux at the nodes it owns or shares. -/
noncomputable def fluxNorm (ranks : List (List ℝ)) (scaling : ℝ) : ℝ :=
  (ranks.map fun l => Real.sqrt (l.map fun d => d * d).sum).sum / scaling

end Nalu.Rad
